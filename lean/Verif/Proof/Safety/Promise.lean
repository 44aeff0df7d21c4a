import Verif.Proof.Safety.Accept
/-
A leader receives promises and synchronises followers.
-/
namespace Omni

variable {E S : Type}

/-- `F` and the leader of `n` (whose log is `lg`) agree on the first `j` positions. -/
def Common (G : Ghost E) (F : NodeId) (n : Ballot) (lg : Lg E) (j : Nat) : Prop :=
  ∃ l, l.Covers j ∧ l ≤ lg ∧ ((∃ na lgF l0, G.prec F n = some (na, lgF) ∧ G.init n = some l0 ∧ l ≤ lgF ∧ l ≤ l0) ∨
    (∃ x, G.acc F n = some x ∧ l ≤ x))

namespace Ctx
variable {C : Ctx E S} {G G' : Ghost E} {s s' : SP E S} {lg lg' : Lg E} {todo : NodeId → Option (Lg E)}

theorem LeadSt.init (h : C.LeadSt todo G s lg) : ∃ lgs m0, G.init s.ls.n_leader = some lgs ∧
    G.prec m0 s.ls.n_leader = some (s.ls.max_promise_meta.n_accepted, lgs) ∧ lgs.IdxOK s.ls.max_promise_meta.accepted_idx ∧
    lgs ≤ lg := by
  obtain ⟨lgs, m0, h1, h2, h3⟩ := h.lead.max
  refine ⟨lgs, m0, h1, h2, h3, ?_⟩
  obtain ⟨l0, h4, h5⟩ := h.reach.abs.init_le h.acc (by
    intro hx
    have := h.lead.own
    rw [hx] at this
    exact h.core.node.2 this.symm)
  rw [h1] at h4
  simp at h4
  subst h4
  exact h5

theorem LeadSt.acc_le (h : C.LeadSt todo G s lg) {F : NodeId} {a : Lg E} (ha : G.acc F s.ls.n_leader = some a) : a ≤ lg := by
  obtain ⟨p, h5, h6⟩ := h.reach.abs.le_prop ha
  rw [h.acc'] at h5
  simp at h5
  subst h5
  exact h6

/-- Positions everybody has accepted are common. -/
theorem LeadSt.common_trim (h : C.LeadSt todo G s lg) {F : NodeId} {m : PromiseMetaData}
    (hm : slot s.ls.promises_meta F = some (.promised m)) {c j : Nat} (hc : G.TrimOK C.cc c) (hj : j ≤ c) :
    Common G F s.ls.n_leader lg j := by
  obtain ⟨-, hF, hp⟩ := h.lead.prom F m hm
  obtain ⟨lgs, m0, hi1, -, -, hi4⟩ := h.init
  rcases hc.down hj with rfl | ⟨b, l, h1, h2⟩
  · refine ⟨{}, Lg.covers_zero _, Lg.bot_le _, ?_⟩
    rcases hp with ⟨-, a, -, h3, -⟩ | ⟨l, h3, -⟩
    · exact .inr ⟨a, h3, Lg.bot_le _⟩
    · exact .inl ⟨_, _, lgs, h3, hi1, Lg.bot_le _, Lg.bot_le _⟩
  · obtain ⟨a, ha1, ha2⟩ := h1 C.i h.core.node
    obtain ⟨x, hx1, hx2⟩ := h1 F hF
    have hb : b ≤ s.ls.n_leader := by
      have := h.core.disk.accMax b (by rw [ha1]; simp)
      rw [← h.core.mir.acc, h.lead.acc] at this
      exact this
    have hfix := h1.fixed C.hv
    rcases Ballot.lt_or_le b s.ls.n_leader with hlt | hle
    · have hl0 := h.reach.abs.fixed_le_init hfix hlt hi1
      refine ⟨l, h2, Lg.le_trans hl0 hi4, ?_⟩
      rcases hp with ⟨-, a', -, h3, -⟩ | ⟨l', h3, -⟩
      · exact .inr ⟨a', h3, h.reach.abs.fixed_le_acc hfix hlt h3⟩
      · exact .inl ⟨_, _, lgs, h3, hi1, h.reach.abs.fixed_le_prec hfix hx1 hx2 hlt h3, hl0⟩
    · have : b = s.ls.n_leader := Ballot.eq_of_le_of_le (h.reach.abs.good _ _ (by rw [ha1]; simp))
        (h.reach.abs.good _ _ (by rw [h.acc]; simp)) hb hle
      subst this
      exact ⟨l, h2, Lg.le_trans ha2 (h.acc_le ha1), .inr ⟨x, hx1, hx2⟩⟩

/-- The index from which a follower is synchronised. -/
theorem LeadSt.common_sync (h : C.LeadSt todo G s lg) {F : NodeId} {r : Nat × Nat} (hr : SP.sync_indexes s.ls F = some r) :
    Common G F s.ls.n_leader lg r.1 := by
  simp only [SP.sync_indexes] at hr
  cases hm : s.ls.get_promise_meta F with
  | none => rw [hm] at hr; simp at hr
  | some m =>
  rw [hm] at hr
  have hslot : slot s.ls.promises_meta F = some (.promised m) := by
    simp only [LeaderState.get_promise_meta] at hm
    split at hm
    · rename_i m' hx; simp at hm; subst hm; exact hx
    · simp at hm
  obtain ⟨hpid, hF, hp⟩ := h.lead.prom F m hslot
  obtain ⟨lgs, m0, hi1, hi2, hi3, hi4⟩ := h.init
  simp only [LeaderState.get_decided_idx, hpid, hslot, Option.some.injEq] at hr
  subst hr
  simp only
  split
  · rename_i hna
    rcases hp with ⟨-, a, l, h1, h2, h3, h4⟩ | ⟨l, h1, -⟩
    · exact ⟨l, h3.covers, Lg.le_trans h2 (h.acc_le h1), .inr ⟨a, h1, h2⟩⟩
    · have := (h.reach.abs.prec _ _ _ _ h1).2.1
      rw [hna] at this
      exact absurd this (Ballot.lt_irrefl _)
  · rename_i hna
    obtain ⟨l, h1, h2, h3⟩ := hp.resolve_left (fun hx => hna hx.1)
    obtain ⟨-, hlt, hacc, -⟩ := h.reach.abs.prec _ _ _ _ h1
    split
    · rename_i hmax
      obtain ⟨-, -, hacc0, -⟩ := h.reach.abs.prec _ _ _ _ hi2
      rw [← hmax] at hacc0
      obtain ⟨p, hp1, hp2⟩ := h.reach.abs.le_prop hacc
      obtain ⟨p', hp3, hp4⟩ := h.reach.abs.le_prop hacc0
      rw [hp1] at hp3; simp at hp3; subst hp3
      by_cases hle : m.accepted_idx ≤ s.ls.max_promise_meta.accepted_idx
      · have := Lg.le_of_idx hp2 hp4 h2 hi3 hle
        exact ⟨l, h2.covers.down (Nat.min_le_right _ _), Lg.le_trans this hi4, .inl ⟨_, _, lgs, h1, hi1, Lg.le_refl _, this⟩⟩
      · have := Lg.le_of_idx hp4 hp2 hi3 h2 (by omega)
        exact ⟨lgs, hi3.covers.down (Nat.min_le_left _ _), hi4, .inl ⟨_, _, lgs, h1, hi1, this, Lg.le_refl _⟩⟩
    · rcases h3 with h3 | ⟨b, l1, h4, h5, h6, h7⟩
      · rw [h3]
        exact ⟨{}, Lg.covers_zero _, Lg.bot_le _, .inl ⟨_, _, lgs, h1, hi1, Lg.bot_le _, Lg.bot_le _⟩⟩
      · have := h.reach.abs.fixed_le_init (h5.fixed C.hv) (Ballot.lt_of_le_of_lt h4 hlt) hi1
        exact ⟨l1, h6, Lg.le_trans this hi4, .inl ⟨_, _, lgs, h1, hi1, h7, this⟩⟩

theorem send_accsync_sat [SnapOps E S] (h : C.LeadSt todo G s lg) {F : NodeId} {m : PromiseMetaData} (hF : F ≠ C.i)
    (hm : slot s.ls.promises_meta F = some (.promised m))
    (hdie : (∃ x, slot s.ls.latest_accept_meta F = some (some x)) → ∀ q, slot s.ls.follower_seq_nums F = some q →
      C.allow.die s.ls.n_leader F (q.session + 1))
    (hw : ∀ b k a, slot s.ls.latest_accept_meta F = some (some (b, k)) → s.outgoing[k]? = some ⟨C.i, F, .acceptDecide a⟩ →
      Waits C.pre s.outgoing G s.ls.n_leader F (some lg) a) :
    M.Sat (SP.send_accsync F) s
      (fun _ s' => Same s s' ∧ s'.ls.latest_accept_meta = s.ls.latest_accept_meta ∧
        ∃ G', C.LeadSt (fun X => if X = F then some lg else todo X) G' s' lg) C.Bad := by
  unfold SP.send_accsync
  rw [M.sat_bind, M.sat_get, M.sat_bind, M.sat_ofPan]
  refine ⟨fun r hr => ?_, fun _ => h.bad⟩
  rw [M.sat_bind, M.sat_ofPan]
  refine ⟨fun y hy => ?_, fun _ => h.bad⟩
  rw [M.sat_bind, SP.sat_onLS]
  refine ⟨fun ls1 hls1 => ?_, fun _ => h.bad⟩
  rw [M.sat_bind, SP.sat_onLS']
  refine ⟨fun r2 hr2 => ?_, fun _ => h.bad⟩
  rw [SP.sat_send]
  simp only [LeaderState.increment_seq_num_session] at hls1
  split at hls1
  · simp at hls1
  rename_i q0 hq0
  split at hls1
  · simp at hls1
  rename_i w1 hw1
  simp at hls1
  subst hls1
  obtain ⟨-, -, -, hw11, hw12⟩ := setSlot_spec hw1
  obtain ⟨q1, w, hq1, rfl, hwF, hwo⟩ := next_seq hr2
  simp only [hw11, Option.some.injEq] at hq1
  subst hq1
  simp only at hwF hwo ⊢
  have hcom := h.common_sync hr
  have hlgk : lg.Covers r.1 := by
    obtain ⟨l, h1, h2, -⟩ := hcom
    exact h1.mono h2
  obtain ⟨y1, y2, y3, y4⟩ := create_log_sync_spec h.core hlgk hy
  refine ⟨⟨rfl, rfl, rfl⟩, trivial, _, lead_send (v := lg) (w := w) (w2 := s.ls.latest_accept_meta)
    (q := { session := q0.session + 1, counter := 0 + 1 }) h hF hq0 ?_ hwF ?_ (fun _ _ => rfl)
    (D := ∃ x, slot s.ls.latest_accept_meta F = some (some x)) (fun hx => ⟨Nat.lt_succ_self _, hdie hx q0 hq0⟩)
    (fun b k hbk => .inl ⟨hbk, .inr ⟨⟨_, hbk⟩, fun a ha => hw b k a hbk ha⟩⟩) rfl (fun q' => h.endLe F q') (Lg.le_refl _)
    (fun _ h2 => by simp at h2) (fun _ _ hq => by simp only [PaxosMsg.syncOf, Option.some.injEq, Prod.mk.injEq] at hq; rw [← hq.2]) fun _ => ?_⟩
  · exact .inl (Nat.lt_succ_self _)
  · intro X hX
    rw [hwo X hX, hw12 X hX]
  · simp only [MsgBody]
    rw [Ghost.bump_at]
    obtain ⟨lgs, m0, hi1, -, -, hi4⟩ := h.init
    refine ⟨by simp, y1, y2, y3, ⟨lgs, hi1, hi4⟩, ?_, ?_⟩
    · have := h.core.disk.dec
      rw [← h.core.mir.acc, h.lead.acc, ← h.core.mir.dec] at this
      exact this.mono Ghost.kill_bump_mono
    · rcases y4 with y4 | ⟨-, y4⟩ | ⟨y4, y5⟩
      · exact .inl y4
      · rw [y4]; exact .inr hcom
      · exact .inr (h.common_trim hm (h.core.disk.snap y5) y4)

/-- Promise bookkeeping in the Accept phase. -/
theorem handle_promise_accept_inv [SnapOps E S] (hR : C.Reach G) (hC : C.CoreC G s lg) (hr : RoleInv C.cc C.i C.pre G s lg)
    (hT : C.Trail s) (h1 : s.role = .leader) (h2 : s.phase = .accept) {p : Promise E S} {frm : NodeId} (hN : Node C.cc frm)
    (hne : frm ≠ C.i) (hb : MsgBody C.cc G frm C.i (.promise p))
    (hguard : p.n = s.ls.n_leader → (∃ x, slot s.ls.latest_accept_meta frm = some (some x)) → ∀ q,
      slot s.ls.follower_seq_nums frm = some q → C.allow.die s.ls.n_leader frm (q.session + 1)) :
    M.Sat (SP.handle_promise_accept p frm) s (fun _ => C.Inv) C.Bad := by
  unfold SP.handle_promise_accept
  rw [M.sat_bind, M.sat_get, M.sat_ite]
  refine ⟨fun hn => ?_, fun _ => ⟨G, hR, ⟨lg, hC, hr⟩, hT⟩⟩
  have h := LeadSt.of hR hC hr hT h1 h2
  rw [M.sat_bind, SP.sat_onLS']
  refine ⟨fun ⟨ls, maj⟩ hls => ?_, fun _ => h.bad⟩
  simp only [LeaderState.set_promise, LeaderState.update_max, Bool.false_and, Bool.false_eq_true, if_false] at hls
  split at hls
  · simp at hls
  rename_i v hv
  simp only [Option.some.injEq, Prod.mk.injEq] at hls
  obtain ⟨rfl, -⟩ := hls
  obtain ⟨-, -, -, hv1, hv2⟩ := setSlot_spec hv
  obtain ⟨b1, b2, -⟩ := hb
  rw [hn] at b2
  have hl := h.lead
  have h3 : C.LeadSt (fun X => if X = frm then none else some lg) G { s with ls := { s.ls with promises_meta := v } } lg := by
    refine ⟨hR, Core.congr hC rfl rfl rfl rfl rfl rfl rfl rfl (Nat.le_refl _), ⟨hl.ldr, hl.own, hl.acc, hl.batch, hl.max, ?_, ?_, hl.cur, hl.link, ?_, hl.dead, hl.accs⟩,
      hT, h1, h2⟩
    · intro F m hm
      by_cases hF : F = frm
      · subst hF
        simp only [hv1, Option.some.injEq, PromiseState.promised.injEq] at hm
        subst hm
        exact ⟨rfl, hN, b2⟩
      · simp only [hv2 F hF] at hm
        exact hl.prom F m hm
    · intro F m l q hF hm ht hq
      by_cases hFf : F = frm
      · simp [hFf] at ht
      · simp only [hFf, if_false] at ht
        simp only [hv2 F hFf] at hm
        exact hl.ends F m l q hF hm ht hq
    · intro F b k hk
      by_cases hFf : F = frm
      · subst hFf
        obtain ⟨h4, h5, -, a, h6, h7, h8, -⟩ := hl.mets F b k hk
        exact ⟨h4, h5, .inl ⟨_, hv1⟩, a, h6, h7, h8, .inl (by simp)⟩
      · simp only [hFf, if_false]
        obtain ⟨h4, h5, h9, h6⟩ := hl.mets F b k hk
        exact ⟨h4, h5, h9.imp (fun ⟨m, hm⟩ => ⟨m, (hv2 F hFf).trans hm⟩) id, h6⟩
  refine M.sat_mono (send_accsync_sat h3 hne hv1 (hguard hn) fun b k a hbk ha => ?_) (fun _ s' hx => ?_) fun _ h => h
  · obtain ⟨-, -, -, a', h4, -, -, h5⟩ := hl.mets frm b k hbk
    rw [show s.outgoing[k]? = _ from ha] at h4
    simp only [Option.some.injEq, PaxosMessage.mk.injEq, PaxosMsg.acceptDecide.injEq, true_and] at h4
    subst h4
    exact h5
  obtain ⟨-, -, G', hx⟩ := hx
  have : (fun X => if X = frm then some lg else if X = frm then none else some lg) = fun _ => some lg := by
    funext X; split <;> rfl
  rw [this] at hx
  exact hx.inv

/-- What the metadata of the maximal promise says. -/
theorem prep_prom {l1 l2 : Lg E} {n na : Ballot} {a b i j : Nat} (hA : Abs C.cc G) (h1 : G.prec a n = some (na, l1)) (h2 : G.prec b n = some (na, l2))
    (hi : l1.IdxOK i) (hj : l2.IdxOK j) (h : i ≤ j) : l1 ≤ l2 := by
  obtain ⟨-, -, ha, -⟩ := hA.prec _ _ _ _ h1
  obtain ⟨-, -, hb, -⟩ := hA.prec _ _ _ _ h2
  obtain ⟨p, hp1, hp2⟩ := hA.le_prop ha
  obtain ⟨p', hp3, hp4⟩ := hA.le_prop hb
  rw [hp1] at hp3; simp at hp3; subst hp3
  exact Lg.le_of_idx hp2 hp4 hi hj h

/-- A promise is recorded in the Prepare phase. -/
theorem set_promise_prep (hR : C.Reach G) (hC : C.CoreC G s lg) (hP : LeadPrep C.cc C.i G s lg)
    {p : Promise E S} {frm : NodeId} (hN : Node C.cc frm) (hn : p.n = s.ls.n_leader)
    (hb : MsgBody C.cc G frm C.i (.promise p)) {ls : LeaderState E S} {maj : Bool}
    (hls : s.ls.set_promise p frm true = some (ls, maj)) :
    C.CoreC G { s with ls := ls } lg ∧ LeadPrep C.cc C.i G { s with ls := ls } lg ∧
      maj = ls.quorum.is_prepare_quorum ls.num_promised := by
  obtain ⟨b1, b2, b3⟩ := hb
  have hA := hR.abs
  have hnoacc : G.acc p.n.pid p.n = none := by rw [hn, hP.own]; exact hP.noacc
  obtain ⟨naL, lgL, lg', c1, c2, c3⟩ := b3 hnoacc
  rw [hn] at b2 c1 c2
  rw [hP.own] at c1
  -- the leader's own promise
  have hown : G.prec C.i s.ls.n_leader = some (s.ist.cache.accepted_round, lg) := by
    have hne : s.ist.storage.prom ≠ s.ist.storage.acc_round.getD {} := by
      intro hx
      have := hC.disk.acc
      rw [← hx, ← hC.mir.prom, ← hP.ldr, hP.noacc] at this
      simp at this
    have := hC.disk.precCur hne
    rw [← hC.mir.prom, ← hP.ldr, ← hC.mir.acc] at this
    exact this
  rw [hown] at c1
  simp only [Option.some.injEq, Prod.mk.injEq] at c1
  obtain ⟨rfl, rfl⟩ := c1
  have b2' : lg'.IdxOK p.accepted_idx ∧ G.DecOK C.cc p.n_accepted lg' p.decided_idx := by
    rcases b2 with ⟨-, a, l, h1, -⟩ | ⟨l, h1, h2, h3⟩
    · exfalso
      obtain ⟨q, h2, -⟩ := hA.le_prop h1
      rw [hP.own, hP.noacc] at h2
      simp at h2
    · rw [c2] at h1
      simp only [Option.some.injEq, Prod.mk.injEq, true_and] at h1
      subst h1
      exact ⟨h2, h3⟩
  obtain ⟨d1, d2⟩ := b2'
  obtain ⟨lgs, ⟨m0, e1⟩, e2, e3, e4, e5⟩ := hP.max
  have gp : GoodB C.cc p.n_accepted := by
    obtain ⟨-, -, h, -⟩ := hA.prec _ _ _ _ c2
    exact hA.good _ _ (by rw [h]; simp)
  have gm : GoodB C.cc s.ls.max_promise_meta.n_accepted := by
    obtain ⟨-, -, h, -⟩ := hA.prec _ _ _ _ e1
    exact hA.good _ _ (by rw [h]; simp)
  simp only [LeaderState.set_promise] at hls
  split at hls
  · simp at hls
  rename_i v hv
  simp only [Option.some.injEq, Prod.mk.injEq] at hls
  obtain ⟨rfl, rfl⟩ := hls
  obtain ⟨-, -, -, hv1, hv2⟩ := setSlot_spec hv
  have hum : (s.ls.update_max ⟨p.n_accepted, p.accepted_idx, p.decided_idx, frm⟩ p.log_sync true).promises_meta = s.ls.promises_meta := by
    simp only [LeaderState.update_max]; split <;> rfl
  rw [hum] at hv2
  have hself : ∃ m, slot v C.i = some (.promised m) ∧ m.decided_idx = s.ist.cache.decided_idx := by
    obtain ⟨m, h1, h2⟩ := hP.self
    refine ⟨m, ?_, h2⟩
    rw [hv2 C.i fun e => b1 (by rw [hn, hP.own, e])]; exact h1
  by_cases hgt : (⟨p.n_accepted, p.accepted_idx, p.decided_idx, frm⟩ : PromiseMetaData).gt s.ls.max_promise_meta = true
  · simp only [LeaderState.update_max, Bool.true_and, hgt, if_true]
    have hg : s.ls.max_promise_meta.n_accepted < p.n_accepted ∨
        (p.n_accepted = s.ls.max_promise_meta.n_accepted ∧ s.ls.max_promise_meta.accepted_idx < p.accepted_idx) := by
      simp only [PromiseMetaData.gt] at hgt
      split at hgt
      · simp at hgt
      · simpa using hgt
    have hles : p.n_accepted = s.ls.max_promise_meta.n_accepted → s.ls.max_promise_meta.accepted_idx < p.accepted_idx → lgs ≤ lg' := by
      intro h1 h2
      rw [h1] at c2
      exact prep_prom hA e1 c2 e2 d1 (Nat.le_of_lt h2)
    refine ⟨Core.congr hC rfl rfl rfl rfl rfl rfl rfl rfl (Nat.le_refl _), ⟨hP.ldr, hP.own, hP.noacc, hP.batch, hself, hP.seqs, hP.metas, hP.accs, ?_⟩, by simp⟩
    refine ⟨lg', ⟨frm, c2⟩, d1, ?_, ?_, ?_⟩
    · cases hy : p.log_sync with
      | some y => rw [hy] at c3; exact .inr ⟨y, rfl, c3⟩
      | none =>
        rw [hy] at c3
        left
        have hle : s.ist.cache.accepted_round ≤ p.n_accepted := by
          have h1 : s.ist.cache.accepted_round ≤ s.ls.max_promise_meta.n_accepted := by
            rcases e4 with e4 | e4
            · exact Ballot.le_of_lt e4
            · rw [e4.1]; exact Ballot.le_refl _
          rcases hg with hg | hg
          · exact Ballot.le_trans h1 (Ballot.le_of_lt hg)
          · rw [hg.1]; exact h1
        rcases c3 with c3 | ⟨c3, c4⟩
        · exact absurd (Ballot.lt_of_lt_of_le c3 hle) (Ballot.lt_irrefl _)
        · refine ⟨rfl, c3, ?_⟩
          rcases hg with hg | ⟨hg1, hg2⟩
          · exfalso
            rcases e4 with e4 | e4
            · rw [← c3] at e4; exact Ballot.lt_irrefl _ (Ballot.lt_of_lt_of_le hg (Ballot.le_of_lt e4))
            · rw [← e4.1, ← c3] at hg; exact Ballot.lt_irrefl _ hg
          · have h1 := hles hg1 hg2
            rcases e4 with e4 | e4
            · rw [← c3, hg1] at e4; exact absurd e4 (Ballot.lt_irrefl _)
            · exact Lg.le_antisymm c4 (Lg.le_trans e4.2 h1)
    · show s.ist.cache.accepted_round < p.n_accepted ∨ (s.ist.cache.accepted_round = p.n_accepted ∧ lg ≤ lg')
      rcases hg with hg | ⟨hg1, hg2⟩
      · left
        rcases e4 with e4 | e4
        · exact Ballot.lt_of_lt_of_le e4 (Ballot.le_of_lt hg)
        · rw [e4.1]; exact hg
      · rw [hg1]
        exact e4.imp id fun ⟨h1, h2⟩ => ⟨h1, Lg.le_trans h2 (hles hg1 hg2)⟩
    · intro F m hm
      by_cases hF : F = frm
      · subst hF
        simp only [hv1, Option.some.injEq, PromiseState.promised.injEq] at hm
        subst hm
        exact ⟨rfl, hN, lg', c2, d1, d2, .inr ⟨rfl, Lg.le_refl _⟩⟩
      · simp only [hv2 F hF] at hm
        obtain ⟨h1, h2, l, h3, h4, h5, h6⟩ := e5 F m hm
        refine ⟨h1, h2, l, h3, h4, h5, ?_⟩
        show m.n_accepted < p.n_accepted ∨ (m.n_accepted = p.n_accepted ∧ l ≤ lg')
        rcases hg with hg | ⟨hg1, hg2⟩
        · left
          rcases h6 with h6 | h6
          · exact Ballot.lt_of_lt_of_le h6 (Ballot.le_of_lt hg)
          · rw [h6.1]; exact hg
        · rw [hg1]
          exact h6.imp id fun ⟨h7, h8⟩ => ⟨h7, Lg.le_trans h8 (hles hg1 hg2)⟩
  · have hgf : (⟨p.n_accepted, p.accepted_idx, p.decided_idx, frm⟩ : PromiseMetaData).gt s.ls.max_promise_meta = false := by
      simpa using hgt
    simp only [LeaderState.update_max, Bool.true_and, hgf, Bool.false_eq_true, if_false]
    refine ⟨Core.congr hC rfl rfl rfl rfl rfl rfl rfl rfl (Nat.le_refl _), ⟨hP.ldr, hP.own, hP.noacc, hP.batch, hself, hP.seqs, hP.metas, hP.accs, ?_⟩, by simp⟩
    refine ⟨lgs, ⟨m0, e1⟩, e2, e3, e4, ?_⟩
    intro F m hm
    by_cases hF : F = frm
    · subst hF
      simp only [hv1, Option.some.injEq, PromiseState.promised.injEq] at hm
      subst hm
      refine ⟨rfl, hN, lg', c2, d1, d2, ?_⟩
      show p.n_accepted < s.ls.max_promise_meta.n_accepted ∨ (p.n_accepted = s.ls.max_promise_meta.n_accepted ∧ lg' ≤ lgs)
      have hidx : p.n_accepted = s.ls.max_promise_meta.n_accepted → p.accepted_idx ≤ s.ls.max_promise_meta.accepted_idx → lg' ≤ lgs := by
        intro h1 h2
        rw [h1] at c2
        exact prep_prom hA c2 e1 d1 e2 h2
      simp only [PromiseMetaData.gt] at hgf
      split at hgf
      · rename_i hc
        exact .inr ⟨hc.1, hidx hc.1 (Nat.le_of_eq hc.2.1)⟩
      · simp only [decide_eq_false_iff_not, not_or, not_and] at hgf
        rcases Ballot.lt_or_le p.n_accepted s.ls.max_promise_meta.n_accepted with hlt | hle
        · exact .inl hlt
        · have := Ballot.eq_of_le_of_le gp gm (Ballot.not_lt.1 hgf.1) hle
          exact .inr ⟨this, hidx this (by have := hgf.2 this; omega)⟩
    · simp only [hv2 F hF] at hm
      exact e5 F m hm

end Ctx
end Omni
