import Verif.Proof.Safety.Promise
/-
A leader with a quorum of promises starts the Accept phase.
-/
namespace Omni

variable {E S : Type}

theorem foldl_max_mem (l : List Nat) (a : Nat) : l.foldl max a = a ∨ l.foldl max a ∈ l := by
  induction l generalizing a with
  | nil => exact .inl rfl
  | cons x r ih =>
    simp only [List.foldl_cons]
    rcases ih (max a x) with h | h
    · rw [h]
      rcases Nat.le_total a x with hx | hx
      · right; rw [Nat.max_eq_right hx]; simp
      · left; rw [Nat.max_eq_left hx]
    · exact .inr (List.mem_cons_of_mem _ h)

theorem mem_promisedDecided {l : List PromiseState} {d : Nat} (h : d ∈ LeaderState.promisedDecided l) :
    ∃ F m, slot l F = some (.promised m) ∧ m.decided_idx = d := by
  suffices hx : ∃ (k : Nat) (m : PromiseMetaData), l[k]? = some (.promised m) ∧ m.decided_idx = d by
    obtain ⟨k, m, h1, h2⟩ := hx
    exact ⟨k + 1, m, h1, h2⟩
  induction l with
  | nil => simp [LeaderState.promisedDecided] at h
  | cons x r ih =>
    have tail : d ∈ LeaderState.promisedDecided r → ∃ (k : Nat) (m : PromiseMetaData), (x :: r)[k]? = some (.promised m) ∧ m.decided_idx = d := by
      intro h
      obtain ⟨k, m, h1, h2⟩ := ih h
      exact ⟨k + 1, m, by simpa using h1, h2⟩
    cases x with
    | promised m =>
      simp only [LeaderState.promisedDecided] at h
      rcases List.mem_cons.1 h with h | h
      · exact ⟨0, m, by simp, h.symm⟩
      · exact tail h
    | notPromised => exact tail h
    | promisedHigher => exact tail h

namespace Ctx
variable {C : Ctx E S} {G G' : Ghost E} {s s' : SP E S} {lg lg' : Lg E} {todo : NodeId → Option (Lg E)}

theorem LeadSt.frame (h : C.LeadSt todo G s lg) (bp : List E) (bs : Option StopSign)
    (hb : bp.countP G.mark ≤ s.buffered_proposals.countP G.mark) :
    C.LeadSt todo G { s with buffered_proposals := bp, buffered_stopsign := bs } lg := by
  have hl := h.lead
  exact ⟨h.reach, Core.congr h.core rfl rfl rfl rfl rfl rfl rfl rfl
      (by have h1 : ({ s with buffered_proposals := bp, buffered_stopsign := bs } : SP E S).own G.mark = s.own G.mark := rfl
          simp only [SP.tok, h1]
          omega),
    ⟨hl.ldr, hl.own, hl.acc, hl.batch, hl.max, hl.prom, hl.ends, hl.cur, hl.link, hl.mets, hl.dead, hl.accs⟩, h.trail, h.role, h.phase⟩

theorem LeadSt.append0 (h : C.LeadSt todo G s lg) {es : List E} (hss : lg.ss = none)
    (ht : s.tok G.mark + G.count es ≤ G.hold C.i) :
    ∃ G', C.LeadSt todo G' { s with ist := s.ist.appended es } ⟨lg.es ++ es, lg.ss⟩ := by
  obtain ⟨G', hE, hR, hC, hT⟩ := lead_append h.reach h.core h.trail h.lead (.inr hss) ht
  exact ⟨G', hR, hC, LeadAcc.ext h.lead hE rfl rfl (fun hx => absurd hss hx), hT, h.role, h.phase⟩

/-- The state of a leader as it will be in the Accept phase. -/
def Acc (s : SP E S) : SP E S := { s with role := .leader, phase := .accept }

/-- Synchronised to the log chosen from the promises. -/
theorem majority_start (hR : C.Reach G) (hC : C.CoreC G s lg) (hP : LeadPrep C.cc C.i G s lg) (hT : C.Trail s)
    (hq : s.ls.quorum.is_prepare_quorum s.ls.num_promised = true) :
    ∃ lgs, SyncTo lg lgs s.ls.max_promise_sync ∧ ∀ (ist : IStore E S), Synced s.ist s.ls.n_leader s.ls.get_max_decided_idx lgs ist →
      ∃ G', C.LeadSt (fun _ => none) G' { s with ls := { s.ls with max_promise_sync := none }, ist := ist, role := .leader, phase := .accept } lgs := by
  have hA := hR.abs
  obtain ⟨lgs, ⟨m0, e1⟩, e2, e3, e4, e5⟩ := hP.max
  refine ⟨lgs, ?_, fun ist hS => ?_⟩
  · rcases e3 with ⟨h1, -, h2⟩ | ⟨y, h1, h2, h3, h4, h5⟩
    · rw [h1]; exact h2
    · rw [h1]
      refine ⟨h2, h3, h4, h5.imp id ?_⟩
      rintro ⟨l, h6, h7, h8⟩
      exact Lg.take_eq h7 h8 h6
  · have hn0 : s.ls.n_leader ≠ {} := by
      intro hx
      have := hP.own
      rw [hx] at this
      exact hC.node.2 this.symm
    have hprom : s.ist.storage.prom = s.ls.n_leader := by rw [hP.ldr, hC.mir.prom]
    have hpr : G.prec C.i s.ls.n_leader ≠ none := by
      have := prec_prom hR hC (by rw [hprom]; exact hn0)
      rw [hprom] at this
      exact this
    have hnoacc : G.acc s.ls.n_leader.pid s.ls.n_leader = none := by rw [hP.own]; exact hP.noacc
    have hinit := Ghost.init_none hA hnoacc
    have hstep : Step C.i C.allow G (G.start C.i s.ls.n_leader lgs) := Ghost.start_step hP.noacc hinit
    obtain ⟨Q, q1, q2, q3⟩ := pids_of_slots PromiseState.isPromised s.ls.promises_meta
    have q4 : ∀ x ∈ Q, ∃ m, slot s.ls.promises_meta x = some (.promised m) := by
      intro x hx
      obtain ⟨a, h1, h2⟩ := q3 x hx
      cases a with
      | promised m => exact ⟨m, h1⟩
      | notPromised => simp [PromiseState.isPromised] at h2
      | promisedHigher => simp [PromiseState.isPromised] at h2
    have hRQ : ReadQ C.cc Q := by
      refine ⟨q1, fun x hx => ?_, C.i, ?_⟩
      · obtain ⟨m, hm⟩ := q4 x hx
        exact (e5 x m hm).2.1
      · rw [q2, ← hC.quorum]; exact hq
    have hA' : Abs C.cc (G.start C.i s.ls.n_leader lgs) := by
      refine Ghost.start_abs hA hP.own hn0 hP.noacc hpr (fun b hb => by rw [← hprom]; exact hC.disk.precMax b hb)
        ⟨Q, m0, _, hRQ, e1, fun x hx => ?_⟩
      obtain ⟨m, hm⟩ := q4 x hx
      obtain ⟨-, -, l, h1, -, -, h2⟩ := e5 x m hm
      exact ⟨_, l, h1, h2⟩
    have ho := out_mono hstep (fun _ _ _ => rfl) hC.src hC.out
    have hR' : C.Reach (G.start C.i s.ls.n_leader lgs) := hR.trans (s := s) hstep hA' ho
    have hacc' : (G.start C.i s.ls.n_leader lgs).acc C.i s.ls.n_leader = some lgs := by simp [Ghost.start]
    have hinit' : (G.start C.i s.ls.n_leader lgs).init s.ls.n_leader = some lgs := by simp [Ghost.start]
    have hmax : ∀ b, (G.start C.i s.ls.n_leader lgs).acc C.i b ≠ none → b ≤ s.ls.n_leader := by
      intro b hb
      by_cases hbn : b = s.ls.n_leader
      · rw [hbn]; exact Ballot.le_refl _
      · simp only [Ghost.start, hbn, and_false, if_false] at hb
        refine Ballot.le_trans (hC.disk.accMax b hb) ?_
        rw [← hprom]
        exact hC.disk.le
    have hdec : (G.start C.i s.ls.n_leader lgs).DecOK C.cc s.ls.n_leader lgs s.ls.get_max_decided_idx := by
      unfold LeaderState.get_max_decided_idx
      rcases foldl_max_mem (LeaderState.promisedDecided s.ls.promises_meta) 0 with h0 | h0
      · exact .inl h0
      · obtain ⟨F, m, h1, h2⟩ := mem_promisedDecided h0
        obtain ⟨-, -, l, h3, -, h4, -⟩ := e5 F m h1
        rw [h2] at h4
        rcases h4.mono hstep.toMono with h4 | ⟨b, l1, h5, h6, h7, h8⟩
        · exact .inl h4
        · have hlt := (hA.prec _ _ _ _ h3).2.1
          have hlt' := Ballot.lt_of_le_of_lt h5 hlt
          exact .inr ⟨b, l1, Ballot.le_of_lt hlt', h6, h7, hA'.fixed_le_init (h6.fixed C.hv) hlt' hinit'⟩
    have hd := hS.disk hC.disk hstep.toMono hprom hacc' hdec hmax (fun _ => rfl)
    refine ⟨_, hR', ?_, ?_, ?_, rfl, rfl⟩
    · have hb : ∀ P, ({ s with ls := { s.ls with max_promise_sync := none }, ist := ist, role := .leader, phase := .accept } : SP E S).own P = 0 := by
        intro P
        refine (if_pos rfl).trans ?_
        show ist.cache.batched_entries.countP P = 0
        rw [hS.batch, hP.batch]
        rfl
      have hb' : ∀ P, ({ s with ist := ist } : SP E S).own P = 0 := by
        intro P
        simp only [SP.own]
        rw [show (ist.cache.batched_entries : List E) = _ from hS.batch, hP.batch]
        simp
      have h1 := setIst hC hd hS.mir hS.idx ho (by
        show SP.tok G.mark _ ≤ G.hold C.i
        have := hC.tok
        simp only [SP.tok, hb'] at *
        omega)
      refine Core.congr h1 rfl rfl rfl rfl rfl rfl rfl rfl ?_
      simp only [SP.tok, hb, hb']
      exact Nat.le_refl _
    · refine ⟨?_, hP.own, ?_, fun _ => by rw [show (ist.cache.batched_entries : List E) = _ from hS.batch]; exact hP.batch,
        ⟨lgs, m0, hinit', e1, e2⟩, ?_, ?_, ?_, ?_, ?_, ?_, ?_⟩
      · show s.ls.n_leader = ist.cache.promise
        rw [hS.prom]; exact hP.ldr
      · show ist.cache.accepted_round = s.ls.n_leader
        rw [hS.mir.acc, hS.acc]; rfl
      · intro F m hm
        obtain ⟨h1, h2, l, h3, h4, h5, -⟩ := e5 F m hm
        exact ⟨h1, h2, .inr ⟨l, h3, h4, h5.mono hstep.toMono⟩⟩
      · intro F m l q _ _ ht
        simp at ht
      · intro F q _
        show G.curg s.ls.n_leader F ≤ q
        rw [(hA.endNone _ hnoacc F).1]
        exact SeqNum.zero_le _
      · intro j m hm q hacc
        exfalso
        have h1 := (hC.out j).msg m hm
        have h2 := (h1.lead _ _ hacc).2
        rw [hC.src j m hm] at h2
        exact h2 hP.noacc
      · intro F b k hk
        have := hP.metas F _ hk
        simp at this
      · intro F q t _ ht
        exact absurd hnoacc (hA.deadAcc _ _ _ ht)
      · intro F k hk hk0
        exact absurd (hP.accs F k hk) hk0
    · exact hT.cons ⟨_, lgs, hR', hd⟩ hS.wrote

/-- Nothing the leader has sent waits to be merged. -/
def NoMeta (s : SP E S) : Prop := ∀ F x, slot s.ls.latest_accept_meta F ≠ some (some x)

theorem append_buffered_proposals_sat {a : Nat} (h : C.LeadSt (fun _ => none) G (Acc s) lg) (hss : lg.ss = none)
    (hb : s.ist.cache.batched_entries = []) (ha : a = s.ist.cache.accepted_idx) :
    M.Sat (SP.append_buffered_proposals a) s
      (fun r s' => r = s'.ist.cache.accepted_idx ∧ s'.ist.cache.batched_entries = [] ∧ s'.ls = s.ls ∧
        ∃ G' lg', lg'.ss = none ∧ C.LeadSt (fun _ => none) G' (Acc s') lg') C.Bad := by
  simp only [SP.append_buffered_proposals, M.sat_bind, M.sat_get, M.sat_ite, M.sat_pure, M.sat_upd, SP.sat_onStore,
    IStore.append_entries_without_batching, IStore.sat_append_nb]
  refine ⟨fun _ => ⟨ha, hb, trivial, G, lg, hss, h⟩, fun _ => ⟨trivial, hb, trivial, ?_⟩⟩
  · obtain ⟨G', h'⟩ := (h.frame [] s.buffered_stopsign (Nat.zero_le _)).append0 (es := s.buffered_proposals) hss
      (by have h1 := h.core.tok
          have h2 : ({ Acc s with buffered_proposals := [], buffered_stopsign := s.buffered_stopsign } : SP E S).own G.mark = (Acc s).own G.mark := rfl
          simp only [SP.tok, h2, Ghost.count, List.countP_nil] at *
          have h3 : (Acc s).buffered_proposals = s.buffered_proposals := rfl
          rw [h3] at h1
          omega)
    exact ⟨G', ⟨lg.es ++ s.buffered_proposals, lg.ss⟩, hss, h'⟩

theorem append_buffered_stopsign_sat {a : Nat} (h : C.LeadSt (fun _ => none) G (Acc s) lg) (hss : lg.ss = none)
    (hb : s.ist.cache.batched_entries = []) (ha : a = s.ist.cache.accepted_idx) :
    M.Sat (SP.append_buffered_stopsign a) s
      (fun r s' => r = s'.ist.cache.accepted_idx ∧ s'.ls = s.ls ∧ ∃ G' lg', C.LeadSt (fun _ => none) G' (Acc s') lg') C.Bad := by
  unfold SP.append_buffered_stopsign
  rw [M.sat_bind, M.sat_get]
  cases hx : s.buffered_stopsign with
  | none => exact ⟨ha, rfl, G, lg, h⟩
  | some ss =>
    simp only [M.sat_bind, M.sat_upd, SP.sat_onStore, IStore.sat_append_stopsign, M.sat_get, M.sat_pure]
    refine ⟨fun _ => ⟨trivial, trivial, ?_⟩, fun hb' => absurd hb hb'⟩
    obtain ⟨G', h'⟩ := (h.frame s.buffered_proposals none (Nat.le_refl _)).stop hss hb ss
    exact ⟨G', _, h'⟩

theorem append_buffered_sat {a : Nat} (h : C.LeadSt (fun _ => none) G (Acc s) lg)
    (hb : s.ist.cache.batched_entries = []) (ha : a = s.ist.cache.accepted_idx) :
    M.Sat (SP.append_buffered a) s
      (fun r s' => r = s'.ist.cache.accepted_idx ∧ s'.ls = s.ls ∧ ∃ G' lg', C.LeadSt (fun _ => none) G' (Acc s') lg') C.Bad := by
  unfold SP.append_buffered
  rw [M.sat_bind, M.sat_get, M.sat_ite]
  refine ⟨fun _ => ⟨ha, rfl, G, lg, h⟩, fun hx => ?_⟩
  have hss : lg.ss = none := by
    have h1 := h.core.mir.ss
    have h2 := h.core.disk.ss
    simp only [Acc] at h1 h2
    simp only [SP.accepted_reconfiguration] at hx
    rw [h1, h2] at hx
    simpa using hx
  rw [M.sat_bind]
  refine M.sat_mono (append_buffered_proposals_sat h hss hb ha) ?_ fun _ h => h
  rintro r s' ⟨h1, h2, h3, G', lg', h4, h5⟩
  rw [← h3]
  exact append_buffered_stopsign_sat h5 h4 h2 h1

/-- The loop synchronising all promised followers. -/
theorem accsync_loop [SnapOps E S] (h : C.LeadSt (fun _ => none) G s lg) (hno : NoMeta s) :
    M.Sat (M.forEach s.ls.get_promised_followers SP.send_accsync) s
      (fun _ => C.Inv) C.Bad := by
  refine M.sat_mono (M.sat_forEach_rem
    (fun r s' => Same s s' ∧ NoMeta s' ∧ ∃ G', C.LeadSt (fun X => if X ∈ r then none else some lg) G' s' lg) ⟨Same.refl s, hno, G, ?_⟩ ?_)
    (fun _ s' h => ?_) (fun _ h => h)
  · exact h.retodo fun F hF => by simp [hF]
  · rintro F r s' hsuf ⟨hsame, hno', G', h'⟩
    have hmem : F ∈ s.ls.get_promised_followers := hsuf.subset List.mem_cons_self
    have hnd : F ∉ r := (List.nodup_cons.1 ((LeaderState.followers_nodup s.ls).sublist hsuf.sublist)).1
    obtain ⟨h1, m, h2⟩ := LeaderState.mem_followers.1 hmem
    rw [h.lead.own] at h1
    refine M.sat_mono (send_accsync_sat h' h1 (by rw [hsame.prom]; exact h2) (fun ⟨x, hx⟩ => absurd hx (hno' F x)) fun _ _ _ hx => absurd hx (hno' F _)) ?_ (fun _ h => h)
    rintro _ s'' ⟨h3, h5, G'', h4⟩
    refine ⟨hsame.trans h3, fun X x => by rw [h5]; exact hno' X x, G'', ?_⟩
    have : (fun X => if X ∈ r then none else some lg) = (fun X => if X = F then some lg else if X ∈ F :: r then none else some lg) := by
      funext X
      by_cases hX : X = F
      · subst hX; simp [hnd]
      · simp [hX]
    rw [this]
    exact h4
  · obtain ⟨-, -, G', h'⟩ := h
    simp at h'
    exact h'.inv

theorem handle_majority_inv [SnapOps E S] (hR : C.Reach G) (hC : C.CoreC G s lg) (hP : LeadPrep C.cc C.i G s lg) (hT : C.Trail s)
    (hq : s.ls.quorum.is_prepare_quorum s.ls.num_promised = true) :
    M.Sat SP.handle_majority_promises s (fun _ => C.Inv) C.Bad := by
  obtain ⟨lgs, hsync, hstart⟩ := majority_start hR hC hP hT hq
  unfold SP.handle_majority_promises
  rw [M.sat_bind, M.sat_get, M.sat_bind, M.sat_upd, M.sat_bind, SP.sat_onStore]
  have hd := hC.disk
  refine M.sat_mono (sync_log_sat hC.mir hd.log hd.ss hC.idx hd.cov s.ls.n_leader s.ls.get_max_decided_idx hsync) ?_ ?_
  · rintro r ist ⟨hr, hS⟩
    obtain ⟨G1, h1⟩ := hstart ist hS
    rw [M.sat_bind]
    refine M.sat_mono (append_buffered_sat (s := { s with ls := { s.ls with max_promise_sync := none }, ist := ist }) (lg := lgs)
      h1 (by rw [show (ist.cache.batched_entries : List E) = _ from hS.batch]; exact hP.batch) hr) ?_ fun _ h => h
    rintro a s2 ⟨ha, hls, G2, lg2, h2⟩
    rw [M.sat_bind, SP.sat_setState, M.sat_bind, SP.sat_onLS]
    have hpid : s2.pid = s.pid := by rw [hC.pid]; exact h2.core.pid
    refine ⟨fun ls hl => ?_, fun _ => h2.bad⟩
    rw [← hpid] at hl
    obtain ⟨-, h3⟩ := h2.setOwn (k := a) (by rw [ha]; exact h2.core.idx.covers) hl
    rw [M.sat_bind, M.sat_get]
    refine accsync_loop h3 ?_
    intro F x hx
    have hm : ls.latest_accept_meta = s2.ls.latest_accept_meta := by
      simp only [LeaderState.set_accepted_idx] at hl
      split at hl
      · simp at hl
      · simp at hl; rw [← hl]
    have hx' : slot s.ls.latest_accept_meta F = some (some x) := by
      have : slot ls.latest_accept_meta F = some (some x) := hx
      rw [hm, hls] at this
      exact this
    have := hP.metas F _ hx'
    simp at this
  · rintro ist ⟨h1, h2, h3⟩
    refine ⟨⟨G, lg, hR, ?_⟩, ?_⟩
    · show DiskInv _ _ _ ist.storage _
      rw [h1]; exact hd
    · exact hT.same ⟨h1, h2, h3⟩

theorem handle_promise_prepare_inv [SnapOps E S] (hR : C.Reach G) (hC : C.CoreC G s lg) (hP : LeadPrep C.cc C.i G s lg)
    (hT : C.Trail s) (h1 : s.role = .leader) (h2 : s.phase = .prepare) {p : Promise E S} {frm : NodeId} (hN : Node C.cc frm)
    (hb : MsgBody C.cc G frm C.i (.promise p)) :
    M.Sat (SP.handle_promise_prepare p frm) s (fun _ => C.Inv) C.Bad := by
  have hrole : ∀ (s : SP E S), s.role = .leader → s.phase = .prepare → LeadPrep C.cc C.i G s lg → RoleInv C.cc C.i C.pre G s lg := by
    intro s h1 h2 h3
    unfold RoleInv
    rw [h1, h2]
    exact h3
  unfold SP.handle_promise_prepare
  rw [M.sat_bind, M.sat_get, M.sat_ite]
  refine ⟨fun hn => ?_, fun _ => ⟨G, hR, ⟨lg, hC, hrole s h1 h2 hP⟩, hT⟩⟩
  rw [M.sat_bind, SP.sat_onLS']
  refine ⟨fun ⟨ls, maj⟩ hls => ?_, fun _ => bad_of hR hC hT⟩
  obtain ⟨hC', hP', hmaj⟩ := set_promise_prep hR hC hP hN hn hb hls
  rw [M.sat_ite]
  refine ⟨fun hm => ?_, fun _ => ⟨G, hR, ⟨lg, hC', hrole _ h1 h2 hP'⟩, hT⟩⟩
  exact handle_majority_inv hR hC' hP' hT (by rw [← hm, hmaj])

theorem handle_promise_inv [SnapOps E S] (hR : C.Reach G) (hC : C.CoreC G s lg) (hr : RoleInv C.cc C.i C.pre G s lg)
    (hT : C.Trail s) {p : Promise E S} {frm : NodeId} (hN : Node C.cc frm)
    (hne : frm ≠ C.i) (hb : MsgBody C.cc G frm C.i (.promise p))
    (hguard : s.role = .leader → s.phase = .accept → p.n = s.ls.n_leader →
      (∃ x, slot s.ls.latest_accept_meta frm = some (some x)) → ∀ q, slot s.ls.follower_seq_nums frm = some q →
      C.allow.die s.ls.n_leader frm (q.session + 1)) :
    M.Sat (SP.handle_promise p frm) s (fun _ => C.Inv) C.Bad := by
  unfold SP.handle_promise
  rw [M.sat_bind, M.sat_get]
  split
  · rename_i h1 h2
    rcases role_cases hr with ⟨h, -⟩ | ⟨-, -, h⟩ | ⟨-, h, -⟩
    · rw [h1] at h; simp at h
    · exact handle_promise_prepare_inv hR hC h hT h1 h2 hN hb
    · rw [h2] at h; simp at h
  · rename_i h1 h2
    exact handle_promise_accept_inv hR hC hr hT h1 h2 hN hne hb (hguard h1 h2)
  · exact ⟨G, hR, ⟨lg, hC, hr⟩, hT⟩

end Ctx
end Omni
