import Verif.Proof.Safety.Lead
/-
Accept messages sent by a leader.
-/
namespace Omni

variable {E S : Type}

theorem DiskInv.congr {cc : ClusterConfig} {i : NodeId} {G G' : Ghost E} {d : Mem E S} {lg : Lg E} (hM : Mono G G')
    (ha : ∀ b, G'.acc i b = G.acc i b) (hp : ∀ b, G'.prec i b = G.prec i b) (h : DiskInv cc i G d lg) : DiskInv cc i G' d lg where
  acc := by rw [ha]; exact h.acc
  log := h.log
  trim := h.trim
  ss := h.ss
  cov := h.cov
  dec := h.dec.mono hM
  snap hs := (h.snap hs).mono hM
  le := h.le
  good := h.good
  accMax b hb := h.accMax b (by rwa [ha b] at hb)
  precMax b hb := h.precMax b (by rwa [hp b] at hb)
  precCur hn := by rw [hp]; exact h.precCur hn

namespace Ghost
variable (G : Ghost E) (n : Ballot) (F : NodeId) (q : SeqNum) (v : Lg E)

theorem bump_mono : Mono G (G.bump n F q v) :=
  ⟨fun _ _ x hx => ⟨x, hx, Lg.le_refl x⟩, fun _ _ _ h => h, fun _ _ h => h, fun _ _ _ h => h⟩

variable {G n F q v}

theorem kill_bump_mono {D : Prop} {t : Nat} : Mono G ((G.kill D n F t).bump n F q v) :=
  ⟨fun _ _ x hx => ⟨x, hx, Lg.le_refl x⟩, fun _ _ _ h => h, fun _ _ h => h, fun _ _ _ h => .inr h⟩

theorem bump_at : (G.bump n F q v).endf n F q = v := by simp [bump, SeqNum.le_refl]

theorem bump_lt {q' : SeqNum} (h : q' < q) : (G.bump n F q v).endf n F q' = G.endf n F q' := by
  simp only [bump]
  rw [if_neg]
  rintro ⟨-, -, h'⟩
  exact SeqNum.lt_irrefl _ (SeqNum.lt_of_lt_of_le h h')

end Ghost

theorem SeqNum.pred_lt {q : SeqNum} (h : 1 ≤ q.counter) : q.pred < q := by
  exact .inr ⟨rfl, by show q.counter - 1 < q.counter; omega⟩

namespace Ctx
variable {C : Ctx E S} {G G' : Ghost E} {s s' : SP E S} {lg lg' : Lg E}

/-- A leader in the Accept phase; `todo` says how far each follower's messages have got. -/
structure LeadSt (C : Ctx E S) (todo : NodeId → Option (Lg E)) (G : Ghost E) (s : SP E S) (lg : Lg E) : Prop where
  reach : C.Reach G
  core : C.CoreC G s lg
  lead : LeadAcc C.cc C.i C.pre todo G s lg
  trail : C.Trail s
  role : s.role = .leader
  phase : s.phase = .accept

variable {todo : NodeId → Option (Lg E)}

theorem LeadSt.inv (h : C.LeadSt (fun _ => some lg) G s lg) : C.Inv s := by
  refine ⟨G, h.reach, ⟨lg, h.core, ?_⟩, h.trail⟩
  unfold RoleInv
  rw [h.role, h.phase]
  exact h.lead

theorem LeadSt.of (hR : C.Reach G) (hC : C.CoreC G s lg) (hr : RoleInv C.cc C.i C.pre G s lg) (hT : C.Trail s)
    (h1 : s.role = .leader) (h2 : s.phase = .accept) : C.LeadSt (fun _ => some lg) G s lg := by
  refine ⟨hR, hC, ?_, hT, h1, h2⟩
  rcases role_cases hr with ⟨h, -⟩ | ⟨-, h, -⟩ | ⟨-, -, h⟩
  · rw [h1] at h; simp at h
  · rw [h2] at h; simp at h
  · exact h

theorem LeadSt.bad (h : C.LeadSt todo G s lg) : C.Bad s := bad_of h.reach h.core h.trail

theorem LeadSt.acc (h : C.LeadSt todo G s lg) : G.acc C.i s.ls.n_leader = some lg := by
  have := h.core.disk.acc
  rw [← h.core.mir.acc, h.lead.acc] at this
  exact this

theorem LeadSt.acc' (h : C.LeadSt todo G s lg) : G.acc s.ls.n_leader.pid s.ls.n_leader = some lg := by
  rw [h.lead.own]; exact h.acc

theorem LeadSt.endLe (h : C.LeadSt todo G s lg) (F : NodeId) (q : SeqNum) : G.endf s.ls.n_leader F q ≤ lg :=
  h.reach.abs.endLe _ F q lg h.acc'

/-- Change what is expected of servers that are not promised. -/
theorem LeadSt.retodo (h : C.LeadSt todo G s lg) {todo' : NodeId → Option (Lg E)}
    (h1 : ∀ F ∈ s.ls.get_promised_followers, todo' F = todo F) : C.LeadSt todo' G s lg := by
  have hl := h.lead
  refine ⟨h.reach, h.core, ⟨hl.ldr, hl.own, hl.acc, hl.batch, hl.max, hl.prom, fun F m l q hF hm ht => ?_, hl.cur, hl.link,
    fun F b k hF => ?_, hl.dead, hl.accs⟩, h.trail, h.role, h.phase⟩
  · have : F ∈ s.ls.get_promised_followers := LeaderState.mem_followers.2 ⟨by rw [hl.own]; exact hF, m, hm⟩
    rw [h1 F this] at ht
    exact hl.ends F m l q hF hm ht
  · obtain ⟨h3, h8, h9, a, h4, h5, h6, h7⟩ := hl.mets F b k hF
    refine ⟨h3, h8, h9, a, h4, h5, h6, ?_⟩
    rcases h9 with ⟨m, h9⟩ | h9
    · have hne := ((h.core.out C.i).msg _ (List.mem_append_right _ (List.mem_of_getElem? h4))).ne
      rw [h1 F (LeaderState.mem_followers.2 ⟨by rw [hl.own]; exact hne.symm, m, h9⟩)]
      exact h7
    · exact .inr (.inl h9)

/-- The leader's history changes without touching its messages. -/
theorem LeadAcc.ext (h : LeadAcc C.cc C.i C.pre todo G s lg) (hE : Ext C.i C.allow G G') {ist : IStore E S}
    (hp : ist.cache.promise = s.ist.cache.promise) (ha : ist.cache.accepted_round = s.ist.cache.accepted_round)
    (hb : lg'.ss ≠ none → ist.cache.batched_entries = []) :
    LeadAcc C.cc C.i C.pre todo G' { s with ist := ist } lg' where
  ldr := h.ldr.trans hp.symm
  own := h.own
  acc := ha.trans h.acc
  batch := hb
  max := by
    obtain ⟨lgs, m0, h1, h2, h3⟩ := h.max
    exact ⟨lgs, m0, hE.step.init _ _ h1, hE.step.prec _ _ _ h2, h3⟩
  prom F m hm := by
    obtain ⟨h1, h2, h3⟩ := h.prom F m hm
    exact ⟨h1, h2, h3.mono hE.step.toMono⟩
  ends F m l q hF hm ht hq := by
    simp only [hE.endf]
    exact h.ends F m l q hF hm ht hq
  cur F q hq := by rw [hE.curg]; exact h.cur F q hq
  link := h.link
  mets F b k hF := by
    obtain ⟨h1, h0, h6, a, h2, h3, h4, h5⟩ := h.mets F b k hF
    exact ⟨h1, h0, h6.imp id (·.mono hE.step.toMono), a, h2, h3, h4, h5.of hE.step.toMono (fun _ _ _ h _ _ => .inl h) (hE.endf _ _ _) rfl⟩
  dead := by rw [hE.dead]; exact h.dead
  accs F k hk h0 := by
    obtain ⟨h1, a, h2, h3⟩ := h.accs F k hk h0
    obtain ⟨a', h4, h5⟩ := hE.step.acc _ _ _ h2
    exact ⟨h1, a', h4, h3.mono h5⟩

/-- Messages in flight are not affected by a new accept message with a higher number. -/
theorem bump_out (h : C.LeadSt todo G s lg) {F : NodeId} {q0 q : SeqNum} {v : Lg E} {D : Prop} {t : Nat}
    (hq0 : slot s.ls.follower_seq_nums F = some q0) (hq : q0 < q) (hv : ∀ q', G.endf s.ls.n_leader F q' ≤ v) :
    ∀ j, LinkOK C.cc ((G.kill D s.ls.n_leader F t).bump s.ls.n_leader F q v) (C.pre j) s.outgoing := by
  intro j
  have hcur := SeqNum.lt_of_le_of_lt (h.lead.cur F q0 hq0) hq
  have hM : Mono G ((G.kill D s.ls.n_leader F t).bump s.ls.n_leader F q v) :=
    ⟨fun _ _ x hx => ⟨x, hx, Lg.le_refl x⟩, fun _ _ _ h => h, fun _ _ h => h, fun _ _ _ h => .inr h⟩
  refine (h.core.out j).mono hM (fun m hm n q1 hacc q' hq' => ?_) fun _ _ _ _ _ => rfl
  simp only [Ghost.bump, Ghost.kill]
  rw [if_neg]
  rintro ⟨rfl, hd, h1⟩
  have := h.lead.link j m hm q1 hacc q0 (by rw [hd]; exact hq0)
  exact SeqNum.lt_irrefl _ (SeqNum.lt_of_lt_of_le hq (SeqNum.le_trans h1 (SeqNum.le_trans hq' this)))

/-- The leader sends the next accept message to `F`; if `D`, it is an AcceptSync that starts a dead session. -/
theorem lead_send (h : C.LeadSt todo G s lg) {F : NodeId} {q0 q : SeqNum} {v : Lg E} {w : List SeqNum}
    {w2 : List (Option (Ballot × Nat))} {msg : PaxosMsg E S} (hF : F ≠ C.i)
    (hq0 : slot s.ls.follower_seq_nums F = some q0) (hq : q0 < q) (hwF : slot w F = some q)
    (hwo : ∀ X, X ≠ F → slot w X = slot s.ls.follower_seq_nums X)
    (hw2 : ∀ X, X ≠ F → slot w2 X = slot s.ls.latest_accept_meta X)
    {D : Prop} (hD : D → q0.session < q.session ∧ C.allow.die s.ls.n_leader F q.session)
    (hmeta : ∀ b k, slot w2 F = some (some (b, k)) → (slot s.ls.latest_accept_meta F = some (some (b, k)) ∧ (v.ss ≠ none ∨ (D ∧
        ∀ a, s.outgoing[k]? = some ⟨C.i, F, .acceptDecide a⟩ → Waits C.pre s.outgoing G s.ls.n_leader F (some v) a))) ∨
      (b = s.ls.n_leader ∧ k = s.outgoing.length ∧ (∃ m, slot s.ls.promises_meta F = some (.promised m)) ∧
        ∃ a, msg = .acceptDecide a ∧ 1 ≤ a.seq_num.counter))
    (hacc : msg.accOf = some (s.ls.n_leader, q)) (hv : ∀ q', G.endf s.ls.n_leader F q' ≤ v) (hvp : v ≤ lg)
    (hpred : v.ss ≠ none → 2 ≤ q.counter → (G.endf s.ls.n_leader F q.pred).es = v.es)
    (hone : ∀ n q', msg.syncOf = some (n, q') → q'.counter = 1)
    (hbody : ¬ D → MsgBody C.cc ((G.kill D s.ls.n_leader F q.session).bump s.ls.n_leader F q v) C.i F msg) :
    C.LeadSt (fun X => if X = F then some v else todo X) ((G.kill D s.ls.n_leader F q.session).bump s.ls.n_leader F q v)
      { s with
        ls := { s.ls with follower_seq_nums := w, latest_accept_meta := w2 }
        outgoing := s.outgoing ++ [⟨s.pid, F, msg⟩] } lg := by
  have hL := h.lead
  have hC := h.core
  have hcur := SeqNum.lt_of_le_of_lt (hL.cur F q0 hq0) hq
  have hK : Step C.i C.allow G (G.kill D s.ls.n_leader F q.session) := Ghost.kill_step hL.own fun hd =>
    ⟨Nat.lt_of_le_of_lt (SeqNum.session_le (hL.cur F q0 hq0)) (hD hd).1, (hD hd).2⟩
  have hS := hK.trans (Ghost.bump_step (G := G.kill D s.ls.n_leader F q.session) (allow := C.allow) hL.own hcur hv)
  have hA := Ghost.bump_abs (Ghost.kill_abs (D := D) (F := F) (s := q.session) h.reach.abs h.acc') h.acc' hvp hcur hv
  have hout := bump_out (D := D) (t := q.session) h hq0 hq hv
  have hR := h.reach.trans hS hA hout
  have hsrc : ∀ j, ∀ m ∈ C.pre j ++ (s.outgoing ++ [⟨s.pid, F, msg⟩]), m ∈ C.pre j ++ s.outgoing ∨ m = ⟨s.pid, F, msg⟩ := by
    intro j m hm
    rw [← List.append_assoc] at hm
    rcases List.mem_append.1 hm with hm | hm
    · exact .inl hm
    · exact .inr (by simpa using hm)
  have hwle : ∀ X qx, slot s.ls.follower_seq_nums X = some qx → ∀ qw, slot w X = some qw → qx ≤ qw := by
    intro X qx h1 qw h2
    by_cases hX : X = F
    · subst hX
      rw [hq0] at h1; rw [hwF] at h2
      simp at h1 h2; subst h1; subst h2
      exact SeqNum.le_of_lt hq
    · rw [hwo X hX, h1] at h2; simp at h2; subst h2; exact SeqNum.le_refl _
  have hwex : ∀ X qw, slot w X = some qw → ∃ qx, slot s.ls.follower_seq_nums X = some qx ∧ qx ≤ qw := by
    intro X qw h2
    by_cases hX : X = F
    · subst hX
      exact ⟨q0, hq0, hwle _ q0 hq0 qw h2⟩
    · exact ⟨qw, by rw [← hwo X hX]; exact h2, SeqNum.le_refl _⟩
  refine ⟨hR, ?_, ?_, h.trail, h.role, h.phase⟩
  · exact {
      pid := hC.pid
      node := hC.node
      peers := hC.peers
      quorum := hC.quorum
      maxpid := hC.maxpid
      lenA := hC.lenA
      disk := hC.disk.congr hS.toMono (fun _ => rfl) (fun _ => rfl)
      mir := hC.mir
      idx := hC.idx
      src := fun j m hm => by
        rcases hsrc j m hm with hm | rfl
        · exact hC.src j m hm
        · exact hC.pid
      dst := hC.dst
      out := fun j => by
        have hf : ∀ n q1, msg.accOf = some (n, q1) → G.curg n F < q1 := by
          intro n q1 h1
          simp only [hacc, Option.some.injEq, Prod.mk.injEq] at h1
          obtain ⟨rfl, rfl⟩ := h1
          exact hcur
        refine (hout j).snoc ⟨?_, ?_, ?_, hone, ?_, fun n q1 h1 => hf n q1 (PaxosMsg.syncOf_acc h1)⟩ (fun n q1 h1 => .inl (hf n q1 h1)) ?_
        · show s.pid ≠ F; rw [hC.pid]; exact hF.symm
        · show Node _ s.pid; rw [hC.pid]; exact hC.node
        · intro hlive
          show MsgBody _ _ s.pid F msg; rw [hC.pid]; exact hbody fun hd => (hlive _ _ hacc).1 (.inl ⟨hd, rfl, rfl, rfl⟩)
        · intro n q1 h1
          simp only [hacc, Option.some.injEq, Prod.mk.injEq] at h1
          obtain ⟨rfl, rfl⟩ := h1
          show _ = s.pid ∧ G.acc s.pid _ ≠ none
          rw [hC.pid, h.acc]
          exact ⟨hL.own, by simp⟩
        · intro x hx n q1 q2 h1 h2 h3
          simp only [hacc, Option.some.injEq, Prod.mk.injEq] at h2
          obtain ⟨rfl, rfl⟩ := h2
          exact .inl (SeqNum.lt_of_le_of_lt (hL.link j x hx q1 h1 q0 (by rw [h3]; exact hq0)) hq)
      lam := fun b k hk => by
        obtain ⟨m, a, h1, h2⟩ := hC.lam b k hk
        refine ⟨m, a, ?_, h2⟩
        rw [List.getElem?_append_left (List.getElem?_eq_some_iff.1 h1).1]
        exact h1
      tok := by
        have e : fwds G.mark (s.outgoing ++ [⟨s.pid, F, msg⟩]) = fwds G.mark s.outgoing := by
          simp [fwds, PaxosMsg.fwd_acc hacc]
        show s.buffered_proposals.countP G.mark + s.own G.mark + fwds G.mark (s.outgoing ++ [⟨s.pid, F, msg⟩]) ≤ G.hold C.i
        rw [e]
        exact hC.tok }
  · exact {
      ldr := hL.ldr
      own := hL.own
      acc := hL.acc
      batch := hL.batch
      max := hL.max
      prom := fun F m hm => by
        obtain ⟨h1, h2, h3⟩ := hL.prom F m hm
        exact ⟨h1, h2, h3.mono hS.toMono⟩
      ends := fun X m l qx hX hm ht hqx => by
        by_cases hXF : X = F
        · subst hXF
          simp only [if_true, Option.some.injEq] at ht
          subst ht
          simp only [hwF, Option.some.injEq] at hqx
          subst hqx
          refine ⟨fun q' hq' => by simp [Ghost.bump, hq'], fun hss h2 => ?_⟩
          simp only [Ghost.bump, Ghost.kill]
          rw [if_neg]
          · exact hpred hss h2
          · rintro ⟨-, -, h3⟩
            exact SeqNum.lt_irrefl _ (SeqNum.lt_of_lt_of_le (SeqNum.pred_lt (by omega)) h3)
        · simp only [hXF, if_false] at ht
          rw [show slot _ X = _ from hwo X hXF] at hqx
          have := hL.ends X m l qx hX hm ht hqx
          simp only [Ghost.bump, Ghost.kill, hXF, false_and, and_false, if_false]
          exact this
      cur := fun X qw hX => by
        obtain ⟨qx, h1, h2⟩ := hwex X qw hX
        exact SeqNum.le_trans (hL.cur X qx h1) h2
      link := fun j m hm q1 h1 q2 h2 => by
        rcases hsrc j m hm with hm | rfl
        · obtain ⟨qx, h3, h4⟩ := hwex _ q2 h2
          exact SeqNum.le_trans (hL.link j m hm q1 h1 qx h3) h4
        · simp only [hacc, Option.some.injEq, Prod.mk.injEq, true_and] at h1
          simp only [hwF, Option.some.injEq] at h2
          subst h1; subst h2
          exact SeqNum.le_refl _
      mets := fun X b k hk => by
        have old : slot s.ls.latest_accept_meta X = some (some (b, k)) → b = s.ls.n_leader ∧
            ((∃ m, slot s.ls.promises_meta X = some (.promised m)) ∨
              ((G.kill D s.ls.n_leader F q.session).bump s.ls.n_leader F q v).Gone s.ls.n_leader X) ∧
            ∃ a, (s.outgoing ++ [(⟨s.pid, F, msg⟩ : PaxosMessage E S)])[k]? = some ⟨C.i, X, .acceptDecide a⟩ ∧ a.n = s.ls.n_leader ∧
              1 ≤ a.seq_num.counter ∧ s.outgoing[k]? = some ⟨C.i, X, .acceptDecide a⟩ ∧
              Waits C.pre s.outgoing G s.ls.n_leader X (todo X) a := by
          intro ho
          obtain ⟨h1, -, h6, a, h2, h3, h4, h5⟩ := hL.mets X b k ho
          refine ⟨h1, h6.imp id (·.mono hS.toMono), a, ?_, h3, h4, h2, h5⟩
          rw [List.getElem?_append_left (List.getElem?_eq_some_iff.1 h2).1]
          exact h2
        have hwX : ∀ qx, slot s.ls.follower_seq_nums X = some qx → ∃ qw, slot w X = some qw := by
          intro qx hqx
          by_cases hXF : X = F
          · rw [hXF]; exact ⟨q, hwF⟩
          · exact ⟨qx, (hwo X hXF).trans hqx⟩
        by_cases hXF : X = F
        · subst hXF
          simp only [if_true]
          rcases hmeta b k hk with ⟨h2, h1⟩ | ⟨rfl, rfl, hm, a, rfl, h3⟩
          · obtain ⟨h4, h9, a, h5, h6, h7, h8, -⟩ := old h2
            refine ⟨h4, ⟨q, hwF⟩, h9, a, h5, h6, h7, ?_⟩
            rcases h1 with h1 | ⟨hd, h1⟩
            · exact .inl fun l hl => by simp only [Option.some.injEq] at hl; subst hl; exact h1
            · have hle := hL.link C.i _ (List.mem_append_right _ (List.mem_of_getElem? h8)) a.seq_num (by simp [PaxosMsg.accOf, h6]) q0 hq0
              refine (h1 a h8).of hS.toMono (fun j m q1 hm hq1 hd1 => ?_) (Ghost.bump_lt (SeqNum.lt_of_le_of_lt hle hq)) rfl
              rcases hsrc j m hm with hm | rfl
              · exact .inl hm
              · simp only [hacc, Option.some.injEq, Prod.mk.injEq, true_and] at hq1
                subst hq1
                exact .inr (.inr (.inl ⟨hd, rfl, rfl, rfl⟩))
          · simp only [PaxosMsg.accOf, Option.some.injEq, Prod.mk.injEq] at hacc
            obtain ⟨hn, rfl⟩ := hacc
            refine ⟨rfl, ⟨_, hwF⟩, .inl hm, a, ?_, hn, h3, .inr (.inr ⟨fun x hx => ?_, fun j m hm q1 hq1 hd1 => ?_⟩)⟩
            · simp [hC.pid]
            · simp only [Option.some.injEq] at hx
              rw [← hx]
              exact Ghost.bump_at ..
            · rcases hsrc j m hm with hm | rfl
              · exact .inl (SeqNum.le_of_lt (SeqNum.lt_of_le_of_lt (hL.link j m hm q1 hq1 q0 (by rw [hd1]; exact hq0)) hq))
              · simp only [PaxosMsg.accOf, Option.some.injEq, Prod.mk.injEq] at hq1
                rw [hq1.2]
                exact .inl (SeqNum.le_refl _)
        · simp only [hXF, if_false]
          have hk' := (hw2 X hXF).symm.trans hk
          obtain ⟨-, ⟨qx, hqx⟩, -⟩ := hL.mets X b k hk'
          obtain ⟨h4, h10, a, h5, h6, h7, h8, h9⟩ := old hk'
          refine ⟨h4, hwX qx hqx, h10, a, h5, h6, h7, h9.of hS.toMono (fun j m q1 hm hq1 hd1 => ?_) ?_ rfl⟩
          · rcases hsrc j m hm with hm | rfl
            · exact .inl hm
            · exact absurd hd1.symm hXF
          · simp only [Ghost.bump, Ghost.kill, hXF, false_and, and_false, if_false]
      dead := fun X qw t hX ht => by
        obtain ⟨qx, h1, h2⟩ := hwex X qw hX
        rcases ht with ⟨-, -, rfl, rfl⟩ | ht
        · rw [show slot _ X = _ from hwF] at hX
          simp only [Option.some.injEq] at hX
          rw [hX]
          exact Nat.le_refl _
        · exact Nat.le_trans (hL.dead X qx t h1 ht) (SeqNum.session_le h2)
      accs := hL.accs }

/-- The leader repeats its latest accept message to `F`. -/
theorem lead_resend (h : C.LeadSt todo G s lg) {F : NodeId} {q : SeqNum} {msg : PaxosMsg E S} (hF : F ≠ C.i)
    (hq : slot s.ls.follower_seq_nums F = some q) (hacc : msg.accOf = some (s.ls.n_leader, q))
    (hsoft : Soft G ⟨s.pid, F, msg⟩) (hbody : MsgBody C.cc G C.i F msg) (htodo : ∀ l, todo F = some l → l.ss ≠ none) :
    C.LeadSt todo G { s with outgoing := s.outgoing ++ [⟨s.pid, F, msg⟩] } lg := by
  have hL := h.lead
  have hC := h.core
  have hsrc : ∀ j, ∀ m ∈ C.pre j ++ (s.outgoing ++ [⟨s.pid, F, msg⟩]), m ∈ C.pre j ++ s.outgoing ∨ m = ⟨s.pid, F, msg⟩ := by
    intro j m hm
    rw [← List.append_assoc] at hm
    rcases List.mem_append.1 hm with hm | hm
    · exact .inl hm
    · exact .inr (by simpa using hm)
  refine ⟨h.reach, ?_, ?_, h.trail, h.role, h.phase⟩
  · exact {
      pid := hC.pid
      node := hC.node
      peers := hC.peers
      quorum := hC.quorum
      maxpid := hC.maxpid
      lenA := hC.lenA
      disk := hC.disk
      mir := hC.mir
      idx := hC.idx
      src := fun j m hm => by
        rcases hsrc j m hm with hm | rfl
        · exact hC.src j m hm
        · exact hC.pid
      dst := hC.dst
      out := fun j => by
        refine (hC.out j).snoc ⟨?_, ?_, ?_, fun _ _ h1 => absurd hsoft (Soft.sync h1), ?_, fun _ _ h1 => absurd hsoft (Soft.sync h1)⟩ (fun _ _ _ => .inr hsoft) ?_
        · show s.pid ≠ F; rw [hC.pid]; exact hF.symm
        · show Node _ s.pid; rw [hC.pid]; exact hC.node
        · intro _; show MsgBody _ _ s.pid F msg; rw [hC.pid]; exact hbody
        · intro n q1 h1
          simp only [hacc, Option.some.injEq, Prod.mk.injEq] at h1
          obtain ⟨rfl, rfl⟩ := h1
          show _ = s.pid ∧ G.acc s.pid _ ≠ none
          rw [hC.pid, h.acc]
          exact ⟨hL.own, by simp⟩
        · intro x hx n q1 q2 h1 h2 h3
          simp only [hacc, Option.some.injEq, Prod.mk.injEq] at h2
          obtain ⟨rfl, rfl⟩ := h2
          have hle := hL.link j x hx q1 h1 q (by rw [h3]; exact hq)
          by_cases he : q1 = q
          · exact .inr ⟨he, hsoft⟩
          · left
            obtain ⟨a, b⟩ := q1
            obtain ⟨c, d⟩ := q
            simp only [SeqNum.le_def, SeqNum.lt_def, SeqNum.mk.injEq] at *
            omega
      lam := fun b k hk => by
        obtain ⟨m, a, h1, h2⟩ := hC.lam b k hk
        refine ⟨m, a, ?_, h2⟩
        rw [List.getElem?_append_left (List.getElem?_eq_some_iff.1 h1).1]
        exact h1
      tok := by
        have e : fwds G.mark (s.outgoing ++ [⟨s.pid, F, msg⟩]) = fwds G.mark s.outgoing := by
          simp [fwds, PaxosMsg.fwd_acc hacc]
        show s.buffered_proposals.countP G.mark + s.own G.mark + fwds G.mark (s.outgoing ++ [⟨s.pid, F, msg⟩]) ≤ G.hold C.i
        rw [e]
        exact hC.tok }
  · exact {
      ldr := hL.ldr
      own := hL.own
      acc := hL.acc
      batch := hL.batch
      max := hL.max
      prom := hL.prom
      ends := hL.ends
      cur := hL.cur
      link := fun j m hm q1 h1 q2 h2 => by
        rcases hsrc j m hm with hm | rfl
        · exact hL.link j m hm q1 h1 q2 h2
        · simp only [hacc, Option.some.injEq, Prod.mk.injEq, true_and] at h1
          simp only [hq, Option.some.injEq] at h2
          subst h1; subst h2
          exact SeqNum.le_refl _
      mets := fun X b k hk => by
        obtain ⟨h1, h0, h6, a, h2, h3, h4, h5⟩ := hL.mets X b k hk
        refine ⟨h1, h0, h6, a, ?_, h3, h4, ?_⟩
        · rw [List.getElem?_append_left (List.getElem?_eq_some_iff.1 h2).1]
          exact h2
        · by_cases hXF : X = F
          · subst hXF; exact .inl htodo
          · refine h5.of (Mono.refl _) (fun j m q1 hm hq1 hd1 => ?_) rfl rfl
            rcases hsrc j m hm with hm | rfl
            · exact .inl hm
            · exact absurd hd1.symm hXF
      dead := hL.dead
      accs := hL.accs }

theorem split_at {α : Type} {l : List α} {k : Nat} {x : α} (h : l[k]? = some x) (f : α → α) :
    l = l.take k ++ x :: l.drop (k + 1) ∧ l.modify k f = l.take k ++ f x :: l.drop (k + 1) := by
  induction l generalizing k with
  | nil => simp at h
  | cons y l ih =>
    cases k with
    | zero => simp at h; subst h; simp
    | succ k =>
      obtain ⟨h1, h2⟩ := ih (by simpa using h)
      constructor
      · simp only [List.take_succ_cons, List.cons_append, List.drop_succ_cons]
        exact congrArg _ h1
      · simp only [List.modify_succ_cons, List.take_succ_cons, List.cons_append, List.drop_succ_cons]
        exact congrArg _ h2

/-- The leader changes the AcceptDecide to `F` it has not handed out yet: `G'` is the history with the change. -/
theorem lead_merge (h : C.LeadSt todo G s lg) {F : NodeId} {k : Nat} {a a' : AcceptDecide E} {v : Option (Lg E)}
    (hslot : slot s.ls.latest_accept_meta F = some (some (s.ls.n_leader, k)))
    (hk : s.outgoing[k]? = some ⟨C.i, F, .acceptDecide a⟩) (hn : a.n = s.ls.n_leader) (hn' : a'.n = a.n)
    (hs' : a'.seq_num = a.seq_num) (hS : Step C.i C.allow G G') (hA : Abs C.cc G')
    (hacc : ∀ b, G'.acc C.i b = G.acc C.i b) (hprec : ∀ b, G'.prec C.i b = G.prec C.i b) (hinit : G'.init = G.init)
    (hho : G'.hold = G.hold) (hdead : G'.dead = G.dead) (hcur : ∀ n X, G'.curg n X = G.curg n X)
    (hend : ∀ n X q, (n = s.ls.n_leader ∧ X = F → q < a.seq_num) → G'.endf n X q = G.endf n X q)
    (hother : G' = G ∨ ((∀ q, (G.endf s.ls.n_leader F q).ss = none) ∧ (G.Gone s.ls.n_leader F ∨ ∀ j, ∀ m ∈ C.pre j ++ s.outgoing, ∀ q,
      m.msg.accOf = some (s.ls.n_leader, q) → m.dst = F → q ≤ a.seq_num ∨ G.dead s.ls.n_leader F q.session)))
    (hends : ∀ m l q, slot s.ls.promises_meta F = some (.promised m) → v = some l → slot s.ls.follower_seq_nums F = some q →
      (∀ q', q ≤ q' → G'.endf s.ls.n_leader F q' = l) ∧
      (l.ss ≠ none → 2 ≤ q.counter → (G'.endf s.ls.n_leader F q.pred).es = l.es))
    (hmets : Waits C.pre s.outgoing G' s.ls.n_leader F v a)
    (hbody : ¬ G.dead s.ls.n_leader F a.seq_num.session → ¬ G.Gone s.ls.n_leader F → MsgBody C.cc G' C.i F (.acceptDecide a' : PaxosMsg E S)) :
    C.LeadSt (fun X => if X = F then v else todo X) G'
      { s with outgoing := s.outgoing.modify k fun m => { m with msg := .acceptDecide a' } } lg := by
  have hL := h.lead
  have hC := h.core
  obtain ⟨he1, he2⟩ := split_at hk fun m => { m with msg := .acceptDecide a' }
  generalize hl1 : s.outgoing.take k = l1 at he1 he2
  generalize hl2 : s.outgoing.drop (k + 1) = l2 at he1 he2
  have hout : ∀ j, LinkOK C.cc G (C.pre j) (l1 ++ (⟨C.i, F, .acceptDecide a⟩ :: l2)) := by
    intro j; have := hC.out j; rw [he1] at this; exact this
  have hbef : ∀ j, ∀ x ∈ C.pre j ++ l1, ∀ y ∈ (⟨C.i, F, .acceptDecide a⟩ : PaxosMessage E S) :: l2, Seqd G x y := by
    intro j x hx y hy
    rcases List.mem_append.1 hx with hx | hx
    · exact (hout j).cross x hx y (List.mem_append_right _ hy)
    · exact (List.pairwise_append.1 (hout j).seq).2.2 x hx y hy
  have hmem : ∀ j x, x ∈ C.pre j ++ l1 ∨ x ∈ l2 → x ∈ C.pre j ++ s.outgoing := by
    intro j x hx
    rw [he1]
    rcases hx with hx | hx
    · rw [← List.append_assoc]; exact List.mem_append_left _ hx
    · exact List.mem_append_right _ (List.mem_append_right _ (List.mem_cons_of_mem _ hx))
  have hlt : ∀ j x, x ∈ C.pre j ++ l1 ∨ x ∈ l2 → ∀ q, x.msg.accOf = some (s.ls.n_leader, q) → x.dst = F →
      G' = G ∨ q < a.seq_num ∨ ((G.dead s.ls.n_leader F q.session ∨ G.Gone s.ls.n_leader F) ∧ (G.endf s.ls.n_leader F q).ss = none) := by
    intro j x hx q hq hd
    rcases hother with ho | ⟨ho2, ho1⟩
    · exact .inl ho
    right
    have hp := List.pairwise_append.1 (hout j).seq
    have hAD : (⟨C.i, F, .acceptDecide a⟩ : PaxosMessage E S).msg.accOf = some (s.ls.n_leader, a.seq_num) := by
      simp [PaxosMsg.accOf, hn]
    rcases hx with hx | hx
    · rcases hbef j x hx _ List.mem_cons_self _ q a.seq_num hq hAD hd with h1 | ⟨-, h1⟩
      · exact .inl h1
      · simp [Soft] at h1
    · rcases (List.pairwise_cons.1 hp.2.1).1 x hx _ a.seq_num q hAD hq hd.symm with h1 | ⟨h1, h2⟩
      · rcases ho1 with h2 | ho1
        · exact .inr ⟨.inr h2, ho2 q⟩
        rcases ho1 j x (hmem j x (.inr hx)) q hq hd with h2 | h2
        · exact absurd (SeqNum.lt_of_lt_of_le h1 h2) (SeqNum.lt_irrefl _)
        · exact .inr ⟨.inl h2, ho2 q⟩
      · exfalso
        subst h1
        obtain ⟨xs, xd, xm⟩ := x
        simp only at hd hq
        subst hd
        cases xm <;> simp [Soft, PaxosMsg.accOf] at h2 hq
        · obtain ⟨h3, h4⟩ := hq; rw [h3, h4] at h2; exact h2 (ho2 _)
        · obtain ⟨h3, h4⟩ := hq; rw [h3, h4] at h2; exact h2 (ho2 _)
  have hendx : ∀ j x, x ∈ C.pre j ++ l1 ∨ x ∈ l2 → ∀ n q, x.msg.accOf = some (n, q) → 
      (∀ q', q' ≤ q → G'.endf n x.dst q' = G.endf n x.dst q') ∨ ((G.dead n x.dst q.session ∨ G.Gone n x.dst) ∧ (G.endf n x.dst q).ss = none) := by
    intro j x hx n q hq
    by_cases hc : n = s.ls.n_leader ∧ x.dst = F
    · obtain ⟨rfl, hd⟩ := hc
      rcases hlt j x hx q hq hd with h1 | h1 | h1
      · exact .inl fun q' hq' => by rw [h1]
      · exact .inl fun q' hq' => hend _ _ _ fun _ => SeqNum.lt_of_le_of_lt hq' h1
      · exact .inr (by rw [hd]; exact h1)
    · exact .inl fun q' hq' => hend _ _ _ fun hc' => absurd hc' hc
  have hsoft : ∀ j x, x ∈ C.pre j ++ l1 ∨ x ∈ l2 → Soft G x → Soft G' x := by
    intro j x hx hs
    have key : ∀ n q, x.msg.accOf = some (n, q) → (G.endf n x.dst q).ss ≠ none → (G'.endf n x.dst q).ss ≠ none := by
      intro n q hq h0
      rcases hendx j x hx n q hq with h1 | ⟨-, h1⟩
      · rw [h1 q (SeqNum.le_refl _)]; exact h0
      · exact absurd h1 h0
    unfold Soft at hs ⊢
    cases hm : x.msg <;> rw [hm] at hs <;> first | exact hs.elim | skip
    · exact key _ _ (by rw [hm]; rfl) hs
    · exact key _ _ (by rw [hm]; rfl) hs
  have hok : ∀ j x, x ∈ C.pre j ++ l1 ∨ x ∈ l2 → MsgOK C.cc G' x := fun j x hx => by
    have h0 := (hC.out j).msg x (hmem j x hx)
    refine ⟨h0.ne, h0.node, fun hl => ?_, h0.one, fun n q hq => ⟨(h0.lead n q hq).1, hS.acc_ne (h0.lead n q hq).2⟩,
      fun n q hq => by rw [hcur]; exact h0.fresh n q hq⟩
    have hl0 : x.Live G := fun n q hq => ⟨fun hd => (hl n q hq).1 (hS.dead _ _ _ hd), fun hd => (hl n q hq).2 (hd.mono hS.toMono)⟩
    refine (h0.body hl0).mono hS.toMono fun n q hq => ?_
    exact (hendx j x hx n q hq).resolve_right fun hd => hd.1.elim (hl0 n q hq).1 (hl0 n q hq).2
  have hAD := (hC.out C.i).msg _ (List.mem_append_right _ (List.mem_of_getElem? hk))
  have hne : F ≠ C.i := fun h => hAD.ne h.symm
  have hADok : MsgOK C.cc G' (⟨C.i, F, .acceptDecide a'⟩ : PaxosMessage E S) := by
    refine ⟨hAD.ne, hAD.node, fun hl => ?_, fun n q hq => (by cases hq), fun n q hq => ?_, fun n q hq => (by cases hq)⟩
    · have hl := hl s.ls.n_leader a.seq_num (by simp only [PaxosMsg.accOf, hn', hs', hn])
      exact hbody (fun hd => hl.1 (hS.dead _ _ _ hd)) fun hd => hl.2 (hd.mono hS.toMono)
    obtain ⟨h1, h2⟩ := hAD.lead n q (by simp only [PaxosMsg.accOf, hn', hs'] at hq ⊢; exact hq)
    exact ⟨h1, hS.acc_ne h2⟩
  have haccOf : (PaxosMsg.acceptDecide a' : PaxosMsg E S).accOf = (PaxosMsg.acceptDecide a : PaxosMsg E S).accOf := by
    simp only [PaxosMsg.accOf, hn', hs']
  have hlink : ∀ j, LinkOK C.cc G' (C.pre j) (l1 ++ (⟨C.i, F, .acceptDecide a'⟩ :: l2)) := by
    intro j
    have mono : ∀ x y, (y ∈ C.pre j ++ l1 ∨ y ∈ l2) → Seqd G x y → Seqd G' x y := fun x y hy hs n q q' h1 h2 h3 =>
      (hs n q q' h1 h2 h3).imp id fun h4 => ⟨h4.1, hsoft j y hy h4.2⟩
    have hbef' : ∀ x ∈ C.pre j ++ l1, ∀ y ∈ (⟨C.i, F, .acceptDecide a'⟩ : PaxosMessage E S) :: l2, Seqd G' x y := by
      intro x hx y hy
      rcases List.mem_cons.1 hy with rfl | hy
      · intro n q q' h1 h2 h3
        simp only [haccOf] at h2
        rcases hbef j x hx _ List.mem_cons_self n q q' h1 h2 h3 with h4 | ⟨-, h4⟩
        · exact .inl h4
        · simp [Soft] at h4
      · exact mono _ _ (.inr hy) (hbef j x hx y (List.mem_cons_of_mem _ hy))
    have hfr : ∀ x, (x ∈ l1 ∨ x ∈ l2) → ∀ n q, x.msg.accOf = some (n, q) → G'.curg n x.dst < q ∨ Soft G' x := by
      intro x hx n q hq
      have hx' : x ∈ C.pre j ++ l1 ∨ x ∈ l2 := hx.imp (List.mem_append_right _) id
      rw [hcur]
      refine ((hout j).fresh x ?_ n q hq).imp id (hsoft j x hx')
      rcases hx with hx | hx
      · exact List.mem_append_left _ hx
      · exact List.mem_append_right _ (List.mem_cons_of_mem _ hx)
    refine ⟨fun x hx => ?_, (hout j).ord, fun x hx => ?_, ?_, fun x hx y hy => ?_⟩
    · rw [← List.append_assoc] at hx
      rcases List.mem_append.1 hx with hx | hx
      · exact hok j x (.inl hx)
      · rcases List.mem_cons.1 hx with rfl | hx
        · exact hADok
        · exact hok j x (.inr hx)
    · rcases List.mem_append.1 hx with hx | hx
      · exact hfr x (.inl hx)
      · rcases List.mem_cons.1 hx with rfl | hx
        · intro n q hq
          simp only [haccOf] at hq
          rcases (hC.out C.i).fresh _ (List.mem_of_getElem? hk) n q hq with h1 | h1
          · left; rw [hcur]; exact h1
          · simp [Soft] at h1
        · exact hfr x (.inr hx)
    · have hp := List.pairwise_append.1 (hout j).seq
      have hp2 := List.pairwise_cons.1 hp.2.1
      rw [List.pairwise_append, List.pairwise_cons]
      refine ⟨hp.1.imp_of_mem fun _ hb hs => mono _ _ (.inl (List.mem_append_right _ hb)) hs, ⟨fun y hy => ?_,
        hp2.2.imp_of_mem fun _ hb hs => mono _ _ (.inr hb) hs⟩, fun x hx => hbef' x (List.mem_append_right _ hx)⟩
      have := mono _ _ (.inr hy) (hp2.1 y hy)
      intro n q q' h1 h2 h3
      exact this n q q' (by simp only [haccOf] at h1; exact h1) h2 h3
    · rcases List.mem_append.1 hy with hy | hy
      · exact mono _ _ (.inl (List.mem_append_right _ hy)) ((hout j).cross x hx y (List.mem_append_left _ hy))
      · exact hbef' x (List.mem_append_left _ hx) y hy
  have hmem' : ∀ j x, x ∈ C.pre j ++ s.outgoing.modify k (fun m => { m with msg := .acceptDecide a' }) →
      (x ∈ C.pre j ++ l1 ∨ x ∈ l2) ∨ x = ⟨C.i, F, .acceptDecide a'⟩ := by
    intro j x hx
    rw [he2, ← List.append_assoc] at hx
    rcases List.mem_append.1 hx with hx | hx
    · exact .inl (.inl hx)
    · rcases List.mem_cons.1 hx with rfl | hx
      · exact .inr rfl
      · exact .inl (.inr hx)
  refine ⟨⟨h.reach.step.trans hS, hA, fun j => ?_⟩, ?_, ?_, h.trail, h.role, h.phase⟩
  · exact (hlink j).nil
  · exact {
      pid := hC.pid
      node := hC.node
      peers := hC.peers
      quorum := hC.quorum
      maxpid := hC.maxpid
      lenA := hC.lenA
      disk := hC.disk.congr hS.toMono hacc hprec
      mir := hC.mir
      idx := hC.idx
      src := fun j x hx => by
        rcases hmem' j x hx with hx | rfl
        · exact hC.src j x (hmem j x hx)
        · rfl
      dst := hC.dst
      out := fun j => by
        show LinkOK _ _ (C.pre j) (s.outgoing.modify k _)
        rw [he2]
        exact hlink j
      lam := fun b k' hk' => by
        obtain ⟨m, a0, h1, h2⟩ := hC.lam b k' hk'
        refine ⟨m, a0, ?_, h2⟩
        rw [List.getElem?_modify, h1]
        by_cases hkk : k = k'
        · subst hkk
          rw [hk] at h1
          simp at h1
          subst h1
          simp at h2
        · simp [hkk]
      tok := by
        have h1 := hC.tok
        have h2 := fwds_modify (ms := s.outgoing) (k := k) (msg := .acceptDecide a') (P := G.mark) rfl
        rw [hS.mark, hho]
        simp only [SP.tok, SP.own] at *
        omega }
  · exact {
      ldr := hL.ldr
      own := hL.own
      acc := hL.acc
      batch := hL.batch
      max := by
        obtain ⟨lgs, m0, h1, h2, h3⟩ := hL.max
        exact ⟨lgs, m0, hS.init _ _ h1, hS.prec _ _ _ h2, h3⟩
      prom := fun F m hm => by
        obtain ⟨h1, h2, h3⟩ := hL.prom F m hm
        exact ⟨h1, h2, h3.mono hS.toMono⟩
      ends := fun X m l q hX hm ht hq => by
        by_cases hXF : X = F
        · subst hXF
          simp only [if_true] at ht
          exact hends m l q hm ht hq
        · simp only [hXF, if_false] at ht
          have := hL.ends X m l q hX hm ht hq
          simp only [hend _ X _ fun hc => absurd hc.2 hXF]
          exact this
      cur := fun X q hq => by rw [hcur]; exact hL.cur X q hq
      link := fun j x hx q h1 q' h2 => by
        rcases hmem' j x hx with hx | rfl
        · exact hL.link j x (hmem j x hx) q h1 q' h2
        · simp only [haccOf] at h1
          exact hL.link j _ (List.mem_append_right _ (List.mem_of_getElem? hk)) q h1 q' h2
      mets := fun X b k' hk' => by
        obtain ⟨h1, h0, h6, a0, h2, h3, h4, h5⟩ := hL.mets X b k' hk'
        have h6 := h6.imp id (·.mono hS.toMono)
        by_cases hkk : k = k'
        · subst hkk
          rw [hk] at h2
          simp only [Option.some.injEq, PaxosMessage.mk.injEq, PaxosMsg.acceptDecide.injEq, true_and] at h2
          obtain ⟨rfl, rfl⟩ := h2
          refine ⟨h1, h0, h6, a', ?_, by rw [hn', hn], by rw [hs']; exact h4, ?_⟩
          · simp [List.getElem?_modify, hk]
          · simp only [if_true]
            refine hmets.of (Mono.refl _) (fun j x q hx hq hd => ?_) rfl hs'
            rcases hmem' j x hx with hx | rfl
            · exact .inl (hmem j x hx)
            · simp only [PaxosMsg.accOf, hn', hs', Option.some.injEq, Prod.mk.injEq] at hq
              exact .inr (.inl (by rw [hq.2]; exact SeqNum.le_refl _))
        · refine ⟨h1, h0, h6, a0, ?_, h3, h4, ?_⟩
          · simp [List.getElem?_modify, h2, hkk]
          · by_cases hXF : X = F
            · subst hXF
              rw [show slot _ X = _ from hslot] at hk'
              simp at hk'
              exact absurd hk'.2 hkk
            · simp only [hXF, if_false]
              refine h5.of hS.toMono (fun j x q hx hq hd => ?_) (hend _ _ _ fun hc => absurd hc.2 hXF) rfl
              rcases hmem' j x hx with hx | rfl
              · exact .inl (hmem j x hx)
              · exact absurd hd.symm hXF
      dead := by rw [hdead]; exact hL.dead
      accs := fun X k0 hk0 h0 => by
        obtain ⟨h1, a0, h2, h3⟩ := hL.accs X k0 hk0 h0
        obtain ⟨a1, h4, h5⟩ := hS.acc _ _ _ h2
        exact ⟨h1, a1, h4, h3.mono h5⟩ }

/-- What `get_latest_accdec` finds. -/
theorem latest_accdec (h : C.LeadSt todo G s lg) {F : NodeId} {r : Option (Nat × AcceptDecide E)}
    (hr : s.get_latest_accdec F = some r) :
    (r = none ∧ ∀ x, slot s.ls.latest_accept_meta F ≠ some (some x)) ∨
    (∃ k a, r = some (k, a) ∧ slot s.ls.latest_accept_meta F = some (some (s.ls.n_leader, k)) ∧
      s.outgoing[k]? = some ⟨C.i, F, .acceptDecide a⟩ ∧ a.n = s.ls.n_leader ∧ 1 ≤ a.seq_num.counter ∧
      Waits C.pre s.outgoing G s.ls.n_leader F (todo F) a ∧ ∃ q0, slot s.ls.follower_seq_nums F = some q0) := by
  simp only [SP.get_latest_accdec, LeaderState.get_latest_accept_meta] at hr
  cases hx : slot s.ls.latest_accept_meta F with
  | none => rw [hx] at hr; simp at hr
  | some o =>
    cases o with
    | none => rw [hx] at hr; simp at hr; subst hr; exact .inl ⟨rfl, by simp⟩
    | some x =>
      obtain ⟨b, k⟩ := x
      obtain ⟨rfl, h0, -, a, h1, h2, h3, h4⟩ := h.lead.mets F b k hx
      rw [hx] at hr
      simp only [if_true, h1, Option.some.injEq] at hr
      subst hr
      exact .inr ⟨k, a, rfl, rfl, h1, h2, h3, h4, h0⟩

/-- Facts the loops over followers keep. -/
structure Same (s s' : SP E S) : Prop where
  prom : s'.ls.promises_meta = s.ls.promises_meta
  ldr : s'.ls.n_leader = s.ls.n_leader
  ist : s'.ist = s.ist

theorem Same.refl (s : SP E S) : Same s s := ⟨rfl, rfl, rfl⟩
theorem Same.trans {s s' s'' : SP E S} (h : Same s s') (h' : Same s' s'') : Same s s'' :=
  ⟨h'.prom.trans h.prom, h'.ldr.trans h.ldr, h'.ist.trans h.ist⟩

/-- All messages to `F` so far lead to `l`. -/
theorem LeadSt.ends_le (h : C.LeadSt todo G s lg) {F : NodeId} {m : PromiseMetaData} {l : Lg E} {q : SeqNum} (hF : F ≠ C.i)
    (hm : slot s.ls.promises_meta F = some (.promised m)) (ht : todo F = some l) (hq : slot s.ls.follower_seq_nums F = some q) :
    ∀ q', G.endf s.ls.n_leader F q' ≤ l := by
  have he := (h.lead.ends F m l q hF hm ht hq).1
  intro q'
  by_cases hc : q ≤ q'
  · rw [he q' hc]; exact Lg.le_refl _
  · have := h.reach.abs.endMono s.ls.n_leader F q' q (SeqNum.le_of_lt (SeqNum.not_le.1 hc))
    rw [he q (SeqNum.le_refl _)] at this
    exact this

theorem next_seq {ls : LeaderState E S} {F : NodeId} {r : LeaderState E S × SeqNum} (h : ls.next_seq_num F = some r) :
    ∃ q0 w, slot ls.follower_seq_nums F = some q0 ∧ r = ({ ls with follower_seq_nums := w }, { q0 with counter := q0.counter + 1 }) ∧
      slot w F = some { q0 with counter := q0.counter + 1 } ∧ ∀ X, X ≠ F → slot w X = slot ls.follower_seq_nums X := by
  simp only [LeaderState.next_seq_num] at h
  split at h
  · simp at h
  · rename_i q hq
    split at h
    · simp at h
    · rename_i v hv
      simp at h
      obtain ⟨-, -, -, h1, h2⟩ := setSlot_spec hv
      exact ⟨q, v, hq, h.symm, h1, h2⟩

theorem SeqNum.lt_next (q : SeqNum) : q < { q with counter := q.counter + 1 } := .inr ⟨rfl, Nat.lt_succ_self _⟩
theorem SeqNum.pred_next (q : SeqNum) : ({ q with counter := q.counter + 1 } : SeqNum).pred = q := rfl

/-- Entries sent to one follower. -/
theorem send_acceptdecide_to_sat (h : C.LeadSt todo G s lg) {F : NodeId} {m : PromiseMetaData} {l : Lg E} {es : List E} (hF : F ≠ C.i)
    (hm : slot s.ls.promises_meta F = some (.promised m)) (ht : todo F = some l) (hs : l.ss = none)
    (hle : (⟨l.es ++ es, none⟩ : Lg E) ≤ lg) :
    M.Sat (SP.send_acceptdecide_to es F) s
      (fun _ s' => Same s s' ∧ ∃ G', C.LeadSt (fun X => if X = F then some ⟨l.es ++ es, none⟩ else todo X) G' s' lg) C.Bad := by
  unfold SP.send_acceptdecide_to
  rw [M.sat_bind, M.sat_get, M.sat_bind, M.sat_ofPan]
  refine ⟨fun r hr => ?_, fun _ => h.bad⟩
  have hdec : G.DecMsg C.cc s.ls.n_leader s.ist.cache.decided_idx := by
    have := h.core.disk.dec.msg
    rw [← h.core.mir.acc, h.lead.acc, ← h.core.mir.dec] at this
    exact this
  have hl : l ≤ ⟨l.es ++ es, none⟩ := Lg.append_le hs
  rcases latest_accdec h hr with ⟨rfl, hno⟩ | ⟨k, a, rfl, h1, h2, h3, h4, h5, q0, hq0⟩
  · simp only
    rw [M.sat_bind, SP.sat_onLS]
    refine ⟨fun ls hls => ?_, fun _ => h.bad⟩
    simp only [LeaderState.set_latest_accept_meta] at hls
    split at hls
    · simp at hls
    · rename_i w2 hw2
      simp at hls
      subst hls
      obtain ⟨-, -, -, hw2F, hw2o⟩ := setSlot_spec hw2
      rw [M.sat_bind, SP.sat_onLS']
      refine ⟨fun r hr => ?_, fun _ => h.bad.of_ist rfl⟩
      obtain ⟨q0, w, hq0, rfl, hwF, hwo⟩ := next_seq hr
      simp only at hq0 hwo
      rw [SP.sat_send]
      refine ⟨⟨rfl, rfl, rfl⟩, _, lead_send (v := ⟨l.es ++ es, none⟩) (q := { q0 with counter := q0.counter + 1 }) h hF hq0 (SeqNum.lt_next q0) hwF hwo hw2o
        (D := False) nofun ?_ rfl ?_ hle ?_ nofun fun _ => ?_⟩
      · intro b k hbk
        rw [hw2F] at hbk
        simp at hbk
        obtain ⟨rfl, rfl⟩ := hbk
        exact .inr ⟨rfl, rfl, ⟨m, hm⟩, _, rfl, Nat.le_add_left 1 _⟩
      · intro q'
        exact Lg.le_trans (h.ends_le hF hm ht hq0 q') hl
      · intro hx; simp at hx
      · have he := (h.lead.ends F m l q0 hF hm ht hq0).1 q0 (SeqNum.le_refl _)
        refine ⟨?_, hdec.mono ?_⟩
        · show (Ghost.endf (Ghost.bump _ _ _ _ _) _ _ _).es = (Ghost.endf (Ghost.bump _ _ _ _ _) _ _ (SeqNum.pred _)).es ++ es
          rw [SeqNum.pred_next, Ghost.bump_at, Ghost.bump_lt (SeqNum.lt_next q0)]
          show _ = (G.endf _ _ _).es ++ es
          rw [he]
        · exact Ghost.kill_bump_mono
  · simp only
    rw [SP.sat_setMsg]
    refine ⟨⟨rfl, rfl, rfl⟩, G.bump s.ls.n_leader F a.seq_num ⟨l.es ++ es, none⟩, ?_⟩
    have hbeh := h5.resolve_left fun h5 => h5 l ht hs
    have hmsg := (h.core.out C.i).msg _ (List.mem_append_right _ (List.mem_of_getElem? h2))
    have hcur : G.curg s.ls.n_leader F < a.seq_num := by
      rcases (h.core.out C.i).fresh _ (List.mem_of_getElem? h2) a.n a.seq_num rfl with hx | hx
      · rw [h3] at hx; exact hx
      · simp [Soft] at hx
    have hle0 : a.seq_num ≤ q0 := h.lead.link C.i _ (List.mem_append_right _ (List.mem_of_getElem? h2)) a.seq_num
      (by simp [PaxosMsg.accOf, h3]) q0 hq0
    have hel := h.ends_le hF hm ht hq0
    have hv : ∀ q', G.endf s.ls.n_leader F q' ≤ ⟨l.es ++ es, none⟩ := fun q' => Lg.le_trans (hel q') hl
    refine lead_merge h h1 h2 h3 rfl rfl (Ghost.bump_step h.lead.own hcur hv)
      (Ghost.bump_abs h.reach.abs h.acc' hle hcur hv) (fun _ => rfl) (fun _ => rfl) rfl rfl rfl (fun _ _ => rfl) ?_ (.inr ⟨?_, hbeh.imp id (·.2)⟩) ?_ ?_ fun hlive hgone => ?_
    · intro n X q hc
      simp only [Ghost.bump]
      rw [if_neg]
      rintro ⟨h6, h7, h8⟩
      exact SeqNum.lt_irrefl _ (SeqNum.lt_of_lt_of_le (hc ⟨h6, h7⟩) h8)
    · intro q
      rcases hel q with hx | hx
      · exact hx.1
      · rw [hx]; exact hs
    · intro m' l' q hm' hl' hq
      rw [hq0] at hq
      simp at hl' hq
      subst hl'; subst hq
      exact ⟨fun q' hq' => by simp [Ghost.bump, SeqNum.le_trans hle0 hq'], fun hx => by simp at hx⟩
    · exact hbeh.elim (fun hg => .inr (.inl hg)) fun hbeh => .inr (.inr ⟨fun x hx => by
        simp only [Option.some.injEq] at hx
        rw [← hx]
        exact Ghost.bump_at .., hbeh.2⟩)
    · have hb := hmsg.body fun n q hq => by
        simp only [PaxosMsg.accOf, Option.some.injEq, Prod.mk.injEq] at hq
        rw [← hq.1, ← hq.2, h3]; exact ⟨hlive, hgone⟩
      have he := (hbeh.resolve_left hgone).1 l ht
      simp only [MsgBody] at hb ⊢
      rw [h3] at hb ⊢
      refine ⟨?_, hdec.mono (Ghost.bump_mono _ _ _ _ _)⟩
      rw [Ghost.bump_at, Ghost.bump_lt (SeqNum.pred_lt h4), ← List.append_assoc, ← hb.1, he]

theorem Same.followers {s s' : SP E S} (h : Same s s') : s'.ls.get_promised_followers = s.ls.get_promised_followers := by
  unfold LeaderState.get_promised_followers; rw [h.prom, h.ldr]

/-- Loop over the promised followers, moving each from `l` to `l'`. -/
theorem lead_loop {l l' : Lg E} {body : NodeId → M (SP E S) Unit}
    (h : C.LeadSt (fun _ => some l) G s lg)
    (hb : ∀ todo G' s' F m, Same s s' → C.LeadSt todo G' s' lg → F ≠ C.i → slot s'.ls.promises_meta F = some (.promised m) →
      todo F = some l → M.Sat (body F) s'
        (fun _ s'' => Same s' s'' ∧ ∃ G'', C.LeadSt (fun X => if X = F then some l' else todo X) G'' s'' lg) C.Bad) :
    M.Sat (M.forEach s.ls.get_promised_followers body) s
      (fun _ s' => Same s s' ∧ ∃ G', C.LeadSt (fun _ => some l') G' s' lg) C.Bad := by
  refine M.sat_mono (M.sat_forEach_rem
    (fun r s' => Same s s' ∧ ∃ G', C.LeadSt (fun X => if X ∈ r then some l else some l') G' s' lg) ⟨Same.refl s, G, ?_⟩ ?_)
    (fun _ s' h => ?_) (fun _ h => h)
  · exact h.retodo fun F hF => by simp [hF]
  · rintro F r s' hsuf ⟨hsame, G', h'⟩
    have hmem : F ∈ s.ls.get_promised_followers := hsuf.subset List.mem_cons_self
    have hnd : F ∉ r := (List.nodup_cons.1 ((LeaderState.followers_nodup s.ls).sublist hsuf.sublist)).1
    obtain ⟨h1, m, h2⟩ := LeaderState.mem_followers.1 hmem
    rw [h.lead.own] at h1
    refine M.sat_mono (hb _ G' s' F m hsame h' h1 (by rw [hsame.prom]; exact h2) (by simp)) ?_ (fun _ h => h)
    rintro _ s'' ⟨h3, G'', h4⟩
    refine ⟨hsame.trans h3, G'', ?_⟩
    have : (fun X => if X ∈ r then some l else some l') = (fun X => if X = F then some l' else if X ∈ F :: r then some l else some l') := by
      funext X
      by_cases hX : X = F
      · subst hX; simp [hnd]
      · simp [hX]
    rw [this]
    exact h4
  · simpa using h

theorem send_acceptdecide_sat {l : Lg E} {es : List E} (h : C.LeadSt (fun _ => some l) G s lg) (hs : l.ss = none)
    (hle : (⟨l.es ++ es, none⟩ : Lg E) ≤ lg) :
    M.Sat (SP.send_acceptdecide es) s
      (fun _ s' => Same s s' ∧ ∃ G', C.LeadSt (fun _ => some ⟨l.es ++ es, none⟩) G' s' lg) C.Bad := by
  unfold SP.send_acceptdecide
  rw [M.sat_bind, M.sat_get]
  exact lead_loop h fun todo G' s' F m _ h' hF hm ht => send_acceptdecide_to_sat h' hF hm ht hs hle

theorem seqNumFor_false {F : NodeId} {Q P} : M.Sat (SP.seqNumFor F false) s Q P ↔
    (∀ r, s.ls.next_seq_num F = some r → Q r.2 { s with ls := r.1 }) ∧ (s.ls.next_seq_num F = none → P s) := by
  unfold SP.seqNumFor; simp

theorem seqNumFor_true {F : NodeId} {Q P} : M.Sat (SP.seqNumFor F true) s Q P ↔
    (∀ q, slot s.ls.follower_seq_nums F = some q → Q q s) ∧ (slot s.ls.follower_seq_nums F = none → P s) := by
  unfold SP.seqNumFor
  simp [LeaderState.get_seq_num]

theorem send_accept_stopsign_sat (h : C.LeadSt todo G s lg) {F : NodeId} {m : PromiseMetaData} {es : List E} {ss : StopSign}
    (hF : F ≠ C.i) (hm : slot s.ls.promises_meta F = some (.promised m)) (ht : todo F = some ⟨es, none⟩) (hlg : lg = ⟨es, some ss⟩) :
    M.Sat (SP.send_accept_stopsign F ss false) s
      (fun _ s' => Same s s' ∧ ∃ G', C.LeadSt (fun X => if X = F then some lg else todo X) G' s' lg) C.Bad := by
  unfold SP.send_accept_stopsign
  rw [M.sat_bind, seqNumFor_false]
  refine ⟨fun r hr => ?_, fun _ => h.bad⟩
  obtain ⟨q0, w, hq0, rfl, hwF, hwo⟩ := next_seq hr
  simp only [M.sat_bind, M.sat_get, SP.sat_send]
  have he := (h.lead.ends F m _ q0 hF hm ht hq0).1 q0 (SeqNum.le_refl _)
  refine ⟨⟨rfl, rfl, rfl⟩, _, lead_send (v := lg) (q := { q0 with counter := q0.counter + 1 }) h hF hq0 (SeqNum.lt_next q0) hwF hwo
    (fun _ _ => rfl) (D := False) nofun (fun b k hbk => .inl ⟨hbk, .inl (by rw [hlg]; simp)⟩) rfl (fun q' => h.endLe F q') (Lg.le_refl _) ?_
    nofun fun _ => ?_⟩
  · intro _ _
    rw [SeqNum.pred_next, he, hlg]
  · simp only [MsgBody]
    rw [Ghost.bump_at, SeqNum.pred_next, Ghost.bump_lt (SeqNum.lt_next q0), show Ghost.endf (Ghost.kill _ _ _ _ _) _ _ q0 = _ from he, hlg]
    exact ⟨rfl, fun _ => rfl⟩

theorem send_decide_sat (h : C.LeadSt todo G s lg) {F : NodeId} {m : PromiseMetaData} {l : Lg E} {d : Nat}
    (hF : F ≠ C.i) (hm : slot s.ls.promises_meta F = some (.promised m)) (ht : todo F = some l) (hl : l ≤ lg)
    (hno : ∀ x, slot s.ls.latest_accept_meta F ≠ some (some x)) (hd : G.DecMsg C.cc s.ls.n_leader d) :
    M.Sat (SP.send_decide F d false) s
      (fun _ s' => Same s s' ∧ ∃ G', C.LeadSt (fun X => if X = F then some l else todo X) G' s' lg) C.Bad := by
  unfold SP.send_decide
  rw [M.sat_bind, seqNumFor_false]
  refine ⟨fun r hr => ?_, fun _ => h.bad⟩
  obtain ⟨q0, w, hq0, rfl, hwF, hwo⟩ := next_seq hr
  simp only [M.sat_bind, M.sat_get, SP.sat_send]
  have he := (h.lead.ends F m _ q0 hF hm ht hq0).1 q0 (SeqNum.le_refl _)
  refine ⟨⟨rfl, rfl, rfl⟩, _, lead_send (v := l) (q := { q0 with counter := q0.counter + 1 }) h hF hq0 (SeqNum.lt_next q0) hwF hwo
    (fun _ _ => rfl) (D := False) nofun (fun b k hbk => absurd hbk (hno _)) rfl (h.ends_le hF hm ht hq0) hl ?_ nofun fun _ => ?_⟩
  · intro _ _
    rw [SeqNum.pred_next, he]
  · simp only [MsgBody]
    rw [Ghost.bump_at, SeqNum.pred_next, Ghost.bump_lt (SeqNum.lt_next q0), show Ghost.endf (Ghost.kill _ _ _ _ _) _ _ q0 = _ from he]
    exact ⟨fun _ => rfl, hd.mono Ghost.kill_bump_mono⟩

theorem announce_decided_sat (h : C.LeadSt todo G s lg) {F : NodeId} {m : PromiseMetaData} {l : Lg E} {d : Nat}
    (hF : F ≠ C.i) (hm : slot s.ls.promises_meta F = some (.promised m)) (ht : todo F = some l) (hl : l ≤ lg)
    (hd : G.DecMsg C.cc s.ls.n_leader d) :
    M.Sat (SP.announce_decided d F) s
      (fun _ s' => Same s s' ∧ ∃ G', C.LeadSt (fun X => if X = F then some l else todo X) G' s' lg) C.Bad := by
  unfold SP.announce_decided
  rw [M.sat_bind, M.sat_get, M.sat_bind, M.sat_ofPan]
  refine ⟨fun r hr => ?_, fun _ => h.bad⟩
  rcases latest_accdec h hr with ⟨rfl, hno⟩ | ⟨k, a, rfl, h1, h2, h3, h4, h5⟩
  · exact send_decide_sat h hF hm ht hl hno hd
  · simp only
    rw [SP.sat_setMsg]
    refine ⟨⟨rfl, rfl, rfl⟩, G, ?_⟩
    have hmsg := (h.core.out C.i).msg _ (List.mem_append_right _ (List.mem_of_getElem? h2))
    refine lead_merge h h1 h2 h3 rfl rfl (Step.refl _ _ _) h.reach.abs (fun _ => rfl) (fun _ => rfl) rfl rfl rfl (fun _ _ => rfl)
      (fun _ _ _ _ => rfl) (.inl rfl) ?_ ?_ fun hlive hgone => ?_
    · intro m' l' q hm' hl' hq
      simp at hl'
      subst hl'
      exact h.lead.ends F m l q hF hm ht hq
    · rw [ht] at h5; exact h5.1
    · have hb := hmsg.body fun n q hq => by
        simp only [PaxosMsg.accOf, Option.some.injEq, Prod.mk.injEq] at hq
        rw [← hq.1, ← hq.2, h3]; exact ⟨hlive, hgone⟩
      simp only [MsgBody] at hb ⊢
      rw [h3] at hb ⊢
      exact ⟨hb.1, hd⟩

theorem resend_stopsign_sat (h : C.LeadSt todo G s lg) {F : NodeId} {m : PromiseMetaData} {ss : StopSign}
    (hF : F ≠ C.i) (hm : slot s.ls.promises_meta F = some (.promised m)) (ht : todo F = some lg) (hss : lg.ss = some ss) :
    M.Sat (SP.resend_stopsign ss F) s (fun _ s' => Same s s' ∧ C.LeadSt todo G s' lg) C.Bad := by
  have hne : lg.ss ≠ none := by rw [hss]; simp
  have hdec : G.DecMsg C.cc s.ls.n_leader s.ist.cache.decided_idx := by
    have := h.core.disk.dec.msg
    rw [← h.core.mir.acc, h.lead.acc, ← h.core.mir.dec] at this
    exact this
  unfold SP.resend_stopsign
  rw [M.sat_bind, M.sat_get, M.sat_ite]
  constructor
  · intro _
    unfold SP.send_decide
    rw [M.sat_bind, seqNumFor_true]
    refine ⟨fun q hq => ?_, fun _ => h.bad⟩
    obtain ⟨h1, h2⟩ := h.lead.ends F m lg q hF hm ht hq
    have he := h1 q (SeqNum.le_refl _)
    simp only [M.sat_bind, M.sat_get, SP.sat_send]
    refine ⟨⟨rfl, rfl, rfl⟩, lead_resend h hF hq rfl ?_ ?_ fun l hl => by rw [ht] at hl; simp at hl; subst hl; exact hne⟩
    · simp only [Soft]; rw [he]; exact hne
    · simp only [MsgBody]; rw [he]; exact ⟨fun h3 => (h2 hne h3).symm, hdec⟩
  · intro _
    rw [M.sat_bind, M.sat_ofPan]
    refine ⟨fun a _ => ?_, fun _ => h.bad⟩
    rw [M.sat_ite, M.sat_pure]
    refine ⟨fun _ => ?_, fun _ => ⟨Same.refl s, h⟩⟩
    unfold SP.send_accept_stopsign
    rw [M.sat_bind, seqNumFor_true]
    refine ⟨fun q hq => ?_, fun _ => h.bad⟩
    obtain ⟨h1, h2⟩ := h.lead.ends F m lg q hF hm ht hq
    have he := h1 q (SeqNum.le_refl _)
    simp only [M.sat_bind, M.sat_get, SP.sat_send]
    refine ⟨⟨rfl, rfl, rfl⟩, lead_resend h hF hq rfl ?_ ?_ fun l hl => by rw [ht] at hl; simp at hl; subst hl; exact hne⟩
    · simp only [Soft]; rw [he]; exact hne
    · simp only [MsgBody]; rw [he]; exact ⟨hss, fun h3 => (h2 hne h3).symm⟩

theorem resend_messages_leader_inv (hR : C.Reach G) (hC : C.CoreC G s lg) (hr : RoleInv C.cc C.i C.pre G s lg) (hT : C.Trail s)
    (hl : s.role = .leader) : M.Sat SP.resend_messages_leader s (fun _ => C.Inv) C.Bad := by
  unfold SP.resend_messages_leader
  rw [M.sat_bind, M.sat_get]
  split
  · exact resend_prepare_inv hR hC hr hT hl
  · rename_i hp
    have h := LeadSt.of hR hC hr hT hl hp
    rw [M.sat_bind]
    have key : M.Sat SP.resend_stopsigns s (fun _ s' => Same s s' ∧ C.LeadSt (fun _ => some lg) G s' lg) C.Bad := by
      unfold SP.resend_stopsigns
      rw [M.sat_bind, M.sat_get]
      split
      · rename_i ss hss
        refine M.sat_forEach (fun s' => Same s s' ∧ C.LeadSt (fun _ => some lg) G s' lg) ⟨Same.refl s, h⟩ ?_
        rintro F hF s' ⟨h1, h2⟩
        obtain ⟨h3, m, h4⟩ := LeaderState.mem_followers.1 hF
        rw [h.lead.own] at h3
        refine M.sat_mono (resend_stopsign_sat h2 h3 (by rw [h1.prom]; exact h4) rfl ?_) (fun _ s'' hx => ⟨h1.trans hx.1, hx.2⟩) (fun _ h => h)
        rw [← hC.disk.ss, ← hC.mir.ss]; exact hss
      · exact ⟨Same.refl s, h⟩
    refine M.sat_mono key (fun _ s' hx => ?_) (fun _ h => h)
    obtain ⟨-, hx⟩ := hx
    obtain ⟨G', hR', ⟨lg', hC', hr'⟩, hT'⟩ := hx.inv
    exact resend_prepare_inv hR' hC' hr' hT' hx.role
  · exact ⟨G, hR, ⟨lg, hC, hr⟩, hT⟩
  · exact ⟨G, hR, ⟨lg, hC, hr⟩, hT⟩

end Ctx
end Omni
