import Verif.Proof.Oust.Inv
/-
A leader that falls silent: the stages of the search for a new one.
-/
namespace Omni

variable {E S : Type} [SnapOps E S] {cc : ClusterConfig} {n : Ballot} {L : List NodeId} {pr : NodeId → Nat}
variable {c c1 c2 c' : Cluster E S} {bl bl1 bl2 bl' : NodeId → BLE} {a : Action E S} {as bs : List (Action E S)} {i j k : NodeId}

/-! ### Runs -/

inductive Trek (cc : ClusterConfig) (n : Ballot) (L : List NodeId) (pr : NodeId → Nat) : Cluster E S → (NodeId → BLE) → List (Action E S) → Cluster E S → (NodeId → BLE) → Prop
  | nil {c : Cluster E S} {bl : NodeId → BLE} (h : Hunt cc n L pr c bl) : Trek cc n L pr c bl [] c bl
  | cons {c c1 c2 : Cluster E S} {bl bl1 bl2 : NodeId → BLE} {a : Action E S} {as : List (Action E S)} (h : Move cc n L pr c bl a c1 bl1)
      (ht : Trek cc n L pr c1 bl1 as c2 bl2) : Trek cc n L pr c bl (a :: as) c2 bl2

namespace Trek

theorem hunt (h : Trek cc n L pr c bl as c' bl') : Hunt cc n L pr c bl := by
  cases h with
  | nil h => exact h
  | cons h _ => exact h.before

theorem hunt_end (h : Trek cc n L pr c bl as c' bl') : Hunt cc n L pr c' bl' := by
  induction h with
  | nil h => exact h
  | cons _ _ ih => exact ih

theorem path (h : Trek cc n L pr c bl as c' bl') (hL : ∀ x ∈ L, x ∈ cc.nodes) : Path (Word cc n L pr) cc c bl as c' bl' := by
  induction h with
  | nil h => exact .nil h.bles
  | cons h _ ih => exact .cons h.before.bles (h.of.calm hL) h.step h.moves ih

theorem run (h : Trek cc n L pr c bl as c' bl') : c.run cc as = some c' := by
  induction h with
  | nil => rfl
  | cons h _ ih => simp only [Cluster.run, h.step, ih]

theorem append (h : Trek cc n L pr c bl as c1 bl1) (h' : Trek cc n L pr c1 bl1 bs c2 bl2) : Trek cc n L pr c bl (as ++ bs) c2 bl2 := by
  induction h with
  | nil => exact h'
  | cons h _ ih => exact .cons h (ih h')

theorem split (h : Trek cc n L pr c bl (as ++ bs) c2 bl2) : ∃ c1 bl1, Trek cc n L pr c bl as c1 bl1 ∧ Trek cc n L pr c1 bl1 bs c2 bl2 := by
  induction as generalizing c bl with
  | nil => exact ⟨c, bl, .nil h.hunt, h⟩
  | cons a as ih =>
    cases h with
    | cons h ht =>
      obtain ⟨c1, bl1, h1, h2⟩ := ih ht
      exact ⟨c1, bl1, .cons h h1, h2⟩

/-- What every action keeps. -/
theorem keep {F : (NodeId → BLE) → (NodeId → NodeId → List (Message E S)) → Prop}
    (hF : ∀ {c bl a c' bl'}, Move cc n L pr c bl a c' bl' → F bl c.net → F bl' c'.net)
    (h : Trek cc n L pr c bl as c' bl') (h0 : F bl c.net) : F bl' c'.net := by
  induction h with
  | nil => exact h0
  | cons h _ ih => exact ih (hF h h0)

/-- What holds from the next election timeout of `k`. -/
theorem reach {F G : (NodeId → BLE) → (NodeId → NodeId → List (Message E S)) → Prop} (k : NodeId)
    (hF : ∀ {c bl a c' bl'}, Move cc n L pr c bl a c' bl' → F bl c.net → F bl' c'.net)
    (hG : ∀ {c bl a c' bl'}, Move cc n L pr c bl a c' bl' → F bl c.net → G bl c.net ∨ (bl' k).hb_round ≠ (bl k).hb_round → G bl' c'.net)
    (h : Trek cc n L pr c bl as c' bl') (h0 : F bl c.net) (hk : G bl c.net ∨ (bl' k).hb_round ≠ (bl k).hb_round) : G bl' c'.net := by
  induction h with
  | nil => exact hk.resolve_right fun h => h rfl
  | @cons c c1 c2 bl bl1 bl2 a as h _ ih =>
    refine ih (hF h h0) ?_
    by_cases e : (bl1 k).hb_round = (bl k).hb_round
    · rcases hk with hk | hk
      · exact .inl (hG h h0 (.inl hk))
      · exact .inr (by rw [e]; exact hk)
    · exact .inl (hG h h0 (.inr e))

end Trek

/-! ### Election timeouts in beats -/

theorem tick_election {op' : OP E S} {op : OP E S} (hs : c.step cc (.call i .tick) = some c') (hop : c.servers i = .up op) (hop' : c'.servers i = .up op') :
    op'.ble = op.clearTrail.elects.2 ∧ op'.election_clock = op.election_clock.tick_and_check_timeout.2 ∧
      op'.ble.hb_round = op.ble.hb_round + (if op.election_clock.tick_and_check_timeout.1 then 1 else 0) := by
  simp only [Cluster.step, hop, Call.isIncoming, Bool.false_eq_true, if_false, Option.some.injEq] at hs
  subst hs
  rw [Cluster.setServer_self] at hop'
  constructor
  · rcases callResult_sat (op := op) (call := .tick) (Q := fun o => True ∧ o.ble = op.clearTrail.elects.2) (P := fun _ => True)
      (OP.tick_parts (Q := fun _ => True) (P := fun _ => True) fun r w _ _ => M.sat_true _ _) with ⟨o, e3, -, e5⟩ | ⟨o, e3, -⟩
    · rw [e3] at hop'; cases hop'; exact e5
    · rw [e3] at hop'; cases hop'
  · rcases callResult_sat (Call.run_clocks .tick op.clearTrail) with ⟨o, e3, e5⟩ | ⟨o, e3, -⟩
    · rw [e3] at hop'; cases hop'
      obtain ⟨e1, _, _, e2⟩ := e5.1 rfl
      exact ⟨e1, e2⟩
    · rw [e3] at hop'; cases hop'

/-- One beat. -/
theorem Cluster.LBeat.round (h : c.LBeat cc L as) (hr : c.run cc as = some c') (hi : i ∈ L) {op' : OP E S} (hop : c'.servers i = .up op') :
    ∃ op, c.servers i = .up op ∧ op'.election_clock = op.election_clock.tick_and_check_timeout.2 ∧
      op'.ble.hb_round = op.ble.hb_round + (if op.election_clock.tick_and_check_timeout.1 then 1 else 0) := by
  obtain ⟨p, q, rfl, hp, hq⟩ := split_tick (h.ticks i hi)
  rw [Cluster.run_append] at hr
  cases h1 : c.run cc p with
  | none => rw [h1] at hr; cases hr
  | some c1 =>
    rw [h1, Option.bind_some] at hr
    simp only [Cluster.run] at hr
    cases hs : c1.step cc (.call i .tick) with
    | none => rw [hs] at hr; cases hr
    | some c2 =>
      rw [hs] at hr
      obtain ⟨op2, u2, e1, e2, e3⟩ := run_clocks (fun b hb => h.calm b (by simp [hb])) hr hq hop
      obtain ⟨op1, u1, -⟩ := step_clocks (cc := cc) (h.calm _ (by simp)) hs u2
      obtain ⟨-, t1, t2⟩ := tick_election hs u1 u2
      obtain ⟨op, u0, f1, f2, f3⟩ := run_clocks (fun b hb => h.calm b (by simp [hb])) h1 hp u1
      exact ⟨op, u0, by rw [e1, t1, f1], by rw [e3, t2, f1, f3]⟩

/-- The election clocks run, and go round in `e` ticks at most. -/
def Ready (L : List NodeId) (e : Nat) (c : Cluster E S) : Prop :=
  ∀ i ∈ L, ∀ op, c.servers i = .up op → op.election_clock.time < op.election_clock.timeout ∧ op.election_clock.timeout ≤ e

theorem Cluster.LBeats.ready {bss : List (List (Action E S))} {e : Nat} (h : Cluster.LBeats cc L c bss c') (hr : Ready L e c) : Ready L e c' := by
  induction h with
  | nil => exact hr
  | cons h1 h2 _ ih =>
    refine ih fun i hi op hop => ?_
    obtain ⟨op0, u0, e1, -⟩ := h1.round h2 hi hop
    obtain ⟨r1, r2⟩ := hr i hi op0 u0
    rw [e1, LogicalClock.tick_timeout]
    exact ⟨LogicalClock.tick_lt r1, r2⟩

theorem Cluster.LBeats.turn {bss : List (List (Action E S))} (h : Cluster.LBeats cc L c bss c') (hi : i ∈ L) {op' : OP E S} (hop' : c'.servers i = .up op') :
    ∃ op, c.servers i = .up op ∧ op.ble.hb_round ≤ op'.ble.hb_round ∧
      (op.election_clock.time < op.election_clock.timeout → op.election_clock.timeout ≤ op.election_clock.time + bss.length → op'.ble.hb_round ≠ op.ble.hb_round) := by
  induction h with
  | nil => exact ⟨op', hop', Nat.le_refl _, fun h1 h2 => absurd h2 (Nat.not_le.2 h1)⟩
  | cons h1 h2 _ ih =>
    obtain ⟨op1, u1, r1, t1⟩ := ih hop'
    obtain ⟨op, u, e1, e2⟩ := h1.round h2 hi u1
    refine ⟨op, u, Nat.le_trans (by omega) r1, fun h3 h4 => ?_⟩
    by_cases hf : op.election_clock.tick_and_check_timeout.1 = true
    · rw [if_pos hf] at e2; omega
    · rw [if_neg hf] at e2
      have hne : ¬ op.election_clock.time + 1 = op.election_clock.timeout := fun e => hf (by unfold LogicalClock.tick_and_check_timeout; rw [if_pos e])
      have e3 : op1.election_clock = { op.election_clock with time := op.election_clock.time + 1 } := by
        rw [e1]; unfold LogicalClock.tick_and_check_timeout; rw [if_neg hne]
      rw [e3] at t1
      simp only [List.length_cons] at h4
      have := t1 (by simp only; omega) (by simp only; omega)
      omega

/-! ### The stages -/

/-- Part of the run, of `m` beats. -/
def Leg (cc : ClusterConfig) (n : Ballot) (L : List NodeId) (pr : NodeId → Nat) (e m : Nat) (c : Cluster E S) (bl : NodeId → BLE) (c' : Cluster E S) (bl' : NodeId → BLE) : Prop :=
  ∃ bss, Cluster.LBeats cc L c bss c' ∧ m ≤ bss.length ∧ Ready L e c ∧ Trek cc n L pr c bl bss.flatten c' bl'

theorem Leg.cut {e m : Nat} (h : Leg cc n L pr e m c bl c' bl') (hm : e ≤ m) : ∃ c1 bl1, Leg cc n L pr e e c bl c1 bl1 ∧ Leg cc n L pr e (m - e) c1 bl1 c' bl' := by
  obtain ⟨bss, h1, h2, h3, h4⟩ := h
  have e1 : bss = bss.take e ++ bss.drop e := (List.take_append_drop e bss).symm
  rw [e1] at h1
  rw [e1, List.flatten_append] at h4
  obtain ⟨c1, b1, b2⟩ := h1.split
  obtain ⟨c1', bl1, t1, t2⟩ := h4.split
  obtain rfl : c1 = c1' := Option.some.inj (b1.run.symm.trans t1.run)
  exact ⟨c1, bl1, ⟨_, b1, by rw [List.length_take]; omega, h3, t1⟩, ⟨_, b2, by rw [List.length_drop]; omega, b1.ready h3, t2⟩⟩

theorem Leg.turn {e : Nat} (h : Leg cc n L pr e e c bl c' bl') (hL : ∀ x ∈ L, x ∈ cc.nodes) (hk : k ∈ L) : (bl' k).hb_round ≠ (bl k).hb_round := by
  obtain ⟨bss, h1, h2, h3, h4⟩ := h
  obtain ⟨op', u', e'⟩ := h4.hunt_end.bles k (hL k hk)
  obtain ⟨op, u, -, ht⟩ := h1.turn hk u'
  obtain ⟨op0, u0, e0⟩ := h4.hunt.bles k (hL k hk)
  rw [u] at u0
  cases u0
  obtain ⟨r1, r2⟩ := h3 k hk op u
  rw [← e', ← e0]
  exact ht r1 (by omega)

section
variable (m : Move cc n L pr c bl a c' bl')
include m

theorem Move.made (h : Made cc n pr bl i) : Made cc n pr bl' i := by
  by_cases hk : (bl' i).hb_round = (bl i).hb_round
  · exact (saying_ballot (m.moves.same hk)).1.trans h
  · obtain ⟨_, _, p, ho⟩ := m.fires i hk
    rcases ho.own with e | ⟨e, _⟩
    · exact e.trans h
    · exact e

theorem Move.kept (hL : ∀ x ∈ L, x ∈ cc.nodes) (hk : k ∈ L) (hi : i ∈ cc.nodes) {Q : HeartbeatReply → Prop}
    (hs : Since bl c.net k i Q ∨ (bl' k).hb_round ≠ (bl k).hb_round) (hq : i ∈ L → ∀ x, Q ((bl i).saying x)) (hd : i ∉ L → a ≠ .deliver k i) : Since bl' c'.net k i Q :=
  m.moves.since m.before.hearts (m.of.calm hL) hi (hL k hk) word_signed (m.before.fresh k hk i hi) hs fun e => by
    by_cases hiL : i ∈ L
    · exact hq hiL
    · exact absurd e (hd hiL)

/-- Nobody says anything of the silent ones. -/
def S1 (cc : ClusterConfig) (L : List NodeId) (k : NodeId) (bl : NodeId → BLE) (net : NodeId → NodeId → List (Message E S)) : Prop :=
  ∀ i ∈ cc.nodes, i ∉ L → Since bl net k i (fun _ => False)

theorem Move.s1 (hL : ∀ x ∈ L, x ∈ cc.nodes) (hk : k ∈ L) (h : S1 cc L k bl c.net ∨ (bl' k).hb_round ≠ (bl k).hb_round) : S1 cc L k bl' c'.net :=
  fun i hi hiL => m.kept hL hk hi (h.imp (fun h => h i hi hiL) id) (fun h => absurd h hiL) fun _ e => by
    have := m.of
    rw [e] at this
    exact hiL this.2

theorem S1.senders (h : S1 cc L k bl c.net) (hk : k ∈ cc.nodes) {r : HeartbeatReply} (hr : r ∈ (bl k).heartbeat_replies) :
    r.ballot.pid ∈ L ∧ r.ballot.pid ∈ cc.nodes ∧ Word cc n L pr r.ballot.pid r := by
  obtain ⟨j, hj, hw⟩ := (m.before.hearts.server k hk).replies r hr
  have e := hw.sender
  rw [e]
  refine ⟨?_, hj, hw⟩
  by_cases hjL : j ∈ L
  · exact hjL
  · exact ((h j hj hjL).1 r hr e).elim

/-- `k` does not pretend that the leader is there. -/
def S2 (n : Ballot) (k : NodeId) (bl : NodeId → BLE) : Prop := (bl k).leader = n → (bl k).happy = false

theorem Move.s2 (hL : ∀ x ∈ L, x ∈ cc.nodes) (hn : n.pid ∉ L) (h1 : S1 cc L k bl c.net) (h : S2 n k bl ∨ (bl' k).hb_round ≠ (bl k).hb_round) : S2 n k bl' := by
  by_cases hk : (bl' k).hb_round = (bl k).hb_round
  · have h := h.resolve_right fun h => h hk
    obtain ⟨_, e2, e3⟩ := saying_ballot (m.moves.same hk)
    intro e
    rw [e3]
    exact h (e2 ▸ e)
  · obtain ⟨hkL, _, p, ho⟩ := m.fires k hk
    intro e
    refine ho.sad e fun r hr er => ?_
    have := (S1.senders m h1 (hL k hkL) hr).1
    rw [er] at this
    exact hn this

/-- And is not told so. -/
def S3 (n : Ballot) (L : List NodeId) (k : NodeId) (bl : NodeId → BLE) (net : NodeId → NodeId → List (Message E S)) : Prop :=
  ∀ i ∈ L, Since bl net k i (fun r => r.leader = n → r.happy = false)

theorem Move.s3 (hL : ∀ x ∈ L, x ∈ cc.nodes) (hk : k ∈ L) (h2 : ∀ i ∈ L, S2 n i bl) (h : S3 n L k bl c.net ∨ (bl' k).hb_round ≠ (bl k).hb_round) : S3 n L k bl' c'.net :=
  fun i hi => m.kept hL hk (hL i hi) (h.imp (fun h => h i hi) id) (fun _ _ => h2 i hi) fun hc => absurd hi hc

/-- Somebody is a candidate. -/
def S4 (cc : ClusterConfig) (n : Ballot) (L : List NodeId) (pr : NodeId → Nat) (bl : NodeId → BLE) : Prop := ∃ i ∈ L, Made cc n pr bl i

theorem Move.s4 (hL : ∀ x ∈ L, x ∈ cc.nodes) (hn : n.pid ∉ L) (h1 : S1 cc L k bl c.net) (h3 : S3 n L k bl c.net)
    (h : S4 cc n L pr bl ∨ (bl' k).hb_round ≠ (bl k).hb_round) : S4 cc n L pr bl' := by
  rcases h with ⟨i, hi, h⟩ | hk
  · exact ⟨i, hi, m.made h⟩
  · obtain ⟨hkL, _, p, ho⟩ := m.fires k hk
    rcases (m.after.hearts.server k (hL k hkL)).tells.lead with e | ⟨i, hi, e⟩
    · obtain ⟨r, hr, hh⟩ := ho.missed e fun r hr er => by
        have := (S1.senders m h1 (hL k hkL) hr).1
        rw [er] at this
        exact hn this
      obtain ⟨s1, s2, s3⟩ := S1.senders m h1 (hL k hkL) hr
      rcases s3.lead with e1 | ⟨i, hi, e1⟩
      · rw [(h3 _ s1).1 r hr rfl e1] at hh
        cases hh
      · exact ⟨i, hi, m.made (((m.before.told k hkL _ s2).1 r hr rfl i hi).2 e1)⟩
    · exact ⟨i, hi, m.after.leads k (hL k hkL) i hi e⟩

/-- `k` is told about the candidate `i`. -/
def S5 (cc : ClusterConfig) (n : Ballot) (pr : NodeId → Nat) (i k : NodeId) (bl : NodeId → BLE) (net : NodeId → NodeId → List (Message E S)) : Prop :=
  Since bl net k i (fun r => r.ballot = cand cc n pr i)

theorem Move.s5 (hL : ∀ x ∈ L, x ∈ cc.nodes) (hi : i ∈ L) (hk : k ∈ L) (h1 : Made cc n pr bl i) (h : S5 cc n pr i k bl c.net ∨ (bl' k).hb_round ≠ (bl k).hb_round) :
    S5 cc n pr i k bl' c'.net := m.kept hL hk (hL i hi) h (fun _ _ => h1) fun hc => absurd hi hc

/-- At its election timeout, `k` takes `i` or somebody greater for leader. -/
theorem Move.lifted (hL : ∀ x ∈ L, x ∈ cc.nodes) (hi : i ∈ L) (h1 : Made cc n pr bl i) (h5 : S5 cc n pr i k bl c.net) (hk : (bl' k).hb_round ≠ (bl k).hb_round) :
    cand cc n pr i ≤ (bl' k).leader := by
  obtain ⟨hkL, hg, p, ho⟩ := m.fires k hk
  by_cases e : i = k
  · subst e
    have h2 := m.made h1
    have := (m.after.hearts.server i (hL i hi)).tells.above
    simp only at this
    rw [show (bl' i).current_ballot = cand cc n pr i from h2] at this
    exact this (not_cand_le i)
  · obtain ⟨r, hr, er⟩ := hg i hi e
    rw [← h5.1 r hr er]
    exact ho.ge r hr

theorem Move.risen (hk : k ∈ L) (hL : ∀ x ∈ L, x ∈ cc.nodes) (h : (bl k).leader ≠ n) : (bl' k).leader ≠ n := by
  by_cases hr : (bl' k).hb_round = (bl k).hb_round
  · rw [(saying_ballot (m.moves.same hr)).2.1]; exact h
  · obtain ⟨hkL, _, p, ho⟩ := m.fires k hr
    rcases (m.before.hearts.server k (hL k hk)).tells.lead with e | ⟨i, hi, e⟩
    · exact absurd e h
    · intro e1
      have h1 := ho.rises
      have e : (bl k).leader = cand cc n pr i := e
      rw [e1, e] at h1
      exact not_cand_le i h1

theorem Move.s6 (hL : ∀ x ∈ L, x ∈ cc.nodes) (hi : i ∈ L) (hk : k ∈ L) (h1 : Made cc n pr bl i) (h5 : S5 cc n pr i k bl c.net)
    (h : (bl k).leader ≠ n ∨ (bl' k).hb_round ≠ (bl k).hb_round) : (bl' k).leader ≠ n := by
  rcases h with h | h
  · exact m.risen hk hL h
  · intro e
    have := m.lifted hL hi h1 h5 h
    rw [e] at this
    exact not_cand_le i this

/-- There are no more candidates, and `i` is the greatest. -/
structure S7 (cc : ClusterConfig) (n : Ballot) (L : List NodeId) (pr : NodeId → Nat) (i : NodeId) (bl : NodeId → BLE) : Prop where
  risen : ∀ k ∈ L, (bl k).leader ≠ n
  made : Made cc n pr bl i
  top : ∀ j ∈ L, Made cc n pr bl j → cand cc n pr j ≤ cand cc n pr i

theorem Move.s7 (hL : ∀ x ∈ L, x ∈ cc.nodes) (h : S7 cc n L pr i bl) : S7 cc n L pr i bl' := by
  refine ⟨fun k hk => m.risen hk hL (h.risen k hk), m.made h.made, fun j hj hm => h.top j hj ?_⟩
  by_cases hr : (bl' j).hb_round = (bl j).hb_round
  · exact (saying_ballot (m.moves.same hr)).1.symm.trans hm
  · obtain ⟨_, _, p, ho⟩ := m.fires j hr
    rcases ho.own with e | ⟨_, e⟩
    · exact e.symm.trans hm
    · exact absurd e (h.risen j hj)

theorem Move.s8 (hL : ∀ x ∈ L, x ∈ cc.nodes) (hi : i ∈ L) (h7 : S7 cc n L pr i bl) (h5 : S5 cc n pr i k bl c.net)
    (h : (bl k).leader = cand cc n pr i ∨ (bl' k).hb_round ≠ (bl k).hb_round) : (bl' k).leader = cand cc n pr i := by
  by_cases hr : (bl' k).hb_round = (bl k).hb_round
  · rw [(saying_ballot (m.moves.same hr)).2.1]
    exact h.resolve_right fun h => h hr
  · obtain ⟨hkL, _, p, ho⟩ := m.fires k hr
    have h1 := m.lifted hL hi h7.made h5 hr
    have h8 := m.s7 hL h7
    rcases (m.after.hearts.server k (hL k hkL)).tells.lead with e | ⟨j, hj, e⟩
    · exact absurd e (h8.risen k hkL)
    · have e : (bl' k).leader = cand cc n pr j := e
      have h2 := h8.top j hj (m.after.leads k (hL k hkL) j hj e)
      rw [e] at h1 ⊢
      have : i = j := by
        have h3 := (Ballot.le_iff _ _).1 h1
        have h4 := (Ballot.le_iff _ _).1 h2
        rw [Ballot.lt_iff] at h3 h4
        have h5 : ¬ (n.n + 1 < n.n + 1 ∨ n.n + 1 = n.n + 1 ∧ (pr j < pr i ∨ pr j = pr i ∧ j < i)) := h3
        have h6 : ¬ (n.n + 1 < n.n + 1 ∨ n.n + 1 = n.n + 1 ∧ (pr i < pr j ∨ pr i = pr j ∧ i < j)) := h4
        generalize pr i = x at h5 h6
        generalize pr j = y at h5 h6
        clear h1 h2 h3 h4 hr
        omega
      rw [this]

end

/-- A greatest candidate. -/
theorem top_cand {P : NodeId → Prop} : ∀ {l : List NodeId}, (∃ i ∈ l, P i) → ∃ i ∈ l, P i ∧ ∀ j ∈ l, P j → cand cc n pr j ≤ cand cc n pr i
  | [], ⟨_, h, _⟩ => nomatch h
  | x :: l, h => by
    by_cases hl : ∃ i ∈ l, P i
    · obtain ⟨i, hi, hp, ht⟩ := top_cand hl
      by_cases hx : P x ∧ cand cc n pr i ≤ cand cc n pr x
      · refine ⟨x, List.mem_cons_self .., hx.1, fun j hj hp => ?_⟩
        rcases List.mem_cons.1 hj with rfl | hj
        · exact Ballot.le_refl _
        · exact Ballot.le_trans (ht j hj hp) hx.2
      · refine ⟨i, List.mem_cons_of_mem _ hi, hp, fun j hj hp => ?_⟩
        rcases List.mem_cons.1 hj with rfl | hj
        · rcases Ballot.le_total (cand cc n pr j) (cand cc n pr i) with h1 | h1
          · exact h1
          · exact absurd ⟨hp, h1⟩ hx
        · exact ht j hj hp
    · obtain ⟨i, hi, hp⟩ := h
      rcases List.mem_cons.1 hi with rfl | hi
      · refine ⟨i, List.mem_cons_self .., hp, fun j hj hq => ?_⟩
        rcases List.mem_cons.1 hj with rfl | hj
        · exact Ballot.le_refl _
        · exact absurd ⟨j, hj, hq⟩ hl
      · exact absurd ⟨i, hi, hp⟩ hl

/-- The new leader, as long as this goes on. -/
structure Crowned (cc : ClusterConfig) (n : Ballot) (L : List NodeId) (pr : NodeId → Nat) (i : NodeId) (bl : NodeId → BLE) (net : NodeId → NodeId → List (Message E S)) : Prop where
  s7 : S7 cc n L pr i bl
  s5 : ∀ k ∈ L, S5 cc n pr i k bl net
  leader : ∀ k ∈ L, (bl k).leader = cand cc n pr i

theorem Move.crowned (m : Move cc n L pr c bl a c' bl') (hL : ∀ x ∈ L, x ∈ cc.nodes) (hi : i ∈ L) (h : Crowned cc n L pr i bl c.net) : Crowned cc n L pr i bl' c'.net :=
  ⟨m.s7 hL h.s7, fun k hk => m.s5 hL hi hk h.s7.made (.inl (h.s5 k hk)), fun k hk => m.s8 hL hi h.s7 (h.s5 k hk) (.inl (h.leader k hk))⟩

/-- The whole way. -/
theorem Leg.crown {e : Nat} (h : Leg cc n L pr e (8 * e) c bl c' bl') (hL : ∀ x ∈ L, x ∈ cc.nodes) (hn : n.pid ∉ L) (hne : L ≠ []) :
    ∃ i ∈ L, Crowned cc n L pr i bl' c'.net := by
  obtain ⟨c1, b1, l1, h⟩ := h.cut (by omega)
  obtain ⟨c2, b2, l2, h⟩ := h.cut (by omega)
  obtain ⟨c3, b3, l3, h⟩ := h.cut (by omega)
  obtain ⟨c4, b4, l4, h⟩ := h.cut (by omega)
  obtain ⟨c5, b5, l5, h⟩ := h.cut (by omega)
  obtain ⟨c6, b6, l6, h⟩ := h.cut (by omega)
  obtain ⟨c7, b7, l7, h⟩ := h.cut (by omega)
  obtain ⟨c8, b8, l8, h⟩ := h.cut (by omega)
  have trek : ∀ {d d' : Cluster E S} {b b' : NodeId → BLE} {q : Nat}, Leg cc n L pr e q d b d' b' → ∃ xs, Trek cc n L pr d b xs d' b' := fun h => by
    obtain ⟨xs, _, _, _, h⟩ := h; exact ⟨_, h⟩
  have t1 := fun k hk => l1.turn (k := k) hL hk
  have t2 := fun k hk => l2.turn (k := k) hL hk
  have t3 := fun k hk => l3.turn (k := k) hL hk
  have t4 := fun k hk => l4.turn (k := k) hL hk
  have t5 := fun k hk => l5.turn (k := k) hL hk
  have t6 := fun k hk => l6.turn (k := k) hL hk
  have t7 := fun k hk => l7.turn (k := k) hL hk
  have t8 := fun k hk => l8.turn (k := k) hL hk
  obtain ⟨_, l1⟩ := trek l1
  obtain ⟨_, l2⟩ := trek l2
  obtain ⟨_, l3⟩ := trek l3
  obtain ⟨_, l4⟩ := trek l4
  obtain ⟨_, l5⟩ := trek l5
  obtain ⟨_, l6⟩ := trek l6
  obtain ⟨_, l7⟩ := trek l7
  obtain ⟨_, l8⟩ := trek l8
  obtain ⟨_, l9⟩ := trek h
  -- 1
  have a1 : ∀ k ∈ L, S1 cc L k b1 c1.net := fun k hk => l1.reach (F := fun _ _ => True) (G := fun b m => S1 cc L k b m) k (fun _ _ => trivial)
    (fun m _ h => m.s1 hL hk h) trivial (.inr (t1 k hk))
  have k1 : ∀ {d : Cluster E S} {b a d' b'}, Move cc n L pr d b a d' b' → (∀ k ∈ L, S1 cc L k b d.net) → ∀ k ∈ L, S1 cc L k b' d'.net :=
    fun m h k hk => m.s1 hL hk (.inl (h k hk))
  -- 2
  have a2 : ∀ k ∈ L, S2 n k b2 := fun k hk => l2.reach (F := fun b m => ∀ k ∈ L, S1 cc L k b m) (G := fun b _ => S2 n k b) k k1
    (fun m h1 h => m.s2 hL hn (h1 k hk) h) a1 (.inr (t2 k hk))
  have a1 : ∀ k ∈ L, S1 cc L k b2 c2.net := l2.keep (F := fun b m => ∀ k ∈ L, S1 cc L k b m) k1 a1
  have k2 : ∀ {d : Cluster E S} {b a d' b'}, Move cc n L pr d b a d' b' → ((∀ k ∈ L, S1 cc L k b d.net) ∧ ∀ k ∈ L, S2 n k b) →
      (∀ k ∈ L, S1 cc L k b' d'.net) ∧ ∀ k ∈ L, S2 n k b' := fun m h => ⟨k1 m h.1, fun k hk => m.s2 hL hn (h.1 k hk) (.inl (h.2 k hk))⟩
  -- 3
  have a3 : ∀ k ∈ L, S3 n L k b3 c3.net := fun k hk => l3.reach (F := fun b m => (∀ k ∈ L, S1 cc L k b m) ∧ ∀ k ∈ L, S2 n k b) (G := fun b m => S3 n L k b m) k k2
    (fun m h1 h => m.s3 hL hk h1.2 h) ⟨a1, a2⟩ (.inr (t3 k hk))
  have a2 := l3.keep (F := fun b m => (∀ k ∈ L, S1 cc L k b m) ∧ ∀ k ∈ L, S2 n k b) k2 ⟨a1, a2⟩
  have k3 : ∀ {d : Cluster E S} {b a d' b'}, Move cc n L pr d b a d' b' → (((∀ k ∈ L, S1 cc L k b d.net) ∧ ∀ k ∈ L, S2 n k b) ∧ ∀ k ∈ L, S3 n L k b d.net) →
      ((∀ k ∈ L, S1 cc L k b' d'.net) ∧ ∀ k ∈ L, S2 n k b') ∧ ∀ k ∈ L, S3 n L k b' d'.net := fun m h => ⟨k2 m h.1, fun k hk => m.s3 hL hk h.1.2 (.inl (h.2 k hk))⟩
  -- 4
  obtain ⟨k0, hk0⟩ := List.exists_mem_of_ne_nil L hne
  have a4 : S4 cc n L pr b4 := l4.reach (F := fun b m => ((∀ k ∈ L, S1 cc L k b m) ∧ ∀ k ∈ L, S2 n k b) ∧ ∀ k ∈ L, S3 n L k b m) (G := fun b _ => S4 cc n L pr b) k0 k3
    (fun m h1 h => m.s4 hL hn (h1.1.1 k0 hk0) (h1.2 k0 hk0) h) ⟨a2, a3⟩ (.inr (t4 k0 hk0))
  obtain ⟨i, hi, a4⟩ := a4
  have k4 : ∀ {d : Cluster E S} {b a d' b'}, Move cc n L pr d b a d' b' → Made cc n pr b i → Made cc n pr b' i := fun m h => m.made h
  -- 5
  have a5 : ∀ k ∈ L, S5 cc n pr i k b5 c5.net := fun k hk => l5.reach (F := fun b _ => Made cc n pr b i) (G := fun b m => S5 cc n pr i k b m) k k4
    (fun m h1 h => m.s5 hL hi hk h1 h) a4 (.inr (t5 k hk))
  have a4 := l5.keep (F := fun b _ => Made cc n pr b i) k4 a4
  have k5 : ∀ {d : Cluster E S} {b a d' b'}, Move cc n L pr d b a d' b' → (Made cc n pr b i ∧ ∀ k ∈ L, S5 cc n pr i k b d.net) →
      Made cc n pr b' i ∧ ∀ k ∈ L, S5 cc n pr i k b' d'.net := fun m h => ⟨m.made h.1, fun k hk => m.s5 hL hi hk h.1 (.inl (h.2 k hk))⟩
  -- 6
  have a6 : ∀ k ∈ L, (b6 k).leader ≠ n := fun k hk => l6.reach (F := fun b m => Made cc n pr b i ∧ ∀ k ∈ L, S5 cc n pr i k b m) (G := fun b _ => (b k).leader ≠ n) k k5
    (fun m h1 h => m.s6 hL hi hk h1.1 (h1.2 k hk) h) ⟨a4, a5⟩ (.inr (t6 k hk))
  have a5 := l6.keep (F := fun b m => Made cc n pr b i ∧ ∀ k ∈ L, S5 cc n pr i k b m) k5 ⟨a4, a5⟩
  -- the greatest
  obtain ⟨i, hi, hm, ht⟩ := top_cand (cc := cc) (n := n) (pr := pr) (P := fun i => Made cc n pr b6 i) ⟨i, hi, a5.1⟩
  have a7 : S7 cc n L pr i b6 := ⟨a6, hm, ht⟩
  have k7 : ∀ {d : Cluster E S} {b a d' b'}, Move cc n L pr d b a d' b' → S7 cc n L pr i b → S7 cc n L pr i b' := fun m h => m.s7 hL h
  -- 7
  have a8 : ∀ k ∈ L, S5 cc n pr i k b7 c7.net := fun k hk => l7.reach (F := fun b _ => S7 cc n L pr i b) (G := fun b m => S5 cc n pr i k b m) k k7
    (fun m h1 h => m.s5 hL hi hk h1.made h) a7 (.inr (t7 k hk))
  have a7 := l7.keep (F := fun b _ => S7 cc n L pr i b) k7 a7
  have k8 : ∀ {d : Cluster E S} {b a d' b'}, Move cc n L pr d b a d' b' → (S7 cc n L pr i b ∧ ∀ k ∈ L, S5 cc n pr i k b d.net) →
      S7 cc n L pr i b' ∧ ∀ k ∈ L, S5 cc n pr i k b' d'.net := fun m h => ⟨m.s7 hL h.1, fun k hk => m.s5 hL hi hk h.1.made (.inl (h.2 k hk))⟩
  -- 8
  have a9 : ∀ k ∈ L, (b8 k).leader = cand cc n pr i := fun k hk => l8.reach (F := fun b m => S7 cc n L pr i b ∧ ∀ k ∈ L, S5 cc n pr i k b m)
    (G := fun b _ => (b k).leader = cand cc n pr i) k k8 (fun m h1 h => m.s8 hL hi h1.1 (h1.2 k hk) h) ⟨a7, a8⟩ (.inr (t8 k hk))
  have a8 := l8.keep (F := fun b m => S7 cc n L pr i b ∧ ∀ k ∈ L, S5 cc n pr i k b m) k8 ⟨a7, a8⟩
  exact ⟨i, hi, l9.keep (F := fun b m => Crowned cc n L pr i b m) (fun m h => m.crowned hL hi h) ⟨a8.1, a8.2, a9⟩⟩

end Omni
