import Verif.Props.Steady
import Verif.Proof.Steady.Starve
/-
Property theorem C71: entries may never be decided under a continuing load.
-/
namespace Omni

open Starve

attribute [local instance] Sample.noSync

/-- Four servers start; server 1 becomes leader, with everybody's promise and nothing on the way. Heartbeats are lost. -/
def lead4 : List A := [.start 1 (Sample.sc 1), .start 2 (Sample.sc 2), .start 3 (Sample.sc 3), .start 4 (Sample.sc 4), .call 1 .tryBecomeLeader, .take 1,
  .lose 1 2 1, .lose 1 3 1, .lose 1 4 1, .deliver 1 2, .take 2, .lose 2 1 1, .lose 2 3 0, .lose 2 4 0, .deliver 2 1, .deliver 1 3, .take 3, .lose 3 1 1,
  .lose 3 2 0, .lose 3 4 0, .deliver 3 1, .take 1, .deliver 1 2, .take 2, .deliver 2 1, .deliver 1 3, .take 3, .deliver 3 1, .deliver 1 4, .take 4,
  .lose 4 1 1, .lose 4 2 0, .lose 4 3 0, .deliver 4 1, .take 1, .deliver 1 4, .take 4, .deliver 4 1]

/-- The first round. -/
def first4 : List A := cycle 1 3 ++ cycle 2 4 ++ round

/-- Test of `Rest`. -/
def restB (c : C) (a : Nat) (v m : NodeId → Nat) : Bool :=
  (match c.servers 1 with
  | .down _ => false
  | .up op => op.ble.outgoing.isEmpty && decide (op.sp = leadSP a v op.sp.ist.trail op.sp.ist.calls [] [none, none, none, none])) &&
  decide (c.net 1 1 = []) && fs.all fun i =>
    (match c.servers i with
    | .down _ => false
    | .up op => op.ble.outgoing.isEmpty && decide (op.sp = folSP i (m i) false op.sp.ist.trail op.sp.ist.calls op.sp.ls op.sp.peers)) &&
    decide (c.net 1 i = (List.range' (m i + 1) (a - m i)).map fun x => .paxos (ad i x)) && decide (c.net i 1 = []) && decide (m i ≤ a) &&
    fs.all fun j => decide (c.net i j = [])

theorem restB_rest {c : C} {a : Nat} {v m : NodeId → Nat} (h : restB c a v m = true) : Rest c a v m := by
  simp only [restB, Bool.and_eq_true, List.all_eq_true, decide_eq_true_eq] at h
  obtain ⟨⟨h1, h2⟩, h3⟩ := h
  refine ⟨?_, fun i hi => ?_, fun i hi => (h3 i hi).1.1.1.2, fun i hi => (h3 i hi).1.1.2, ⟨h2, fun i hi => (h3 i hi).2⟩, fun i hi => (h3 i hi).1.2⟩
  · cases hs : c.servers 1 with
    | down d => rw [hs] at h1; cases h1
    | up op =>
      rw [hs] at h1
      simp only [Bool.and_eq_true, decide_eq_true_eq, List.isEmpty_iff] at h1
      exact ⟨op, _, _, rfl, h1.1, h1.2⟩
  · have := (h3 i hi).1.1.1.1
    cases hs : c.servers i with
    | down d => rw [hs] at this; cases this
    | up op =>
      rw [hs] at this
      simp only [Bool.and_eq_true, decide_eq_true_eq, List.isEmpty_iff] at this
      exact ⟨op, _, _, _, _, rfl, this.1, this.2⟩

/-- The states between the rounds. -/
def starving (c : C) : Nat → C
  | 0 => c
  | t + 1 => ((starving c t).run c4 (if t = 0 then first4 else round)).getD c

/-- C71 is false of the code: under a continuing load with an accept quorum of more than two, it can happen that nothing is ever decided, although the leader stays,
no message is lost or reordered, and in every round everything that waits at its beginning gets its turn. Here four servers start out settled under leader 1. In each
round three further entries are appended, and each follower in turn catches up with the leader and reports it. When the report arrives the other two followers have
not reported that much yet, so this index is not chosen; and the leader looks at no other index (leader.rs 329-332), although the smaller ones have been reported by a majority. -/
theorem C71_false_starvation : c4.validate = .ok () ∧ c4.nodes.Nodup ∧ ∃ σ : Nat → C, (∃ as, Cluster.init.run c4 as = some (σ 0)) ∧ (σ 0).Settled c4 bn 0 ∧
    ∀ t, (∃ as, (σ t).BusyRound c4 bn as (σ (t + 1)) ∧ 3 ≤ (as.filterMap Action.entry?).length) ∧
      ∀ i ∈ c4.nodes, ∃ op, (σ t).servers i = .up op ∧ op.get_decided_idx = 0 ∧ 3 * t ≤ ((σ t).servers i).disk.log.length := by
  refine ⟨rfl, by decide, ?_⟩
  have h0 : ((Cluster.init.run c4 lead4).map fun c => settledB c4 bn 0 c && turnsB c4 c first4 && match c.run c4 first4 with
      | none => false
      | some c1 => restB c1 5 (at3 3) (at3 3)) = some true := by decide +kernel
  obtain ⟨c, hc, h⟩ := Option.map_eq_some_iff.1 h0
  simp only [Bool.and_eq_true] at h
  obtain ⟨⟨h1, h2⟩, h3⟩ := h
  cases h4 : c.run c4 first4 with
  | none => rw [h4] at h3; cases h3
  | some c1 =>
    rw [h4] at h3
    have hset := settledB_settled h1
    have hrest : ∀ t, Rest (starving c (t + 1)) (3 * t + 3 + 2) (at3 (3 * t + 3)) (at3 (3 * t + 3)) := by
      intro t
      induction t with
      | zero => simp only [starving, if_true, h4, Option.getD_some]; exact restB_rest h3
      | succ t ih =>
        obtain ⟨c', e, h⟩ := rounded ih
        rw [starving, if_neg (Nat.succ_ne_zero t), e]
        exact h
    have hfirst : ∀ a ∈ first4, a.Calm c4 ∧ ∀ i, a ≠ .call i .tick := by
      intro a ha
      simp only [first4, List.mem_append] at ha
      rcases ha with (ha | ha) | ha
      · exact cycle_calm (by simp [fs]) a ha
      · exact cycle_calm (by simp [fs]) a ha
      · exact round_calm a ha
    refine ⟨starving c, ⟨lead4, hc⟩, hset, fun t => ⟨?_, fun i hi => ?_⟩⟩
    · cases t with
      | zero =>
        refine ⟨first4, ⟨steady_round hfirst c, turnsB_turns h2, ?_⟩, by decide⟩
        simp only [starving, if_true, h4, Option.getD_some]
      | succ t =>
        refine ⟨round, ⟨steady_round round_calm _, turns_round (hrest t), ?_⟩, by decide⟩
        obtain ⟨c', e, _⟩ := rounded (hrest t)
        rw [e, starving, if_neg (Nat.succ_ne_zero t), e]
        rfl
    · cases t with
      | zero =>
        obtain ⟨op, e1, _, e2⟩ := hset.server i hi
        exact ⟨op, e1, e2.decided, Nat.zero_le _⟩
      | succ t =>
        have hr := hrest t
        by_cases h1 : i = 1
        · subst h1
          obtain ⟨op, tr, cl, e1, _, e2⟩ := hr.lead
          obtain ⟨_, e3, e4⟩ := facts_lead e2
          refine ⟨op, e1, e3, ?_⟩
          rw [e1]
          show _ ≤ op.sp.ist.storage.log.length
          rw [e4, List.length_replicate]
          omega
        · have hi' : i ∈ fs := by simp [c4] at hi; simp [fs]; omega
          obtain ⟨op, tr, cl, ls, ps, e1, _, e2⟩ := hr.fol i hi'
          obtain ⟨_, e3, e4⟩ := facts_fol e2
          refine ⟨op, e1, e3, ?_⟩
          rw [e1]
          show _ ≤ op.sp.ist.storage.log.length
          rw [e4, List.length_replicate]
          have : 3 * t + 3 ≤ at3 (3 * t + 3) i := by
            simp only [fs, List.mem_cons, List.not_mem_nil, or_false] at hi'
            rcases hi' with rfl | rfl | rfl <;> simp [at3]
          omega

end Omni
