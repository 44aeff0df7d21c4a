import Verif.Spec.Runs
import Verif.Proof.Follow
/-
What a leader keeps about another server (C53).
-/
namespace Omni
open Sample

variable {E S : Type}

/-- C53, promises. Whatever call a server serves: its ballot as a leader changes only to a higher one; while it stays, the promise kept for
another server `j` changes only by a message of `j`, and exactly as `heardPromise` says (to "promised" only if `j` sent a promise for
this very ballot, to "promised higher" only if `j` refused with a higher ballot); in a new ballot no promise of `j` is known. -/
theorem C53_promise_known [SnapOps E S] (op op' : OP E S) (c : Call E S) (h : op.callResult c = .up op') (j : NodeId) (hj : j ≠ op.sp.pid) :
    (op'.sp.ls.n_leader = op.sp.ls.n_leader → slot op'.sp.ls.promises_meta j = match c.heard j with
      | some msg => (slot op.sp.ls.promises_meta j).map (op.sp.heardPromise j msg)
      | none => slot op.sp.ls.promises_meta j) ∧
    (op'.sp.ls.n_leader ≠ op.sp.ls.n_leader → op.sp.ls.n_leader < op'.sp.ls.n_leader ∧ ∀ x, slot op'.sp.ls.promises_meta j = some x → x = .notPromised) := by
  rcases OP.promSlot h (fun e => hj e.symm) with ⟨h1, h2⟩ | ⟨h1, h2⟩
  · exact ⟨fun _ => h2, fun hne => absurd h1 hne⟩
  · exact ⟨fun e => absurd (e ▸ h1) (Ballot.lt_irrefl _), fun _ => ⟨h1, h2⟩⟩

/-- C53, accepted indexes. While the ballot of a leader stays, the accepted index it keeps for another server `j` changes only by an
Accepted message that `j` sent for this ballot, and to the index in that message; in a new ballot it is 0. -/
theorem C53_accepted_known [SnapOps E S] (op op' : OP E S) (c : Call E S) (h : op.callResult c = .up op') (j : NodeId) (hj : j ≠ op.sp.pid) :
    (op'.sp.ls.n_leader = op.sp.ls.n_leader → slot op'.sp.ls.accepted_indexes j = match c.heard j with
      | some msg => (slot op.sp.ls.accepted_indexes j).map (op.sp.heardAccepted msg)
      | none => slot op.sp.ls.accepted_indexes j) ∧
    (op'.sp.ls.n_leader ≠ op.sp.ls.n_leader → op.sp.ls.n_leader < op'.sp.ls.n_leader ∧ ∀ x, slot op'.sp.ls.accepted_indexes j = some x → x = 0) := by
  rcases OP.accSlot h (fun e => hj e.symm) with ⟨h1, h2⟩ | ⟨h1, h2⟩
  · exact ⟨fun _ => h2, fun hne => absurd h1 hne⟩
  · exact ⟨fun e => absurd (e ▸ h1) (Ballot.lt_irrefl _), fun _ => ⟨h1, h2⟩⟩

/-- C53, refusals. A NotAccepted message changes nothing but the promise kept for its sender; in particular it never makes a leader
step down, send, or touch its log. -/
theorem C53_notaccepted [SnapOps E S] (op op' : OP E S) (i j : NodeId) (n : Ballot)
    (h : op.callResult (.handleIncoming (.paxos ⟨j, i, .notAccepted n⟩)) = .up op') :
    op' = { op.clearTrail with sp := { op.clearTrail.sp with ls :=
      { op.clearTrail.sp.ls with promises_meta := op'.sp.ls.promises_meta } } } := by
  unfold OP.callResult at h
  simp only [Call.run, OP.handle_incoming, OP.onSP, SP.handle] at h
  have hs : M.Sat (SP.handle_notaccepted n j) op.clearTrail.sp (fun _ t => t = { op.clearTrail.sp with ls :=
      { op.clearTrail.sp.ls with promises_meta := t.ls.promises_meta } }) (fun _ => True) := by
    simp only [SP.handle_notaccepted, M.sat_bind, M.sat_get, M.sat_ite, M.sat_pure, SP.sat_onLS]
    refine ⟨fun _ => ⟨fun ls hls => ?_, fun _ => trivial⟩, fun _ => trivial⟩
    unfold LeaderState.lost_promise at hls; split at hls <;> cases hls; rfl
  unfold M.Sat at hs
  split at hs <;> rename_i e <;> rw [e] at h <;> cases h
  simp only
  conv => lhs; rw [hs]

section
attribute [local instance] Sample.noSync

/-- Server 1 leads, server 2 is a promised follower: a NotAccepted of server 2 with a higher ballot is noted, one with a lower ballot is
not, and one of server 3 leaves what is known of server 2. -/
example : ∃ (c : C) (op : OP Nat (List Nat)), c.Reachable cc ∧ c.servers 1 = .up op ∧
    (∃ m, slot op.sp.ls.promises_meta 2 = some (.promised m)) ∧
    (∃ op', op.callResult (.handleIncoming (.paxos ⟨2, 1, .notAccepted ⟨1, 9, 0, 2⟩⟩)) = .up op' ∧
      slot op'.sp.ls.promises_meta 2 = some .promisedHigher) ∧
    (∃ op', op.callResult (.handleIncoming (.paxos ⟨2, 1, .notAccepted ⟨1, 0, 0, 2⟩⟩)) = .up op' ∧
      slot op'.sp.ls.promises_meta 2 = slot op.sp.ls.promises_meta 2) ∧
    (∃ op', op.callResult (.handleIncoming (.paxos ⟨3, 1, .notAccepted ⟨1, 9, 0, 2⟩⟩)) = .up op' ∧
      slot op'.sp.ls.promises_meta 2 = slot op.sp.ls.promises_meta 2) := by
  obtain ⟨c, h, hP⟩ := check_one (as := decide12) (P := fun c => onUp c 1 fun op =>
    (match slot op.sp.ls.promises_meta 2 with | some (.promised _) => true | _ => false) &&
    (match op.callResult (.handleIncoming (.paxos ⟨2, 1, .notAccepted ⟨1, 9, 0, 2⟩⟩)) with
      | .up op' => decide (slot op'.sp.ls.promises_meta 2 = some .promisedHigher) | _ => false) &&
    (match op.callResult (.handleIncoming (.paxos ⟨2, 1, .notAccepted ⟨1, 0, 0, 2⟩⟩)) with
      | .up op' => decide (slot op'.sp.ls.promises_meta 2 = slot op.sp.ls.promises_meta 2) | _ => false) &&
    (match op.callResult (.handleIncoming (.paxos ⟨3, 1, .notAccepted ⟨1, 9, 0, 2⟩⟩)) with
      | .up op' => decide (slot op'.sp.ls.promises_meta 2 = slot op.sp.ls.promises_meta 2) | _ => false)) (by decide +kernel)
  obtain ⟨op, hop, hp⟩ := onUp_elim hP
  simp only [Bool.and_eq_true] at hp
  obtain ⟨⟨⟨h1, h2⟩, h3⟩, h4⟩ := hp
  refine ⟨c, op, h, hop, ?_, ?_, ?_, ?_⟩
  · split at h1
    · exact ⟨_, by assumption⟩
    · cases h1
  all_goals
    first
    | (split at h2; exact ⟨_, by assumption, by simpa using h2⟩; cases h2)
    | (split at h3; exact ⟨_, by assumption, by simpa using h3⟩; cases h3)
    | (split at h4; exact ⟨_, by assumption, by simpa using h4⟩; cases h4)

end
end Omni
