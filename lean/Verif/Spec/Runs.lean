import Verif.Spec.Decided
import Verif.Spec.Sample
/-
Sample runs of three servers for the concrete cases shown beside the theorems about the whole cluster. They are evaluated by
the kernel (`decide +kernel`) and are no part of any statement.
-/
namespace Omni.Sample

abbrev C := Cluster Nat (List Nat)
abbrev A := Action Nat (List Nat)

/-- The next configuration, for `reconfigure`. -/
def cc' : ClusterConfig := { configuration_id := 2, nodes := [1, 2, 4] }

/-- Servers 1 and 2 decide [7, 8] in a ballot of server 1; server 3 receives nothing. -/
def decide12 : List A := [.start 1 (sc 1), .start 2 (sc 2), .start 3 (sc 3), .call 1 .tryBecomeLeader, .take 1, .lose 1 3 0,
  .lose 1 3 0, .lose 1 2 1, .deliver 1 2, .take 2, .lose 2 1 1, .lose 2 3 0, .deliver 2 1, .take 1, .deliver 1 2, .take 2,
  .deliver 2 1, .take 1, .call 1 (.append 7), .call 1 (.append 8), .take 1, .deliver 1 2, .take 2, .deliver 2 1, .take 1,
  .deliver 1 2, .take 2]

/-- Then server 1 crashes and server 3 takes over with the promise of server 2. -/
def takeover3 : List A := [.crash 1, .call 3 .tryBecomeLeader, .take 3, .lose 3 1 1, .lose 3 2 1, .deliver 3 2, .take 2,
  .deliver 2 3, .take 3, .deliver 3 2, .take 2, .deliver 2 3, .take 3]

/-- Or the cluster is reconfigured and servers 1 and 2 decide the StopSign. -/
def reconf : List A := [.call 1 (.reconfigure cc' none), .take 1, .deliver 1 2, .take 2, .deliver 2 1, .take 1, .deliver 1 2,
  .take 2]

/-- All three servers decide [7, 8] in a ballot of server 1, and position 0 is trimmed. -/
def decideTrim : List A := [.start 1 (sc 1), .start 2 (sc 2), .start 3 (sc 3), .call 1 .tryBecomeLeader, .take 1, .lose 1 2 1,
  .lose 1 3 1, .deliver 1 2, .take 2, .lose 2 1 1, .lose 2 3 0, .deliver 2 1, .take 1, .deliver 1 2, .take 2, .deliver 2 1,
  .take 1, .deliver 1 3, .take 3, .lose 3 1 1, .lose 3 2 0, .deliver 3 1, .take 1, .deliver 1 3, .take 3, .deliver 3 1, .take 1,
  .call 1 (.append 7), .call 1 (.append 8), .take 1, .deliver 1 2, .take 2, .deliver 2 1, .take 1, .deliver 1 2, .take 2,
  .deliver 1 3, .take 3, .deliver 1 3, .take 3, .deliver 3 1, .take 1, .call 1 (.trim (some 1)), .take 1, .deliver 1 2, .take 2,
  .deliver 1 3, .take 3]

/-- Servers 1 and 2 decide [7, 8] although links duplicate and reorder AcceptDecide, Accepted and Decide messages. -/
def decideShuffled : List A := [.start 1 (sc 1), .start 2 (sc 2), .start 3 (sc 3), .call 1 .tryBecomeLeader, .take 1, .lose 1 3 0,
  .lose 1 3 0, .lose 1 2 1, .deliver 1 2, .take 2, .lose 2 1 1, .lose 2 3 0, .deliver 2 1, .take 1, .deliver 1 2, .take 2,
  .deliver 2 1, .take 1, .call 1 (.append 7), .take 1, .call 1 (.append 8), .take 1, .rearrange 1 2 [0, 0, 1, 0], .deliver 1 2,
  .take 2, .deliver 1 2, .take 2, .deliver 1 2, .take 2, .deliver 1 2, .take 2, .rearrange 2 1 [1, 0, 1], .deliver 2 1, .take 1,
  .deliver 2 1, .take 1, .deliver 2 1, .take 1, .rearrange 1 2 [0, 0], .deliver 1 2, .take 2, .deliver 1 2, .take 2]

/-- Server 2 sends its Promise to server 1 again, while the AcceptSync is on its way and the leader's AcceptDecide with 7 has not been taken. -/
def resend1 : List A := [.start 1 (sc 1), .start 2 (sc 2), .start 3 (sc 3), .call 1 .tryBecomeLeader, .take 1, .lose 1 3 0,
  .lose 1 3 0, .lose 1 2 1, .deliver 1 2, .take 2, .lose 2 1 1, .lose 2 3 0, .deliver 2 1, .take 1, .call 1 (.append 7), .call 2 .tick, .take 2]

/-- The leader answers it with another AcceptSync, merges 8 into the old AcceptDecide, and sends 9 after the new AcceptSync. Server 2 takes
the first AcceptSync and the AcceptDecide, ignores the second AcceptSync, notices that 9 does not follow, and asks to be synchronised. Then
all is decided. -/
def resend2 : List A := [.deliver 2 1, .call 1 (.append 8), .take 1, .call 1 (.append 9), .take 1, .deliver 1 2, .take 2, .deliver 1 2,
  .take 2, .deliver 1 2, .take 2, .deliver 1 2, .take 2, .deliver 2 1, .take 1, .deliver 2 1, .take 1, .deliver 2 1, .take 1, .deliver 1 2,
  .take 2, .deliver 1 2, .take 2, .deliver 2 1, .take 1, .deliver 1 2, .take 2, .deliver 2 1, .take 1, .deliver 1 2, .take 2]

section
variable [SnapOps Nat (List Nat)]

/-- Two runs in a row with all links dependable, with tests of the state after the first and after the second. -/
def checkLinks (as : List A) (P : C → Bool) (bs : List A) (Q : C → Bool) : Bool :=
  Cluster.init.linksB cc as && match Cluster.init.run cc as with
    | none => false
    | some c => P c && c.linksB cc bs && match c.run cc bs with
      | none => false
      | some c' => Q c'

theorem check_links {as bs : List A} {P Q : C → Bool} (h : checkLinks as P bs Q = true) :
    ∃ c c' : C, c.Reachable cc Links.all ∧ c.Later cc c' Links.all ∧ P c = true ∧ Q c' = true := by
  unfold checkLinks at h
  simp only [Bool.and_eq_true] at h
  obtain ⟨h1, h2⟩ := h
  split at h2
  · simp at h2
  · rename_i c hc
    simp only [Bool.and_eq_true] at h2
    obtain ⟨⟨h3, h4⟩, h5⟩ := h2
    split at h5
    · simp at h5
    · rename_i c' hc'
      exact ⟨c, c', ⟨as, Cluster.linksB_sound h1, hc⟩, ⟨bs, Cluster.linksB_sound h4, hc'⟩, h3, h5⟩

/-- Two drained runs in a row, with tests of the state after the first and after the second. -/
def check (as : List A) (P : C → Bool) (bs : List A) (Q : C → Bool) : Bool :=
  Cluster.init.drainedB cc as && match Cluster.init.run cc as with
    | none => false
    | some c => P c && c.drainedB cc bs && match c.run cc bs with
      | none => false
      | some c' => Q c'

theorem check_two {as bs : List A} {P Q : C → Bool} (h : check as P bs Q = true) :
    ∃ c c' : C, c.Reachable cc ∧ c.Later cc c' ∧ P c = true ∧ Q c' = true := by
  unfold check at h
  simp only [Bool.and_eq_true] at h
  obtain ⟨h1, h2⟩ := h
  split at h2
  · simp at h2
  · rename_i c hc
    simp only [Bool.and_eq_true] at h2
    obtain ⟨⟨h3, h4⟩, h5⟩ := h2
    split at h5
    · simp at h5
    · rename_i c' hc'
      exact ⟨c, c', ⟨as, (Cluster.drainedB_sound h1).tidy, hc⟩, ⟨bs, (Cluster.drainedB_sound h4).tidy, hc'⟩, h3, h5⟩

theorem check_one {as : List A} {P : C → Bool} (h : check as P [] (fun _ => true) = true) :
    ∃ c : C, c.Reachable cc ∧ P c = true := by
  obtain ⟨c, -, h1, -, h2, -⟩ := check_two h
  exact ⟨c, h1, h2⟩

end

/-- A test of the running server `i`. -/
def onUp (c : C) (i : NodeId) (p : OP Nat (List Nat) → Bool) : Bool :=
  match c.servers i with
  | .up op => p op
  | .down _ => false

theorem onUp_elim {c : C} {i : NodeId} {p : OP Nat (List Nat) → Bool} (h : onUp c i p = true) :
    ∃ op, c.servers i = .up op ∧ p op = true := by
  unfold onUp at h
  split at h
  · exact ⟨_, by assumption, h⟩
  · simp at h

end Omni.Sample
