import Verif.Spec.Run
/-
How often entries were handed in, and links that do not duplicate forwarded proposals.
-/
namespace Omni

variable {E S : Type}

/-- The action is an `append` of an entry that satisfies `P` (also one during which the server crashes). -/
def Action.appends (P : E → Bool) : Action E S → Nat
  | .call _ (.append e) => if P e then 1 else 0
  | .crashCall _ (.append e) _ => if P e then 1 else 0
  | _ => 0

/-- The number of such actions of a run. -/
def appendsOf (P : E → Bool) (as : List (Action E S)) : Nat := (as.map (Action.appends P)).sum

/-- The action does not duplicate ProposalForward messages. -/
def Cluster.ForwardsOnce (c : Cluster E S) : Action E S → Prop
  | .rearrange i j ks => ks.Pairwise fun k k' => k = k' → ∀ m es, (c.net i j)[k]? = some (.paxos m) → m.msg ≠ .proposalForward es
  | _ => True

/-- No action of the run does. -/
def Cluster.ForwardsOnceRun [SnapOps E S] (cc : ClusterConfig) (c : Cluster E S) : List (Action E S) → Prop
  | [] => True
  | a :: as => c.ForwardsOnce a ∧ ∀ c', c.step cc a = some c' → c'.ForwardsOnceRun cc as

/-- Links that keep order and do not duplicate at all are a special case. -/
theorem Cluster.ForwardsOnceRun.of_inOrder [SnapOps E S] {cc : ClusterConfig} {as : List (Action E S)} :
    ∀ {c : Cluster E S}, as.all Action.InOrder = true → c.ForwardsOnceRun cc as := by
  induction as with
  | nil => exact fun _ => trivial
  | cons a as ih =>
    intro c h
    simp only [List.all_cons, Bool.and_eq_true] at h
    refine ⟨?_, fun c' _ => ih h.2⟩
    cases a <;> first | trivial | cases h.1

end Omni
