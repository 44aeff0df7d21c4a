import Verif.Spec.AnyNet
/-
The calls by which ballot numbers and heartbeat rounds can rise.
-/
namespace Omni

variable {E S : Type}

/-- A tick, or a call of `try_become_leader`. -/
def Call.elects : Call E S → Bool
  | .tick | .tryBecomeLeader => true
  | _ => false

/-- The action makes such a call, completely or up to a crash. -/
def LAction.elects : LAction E S → Bool
  | .call _ c | .crashCall _ c _ => c.elects
  | _ => false

/-- How many of the actions do. -/
def elections (acts : List (LAction E S)) : Nat := (acts.filter LAction.elects).length

end Omni
