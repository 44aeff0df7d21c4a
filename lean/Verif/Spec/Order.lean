import Verif.Model.Cluster
/-
Order of entries: a log as an interleaving of what was appended at each server.
-/
namespace Omni

variable {E S : Type}

/-- The entry an action appends at a server of `L`. -/
def Action.entryAt? (L : List NodeId) : Action E S → Option E
  | .call i (.append e) => if i ∈ L then some e else none
  | _ => none

/-- What is appended at server `i` in the course of `as`, in this order. -/
def appendedAt (i : NodeId) (as : List (Action E S)) : List E := as.filterMap (Action.entryAt? [i])

/-- The entries of `X` that `T` labels with `i`, in the order of `X`. -/
def labelled (X : List E) (T : List NodeId) (i : NodeId) : List E := ((X.zip T).filter fun p => p.2 == i).map (·.1)

end Omni
