import Verif.Spec.UniCache
import Mathlib.Data.List.Dedup
/-
Vocabulary for fields whose values all fit into the cache.
-/
namespace Omni

variable {V : Type} [DecidableEq V]

/-- What the cache of a field makes of a sequence of values. -/
def FieldCache.encodeAll (c : FieldCache V) : List V → CM (List (MaybeEncoded V))
  | [] => .ok []
  | v :: vs => do
    let (m, c) ← c.try_encode v
    let ms ← c.encodeAll vs
    return m :: ms

/-- The different values of a list in the order of their first appearance. -/
def appearance (vs : List V) : List V := vs.foldl (fun l v => if v ∈ l then l else l ++ [v]) []

/-- What is sent for `v` after `before`: the value itself the first time, later its number in the order of first appearance. -/
def numbered (before : List V) (v : V) : MaybeEncoded V := if v ∈ before then .encoded ((appearance before).idxOf v + 1) else .notEncoded v

end Omni
