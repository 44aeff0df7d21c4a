import Verif.Model.UniCache
import Mathlib.Data.List.Dedup
/-
Vocabulary for the replacement policy of an LRU field.
-/
namespace Omni

variable {V : Type} [DecidableEq V]

/-- What the cache of an LRU field makes of a sequence of values. -/
def LRUni.encodeAll (c : LRUni V) : List V → CM (List (MaybeEncoded V))
  | [] => .ok []
  | v :: vs => do
    let (m, c) ← c.try_encode v
    let ms ← c.encodeAll vs
    return m :: ms

/-- `v` is among the `size` values of `vs` that were used last: since its last use there have been fewer than `size` different ones. -/
def UsedLast (size : Nat) (vs : List V) (v : V) : Prop := ∃ before since, vs = before ++ v :: since ∧ v ∉ since ∧ since.dedup.length < size

end Omni
