import Verif.Model.KV
import Verif.Spec.Snapshot
import Verif.Spec.Run
/-
What a key-value store should hold.
-/
namespace Omni

/-- The value that the last of the commands on key `k` writes. -/
def lastWrite (D : List KeyValue) (k : String) : Option Nat := (D.reverse.find? fun e => e.key = k).map (·.value)

/-- The list `l` is one of the orders in which an iterator of the map may return its pairs: each pair once. -/
structure KVSnapshot.Iterates (m : KVSnapshot) (l : List (String × Nat)) : Prop where
  once : (l.map (·.1)).Nodup
  pairs : ∀ k v, (k, v) ∈ l ↔ m.get k = some v

end Omni
