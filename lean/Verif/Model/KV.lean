import Verif.Model.OmniPaxos
/-
The key-value application: /repo/examples/kv_store/src/kv.rs 1-36 and the loops of /repo/examples/kv_store/src/main.rs 119-132
and 158-167.

A `HashMap<String, u64>` is the function from keys to optional values that it represents; `u64` values are natural numbers.
`merge` is given as the resulting map; the code inserts the pairs of `delta` in the iteration order of a hash map, which is
arbitrary. `KVSnapshot.insertAll` is that loop, and C54_merge_any_order shows that every order gives `merge`.
-/
namespace Omni

/-- kv.rs 8-11. -/
structure KeyValue where
  key : String
  value : Nat
deriving DecidableEq, Repr

/-- kv.rs 13-16: `HashMap<String, u64>`. -/
def KVSnapshot : Type := String → Option Nat

namespace KVSnapshot

/-- `HashMap::new()`. -/
def new : KVSnapshot := fun _ => none

/-- `HashMap::get`. -/
def get (m : KVSnapshot) (k : String) : Option Nat := m k

/-- `HashMap::insert`. -/
def insert (m : KVSnapshot) (k : String) (v : Nat) : KVSnapshot := fun k' => if k' = k then some v else m k'

/-- kv.rs 18-25. -/
def create (entries : List KeyValue) : KVSnapshot := entries.foldl (fun m e => m.insert e.key e.value) new

/-- kv.rs 28-30, the loop over the pairs of `delta` in the order `l`. -/
def insertAll (m : KVSnapshot) (l : List (String × Nat)) : KVSnapshot := l.foldl (fun m p => m.insert p.1 p.2) m

/-- kv.rs 27-31: the result of the loop. -/
def merge (m delta : KVSnapshot) : KVSnapshot := fun k => (delta k).or (m k)

end KVSnapshot

/-- kv.rs 17-36: `use_snapshots` is true; neither function panics. -/
instance : SnapOps KeyValue KVSnapshot where
  create es := some (KVSnapshot.create es)
  merge a b := some (a.merge b)
  use_snapshots := true

/-- main.rs 125-131 and 160-166: `if let LogEntry::Decided(kv) = ent { simple_kv_store.insert(kv.key, kv.value); }` for all
entries read. -/
def applyDecided (store : KVSnapshot) (ents : List (LogEntry KeyValue KVSnapshot)) : KVSnapshot :=
  ents.foldl (fun m ent => match ent with
    | .decided kv => m.insert kv.key kv.value
    | _ => m) store

end Omni
