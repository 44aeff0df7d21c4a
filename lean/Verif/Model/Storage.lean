import Verif.Model.Basic
/-
The storage back-end: MemoryStorage (/repo/omnipaxos_storage/src/memory_storage.rs).

In the node and cluster models this record plays the part of the durable storage: what it holds survives a crash. The
correspondence between MemoryStorage and the RocksDB-backed PersistentStorage is modelled in Model/Persistent.lean.
`usize` subtraction that would underflow is a panic (`none`); Rust builds with overflow checks.
-/
namespace Omni

variable {E S : Type}

/-- memory_storage.rs 7-27. -/
structure Mem (E S : Type) where
  log : List E := []
  n_prom : Option Ballot := none
  acc_round : Option Ballot := none
  ld : Nat := 0
  trimmed_idx : Nat := 0
  compacted_idx : Nat := 0
  snapshot : Option S := none
  stopsign : Option StopSign := none
deriving DecidableEq, Repr

/-- `a - b` on `usize`: panics on underflow. -/
def usub (a b : Nat) : Pan Nat := if b ≤ a then some (a - b) else none

/-- `slice.get(from..to).unwrap_or(&[])`: empty unless `from ≤ to ≤ len`. -/
def sliceGet (l : List E) (a b : Nat) : List E :=
  if a ≤ b ∧ b ≤ l.length then (l.take b).drop a else []

namespace Mem

/-- memory_storage.rs 53-56. -/
def append_entry (m : Mem E S) (e : E) : Mem E S := { m with log := m.log ++ [e] }

/-- memory_storage.rs 58-62. -/
def append_entries (m : Mem E S) (es : List E) : Mem E S := { m with log := m.log ++ es }

/-- memory_storage.rs 64-67. -/
def append_on_prefix (m : Mem E S) (from_idx : Nat) (es : List E) : Pan (Mem E S) :=
  match usub from_idx m.trimmed_idx with
  | none => none
  | some k => some ({ m with log := m.log.take k }.append_entries es)

/-- memory_storage.rs 69-72. -/
def set_promise (m : Mem E S) (b : Ballot) : Mem E S := { m with n_prom := some b }

/-- memory_storage.rs 74-77. -/
def set_decided_idx (m : Mem E S) (ld : Nat) : Mem E S := { m with ld := ld }

/-- memory_storage.rs 83-86. -/
def set_accepted_round (m : Mem E S) (b : Ballot) : Mem E S := { m with acc_round := some b }

/-- memory_storage.rs 92-96. -/
def get_entries (m : Mem E S) (frm to : Nat) : Pan (List E) :=
  match usub frm m.trimmed_idx, usub to m.trimmed_idx with
  | some a, some b => some (sliceGet m.log a b)
  | _, _ => none

/-- memory_storage.rs 98-100. -/
def get_log_len (m : Mem E S) : Nat := m.log.length

/-- memory_storage.rs 102-107. -/
def get_suffix (m : Mem E S) (frm : Nat) : Pan (List E) :=
  match usub frm m.trimmed_idx with
  | none => none
  | some a => some (m.log.drop a)

/-- memory_storage.rs 113-116. -/
def set_stopsign (m : Mem E S) (ss : Option StopSign) : Mem E S := { m with stopsign := ss }

/-- memory_storage.rs 122-127. -/
def trim (m : Mem E S) (idx : Nat) : Pan (Mem E S) :=
  match usub idx m.trimmed_idx with
  | none => none
  | some k => some { m with log := m.log.drop (min k m.log.length), trimmed_idx := idx }

/-- memory_storage.rs 129-132. -/
def set_compacted_idx (m : Mem E S) (idx : Nat) : Mem E S := { m with compacted_idx := idx }

/-- memory_storage.rs 138-141. -/
def set_snapshot (m : Mem E S) (s : Option S) : Mem E S := { m with snapshot := s }

end Mem

/-- storage/mod.rs 102-123. -/
inductive StorageOp (E S : Type) where
  | appendEntry (e : E)
  | appendEntries (es : List E)
  | appendOnPrefix (from_idx : Nat) (es : List E)
  | setPromise (b : Ballot)
  | setDecidedIndex (idx : Nat)
  | setAcceptedRound (b : Ballot)
  | setCompactedIdx (idx : Nat)
  | trim (idx : Nat)
  | setStopsign (ss : Option StopSign)
  | setSnapshot (s : Option S)
deriving DecidableEq, Repr

/-- One arm of memory_storage.rs 35-48. -/
def Mem.apply (m : Mem E S) : StorageOp E S → Pan (Mem E S)
  | .appendEntry e => some (m.append_entry e)
  | .appendEntries es => some (m.append_entries es)
  | .appendOnPrefix i es => m.append_on_prefix i es
  | .setPromise b => some (m.set_promise b)
  | .setDecidedIndex i => some (m.set_decided_idx i)
  | .setAcceptedRound b => some (m.set_accepted_round b)
  | .setCompactedIdx i => some (m.set_compacted_idx i)
  | .trim i => m.trim i
  | .setStopsign ss => some (m.set_stopsign ss)
  | .setSnapshot s => some (m.set_snapshot s)

/-- memory_storage.rs 33-51. A panic inside leaves the durable state unchanged (the trait, storage/mod.rs 130-135,
demands all-or-nothing). -/
def Mem.write_atomically (m : Mem E S) : List (StorageOp E S) → Pan (Mem E S)
  | [] => some m
  | op :: ops => match m.apply op with
    | none => none
    | some m' => m'.write_atomically ops

/-- A write call of the `Storage` trait (storage/mod.rs 130-213). -/
inductive StorageCall (E S : Type) where
  | one (op : StorageOp E S)
  | atomically (ops : List (StorageOp E S))
deriving DecidableEq, Repr

/-- The write calls on MemoryStorage; `none` is a panic. -/
def Mem.call (m : Mem E S) : StorageCall E S → Pan (Mem E S)
  | .atomically ops => m.write_atomically ops
  | .one op => m.apply op

end Omni
