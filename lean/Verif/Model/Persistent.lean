import Verif.Model.Storage
/-
PersistentStorage: /repo/omnipaxos_storage/src/persistent_storage.rs 97-456.

RocksDB is modelled as two ordered maps: the column family "log" (keys are indexes; the eight big-endian bytes of a `usize`
sort as the numbers do) and the default column family with its six fixed keys. Serialisation is the identity; a
serialisation or database error is not modelled, so the write batch is empty between calls. `Err` of a getter is `none`
(every caller in internal_storage.rs turns it into a panic).
-/
namespace Omni

variable {E S : Type}

/-! ### An ordered map -/

/-- The column family "log": keys in ascending order. -/
abbrev KV (E : Type) := List (Nat × E)

namespace KV

/-- `put_cf`. -/
def put (k : Nat) (v : E) : KV E → KV E
  | [] => [(k, v)]
  | (j, w) :: r => if k < j then (k, v) :: (j, w) :: r else if k = j then (k, v) :: r else (j, w) :: put k v r

/-- `delete_range_cf(a, b)`: removes the keys in `[a, b)`. -/
def deleteRange (a b : Nat) (m : KV E) : KV E := m.filter fun p => !(decide (a ≤ p.1) && decide (p.1 < b))

/-- `raw_iterator_cf` and `seek(k)`: the part of the map that the iterator still has in front of it. -/
def seek (k : Nat) (m : KV E) : KV E := m.dropWhile fun p => decide (p.1 < k)

end KV

/-- The contents of the database. -/
structure DB (E S : Type) where
  log : KV E := []
  nprom : Option Ballot := none
  acc : Option Ballot := none
  decide : Option Nat := none
  trim : Option Nat := none
  stopsign : Option (Option StopSign) := none
  snapshot : Option (Option S) := none
deriving DecidableEq, Repr

/-- One operation of a RocksDB write batch. -/
inductive WOp (E S : Type) where
  | putLog (k : Nat) (e : E)
  | deleteLog (a b : Nat)
  | nprom (b : Ballot)
  | acc (b : Ballot)
  | decide (i : Nat)
  | trim (i : Nat)
  | stopsign (ss : Option StopSign)
  | snapshot (s : Option S)

def DB.apply (d : DB E S) : WOp E S → DB E S
  | .putLog k e => { d with log := d.log.put k e }
  | .deleteLog a b => { d with log := d.log.deleteRange a b }
  | .nprom b => { d with nprom := some b }
  | .acc b => { d with acc := some b }
  | .decide i => { d with decide := some i }
  | .trim i => { d with trim := some i }
  | .stopsign ss => { d with stopsign := some ss }
  | .snapshot s => { d with snapshot := some s }

/-- `db.write(batch)`: the operations in order, atomically. -/
def DB.write (d : DB E S) (ops : List (WOp E S)) : DB E S := ops.foldl DB.apply d

/-- persistent_storage.rs 97-111. -/
structure PStore (E S : Type) where
  db : DB E S := {}
  next_log_key : Nat := 0
deriving DecidableEq, Repr

namespace PStore

/-- persistent_storage.rs 119-165. -/
def «open» (db : DB E S) : PStore E S :=
  { db
    next_log_key := match db.log.getLast? with
      | some p => p.1 + 1
      | none => db.trim.getD 0 }

/-- persistent_storage.rs 193-203 (and the loop of 311-318): put the entries at consecutive keys. -/
def putEntries (next : Nat) : List E → List (WOp E S)
  | [] => []
  | e :: es => .putLog next e :: putEntries (next + 1) es

/-- persistent_storage.rs 205-216: the batch and the new `next_log_key`. -/
def batch_append_on_prefix (next from_idx : Nat) (es : List E) : List (WOp E S) × Nat :=
  let delete_idx := from_idx + es.length
  ((if delete_idx < next then [.deleteLog delete_idx next] else []) ++ putEntries from_idx es, from_idx + es.length)

/-- persistent_storage.rs 183-260: what one operation adds to the batch, and the new `next_log_key`. -/
def batch (next : Nat) : StorageOp E S → List (WOp E S) × Nat
  | .appendEntry e => ([.putLog next e], next + 1)
  | .appendEntries es => (putEntries next es, next + es.length)
  | .appendOnPrefix i es => batch_append_on_prefix next i es
  | .setPromise b => ([.nprom b], next)
  | .setDecidedIndex i => ([.decide i], next)
  | .setAcceptedRound b => ([.acc b], next)
  | .setCompactedIdx i => ([.trim i], next)
  | .trim i => ([.deleteLog 0 i], next)
  | .setStopsign ss => ([.stopsign ss], next)
  | .setSnapshot s => ([.snapshot s], next)

/-- The loop of persistent_storage.rs 279-294. -/
def batchAll (next : Nat) : List (StorageOp E S) → List (WOp E S) × Nat
  | [] => ([], next)
  | op :: ops =>
    let r := batch next op
    let rs := batchAll r.2 ops
    (r.1 ++ rs.1, rs.2)

/-- persistent_storage.rs 278-296. -/
def write_atomically (s : PStore E S) (ops : List (StorageOp E S)) : PStore E S :=
  let r := batchAll s.next_log_key ops
  { db := s.db.write r.1, next_log_key := r.2 }

/-- persistent_storage.rs 298-307. -/
def append_entry (s : PStore E S) (e : E) : PStore E S :=
  { db := s.db.write [.putLog s.next_log_key e], next_log_key := s.next_log_key + 1 }

/-- persistent_storage.rs 309-321. -/
def append_entries (s : PStore E S) (es : List E) : PStore E S :=
  { db := s.db.write (putEntries s.next_log_key es), next_log_key := s.next_log_key + es.length }

/-- persistent_storage.rs 323-334: two writes, one after the other. -/
def append_on_prefix (s : PStore E S) (from_idx : Nat) (es : List E) : PStore E S :=
  let delete_idx := from_idx + es.length
  let db := if delete_idx < s.next_log_key then s.db.write [.deleteLog delete_idx s.next_log_key] else s.db
  append_entries { db, next_log_key := from_idx } es

/-- persistent_storage.rs 336-351. -/
def get_entries (s : PStore E S) (frm to : Nat) : Pan (List E) :=
  if to > s.next_log_key ∨ frm ≥ to then some []
  else
    let l := s.db.log.seek frm
    if l.length < to - frm then none else some ((l.take (to - frm)).map (·.2))

/-- persistent_storage.rs 406-412. -/
def get_compacted_idx (s : PStore E S) : Nat := s.db.trim.getD 0

/-- persistent_storage.rs 353-355; `usize` underflow is a panic. -/
def get_log_len (s : PStore E S) : Pan Nat := usub s.next_log_key s.get_compacted_idx

/-- persistent_storage.rs 357-359. -/
def get_suffix (s : PStore E S) (frm : Nat) : Pan (List E) := s.get_entries frm s.next_log_key

/-- persistent_storage.rs 361-367. -/
def get_promise (s : PStore E S) : Option Ballot := s.db.nprom

/-- persistent_storage.rs 369-373. -/
def set_promise (s : PStore E S) (b : Ballot) : PStore E S := { s with db := s.db.write [.nprom b] }

/-- persistent_storage.rs 375-381. -/
def get_decided_idx (s : PStore E S) : Nat := s.db.decide.getD 0

/-- persistent_storage.rs 383-387. -/
def set_decided_idx (s : PStore E S) (i : Nat) : PStore E S := { s with db := s.db.write [.decide i] }

/-- persistent_storage.rs 389-398. -/
def get_accepted_round (s : PStore E S) : Option Ballot := s.db.acc

/-- persistent_storage.rs 400-404. -/
def set_accepted_round (s : PStore E S) (b : Ballot) : PStore E S := { s with db := s.db.write [.acc b] }

/-- persistent_storage.rs 414-418. -/
def set_compacted_idx (s : PStore E S) (i : Nat) : PStore E S := { s with db := s.db.write [.trim i] }

/-- persistent_storage.rs 420-426. -/
def get_stopsign (s : PStore E S) : Option StopSign := s.db.stopsign.getD none

/-- persistent_storage.rs 428-432. -/
def set_stopsign (s : PStore E S) (ss : Option StopSign) : PStore E S := { s with db := s.db.write [.stopsign ss] }

/-- persistent_storage.rs 434-441. -/
def get_snapshot (s : PStore E S) : Option S := s.db.snapshot.getD none

/-- persistent_storage.rs 443-447. -/
def set_snapshot (s : PStore E S) (x : Option S) : PStore E S := { s with db := s.db.write [.snapshot x] }

/-- persistent_storage.rs 449-455. -/
def trim (s : PStore E S) (i : Nat) : PStore E S := { s with db := s.db.write [.deleteLog 0 i] }

end PStore

/-- The write calls on PersistentStorage. -/
def PStore.call (s : PStore E S) : StorageCall E S → PStore E S
  | .atomically ops => s.write_atomically ops
  | .one (.appendEntry e) => s.append_entry e
  | .one (.appendEntries es) => s.append_entries es
  | .one (.appendOnPrefix i es) => s.append_on_prefix i es
  | .one (.setPromise b) => s.set_promise b
  | .one (.setDecidedIndex i) => s.set_decided_idx i
  | .one (.setAcceptedRound b) => s.set_accepted_round b
  | .one (.setCompactedIdx i) => s.set_compacted_idx i
  | .one (.trim i) => s.trim i
  | .one (.setStopsign ss) => s.set_stopsign ss
  | .one (.setSnapshot x) => s.set_snapshot x

def PStore.calls (s : PStore E S) (cs : List (StorageCall E S)) : PStore E S := cs.foldl PStore.call s

def Mem.calls (m : Mem E S) : List (StorageCall E S) → Pan (Mem E S)
  | [] => some m
  | c :: cs => match m.call c with
    | none => none
    | some m' => m'.calls cs

end Omni
