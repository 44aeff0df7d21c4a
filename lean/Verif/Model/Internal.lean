import Verif.Model.Storage
/-
InternalStorage and StateCache: /repo/omnipaxos/src/storage/{internal_storage.rs, state_cache.rs}, feature unicache off.

Every write to the back-end also pushes the resulting durable state on `trail`, and the write call itself on `calls`; a crash
in the middle of a call leaves one of the states recorded there (see Model/Cluster.lean).
-/
namespace Omni

variable {E S : Type}

/-- state_cache.rs 7-35. -/
structure StateCache (E : Type) where
  batch_size : Nat
  batched_entries : List E := []
  promise : Ballot := {}
  accepted_round : Ballot := {}
  decided_idx : Nat := 0
  accepted_idx : Nat := 0
  compacted_idx : Nat := 0
  stopsign : Option StopSign := none
deriving DecidableEq, Repr

/-- internal_storage.rs 22-30, plus the trail of durable states written and the write calls made, latest first. -/
structure IStore (E S : Type) where
  storage : Mem E S
  cache : StateCache E
  trail : List (Mem E S) := []
  calls : List (StorageCall E S) := []
deriving DecidableEq, Repr

/-- util.rs 465-471. -/
structure AcceptedMetaData (E : Type) where
  accepted_idx : Nat
  entries : List E

/-- state_cache.rs 124-126. -/
def StateCache.stopsign_is_decided (c : StateCache E) : Bool :=
  c.stopsign.isSome && decide (c.decided_idx = c.accepted_idx)

namespace IStore

/-- internal_storage.rs 37-53 with `load_cache` 55-74 and `StateCache::new` (state_cache.rs 41-61). -/
def «with» (storage : Mem E S) (batch_size : Nat) : IStore E S :=
  { storage
    cache := {
      batch_size
      promise := storage.n_prom.getD {}
      decided_idx := storage.ld
      accepted_round := storage.acc_round.getD {}
      compacted_idx := storage.compacted_idx
      stopsign := storage.stopsign
      accepted_idx := storage.get_log_len + storage.compacted_idx + (if storage.stopsign.isSome then 1 else 0) } }

/-! ### Reads -/

/-- internal_storage.rs 469-474. -/
def get_decided_idx_without_stopsign (s : IStore E S) : Pan Nat :=
  if s.cache.stopsign_is_decided then usub s.cache.decided_idx 1 else some s.cache.decided_idx

/-- util.rs 299-303. -/
inductive IndexEntry where
  | entry
  | compacted
  | stopSign (ss : StopSign)

/-- internal_storage.rs 159-177. -/
def get_entry_type (s : IStore E S) (idx compacted_idx accepted_idx : Nat) : Option IndexEntry :=
  if idx < compacted_idx then some .compacted
  else if idx + 1 < accepted_idx then some .entry
  else if idx + 1 = accepted_idx then
    match s.cache.stopsign with
    | some ss => some (.stopSign ss)
    | none => some .entry
  else none

/-- The `enumerate().map(..)` of internal_storage.rs 183-193, starting at index `i`. -/
def markDecided (decided_idx : Nat) : Nat → List E → List (LogEntry E S)
  | _, [] => []
  | i, e :: es => (if i < decided_idx then .decided e else .undecided e) :: markDecided decided_idx (i + 1) es

/-- internal_storage.rs 179-195. -/
def create_read_log_entries (s : IStore E S) (frm to : Nat) : Pan (List (LogEntry E S)) :=
  match s.storage.get_entries frm to with
  | none => none
  | some es => some (markDecided s.cache.decided_idx frm es)

/-- internal_storage.rs 197-202. -/
def create_compacted_entry (s : IStore E S) (compacted_idx : Nat) : LogEntry E S :=
  match s.storage.snapshot with
  | some sn => .snapshotted compacted_idx sn
  | none => .trimmed compacted_idx

/-- `std::ops::Bound`. -/
inductive Bound where
  | included (i : Nat)
  | excluded (i : Nat)
  | unbounded
deriving DecidableEq, Repr

/-- internal_storage.rs 94-98. -/
def startIdx : Bound → Nat
  | .included i => i
  | .excluded e => e + 1
  | .unbounded => 0

/-- internal_storage.rs 99-103. -/
def endIdx (s : IStore E S) : Bound → Nat
  | .included i => i + 1
  | .excluded e => e
  | .unbounded => s.cache.accepted_idx

/-- internal_storage.rs 90-157. Outer `none` is a panic (`unimplemented!`, `usize` underflow), inner `none` is the
returned `None`. `Vec::with_capacity(to_idx - compacted_idx + 1)` (131, 139) can only underflow for a range whose end lies
in the compacted area, which returned before; it is omitted. -/
def read (s : IStore E S) (lo hi : Bound) : Pan (Option (List (LogEntry E S))) :=
  let from_idx := startIdx lo
  let to_idx := s.endIdx hi
  if to_idx = 0 then some none
  else
    let compacted_idx := s.cache.compacted_idx
    let accepted_idx := s.cache.accepted_idx
    match s.get_entry_type (to_idx - 1) compacted_idx accepted_idx with
    | some .compacted => some (some [s.create_compacted_entry compacted_idx])
    | none => some none
    | some to_type =>
      match s.get_entry_type from_idx compacted_idx accepted_idx with
      | none => some none
      | some from_type =>
        match from_type, to_type with
        | .entry, .entry =>
          match s.create_read_log_entries from_idx to_idx with
          | none => none
          | some es => some (some es)
        | .entry, .stopSign ss =>
          match s.create_read_log_entries from_idx (to_idx - 1) with
          | none => none
          | some es => some (some (es ++ [.stopSign ss s.cache.stopsign_is_decided]))
        | .compacted, .entry =>
          match s.create_read_log_entries compacted_idx to_idx with
          | none => none
          | some es => some (some (s.create_compacted_entry compacted_idx :: es))
        | .compacted, .stopSign ss =>
          match s.create_read_log_entries compacted_idx (to_idx - 1) with
          | none => none
          | some es => some (some
              (s.create_compacted_entry compacted_idx :: es ++ [.stopSign ss s.cache.stopsign_is_decided]))
        | .stopSign ss, .stopSign _ => some (some [.stopSign ss s.cache.stopsign_is_decided])
        | _, _ => none

/-- internal_storage.rs 77-87. -/
def read_decided_suffix (s : IStore E S) (from_idx : Nat) : Pan (Option (List (LogEntry E S))) :=
  if from_idx < s.cache.decided_idx then s.read (.included from_idx) (.excluded s.cache.decided_idx)
  else some none

/-- internal_storage.rs 367-383: `error` is the returned `Err(TrimmedIndex)`. -/
def create_snapshot [SnapOps E S] (s : IStore E S) (compact_idx : Nat) : Pan (Except CompactionErr S) :=
  let cur := s.cache.compacted_idx
  if compact_idx < cur then some (.error (.trimmedIndex cur))
  else match s.storage.get_entries cur compact_idx with
    | none => none
    | some es => match SnapOps.create es with
      | none => none
      | some delta => match s.storage.snapshot with
        | none => some (.ok delta)
        | some sn => match SnapOps.merge E sn delta with
          | none => none
          | some sn' => some (.ok sn')

/-- `x.expect(..)` on the result of `create_snapshot`. -/
def expectOk {α : Type} (x : Pan (Except CompactionErr α)) : Pan α :=
  match x with
  | some (.ok a) => some a
  | _ => none

/-- internal_storage.rs 389-412. The caller (`create_log_sync`) unwraps the result, so `Err` is a panic here. -/
def create_diff_snapshot [SnapOps E S] (s : IStore E S) (from_idx : Nat) :
    Pan (Option (SnapshotType S) × Nat) :=
  match s.get_decided_idx_without_stopsign with
  | none => none
  | some log_decided_idx =>
    let compacted_idx := s.cache.compacted_idx
    if from_idx ≤ compacted_idx then
      if compacted_idx < log_decided_idx then
        match expectOk (s.create_snapshot log_decided_idx) with
        | none => none
        | some sn => some (some (.complete sn), log_decided_idx)
      else some (s.storage.snapshot.map .complete, log_decided_idx)
    else match s.storage.get_entries from_idx log_decided_idx with
      | none => none
      | some es => match SnapOps.create es with
        | none => none
        | some d => some (some (.delta d), log_decided_idx)

/-! ### Writes -/

/-- A write call on the storage (a panic inside leaves it as it was): one durable write. -/
def callStorage (c : StorageCall E S) : M (IStore E S) Unit := do
  let s ← M.get
  let m ← M.ofPan (s.storage.call c)
  M.upd fun s => { s with storage := m, trail := m :: s.trail, calls := c :: s.calls }

/-- A call of one of the setters. -/
def write (op : StorageOp E S) : M (IStore E S) Unit := callStorage (.one op)

/-- Assignment to fields of the state cache. -/
def setCache (f : StateCache E → StateCache E) : M (IStore E S) Unit :=
  M.upd fun s => { s with cache := f s.cache }

/-- `storage.write_atomically(ops)`. -/
def writeOps (ops : List (StorageOp E S)) : M (IStore E S) Unit := callStorage (.atomically ops)

/-- internal_storage.rs 303-311. -/
def append_entries_without_batching (es : List E) : M (IStore E S) Nat := do
  write (.appendEntries es)
  setCache fun c => { c with accepted_idx := c.accepted_idx + es.length }
  let s ← M.get
  pure s.cache.accepted_idx

/-- state_cache.rs 104-116: take the batch if it is full. -/
def take_entries_if_batch_is_full : M (IStore E S) (Option (List E)) := do
  let s ← M.get
  if s.cache.batched_entries.length ≥ s.cache.batch_size then do
    setCache fun c => { c with batched_entries := [] }
    pure (some s.cache.batched_entries)
  else pure none

/-- state_cache.rs 65-73 and 77-90 (one entry is the one-element case; unicache off). -/
def cache_append_entries (es : List E) : M (IStore E S) (Option (List E)) := do
  setCache fun c => { c with batched_entries := c.batched_entries ++ es }
  take_entries_if_batch_is_full

/-- internal_storage.rs 237-253. -/
def flush_if_full_batch (r : Option (List E)) : M (IStore E S) (Option (AcceptedMetaData E)) :=
  match r with
  | some flushed => do
    let accepted_idx ← append_entries_without_batching flushed
    pure (some { accepted_idx, entries := flushed })
  | none => pure none

/-- internal_storage.rs 206-212. -/
def append_entry_with_batching (e : E) : M (IStore E S) (Option (AcceptedMetaData E)) := do
  let r ← cache_append_entries [e]
  flush_if_full_batch r

/-- internal_storage.rs 216-222. -/
def append_entries_with_batching (es : List E) : M (IStore E S) (Option (AcceptedMetaData E)) := do
  let r ← cache_append_entries es
  flush_if_full_batch r

/-- internal_storage.rs 257-268. -/
def append_entries_and_get_accepted_idx (es : List E) : M (IStore E S) (Option Nat) := do
  let r ← cache_append_entries es
  match r with
  | some flushed => do
    let i ← append_entries_without_batching flushed
    pure (some i)
  | none => pure none

/-- state_cache.rs 94-101. -/
def cache_append_stopsign (ss : StopSign) : M (IStore E S) (Option (List E)) := do
  setCache fun c => { c with stopsign := some ss }
  let s ← M.get
  if s.cache.batched_entries.isEmpty then pure none
  else do
    setCache fun c => { c with batched_entries := [] }
    pure (some s.cache.batched_entries)

/-- internal_storage.rs 226-235. -/
def append_stopsign (ss : StopSign) : M (IStore E S) (Option (AcceptedMetaData E)) := do
  let r ← cache_append_stopsign ss
  let md ← flush_if_full_batch r
  write (.setStopsign (some ss))
  setCache fun c => { c with accepted_idx := c.accepted_idx + 1 }
  pure md

/-- internal_storage.rs 281-289. -/
def flush_batch : M (IStore E S) Nat := do
  let s ← M.get
  setCache fun c => { c with batched_entries := [] }
  append_entries_without_batching s.cache.batched_entries

/-- internal_storage.rs 291-300. -/
def flush_batch_and_get_entries : M (IStore E S) (Option (AcceptedMetaData E)) := do
  let s ← M.get
  if s.cache.batched_entries.isEmpty then flush_if_full_batch none
  else do
    setCache fun c => { c with batched_entries := [] }
    flush_if_full_batch (some s.cache.batched_entries)

/-- internal_storage.rs 362-365; the caller uses `?` and is unwrapped, so `Err` is a panic. -/
def create_decided_snapshot [SnapOps E S] (s : IStore E S) : Pan S :=
  match s.get_decided_idx_without_stopsign with
  | none => none
  | some i => expectOk (s.create_snapshot i)

/-- The snapshot part of `sync_log`, internal_storage.rs 326-342: the operations to add to the transaction. It reads the
storage and the cache as they are after lines 319-320. -/
def syncSnapshotOps [SnapOps E S] (s : IStore E S) (sync : LogSync E S) : Pan (List (StorageOp E S)) :=
  match sync.decided_snapshot with
  | some (.complete c) => some [.trim sync.sync_idx, .setCompactedIdx sync.sync_idx, .setSnapshot (some c)]
  | some (.delta d) =>
    match s.create_decided_snapshot with
    | none => none
    | some sn => match SnapOps.merge E sn d with
      | none => none
      | some sn' => some [.trim sync.sync_idx, .setCompactedIdx sync.sync_idx, .setSnapshot (some sn')]
  | none => some []

/-- internal_storage.rs 345-356: the stop-sign operation of the transaction. -/
def syncStopsignOps (old new : Option StopSign) : List (StorageOp E S) :=
  match new, old with
  | some ss, _ => [.setStopsign (some ss)]
  | none, some _ => [.setStopsign none]
  | none, none => []

/-- internal_storage.rs 313-360. -/
def sync_log [SnapOps E S] (accepted_round : Ballot) (decided_idx : Nat) (log_sync : Option (LogSync E S)) :
    M (IStore E S) Nat := do
  setCache fun c => { c with accepted_round, decided_idx }
  let base : List (StorageOp E S) := [.setAcceptedRound accepted_round, .setDecidedIndex decided_idx]
  match log_sync with
  | none => do
    writeOps base
    let s ← M.get
    pure s.cache.accepted_idx
  | some sync => do
    let s ← M.get
    let snapOps ← M.ofPan (s.syncSnapshotOps sync)
    let ops := base ++ snapOps ++ [.appendOnPrefix sync.sync_idx sync.suffix]
      ++ syncStopsignOps s.cache.stopsign sync.stopsign
    setCache fun c => { c with
      compacted_idx := if sync.decided_snapshot.isSome then sync.sync_idx else c.compacted_idx
      accepted_idx := sync.sync_idx + sync.suffix.length + (if sync.stopsign.isSome then 1 else 0)
      stopsign := sync.stopsign }
    writeOps ops
    let s ← M.get
    pure s.cache.accepted_idx

/-- The index arithmetic shared by internal_storage.rs 415-421 and 433-442: where to compact to. -/
def compactTarget (s : IStore E S) (idx : Option Nat) : Pan (Except CompactionErr Nat) :=
  match s.get_decided_idx_without_stopsign with
  | none => none
  | some log_decided_idx =>
    match idx with
    | none => some (.ok log_decided_idx)
    | some i =>
      if i < s.cache.decided_idx then some (.ok i)
      else if i = s.cache.decided_idx then some (.ok log_decided_idx)
      else some (.error (.undecidedIndex s.cache.decided_idx))

/-- internal_storage.rs 414-430. -/
def try_trim (idx : Nat) : M (IStore E S) (Except CompactionErr Unit) := do
  let s ← M.get
  let t ← M.ofPan (s.compactTarget (some idx))
  match t with
  | .error e => pure (.error e)
  | .ok new_compacted_idx =>
    if new_compacted_idx > s.cache.compacted_idx then do
      writeOps [.trim new_compacted_idx, .setCompactedIdx new_compacted_idx]
      setCache fun c => { c with compacted_idx := new_compacted_idx }
      pure (.ok ())
    else pure (.ok ())

/-- internal_storage.rs 432-453. -/
def try_snapshot [SnapOps E S] (snapshot_idx : Option Nat) : M (IStore E S) (Except CompactionErr Unit) := do
  let s ← M.get
  let t ← M.ofPan (s.compactTarget snapshot_idx)
  match t with
  | .error e => pure (.error e)
  | .ok new_compacted_idx =>
    if new_compacted_idx > s.cache.compacted_idx then do
      let r ← M.ofPan (s.create_snapshot new_compacted_idx)
      match r with
      | .error e => pure (.error e)
      | .ok sn => do
        writeOps [.trim new_compacted_idx, .setCompactedIdx new_compacted_idx, .setSnapshot (some sn)]
        setCache fun c => { c with compacted_idx := new_compacted_idx }
        pure (.ok ())
    else pure (.ok ())

/-- internal_storage.rs 455-458. -/
def set_promise (b : Ballot) : M (IStore E S) Unit := do
  setCache fun c => { c with promise := b }
  write (.setPromise b)

/-- internal_storage.rs 460-463. -/
def set_decided_idx (i : Nat) : M (IStore E S) Unit := do
  setCache fun c => { c with decided_idx := i }
  write (.setDecidedIndex i)

/-- internal_storage.rs 497-506. -/
def set_stopsign (ss : Option StopSign) : M (IStore E S) Nat := do
  let s ← M.get
  let ai ← M.ofPan (match ss, s.cache.stopsign with
    | some _, none => some (s.cache.accepted_idx + 1)
    | none, some _ => usub s.cache.accepted_idx 1
    | _, _ => some s.cache.accepted_idx)
  setCache fun c => { c with accepted_idx := ai, stopsign := ss }
  write (.setStopsign ss)
  pure ai

end IStore
end Omni
