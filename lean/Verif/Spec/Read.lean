import Verif.Model.Cluster
/-
What a reader of a storage should see: the specification of the read API.
-/
namespace Omni

variable {E S : Type}

/-- Number of log positions: compacted ones, stored entries, the StopSign. -/
def Mem.len (m : Mem E S) : Nat := m.compacted_idx + m.log.length + (if m.stopsign.isSome then 1 else 0)

/-- What stands for the compacted part of the log. -/
def Mem.marker (m : Mem E S) : LogEntry E S :=
  match m.snapshot with
  | some s => .snapshotted m.compacted_idx s
  | none => .trimmed m.compacted_idx

/-- The position `i` of the log. -/
def Mem.view (m : Mem E S) (i : Nat) : Option (LogEntry E S) :=
  if i < m.compacted_idx then some m.marker
  else match m.log[i - m.compacted_idx]? with
    | some e => some (if i < m.ld then .decided e else .undecided e)
    | none =>
      if i = m.compacted_idx + m.log.length then m.stopsign.map fun ss => .stopSign ss (decide (i < m.ld)) else none

/-- The positions `a..b`; the compacted part is shown by one marker. -/
def Mem.viewRange (m : Mem E S) (a b : Nat) : List (LogEntry E S) :=
  (if a < m.compacted_idx then [m.marker] else []) ++
    (List.range' (max a m.compacted_idx) (b - max a m.compacted_idx)).filterMap m.view

/-- First index of a Rust range with this start. -/
def IStore.Bound.first : IStore.Bound → Nat
  | .included i => i
  | .excluded i => i + 1
  | .unbounded => 0

/-- One past the last index of a Rust range with this end, over a log of length `len`. -/
def IStore.Bound.last (len : Nat) : IStore.Bound → Nat
  | .included i => i + 1
  | .excluded i => i
  | .unbounded => len

/-- The numbers a server caches are those of its storage, and its decided index is within its log. -/
structure OP.Consistent (op : OP E S) : Prop where
  compacted : op.sp.ist.cache.compacted_idx = op.sp.ist.storage.compacted_idx
  trimmed : op.sp.ist.storage.trimmed_idx = op.sp.ist.storage.compacted_idx
  decided : op.sp.ist.cache.decided_idx = op.sp.ist.storage.ld
  stopsign : op.sp.ist.cache.stopsign = op.sp.ist.storage.stopsign
  accepted : op.sp.ist.cache.accepted_idx = op.sp.ist.storage.len
  bound : op.sp.ist.storage.ld ≤ op.sp.ist.storage.len

/-- What `read(i)` shows on this server. -/
def OP.at (op : OP E S) (i : Nat) : Option (LogEntry E S) := op.sp.ist.storage.view i

end Omni
