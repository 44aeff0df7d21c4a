import Verif.Model.Persistent
/-
Which sequences of storage writes respect the log bounds. The tracker knows three numbers only: up to where the log was
trimmed, the compacted index last set, and the index behind the last entry.
-/
namespace Omni

variable {E S : Type}

structure LogBounds where
  trimmed : Nat := 0
  compacted : Nat := 0
  stop : Nat := 0
deriving DecidableEq, Repr

/-- `none`: the operation does not respect the bounds. Entries are appended behind the trimmed part; a prefix is kept up to
an index inside the log (or the trimmed index itself); trimming does not go backwards but may go beyond the end (a log that
is replaced by a snapshot). -/
def LogBounds.op (b : LogBounds) : StorageOp E S → Option LogBounds
  | .appendEntry _ => if b.trimmed ≤ b.stop then some { b with stop := b.stop + 1 } else none
  | .appendEntries es => if b.trimmed ≤ b.stop then some { b with stop := b.stop + es.length } else none
  | .appendOnPrefix i es =>
    if b.trimmed ≤ i ∧ (i ≤ b.stop ∨ i = b.trimmed) then some { b with stop := i + es.length } else none
  | .trim i => if b.trimmed ≤ i then some { b with trimmed := i } else none
  | .setCompactedIdx i => some { b with compacted := i }
  | _ => some b

def LogBounds.ops (b : LogBounds) : List (StorageOp E S) → Option LogBounds
  | [] => some b
  | op :: r => match b.op op with
    | none => none
    | some b' => b'.ops r

def LogBounds.calls (b : LogBounds) : List (StorageCall E S) → Option LogBounds
  | [] => some b
  | .one op :: r => match b.op op with
    | none => none
    | some b' => b'.calls r
  | .atomically ops :: r => match b.ops ops with
    | none => none
    | some b' => b'.calls r

/-- The call is one atomic write to the database. Every write method of PersistentStorage is, except `append_on_prefix`
(persistent_storage.rs 323-334), which first deletes and then puts. -/
def StorageCall.OneWrite : StorageCall E S → Prop
  | .one (.appendOnPrefix _ _) => False
  | _ => True

/-- What was trimmed is recorded as compacted, and the log does not end before. -/
def LogBounds.Settled (b : LogBounds) : Prop := b.compacted = b.trimmed ∧ b.trimmed ≤ b.stop

/-- The calls respect the bounds and leave the storage settled. -/
def InBounds (cs : List (StorageCall E S)) : Prop := ∃ b, ({} : LogBounds).calls cs = some b ∧ b.Settled

/-- The two storages cannot be told apart by any getter. (`get_entries` may not be asked for indexes that were trimmed;
`get_suffix` may, and then MemoryStorage panics and PersistentStorage returns an error, which its callers turn into a panic.) -/
structure SameGetters (m : Mem E S) (p : PStore E S) : Prop where
  entries : ∀ i j, m.compacted_idx ≤ i → m.compacted_idx ≤ j → m.get_entries i j = p.get_entries i j
  entries_ok : ∀ i j, m.compacted_idx ≤ i → m.compacted_idx ≤ j → (p.get_entries i j).isSome
  suffix : ∀ i, m.get_suffix i = p.get_suffix i
  log_len : some m.get_log_len = p.get_log_len
  promise : m.n_prom = p.get_promise
  decided : m.ld = p.get_decided_idx
  accepted : m.acc_round = p.get_accepted_round
  compacted : m.compacted_idx = p.get_compacted_idx
  stopsign : m.stopsign = p.get_stopsign
  snapshot : m.snapshot = p.get_snapshot

end Omni
