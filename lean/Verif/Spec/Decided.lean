import Verif.Spec.Run
/-
What users and disks show, for the statements about the whole cluster.
-/
namespace Omni

variable {E S : Type}

/-- The entry a storage holds at a position of the log; `none` if the position is compacted, the StopSign, or beyond the log. -/
def Mem.entryAt (m : Mem E S) (p : Nat) : Option E :=
  if p < m.compacted_idx then none else m.log[p - m.compacted_idx]?

/-- `m` still holds, or has compacted, what `d` holds at position `p`. -/
def Mem.Keeps (m d : Mem E S) (p : Nat) : Prop := ∀ e, d.entryAt p = some e → p < m.compacted_idx ∨ m.entryAt p = some e

/-- Position `p` is in the log of `m` (compacted or not), or lies at or behind its StopSign. -/
def Mem.HasPos (m : Mem E S) (p : Nat) : Prop := p < m.compacted_idx + m.log.length ∨ m.stopsign ≠ none

/-- The ballot in which the storage last accepted. -/
def Mem.accepted (m : Mem E S) : Ballot := m.acc_round.getD {}

/-- The position of the `k`-th element of the list a read from `lo` returns: the compacted positions are one element. -/
def OP.posOf (op : OP E S) (lo : IStore.Bound) (k : Nat) : Nat :=
  let first := match lo with
    | .included i => i
    | .excluded i => i + 1
    | .unbounded => 0
  if first < op.get_compacted_idx then op.get_compacted_idx + k - 1 else first + k

/-- One of the three read functions returns `v` for position `p`. -/
inductive OP.Shows (op : OP E S) (p : Nat) (v : LogEntry E S) : Prop where
  | read (h : op.read p = some (some v))
  | read_entries (lo hi : IStore.Bound) (l : List (LogEntry E S)) (k : Nat) (h : op.read_entries lo hi = some (some l))
      (hk : l[k]? = some v) (hp : p = op.posOf lo k)
  | read_decided_suffix (i : Nat) (l : List (LogEntry E S)) (k : Nat) (h : op.read_decided_suffix i = some (some l))
      (hk : l[k]? = some v) (hp : p = op.posOf (.included i) k)

/-- Server `i` runs in `c` and one of its read functions returns `v` for position `p`. -/
def Cluster.Shows (c : Cluster E S) (i : NodeId) (p : Nat) (v : LogEntry E S) : Prop :=
  ∃ op, c.servers i = .up op ∧ op.Shows p v

/-- Server `i` runs in `c` and `is_reconfigured()` returns `ss`. -/
def Cluster.Reconfigured (c : Cluster E S) (i : NodeId) (ss : StopSign) : Prop :=
  ∃ op, c.servers i = .up op ∧ op.is_reconfigured = some ss

/-- A set of servers large enough to decide (omni_paxos.rs documentation of `FlexibleQuorum`: the write quorum, or a
majority). -/
structure AcceptQuorum (cc : ClusterConfig) (W : List NodeId) : Prop where
  distinct : W.Nodup
  members : ∀ x ∈ W, x ∈ cc.nodes
  size : match cc.flexible_quorum with
    | none => cc.nodes.length < 2 * W.length
    | some q => q.write_quorum_size ≤ W.length

/-- A set of servers large enough to take over. -/
structure PrepareQuorum (cc : ClusterConfig) (W : List NodeId) : Prop where
  distinct : W.Nodup
  members : ∀ x ∈ W, x ∈ cc.nodes
  size : match cc.flexible_quorum with
    | none => cc.nodes.length < 2 * W.length
    | some q => q.read_quorum_size ≤ W.length

end Omni
