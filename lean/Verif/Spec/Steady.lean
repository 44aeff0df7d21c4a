import Verif.Spec.Decided
/-
Steady operation: a leader is established, nobody fails, nothing is lost, nobody else is elected.
-/
namespace Omni

variable {E S : Type}

/-- No Paxos message is on the way among the servers of the configuration, and no entry waits in a batch. Heartbeats may be
on the way. -/
structure Cluster.Quiet (cc : ClusterConfig) (c : Cluster E S) : Prop where
  links : ∀ i ∈ cc.nodes, ∀ j ∈ cc.nodes, ∀ m ∈ c.net i j, ∃ b, m = .ble b
  servers : ∀ i ∈ cc.nodes, ∀ op, c.servers i = .up op → op.sp.outgoing = [] ∧ op.sp.ist.cache.batched_entries = []

/-- A server in the Accept phase of ballot `n` that has accepted and decided all of its `k` entries, has no StopSign, and
holds nothing back. -/
structure SP.AtRest (n : Ballot) (k : Nat) (s : SP E S) : Prop where
  promise : s.get_promise = n
  kept : s.ist.storage.n_prom = some n
  role : s.role = if s.pid = n.pid then .leader else .follower
  phase : s.phase = .accept
  accepted : s.ist.cache.accepted_idx = k
  decided : s.ist.cache.decided_idx = k
  log : s.ist.storage.compacted_idx + s.ist.storage.log.length = k
  compacted : s.ist.cache.compacted_idx = s.ist.storage.compacted_idx
  trimmed : s.ist.storage.trimmed_idx = s.ist.storage.compacted_idx
  noStopSign : s.ist.cache.stopsign = none ∧ s.ist.storage.stopsign = none
  buffered : s.buffered_proposals = []

/-- What a leader of ballot `n` has recorded when everybody has promised and accepted `k` entries. -/
structure LeaderState.Complete (cc : ClusterConfig) (n : Ballot) (k : Nat) (ls : LeaderState E S) : Prop where
  ballot : ls.n_leader = n
  quorum : ls.quorum = Quorum.with cc.flexible_quorum cc.nodes.length
  pids : ∀ i ∈ cc.nodes, i ≤ ls.max_pid
  promised : ∀ i ∈ cc.nodes, ∃ m, slot ls.promises_meta i = some (.promised m)
  members : ∀ i m, slot ls.promises_meta i = some (.promised m) → i ∈ cc.nodes
  accepted : ∀ i ∈ cc.nodes, slot ls.accepted_indexes i = some k
  unsent : ∀ i ∈ cc.nodes, slot ls.latest_accept_meta i = some none

/-- Everything is done: all servers of the configuration run, are in the Accept phase of ballot `n`, led by `n.pid`, and
have accepted and decided `k` entries; nothing is on the way; the leader's records are complete, and its sequence numbers are
those of the followers. -/
structure Cluster.Settled (cc : ClusterConfig) (n : Ballot) (k : Nat) (c : Cluster E S) : Prop where
  member : n.pid ∈ cc.nodes
  server : ∀ i ∈ cc.nodes, ∃ op, c.servers i = .up op ∧ op.sp.pid = i ∧ op.sp.AtRest n k
  quiet : c.Quiet cc
  records : ∀ op, c.servers n.pid = .up op → op.sp.ls.Complete cc n k ∧ op.sp.peers = SP.peersOf cc.nodes n.pid
  numbers : ∀ i ∈ cc.nodes, i ≠ n.pid → ∀ opL opF, c.servers n.pid = .up opL → c.servers i = .up opF →
    slot opL.sp.ls.follower_seq_nums i = some opF.sp.current_seq_num
  replied : ∀ i ∈ cc.nodes, ∀ op, c.servers i = .up op → op.sp.latest_accepted_meta = none

/-- The actions of steady operation: the servers append, tick, change their priority, send, and receive in the order of
sending. Nobody crashes, nothing is lost or reordered, nobody reconnects, compacts or reconfigures. -/
def Action.Calm (cc : ClusterConfig) : Action E S → Prop
  | .call i (.append _) | .call i .tick | .call i (.setPriority _) | .take i => i ∈ cc.nodes
  | .deliver i j => i ∈ cc.nodes ∧ j ∈ cc.nodes
  | _ => False

/-- The last promise of all servers is `n` (internal to their storages), and `n.pid`, if it runs, is leader. -/
def Cluster.LedBy (cc : ClusterConfig) (n : Ballot) (c : Cluster E S) : Prop :=
  ∀ i ∈ cc.nodes, (c.servers i).disk.n_prom = some n ∧ ∀ op, c.servers i = .up op → i = n.pid → op.sp.role = .leader

/-- Steady operation from `c`: only calm actions, and no tick elects anybody. -/
structure Cluster.Steady [SnapOps E S] (cc : ClusterConfig) (n : Ballot) (c : Cluster E S) (as : List (Action E S)) : Prop where
  calm : ∀ a ∈ as, a.Calm cc
  elected : ∀ i k c', as[k]? = some (.call i .tick) → c.run cc (as.take (k + 1)) = some c' → c'.LedBy cc n

/-- The entry an action appends. -/
def Action.entry? : Action E S → Option E
  | .call _ (.append e) => some e
  | _ => none

/-- Is this a tick of server `i`? -/
def Action.isTick (i : NodeId) : Action E S → Bool
  | .call j .tick => i == j
  | _ => false

/-- Is this a delivery from `i` to `j`? -/
def Action.isDelivery (i j : NodeId) : Action E S → Bool
  | .deliver a b => i == a && j == b
  | _ => false

/-- In the course of `as`, all that waits in `c` gets its turn: a server with outgoing messages hands them over, every link delivers as
many messages as there are on it, and a server with batched entries ticks until its flush timeout (util.rs 403-411). -/
structure Cluster.Turns (cc : ClusterConfig) (c : Cluster E S) (as : List (Action E S)) : Prop where
  taken : ∀ i ∈ cc.nodes, ∀ op, c.servers i = .up op → op.sp.outgoing ≠ [] → .take i ∈ as
  delivered : ∀ i ∈ cc.nodes, ∀ j ∈ cc.nodes, (c.net i j).length ≤ as.countP (Action.isDelivery i j)
  flushed : ∀ i ∈ cc.nodes, ∀ op, c.servers i = .up op → op.sp.ist.cache.batched_entries ≠ [] →
    op.flush_batch_clock.time < op.flush_batch_clock.timeout ∧
    op.flush_batch_clock.timeout ≤ op.flush_batch_clock.time + as.countP (Action.isTick i)

/-- `r` rounds of steady operation: in each, nothing is appended and all that waits at its beginning gets its turn. -/
inductive Cluster.Rounds [SnapOps E S] (cc : ClusterConfig) (n : Ballot) : Nat → Cluster E S → Cluster E S → Prop
  | zero (c : Cluster E S) : Cluster.Rounds cc n 0 c c
  | more {r : Nat} {c c1 c2 : Cluster E S} (as : List (Action E S)) : c.Steady cc n as → as.filterMap Action.entry? = [] → c.Turns cc as →
      c.run cc as = some c1 → Cluster.Rounds cc n r c1 c2 → Cluster.Rounds cc n (r + 1) c c2

/-- A busy round: as before, but entries are appended meanwhile. -/
structure Cluster.BusyRound [SnapOps E S] (cc : ClusterConfig) (n : Ballot) (c : Cluster E S) (as : List (Action E S)) (c' : Cluster E S) : Prop where
  steady : c.Steady cc n as
  turns : c.Turns cc as
  run : c.run cc as = some c'

/-- `r` busy rounds. -/
inductive Cluster.BusyRounds [SnapOps E S] (cc : ClusterConfig) (n : Ballot) : Nat → Cluster E S → Cluster E S → Prop
  | zero (c : Cluster E S) : Cluster.BusyRounds cc n 0 c c
  | more {r : Nat} {c c1 c2 : Cluster E S} (as : List (Action E S)) : c.BusyRound cc n as c1 → Cluster.BusyRounds cc n r c1 c2 →
      Cluster.BusyRounds cc n (r + 1) c c2

end Omni
