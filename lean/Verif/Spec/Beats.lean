import Verif.Spec.Steady
/-
Heartbeats in steady operation: everybody follows ballot `n`, and the heartbeats arrive in time.
-/
namespace Omni

variable {E S : Type}

/-- What server `j` says in a heartbeat when it follows ballot `n`: that it does, that it is content with it, and that its own ballot is no greater;
`n.pid` says that `n` is its own. -/
structure HeartbeatReply.Loyal (cid : Nat) (n : Ballot) (j : NodeId) (r : HeartbeatReply) : Prop where
  config : r.ballot.config_id = cid
  sender : r.ballot.pid = j
  ballot : r.ballot ≤ n
  own : j = n.pid → r.ballot = n
  leader : r.leader = n
  happy : r.happy = true

/-- A message of the election component of server `j`. -/
structure BLEMessage.Loyal (cid : Nat) (n : Ballot) (j : NodeId) (m : BLEMessage) : Prop where
  src : m.src = j
  reply : ∀ r, m.msg = .reply r → r.Loyal cid n j

/-- The election component of server `i` follows `n`, is content with it, and has had no other answers in this round. -/
structure BLE.Loyal (cc : ClusterConfig) (n : Ballot) (i : NodeId) (b : BLE) : Prop where
  config : b.configuration_id = cc.configuration_id
  pid : b.pid = i
  peers : b.peers = SP.peersOf cc.nodes i
  quorum : b.quorum = Quorum.with cc.flexible_quorum cc.nodes.length
  says : HeartbeatReply.Loyal cc.configuration_id n i { round := b.hb_round, ballot := b.current_ballot, leader := b.leader, happy := b.happy }
  replies : ∀ r ∈ b.heartbeat_replies, ∃ j ∈ cc.nodes, r.Loyal cc.configuration_id n j
  outgoing : ∀ m ∈ b.outgoing, m.Loyal cc.configuration_id n i

/-- The heartbeat request of the present round of `i` to `j` waits to be sent, or is on the way, or has been answered and the answer waits to be
sent, or is on the way, or has arrived. -/
def Inquired (bl : NodeId → BLE) (net : NodeId → NodeId → List (Message E S)) (i j : NodeId) : Prop :=
  (∃ m ∈ (bl i).outgoing, m.dst = j ∧ m.msg = .request (bl i).hb_round) ∨
  (∃ m, .ble m ∈ net i j ∧ m.msg = .request (bl i).hb_round) ∨
  (∃ m ∈ (bl j).outgoing, m.dst = i ∧ ∃ r, m.msg = .reply r ∧ r.round = (bl i).hb_round) ∨
  (∃ m, .ble m ∈ net j i ∧ ∃ r, m.msg = .reply r ∧ r.round = (bl i).hb_round) ∨
  ∃ r ∈ (bl i).heartbeat_replies, r.ballot.pid = j

/-- Everybody runs and follows `n` (`bl i` is the election component of server `i`), the messages on the way say nothing else, and no
heartbeat of the present round is lost. -/
def Cluster.Loyal (cc : ClusterConfig) (n : Ballot) (c : Cluster E S) : Prop :=
  ∃ bl : NodeId → BLE, (∀ i ∈ cc.nodes, ∃ op, c.servers i = .up op ∧ op.ble = bl i) ∧
    (∀ i ∈ cc.nodes, (bl i).Loyal cc n i) ∧
    (∀ i ∈ cc.nodes, ∀ j ∈ cc.nodes, ∀ m, .ble m ∈ c.net i j → m.Loyal cc.configuration_id n i) ∧
    ∀ i ∈ cc.nodes, ∀ j ∈ cc.nodes, j ≠ i → Inquired bl c.net i j

/-- The next tick of `i` is an election timeout (omni_paxos.rs 377-379). -/
def Cluster.Fires (c : Cluster E S) (i : NodeId) : Prop :=
  ∃ op, c.servers i = .up op ∧ op.election_clock.tick_and_check_timeout.1 = true

/-- In the course of `as`, `i` hands over its messages; then the link to `j` delivers as many as there are on it; then `j` hands over its messages; then
the link back delivers as many as there are on it. -/
def Cluster.RoundTrip [SnapOps E S] (cc : ClusterConfig) (c : Cluster E S) (i j : NodeId) (as : List (Action E S)) : Prop :=
  ∃ a1 a2 a3 a4, as = a1 ++ a2 ++ a3 ++ a4 ∧ .take i ∈ a1 ∧ .take j ∈ a3 ∧
    (∀ c1, c.run cc a1 = some c1 → (c1.net i j).length ≤ a2.countP (Action.isDelivery i j)) ∧
    ∀ c3, c.run cc (a1 ++ a2 ++ a3) = some c3 → (c3.net j i).length ≤ a4.countP (Action.isDelivery j i)

/-- At the end of the run `as` there has been a round trip from `i` to `j` and back in the present heartbeat round of `i`. -/
def Cluster.Met [SnapOps E S] (cc : ClusterConfig) (c : Cluster E S) (as : List (Action E S)) (i j : NodeId) : Prop :=
  ∃ bs ds c0 c1 op0 op1, as = bs ++ ds ∧ c.run cc bs = some c0 ∧ c0.run cc ds = some c1 ∧ c0.servers i = .up op0 ∧ c1.servers i = .up op1 ∧
    op0.ble.hb_round = op1.ble.hb_round ∧ c0.RoundTrip cc i j ds

/-- The heartbeats arrive in time: at every election timeout of a follower there has been a round trip to `n.pid` since the last one, and at every
election timeout of `n.pid` round trips to enough servers to accept. Otherwise the actions are those of steady operation, without changes of
priorities. -/
structure Cluster.Prompt [SnapOps E S] (cc : ClusterConfig) (n : Ballot) (c : Cluster E S) (as : List (Action E S)) : Prop where
  calm : ∀ a ∈ as, a.Calm cc
  priorities : ∀ i p, .call i (.setPriority p) ∉ as
  follower : ∀ i k c1, as[k]? = some (.call i .tick) → c.run cc (as.take k) = some c1 → c1.Fires i → i ≠ n.pid → c.Met cc (as.take k) i n.pid
  leader : ∀ k c1, as[k]? = some (.call n.pid .tick) → c.run cc (as.take k) = some c1 → c1.Fires n.pid →
    ∃ Q, AcceptQuorum cc (n.pid :: Q) ∧ ∀ j ∈ Q, c.Met cc (as.take k) n.pid j

/-! ## Runs in beats -/

/-- One beat from `c`: every server ticks once and hands over its messages at least once, and every link delivers as many messages as there are on it at the
beginning; in any order, and with any appends and further deliveries in between. -/
structure Cluster.Beat (cc : ClusterConfig) (c : Cluster E S) (as : List (Action E S)) : Prop where
  calm : ∀ a ∈ as, a.Calm cc
  priorities : ∀ i p, .call i (.setPriority p) ∉ as
  ticks : ∀ i ∈ cc.nodes, as.countP (Action.isTick i) = 1
  taken : ∀ i ∈ cc.nodes, .take i ∈ as
  delivered : ∀ i ∈ cc.nodes, ∀ j ∈ cc.nodes, (c.net i j).length ≤ as.countP (Action.isDelivery i j)

/-- A run in beats. -/
inductive Cluster.Beats [SnapOps E S] (cc : ClusterConfig) : Cluster E S → List (List (Action E S)) → Cluster E S → Prop
  | nil (c : Cluster E S) : Cluster.Beats cc c [] c
  | cons {c c1 c2 : Cluster E S} {as : List (Action E S)} {bss : List (List (Action E S))} : c.Beat cc as → c.run cc as = some c1 →
      Cluster.Beats cc c1 bss c2 → Cluster.Beats cc c (as :: bss) c2

/-- The election timeouts are at least five ticks away, and in general take at least five ticks; the flush timeouts take at most `f` ticks. -/
def Cluster.Wound (cc : ClusterConfig) (f : Nat) (c : Cluster E S) : Prop :=
  ∀ i ∈ cc.nodes, ∀ op, c.servers i = .up op → op.election_clock.time + 5 ≤ op.election_clock.timeout ∧
    op.flush_batch_clock.time < op.flush_batch_clock.timeout ∧ op.flush_batch_clock.timeout ≤ f

end Omni
