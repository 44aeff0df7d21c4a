import Verif.Model.BLE
/-
Leader election in rounds in which every server gets the answers of all others (or of those it has a link to) to its heartbeat
request and then has its election timeout.
-/
namespace Omni

/-- The messages with which the component answers the message `m`: what `handle` adds to its outgoing messages. -/
def BLE.answers (b : BLE) (m : BLEMessage) : List BLEMessage :=
  (b.handle m).outgoing.drop b.outgoing.length

/-- The component of server `i` after its outgoing messages have gone out and it has handled the answers to them. -/
def BLE.exchange (s : NodeId → BLE) (i : NodeId) : BLE :=
  (s i).outgoing.foldl (fun b m => ((s m.dst).answers m).foldl BLE.handle b) { s i with outgoing := [] }

/-- What the replication component of a server tells its election component at a timeout. -/
structure BLE.Input where
  role : Role
  phase : Phase
  promise : Ballot

/-- One round: all servers exchange heartbeats, then all have their election timeout. -/
def BLE.nextRound (inp : NodeId → BLE.Input) (s : NodeId → BLE) (i : NodeId) : BLE :=
  ((BLE.exchange s i).hb_timeout (inp i).role (inp i).phase (inp i).promise).2

/-- The components after `t` rounds. -/
def BLE.rounds (inp : Nat → NodeId → BLE.Input) (s : NodeId → BLE) : Nat → NodeId → BLE
  | 0 => s
  | t + 1 => BLE.nextRound (inp t) (BLE.rounds inp s t)

/-- The election components of the servers `N` of one configuration, just after their timeouts: earlier messages have gone out, the requests of
the present round have not. Their own ballots, the leaders they
know, and whether they are happy are arbitrary. `fq`: the flexible quorums, `none` for majorities. -/
structure BLE.System (cid : Nat) (fq : Option FlexibleQuorum) (N : List NodeId) (s : NodeId → BLE) : Prop where
  nodup : N.Nodup
  two : 2 ≤ N.length
  cfg : ∀ i ∈ N, (s i).configuration_id = cid
  pid : ∀ i ∈ N, (s i).pid = i
  peers : ∀ i ∈ N, (s i).peers = N.filter (· ≠ i)
  quorum : ∀ i ∈ N, (s i).quorum = Quorum.with fq N.length
  replies : ∀ i ∈ N, (s i).heartbeat_replies = []
  asks : ∀ i ∈ N, (s i).outgoing = (N.filter (· ≠ i)).map fun j => ⟨i, j, .request (s i).hb_round⟩
  own : ∀ i ∈ N, (s i).current_ballot.pid = i ∧ (s i).current_ballot.config_id = cid
  leader : ∀ i ∈ N, (s i).leader.config_id = cid
  le : ∀ i ∈ N, (s i).current_ballot ≤ (s i).leader

/-- The promise of `i` is not larger than the leader it knows or somebody's own ballot: nobody has called `try_become_leader`
lately. -/
def BLE.KnownPromise (N : List NodeId) (s : NodeId → BLE) (i : NodeId) (promise : Ballot) : Prop :=
  promise ≤ (s i).leader ∨ ∃ j ∈ N, promise ≤ (s j).current_ballot

/-! ## Servers of which only some hear each other -/

/-- The component of server `i` after its outgoing messages have gone out and it has handled the answers of those peers that it has a link to. A server that is down is
one without links. -/
def BLE.exchangeOn (link : NodeId → NodeId → Bool) (s : NodeId → BLE) (i : NodeId) : BLE :=
  ((s i).outgoing.filter fun m => link i m.dst).foldl (fun b m => ((s m.dst).answers m).foldl BLE.handle b) { s i with outgoing := [] }

/-- One round: all servers exchange heartbeats over the links there are, then all have their election timeout. -/
def BLE.nextRoundOn (link : NodeId → NodeId → Bool) (inp : NodeId → BLE.Input) (s : NodeId → BLE) (i : NodeId) : BLE :=
  ((BLE.exchangeOn link s i).hb_timeout (inp i).role (inp i).phase (inp i).promise).2

/-- The components after `t` rounds. -/
def BLE.roundsOn (link : NodeId → NodeId → Bool) (inp : Nat → NodeId → BLE.Input) (s : NodeId → BLE) : Nat → NodeId → BLE
  | 0 => s
  | t + 1 => BLE.nextRoundOn link (inp t) (BLE.roundsOn link inp s t)

/-- The promise of `i` is not larger than the leader it knows or the own ballot of somebody it has a link to. -/
def BLE.KnownPromiseOn (link : NodeId → NodeId → Bool) (N : List NodeId) (s : NodeId → BLE) (i : NodeId) (promise : Ballot) : Prop :=
  promise ≤ (s i).leader ∨ ∃ j ∈ N, j ≠ i ∧ link i j = true ∧ promise ≤ (s j).current_ballot

end Omni
