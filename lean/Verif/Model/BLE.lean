import Verif.Model.SeqPaxos
/-
Ballot leader election: /repo/omnipaxos/src/ballot_leader_election.rs 65-303. No function here can panic (counters are
unbounded naturals in the model; `u32` overflow is not modelled).
-/
namespace Omni

/-- ballot_leader_election.rs 71-99. -/
structure BLE where
  configuration_id : Nat
  pid : NodeId
  peers : List NodeId
  hb_round : Nat
  heartbeat_replies : List HeartbeatReply
  prev_replies : List HeartbeatReply
  current_ballot : Ballot
  leader : Ballot
  happy : Bool
  quorum : Quorum
  outgoing : List BLEMessage
deriving DecidableEq, Repr

namespace BLE

/-- ballot_leader_election.rs 175-194. -/
def new_hb_round (b : BLE) : BLE :=
  { b with
    prev_replies := b.heartbeat_replies
    heartbeat_replies := []
    hb_round := b.hb_round + 1
    outgoing := b.outgoing ++ b.peers.map fun p => { src := b.pid, dst := p, msg := .request (b.hb_round + 1) } }

/-- ballot_leader_election.rs 103-151; INITIAL_ROUND = 1, RECOVERY_ROUND = 0 (65-66). -/
def «with» (config_id : Nat) (pid : NodeId) (peers : List NodeId) (priority : Nat) (fq : Option FlexibleQuorum)
    (recovered_leader : Option Ballot) : BLE :=
  let fresh : Ballot := { config_id, n := 1, priority, pid }
  let recovered : Ballot := { config_id, n := 0, priority, pid }
  let (initial_ballot, initial_leader) := match recovered_leader with
    | some b => if b ≠ ({} : Ballot) then (recovered, b) else (fresh, fresh)
    | none => (fresh, fresh)
  new_hb_round
    { configuration_id := config_id, pid, peers, hb_round := 0, heartbeat_replies := [], prev_replies := []
      current_ballot := initial_ballot, leader := initial_leader, happy := true
      quorum := Quorum.with fq (peers.length + 1), outgoing := [] }

/-- ballot_leader_election.rs 155-157. -/
def set_priority (b : BLE) (p : Nat) : BLE := { b with current_ballot := { b.current_ballot with priority := p } }

/-- `max()` of an iterator of ballots: the last of the maximal elements. -/
def maxBallot : List Ballot → Option Ballot
  | [] => none
  | x :: xs => some (xs.foldl (fun m y => if y < m then m else y) x)

/-- ballot_leader_election.rs 222-229. -/
def update_leader (b : BLE) : BLE :=
  match maxBallot (b.heartbeat_replies.map (·.ballot)) with
  | some m => if b.leader < m then { b with leader := m } else b
  | none => b

/-- ballot_leader_election.rs 231-258. -/
def update_happiness (b : BLE) (role : Role) (phase : Phase) : BLE :=
  { b with happy :=
    if b.leader = b.current_ballot then
      let potential_followers := (b.heartbeat_replies.filter fun r => decide (r.leader ≤ b.current_ballot)).length
      let can_form_quorum := match role, phase with
        | .leader, .accept => b.quorum.is_accept_quorum (potential_followers + 1)
        | _, _ => b.quorum.is_prepare_quorum (potential_followers + 1)
      if can_form_quorum then true
      else b.heartbeat_replies.any fun r => decide (b.current_ballot < r.leader) && r.happy
    else b.heartbeat_replies.any fun r => decide (r.ballot = b.leader) && r.happy }

/-- ballot_leader_election.rs 260-274. -/
def check_takeover (b : BLE) : BLE :=
  if b.happy then b
  else if (b.heartbeat_replies.all fun r => !r.happy) && b.quorum.is_prepare_quorum (b.heartbeat_replies.length + 1) then
    let cb := { b.current_ballot with n := b.leader.n + 1 }
    { b with current_ballot := cb, leader := cb, happy := true }
  else b

/-- ballot_leader_election.rs 206-214. -/
def sync_with_promise (b : BLE) (promise : Ballot) : BLE :=
  if b.leader < promise then
    { b with
      leader := promise
      current_ballot := if promise.pid = b.pid then promise else b.current_ballot
      happy := true }
  else b

/-- ballot_leader_election.rs 197-220. -/
def hb_timeout (b : BLE) (role : Role) (phase : Phase) (promise : Ballot) : Option Ballot × BLE :=
  let b := b.update_leader
  let b := b.update_happiness role phase
  let b := b.check_takeover
  let b := b.new_hb_round
  let b := b.sync_with_promise promise
  (if b.leader = b.current_ballot then some b.current_ballot else none, b)

/-- ballot_leader_election.rs 276-288. -/
def handle_request (b : BLE) (frm : NodeId) (round : Nat) : BLE :=
  { b with outgoing := b.outgoing ++ [⟨b.pid, frm, .reply
      { round, ballot := b.current_ballot, leader := b.leader, happy := b.happy }⟩] }

/-- ballot_leader_election.rs 290-294. -/
def handle_reply (b : BLE) (r : HeartbeatReply) : BLE :=
  if r.round = b.hb_round ∧ r.ballot.config_id = b.configuration_id then
    { b with heartbeat_replies := b.heartbeat_replies ++ [r] }
  else b

/-- ballot_leader_election.rs 167-172. -/
def handle (b : BLE) (m : BLEMessage) : BLE :=
  match m.msg with
  | .request round => b.handle_request m.src round
  | .reply r => b.handle_reply r

end BLE
end Omni
