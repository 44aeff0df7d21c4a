import Verif.Model.Cluster
/-
Small definitions used by the statements about messages.
-/
namespace Omni

variable {E S : Type}

/-- Ballot and sequence number of the numbered messages of the accept phase. -/
def PaxosMsg.acceptSeq : PaxosMsg E S → Option (Ballot × SeqNum)
  | .acceptDecide a => some (a.n, a.seq_num)
  | .acceptStopSign a => some (a.n, a.seq_num)
  | .decide d => some (d.n, d.seq_num)
  | _ => none

/-- The entries a numbered message adds. -/
def PaxosMsg.addedEntries : PaxosMsg E S → List E
  | .acceptDecide a => a.entries
  | _ => []

/-- The StopSign a numbered message adds. -/
def PaxosMsg.addedStopSign : PaxosMsg E S → Option StopSign
  | .acceptStopSign a => some a.ss
  | _ => none

/-- Ballot of the messages only a leader sends: Prepare, AcceptSync, AcceptDecide, AcceptStopSign, Decide. -/
def PaxosMsg.leaderBallot : PaxosMsg E S → Option Ballot
  | .prepare p => some p.n
  | .acceptSync a => some a.n
  | .acceptDecide a => some a.n
  | .acceptStopSign a => some a.n
  | .decide d => some d.n
  | _ => none

/-- Ballot of the messages a leader sends in accept phase only: AcceptSync, AcceptDecide, AcceptStopSign, Decide. -/
def PaxosMsg.acceptBallot : PaxosMsg E S → Option Ballot
  | .acceptSync a => some a.n
  | .acceptDecide a => some a.n
  | .acceptStopSign a => some a.n
  | .decide d => some d.n
  | _ => none

/-- Before position `k` of the messages handed to the network, a message was sent by `src` to `dst` whose content satisfies
`P`. -/
def SentBefore (sent : List (Message E S)) (k : Nat) (src dst : NodeId) (P : PaxosMsg E S → Prop) : Prop :=
  ∃ (j : Nat) (msg : PaxosMsg E S), j < k ∧ sent[j]? = some (.paxos { src, dst, msg }) ∧ P msg

end Omni
