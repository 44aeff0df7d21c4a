import Verif.Model.Cluster
/-
What a leader keeps about another server (`promises_meta`, `accepted_indexes` of LeaderState), as a function of the last thing heard
from that server.
-/
namespace Omni

variable {E S : Type}

/-- The promise a leader `s` keeps for a server `j` after a message of `j`, `old` before. -/
def SP.heardPromise (s : SP E S) (j : NodeId) (msg : PaxosMsg E S) (old : PromiseState) : PromiseState :=
  match msg with
  /- `j` asks to be prepared: its promise is not known any more -/
  | .prepareReq n => if s.role = .leader ∧ n ≤ s.ls.n_leader then .notPromised else old
  /- `j` promised the ballot of this leader -/
  | .promise p =>
    if s.role = .leader ∧ (s.phase = .prepare ∨ s.phase = .accept) ∧ p.n = s.ls.n_leader then
      .promised { n_accepted := p.n_accepted, accepted_idx := p.accepted_idx, decided_idx := p.decided_idx, pid := j }
    else old
  /- `j` has promised a higher ballot -/
  | .notAccepted n => if s.role = .leader ∧ s.ls.n_leader < n then .promisedHigher else old
  | _ => old

/-- The accepted index a leader `s` keeps for another server after a message of that server, `old` before. -/
def SP.heardAccepted (s : SP E S) (msg : PaxosMsg E S) (old : Nat) : Nat :=
  match msg with
  | .accepted a => if s.role = .leader ∧ s.phase = .accept ∧ a.n = s.ls.n_leader then a.accepted_idx else old
  | _ => old

/-- The Paxos message of server `j` that a call hands to this server, if it does. -/
def Call.heard (c : Call E S) (j : NodeId) : Option (PaxosMsg E S) :=
  match c with
  | .handleIncoming (.paxos m) => if m.src = j then some m.msg else none
  | _ => none

end Omni
