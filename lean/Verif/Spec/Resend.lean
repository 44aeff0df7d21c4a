import Verif.Model.OmniPaxos
/-
What the resend timeout is for: the messages to send again in a state.
-/
namespace Omni

variable {E S : Type}

/-- The message `m` is due again. -/
inductive SP.Due (s : SP E S) : PaxosMessage E S → Prop where
  /-- a leader asks every peer that has not answered to its ballot -/
  | prepare (p : NodeId) : s.role = .leader → s.phase = .prepare ∨ s.phase = .accept → p ∈ s.peers →
      slot s.ls.promises_meta p = some .notPromised →
      s.Due ⟨s.pid, p, .prepare { n := s.ls.n_leader, decided_idx := s.ist.cache.decided_idx,
                                  n_accepted := s.ist.cache.accepted_round, accepted_idx := s.ist.cache.accepted_idx }⟩
  /-- a leader with an undecided StopSign sends it to every follower whose accepted log is another than its own -/
  | stopsign (p : NodeId) (pm : PromiseMetaData) (ss : StopSign) (q : SeqNum) (a : Nat) : s.role = .leader → s.phase = .accept →
      slot s.ls.promises_meta p = some (.promised pm) → p ≠ s.ls.n_leader.pid → s.ist.cache.stopsign = some ss →
      s.ist.cache.decided_idx ≠ s.ist.cache.accepted_idx → slot s.ls.accepted_indexes p = some a → a ≠ s.ist.cache.accepted_idx →
      slot s.ls.follower_seq_nums p = some q →
      s.Due ⟨s.pid, p, .acceptStopSign { n := s.ls.n_leader, seq_num := q, ss }⟩
  /-- a leader with a decided StopSign tells all its followers -/
  | decide (p : NodeId) (pm : PromiseMetaData) (ss : StopSign) (q : SeqNum) : s.role = .leader → s.phase = .accept →
      slot s.ls.promises_meta p = some (.promised pm) → p ≠ s.ls.n_leader.pid → s.ist.cache.stopsign = some ss →
      s.ist.cache.decided_idx = s.ist.cache.accepted_idx → slot s.ls.follower_seq_nums p = some q →
      s.Due ⟨s.pid, p, .decide { n := s.ls.n_leader, seq_num := q, decided_idx := s.ist.cache.decided_idx }⟩
  /-- a follower that waits for its AcceptSync repeats its promise -/
  | promise (pr : Promise E S) : s.role = .follower → s.phase = .prepare → s.cached_promise = some pr →
      s.Due ⟨s.pid, pr.n.pid, .promise pr⟩
  /-- a server that recovers, or has lost its promise, asks to be prepared -/
  | prepareReq (p : NodeId) : s.role = .follower → s.phase = .recover ∨ s.phase = .prepare ∧ s.cached_promise = none →
      p ∈ s.peers → s.Due ⟨s.pid, p, .prepareReq s.ist.cache.promise⟩

end Omni
