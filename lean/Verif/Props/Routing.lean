import Verif.Proof.Routing
import Verif.Props.Network
/-
C60 and C61: where messages go, and what they answer. On the arbitrary network of Spec/AnyNet.lean: the messages handed to
the network are in `sent` in the order in which they were taken from the servers; they may be lost, duplicated, delayed and
reordered; servers crash at any point and restart; the user calls anything, trim and snapshot included.
-/
namespace Omni

variable {E S : Type} [SnapOps E S]

/-! ## C60 -/

/-- C60, heartbeats: every heartbeat request and reply goes from one server of the configuration to a different one. -/
theorem C60_heartbeats (cc : ClusterConfig) (acts : List (LAction E S)) (c : Loose E S)
    (hr : Loose.init.run cc acts = some c) (m : BLEMessage) (hm : .ble m ∈ c.sent) :
    m.src ∈ cc.nodes ∧ m.dst ∈ cc.nodes ∧ m.dst ≠ m.src :=
  Message.between_runs hr hm

/-- C60, Sequence Paxos: every message comes from a server of the configuration and goes to another server, which is one of
the configuration unless the message is a PrepareReq to a pid with which the user called `reconnected`. Prepares and the messages
of the accept phase come from the server their ballot names; Promises and Accepteds go to the server their ballot names. -/
theorem C60_routing (cc : ClusterConfig) (acts : List (LAction E S)) (c : Loose E S)
    (hr : Loose.init.run cc acts = some c) (m : PaxosMessage E S) (hm : .paxos m ∈ c.sent) :
    m.src ∈ cc.nodes ∧ m.dst ≠ m.src ∧ (m.dst ∈ cc.nodes ∨ (∃ n, m.msg = .prepareReq n) ∧ ∃ i, .call i (.reconnected m.dst) ∈ acts) ∧
    (∀ n, m.msg.leaderBallot = some n → n.pid = m.src) ∧
    (∀ p, m.msg = .promise p → p.n.pid = m.dst) ∧ (∀ a, m.msg = .accepted a → a.n.pid = m.dst) := by
  have hq := QRun.runs hr
  have h1 := hq.src m hm
  have h2 := (hq.msg m hm).2
  obtain ⟨src, dst, msg⟩ := m
  refine ⟨h1, ?_⟩
  cases msg <;> simp only [PaxosMsg.leaderBallot] at h2 ⊢
  case prepareReq n => exact ⟨h2.1, h2.2.imp id fun h => ⟨⟨n, rfl⟩, h⟩, nofun, nofun, nofun⟩
  case prepare p => exact ⟨h2.1.2, (.inl h2.1.1), fun n e => by cases e; exact h2.2, nofun, nofun⟩
  case promise p => exact ⟨h2.1.2, (.inl h2.1.1), nofun, fun q e => by cases e; exact h2.2.2.1, nofun⟩
  case acceptSync a => exact ⟨h2.1.2, (.inl h2.1.1), fun n e => by cases e; exact h2.2.1, nofun, nofun⟩
  case acceptDecide a => exact ⟨h2.1.2, (.inl h2.1.1), fun n e => by cases e; exact h2.2.1, nofun, nofun⟩
  case accepted a => exact ⟨h2.2.1.2, (.inl h2.2.1.1), nofun, nofun, fun q e => by cases e; exact h2.1⟩
  case notAccepted n => exact ⟨h2.1.2, (.inl h2.1.1), nofun, nofun, nofun⟩
  case decide d => exact ⟨h2.1.2, (.inl h2.1.1), fun n e => by cases e; exact h2.2.1, nofun, nofun⟩
  case acceptStopSign a => exact ⟨h2.1.2, (.inl h2.1.1), fun n e => by cases e; exact h2.2.1, nofun, nofun⟩
  case proposalForward => exact ⟨h2.2, (.inl h2.1), nofun, nofun, nofun⟩
  case forwardStopSign => exact ⟨h2.2, (.inl h2.1), nofun, nofun, nofun⟩
  case compaction => exact ⟨h2.2, (.inl h2.1), nofun, nofun, nofun⟩

/-! ## C61 -/

/-- C61, Promise: a server promises ballot `n` in a message only after the server of that ballot sent it a Prepare of `n`. -/
theorem C61_promise_answers (cc : ClusterConfig) (acts : List (LAction E S)) (c : Loose E S)
    (hr : Loose.init.run cc acts = some c) (k : Nat) (m : PaxosMessage E S) (hm : c.sent[k]? = some (.paxos m))
    (p : Promise E S) (hp : m.msg = .promise p) :
    SentBefore c.sent k m.dst m.src fun x => ∃ q : Prepare, x = .prepare q ∧ q.n = p.n := by
  have h2 := ((QRun.runs hr).at_ k m hm).2
  rw [hp] at h2
  obtain ⟨-, -, h3, q, hq, hs⟩ := h2
  rw [h3] at hs
  obtain ⟨j, hj, hj'⟩ := List.mem_take_iff_getElem.1 hs
  refine ⟨j, _, Nat.lt_of_lt_of_le hj (Nat.min_le_left ..), ?_, q, rfl, hq⟩
  rw [List.getElem?_eq_getElem (Nat.lt_of_lt_of_le hj (Nat.min_le_right ..)), hj']

/-- C61, leader: a leader sends AcceptSync, AcceptDecide, AcceptStopSign and Decide of ballot `n` only to servers that sent
it a Promise for `n` before. -/
theorem C61_accept_answers (cc : ClusterConfig) (acts : List (LAction E S)) (c : Loose E S)
    (hr : Loose.init.run cc acts = some c) (k : Nat) (m : PaxosMessage E S) (hm : c.sent[k]? = some (.paxos m))
    (n : Ballot) (hn : m.msg.acceptBallot = some n) :
    SentBefore c.sent k m.dst m.src fun x => ∃ p : Promise E S, x = .promise p ∧ p.n = n := by
  have h2 := ((QRun.runs hr).at_ k m hm).2
  have h3 : (Ev.ofSent cc (fun p => ∃ i, .call i (.reconnected p) ∈ acts) (c.sent.take k) m.src).prom n m.dst := by
    cases he : m.msg <;> rw [he] at hn h2 <;> cases hn <;> exact h2.2.2
  obtain ⟨p, hp, hs⟩ := h3
  obtain ⟨j, hj, hj'⟩ := List.mem_take_iff_getElem.1 hs
  refine ⟨j, _, Nat.lt_of_lt_of_le hj (Nat.min_le_left ..), ?_, p, rfl, hp⟩
  rw [List.getElem?_eq_getElem (Nat.lt_of_lt_of_le hj (Nat.min_le_right ..)), hj']

/-- C61, follower: a server acknowledges entries in ballot `n` only after the leader of `n` sent it an AcceptSync of `n`. -/
theorem C61_accepted_answers (cc : ClusterConfig) (acts : List (LAction E S)) (c : Loose E S)
    (hr : Loose.init.run cc acts = some c) (k : Nat) (m : PaxosMessage E S) (hm : c.sent[k]? = some (.paxos m))
    (a : Accepted) (ha : m.msg = .accepted a) :
    SentBefore c.sent k m.dst m.src fun x => ∃ s : AcceptSync E S, x = .acceptSync s ∧ s.n = a.n := by
  have h2 := ((QRun.runs hr).at_ k m hm).2
  rw [ha] at h2
  obtain ⟨h3, -, s, hs, hm'⟩ := h2
  rw [h3] at hm'
  obtain ⟨j, hj, hj'⟩ := List.mem_take_iff_getElem.1 hm'
  refine ⟨j, _, Nat.lt_of_lt_of_le hj (Nat.min_le_left ..), ?_, s, rfl, hs⟩
  rw [List.getElem?_eq_getElem (Nat.lt_of_lt_of_le hj (Nat.min_le_right ..)), hj']

/-- C61, refusal: a server refuses with the ballot `n` only after the receiver sent it a message as leader of a lower ballot,
and the refusing server has promised `n` or more. -/
theorem C61_refusal_answers (cc : ClusterConfig) (acts : List (LAction E S)) (c : Loose E S)
    (hr : Loose.init.run cc acts = some c) (k : Nat) (m : PaxosMessage E S) (hm : c.sent[k]? = some (.paxos m))
    (n : Ballot) (hn : m.msg = .notAccepted n) :
    n ≤ (c.servers m.src).promise ∧
    SentBefore c.sent k m.dst m.src fun x => ∃ b, x.leaderBallot = some b ∧ b < n := by
  have h2 := ((QRun.runs hr).at_ k m hm).2
  rw [hn] at h2
  obtain ⟨-, h0, b, h3, h4, x, hx, hs⟩ := h2
  rw [h3] at hs
  obtain ⟨j, hj, hj'⟩ := List.mem_take_iff_getElem.1 hs
  refine ⟨h0, j, _, Nat.lt_of_lt_of_le hj (Nat.min_le_left ..), ?_, b, hx, h4⟩
  rw [List.getElem?_eq_getElem (Nat.lt_of_lt_of_le hj (Nat.min_le_right ..)), hj']

/-! ## Concrete cases -/

namespace Sample
attribute [local instance] Sample.noSync

/-- Sender, receiver and kind of a message. -/
def Kind.of : Message Nat (List Nat) → NodeId × NodeId × String
  | .ble m => (m.src, m.dst, "heartbeat")
  | .paxos m => (m.src, m.dst, match m.msg with
    | .prepareReq _ => "PrepareReq"
    | .prepare _ => "Prepare"
    | .promise _ => "Promise"
    | .acceptSync _ => "AcceptSync"
    | .acceptDecide _ => "AcceptDecide"
    | .accepted _ => "Accepted"
    | .notAccepted _ => "NotAccepted"
    | .decide _ => "Decide"
    | .acceptStopSign _ => "AcceptStopSign"
    | .proposalForward _ => "ProposalForward"
    | .forwardStopSign _ => "ForwardStopSign"
    | .compaction _ => "Compaction")

/-- Concrete case for C60 and C61: the messages of `netRun`, in which server 1 and then server 3 lead. The Promise at
position 4 answers the Prepare at position 0, the AcceptSync at 7 the Promise at 4, the Accepted at 10 the AcceptSync at 7, the
NotAccepted at 17 the AcceptDecide at 8, which was delivered a second time after server 2 had promised to server 3. -/
example : (match Loose.init.run cc (netRun ++ [.take 2]) with
    | none => false
    | some c => decide (c.sent.map Kind.of =
      [(1, 2, "Prepare"), (1, 3, "Prepare"), (1, 2, "heartbeat"), (1, 3, "heartbeat"), (2, 1, "Promise"), (2, 1, "heartbeat"),
       (2, 3, "heartbeat"), (1, 2, "AcceptSync"), (1, 2, "AcceptDecide"), (1, 2, "AcceptStopSign"), (2, 1, "Accepted"),
       (3, 1, "Prepare"), (3, 2, "Prepare"), (3, 1, "heartbeat"), (3, 2, "heartbeat"), (2, 3, "Promise"), (3, 2, "AcceptSync"),
       (2, 1, "NotAccepted"), (2, 3, "Accepted")])) = true := by decide +kernel

/-- Why C60 exempts PrepareReqs: `reconnected` of a pid outside the configuration sends one there. -/
example : (match Loose.init.run cc [.start 1 (sc 1), .call 1 (.reconnected 9), .take 1] with
    | none => false
    | some c => decide ((c.sent.map Kind.of).head? = some (1, 9, "PrepareReq") ∧ 9 ∉ cc.nodes)) = true := by decide +kernel

end Sample

end Omni
