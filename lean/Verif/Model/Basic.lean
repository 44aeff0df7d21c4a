/-
Basic data of the model: panics, ballots, sequence numbers, quorums, clocks, configurations, messages.

Sources (all under /repo/omnipaxos/src): ballot_leader_election.rs, util.rs, errors.rs, omni_paxos.rs,
messages.rs, storage/mod.rs.
-/
namespace Omni

/-! ## Results of code that may panic -/

/-- Result of a pure Rust expression that may panic: `none` is the panic. -/
abbrev Pan (α : Type) := Option α

/-- Result of a call on a mutable object `σ`: it returns a value, or panics leaving the object (of which only the
persistent storage survives) behind. -/
inductive Res (σ α : Type) where
  | ok (a : α) (s : σ)
  | panic (s : σ)

/-- A Rust method on `&mut self` with `self : σ`. -/
def M (σ α : Type) := σ → Res σ α

namespace M
variable {σ α β : Type}

def pure (a : α) : M σ α := fun s => .ok a s

def bind (m : M σ α) (f : α → M σ β) : M σ β := fun s =>
  match m s with
  | .ok a s' => f a s'
  | .panic s' => .panic s'

instance : Monad (M σ) where
  pure := M.pure
  bind := M.bind

/-- Read the whole object. -/
def get : M σ σ := fun s => .ok s s
/-- Assign fields of the object. -/
def upd (f : σ → σ) : M σ Unit := fun s => .ok () (f s)
/-- Evaluate an expression that may panic. -/
def ofPan (x : Pan α) : M σ α := fun s =>
  match x with
  | some a => .ok a s
  | none => .panic s
/-- `if c { m }` -/
def whenDo (c : Prop) [Decidable c] (m : M σ Unit) : M σ Unit := if c then m else M.pure ()
/-- `for x in xs { body }` -/
def forEach (xs : List α) (body : α → M σ Unit) : M σ Unit :=
  match xs with
  | [] => M.pure ()
  | x :: xs => M.bind (body x) (fun _ => forEach xs body)
end M

/-! ## Node ids, ballots (ballot_leader_election.rs 23-63) -/

/-- util.rs 350: `pub type NodeId = u64`. -/
macro "NodeId" : term => `(Nat)

/-- ballot_leader_election.rs 24-35. `default` is all zeros (derive(Default), line 24); equality is structural
(derive(PartialEq)). -/
structure Ballot where
  config_id : Nat := 0
  n : Nat := 0
  priority : Nat := 0
  pid : NodeId := 0
deriving DecidableEq, Repr, Inhabited

/-- ballot_leader_election.rs 53-57: comparison of the tuples `(n, priority, pid)`; `config_id` is ignored. -/
def Ballot.cmp (a b : Ballot) : Ordering :=
  (compare a.n b.n).then ((compare a.priority b.priority).then (compare a.pid b.pid))

/-- Rust `a < b` through `partial_cmp` (ballot_leader_election.rs 59-63). -/
instance : LT Ballot := ⟨fun a b => a.cmp b = .lt⟩
/-- Rust `a <= b`. -/
instance : LE Ballot := ⟨fun a b => a.cmp b ≠ .gt⟩
instance (a b : Ballot) : Decidable (a < b) := inferInstanceAs (Decidable (a.cmp b = .lt))
instance (a b : Ballot) : Decidable (a ≤ b) := inferInstanceAs (Decidable (a.cmp b ≠ .gt))

/-! ## Sequence numbers (util.rs 359-391) -/

/-- util.rs 371-378. -/
structure SeqNum where
  session : Nat := 0
  counter : Nat := 0
deriving DecidableEq, Repr, Inhabited

/-- Derived `PartialOrd` of `SequenceNumber` (util.rs 371): lexicographic. -/
def SeqNum.leb (a b : SeqNum) : Bool :=
  decide (a.session < b.session ∨ (a.session = b.session ∧ a.counter ≤ b.counter))

/-- util.rs 361-368. -/
inductive MessageStatus where
  | expected | droppedPreceding | outdated
deriving DecidableEq, Repr

/-- util.rs 382-390. -/
def SeqNum.check_msg_status (self msg : SeqNum) : MessageStatus :=
  if msg.session = self.session ∧ msg.counter = self.counter + 1 then .expected
  else if msg.leb self then .outdated
  else .droppedPreceding

/-! ## Logical clock (util.rs 393-412) -/

structure LogicalClock where
  time : Nat
  timeout : Nat
deriving DecidableEq, Repr

/-- util.rs 399-401. -/
def LogicalClock.with (timeout : Nat) : LogicalClock := { time := 0, timeout }

/-- util.rs 403-411; returns whether the timeout fired and the new clock. -/
def LogicalClock.tick_and_check_timeout (c : LogicalClock) : Bool × LogicalClock :=
  if c.time + 1 = c.timeout then (true, { c with time := 0 }) else (false, { c with time := c.time + 1 })

/-! ## Quorums (util.rs 414-462) -/

/-- util.rs 419-424. -/
structure FlexibleQuorum where
  read_quorum_size : Nat
  write_quorum_size : Nat
deriving DecidableEq, Repr

/-- util.rs 428-433. -/
inductive Quorum where
  | majority (m : Nat)
  | flexible (q : FlexibleQuorum)
deriving DecidableEq, Repr

/-- util.rs 436-447. -/
def Quorum.with (cfg : Option FlexibleQuorum) (num_nodes : Nat) : Quorum :=
  match cfg with
  | some q => .flexible q
  | none => .majority (num_nodes / 2 + 1)

/-- util.rs 449-454. -/
def Quorum.is_prepare_quorum (q : Quorum) (num_nodes : Nat) : Bool :=
  match q with
  | .majority m => decide (num_nodes ≥ m)
  | .flexible f => decide (num_nodes ≥ f.read_quorum_size)

/-- util.rs 456-461. -/
def Quorum.is_accept_quorum (q : Quorum) (num_nodes : Nat) : Bool :=
  match q with
  | .majority m => decide (num_nodes ≥ m)
  | .flexible f => decide (num_nodes ≥ f.write_quorum_size)

/-! ## Configurations (omni_paxos.rs 27-221, errors.rs) -/

/-- errors.rs 9-19 with the messages of omni_paxos.rs 44-47, 106-128, 190-200 as constructors. -/
inductive ConfigError where
  | needMoreThanOneNode | configIdZero | quorumsMustOverlap | readQuorumRange | writeQuorumRange
  | readLtWrite | pidZero | bufferSizeZero | batchSizeZero | electionTimeoutZero | resendTimeoutZero
  | nodesMustIncludePid
deriving DecidableEq, Repr

/-- omni_paxos.rs 92-100. -/
structure ClusterConfig where
  configuration_id : Nat := 0
  nodes : List NodeId := []
  flexible_quorum : Option FlexibleQuorum := none
deriving DecidableEq, Repr

/-- omni_paxos.rs 104-131. -/
def ClusterConfig.validate (c : ClusterConfig) : Except ConfigError Unit :=
  let num_nodes := c.nodes.length
  if ¬ (num_nodes > 1) then .error .needMoreThanOneNode
  else if ¬ (c.configuration_id ≠ 0) then .error .configIdZero
  else match c.flexible_quorum with
    | none => .ok ()
    | some q =>
      if ¬ (q.read_quorum_size + q.write_quorum_size > num_nodes) then .error .quorumsMustOverlap
      else if ¬ (q.read_quorum_size ≥ 2 ∧ q.read_quorum_size ≤ num_nodes) then .error .readQuorumRange
      else if ¬ (q.write_quorum_size ≥ 2 ∧ q.write_quorum_size ≤ num_nodes) then .error .writeQuorumRange
      else if ¬ (q.read_quorum_size ≥ q.write_quorum_size) then .error .readLtWrite
      else .ok ()

/-- omni_paxos.rs 163-185 (without logger fields); defaults of 205-220. -/
structure ServerConfig where
  pid : NodeId := 0
  election_tick_timeout : Nat := 1
  resend_message_tick_timeout : Nat := 100
  buffer_size : Nat := 100000
  batch_size : Nat := 1
  flush_batch_tick_timeout : Nat := 200
  leader_priority : Nat := 0
deriving DecidableEq, Repr

/-- omni_paxos.rs 189-202. -/
def ServerConfig.validate (c : ServerConfig) : Except ConfigError Unit :=
  if ¬ (c.pid ≠ 0) then .error .pidZero
  else if ¬ (c.buffer_size ≠ 0) then .error .bufferSizeZero
  else if ¬ (c.batch_size ≠ 0) then .error .batchSizeZero
  else if ¬ (c.election_tick_timeout ≠ 0) then .error .electionTimeoutZero
  else if ¬ (c.resend_message_tick_timeout ≠ 0) then .error .resendTimeoutZero
  else .ok ()

/-- omni_paxos.rs 34-37. -/
structure OmniPaxosConfig where
  cluster_config : ClusterConfig := {}
  server_config : ServerConfig := {}
deriving DecidableEq, Repr

/-- omni_paxos.rs 41-49. -/
def OmniPaxosConfig.validate (c : OmniPaxosConfig) : Except ConfigError Unit :=
  match c.cluster_config.validate with
  | .error e => .error e
  | .ok () => match c.server_config.validate with
    | .error e => .error e
    | .ok () =>
      if ¬ (c.cluster_config.nodes.contains c.server_config.pid = true) then .error .nodesMustIncludePid
      else .ok ()

/-! ## Stop signs, snapshots, log synchronisation (storage/mod.rs 48-95, util.rs 10-25) -/

/-- storage/mod.rs 51-56; bytes of the metadata are naturals. -/
structure StopSign where
  next_config : ClusterConfig
  metadata : Option (List Nat) := none
deriving DecidableEq, Repr

/-- The user's snapshot implementation, storage/mod.rs 81-95: `create`, `merge` (which may panic, as `NoSnapshot`'s do,
lines 203-215) and `use_snapshots`. -/
class SnapOps (E S : Type) where
  create : List E → Pan S
  merge : S → S → Pan S
  use_snapshots : Bool

/-- storage/mod.rs 72-78. -/
inductive SnapshotType (S : Type) where
  | complete (s : S)
  | delta (s : S)
deriving DecidableEq, Repr

/-- util.rs 13-25. -/
structure LogSync (E S : Type) where
  decided_snapshot : Option (SnapshotType S)
  suffix : List E
  sync_idx : Nat
  stopsign : Option StopSign
deriving DecidableEq, Repr

/-! ## Messages (messages.rs) -/

/-- messages.rs 31-40. -/
structure Prepare where
  n : Ballot
  decided_idx : Nat
  n_accepted : Ballot
  accepted_idx : Nat
deriving DecidableEq, Repr

/-- messages.rs 45-61. -/
structure Promise (E S : Type) where
  n : Ballot
  n_accepted : Ballot
  decided_idx : Nat
  accepted_idx : Nat
  log_sync : Option (LogSync E S)
deriving DecidableEq, Repr

/-- messages.rs 66-83 (feature unicache off). -/
structure AcceptSync (E S : Type) where
  n : Ballot
  seq_num : SeqNum
  decided_idx : Nat
  log_sync : LogSync E S
deriving DecidableEq, Repr

/-- messages.rs 88-104 (feature unicache off). -/
structure AcceptDecide (E : Type) where
  n : Ballot
  seq_num : SeqNum
  decided_idx : Nat
  entries : List E
deriving DecidableEq, Repr

/-- messages.rs 109-114. -/
structure Accepted where
  n : Ballot
  accepted_idx : Nat
deriving DecidableEq, Repr

/-- messages.rs 119-126. -/
structure Decide where
  n : Ballot
  seq_num : SeqNum
  decided_idx : Nat
deriving DecidableEq, Repr

/-- messages.rs 131-138. -/
structure AcceptStopSign where
  n : Ballot
  seq_num : SeqNum
  ss : StopSign
deriving DecidableEq, Repr

/-- messages.rs 153-156. -/
inductive Compaction where
  | trim (idx : Nat)
  | snapshot (idx : Option Nat)
deriving DecidableEq, Repr

/-- messages.rs 162-182; `prepareReq` carries `PrepareReq.n` (20-26), `notAccepted` carries `NotAccepted.n` (144-147). -/
inductive PaxosMsg (E S : Type) where
  | prepareReq (n : Ballot)
  | prepare (p : Prepare)
  | promise (p : Promise E S)
  | acceptSync (a : AcceptSync E S)
  | acceptDecide (a : AcceptDecide E)
  | accepted (a : Accepted)
  | notAccepted (n : Ballot)
  | decide (d : Decide)
  | proposalForward (entries : List E)
  | compaction (c : Compaction)
  | acceptStopSign (a : AcceptStopSign)
  | forwardStopSign (ss : StopSign)
deriving DecidableEq, Repr

/-- messages.rs 187-197. -/
structure PaxosMessage (E S : Type) where
  src : NodeId
  dst : NodeId
  msg : PaxosMsg E S
deriving DecidableEq, Repr

/-- messages.rs 227-237. -/
structure HeartbeatReply where
  round : Nat
  ballot : Ballot
  leader : Ballot
  happy : Bool
deriving DecidableEq, Repr

/-- messages.rs 212-222. -/
inductive HeartbeatMsg where
  | request (round : Nat)
  | reply (r : HeartbeatReply)
deriving DecidableEq, Repr

/-- messages.rs 242-249. -/
structure BLEMessage where
  src : NodeId
  dst : NodeId
  msg : HeartbeatMsg
deriving DecidableEq, Repr

/-- messages.rs 252-262: `Message::SequencePaxos` / `Message::BLE`. -/
inductive Message (E S : Type) where
  | paxos (m : PaxosMessage E S)
  | ble (m : BLEMessage)
deriving DecidableEq, Repr

/-- messages.rs 265-280: the receiver of a message. -/
def Message.dst {E S : Type} : Message E S → NodeId
  | .paxos m => m.dst
  | .ble m => m.dst

/-! ## Errors returned by the API (omni_paxos.rs 432-460) -/

/-- omni_paxos.rs 435-447. -/
inductive ProposeErr (E : Type) where
  | pendingReconfigEntry (e : E)
  | pendingReconfigConfig (c : ClusterConfig) (metadata : Option (List Nat))
  | configError (err : ConfigError) (c : ClusterConfig) (metadata : Option (List Nat))
deriving DecidableEq, Repr

/-- omni_paxos.rs 451-460. -/
inductive CompactionErr where
  | undecidedIndex (idx : Nat)
  | trimmedIndex (idx : Nat)
  | notAllDecided (idx : Nat)
  | notCurrentLeader (pid : NodeId)
deriving DecidableEq, Repr

/-- util.rs 264-279. `snapshotted` carries `SnapshottedEntry { trimmed_idx, snapshot }` (307-314). -/
inductive LogEntry (E S : Type) where
  | decided (e : E)
  | undecided (e : E)
  | trimmed (idx : Nat)
  | snapshotted (trimmed_idx : Nat) (snapshot : S)
  | stopSign (ss : StopSign) (decided : Bool)
deriving DecidableEq, Repr

end Omni
