import Verif.Model.OmniPaxos
/-
The closed system: OmniPaxos servers of one configuration, their durable storages, and the network between them.

What is modelled of the environment (all nondeterministic, chosen by the action):
* any API call at any server at any time, in any order;
* the network may lose any message (`lose`), and duplicate and reorder messages on a link (`rearrange`); the agreement theorem
  restricts what happens to AcceptSync messages (Spec/Run.lean), as it is false otherwise (DESIGN.md, finding F2);
* a server may crash between calls (`crash`), or in the middle of a call right after any durable write (`crashCall`); a
  panic inside a call is a crash. What survives is the durable storage. It may be started again with the same cluster
  configuration and any valid server configuration with its own pid.
All servers start as down with an empty storage.
-/
namespace Omni

variable {E S : Type}

/-- A server process: running, or down with what its storage holds. -/
inductive Server (E S : Type) where
  | up (op : OP E S)
  | down (disk : Mem E S)

/-- The durable storage of a server. -/
def Server.disk : Server E S → Mem E S
  | .up op => op.sp.ist.storage
  | .down d => d

structure Cluster (E S : Type) where
  servers : NodeId → Server E S
  /-- messages sent from the first to the second server and not yet delivered or lost, oldest first -/
  net : NodeId → NodeId → List (Message E S)

/-- The API calls of omni_paxos.rs that change a server, other than take_outgoing_messages. -/
inductive Call (E S : Type) where
  | append (e : E)
  | reconfigure (c : ClusterConfig) (metadata : Option (List Nat))
  | tick
  | tryBecomeLeader
  | setPriority (p : Nat)
  | reconnected (pid : NodeId)
  | trim (idx : Option Nat)
  | snapshot (idx : Option Nat) (local_only : Bool)
  | handleIncoming (m : Message E S)

/-- Run a call; the value returned to the user is dropped. -/
def Call.run [SnapOps E S] : Call E S → M (OP E S) Unit
  | .append e => do let _ ← OP.append e; pure ()
  | .reconfigure c md => do let _ ← OP.reconfigure c md; pure ()
  | .tick => OP.tick
  | .tryBecomeLeader => OP.try_become_leader
  | .setPriority p => OP.set_priority p
  | .reconnected pid => OP.reconnected pid
  | .trim i => do let _ ← OP.trim i; pure ()
  | .snapshot i l => do let _ ← OP.snapshot i l; pure ()
  | .handleIncoming m => OP.handle_incoming m

/-- Forget the record of durable writes of earlier calls. -/
def OP.clearTrail (op : OP E S) : OP E S :=
  { op with sp := { op.sp with ist := { op.sp.ist with trail := [], calls := [] } } }

/-- Outcome of a call that is not interrupted: the server is up, or (panic) down. -/
def OP.callResult [SnapOps E S] (op : OP E S) (c : Call E S) : Server E S :=
  match c.run op.clearTrail with
  | .ok _ op' => .up op'
  | .panic op' => .down op'.sp.ist.storage

/-- The durable states written during a call, latest first. -/
def OP.callTrail [SnapOps E S] (op : OP E S) (c : Call E S) : List (Mem E S) :=
  match c.run op.clearTrail with
  | .ok _ op' => op'.sp.ist.trail
  | .panic op' => op'.sp.ist.trail

/-- The write calls on the storage made during a call, latest first. -/
def OP.callWrites [SnapOps E S] (op : OP E S) (c : Call E S) : List (StorageCall E S) :=
  match c.run op.clearTrail with
  | .ok _ op' => op'.sp.ist.calls
  | .panic op' => op'.sp.ist.calls

def Cluster.setServer (c : Cluster E S) (i : NodeId) (s : Server E S) : Cluster E S :=
  { c with servers := fun j => if j = i then s else c.servers j }

def Cluster.setNet (c : Cluster E S) (i j : NodeId) (l : List (Message E S)) : Cluster E S :=
  { c with net := fun a b => if a = i ∧ b = j then l else c.net a b }

inductive Action (E S : Type) where
  /-- start (or restart) a server that is down -/
  | start (i : NodeId) (cfg : ServerConfig)
  | crash (i : NodeId)
  /-- an API call other than handle_incoming -/
  | call (i : NodeId) (c : Call E S)
  /-- the same call, cut off by a crash after one of its durable writes (counted from the last) -/
  | crashCall (i : NodeId) (c : Call E S) (k : Nat)
  /-- `take_outgoing_messages` into an empty buffer, and hand the messages to the network -/
  | take (i : NodeId)
  /-- deliver the oldest message on the link from `i` to `j` -/
  | deliver (i j : NodeId)
  /-- deliver it and crash while it is being handled -/
  | crashDeliver (i j : NodeId) (k : Nat)
  /-- lose the `k`-th message on the link -/
  | lose (i j : NodeId) (k : Nat)
  /-- replace what is in flight on the link by the messages at the positions `ks`: any selection, in any order, repeatedly -/
  | rearrange (i j : NodeId) (ks : List Nat)

/-- Is this call the delivery of a message? -/
def Call.isIncoming : Call E S → Bool
  | .handleIncoming _ => true
  | _ => false

/-- The transition function; `none` means the action is not possible in this state. -/
def Cluster.step [SnapOps E S] (cc : ClusterConfig) (c : Cluster E S) : Action E S → Option (Cluster E S)
  | .start i cfg =>
    match c.servers i with
    | .up _ => none
    | .down d =>
      if cfg.pid = i then
        match OP.build { cluster_config := cc, server_config := cfg } d with
        | some (.ok op) => some (c.setServer i (.up op))
        | _ => none
      else none
  | .crash i =>
    match c.servers i with
    | .up op => some (c.setServer i (.down op.sp.ist.storage))
    | .down _ => none
  | .call i call =>
    match c.servers i with
    | .up op => if call.isIncoming then none else some (c.setServer i (op.callResult call))
    | .down _ => none
  | .crashCall i call k =>
    match c.servers i with
    | .up op =>
      if call.isIncoming then none
      else match (op.callTrail call)[k]? with
        | some d => some (c.setServer i (.down d))
        | none => none
    | .down _ => none
  | .take i =>
    match c.servers i with
    | .up op =>
      let r := op.take_outgoing_messages []
      some { servers := fun j => if j = i then .up r.2 else c.servers j
             net := fun a b => if a = i then c.net a b ++ r.1.filter (fun m => decide (m.dst = b)) else c.net a b }
    | .down _ => none
  | .deliver i j =>
    match c.net i j with
    | [] => none
    | m :: rest => match c.servers j with
      | .down _ => some (c.setNet i j rest)
      | .up op => some ((c.setNet i j rest).setServer j (op.callResult (.handleIncoming m)))
  | .crashDeliver i j k =>
    match c.net i j with
    | [] => none
    | m :: rest => match c.servers j with
      | .down _ => none
      | .up op => match (op.callTrail (.handleIncoming m))[k]? with
        | some d => some ((c.setNet i j rest).setServer j (.down d))
        | none => none
  | .lose i j k =>
    if k < (c.net i j).length then some (c.setNet i j ((c.net i j).eraseIdx k)) else none
  | .rearrange i j ks => some (c.setNet i j (ks.filterMap fun k => (c.net i j)[k]?))

/-- All servers down with empty storage, nothing in flight. -/
def Cluster.init : Cluster E S := { servers := fun _ => .down {}, net := fun _ _ => [] }

/-- Run a list of actions. -/
def Cluster.run [SnapOps E S] (cc : ClusterConfig) (c : Cluster E S) : List (Action E S) → Option (Cluster E S)
  | [] => some c
  | a :: as => match c.step cc a with
    | none => none
    | some c' => c'.run cc as

end Omni
