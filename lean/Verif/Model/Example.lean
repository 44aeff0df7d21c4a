import Verif.Model.Cluster
/-
The example applications: /repo/examples/kv_store/src/server.rs and main.rs, /repo/examples/dashboard/src/server.rs and main.rs.
Both run all servers of a cluster as tasks of one process. `main` holds every OmniPaxos behind a mutex, as the task of the server does;
the tasks send to each other over one bounded channel per receiver.

An action is what a task does between two points at which it may be suspended or aborted, or what `main` does while it holds a lock.
Which one comes next is arbitrary: this covers all schedules of the runtime and all timings of the three intervals (the `biased`
order of the branches included). `Duration`s and `sleep`s of `main` are not modelled: its calls come at arbitrary moments.
-/
namespace Omni

variable {E S : Type}

/-- The task of a server: not spawned yet; looping, or waiting in `channel.send(msg).await`; aborted or panicked. When it has ended,
its `OmniPaxosServer` is dropped, and the receiving end of its channel with it. -/
inductive Task where
  | waiting
  | running
  | ended
deriving DecidableEq

/-- kv_store server.rs 14-19, main.rs 45-79; dashboard server.rs 14-20, main.rs 29-72. -/
structure Deploy (E S : Type) where
  /-- the `OmniPaxos` behind the mutex; down if the mutex is poisoned or the server not built yet -/
  servers : NodeId → Server E S
  task : NodeId → Task
  /-- `message_buffer`: what `send_outgoing_msgs` has not drained yet -/
  buffer : NodeId → List (Message E S)
  /-- what waits in the channel of the server, oldest first, with the server whose task sent it (which is not in the channel of the code) -/
  channel : NodeId → List (NodeId × Message E S)

inductive DAction (E S : Type) where
  /-- main: `build` with an empty `MemoryStorage`, and `runtime.spawn` -/
  | spawn (i : NodeId) (cfg : ServerConfig)
  /-- main: an API call, under the lock; also after the task has ended -/
  | call (i : NodeId) (c : Call E S)
  /-- task: `tick_interval.tick()` -/
  | tick (i : NodeId)
  /-- task: `outgoing_interval.tick()`, up to the loop of `send_outgoing_msgs` -/
  | take (i : NodeId)
  /-- task: one round of that loop -/
  | send (i : NodeId)
  /-- task: `self.incoming.recv()` -/
  | recv (i : NodeId)
  /-- main: `join_handle.abort()` -/
  | abort (i : NodeId)
  /-- a panic while the lock is held, other than in one of the calls above: the drawing of the dashboard (dashboard server.rs 48-50) -/
  | poison (i : NodeId)

namespace Deploy

def setServer (d : Deploy E S) (i : NodeId) (s : Server E S) : Deploy E S :=
  { d with servers := fun j => if j = i then s else d.servers j }

def setTask (d : Deploy E S) (i : NodeId) (t : Task) : Deploy E S :=
  { d with task := fun j => if j = i then t else d.task j }

def setBuffer (d : Deploy E S) (i : NodeId) (l : List (Message E S)) : Deploy E S :=
  { d with buffer := fun j => if j = i then l else d.buffer j }

def setChannel (d : Deploy E S) (i : NodeId) (l : List (NodeId × Message E S)) : Deploy E S :=
  { d with channel := fun j => if j = i then l else d.channel j }

/-- The task ends: the buffer and the channel are dropped. -/
def stop (d : Deploy E S) (i : NodeId) : Deploy E S := ((d.setTask i .ended).setBuffer i []).setChannel i []

/-- A call that the task makes under the lock: if the mutex is poisoned, `lock().unwrap()` panics; if the call panics, it poisons
the mutex. Either way the task ends. -/
def taskCall [SnapOps E S] (d : Deploy E S) (i : NodeId) (c : Call E S) : Deploy E S :=
  match d.servers i with
  | .down _ => d.stop i
  | .up op => match op.callResult c with
    | .up op' => d.setServer i (.up op')
    | .down s => (d.setServer i (.down s)).stop i

/-- The transition function; `none` means the action is not possible in this state. `cap` is BUFFER_SIZE (util.rs). -/
def step [SnapOps E S] (cc : ClusterConfig) (cap : Nat) (d : Deploy E S) : DAction E S → Option (Deploy E S)
  /- kv_store main.rs 49-79, dashboard main.rs 34-72. `waiting` servers have not been built, their storage is `MemoryStorage::default()` -/
  | .spawn i cfg =>
    if d.task i = .waiting ∧ i ∈ cc.nodes ∧ cfg.pid = i then
      match OP.build { cluster_config := cc, server_config := cfg } {} with
      | some (.ok op) => some ((d.setServer i (.up op)).setTask i .running)
      | _ => none
    else none
  /- kv_store main.rs 83-158, dashboard main.rs 77-91: `server.lock().unwrap()` and the call -/
  | .call i c =>
    match d.servers i with
    | .up op => if c.isIncoming then none else some (d.setServer i (op.callResult c))
    | .down _ => none
  /- kv_store server.rs 44; here and below the task is at the `select!`: it runs, and the loop of `send_outgoing_msgs` is done -/
  | .tick i => if d.task i = .running ∧ d.buffer i = [] then some (d.taskCall i .tick) else none
  /- kv_store server.rs 45 and 23-26 -/
  | .take i =>
    if d.task i = .running ∧ d.buffer i = [] then
      match d.servers i with
      | .down _ => some (d.stop i)
      | .up op =>
        let r := op.take_outgoing_messages []
        some ((d.setServer i (.up r.2)).setBuffer i r.1)
    else none
  /- kv_store server.rs 27-34. Without a channel, `expect` panics. If the receiving end is gone, `send` returns an error, which is
  ignored. If the channel is full, `send` waits. -/
  | .send i =>
    match d.buffer i with
    | [] => none
    | m :: rest =>
      if m.dst ∈ cc.nodes then
        if d.task m.dst = .ended then some (d.setBuffer i rest)
        else if (d.channel m.dst).length < cap then
          some ((d.setBuffer i rest).setChannel m.dst (d.channel m.dst ++ [(i, m)]))
        else none
      else some (d.stop i)
  /- kv_store server.rs 46 -/
  | .recv i =>
    if d.task i = .running ∧ d.buffer i = [] then
      match d.channel i with
      | [] => none
      | (_, m) :: rest => some ((d.setChannel i rest).taskCall i (.handleIncoming m))
    else none
  /- kv_store main.rs 135, dashboard main.rs 84 -/
  | .abort i => if d.task i = .running then some (d.stop i) else none
  | .poison i =>
    match d.servers i with
    | .up op => some (d.setServer i (.down op.sp.ist.storage))
    | .down _ => none

/-- kv_store main.rs 23-36 (`initialise_channels`) and 45-47. -/
def init : Deploy E S :=
  { servers := fun _ => .down {}, task := fun _ => .waiting, buffer := fun _ => [], channel := fun _ => [] }

/-- Run a list of actions. -/
def run [SnapOps E S] (cc : ClusterConfig) (cap : Nat) (d : Deploy E S) : List (DAction E S) → Option (Deploy E S)
  | [] => some d
  | a :: as => match d.step cc cap a with
    | none => none
    | some d' => d'.run cc cap as

end Deploy

end Omni
