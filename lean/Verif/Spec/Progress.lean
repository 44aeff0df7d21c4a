import Verif.Spec.Run
import Verif.Spec.AnyNet
import Verif.Spec.Decided
/-
Vocabulary of the progress theorems: restricted runs, and continuations without failures.
-/
namespace Omni

variable {E S : Type}

/-- If the action makes a call, the call satisfies `ok`. -/
def Action.Only (ok : Call E S → Prop) : Action E S → Prop
  | .call _ c | .crashCall _ c _ => ok c
  | _ => True

/-- Not a call of `trim`, `snapshot` or `reconfigure`. -/
def Call.Plain : Call E S → Prop
  | .trim _ | .snapshot _ _ | .reconfigure _ _ => False
  | _ => True

/-- Not a call of `trim` or `reconfigure`. -/
def Call.Quiet : Call E S → Prop
  | .trim _ | .reconfigure _ _ => False
  | _ => True

/-- `c` is reached from the initial state by a tidy run in which `trim`, `snapshot` and `reconfigure` are not called. Crashes,
restarts, lost messages, changes of leader and all other calls may have happened. -/
def Cluster.PlainReachable [SnapOps E S] (cc : ClusterConfig) (c : Cluster E S) : Prop :=
  ∃ as, Cluster.init.TidyRun cc as ∧ (∀ a ∈ as, a.Only Call.Plain) ∧ Cluster.init.run cc as = some c

/-- The actions of a run that goes on without failures of servers, among the servers `W`: stopped servers are started, messages
are taken, delivered or lost, `L` is asked to become leader, and `e` is appended at `L`. -/
def Action.Helpful (W : List NodeId) (L : NodeId) (e : E) : Action E S → Prop
  | .start i _ | .take i => i ∈ W
  | .deliver i j => i ∈ W ∧ j ∈ W
  | .lose _ _ _ => True
  | .call i (.append x) => i = L ∧ x = e
  | .call i .tryBecomeLeader => i = L
  | _ => False

/-- Ticks, sends and deliveries of the servers `N`: no failures, no lost messages, no calls by the user. -/
def Action.Routine (N : List NodeId) : Action E S → Prop
  | .call i .tick => i ∈ N
  | .take i => i ∈ N
  | .deliver i j => i ∈ N ∧ j ∈ N
  | _ => False

/-- A round without failures that leads from `c` to `c'`: every server ticks, nothing but ticks, sends and deliveries happens,
and at the end all servers run and all messages have been delivered. -/
structure Cluster.FullRound [SnapOps E S] (cc : ClusterConfig) (c c' : Cluster E S) (as : List (Action E S)) : Prop where
  run : c.run cc as = some c'
  ticks : ∀ i ∈ cc.nodes, Action.call i .tick ∈ as
  only : ∀ a ∈ as, a.Routine cc.nodes
  delivered : ∀ i ∈ cc.nodes, ∀ j ∈ cc.nodes, c'.net i j = []
  sent : ∀ i ∈ cc.nodes, ∃ op, c'.servers i = .up op ∧ op.sp.outgoing = [] ∧ op.ble.outgoing = []

/-- Server `i` runs and has decided index `d`. -/
def Cluster.DecidedIdx (c : Cluster E S) (i : NodeId) (d : Nat) : Prop :=
  ∃ op, c.servers i = .up op ∧ op.get_decided_idx = d

/-- What `reconnected` at `F` leads to: PrepareReq, Prepare, Promise and AcceptSync are sent and delivered. -/
def reconnectRun (F L : NodeId) : List (Action E S) :=
  [.call F (.reconnected L), .take F, .deliver F L, .take L, .deliver L F, .take F, .deliver F L, .take L, .deliver L F]

/-- What a restart of `F` leads to: the same, and the request and reply of the first heartbeat. -/
def restartRun (F L : NodeId) (sc : ServerConfig) : List (Action E S) :=
  [.start F sc, .take F, .deliver F L, .deliver F L, .take L, .deliver L F, .deliver L F, .take F, .deliver F L, .take L, .deliver L F]

/-- In `c'` the servers `L` and `F` run, `F` follows `L` in `L`'s ballot and has `L`'s log and decided index, which are those that `L`
had with the state `opL`. -/
def SyncedWith (L F : NodeId) (opL : OP E S) (c' : Cluster E S) : Prop :=
  ∃ opL' opF', c'.servers L = .up opL' ∧ c'.servers F = .up opF' ∧
    opL'.sp.role = .leader ∧ opL'.sp.phase = .accept ∧ opL'.get_promise = opL.get_promise ∧
    opL'.sp.ist.storage.log = opL.sp.ist.storage.log ∧ opL'.get_decided_idx = opL.get_decided_idx ∧
    opF'.get_promise = opL.get_promise ∧ opF'.get_current_leader = some (L, true) ∧
    opF'.sp.ist.storage.log = opL.sp.ist.storage.log ∧ opF'.get_decided_idx = opL.get_decided_idx

end Omni
