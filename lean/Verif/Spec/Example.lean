import Verif.Model.Example
import Verif.Spec.Decided
import Verif.Spec.Progress
/-
Vocabulary for the example applications.
-/
namespace Omni

variable {E S : Type}

/-- Server `i` has been built, its mutex is not poisoned, and one of its read functions returns `v` for position `p`. -/
def Deploy.Shows (d : Deploy E S) (i : NodeId) (p : Nat) (v : LogEntry E S) : Prop :=
  ∃ op, d.servers i = .up op ∧ op.Shows p v

/-- `d` and `d'` are two moments of one run of the application, in either order. -/
def Deploy.SameRun [SnapOps E S] (cc : ClusterConfig) (cap : Nat) (d d' : Deploy E S) : Prop :=
  ∃ as bs, (Deploy.init.run cc cap as = some d ∧ d.run cc cap bs = some d') ∨ (Deploy.init.run cc cap as = some d' ∧ d'.run cc cap bs = some d)

/-- The entry that an action appends. -/
def DAction.entry : DAction E S → Option E
  | .call _ (.append e) => some e
  | _ => none

/-- The entries with which `append` is called in a run, in that order. -/
def appended (as : List (DAction E S)) : List E := as.filterMap DAction.entry

/-- If the action is a call by `main`, the call satisfies `ok`. -/
def DAction.Only (ok : Call E S → Prop) : DAction E S → Prop
  | .call _ c => ok c
  | _ => True

/-- The action makes the task of server `i` end from outside, or its server fail. -/
def DAction.Kills (i : NodeId) : DAction E S → Prop
  | .abort j | .poison j => j = i
  | _ => False

/-- The action is one round of the loop of `send_outgoing_msgs`. -/
def DAction.isSend : DAction E S → Bool
  | .send _ => true
  | _ => false

/-- If the call is `reconnected`, it is with a pid of the configuration. -/
def Call.KnownPeers (cc : ClusterConfig) : Call E S → Prop
  | .reconnected p => p ∈ cc.nodes
  | _ => True

end Omni
