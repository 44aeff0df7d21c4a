import Verif.Model.UI
import Verif.Spec.AnyNet
/-
The life of a dashboard.
-/
namespace Omni

variable {E S : Type}

/-- Dashboards of a server with this configuration, given the states `ok`. -/
inductive UI.Reached (cfg : OmniPaxosConfig) (ok : UIStates → Prop) : UI → Prop where
  | «with» {u : UI} (h : UI.with cfg = some u) : Reached cfg ok u
  | start {u u' : UI} {q : Bool} (h : Reached cfg ok u) (hs : u.start q = some u') : Reached cfg ok u'
  | stop {u : UI} (h : Reached cfg ok u) : Reached cfg ok u.stop
  | tick {u u' : UI} {st : UIStates} {q : Bool} (h : Reached cfg ok u) (hst : ok st) (ht : u.tick st q = some u') : Reached cfg ok u'

/-- The largest pid of the cluster. -/
def maxNode (nodes : List NodeId) : Nat := nodes.foldl max 0

/-- As many accepted indexes as there can be servers, and the leader is one of them. -/
structure UIStates.Fits (nodes : List NodeId) (st : UIStates) : Prop where
  length : st.accepted_indexes.length = maxNode nodes + 1
  leader : ∀ l, st.current_leader = some l → l ∈ nodes

/-- The accepted indexes that are drawn after the next tick, if the node is shown as leader: it is if it was the leader at the
tick before, or if no leader was known and it was shown as leader. -/
def App.drawn (a : App) (st : UIStates) : Option (List Nat) :=
  match a.current_leader with
  | some l => if l = a.current_node.pid then some st.accepted_indexes else none
  | none => if a.current_role = .leader then some a.followers_accepted_idx else none

/-- Some other server is recorded with a larger accepted index than the node itself, which has accepted something. -/
def Ahead (pid : NodeId) (nodes : List NodeId) (accepted : List Nat) : Prop :=
  ∃ p ∈ nodes, p ≠ pid ∧ ∃ x own, accepted[p]? = some x ∧ accepted[pid]? = some own ∧ own ≠ 0 ∧ own < x

/-- The colour of a server: the number of servers with a smaller pid, modulo the 8 colours. -/
def colourOf (nodes : List NodeId) (p : NodeId) : Nat := (nodes.filter fun x => decide (x < p)).length % 8

/-- A state that a server with this pid shows at some moment of some run on an arbitrary network. -/
def UIStates.OfServer {E S : Type} [SnapOps E S] (cc : ClusterConfig) (pid : NodeId) (st : UIStates) : Prop :=
  ∃ (acts : List (LAction E S)) (c : Loose E S) (op : OP E S), Loose.init.run cc acts = some c ∧ c.servers pid = .up op ∧
    st = op.get_ui_states

end Omni
