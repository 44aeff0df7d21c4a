import Verif.Model.Cluster
/-
The same servers on an arbitrary network: every message that was ever handed to the network may be delivered at any later
time, any number of times, in any order, or never. Used for the properties that do not depend on the links (C03, C08, C31),
and for the counterexample that shows that agreement does (finding F2).
-/
namespace Omni

variable {E S : Type}

structure Loose (E S : Type) where
  servers : NodeId → Server E S
  /-- every message ever sent, oldest first -/
  sent : List (Message E S)

inductive LAction (E S : Type) where
  | start (i : NodeId) (cfg : ServerConfig)
  | crash (i : NodeId)
  /-- an API call other than handle_incoming -/
  | call (i : NodeId) (c : Call E S)
  /-- the same call, cut off by a crash after one of its durable writes -/
  | crashCall (i : NodeId) (c : Call E S) (k : Nat)
  | take (i : NodeId)
  /-- deliver the `n`-th message ever sent to its receiver -/
  | deliver (n : Nat)
  | crashDeliver (n k : Nat)

def Loose.setServer (c : Loose E S) (i : NodeId) (s : Server E S) : Loose E S :=
  { c with servers := fun j => if j = i then s else c.servers j }

/-- The transition function; `none` means the action is not possible in this state. -/
def Loose.step [SnapOps E S] (cc : ClusterConfig) (c : Loose E S) : LAction E S → Option (Loose E S)
  | .start i cfg =>
    match c.servers i with
    | .up _ => none
    | .down d =>
      if cfg.pid = i then
        match OP.build { cluster_config := cc, server_config := cfg } d with
        | some (.ok op) => some (c.setServer i (.up op))
        | _ => none
      else none
  | .crash i =>
    match c.servers i with
    | .up op => some (c.setServer i (.down op.sp.ist.storage))
    | .down _ => none
  | .call i call =>
    match c.servers i with
    | .up op => if call.isIncoming then none else some (c.setServer i (op.callResult call))
    | .down _ => none
  | .crashCall i call k =>
    match c.servers i with
    | .up op =>
      if call.isIncoming then none
      else match (op.callTrail call)[k]? with
        | some d => some (c.setServer i (.down d))
        | none => none
    | .down _ => none
  | .take i =>
    match c.servers i with
    | .up op =>
      let r := op.take_outgoing_messages []
      some { servers := fun j => if j = i then .up r.2 else c.servers j, sent := c.sent ++ r.1 }
    | .down _ => none
  | .deliver n =>
    match c.sent[n]? with
    | none => none
    | some m => match c.servers m.dst with
      | .down _ => none
      | .up op => some (c.setServer m.dst (op.callResult (.handleIncoming m)))
  | .crashDeliver n k =>
    match c.sent[n]? with
    | none => none
    | some m => match c.servers m.dst with
      | .down _ => none
      | .up op => match (op.callTrail (.handleIncoming m))[k]? with
        | some d => some (c.setServer m.dst (.down d))
        | none => none

/-- All servers down with empty storage, nothing sent. -/
def Loose.init : Loose E S := { servers := fun _ => .down {}, sent := [] }

def Loose.run [SnapOps E S] (cc : ClusterConfig) (c : Loose E S) : List (LAction E S) → Option (Loose E S)
  | [] => some c
  | a :: as => match c.step cc a with
    | none => none
    | some c' => c'.run cc as

/-! ### Runs restricted in the calls that are made -/

/-- If the action makes a call, the call satisfies `ok`. -/
def LAction.Only (ok : Call E S → Prop) : LAction E S → Prop
  | .call _ c | .crashCall _ c _ => ok c
  | _ => True

/-- Not a call of `trim` or `snapshot`. -/
def Call.NoCompaction : Call E S → Prop
  | .trim _ | .snapshot _ _ => False
  | _ => True

/-- Snapshots can be created and merged (a user's type may panic, and NoSnapshot does). -/
def SnapTotal (E S : Type) [SnapOps E S] : Prop :=
  (∀ es : List E, ∃ x : S, SnapOps.create es = some x) ∧ ∀ a b : S, ∃ x, SnapOps.merge E a b = some x

end Omni
