import Verif.Spec.Progress
import Verif.Spec.Storage
/-
Runs in which every server keeps a PersistentStorage beside its MemoryStorage: it gets the write calls the server makes, and is
opened again from its database when the server starts.
-/
namespace Omni

variable {E S : Type} [SnapOps E S]

/-- The write calls server `n` makes on its storage in the action `a`, in order. A call that is cut off by a crash `k` writes
before its end makes all but the last `k`. -/
def Cluster.writes (cc : ClusterConfig) (c : Cluster E S) (a : Action E S) (n : NodeId) : List (StorageCall E S) :=
  match c.servers n, a with
  | .down d, .start i cfg =>
    if i = n then
      match OP.build { cluster_config := cc, server_config := cfg } d with
      | some (.ok op) => op.sp.ist.calls.reverse
      | _ => []
    else []
  | .up op, .call i cl => if i = n then (op.callWrites cl).reverse else []
  | .up op, .crashCall i cl k => if i = n then ((op.callWrites cl).drop k).reverse else []
  | .up op, .deliver i j => if j = n then
      match c.net i j with
      | [] => []
      | m :: _ => (op.callWrites (.handleIncoming m)).reverse
    else []
  | .up op, .crashDeliver i j k => if j = n then
      match c.net i j with
      | [] => []
      | m :: _ => ((op.callWrites (.handleIncoming m)).drop k).reverse
    else []
  | _, _ => []

/-- The PersistentStorages after an action. -/
def Cluster.pstep (cc : ClusterConfig) (c : Cluster E S) (P : NodeId → PStore E S) (a : Action E S) (n : NodeId) : PStore E S :=
  match a with
  | .start i _ => if i = n then (PStore.open (P n).db).calls (c.writes cc a n) else P n
  | _ => (P n).calls (c.writes cc a n)

/-- The PersistentStorages after a run. -/
def Cluster.prun (cc : ClusterConfig) (c : Cluster E S) (P : NodeId → PStore E S) : List (Action E S) → NodeId → PStore E S
  | [] => P
  | a :: as => match c.step cc a with
    | none => P
    | some c' => c'.prun cc (c.pstep cc P a) as

omit [SnapOps E S] in
/-- Not a call of `reconfigure`. -/
def Call.SameConfig : Call E S → Prop
  | .reconfigure _ _ => False
  | _ => True

end Omni
