import Verif.Model.Cluster
/-
The life of one server in an arbitrary environment: any configuration at a (re)start, any API call, any incoming message
(also forged ones), crashes between calls and at every durable write.
-/
namespace Omni

variable {E S : Type}

inductive LifeEvent (E S : Type) where
  | start (cfg : OmniPaxosConfig)
  | crash
  | call (c : Call E S)
  | crashCall (c : Call E S) (k : Nat)
  | take

/-- `none`: the event is not possible. -/
def Server.life [SnapOps E S] : Server E S → LifeEvent E S → Option (Server E S)
  | .down d, .start cfg => match OP.build cfg d with
    | some (.ok op) => some (.up op)
    | _ => none
  | .up op, .crash => some (.down op.sp.ist.storage)
  | .up op, .call c => some (op.callResult c)
  | .up op, .crashCall c k => match (op.callTrail c)[k]? with
    | some d => some (.down d)
    | none => none
  | .up op, .take => some (.up (op.take_outgoing_messages []).2)
  | _, _ => none

def Server.lives [SnapOps E S] (s : Server E S) : List (LifeEvent E S) → Option (Server E S)
  | [] => some s
  | e :: es => match s.life e with
    | none => none
    | some s' => s'.lives es

/-- `get_promise()` of a running server; the promise on the disk of a stopped one. -/
def Server.promise : Server E S → Ballot
  | .up op => op.get_promise
  | .down d => d.n_prom.getD {}

/-- `get_compacted_idx()` of a running server; the index on the disk of a stopped one. -/
def Server.compacted : Server E S → Nat
  | .up op => op.get_compacted_idx
  | .down d => d.compacted_idx

end Omni
