import Verif.Model.Cluster
/-
What a leader in accept phase does with proposals: append, forwarded append, flush.
-/
namespace Omni

variable {E S : Type}

inductive BatchOp (E : Type) where
  | append (e : E)
  | forward (src dst : NodeId) (es : List E)
  | flush

/-- The entries an operation adds. -/
def BatchOp.entries : BatchOp E → List E
  | .append e => [e]
  | .forward _ _ es => es
  | .flush => []

/-- The calls: `append` (mod.rs 298), a `ProposalForward` message (mod.rs 275), the flush timeout (mod.rs 240). -/
def BatchOp.run [SnapOps E S] : BatchOp E → M (SP E S) Unit
  | .append e => do let _ ← SP.append e; pure ()
  | .forward src dst es => SP.handle { src, dst, msg := .proposalForward es }
  | .flush => SP.flush_batch_timeout

/-- A sequence of them; `none` if one panics. -/
def SP.runBatch [SnapOps E S] (s : SP E S) : List (BatchOp E) → Option (SP E S)
  | [] => some s
  | o :: os => match o.run s with
    | .ok _ s' => s'.runBatch os
    | .panic _ => none

end Omni
