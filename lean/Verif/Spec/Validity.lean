import Verif.Spec.AnyNet
/-
Vocabulary of validity: where the entries, stop signs and snapshots of a run may come from.
-/
namespace Omni

variable {E S : Type} [SnapOps E S]

/-- A snapshot made with the user's `create` and `merge` from entries satisfying `P` only. -/
inductive BuiltFrom (P : E → Prop) : S → Prop where
  | create {es : List E} {x : S} : (∀ e ∈ es, P e) → SnapOps.create es = some x → BuiltFrom P x
  | merge {x y z : S} : BuiltFrom P x → BuiltFrom P y → SnapOps.merge E x y = some z → BuiltFrom P z

/-- In the run `acts`, `append(e)` was called at a running server and did not return an error. (The call may have been cut
off by a crash.) -/
def Loose.Appended (cc : ClusterConfig) (acts : List (LAction E S)) (e : E) : Prop :=
  ∃ pre a post c i op, acts = pre ++ a :: post ∧ Loose.init.run cc pre = some c ∧ c.servers i = .up op ∧
    (a = .call i (.append e) ∨ ∃ k, a = .crashCall i (.append e) k) ∧
    ∀ r op', OP.append e op = .ok r op' → r = .ok ()

/-- In the run `acts`, `reconfigure` was called with this new configuration and metadata at a running server and did not
return an error. -/
def Loose.Requested (cc : ClusterConfig) (acts : List (LAction E S)) (ss : StopSign) : Prop :=
  ∃ pre a post c i op, acts = pre ++ a :: post ∧ Loose.init.run cc pre = some c ∧ c.servers i = .up op ∧
    (a = .call i (.reconfigure ss.next_config ss.metadata) ∨
      ∃ k, a = .crashCall i (.reconfigure ss.next_config ss.metadata) k) ∧
    ∀ r op', OP.reconfigure ss.next_config ss.metadata op = .ok r op' → r = .ok ()

end Omni
