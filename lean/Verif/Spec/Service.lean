import Verif.Model.Service
import Verif.Spec.Run
/-
Restrictions on the executions of a reconfigured service.
-/
namespace Omni

variable {E S : Type}

/-- The action is tidy in its generation; the links of `rel` are dependable. -/
def Service.Tidy (s : Service E S) (a : SAction E S) (rel : Links := Links.none) : Prop :=
  match a with
  | .act g _ a => (s.gen g).Tidy a rel
  | _ => True

/-- Messages are delivered to the generation they were sent in. -/
def SAction.Separate : SAction E S → Prop
  | .stray _ _ _ _ => False
  | _ => True

/-- Every action of the run is tidy and satisfies `ok`. -/
def Service.TidyRun [SnapOps E S] (ok : SAction E S → Prop) (s : Service E S) (as : List (SAction E S)) (rel : Links := Links.none) : Prop :=
  match as with
  | [] => True
  | a :: as => (s.Tidy a rel ∧ ok a) ∧ ∀ s', s.step a = some s' → s'.TidyRun ok as rel

/-- `s'` is reached from `s` by such a run. -/
def Service.Later [SnapOps E S] (ok : SAction E S → Prop) (s s' : Service E S) (rel : Links := Links.none) : Prop :=
  ∃ as, s.TidyRun ok as rel ∧ s.run as = some s'

/-- `s` and `s'` are two moments (in either order) of one such run of a service whose first configuration is `cc`. -/
def Service.SameRun [SnapOps E S] (ok : SAction E S → Prop) (cc : ClusterConfig) (s s' : Service E S) (rel : Links := Links.none) : Prop :=
  (Service.Later ok (Service.init cc) s rel ∧ Service.Later ok s s' rel) ∨ (Service.Later ok (Service.init cc) s' rel ∧ Service.Later ok s' s rel)

end Omni
