import Verif.Spec.Read
/-
What it means that a stored snapshot holds the compacted entries.
-/
namespace Omni

variable {E S : Type}

/-- The merge law of lawful snapshots: merging the snapshots of two consecutive stretches gives the snapshot of both. -/
def SnapLaw (E S : Type) [SnapOps E S] : Prop :=
  ∀ (a b : List E) (x y : S), SnapOps.create a = some x → SnapOps.create b = some y →
    SnapOps.merge E x y = (SnapOps.create (a ++ b) : Pan S)

/-- The storage holds the log `L`: from the compacted index on as entries, before it as the snapshot of exactly those
entries. -/
structure Mem.Holds [SnapOps E S] (L : List E) (m : Mem E S) : Prop where
  bound : m.compacted_idx ≤ L.length
  log : m.log = L.drop m.compacted_idx
  fresh : m.compacted_idx = 0 → m.snapshot = none
  snap : 0 < m.compacted_idx → ∃ s, m.snapshot = some s ∧ SnapOps.create (L.take m.compacted_idx) = some s

end Omni
