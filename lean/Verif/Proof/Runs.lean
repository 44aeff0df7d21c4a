import Verif.Spec.Run
/-
Runs in sequence.
-/
namespace Omni

variable {E S : Type} [SnapOps E S] {cc : ClusterConfig}

theorem Cluster.run_append (c : Cluster E S) (xs ys : List (Action E S)) :
    c.run cc (xs ++ ys) = (c.run cc xs).bind fun d => d.run cc ys := by
  induction xs generalizing c with
  | nil => rfl
  | cons x xs ih =>
    simp only [List.cons_append, Cluster.run]
    cases c.step cc x with
    | none => rfl
    | some d => exact ih d

theorem Cluster.TidyRun.append {rel : Links} {c d : Cluster E S} {xs ys : List (Action E S)} (h : c.TidyRun cc xs rel) (hr : c.run cc xs = some d)
    (h' : d.TidyRun cc ys rel) : c.TidyRun cc (xs ++ ys) rel := by
  induction xs generalizing c with
  | nil => cases hr; exact h'
  | cons x xs ih =>
    refine ⟨h.1, fun c1 h1 => ih (h.2 c1 h1) ?_⟩
    simp only [Cluster.run, h1] at hr
    exact hr

theorem Cluster.Later.trans {rel : Links} {c d e : Cluster E S} (h : c.Later cc d rel) (h' : d.Later cc e rel) : c.Later cc e rel := by
  obtain ⟨as, h1, h2⟩ := h
  obtain ⟨bs, h3, h4⟩ := h'
  exact ⟨as ++ bs, h1.append h2 h3, by rw [Cluster.run_append, h2]; exact h4⟩

theorem Cluster.Later.one {rel : Links} {c d : Cluster E S} {a : Action E S} (ht : c.Tidy a rel) (h : c.step cc a = some d) : c.Later cc d rel :=
  ⟨[a], ⟨ht, fun _ _ => trivial⟩, by unfold Cluster.run; rw [h]; rfl⟩

theorem Cluster.Reachable.later {rel : Links} {c d : Cluster E S} (h : c.Reachable cc rel) (h' : c.Later cc d rel) : d.Reachable cc rel :=
  Cluster.Later.trans (c := Cluster.init) h h'

end Omni
