import Verif.Spec.Service
import Verif.Props.Agreement
import Verif.Proof.Runs
/-
In a run of a service without stray messages every generation runs with one configuration, so that it is a run of `Cluster`.
-/
namespace Omni

variable {E S : Type} [SnapOps E S] {rel : Links}

namespace Service

/-- The configuration `x` of generation `g + 1` comes from a StopSign of generation `g`. -/
def From (s : Service E S) (rel : Links) (g : Nat) (x : ClusterConfig) : Prop :=
  ∃ z ∈ s.learnt g, ∃ (c : Cluster E S) (j : NodeId) (ss : StopSign), c.Reachable z rel ∧ c.Later z (s.gen g) rel ∧ c.Reconfigured j ss ∧ x = ss.next_config

structure Inv (rel : Links) (s : Service E S) : Prop where
  one : ∀ g, ∀ x ∈ s.learnt g, ∀ y ∈ s.learnt g, x = y
  reach : ∀ g, ∀ x ∈ s.learnt g, (s.gen g).Reachable x rel
  none : ∀ g, s.learnt g = [] → s.gen g = Cluster.init
  src : ∀ g, ∀ x ∈ s.learnt (g + 1), s.From rel g x

/-- What later states keep. -/
structure Grows (rel : Links) (s s' : Service E S) : Prop where
  learnt : ∀ g, ∀ x ∈ s.learnt g, x ∈ s'.learnt g
  later : ∀ g, ∀ x ∈ s.learnt g, (s.gen g).Later x (s'.gen g) rel

theorem Grows.refl (s : Service E S) : Grows rel s s := ⟨fun _ _ h => h, fun _ x _ => Cluster.Later.refl x _⟩

theorem Grows.trans {s t u : Service E S} (h : Grows rel s t) (h' : Grows rel t u) : Grows rel s u :=
  ⟨fun g x hx => h'.learnt g x (h.learnt g x hx), fun g x hx => (h.later g x hx).trans (h'.later g x (h.learnt g x hx))⟩

theorem Inv.init (cc : ClusterConfig) : Inv rel (Service.init cc : Service E S) := by
  have hl : ∀ g x, x ∈ (Service.init cc : Service E S).learnt g → g = 0 ∧ x = cc := by
    intro g x hx
    simp only [Service.init] at hx
    split at hx
    · exact ⟨by assumption, List.mem_singleton.1 hx⟩
    · cases hx
  refine ⟨fun g x hx y hy => (hl g x hx).2.trans (hl g y hy).2.symm, fun g x hx => ⟨[], trivial, rfl⟩, fun g _ => rfl, ?_⟩
  intro g x hx
  have := (hl _ x hx).1
  omega

theorem Inv.step {s s' : Service E S} (h : Inv rel s) {a : SAction E S} (ht : s.Tidy a rel) (hs : a.Separate) (hst : s.step a = some s') :
    Inv rel s' ∧ Grows rel s s' := by
  cases a with
  | stray g k i j => exact hs.elim
  | act g k a =>
    simp only [Service.step] at hst
    split at hst
    · cases hst
    · rename_i cc hcc
      have hm : cc ∈ s.learnt g := List.mem_of_getElem? hcc
      rcases hd : (s.gen g).step cc a with _ | d
      · rw [hd] at hst; cases hst
      · rw [hd] at hst
        cases hst
        have hl : (s.gen g).Later cc d rel := .one ht hd
        have hg : ∀ g', ∀ x ∈ s.learnt g', (s.gen g').Later x ((s.setGen g d).gen g') rel := by
          intro g' x hx
          simp only [Service.setGen]
          split
          · rename_i e; subst e
            rw [h.one _ x hx cc hm]; exact hl
          · exact Cluster.Later.refl _ _
        refine ⟨⟨h.one, fun g' x hx => (h.reach g' x hx).later (hg g' x hx), fun g' e => ?_, fun g' x hx => ?_⟩, fun _ _ hx => hx, hg⟩
        · simp only [Service.setGen]
          split
          · rename_i e'; subst e'
            have e' : s.learnt g' = [] := e
            rw [e'] at hm; cases hm
          · exact h.none g' e
        · obtain ⟨z, hz, c, j, ss, h1, h2, h3⟩ := h.src g' x hx
          exact ⟨z, hz, c, j, ss, h1, h2.trans (hg g' z hz), h3⟩
  | learn g j =>
    simp only [Service.step] at hst
    split at hst
    · cases hst
    · rename_i op hop
      split at hst
      · cases hst
      · rename_i ss hss
        cases hst
        have hR : (s.gen g).Reconfigured j ss := ⟨op, hop, hss⟩
        -- generation `g` has a configuration, since a server of it runs
        obtain ⟨z, hz⟩ : ∃ z, z ∈ s.learnt g := by
          cases hl : s.learnt g with
          | nil => rw [h.none g hl] at hop; cases hop
          | cons z l => exact ⟨z, .head _⟩
        have hnew : ∀ x ∈ s.learnt (g + 1), x = ss.next_config := by
          intro x hx
          obtain ⟨z', hz', c, j', ss', h1, h2, h3, h4⟩ := h.src g x hx
          rw [h4, C10_reconfiguration_agreement_partial z' c (s.gen g) (.inl ⟨h1, h2⟩) j' j ss' ss h3 hR]
        have hsub : ∀ g', ∀ x ∈ s.learnt g', x ∈ (if g' = g + 1 then ss.next_config :: s.learnt g' else s.learnt g') := by
          intro g' x hx
          split
          · exact .tail _ hx
          · exact hx
        have hcase : ∀ g' x, x ∈ (if g' = g + 1 then ss.next_config :: s.learnt g' else s.learnt g') →
            x ∈ s.learnt g' ∨ (g' = g + 1 ∧ x = ss.next_config) := by
          intro g' x hx
          split at hx
          · rename_i e
            rcases List.mem_cons.1 hx with h1 | h1
            · exact .inr ⟨e, h1⟩
            · exact .inl h1
          · exact .inl hx
        refine ⟨⟨?_, ?_, ?_, ?_⟩, hsub, fun _ x _ => Cluster.Later.refl x _⟩
        · intro g' x hx y hy
          rcases hcase g' x hx with h1 | ⟨h1, h2⟩ <;> rcases hcase g' y hy with h3 | ⟨h3, h4⟩
          · exact h.one g' x h1 y h3
          · subst h3; rw [h4, hnew x h1]
          · subst h1; rw [h2, hnew y h3]
          · rw [h2, h4]
        · intro g' x hx
          rcases hcase g' x hx with h1 | ⟨h1, h2⟩
          · exact h.reach g' x h1
          · subst h1
            show (s.gen (g + 1)).Reachable x rel
            cases hl : s.learnt (g + 1) with
            | nil => rw [h.none _ hl]; exact ⟨[], trivial, rfl⟩
            | cons y l =>
              have hy : y ∈ s.learnt (g + 1) := by rw [hl]; exact .head _
              rw [h2, ← hnew y hy]; exact h.reach _ y hy
        · intro g' e
          have e' : (if g' = g + 1 then ss.next_config :: s.learnt g' else s.learnt g') = [] := e
          split at e'
          · cases e'
          · exact h.none g' e'
        · intro g' x hx
          rcases hcase (g' + 1) x hx with h1 | ⟨h1, h2⟩
          · obtain ⟨z, hz, c, j, ss, h1, h2, h3⟩ := h.src g' x h1
            exact ⟨z, hsub _ _ hz, c, j, ss, h1, h2, h3⟩
          · obtain rfl : g' = g := by omega
            exact ⟨z, hsub _ _ hz, s.gen g', j, ss, h.reach g' z hz, Cluster.Later.refl _ _, hR, h2⟩

theorem Inv.later {s s' : Service E S} (h : Inv rel s) (hl : s.Later SAction.Separate s' rel) : Inv rel s' ∧ Grows rel s s' := by
  obtain ⟨as, ht, hr⟩ := hl
  induction as generalizing s with
  | nil => cases hr; exact ⟨h, .refl _⟩
  | cons a as ih =>
    unfold Service.run at hr
    split at hr
    · cases hr
    · rename_i t hst
      obtain ⟨h1, h2⟩ := h.step ht.1.1 ht.1.2 hst
      obtain ⟨h3, h4⟩ := ih h1 (ht.2 t hst) hr
      exact ⟨h3, h2.trans h4⟩

/-- Two moments of one run, and a generation that has a configuration at the first: both states of the generation belong to one run. -/
theorem SameRun.pair {cc : ClusterConfig} {s s' : Service E S} (h : SameRun SAction.Separate cc s s' rel) :
    Inv rel s ∧ Inv rel s' ∧ (Grows rel s s' ∨ Grows rel s' s) := by
  rcases h with ⟨h1, h2⟩ | ⟨h1, h2⟩
  · have h3 := ((Inv.init cc).later h1).1
    have h4 := h3.later h2
    exact ⟨h3, h4.1, .inl h4.2⟩
  · have h3 := ((Inv.init cc).later h1).1
    have h4 := h3.later h2
    exact ⟨h4.1, h3, .inr h4.2⟩

theorem Inv.running {s : Service E S} (h : Inv rel s) {g : Nat} {i : NodeId} {op : OP E S} (hop : (s.gen g).servers i = .up op) :
    ∃ x, x ∈ s.learnt g := by
  cases hl : s.learnt g with
  | nil => rw [h.none g hl] at hop; cases hop
  | cons z l => exact ⟨z, .head _⟩

/-- The same generation at two moments at which one of its servers runs. -/
theorem SameRun.gen {cc : ClusterConfig} {s s' : Service E S} (h : SameRun SAction.Separate cc s s' rel) {g : Nat} {i j : NodeId}
    {op op' : OP E S} (hop : (s.gen g).servers i = .up op) (hop' : (s'.gen g).servers j = .up op') :
    ∃ x ∈ s.learnt g, (s.gen g).SameRun x (s'.gen g) rel := by
  obtain ⟨h1, h2, h3⟩ := h.pair
  obtain ⟨x, hx⟩ := h1.running hop
  obtain ⟨y, hy⟩ := h2.running hop'
  rcases h3 with h3 | h3
  · exact ⟨x, hx, .inl ⟨h1.reach g x hx, h3.later g x hx⟩⟩
  · have := h3.learnt g y hy
    exact ⟨y, this, .inr ⟨h2.reach g y hy, h3.later g y hy⟩⟩

end Service

end Omni
