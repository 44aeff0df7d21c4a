import Verif.Proof.Safety.Once
import Verif.Proof.Runs
/-
An entry that was not handed in yet is nowhere, whatever the links do with their messages.
-/
namespace Omni

variable {E S : Type} {cc : ClusterConfig} {c c' : Cluster E S} {G : Ghost E} {rel : Links}

namespace RInv

theorem fwds_zero {P : E → Bool} {l : List (PaxosMessage E S)} : fwds P l = 0 ↔ ∀ m ∈ l, m.msg.fwd P = 0 := by
  induction l with
  | nil => simp [fwds]
  | cons m l ih =>
    simp only [fwds, List.map_cons, List.sum_cons, Nat.add_eq_zero_iff, List.mem_cons, forall_eq_or_imp] at *
    rw [ih]

/-- Where nothing that counts is on its way, nothing that counts can be duplicated. -/
theorem rearrange_none (h : c.Within G 0) {i j : NodeId} {ks : List Nat} :
    (c.setNet i j (ks.filterMap fun k => (c.net i j)[k]?)).Within G 0 := by
  refine within_le h fun a b => ?_
  have h0 : fwds G.mark (c.pre a b) = 0 := by
    have := h [.link a b] (by simp)
    simp only [total, List.map_cons, List.map_nil, List.sum_cons, List.sum_nil, Cluster.held] at this
    omega
  refine Nat.le_of_eq ?_
  rw [h0, fwds_zero]
  rw [fwds_zero] at h0
  intro m hm
  apply h0
  simp only [Cluster.pre, Cluster.setNet] at hm ⊢
  split at hm
  · rename_i hab
    obtain ⟨rfl, rfl⟩ := hab
    obtain ⟨x, hx, hmx⟩ := List.mem_filterMap.1 hm
    obtain ⟨k, -, hk⟩ := List.mem_filterMap.1 hx
    exact List.mem_filterMap.2 ⟨x, List.mem_of_getElem? hk, hmx⟩
  · exact hm

theorem step_none [SnapOps E S] (hR : RInv cc c G rel) (h : c.Within G 0) {a : Action E S} (ht : c.Tidy a rel) (ha : a.appends G.mark = 0)
    (hs : c.step cc a = some c') : ∃ G', Mono G G' ∧ G'.mark = G.mark ∧ RInv cc c' G' rel ∧ c'.Within G' 0 := by
  have key : c.ForwardsOnce a → ∃ G', Mono G G' ∧ G'.mark = G.mark ∧ RInv cc c' G' rel ∧ c'.Within G' 0 := fun ho => by
    have := hR.step_within h ht ho hs
    rwa [ha] at this
  cases a with
  | rearrange i j ks =>
    simp only [Cluster.step] at hs
    cases hs
    exact ⟨G, Mono.refl _, rfl, hR.rearrange ht, rearrange_none h⟩
  | _ => exact key trivial

/-- During a run in which nothing that counts is handed in, nothing that counts comes up. -/
theorem run_none [SnapOps E S] (hR : RInv cc c G rel) (h : c.Within G 0) {as : List (Action E S)} (ht : c.TidyRun cc as rel)
    (ha : appendsOf G.mark as = 0) (hs : c.run cc as = some c') :
    ∃ G', Mono G G' ∧ G'.mark = G.mark ∧ RInv cc c' G' rel ∧ c'.Within G' 0 := by
  induction as generalizing c G with
  | nil =>
    simp only [Cluster.run, Option.some.injEq] at hs
    subst hs
    exact ⟨G, Mono.refl _, rfl, hR, h⟩
  | cons a as ih =>
    simp only [Cluster.run] at hs
    simp only [appendsOf, List.map_cons, List.sum_cons, Nat.add_eq_zero_iff] at ha
    split at hs
    · simp at hs
    · rename_i c2 h2
      obtain ⟨G2, hm2, hk2, hR2, hW2⟩ := hR.step_none h ht.1 ha.1 h2
      obtain ⟨G', hm, hk, hR', hW⟩ := ih hR2 hW2 (ht.2 c2 h2) (by rw [hk2]; exact ha.2) hs
      exact ⟨G', hm2.trans hm, hk.trans hk2, hR', hW⟩

end RInv

theorem Cluster.TidyRun.split [SnapOps E S] {xs ys : List (Action E S)} (h : c.TidyRun cc (xs ++ ys) rel) (hr : c.run cc xs = some c') :
    c.TidyRun cc xs rel ∧ c'.TidyRun cc ys rel := by
  induction xs generalizing c with
  | nil => cases hr; exact ⟨trivial, h⟩
  | cons x xs ih =>
    cases h1 : c.step cc x with
    | none => simp [Cluster.run, h1] at hr
    | some d =>
      simp only [Cluster.run, h1] at hr
      obtain ⟨h2, h3⟩ := ih (h.2 d h1) hr
      exact ⟨⟨h.1, fun d' hd => by rw [h1] at hd; cases hd; exact h2⟩, h3⟩

end Omni
