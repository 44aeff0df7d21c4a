import Verif.Proof.LifeInv
import Verif.Proof.Validity
/-
One server of a run on the arbitrary network lives a life in the sense of Spec/Life.lean.
-/
namespace Omni

variable {E S : Type} [SnapOps E S]

omit [SnapOps E S] in
theorem Loose.setServer_same (c : Loose E S) (i : NodeId) (s : Server E S) : (c.setServer i s).servers i = s := by
  simp [Loose.setServer]

omit [SnapOps E S] in
theorem Loose.setServer_ne (c : Loose E S) {i j : NodeId} (h : j ≠ i) (s : Server E S) :
    (c.setServer i s).servers j = c.servers j := by
  simp [Loose.setServer, h]

theorem Loose.set_life {c c' : Loose E S} {i j : NodeId} {e : LifeEvent E S} {s : Server E S}
    (h : (c.servers i).life e = some s) (he : some (c.setServer i s) = some c') :
    ∃ es, (c.servers j).lives es = some (c'.servers j) := by
  cases he
  by_cases hj : j = i
  · subst hj
    exact ⟨[e], by simp only [Server.lives, h, Loose.setServer_same]⟩
  · exact ⟨[], by simp only [Server.lives, Loose.setServer_ne c hj]⟩

theorem Loose.step_life {cc : ClusterConfig} {c c' : Loose E S} {a : LAction E S} (hs : c.step cc a = some c') (j : NodeId) :
    ∃ es, (c.servers j).lives es = some (c'.servers j) := by
  cases a with
  | start i cfg =>
    simp only [Loose.step] at hs
    split at hs
    · cases hs
    · rename_i d hd
      split at hs
      · split at hs
        · rename_i op hb
          exact Loose.set_life (e := .start ⟨cc, cfg⟩) (by rw [hd]; simp only [Server.life, hb]) hs
        · cases hs
      · cases hs
  | crash i =>
    simp only [Loose.step] at hs
    split at hs
    · rename_i op hu
      exact Loose.set_life (e := .crash) (by rw [hu]; rfl) hs
    · cases hs
  | call i call =>
    simp only [Loose.step] at hs
    split at hs
    · rename_i op hu
      split at hs
      · cases hs
      · exact Loose.set_life (e := .call call) (by rw [hu]; rfl) hs
    · cases hs
  | crashCall i call k =>
    simp only [Loose.step] at hs
    split at hs
    · rename_i op hu
      split at hs
      · cases hs
      · split at hs
        · rename_i d hd
          exact Loose.set_life (e := .crashCall call k) (by rw [hu]; simp only [Server.life, hd]) hs
        · cases hs
    · cases hs
  | take i =>
    simp only [Loose.step] at hs
    split at hs
    · rename_i op hu
      cases hs
      by_cases hj : j = i
      · subst hj
        exact ⟨[.take], by simp only [Server.lives, hu, Server.life, if_true]⟩
      · exact ⟨[], by simp only [Server.lives, if_neg hj]⟩
    · cases hs
  | deliver n =>
    simp only [Loose.step] at hs
    split at hs
    · cases hs
    · rename_i m hm
      split at hs
      · cases hs
      · rename_i op hu
        exact Loose.set_life (e := .call (.handleIncoming m)) (by rw [hu]; rfl) hs
  | crashDeliver n k =>
    simp only [Loose.step] at hs
    split at hs
    · cases hs
    · rename_i m hm
      split at hs
      · cases hs
      · rename_i op hu
        split at hs
        · rename_i d hd
          exact Loose.set_life (e := .crashCall (.handleIncoming m) k) (by rw [hu]; simp only [Server.life, hd]) hs
        · cases hs

theorem Server.lives_append {s t : Server E S} {es fs : List (LifeEvent E S)} (h : s.lives es = some t) :
    s.lives (es ++ fs) = t.lives fs := by
  induction es generalizing s with
  | nil => cases h; rfl
  | cons e es ih =>
    simp only [Server.lives, List.cons_append] at h ⊢
    split at h
    · cases h
    · rename_i u hu; exact ih h

theorem Loose.run_life {cc : ClusterConfig} {c c' : Loose E S} {as : List (LAction E S)} (hr : c.run cc as = some c')
    (j : NodeId) : ∃ es, (c.servers j).lives es = some (c'.servers j) := by
  induction as generalizing c with
  | nil => cases hr; exact ⟨[], rfl⟩
  | cons a as ih =>
    simp only [Loose.run] at hr
    split at hr
    · cases hr
    · rename_i d hd
      obtain ⟨e1, h1⟩ := Loose.step_life hd j
      obtain ⟨e2, h2⟩ := ih hr
      exact ⟨e1 ++ e2, by rw [Server.lives_append h1]; exact h2⟩

/-- The server invariant in every run on the arbitrary network. -/
theorem Loose.server_inv {cc : ClusterConfig} {c : Loose E S} {as : List (LAction E S)} (hr : Loose.init.run cc as = some c)
    {i : NodeId} {op : OP E S} (h : c.servers i = .up op) : SInv {} 0 (.of {}) op.clearTrail.sp := by
  obtain ⟨es, he⟩ := Loose.run_life hr i
  rw [h] at he
  have h0 : LifeInv {} 0 (.of {}) ((Loose.init : Loose E S).servers i) := LifeInv.start (d := {}) rfl (.of {})
  exact Server.lives_inv (l := .of {}) (b := {}) (Ballot.le_refl _) h0 he

end Omni
