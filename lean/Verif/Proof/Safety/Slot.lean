import Verif.Model.Leader
/-
Slots of the leader state.
-/
namespace Omni

variable {α E S : Type}

theorem slot_replicate {k : Nat} {a x : α} {F : NodeId} (h : slot (List.replicate k a) F = some x) : x = a := by
  cases F with
  | zero => simp [slot] at h
  | succ f =>
    simp only [slot] at h
    rw [List.getElem?_eq_some_iff] at h
    obtain ⟨h1, h2⟩ := h
    simp at h2
    exact h2.symm

theorem setSlot_spec {l v : List α} {p : NodeId} {a : α} (h : setSlot l p a = some v) :
    p ≠ 0 ∧ v.length = l.length ∧ (slot l p).isSome ∧ slot v p = some a ∧ ∀ F, F ≠ p → slot v F = slot l F := by
  cases p with
  | zero => simp [setSlot] at h
  | succ k =>
    simp only [setSlot] at h
    split at h
    · rename_i hk
      simp at h
      subst h
      refine ⟨by omega, by simp, by simp [slot, hk], by simp [slot, hk], fun F hF => ?_⟩
      cases F with
      | zero => rfl
      | succ f =>
        simp only [slot]
        rw [List.getElem?_set_ne (by omega)]
    · simp at h

theorem slot_isSome {l : List α} {p : NodeId} (hp : p ≠ 0) (h : p ≤ l.length) : ∃ a, slot l p = some a := by
  cases p with
  | zero => exact absurd rfl hp
  | succ k => exact ⟨l[k], by simp [slot]⟩

theorem slot_mem {l : List α} {p : NodeId} {a : α} (h : slot l p = some a) : a ∈ l := by
  cases p with
  | zero => simp [slot] at h
  | succ k => exact List.mem_of_getElem? h

/-- The pids of the slots satisfying `p`, the first slot being that of `k`. -/
def pidsFrom (p : α → Bool) : Nat → List α → List NodeId
  | _, [] => []
  | k, a :: r => if p a then k :: pidsFrom p (k + 1) r else pidsFrom p (k + 1) r

theorem pidsFrom_length (p : α → Bool) (k : Nat) (l : List α) : (pidsFrom p k l).length = (l.filter p).length := by
  induction l generalizing k with
  | nil => rfl
  | cons a r ih =>
    simp only [pidsFrom, List.filter_cons]
    split <;> simp [ih]

theorem mem_pidsFrom {p : α → Bool} {k : Nat} {l : List α} {x : NodeId} (h : x ∈ pidsFrom p k l) :
    k ≤ x ∧ ∃ a, l[x - k]? = some a ∧ p a = true := by
  induction l generalizing k with
  | nil => simp [pidsFrom] at h
  | cons a r ih =>
    have tail : x ∈ pidsFrom p (k + 1) r → k ≤ x ∧ ∃ b, (a :: r)[x - k]? = some b ∧ p b = true := by
      intro hx
      obtain ⟨h1, b, h2, h3⟩ := ih hx
      refine ⟨by omega, b, ?_, h3⟩
      rw [show x - k = (x - (k + 1)) + 1 by omega, List.getElem?_cons_succ]
      exact h2
    simp only [pidsFrom] at h
    split at h
    · rename_i hp
      rcases List.mem_cons.1 h with rfl | h
      · exact ⟨Nat.le_refl _, a, by simp, hp⟩
      · exact tail h
    · exact tail h

theorem pidsFrom_nodup (p : α → Bool) (k : Nat) (l : List α) : (pidsFrom p k l).Nodup := by
  induction l generalizing k with
  | nil => simp [pidsFrom]
  | cons a r ih =>
    simp only [pidsFrom]
    split
    · refine List.nodup_cons.2 ⟨fun hx => ?_, ih _⟩
      have := (mem_pidsFrom hx).1
      omega
    · exact ih _

/-- As many different pids as there are slots satisfying `p`. -/
theorem pids_of_slots (p : α → Bool) (l : List α) :
    ∃ W : List NodeId, W.Nodup ∧ W.length = (l.filter p).length ∧ ∀ x ∈ W, ∃ a, slot l x = some a ∧ p a = true := by
  refine ⟨pidsFrom p 1 l, pidsFrom_nodup _ _ _, pidsFrom_length _ _ _, fun x hx => ?_⟩
  obtain ⟨h1, a, h2, h3⟩ := mem_pidsFrom hx
  refine ⟨a, ?_, h3⟩
  cases x with
  | zero => omega
  | succ k => simpa [slot] using h2

namespace LeaderState

theorem mem_promisedFrom {own : NodeId} {k : Nat} {l : List PromiseState} {p : NodeId} (h : p ∈ promisedFrom own k l) :
    p ≠ own ∧ k ≤ p ∧ ∃ m, l[p - k]? = some (.promised m) := by
  induction l generalizing k with
  | nil => simp [promisedFrom] at h
  | cons x r ih =>
    have tail : p ∈ promisedFrom own (k + 1) r → p ≠ own ∧ k ≤ p ∧ ∃ m, (x :: r)[p - k]? = some (.promised m) := by
      intro h
      obtain ⟨h1, h2, m, h3⟩ := ih h
      refine ⟨h1, by omega, m, ?_⟩
      rw [show p - k = (p - (k + 1)) + 1 from by omega]
      simpa using h3
    simp only [promisedFrom] at h
    split at h
    · rename_i hc
      rcases List.mem_cons.1 h with rfl | h
      · refine ⟨hc.2, Nat.le_refl _, ?_⟩
        cases x with
        | promised m => exact ⟨m, by simp⟩
        | notPromised => simp [PromiseState.isPromised] at hc
        | promisedHigher => simp [PromiseState.isPromised] at hc
      · exact tail h
    · exact tail h

theorem promisedFrom_nodup (own : NodeId) (k : Nat) (l : List PromiseState) : (promisedFrom own k l).Nodup := by
  induction l generalizing k with
  | nil => simp [promisedFrom]
  | cons x r ih =>
    simp only [promisedFrom]
    split
    · refine List.nodup_cons.2 ⟨fun h => ?_, ih _⟩
      have := (mem_promisedFrom h).2.1
      omega
    · exact ih _

theorem mem_promisedFrom_of {own : NodeId} {k : Nat} {l : List PromiseState} {j : Nat} {m : PromiseMetaData}
    (h : l[j]? = some (.promised m)) (hne : k + j ≠ own) : k + j ∈ promisedFrom own k l := by
  induction l generalizing k j with
  | nil => simp at h
  | cons x r ih =>
    simp only [promisedFrom]
    cases j with
    | zero =>
      simp at h
      subst h
      rw [if_pos ⟨rfl, by simpa using hne⟩]
      simp
    | succ j =>
      have := ih (k := k + 1) (j := j) (by simpa using h) (by omega)
      rw [show k + 1 + j = k + (j + 1) from by omega] at this
      split
      · exact List.mem_cons_of_mem _ this
      · exact this

theorem mem_followers {ls : LeaderState E S} {p : NodeId} :
    p ∈ ls.get_promised_followers ↔ p ≠ ls.n_leader.pid ∧ ∃ m, slot ls.promises_meta p = some (.promised m) := by
  constructor
  · intro h
    obtain ⟨h1, h2, m, h3⟩ := mem_promisedFrom h
    refine ⟨h1, m, ?_⟩
    cases p with
    | zero => omega
    | succ k => simpa [slot] using h3
  · rintro ⟨h1, m, h2⟩
    cases p with
    | zero => simp [slot] at h2
    | succ k =>
      simp only [slot] at h2
      have := mem_promisedFrom_of (k := 1) h2 (by rw [Nat.add_comm]; exact h1)
      rw [Nat.add_comm] at this
      exact this

theorem followers_nodup (ls : LeaderState E S) : ls.get_promised_followers.Nodup := promisedFrom_nodup _ _ _

end LeaderState
end Omni
