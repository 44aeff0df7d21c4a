import Verif.Proof.Sat
/-
The order on ballots.
-/
namespace Omni
namespace Ballot

theorem cmp_lt_iff (a b : Ballot) : a.cmp b = .lt ↔
    a.n < b.n ∨ (a.n = b.n ∧ (a.priority < b.priority ∨ (a.priority = b.priority ∧ a.pid < b.pid))) := by
  unfold cmp
  rcases Nat.lt_trichotomy a.n b.n with h | h | h <;>
  rcases Nat.lt_trichotomy a.priority b.priority with h' | h' | h' <;>
  rcases Nat.lt_trichotomy a.pid b.pid with h'' | h'' | h'' <;>
  simp [Ordering.then, Nat.compare_eq_lt.2, Nat.compare_eq_gt.2, *] <;> omega

theorem cmp_eq_iff (a b : Ballot) : a.cmp b = .eq ↔ a.n = b.n ∧ a.priority = b.priority ∧ a.pid = b.pid := by
  unfold cmp
  rcases Nat.lt_trichotomy a.n b.n with h | h | h <;>
  rcases Nat.lt_trichotomy a.priority b.priority with h' | h' | h' <;>
  rcases Nat.lt_trichotomy a.pid b.pid with h'' | h'' | h'' <;>
  simp [Ordering.then, Nat.compare_eq_lt.2, Nat.compare_eq_gt.2, *] <;> omega

theorem eq_of {a b : Ballot} (hc : a.config_id = b.config_id) (h : a.cmp b = .eq) : a = b := by
  obtain ⟨h1, h2, h3⟩ := (cmp_eq_iff a b).1 h
  cases a; cases b; simp_all

theorem cmp_gt_iff (a b : Ballot) : a.cmp b = .gt ↔
    b.n < a.n ∨ (b.n = a.n ∧ (b.priority < a.priority ∨ (b.priority = a.priority ∧ b.pid < a.pid))) := by
  unfold cmp
  rcases Nat.lt_trichotomy a.n b.n with h | h | h <;>
  rcases Nat.lt_trichotomy a.priority b.priority with h' | h' | h' <;>
  rcases Nat.lt_trichotomy a.pid b.pid with h'' | h'' | h'' <;>
  simp [Ordering.then, Nat.compare_eq_lt.2, Nat.compare_eq_gt.2, *] <;> omega

theorem lt_iff (a b : Ballot) : a < b ↔
    a.n < b.n ∨ (a.n = b.n ∧ (a.priority < b.priority ∨ (a.priority = b.priority ∧ a.pid < b.pid))) :=
  cmp_lt_iff a b

theorem le_iff (a b : Ballot) : a ≤ b ↔ ¬ b < a := by
  show a.cmp b ≠ .gt ↔ ¬ b.cmp a = .lt
  rw [Ne, cmp_gt_iff, cmp_lt_iff]

theorem not_lt {a b : Ballot} : ¬ a < b ↔ b ≤ a := (le_iff b a).symm
theorem not_le {a b : Ballot} : ¬ a ≤ b ↔ b < a := by rw [le_iff]; exact Decidable.not_not

theorem lt_irrefl (a : Ballot) : ¬ a < a := by rw [lt_iff]; omega
theorem le_refl (a : Ballot) : a ≤ a := by rw [le_iff]; exact lt_irrefl a
theorem lt_trans {a b c : Ballot} (h : a < b) (h' : b < c) : a < c := by simp only [lt_iff] at *; omega
theorem le_of_lt {a b : Ballot} (h : a < b) : a ≤ b := by simp only [le_iff, lt_iff] at *; omega
theorem lt_of_le_of_lt {a b c : Ballot} (h : a ≤ b) (h' : b < c) : a < c := by simp only [le_iff, lt_iff] at *; omega
theorem lt_of_lt_of_le {a b c : Ballot} (h : a < b) (h' : b ≤ c) : a < c := by simp only [le_iff, lt_iff] at *; omega
theorem le_trans {a b c : Ballot} (h : a ≤ b) (h' : b ≤ c) : a ≤ c := by simp only [le_iff, lt_iff] at *; omega
theorem le_of_eq {a b : Ballot} (h : a = b) : a ≤ b := h ▸ le_refl a
theorem le_total (a b : Ballot) : a ≤ b ∨ b ≤ a := by simp only [le_iff, lt_iff]; omega
theorem lt_or_le (a b : Ballot) : a < b ∨ b ≤ a := by rw [le_iff]; exact Decidable.em _
theorem default_le (a : Ballot) : ({} : Ballot) ≤ a := by simp [le_iff, lt_iff]

theorem cmp_cases (a b : Ballot) : (a.cmp b = .lt ∧ a < b) ∨ (a.cmp b = .eq ∧ a ≤ b ∧ b ≤ a) ∨ (a.cmp b = .gt ∧ b < a) := by
  cases h : a.cmp b
  · exact .inl ⟨rfl, h⟩
  · refine .inr (.inl ⟨rfl, ?_, ?_⟩) <;> simp only [le_iff, lt_iff] <;> rw [cmp_eq_iff] at h <;> omega
  · refine .inr (.inr ⟨rfl, ?_⟩); rw [lt_iff]; rw [cmp_gt_iff] at h; omega

/-- Ballots used in one configuration: the default ballot, or a ballot of this configuration naming a real server. -/
def Good (cid : Nat) (b : Ballot) : Prop := b = {} ∨ (b.config_id = cid ∧ b.pid ≠ 0)

theorem eq_of_le_of_le {cid : Nat} {a b : Ballot} (ha : Good cid a) (hb : Good cid b) (h : a ≤ b) (h' : b ≤ a) : a = b := by
  simp only [le_iff, lt_iff] at h h'
  obtain ⟨c, n, p, i⟩ := a
  obtain ⟨c', n', p', i'⟩ := b
  simp only [Good, Ballot.mk.injEq] at *
  omega

theorem wf_lt : WellFounded (fun a b : Ballot => a < b) := by
  have : WellFounded (Prod.Lex (fun a b : Nat => a < b) (Prod.Lex (fun a b : Nat => a < b) (fun a b : Nat => a < b))) :=
    (Prod.lex ⟨_, Nat.lt_wfRel.wf⟩ (Prod.lex ⟨_, Nat.lt_wfRel.wf⟩ ⟨_, Nat.lt_wfRel.wf⟩)).wf
  refine Subrelation.wf (r := InvImage _ (fun a : Ballot => (a.n, a.priority, a.pid))) ?_ (InvImage.wf _ this)
  intro a b h
  rw [lt_iff] at h
  show Prod.Lex _ _ _ _
  simp only [Prod.lex_def]
  omega

end Ballot
end Omni
