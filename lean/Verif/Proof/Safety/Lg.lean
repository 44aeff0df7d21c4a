import Verif.Model.Cluster
/-
Logs as sequences: all entries from position 0 on, and the StopSign behind them. `a ≤ b` is "a is an initial part of b".
-/
namespace Omni

/-- A whole log. -/
structure Lg (E : Type) where
  es : List E := []
  ss : Option StopSign := none

variable {E : Type}

instance : LE (Lg E) := ⟨fun a b => (a.ss = none ∧ a.es <+: b.es) ∨ a = b⟩

namespace Lg

theorem le_def (a b : Lg E) : a ≤ b ↔ (a.ss = none ∧ a.es <+: b.es) ∨ a = b := Iff.rfl

theorem ext' {a b : Lg E} (h : a.es = b.es) (h' : a.ss = b.ss) : a = b := by cases a; cases b; simp_all

theorem le_refl (a : Lg E) : a ≤ a := .inr rfl
theorem le_of_eq {a b : Lg E} (h : a = b) : a ≤ b := .inr h
theorem le_trans {a b c : Lg E} (h : a ≤ b) (h' : b ≤ c) : a ≤ c := by
  rcases h with ⟨h1, h2⟩ | rfl
  · rcases h' with ⟨-, h4⟩ | rfl
    · exact .inl ⟨h1, h2.trans h4⟩
    · exact .inl ⟨h1, h2⟩
  · exact h'

theorem pre {a b : Lg E} (h : a ≤ b) : a.es <+: b.es := by
  rcases h with h | rfl
  · exact h.2
  · exact List.prefix_rfl

theorem eq_of_ss {a b : Lg E} (h : a ≤ b) (hs : a.ss ≠ none) : a = b := by
  rcases h with h | rfl
  · exact absurd h.1 hs
  · rfl

theorem le_antisymm {a b : Lg E} (h : a ≤ b) (h' : b ≤ a) : a = b := by
  rcases h with ⟨h1, h2⟩ | rfl
  · rcases h' with ⟨h3, h4⟩ | rfl
    · exact ext' (h2.eq_of_length (Nat.le_antisymm h2.length_le h4.length_le)) (h1.trans h3.symm)
    · rfl
  · rfl

theorem bot_le (a : Lg E) : ({} : Lg E) ≤ a := .inl ⟨rfl, List.nil_prefix⟩

theorem le_bot {a : Lg E} (h : a ≤ {}) : a = {} := le_antisymm h (bot_le a)

theorem comparable {a b c : Lg E} (h : a ≤ c) (h' : b ≤ c) : a ≤ b ∨ b ≤ a := by
  rcases h with ⟨h1, h2⟩ | rfl
  · rcases h' with ⟨h3, h4⟩ | rfl
    · rcases List.prefix_or_prefix_of_prefix h2 h4 with h | h
      · exact .inl (.inl ⟨h1, h⟩)
      · exact .inr (.inl ⟨h3, h⟩)
    · exact .inl (.inl ⟨h1, h2⟩)
  · exact .inr h'

/-- Positions below `k` are determined by `l`. -/
def Covers (l : Lg E) (k : Nat) : Prop := k ≤ l.es.length ∨ l.ss ≠ none

theorem Covers.mono {a b : Lg E} {k : Nat} (h : a.Covers k) (hab : a ≤ b) : b.Covers k := by
  rcases h with h | h
  · exact .inl (Nat.le_trans h (pre hab).length_le)
  · rw [← eq_of_ss hab h]; exact .inr h

theorem Covers.down {a : Lg E} {k j : Nat} (h : a.Covers k) (hj : j ≤ k) : a.Covers j := by
  rcases h with h | h
  · exact .inl (Nat.le_trans hj h)
  · exact .inr h

theorem covers_zero (a : Lg E) : a.Covers 0 := .inl (Nat.zero_le _)

/-- `k` may serve as accepted index of `l`. (With a StopSign the code may count it twice.) -/
def IdxOK (l : Lg E) (k : Nat) : Prop := (l.ss = none → k = l.es.length) ∧ (l.ss ≠ none → l.es.length + 1 ≤ k)

theorem IdxOK.covers {l : Lg E} {k : Nat} (h : l.IdxOK k) : l.Covers k := by
  by_cases hs : l.ss = none
  · exact .inl (Nat.le_of_eq (h.1 hs))
  · exact .inr hs

theorem IdxOK.ge {l : Lg E} {k : Nat} (h : l.IdxOK k) : l.es.length ≤ k := by
  by_cases hs : l.ss = none
  · exact Nat.le_of_eq (h.1 hs).symm
  · have := h.2 hs; omega

theorem idxOK_bot : ({} : Lg E).IdxOK 0 := ⟨fun _ => rfl, fun h => absurd rfl h⟩

/-- Two parts of one log compare like their indexes. -/
theorem le_of_idx {a b c : Lg E} {i j : Nat} (ha : a ≤ c) (hb : b ≤ c) (hi : a.IdxOK i) (hj : b.IdxOK j) (h : i ≤ j) :
    a ≤ b := by
  rcases comparable ha hb with h' | h'
  · exact h'
  · by_cases has : a.ss = none
    · by_cases hbs : b.ss = none
      · have h1 := hi.1 has
        have h2 := hj.1 hbs
        have h3 := (pre h').length_le
        refine le_of_eq (ext' ?_ (has.trans hbs.symm))
        exact ((pre h').eq_of_length (by omega)).symm
      · exact le_of_eq (eq_of_ss h' hbs).symm
    · by_cases hbs : b.ss = none
      · have h1 := hi.2 has
        have h2 := hj.1 hbs
        have h3 := (pre h').length_le
        omega
      · exact le_of_eq (eq_of_ss h' hbs).symm

theorem le_of_idx_lt {a b c : Lg E} {i j : Nat} (ha : a ≤ c) (hb : b ≤ c) (hi : a.IdxOK i) (hj : b.IdxOK j) (h : i < j) :
    a ≤ b := le_of_idx ha hb hi hj (Nat.le_of_lt h)

/-- The first `k` positions. -/
def cut (l : Lg E) (k : Nat) : Lg E := if k ≤ l.es.length then ⟨l.es.take k, none⟩ else l

theorem cut_le (l : Lg E) (k : Nat) : l.cut k ≤ l := by
  unfold cut
  split
  · exact .inl ⟨rfl, List.take_prefix _ _⟩
  · exact le_refl _

theorem covers_cut {l : Lg E} {k : Nat} (h : l.Covers k) : (l.cut k).Covers k := by
  unfold cut
  split
  · left; simp; omega
  · exact h

theorem cut_le_of_le {a p : Lg E} {k : Nat} (h : a ≤ p) (hk : a.Covers k) : p.cut k ≤ a := by
  rcases h with ⟨h1, h2⟩ | rfl
  · rcases hk with hk | hk
    · have : k ≤ p.es.length := Nat.le_trans hk h2.length_le
      unfold cut
      rw [if_pos this]
      refine .inl ⟨rfl, ?_⟩
      show p.es.take k <+: a.es
      obtain ⟨t, ht⟩ := h2
      rw [← ht, List.take_append_of_le_length hk]
      exact List.take_prefix _ _
    · exact absurd h1 hk
  · exact cut_le _ _

/-- Logs with a common part agree on the positions it covers. -/
theorem take_eq {l a b : Lg E} {k : Nat} (ha : l ≤ a) (hb : l ≤ b) (hk : l.Covers k) : a.es.take k = b.es.take k := by
  rcases hk with hk | hk
  · obtain ⟨t, ht⟩ := pre ha
    obtain ⟨u, hu⟩ := pre hb
    rw [← ht, ← hu, List.take_append_of_le_length hk, List.take_append_of_le_length hk]
  · rw [← eq_of_ss ha hk, ← eq_of_ss hb hk]

theorem append_le {a : Lg E} {es : List E} (h : a.ss = none) : a ≤ ⟨a.es ++ es, none⟩ :=
  .inl ⟨h, List.prefix_append _ _⟩

end Lg

/-! ## Sequence numbers -/

instance : LE SeqNum := ⟨fun a b => a.session < b.session ∨ (a.session = b.session ∧ a.counter ≤ b.counter)⟩
instance : LT SeqNum := ⟨fun a b => a.session < b.session ∨ (a.session = b.session ∧ a.counter < b.counter)⟩

namespace SeqNum

theorem le_def (a b : SeqNum) : a ≤ b ↔ a.session < b.session ∨ (a.session = b.session ∧ a.counter ≤ b.counter) := Iff.rfl
theorem lt_def (a b : SeqNum) : a < b ↔ a.session < b.session ∨ (a.session = b.session ∧ a.counter < b.counter) := Iff.rfl

instance (a b : SeqNum) : Decidable (a ≤ b) := inferInstanceAs (Decidable (_ ∨ _))
instance (a b : SeqNum) : Decidable (a < b) := inferInstanceAs (Decidable (_ ∨ _))

theorem le_refl (a : SeqNum) : a ≤ a := .inr ⟨rfl, Nat.le_refl _⟩
theorem le_trans {a b c : SeqNum} (h : a ≤ b) (h' : b ≤ c) : a ≤ c := by simp only [le_def] at *; omega
theorem le_of_lt {a b : SeqNum} (h : a < b) : a ≤ b := by simp only [le_def, lt_def] at *; omega
theorem lt_of_le_of_lt {a b c : SeqNum} (h : a ≤ b) (h' : b < c) : a < c := by simp only [le_def, lt_def] at *; omega
theorem lt_of_lt_of_le {a b c : SeqNum} (h : a < b) (h' : b ≤ c) : a < c := by simp only [le_def, lt_def] at *; omega
theorem not_le {a b : SeqNum} : ¬ a ≤ b ↔ b < a := by simp only [le_def, lt_def]; omega
theorem not_lt {a b : SeqNum} : ¬ a < b ↔ b ≤ a := by simp only [le_def, lt_def]; omega
theorem lt_irrefl (a : SeqNum) : ¬ a < a := by simp only [lt_def]; omega
theorem zero_le (a : SeqNum) : ({} : SeqNum) ≤ a := by
  show 0 < a.session ∨ (0 = a.session ∧ 0 ≤ a.counter)
  omega
theorem le_of_eq {a b : SeqNum} (h : a = b) : a ≤ b := h ▸ le_refl a

end SeqNum
end Omni
