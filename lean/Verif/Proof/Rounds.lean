import Verif.Spec.Rounds
import Verif.Proof.Election
/-
Election in synchronous rounds. The round is first reduced to what happens to the own ballots `c`, the known leaders `l` and
the happiness `h` of the servers (`Next`).
-/
namespace Omni

theorem Ballot.le_antisymm {a b : Ballot} (hc : a.config_id = b.config_id) (h : a ≤ b) (h' : b ≤ a) : a = b := by
  simp only [Ballot.le_iff, Ballot.lt_iff] at h h'
  obtain ⟨a1, a2, a3, a4⟩ := a
  obtain ⟨b1, b2, b3, b4⟩ := b
  simp only at *
  simp only [Ballot.mk.injEq]
  omega

theorem Ballot.n_mono {a b : Ballot} (h : a ≤ b) : a.n ≤ b.n := by
  rw [Ballot.le_iff, Ballot.lt_iff] at h
  omega

theorem length_filter_ne {N : List NodeId} (h : N.Nodup) {i : NodeId} (hi : i ∈ N) :
    (N.filter (· ≠ i)).length + 1 = N.length := by
  induction N with
  | nil => simp at hi
  | cons x N ih =>
    rw [List.nodup_cons] at h
    by_cases hx : x = i
    · subst hx
      have : N.filter (· ≠ x) = N := by
        apply List.filter_eq_self.2
        intro a ha
        simp only [ne_eq, decide_not, Bool.not_eq_eq_eq_not, Bool.not_true, decide_eq_false_iff_not]
        rintro rfl
        exact h.1 ha
      rw [List.filter_cons_of_neg (by simp), this, List.length_cons]
    · have hi' : i ∈ N := by
        rcases List.mem_cons.1 hi with h' | h'
        · exact absurd h'.symm hx
        · exact h'
      have := ih h.2 hi'
      rw [List.filter_cons_of_pos (by simpa using hx), List.length_cons, List.length_cons]
      omega

namespace Rounds

/-- Own ballots, known leaders, happiness. -/
structure V where
  c : NodeId → Ballot
  l : NodeId → Ballot
  h : NodeId → Bool

def view (s : NodeId → BLE) : V := ⟨fun i => (s i).current_ballot, fun i => (s i).leader, fun i => (s i).happy⟩

/-- Enough of the others know no larger leader than the own ballot of `i`. -/
def Enough (N : List NodeId) (v : V) (i : NodeId) : Prop :=
  N.length / 2 + 1 ≤ ((N.filter (· ≠ i)).filter fun j => decide (v.l j ≤ v.c i)).length + 1

/-- `i` finds itself happy, when it knows the leader `x`. -/
def Glad (N : List NodeId) (v : V) (i : NodeId) (x : Ballot) : Prop :=
  (x = v.c i ∧ (Enough N v i ∨ ∃ j ∈ N, j ≠ i ∧ v.c i < v.l j ∧ v.h j = true)) ∨
  (x ≠ v.c i ∧ ∃ j ∈ N, j ≠ i ∧ v.c j = x ∧ v.h j = true)

/-- What happens to server `i` in a round, when `x` is the largest of the leader it knew and the others' ballots. -/
structure Next1 (N : List NodeId) (v v' : V) (i : NodeId) (x : Ballot) : Prop where
  old : v.l i ≤ x
  all : ∀ j ∈ N, v.c j ≤ x
  from_ : x = v.l i ∨ ∃ j ∈ N, j ≠ i ∧ x = v.c j
  out : (Glad N v i x ∧ v'.c i = v.c i ∧ v'.l i = x ∧ v'.h i = true) ∨
    (¬ Glad N v i x ∧ (∀ j ∈ N, j ≠ i → v.h j = false) ∧ v'.c i = { v.c i with n := x.n + 1 } ∧ v'.l i = v'.c i ∧
      v'.h i = true) ∨
    (¬ Glad N v i x ∧ (∃ j ∈ N, j ≠ i ∧ v.h j = true) ∧ v'.c i = v.c i ∧ v'.l i = x ∧ v'.h i = false)

def Next (N : List NodeId) (v v' : V) : Prop := ∀ i ∈ N, ∃ x, Next1 N v v' i x

structure WF (cid : Nat) (N : List NodeId) (v : V) : Prop where
  nodup : N.Nodup
  two : 2 ≤ N.length
  own : ∀ i ∈ N, (v.c i).pid = i ∧ (v.c i).config_id = cid
  leader : ∀ i ∈ N, (v.l i).config_id = cid
  le : ∀ i ∈ N, v.c i ≤ v.l i

variable {cid : Nat} {N : List NodeId} {v v' : V}

/-- The owner of the largest own ballot. -/
def Top (N : List NodeId) (v : V) (k : NodeId) : Prop := k ∈ N ∧ ∀ j ∈ N, v.c j ≤ v.c k

theorem exists_top (hN : N ≠ []) (v : V) : ∃ k, Top N v k := by
  induction N with
  | nil => exact absurd rfl hN
  | cons x N ih =>
    by_cases hN' : N = []
    · subst hN'
      exact ⟨x, by simp [Top, Ballot.le_refl]⟩
    · obtain ⟨k, hk, hm⟩ := ih hN'
      rcases Ballot.le_total (v.c x) (v.c k) with h | h
      · exact ⟨k, List.mem_cons_of_mem _ hk, fun j hj => by
          rcases List.mem_cons.1 hj with rfl | hj
          · exact h
          · exact hm j hj⟩
      · exact ⟨x, List.mem_cons_self .., fun j hj => by
          rcases List.mem_cons.1 hj with rfl | hj
          · exact Ballot.le_refl _
          · exact Ballot.le_trans (hm j hj) h⟩

theorem WF.ne (h : WF cid N v) : N ≠ [] := by
  have := h.two
  rintro rfl
  simp at this

theorem WF.eq (h : WF cid N v) {i j : NodeId} (hi : i ∈ N) (hj : j ∈ N) (e : v.c i = v.c j) : i = j := by
  rw [← (h.own i hi).1, e, (h.own j hj).1]

theorem Top.lt (h : WF cid N v) {k j : NodeId} (hk : Top N v k) (hj : j ∈ N) (hn : j ≠ k) : v.c j < v.c k := by
  rcases Ballot.lt_or_le (v.c j) (v.c k) with h' | h'
  · exact h'
  · exact absurd (h.eq hj hk.1 (Ballot.le_antisymm ((h.own j hj).2.trans (h.own k hk.1).2.symm) (hk.2 j hj) h')) hn

/-- The known leader of a server that has just looked around. -/
theorem Next1.cfg (h : WF cid N v) {i : NodeId} {x : Ballot} (hi : i ∈ N) (hx : Next1 N v v' i x) : x.config_id = cid := by
  rcases hx.from_ with e | ⟨j, hj, -, e⟩
  · rw [e]; exact h.leader i hi
  · rw [e]; exact (h.own j hj).2

/-- If `i` knew no larger leader than the top ballot, it knows the top ballot. -/
theorem Next1.top (h : WF cid N v) {i k : NodeId} {x : Ballot} (hi : i ∈ N) (hk : Top N v k) (hx : Next1 N v v' i x)
    (hl : v.l i ≤ v.c k) : x = v.c k := by
  refine Ballot.le_antisymm ((hx.cfg h hi).trans (h.own k hk.1).2.symm) ?_ (hx.all k hk.1)
  rcases hx.from_ with e | ⟨j, hj, -, e⟩
  · rw [e]; exact hl
  · rw [e]; exact hk.2 j hj

/-- If it knew one at least as large, it still knows that. -/
theorem Next1.keep (h : WF cid N v) {i k : NodeId} {x : Ballot} (hi : i ∈ N) (hk : Top N v k) (hx : Next1 N v v' i x)
    (hl : v.c k ≤ v.l i) : x = v.l i := by
  refine Ballot.le_antisymm ((hx.cfg h hi).trans (h.leader i hi).symm) ?_ hx.old
  rcases hx.from_ with e | ⟨j, hj, -, e⟩
  · rw [e]; exact Ballot.le_refl _
  · rw [e]; exact Ballot.le_trans (hk.2 j hj) hl

theorem Next.wf (h : WF cid N v) (hn : Next N v v') : WF cid N v' := by
  refine ⟨h.nodup, h.two, fun i hi => ?_, fun i hi => ?_, fun i hi => ?_⟩
  · obtain ⟨x, hx⟩ := hn i hi
    rcases hx.out with ⟨-, e, -⟩ | ⟨-, -, e, -⟩ | ⟨-, -, e, -⟩ <;> rw [e] <;> exact h.own i hi
  · obtain ⟨x, hx⟩ := hn i hi
    rcases hx.out with ⟨-, -, e, -⟩ | ⟨-, -, e, e', -⟩ | ⟨-, -, -, e, -⟩
    · rw [e]; exact hx.cfg h hi
    · rw [e', e]; exact (h.own i hi).2
    · rw [e]; exact hx.cfg h hi
  · obtain ⟨x, hx⟩ := hn i hi
    rcases hx.out with ⟨-, e, e', -⟩ | ⟨-, -, -, e, -⟩ | ⟨-, -, e, e', -⟩
    · rw [e, e']; exact hx.all i hi
    · rw [e]; exact Ballot.le_refl _
    · rw [e, e']; exact hx.all i hi

/-- `k` owns the top ballot, regards itself as leader and is happy, and enough others know no larger leader. -/
structure Stable (N : List NodeId) (v : V) (k : NodeId) : Prop where
  top : Top N v k
  lead : v.l k = v.c k
  glad : v.h k = true
  enough : Enough N v k

theorem Stable.next (h : WF cid N v) {k : NodeId} (hs : Stable N v k) (hn : Next N v v') :
    Stable N v' k ∧ (∀ i ∈ N, v'.c i = v.c i) ∧ ∀ i ∈ N, v.l i ≤ v.c k → v'.l i = v.c k ∧ v'.h i = true := by
  have hkey : ∀ i ∈ N, v'.c i = v.c i ∧ (v.l i ≤ v.c k → v'.l i = v.c k ∧ v'.h i = true) ∧
      (¬ v.l i ≤ v.c k → v'.l i = v.l i) := by
    intro i hi
    obtain ⟨x, hx⟩ := hn i hi
    by_cases hik : i = k
    · subst hik
      have ex : x = v.c i := hx.top h hi hs.top (by rw [hs.lead]; exact Ballot.le_refl _)
      have hg : Glad N v i x := .inl ⟨ex, .inl hs.enough⟩
      have hl : v.l i ≤ v.c i := by rw [hs.lead]; exact Ballot.le_refl _
      rcases hx.out with ⟨-, e1, e2, e3⟩ | ⟨hg', -⟩ | ⟨hg', -⟩
      · exact ⟨e1, fun _ => ⟨e2.trans ex, e3⟩, fun hl' => absurd hl hl'⟩
      · exact absurd hg hg'
      · exact absurd hg hg'
    · have hno : ¬ ∀ j ∈ N, j ≠ i → v.h j = false := fun hf => by
        have := hf k hs.top.1 (Ne.symm hik)
        rw [hs.glad] at this; simp at this
      have hlt := hs.top.lt h hi hik
      by_cases hl : v.l i ≤ v.c k
      · have ex : x = v.c k := hx.top h hi hs.top hl
        have hg : Glad N v i x := .inr ⟨by
          rw [ex]; intro e; rw [e] at hlt; exact Ballot.lt_irrefl _ hlt, k, hs.top.1, Ne.symm hik, ex.symm, hs.glad⟩
        rcases hx.out with ⟨-, e1, e2, e3⟩ | ⟨hg', -⟩ | ⟨hg', -⟩
        · exact ⟨e1, fun _ => ⟨e2.trans ex, e3⟩, fun hl' => absurd hl hl'⟩
        · exact absurd hg hg'
        · exact absurd hg hg'
      · have ex : x = v.l i := hx.keep h hi hs.top (Ballot.le_of_lt (Ballot.not_le.1 hl))
        rcases hx.out with ⟨-, e1, e2, -⟩ | ⟨-, hf, -⟩ | ⟨-, -, e1, e2, -⟩
        · exact ⟨e1, fun hl' => absurd hl' hl, fun _ => e2.trans ex⟩
        · exact absurd hf hno
        · exact ⟨e1, fun hl' => absurd hl' hl, fun _ => e2.trans ex⟩
  have hk := hkey k hs.top.1
  have hlk : v.l k ≤ v.c k := by rw [hs.lead]; exact Ballot.le_refl _
  refine ⟨⟨⟨hs.top.1, fun j hj => ?_⟩, ?_, (hk.2.1 hlk).2, ?_⟩, fun i hi => (hkey i hi).1, fun i hi => (hkey i hi).2.1⟩
  · rw [(hkey j hj).1, hk.1]; exact hs.top.2 j hj
  · rw [(hk.2.1 hlk).1, hk.1]
  · have := hs.enough
    unfold Enough at this ⊢
    have e : ((N.filter (· ≠ k)).filter fun j => decide (v'.l j ≤ v'.c k))
        = ((N.filter (· ≠ k)).filter fun j => decide (v.l j ≤ v.c k)) := by
      apply List.filter_congr
      intro j hj
      have hj := (List.mem_filter.1 hj).1
      rw [hk.1]
      by_cases hl : v.l j ≤ v.c k
      · rw [((hkey j hj).2.1 hl).1]
        simp [Ballot.le_refl, hl]
      · rw [(hkey j hj).2.2 hl]
    rw [e]; exact this

theorem enough_all (h : WF cid N v) {k : NodeId} (hk : k ∈ N) (hl : ∀ j ∈ N, v.l j ≤ v.c k) : Enough N v k := by
  unfold Enough
  have e : ((N.filter (· ≠ k)).filter fun j => decide (v.l j ≤ v.c k)) = N.filter (· ≠ k) := by
    apply List.filter_eq_self.2
    intro j hj
    exact decide_eq_true (hl j ((List.mem_filter.1 hj).1))
  rw [e, length_filter_ne h.nodup hk]
  have := h.two
  omega

/-- If nobody is happy, everybody but perhaps the owner of the top ballot takes over. -/
theorem Next.unhappy (h : WF cid N v) (hn : Next N v v') (hu : ∀ i ∈ N, v.h i = false) : ∃ k, Stable N v' k := by
  obtain ⟨t, ht⟩ := exists_top h.ne v
  have key : ∀ i ∈ N, v'.l i = v'.c i ∧ v'.h i = true := by
    intro i hi
    obtain ⟨x, hx⟩ := hn i hi
    have hno : ∀ p : NodeId → Prop, ¬ ∃ j ∈ N, j ≠ i ∧ p j ∧ v.h j = true := by
      rintro p ⟨j, hj, -, -, hh⟩
      rw [hu j hj] at hh; simp at hh
    rcases hx.out with ⟨hg, e1, e2, e3⟩ | ⟨-, -, -, e2, e3⟩ | ⟨-, ⟨j, hj, -, hh⟩, -⟩
    · rcases hg with ⟨ex, -⟩ | ⟨-, hh⟩
      · exact ⟨by rw [e2, ex, e1], e3⟩
      · exact absurd hh (hno _)
    · exact ⟨e2, e3⟩
    · rw [hu j hj] at hh; simp at hh
  obtain ⟨k, hk⟩ := exists_top h.ne v'
  exact ⟨k, hk, (key k hk.1).1, (key k hk.1).2, enough_all (hn.wf h) hk.1 fun j hj => by
    rw [(key j hj).1]; exact hk.2 j hj⟩

/-- If nobody knows a leader larger than the top ballot, its owner or somebody who takes over in this round is stable. -/
theorem Next.nophantom (h : WF cid N v) (hn : Next N v v') {t : NodeId} (ht : Top N v t) (hl : ∀ i ∈ N, v.l i ≤ v.c t) :
    ∃ k, Stable N v' k ∧ ∀ i ∈ N, v'.l i ≤ v'.c k := by
  have key : ∀ i ∈ N, (v'.c i = v.c i ∧ v'.l i = v.c t) ∨
      (v.c t < v'.c i ∧ v'.l i = v'.c i ∧ v'.h i = true) := by
    intro i hi
    obtain ⟨x, hx⟩ := hn i hi
    have ex := hx.top h hi ht (hl i hi)
    rcases hx.out with ⟨-, e1, e2, -⟩ | ⟨-, -, e1, e2, e3⟩ | ⟨-, -, e1, e2, -⟩
    · exact .inl ⟨e1, e2.trans ex⟩
    · refine .inr ⟨?_, e2, e3⟩
      rw [e1, ex]
      exact BLE.lt_raise _ _
    · exact .inl ⟨e1, e2.trans ex⟩
  have hwf := hn.wf h
  obtain ⟨k, hk⟩ := exists_top h.ne v'
  have htk : v.c t ≤ v'.c k := by
    rcases key t ht.1 with ⟨e, -⟩ | ⟨e, -⟩
    · rw [← e]; exact hk.2 t ht.1
    · exact Ballot.le_trans (Ballot.le_of_lt e) (hk.2 t ht.1)
  have hall : ∀ j ∈ N, v'.l j ≤ v'.c k := by
    intro j hj
    rcases key j hj with ⟨-, e⟩ | ⟨-, e, -⟩
    · rw [e]; exact htk
    · rw [e]; exact hk.2 j hj
  refine ⟨k, ⟨hk, ?_, ?_, enough_all hwf hk.1 hall⟩, hall⟩
  · exact Ballot.le_antisymm ((hwf.leader k hk.1).trans (hwf.own k hk.1).2.symm) (hall k hk.1) (hwf.le k hk.1)
  · rcases key k hk.1 with ⟨e, -⟩ | ⟨-, -, e⟩
    · have hkt : k = t := by
        refine h.eq hk.1 ht.1 (Ballot.le_antisymm ((h.own k hk.1).2.trans (h.own t ht.1).2.symm) (ht.2 k hk.1) ?_)
        rw [← e]; exact htk
      subst hkt
      obtain ⟨x, hx⟩ := hn k ht.1
      have ex := hx.top h ht.1 ht (hl k ht.1)
      have hg : Glad N v k x := .inl ⟨ex, .inl (enough_all h ht.1 hl)⟩
      rcases hx.out with ⟨-, -, -, e3⟩ | ⟨hg', -⟩ | ⟨hg', -⟩
      · exact e3
      · exact absurd hg hg'
      · exact absurd hg hg'
    · exact e

/-- How far the known leaders may be ahead of the top ballot. -/
def Gap (N : List NodeId) (v : V) (d : Nat) : Prop := ∃ t, Top N v t ∧ ∀ i ∈ N, (v.l i).n ≤ (v.c t).n + d

theorem exists_gap (h : WF cid N v) : ∃ d, Gap N v d := by
  obtain ⟨t, ht⟩ := exists_top h.ne v
  have : ∀ L : List NodeId, ∃ d, ∀ i ∈ L, (v.l i).n ≤ d := by
    intro L
    induction L with
    | nil => exact ⟨0, by simp⟩
    | cons x L ih =>
      obtain ⟨d, hd⟩ := ih
      refine ⟨max d (v.l x).n, fun i hi => ?_⟩
      rcases List.mem_cons.1 hi with rfl | hi
      · omega
      · have := hd i hi; omega
  obtain ⟨d, hd⟩ := this N
  exact ⟨d, t, ht, fun i hi => by have := hd i hi; omega⟩

/-- Somebody's own ballot changes. -/
def Takes (N : List NodeId) (v v' : V) : Prop := ∃ i ∈ N, v'.c i ≠ v.c i

theorem Next.gap (h : WF cid N v) (hn : Next N v v') {d : Nat} (hg : Gap N v d) :
    Gap N v' d ∧ (Takes N v v' → (∃ d', d = d' + 1 ∧ Gap N v' d') ∨ ∃ t, Top N v' t ∧ ∀ i ∈ N, v'.l i ≤ v'.c t) := by
  obtain ⟨t, ht, hl⟩ := hg
  obtain ⟨k, hk⟩ := exists_top h.ne v'
  have key : ∀ i ∈ N, (v'.c i = v.c i ∧ (v'.l i).n ≤ (v.c t).n + d) ∨ (v'.l i = v'.c i ∧ (v.c t).n < (v'.c i).n) := by
    intro i hi
    obtain ⟨x, hx⟩ := hn i hi
    have hxn : x.n ≤ (v.c t).n + d := by
      rcases hx.from_ with e | ⟨j, hj, -, e⟩
      · rw [e]; exact hl i hi
      · rw [e]; exact Nat.le_trans (Ballot.n_mono (h.le j hj)) (hl j hj)
    rcases hx.out with ⟨-, e1, e2, -⟩ | ⟨-, -, e1, e2, -⟩ | ⟨-, -, e1, e2, -⟩
    · exact .inl ⟨e1, by rw [e2]; exact hxn⟩
    · refine .inr ⟨e2, ?_⟩
      rw [e1]
      exact Nat.lt_succ_of_le (Ballot.n_mono (hx.all t ht.1))
    · exact .inl ⟨e1, by rw [e2]; exact hxn⟩
  have htk : (v.c t).n ≤ (v'.c k).n := by
    have := Ballot.n_mono (hk.2 t ht.1)
    rcases key t ht.1 with ⟨e, -⟩ | ⟨-, e⟩
    · rw [e] at this; exact this
    · omega
  have hin : ∀ i ∈ N, v'.l i = v'.c i → (v'.l i).n ≤ (v'.c k).n := by
    intro i hi e; rw [e]; exact Ballot.n_mono (hk.2 i hi)
  refine ⟨⟨k, hk, fun i hi => ?_⟩, ?_⟩
  · rcases key i hi with ⟨-, e⟩ | ⟨e, -⟩
    · omega
    · have := hin i hi e; omega
  · rintro ⟨i0, hi0, hne⟩
    have hlt : (v.c t).n < (v'.c k).n := by
      rcases key i0 hi0 with ⟨e, -⟩ | ⟨-, e⟩
      · exact absurd e hne
      · exact Nat.lt_of_lt_of_le e (Ballot.n_mono (hk.2 i0 hi0))
    cases d with
    | succ d =>
      refine .inl ⟨d, rfl, k, hk, fun i hi => ?_⟩
      rcases key i hi with ⟨-, e⟩ | ⟨e, -⟩
      · omega
      · have := hin i hi e; omega
    | zero =>
      refine .inr ⟨k, hk, fun i hi => ?_⟩
      rcases key i hi with ⟨-, e⟩ | ⟨e, -⟩
      · refine Ballot.le_of_lt ((Ballot.lt_iff _ _).2 (.inl ?_))
        omega
      · rw [e]; exact hk.2 i hi

/-- Four rounds in which no ballot changes: then somebody is stable, or nobody is happy. -/
theorem quiet {v0 v1 v2 v3 v4 : V} (h : WF cid N v0) (n0 : Next N v0 v1) (n1 : Next N v1 v2) (n2 : Next N v2 v3)
    (n3 : Next N v3 v4) (q0 : ¬ Takes N v0 v1) (q1 : ¬ Takes N v1 v2) (q2 : ¬ Takes N v2 v3) (q3 : ¬ Takes N v3 v4) :
    (∃ k, Stable N v2 k) ∨ ∀ i ∈ N, v4.h i = false := by
  have same : ∀ {a b : V}, ¬ Takes N a b → ∀ i ∈ N, b.c i = a.c i := by
    intro a b hq i hi
    exact Decidable.byContradiction fun hne => hq ⟨i, hi, hne⟩
  have c1 := same q0
  have c2 := same q1
  have c3 := same q2
  have c4 := same q3
  have w1 := n0.wf h
  have w2 := n1.wf w1
  have w3 := n2.wf w2
  obtain ⟨t, ht⟩ := exists_top h.ne v0
  have topOf : ∀ {a b : V}, (∀ i ∈ N, b.c i = a.c i) → Top N a t → Top N b t := by
    intro a b hc hT
    exact ⟨hT.1, fun j hj => by rw [hc j hj, hc t hT.1]; exact hT.2 j hj⟩
  have t1 := topOf c1 ht
  have t2 := topOf c2 t1
  have t3 := topOf c3 t2
  -- a step without takeover
  have nt : ∀ {a b : V}, ¬ Takes N a b → ∀ {i x}, i ∈ N → Next1 N a b i x → b.l i = x ∧ (b.h i = true → Glad N a i x) ∧
      (Glad N a i x → b.h i = true) := by
    intro a b hq i x hi hx
    rcases hx.out with ⟨hg, -, e2, e3⟩ | ⟨-, -, e1, -⟩ | ⟨hg, -, -, e2, e3⟩
    · exact ⟨e2, fun _ => hg, fun _ => e3⟩
    · exfalso
      have := same hq i hi
      rw [this] at e1
      have e1 := congrArg Ballot.n e1
      have := Ballot.n_mono (hx.all i hi)
      simp only at e1
      omega
    · exact ⟨e2, fun hh => by rw [e3] at hh; simp at hh, fun hg' => absurd hg' hg⟩
  -- everybody knows at least the top ballot after the first round, and then keeps what it knows
  have l1 : ∀ i ∈ N, v1.c t ≤ v1.l i := by
    intro i hi
    obtain ⟨x, hx⟩ := n0 i hi
    rw [(nt q0 hi hx).1, c1 t ht.1]
    exact hx.all t ht.1
  have keep : ∀ {a b : V}, WF cid N a → Next N a b → ¬ Takes N a b → Top N a t → (∀ i ∈ N, a.c t ≤ a.l i) →
      ∀ i ∈ N, b.l i = a.l i := by
    intro a b wa n q ta la i hi
    obtain ⟨x, hx⟩ := n i hi
    rw [(nt q hi hx).1, hx.keep wa hi ta (la i hi)]
  have e2 := keep w1 n1 q1 t1 l1
  have l2 : ∀ i ∈ N, v2.c t ≤ v2.l i := fun i hi => by rw [e2 i hi, c2 t ht.1]; exact l1 i hi
  have e3 := keep w2 n2 q2 t2 l2
  have l3 : ∀ i ∈ N, v3.c t ≤ v3.l i := fun i hi => by rw [e3 i hi, c3 t ht.1]; exact l2 i hi
  -- those who know a larger leader are not happy
  have phantom : ∀ {a b : V}, WF cid N a → Next N a b → ¬ Takes N a b → Top N a t → (∀ i ∈ N, a.c t ≤ a.l i) →
      ∀ i ∈ N, a.c t < a.l i → b.h i = false := by
    intro a b wa n q ta la i hi hlt
    obtain ⟨x, hx⟩ := n i hi
    have ex := hx.keep wa hi ta (la i hi)
    have hne : ∀ j ∈ N, a.c j ≠ a.l i := by
      intro j hj e
      have := ta.2 j hj
      rw [e] at this
      exact Ballot.lt_irrefl _ (Ballot.lt_of_lt_of_le hlt this)
    have : ¬ Glad N a i x := by
      rintro (⟨e, -⟩ | ⟨-, j, hj, -, e, -⟩)
      · exact hne i hi (by rw [← e, ex])
      · exact hne j hj (by rw [e, ex])
    cases hb : b.h i with
    | false => rfl
    | true => exact absurd ((nt q hi hx).2.1 hb) this
  have p2 := phantom w1 n1 q1 t1 l1
  have p3 := phantom w2 n2 q2 t2 l2
  have p4 := phantom w3 n3 q3 t3 l3
  have split : ∀ i ∈ N, v1.c t < v1.l i ∨ v1.l i = v1.c t := by
    intro i hi
    rcases Ballot.lt_or_le (v1.c t) (v1.l i) with h' | h'
    · exact .inl h'
    · exact .inr (Ballot.le_antisymm ((w1.leader i hi).trans (w1.own t ht.1).2.symm) h' (l1 i hi))
  -- those who know the top ballot are happy only if its owner was
  have follower : ∀ {a b : V}, WF cid N a → Next N a b → ¬ Takes N a b → Top N a t → (∀ i ∈ N, a.c t ≤ a.l i) →
      a.h t = false → ∀ i ∈ N, i ≠ t → a.l i = a.c t → b.h i = false := by
    intro a b wa n q ta la hh i hi hit hl
    obtain ⟨x, hx⟩ := n i hi
    have ex := (hx.keep wa hi ta (la i hi)).trans hl
    have : ¬ Glad N a i x := by
      rintro (⟨e, -⟩ | ⟨-, j, hj, -, e, hj'⟩)
      · exact hit (wa.eq hi ta.1 (by rw [← e, ex]))
      · have := wa.eq hj ta.1 (by rw [e, ex])
        subst this
        rw [hh] at hj'; simp at hj'
    cases hb : b.h i with
    | false => rfl
    | true => exact absurd ((nt q hi hx).2.1 hb) this
  rcases split t ht.1 with hl | hl
  · -- the owner of the top ballot knows a larger leader
    refine .inr fun i hi => ?_
    have hl2 : v2.c t < v2.l t := by rw [e2 t ht.1, c2 t ht.1]; exact hl
    have hl3 : v3.c t < v3.l t := by rw [e3 t ht.1, c3 t ht.1]; exact hl2
    have hh3 := p3 t ht.1 hl2
    by_cases hit : i = t
    · subst hit; exact p4 i hi hl3
    · rcases split i hi with hi' | hi'
      · exact p4 i hi (by rw [e3 i hi, e2 i hi, c3 t ht.1, c2 t ht.1]; exact hi')
      · exact follower w3 n3 q3 t3 l3 hh3 i hi hit (by rw [e3 i hi, e2 i hi, c3 t ht.1, c2 t ht.1]; exact hi')
  · have hl2 : v2.l t = v2.c t := by rw [e2 t ht.1, c2 t ht.1]; exact hl
    have hl3 : v3.l t = v3.c t := by rw [e3 t ht.1, c3 t ht.1]; exact hl2
    have enough_eq : ∀ {a b : V}, (∀ i ∈ N, b.l i = a.l i) → (∀ i ∈ N, b.c i = a.c i) → (Enough N b t ↔ Enough N a t) := by
      intro a b hl hc
      unfold Enough
      have : ((N.filter (· ≠ t)).filter fun j => decide (b.l j ≤ b.c t))
          = ((N.filter (· ≠ t)).filter fun j => decide (a.l j ≤ a.c t)) := by
        apply List.filter_congr
        intro j hj
        have hj := (List.mem_filter.1 hj).1
        rw [hl j hj, hc t ht.1]
      rw [this]
    by_cases he : Enough N v1 t
    · refine .inl ⟨t, t2, hl2, ?_, (enough_eq e2 c2).2 he⟩
      obtain ⟨x, hx⟩ := n1 t ht.1
      exact (nt q1 ht.1 hx).2.2 (.inl ⟨(hx.keep w1 ht.1 t1 (l1 t ht.1)).trans hl, .inl he⟩)
    · refine .inr ?_
      -- the owner of the top ballot is not happy once those who know more are not
      have owner : ∀ {a b : V}, WF cid N a → Next N a b → ¬ Takes N a b → Top N a t → (∀ i ∈ N, a.c t ≤ a.l i) →
          a.l t = a.c t → ¬ Enough N a t → (∀ i ∈ N, a.c t < a.l i → a.h i = false) → b.h t = false := by
        intro a b wa n q ta la hla hea hpa
        obtain ⟨x, hx⟩ := n t ta.1
        have ex := (hx.keep wa ta.1 ta (la t ta.1)).trans hla
        have : ¬ Glad N a t x := by
          rintro (⟨-, he | ⟨j, hj, -, hlt, hh⟩⟩ | ⟨hne, -⟩)
          · exact hea he
          · rw [hpa j hj hlt] at hh; simp at hh
          · exact hne ex
        cases hb : b.h t with
        | false => rfl
        | true => exact absurd ((nt q ta.1 hx).2.1 hb) this
      have back2 : ∀ i ∈ N, v2.c t < v2.l i → v2.h i = false := fun i hi hlt =>
        p2 i hi (by rw [← e2 i hi, ← c2 t ht.1]; exact hlt)
      have back3 : ∀ i ∈ N, v3.c t < v3.l i → v3.h i = false := fun i hi hlt =>
        p3 i hi (by rw [← e3 i hi, ← c3 t ht.1]; exact hlt)
      have he2 : ¬ Enough N v2 t := fun h => he ((enough_eq e2 c2).1 h)
      have he3 : ¬ Enough N v3 t := fun h => he2 ((enough_eq e3 c3).1 h)
      have hh3 := owner w2 n2 q2 t2 l2 hl2 he2 back2
      have hh4 := owner w3 n3 q3 t3 l3 hl3 he3 back3
      intro i hi
      by_cases hit : i = t
      · subst hit; exact hh4
      · rcases split i hi with hi' | hi'
        · exact p4 i hi (by rw [e3 i hi, e2 i hi, c3 t ht.1, c2 t ht.1]; exact hi')
        · exact follower w3 n3 q3 t3 l3 hh3 i hi hit (by rw [e3 i hi, e2 i hi, c3 t ht.1, c2 t ht.1]; exact hi')

/-- Sooner or later somebody is stable. -/
theorem converges {w : Nat → V} (hn : ∀ t, Next N (w t) (w (t + 1))) :
    ∀ (d t : Nat), WF cid N (w t) → Gap N (w t) d → ∃ t', t ≤ t' ∧ t' ≤ t + 5 * (d + 1) ∧ ∃ k, Stable N (w t') k := by
  intro d
  induction d with
  | zero =>
    intro t hw hg
    have hws : ∀ x, WF cid N (w (t + x)) := fun x => by
      induction x with
      | zero => exact hw
      | succ x ih => exact (hn (t + x)).wf ih
    have hgs : ∀ x, Gap N (w (t + x)) 0 := fun x => by
      induction x with
      | zero => exact hg
      | succ x ih => exact ((hn (t + x)).gap (hws x) ih).1
    have hx : ∀ x, x ≤ 3 → Takes N (w (t + x)) (w (t + x + 1)) →
        ∃ t', t ≤ t' ∧ t' ≤ t + 5 * (0 + 1) ∧ ∃ k, Stable N (w t') k := by
      intro x hx3 hT
      rcases ((hn (t + x)).gap (hws x) (hgs x)).2 hT with ⟨d', e, -⟩ | ⟨k, hk, hl⟩
      · omega
      · exact ⟨t + x + 2, by omega, by omega, ((hn (t + x + 1)).nophantom (hws (x + 1)) hk hl).imp fun _ h => h.1⟩
    by_cases h0 : Takes N (w (t + 0)) (w (t + 0 + 1))
    · exact hx 0 (by omega) h0
    by_cases h1 : Takes N (w (t + 1)) (w (t + 1 + 1))
    · exact hx 1 (by omega) h1
    by_cases h2 : Takes N (w (t + 2)) (w (t + 2 + 1))
    · exact hx 2 (by omega) h2
    by_cases h3 : Takes N (w (t + 3)) (w (t + 3 + 1))
    · exact hx 3 (by omega) h3
    rcases quiet hw (hn t) (hn (t + 1)) (hn (t + 2)) (hn (t + 3)) h0 h1 h2 h3 with hs | hu
    · exact ⟨t + 2, by omega, by omega, hs⟩
    · exact ⟨t + 5, by omega, by omega, (hn (t + 4)).unhappy (hws 4) hu⟩
  | succ d ih =>
    intro t hw hg
    have hws : ∀ x, WF cid N (w (t + x)) := fun x => by
      induction x with
      | zero => exact hw
      | succ x ih => exact (hn (t + x)).wf ih
    have hgs : ∀ x, Gap N (w (t + x)) (d + 1) := fun x => by
      induction x with
      | zero => exact hg
      | succ x ih => exact ((hn (t + x)).gap (hws x) ih).1
    have hx : ∀ x, x ≤ 3 → Takes N (w (t + x)) (w (t + x + 1)) →
        ∃ t', t ≤ t' ∧ t' ≤ t + 5 * (d + 1 + 1) ∧ ∃ k, Stable N (w t') k := by
      intro x hx3 hT
      rcases ((hn (t + x)).gap (hws x) (hgs x)).2 hT with ⟨d', e, hg'⟩ | ⟨k, hk, hl⟩
      · obtain rfl : d = d' := by omega
        obtain ⟨t', h1, h2, h3⟩ := ih (t + x + 1) (hws (x + 1)) hg'
        exact ⟨t', by omega, by omega, h3⟩
      · exact ⟨t + x + 2, by omega, by omega, ((hn (t + x + 1)).nophantom (hws (x + 1)) hk hl).imp fun _ h => h.1⟩
    by_cases h0 : Takes N (w (t + 0)) (w (t + 0 + 1))
    · exact hx 0 (by omega) h0
    by_cases h1 : Takes N (w (t + 1)) (w (t + 1 + 1))
    · exact hx 1 (by omega) h1
    by_cases h2 : Takes N (w (t + 2)) (w (t + 2 + 1))
    · exact hx 2 (by omega) h2
    by_cases h3 : Takes N (w (t + 3)) (w (t + 3 + 1))
    · exact hx 3 (by omega) h3
    rcases quiet hw (hn t) (hn (t + 1)) (hn (t + 2)) (hn (t + 3)) h0 h1 h2 h3 with hs | hu
    · exact ⟨t + 2, by omega, by omega, hs⟩
    · exact ⟨t + 5, by omega, by omega, (hn (t + 4)).unhappy (hws 4) hu⟩

end Rounds
end Omni
