import Verif.Proof.Rounds
/-
Election in synchronous rounds where only some of the servers hear each other. As in `Rounds`, the round is first reduced to the
own ballots, the known leaders and the happiness of the servers.
-/
namespace Omni
namespace Links
open Rounds

/-- The peers that `i` hears. -/
def nb (link : NodeId → NodeId → Bool) (N : List NodeId) (i : NodeId) : List NodeId := (N.filter (· ≠ i)).filter (link i)

theorem mem_nb {link : NodeId → NodeId → Bool} {N : List NodeId} {i j : NodeId} :
    j ∈ nb link N i ↔ j ∈ N ∧ j ≠ i ∧ link i j = true := by
  simp [nb, and_assoc, and_comm (a := link i j = true)]

/-- `k` of the peers that `i` hears, counting `i` itself, know no larger leader than the own ballot of `i`. -/
def Enough (link : NodeId → NodeId → Bool) (N : List NodeId) (k : Nat) (v : V) (i : NodeId) : Prop :=
  k ≤ ((nb link N i).filter fun j => decide (v.l j ≤ v.c i)).length + 1

/-- `i` finds itself happy, when it knows the leader `x` and needs `k` servers. -/
def Glad (link : NodeId → NodeId → Bool) (N : List NodeId) (k : Nat) (v : V) (i : NodeId) (x : Ballot) : Prop :=
  (x = v.c i ∧ (Enough link N k v i ∨ ∃ j ∈ nb link N i, v.c i < v.l j ∧ v.h j = true)) ∨
  (x ≠ v.c i ∧ ∃ j ∈ nb link N i, v.c j = x ∧ v.h j = true)

/-- What happens to server `i` in a round, when `x` is the largest of the leader it knew and the ballots it hears of. `p` servers
are needed for a takeover, `k` to stay happy. -/
structure Next1 (link : NodeId → NodeId → Bool) (N : List NodeId) (p k : Nat) (v v' : V) (i : NodeId) (x : Ballot) : Prop where
  old : v.l i ≤ x
  all : ∀ j ∈ nb link N i, v.c j ≤ x
  from_ : x = v.l i ∨ ∃ j ∈ nb link N i, x = v.c j
  out : (Glad link N k v i x ∧ v'.c i = v.c i ∧ v'.l i = x ∧ v'.h i = true) ∨
    (¬ Glad link N k v i x ∧ ((∀ j ∈ nb link N i, v.h j = false) ∧ p ≤ (nb link N i).length + 1) ∧
      v'.c i = { v.c i with n := x.n + 1 } ∧ v'.l i = v'.c i ∧ v'.h i = true) ∨
    (¬ Glad link N k v i x ∧ ¬ ((∀ j ∈ nb link N i, v.h j = false) ∧ p ≤ (nb link N i).length + 1) ∧
      v'.c i = v.c i ∧ v'.l i = x ∧ v'.h i = false)

/-- `p`: size of the prepare quorums; `a`: of the accept quorums; `acc i`: server `i` counts accept quorums in this round. -/
def Next (link : NodeId → NodeId → Bool) (N : List NodeId) (p a : Nat) (acc : NodeId → Bool) (v v' : V) : Prop :=
  ∀ i ∈ N, ∃ x, Next1 link N p (if acc i then a else p) v v' i x

variable {link : NodeId → NodeId → Bool} {cid : Nat} {N : List NodeId} {p a k : Nat} {acc : NodeId → Bool} {v v' : V}

theorem Next1.cfg (h : WF cid N v) {i : NodeId} {x : Ballot} (hi : i ∈ N) (hx : Next1 link N p k v v' i x) :
    x.config_id = cid := by
  rcases hx.from_ with e | ⟨j, hj, e⟩
  · rw [e]; exact h.leader i hi
  · rw [e]; exact (h.own j (mem_nb.1 hj).1).2

theorem Next1.own (h : WF cid N v) {i : NodeId} {x : Ballot} (hi : i ∈ N) (hx : Next1 link N p k v v' i x) : v.c i ≤ x :=
  Ballot.le_trans (h.le i hi) hx.old

theorem Next.wf (h : WF cid N v) (hn : Next link N p a acc v v') : WF cid N v' := by
  refine ⟨h.nodup, h.two, fun i hi => ?_, fun i hi => ?_, fun i hi => ?_⟩
  · obtain ⟨x, hx⟩ := hn i hi
    rcases hx.out with ⟨-, e, -⟩ | ⟨-, -, e, -⟩ | ⟨-, -, e, -⟩ <;> rw [e] <;> exact h.own i hi
  · obtain ⟨x, hx⟩ := hn i hi
    rcases hx.out with ⟨-, -, e, -⟩ | ⟨-, -, e, e', -⟩ | ⟨-, -, -, e, -⟩
    · rw [e]; exact hx.cfg h hi
    · rw [e', e]; exact (h.own i hi).2
    · rw [e]; exact hx.cfg h hi
  · obtain ⟨x, hx⟩ := hn i hi
    rcases hx.out with ⟨-, e, e', -⟩ | ⟨-, -, -, e, -⟩ | ⟨-, -, e, e', -⟩
    · rw [e, e']; exact hx.own h hi
    · rw [e]; exact Ballot.le_refl _
    · rw [e, e']; exact hx.own h hi

/-- Nobody gets beyond the ballot number `T`: whoever knows a leader with that number hears its owner (or owns it), and is happy. -/
structure Ceil (link : NodeId → NodeId → Bool) (N : List NodeId) (p T : Nat) (v : V) : Prop where
  le : ∀ i ∈ N, (v.l i).n ≤ T
  owner : ∀ i ∈ N, (v.l i).n = T → ∃ j ∈ N, (j = i ∨ j ∈ nb link N i) ∧ v.c j = v.l i
  glad : ∀ i ∈ N, (v.l i).n = T → v.h i = true
  many : ∀ i ∈ N, (v.c i).n = T → p ≤ (nb link N i).length + 1

/-- If not enough of the others know no larger leader, somebody does. -/
theorem exists_larger {i : NodeId} (hp : k ≤ (nb link N i).length + 1) (he : ¬ Enough link N k v i) :
    ∃ j ∈ nb link N i, v.c i < v.l j := by
  apply Decidable.byContradiction
  intro hne
  apply he
  unfold Enough
  rw [List.filter_eq_self.2]
  · exact hp
  · intro j hj
    refine decide_eq_true ?_
    rcases Ballot.lt_or_le (v.c i) (v.l j) with h' | h'
    · exact absurd ⟨j, hj, h'⟩ hne
    · exact h'

theorem Ceil.next {T : Nat} (h : WF cid N v) (hap : a ≤ p) (hc : Ceil link N p T v) (hn : Next link N p a acc v v') :
    Ceil link N p T v' := by
  -- a server that knows a leader with number `T` stays happy and keeps its ballot
  have key : ∀ i ∈ N, ∀ x, Next1 link N p (if acc i then a else p) v v' i x →
      x.n ≤ T ∧ (x.n = T → v'.c i = v.c i ∧ v'.l i = x ∧ v'.h i = true ∧
        ∃ j ∈ N, (j = i ∨ j ∈ nb link N i) ∧ v.c j = x) := by
    intro i hi x hx
    have hxT : x.n ≤ T := by
      rcases hx.from_ with e | ⟨j, hj, e⟩
      · rw [e]; exact hc.le i hi
      · rw [e]; exact Nat.le_trans (Ballot.n_mono (h.le j (mem_nb.1 hj).1)) (hc.le j (mem_nb.1 hj).1)
    refine ⟨hxT, fun hT => ?_⟩
    have hown : ∃ j ∈ N, (j = i ∨ j ∈ nb link N i) ∧ v.c j = x := by
      rcases hx.from_ with e | ⟨j, hj, e⟩
      · obtain ⟨j, hj, h1, h2⟩ := hc.owner i hi (by rw [← e]; exact hT)
        exact ⟨j, hj, h1, h2.trans e.symm⟩
      · exact ⟨j, (mem_nb.1 hj).1, .inr hj, e.symm⟩
    have hg : Glad link N (if acc i then a else p) v i x := by
      by_cases hxi : x = v.c i
      · refine .inl ⟨hxi, ?_⟩
        by_cases he : Enough link N (if acc i then a else p) v i
        · exact .inl he
        · have hm := hc.many i hi (by rw [← hxi]; exact hT)
          obtain ⟨j, hj, hlt⟩ := exists_larger (by split <;> omega) he
          refine .inr ⟨j, hj, hlt, hc.glad j (mem_nb.1 hj).1 ?_⟩
          have h1 := Ballot.n_mono (Ballot.le_of_lt hlt)
          have h2 := hc.le j (mem_nb.1 hj).1
          rw [← hxi, hT] at h1
          omega
      · obtain ⟨j, hj, h1, h2⟩ := hown
        rcases h1 with rfl | h1
        · exact absurd h2.symm hxi
        · refine .inr ⟨hxi, j, h1, h2, hc.glad j hj ?_⟩
          have h3 := Ballot.n_mono (h.le j hj)
          have h4 := hc.le j hj
          rw [h2, hT] at h3
          omega
    rcases hx.out with ⟨-, e1, e2, e3⟩ | ⟨hg', -⟩ | ⟨hg', -⟩
    · exact ⟨e1, e2, e3, hown⟩
    · exact absurd hg hg'
    · exact absurd hg hg'
  have keepc : ∀ j ∈ N, (v.c j).n = T → v'.c j = v.c j := by
    intro j hj hT
    obtain ⟨x, hx⟩ := hn j hj
    have k1 := key j hj x hx
    have h1 := Ballot.n_mono (hx.own h hj)
    exact (k1.2 (by omega)).1
  refine ⟨fun i hi => ?_, fun i hi hT => ?_, fun i hi hT => ?_, fun i hi hT => ?_⟩
  · obtain ⟨x, hx⟩ := hn i hi
    have k1 := key i hi x hx
    by_cases hT : x.n = T
    · rw [(k1.2 hT).2.1]; exact k1.1
    · rcases hx.out with ⟨-, -, e, -⟩ | ⟨-, -, e, e', -⟩ | ⟨-, -, -, e, -⟩
      · rw [e]; exact k1.1
      · rw [e', e]; show x.n + 1 ≤ T; omega
      · rw [e]; exact k1.1
  · obtain ⟨x, hx⟩ := hn i hi
    have k1 := key i hi x hx
    by_cases hxT : x.n = T
    · obtain ⟨-, e2, -, j, hj, h1, h2⟩ := k1.2 hxT
      refine ⟨j, hj, h1, ?_⟩
      rw [keepc j hj (by rw [h2]; exact hxT), h2, e2]
    · rcases hx.out with ⟨-, -, e, -⟩ | ⟨-, -, -, e', -⟩ | ⟨-, -, -, e, -⟩
      · rw [e] at hT; exact absurd hT hxT
      · exact ⟨i, hi, .inl rfl, e'.symm⟩
      · rw [e] at hT; exact absurd hT hxT
  · obtain ⟨x, hx⟩ := hn i hi
    have k1 := key i hi x hx
    by_cases hxT : x.n = T
    · exact (k1.2 hxT).2.2.1
    · rcases hx.out with ⟨-, -, e, -⟩ | ⟨-, -, -, -, e'⟩ | ⟨-, -, -, e, -⟩
      · rw [e] at hT; exact absurd hT hxT
      · exact e'
      · rw [e] at hT; exact absurd hT hxT
  · obtain ⟨x, hx⟩ := hn i hi
    have k1 := key i hi x hx
    rcases hx.out with ⟨-, e, -⟩ | ⟨-, ⟨-, e⟩, -⟩ | ⟨-, -, e, -⟩
    · rw [e] at hT; exact hc.many i hi hT
    · exact e
    · rw [e] at hT; exact hc.many i hi hT

theorem exists_ceil (v : V) : ∃ T, Ceil link N p T v ∧ ∀ i ∈ N, (v.c i).n < T ∧ (v.l i).n < T := by
  have : ∀ L : List NodeId, ∃ d, ∀ i ∈ L, (v.c i).n < d ∧ (v.l i).n < d := by
    intro L
    induction L with
    | nil => exact ⟨0, by simp⟩
    | cons x L ih =>
      obtain ⟨d, hd⟩ := ih
      refine ⟨max d (max ((v.c x).n + 1) ((v.l x).n + 1)), fun i hi => ?_⟩
      rcases List.mem_cons.1 hi with rfl | hi
      · omega
      · have := hd i hi; omega
  obtain ⟨d, hd⟩ := this N
  refine ⟨d, ⟨fun i hi => Nat.le_of_lt (hd i hi).2, fun i hi h => ?_, fun i hi h => ?_, fun i hi h => ?_⟩, hd⟩ <;>
    have := hd i hi <;> omega

/-! ### Ballots stop changing -/

def total (N : List NodeId) (v : V) : Nat := (N.map fun i => (v.c i).n).sum

theorem total_mono {L : List NodeId} (hL : ∀ i ∈ L, (v.c i).n ≤ (v'.c i).n) :
    total L v ≤ total L v' ∧ (total L v = total L v' → ∀ i ∈ L, (v.c i).n = (v'.c i).n) := by
  induction L with
  | nil => simp [total]
  | cons x L ih =>
    have h1 := hL x (List.mem_cons_self ..)
    have h2 := ih fun i hi => hL i (List.mem_cons_of_mem _ hi)
    simp only [total, List.map_cons, List.sum_cons] at *
    refine ⟨by omega, fun e i hi => ?_⟩
    rcases List.mem_cons.1 hi with rfl | hi
    · omega
    · exact h2.2 (by omega) i hi

theorem total_le {T : Nat} {L : List NodeId} (hL : ∀ i ∈ L, (v.c i).n ≤ T) : total L v ≤ L.length * T := by
  induction L with
  | nil => simp [total]
  | cons x L ih =>
    have h1 := hL x (List.mem_cons_self ..)
    have h2 := ih fun i hi => hL i (List.mem_cons_of_mem _ hi)
    simp only [total, List.map_cons, List.sum_cons, List.length_cons, Nat.add_mul] at *
    omega

/-- A bounded sequence that never decreases is constant from some point on. -/
theorem eventually_constant {f : Nat → Nat} {B : Nat} (hm : ∀ t, f t ≤ f (t + 1)) (hb : ∀ t, f t ≤ B) :
    ∃ t0, ∀ t, t0 ≤ t → f t = f t0 := by
  have mono : ∀ t x, f t ≤ f (t + x) := by
    intro t x
    induction x with
    | zero => exact Nat.le_refl _
    | succ x ih => exact Nat.le_trans ih (hm (t + x))
  have : ∀ d t, B - f t = d → ∃ t0, ∀ t, t0 ≤ t → f t = f t0 := by
    intro d
    induction d using Nat.strongRecOn with
    | _ d ih =>
      intro t hd
      by_cases hc : ∀ t', t ≤ t' → f t' = f t
      · exact ⟨t, hc⟩
      · obtain ⟨t', hc⟩ := Classical.not_forall.1 hc
        obtain ⟨h1, h2⟩ := Classical.not_imp.1 hc
        obtain ⟨x, rfl⟩ : ∃ x, t' = t + x := ⟨t' - t, by omega⟩
        have h3 := mono t x
        have h4 := hb (t + x)
        have h5 := hb t
        exact ih (B - f (t + x)) (by omega) (t + x) rfl
  exact this _ 0 rfl

theorem Next.n_le (h : WF cid N v) (hn : Next link N p a acc v v') : ∀ i ∈ N, (v.c i).n ≤ (v'.c i).n ∧
    ((v.c i).n = (v'.c i).n → v'.c i = v.c i) := by
  intro i hi
  obtain ⟨x, hx⟩ := hn i hi
  have h1 := Ballot.n_mono (hx.own h hi)
  rcases hx.out with ⟨-, e, -⟩ | ⟨-, -, e, -⟩ | ⟨-, -, e, -⟩
  · rw [e]; exact ⟨Nat.le_refl _, fun _ => rfl⟩
  · rw [e]; exact ⟨by show (v.c i).n ≤ x.n + 1; omega, fun h' => by replace h' : (v.c i).n = x.n + 1 := h'; omega⟩
  · rw [e]; exact ⟨Nat.le_refl _, fun _ => rfl⟩

theorem ballots_settle {acc : Nat → NodeId → Bool} {w : Nat → V} (hap : a ≤ p) (hw : ∀ t, WF cid N (w t))
    (hn : ∀ t, Next link N p a (acc t) (w t) (w (t + 1))) :
    ∃ t0, ∀ t, t0 ≤ t → ∀ i ∈ N, (w t).c i = (w t0).c i := by
  obtain ⟨T, hT, -⟩ := exists_ceil (link := link) (N := N) (p := p) (w 0)
  have hc : ∀ t, Ceil link N p T (w t) := by
    intro t
    induction t with
    | zero => exact hT
    | succ t ih => exact ih.next (hw t) hap (hn t)
  obtain ⟨t0, h0⟩ := eventually_constant (f := fun t => total N (w t)) (B := N.length * T)
    (fun t => (total_mono fun i hi => ((hn t).n_le (hw t) i hi).1).1)
    (fun t => total_le fun i hi => Nat.le_trans (Ballot.n_mono ((hw t).le i hi)) ((hc t).le i hi))
  refine ⟨t0, fun t ht => ?_⟩
  obtain ⟨x, rfl⟩ : ∃ x, t = t0 + x := ⟨t - t0, by omega⟩
  clear ht
  induction x with
  | zero => intro i _; rfl
  | succ x ih =>
    intro i hi
    rw [← ih i hi]
    have e : total N (w (t0 + x)) = total N (w (t0 + x + 1)) := by
      have h1 := h0 (t0 + x) (by omega)
      have h2 := h0 (t0 + x + 1) (by omega)
      omega
    have hk := (hn (t0 + x)).n_le (hw (t0 + x))
    exact (hk i hi).2 ((total_mono fun i hi => (hk i hi).1).2 e i hi)

/-- A round in which no ballot changes. -/
theorem Next1.quiet {i : NodeId} {x : Ballot} (h : WF cid N v) (hi : i ∈ N) (hx : Next1 link N p k v v' i x)
    (hc : v'.c i = v.c i) : v'.l i = x ∧ (v'.h i = true ↔ Glad link N k v i x) ∧
    ¬ (¬ Glad link N k v i x ∧ (∀ j ∈ nb link N i, v.h j = false) ∧ p ≤ (nb link N i).length + 1) := by
  rcases hx.out with ⟨hg, -, e2, e3⟩ | ⟨-, -, e1, -⟩ | ⟨hg, hno, -, e2, e3⟩
  · exact ⟨e2, ⟨fun _ => hg, fun _ => e3⟩, fun h' => h'.1 hg⟩
  · exfalso
    rw [hc] at e1
    have e1 := congrArg Ballot.n e1
    have := Ballot.n_mono (hx.own h hi)
    simp only at e1
    omega
  · exact ⟨e2, ⟨fun hh => by rw [e3] at hh; simp at hh, fun hg' => absurd hg' hg⟩, fun h' => hno h'.2⟩

/-- How often one may ask whose happiness the happiness of `i` comes from. -/
def rank (N : List NodeId) (v : V) (i : NodeId) : Nat :=
  2 * (N.filter fun j => decide (v.l i < v.l j)).length + if v.l i = v.c i then 0 else 1

theorem count_lt {i j : NodeId} (hj : j ∈ N) (hlt : v.l i < v.l j) :
    (N.filter fun m => decide (v.l j < v.l m)).length < (N.filter fun m => decide (v.l i < v.l m)).length := by
  have hsub : ∀ L : List NodeId, (L.filter fun m => decide (v.l j < v.l m)).length
      ≤ (L.filter fun m => decide (v.l i < v.l m)).length := by
    intro L
    rw [← List.countP_eq_length_filter, ← List.countP_eq_length_filter]
    apply List.countP_mono_left
    intro m _ hm
    simp only [decide_eq_true_eq] at hm ⊢
    exact Ballot.lt_of_lt_of_le hlt (Ballot.le_of_lt hm)
  induction N with
  | nil => simp at hj
  | cons x N ih =>
    by_cases hx : x = j
    · subst hx
      rw [List.filter_cons_of_neg (by simp [Ballot.lt_irrefl]), List.filter_cons_of_pos (by simpa using hlt),
        List.length_cons]
      exact Nat.lt_succ_of_le (hsub N)
    · have hj' : j ∈ N := by
        rcases List.mem_cons.1 hj with h' | h'
        · exact absurd h'.symm hx
        · exact h'
      have h1 := ih hj'
      by_cases hd : v.l j < v.l x
      · rw [List.filter_cons_of_pos (by simpa using hd),
          List.filter_cons_of_pos (by simpa using Ballot.lt_of_lt_of_le hlt (Ballot.le_of_lt hd)), List.length_cons,
          List.length_cons]
        omega
      · rw [List.filter_cons_of_neg (by simpa using hd)]
        by_cases hi : v.l i < v.l x
        · rw [List.filter_cons_of_pos (by simpa using hi), List.length_cons]; omega
        · rw [List.filter_cons_of_neg (by simpa using hi)]; exact h1

theorem rank_lt (h : WF cid N v) {i : NodeId} (hi : i ∈ N) (he : ¬ (v.l i = v.c i ∧ Enough link N k v i))
    (hg : Glad link N k v i (v.l i)) : ∃ j ∈ N, v.h j = true ∧ rank N v j < rank N v i := by
  rcases hg with ⟨e, h1 | ⟨j, hj, hlt, hh⟩⟩ | ⟨hne, j, hj, e, hh⟩
  · exact absurd ⟨e, h1⟩ he
  · have hjN := (mem_nb.1 hj).1
    refine ⟨j, hjN, hh, ?_⟩
    have h2 := count_lt (i := i) hjN (by rw [e]; exact hlt)
    unfold rank
    rw [if_pos e]
    split <;> omega
  · have hjN := (mem_nb.1 hj).1
    refine ⟨j, hjN, hh, ?_⟩
    unfold rank
    rw [if_neg hne]
    rcases Ballot.lt_or_le (v.l i) (v.l j) with h' | h'
    · have h2 := count_lt hjN h'
      split <;> omega
    · have e' : v.l j = v.l i := by
        refine Ballot.le_antisymm ((h.leader j hjN).trans (h.leader i hi).symm) h' ?_
        rw [← e]; exact h.le j hjN
      rw [e', if_pos e.symm]
      omega

theorem rank_le (i : NodeId) : rank N v i ≤ 2 * N.length + 1 := by
  unfold rank
  have := List.length_filter_le (fun j => decide (v.l i < v.l j)) N
  split <;> omega

/-- Eventually everywhere, for finitely many servers. -/
theorem eventually_all {P : Nat → NodeId → Prop} (L : List NodeId) (hL : ∀ i ∈ L, ∃ t0, ∀ t, t0 ≤ t → P t i) :
    ∃ t0, ∀ t, t0 ≤ t → ∀ i ∈ L, P t i := by
  induction L with
  | nil => exact ⟨0, by simp⟩
  | cons x L ih =>
    obtain ⟨t1, h1⟩ := ih fun i hi => hL i (List.mem_cons_of_mem _ hi)
    obtain ⟨t2, h2⟩ := hL x (List.mem_cons_self ..)
    refine ⟨max t1 t2, fun t ht i hi => ?_⟩
    rcases List.mem_cons.1 hi with rfl | hi
    · exact h2 t (by omega)
    · exact h1 t (by omega) i hi

/-- Once somebody hears enough servers: ballots and known leaders stop changing, and there is a server that takes itself for the
leader and has enough servers that know no larger one. -/
theorem settles {acc : Nat → NodeId → Bool} {w : Nat → V} (hap : a ≤ p) (hw : ∀ t, WF cid N (w t))
    (hn : ∀ t, Next link N p a (acc t) (w t) (w (t + 1))) (hq : ∃ q ∈ N, p ≤ (nb link N q).length + 1) :
    ∃ t0, (∀ t, t0 ≤ t → ∀ i ∈ N, (w t).c i = (w t0).c i ∧ (w t).l i = (w t0).l i ∧
        (∀ j ∈ nb link N i, (w t).c j ≤ (w t).l i) ∧
        ((w (t + 1)).h i = true ↔ Glad link N (if acc t i then a else p) (w t) i ((w t).l i))) ∧
      ∃ ℓ ∈ N, (w t0).l ℓ = (w t0).c ℓ ∧
        (Enough link N p (w t0) ℓ ∨ (Enough link N a (w t0) ℓ ∧ ∀ t1, ∃ t, t1 ≤ t ∧ acc t ℓ = true)) := by
  obtain ⟨tc, hcc⟩ := ballots_settle hap hw hn
  have hstep : ∀ t, tc ≤ t → ∀ i ∈ N, (w (t + 1)).c i = (w t).c i := fun t ht i hi =>
    (hcc (t + 1) (by omega) i hi).trans (hcc t ht i hi).symm
  -- after one more round everybody knows the ballots it hears of
  have hl : ∀ t, tc + 1 ≤ t → ∀ i ∈ N, ∀ j ∈ nb link N i, (w t).c j ≤ (w t).l i := by
    intro t ht i hi j hj
    obtain ⟨u, rfl⟩ : ∃ u, t = u + 1 := ⟨t - 1, by omega⟩
    obtain ⟨x, hx⟩ := hn u i hi
    rw [(hx.quiet (hw u) hi (hstep u (by omega) i hi)).1, hstep u (by omega) j (mem_nb.1 hj).1]
    exact hx.all j hj
  have hx : ∀ t, tc + 1 ≤ t → ∀ i ∈ N, Next1 link N p (if acc t i then a else p) (w t) (w (t + 1)) i ((w t).l i) := by
    intro t ht i hi
    obtain ⟨x, hx⟩ := hn t i hi
    have e : x = (w t).l i := by
      refine Ballot.le_antisymm ((hx.cfg (hw t) hi).trans ((hw t).leader i hi).symm) ?_ hx.old
      rcases hx.from_ with e | ⟨j, hj, e⟩
      · rw [e]; exact Ballot.le_refl _
      · rw [e]; exact hl t ht i hi j hj
    rw [← e]; exact hx
  have hlc : ∀ x, ∀ i ∈ N, (w (tc + 1 + x)).l i = (w (tc + 1)).l i := by
    intro x
    induction x with
    | zero => intro i _; rfl
    | succ x ih =>
      intro i hi
      rw [← ih i hi]
      exact ((hx (tc + 1 + x) (by omega) i hi).quiet (hw _) hi (hstep _ (by omega) i hi)).1
  have hall : ∀ t, tc + 1 ≤ t → ∀ i ∈ N, (w t).c i = (w (tc + 1)).c i ∧ (w t).l i = (w (tc + 1)).l i := by
    intro t ht i hi
    refine ⟨(hcc t (by omega) i hi).trans (hcc (tc + 1) (by omega) i hi).symm, ?_⟩
    obtain ⟨x, rfl⟩ : ∃ x, t = tc + 1 + x := ⟨t - (tc + 1), by omega⟩
    exact hlc x i hi
  have hE : ∀ m t, tc + 1 ≤ t → ∀ i ∈ N, (Enough link N m (w t) i ↔ Enough link N m (w (tc + 1)) i) := by
    intro m t ht i hi
    unfold Enough
    have : ((nb link N i).filter fun j => decide ((w t).l j ≤ (w t).c i))
        = ((nb link N i).filter fun j => decide ((w (tc + 1)).l j ≤ (w (tc + 1)).c i)) := by
      apply List.filter_congr
      intro j hj
      rw [(hall t ht j (mem_nb.1 hj).1).2, (hall t ht i hi).1]
    rw [this]
  have hrank : ∀ t, tc + 1 ≤ t → ∀ i ∈ N, rank N (w t) i = rank N (w (tc + 1)) i := by
    intro t ht i hi
    unfold rank
    rw [(hall t ht i hi).1, (hall t ht i hi).2]
    have : (N.filter fun j => decide ((w (tc + 1)).l i < (w t).l j))
        = (N.filter fun j => decide ((w (tc + 1)).l i < (w (tc + 1)).l j)) := by
      apply List.filter_congr
      intro j hj
      rw [(hall t ht j hj).2]
    rw [this]
  refine ⟨tc + 1, fun t ht i hi => ⟨(hall t ht i hi).1, (hall t ht i hi).2, hl t ht i hi,
    ((hx t ht i hi).quiet (hw t) hi (hstep t (by omega) i hi)).2.1⟩, ?_⟩
  -- otherwise nobody is happy in the end, and whoever hears enough servers takes over
  apply Classical.byContradiction
  intro hno
  have hnone : ∃ t0, ∀ t, t0 ≤ t → ∀ i ∈ N,
      ¬ ((w (tc + 1)).l i = (w (tc + 1)).c i ∧ Enough link N (if acc t i then a else p) (w (tc + 1)) i) := by
    apply eventually_all
    intro i hi
    by_cases hli : (w (tc + 1)).l i = (w (tc + 1)).c i
    · have h1 : ¬ Enough link N p (w (tc + 1)) i := fun h' => hno ⟨i, hi, hli, .inl h'⟩
      by_cases h2 : Enough link N a (w (tc + 1)) i
      · have h3 : ¬ ∀ t1, ∃ t, t1 ≤ t ∧ acc t i = true := fun h' => hno ⟨i, hi, hli, .inr ⟨h2, h'⟩⟩
        obtain ⟨t1, h3⟩ := Classical.not_forall.1 h3
        refine ⟨t1, fun t ht h' => ?_⟩
        rw [if_neg (fun hacc => h3 ⟨t, ht, hacc⟩)] at h'
        exact h1 h'.2
      · refine ⟨0, fun t _ h' => ?_⟩
        have := h'.2
        split at this
        · exact h2 this
        · exact h1 this
    · exact ⟨0, fun t _ h' => hli h'.1⟩
  obtain ⟨t1, ht1⟩ := hnone
  let t2 := max t1 (tc + 1)
  have h21 : t1 ≤ t2 := Nat.le_max_left ..
  have h22 : tc + 1 ≤ t2 := Nat.le_max_right ..
  have hnb : ∀ t, t2 ≤ t → ∀ i ∈ N, ¬ ((w t).l i = (w t).c i ∧ Enough link N (if acc t i then a else p) (w t) i) := by
    intro t ht i hi h'
    refine ht1 t (by omega) i hi ⟨?_, (hE _ t (by omega) i hi).1 h'.2⟩
    rw [← (hall t (by omega) i hi).1, ← (hall t (by omega) i hi).2]
    exact h'.1
  have hdeep : ∀ m, ∀ i ∈ N, (w (t2 + m)).h i = true → m ≤ rank N (w (tc + 1)) i := by
    intro m
    induction m with
    | zero => intro i _ _; exact Nat.zero_le _
    | succ m ih =>
      intro i hi hh
      have hq := (hx (t2 + m) (by omega) i hi).quiet (hw _) hi (hstep _ (by omega) i hi)
      obtain ⟨j, hj, hjh, hlt⟩ := rank_lt (hw _) hi (hnb (t2 + m) (by omega) i hi) (hq.2.1.1 hh)
      rw [hrank _ (by omega) j hj, hrank _ (by omega) i hi] at hlt
      have := ih j hj hjh
      omega
  let t3 := t2 + (2 * N.length + 2)
  have hun : ∀ i ∈ N, (w t3).h i = false := by
    intro i hi
    cases hh : (w t3).h i with
    | false => rfl
    | true =>
      have h1 := hdeep _ i hi hh
      have h2 := rank_le (N := N) (v := w (tc + 1)) i
      omega
  obtain ⟨q, hqN, hq⟩ := hq
  have hqq := (hx t3 (by omega) q hqN).quiet (hw _) hqN (hstep _ (by omega) q hqN)
  refine hqq.2.2 ⟨?_, fun j hj => hun j (mem_nb.1 hj).1, hq⟩
  intro hg
  obtain ⟨j, hj, hjh, -⟩ := rank_lt (hw _) hqN (hnb t3 (by omega) q hqN) hg
  rw [hun j hj] at hjh
  simp at hjh

end Links
end Omni
