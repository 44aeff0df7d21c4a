import Verif.Proof.Safety.Ghost
/-
How one server changes the history (`Step`), and the five kinds of changes there are.
-/
namespace Omni

variable {E : Type}

/-- Everything recorded stays recorded. -/
structure Mono (G G' : Ghost E) : Prop where
  acc : ∀ j b l, G.acc j b = some l → ∃ l', G'.acc j b = some l' ∧ l ≤ l'
  prec : ∀ j b r, G.prec j b = some r → G'.prec j b = some r
  init : ∀ b l, G.init b = some l → G'.init b = some l
  dead : ∀ b F s, G.dead b F s → G'.dead b F s

theorem Mono.refl (G : Ghost E) : Mono G G :=
  ⟨fun _ _ l h => ⟨l, h, Lg.le_refl l⟩, fun _ _ _ h => h, fun _ _ h => h, fun _ _ _ h => h⟩

theorem Mono.trans {G G' G'' : Ghost E} (h : Mono G G') (h' : Mono G' G'') : Mono G G'' :=
  ⟨fun j b l hl => by
    obtain ⟨l1, h1, h2⟩ := h.acc j b l hl
    obtain ⟨l2, h3, h4⟩ := h'.acc j b l1 h1
    exact ⟨l2, h3, Lg.le_trans h2 h4⟩,
   fun j b r hr => h'.prec j b r (h.prec j b r hr), fun b l hl => h'.init b l (h.init b l hl),
   fun b F s hs => h'.dead b F s (h.dead b F s hs)⟩

theorem Mono.acc_ne {G G' : Ghost E} (h : Mono G G') {j : NodeId} {b : Ballot} (hn : G.acc j b ≠ none) :
    G'.acc j b ≠ none := by
  cases hx : G.acc j b with
  | none => exact absurd hx hn
  | some l => obtain ⟨l', h1, -⟩ := h.acc j b l hx; rw [h1]; simp

theorem Mono.prec_ne {G G' : Ghost E} (h : Mono G G') {j : NodeId} {b : Ballot} (hn : G.prec j b ≠ none) :
    G'.prec j b ≠ none := by
  cases hx : G.prec j b with
  | none => exact absurd hx hn
  | some l => rw [h.prec j b l hx]; simp

/-- `F` has promised a ballot above `n`. -/
def Ghost.Gone (G : Ghost E) (n : Ballot) (F : NodeId) : Prop := ∃ b, n < b ∧ G.prec F b ≠ none

theorem Ghost.Gone.mono {G G' : Ghost E} {n : Ballot} {F : NodeId} (h : G.Gone n F) (hM : Mono G G') : G'.Gone n F := by
  obtain ⟨b, h1, h2⟩ := h
  exact ⟨b, h1, hM.prec_ne h2⟩

theorem SeqNum.session_le {q q' : SeqNum} (h : q ≤ q') : q.session ≤ q'.session := by
  simp only [SeqNum.le_def] at h
  omega

/-- What a call may do to the history. -/
structure Allow where
  /-- accept messages the server may step to -/
  move : Ballot → SeqNum → Prop := fun _ _ => False
  /-- sessions that may die -/
  die : Ballot → NodeId → Nat → Prop := fun _ _ _ => False

instance : CoeFun Allow fun _ => Ballot → SeqNum → Prop := ⟨Allow.move⟩

/-- What a change of the history by server `i` means for the others. -/
structure Quiet (i : NodeId) (allow : Allow) (G G' : Ghost E) : Prop extends Mono G G' where
  acc_o : ∀ j b, j ≠ i → G'.acc j b = G.acc j b
  prec_o : ∀ j b, j ≠ i → G'.prec j b = G.prec j b
  endf_o : ∀ n F q, n.pid ≠ i → G'.endf n F q = G.endf n F q
  endf_le : ∀ n F q, G.endf n F q ≤ G'.endf n F q
  endf_cur : ∀ n F q, q ≤ G.curg n F → G'.endf n F q = G.endf n F q
  cur_o : ∀ n F, F ≠ i → G'.curg n F = G.curg n F
  cur_le : ∀ n F, G.curg n F ≤ G'.curg n F
  cur_i : ∀ n, G'.curg n i = G.curg n i ∨ allow n (G'.curg n i)
  dead_n : ∀ b F s, G'.dead b F s → G.dead b F s ∨ (b.pid = i ∧ (G.curg b F).session < s ∧ allow.die b F s)
  mark : G'.mark = G.mark
  used : G.used ≤ G'.used

/-- Server `i` changes the history; it may move its own position in the sequence of accept messages only to `allow`. -/
structure Step (i : NodeId) (allow : Allow) (G G' : Ghost E) : Prop extends Quiet i allow G G' where
  hold_o : ∀ j, j ≠ i → G'.hold j = G.hold j
  hold_i : G'.hold i + G'.used ≤ G.hold i + G.used

theorem Step.refl (i : NodeId) (allow) (G : Ghost E) : Step i allow G G where
  toMono := Mono.refl G
  acc_o _ _ _ := rfl
  prec_o _ _ _ := rfl
  endf_o _ _ _ _ := rfl
  endf_le _ _ _ := Lg.le_refl _
  endf_cur _ _ _ _ := rfl
  cur_o _ _ _ := rfl
  cur_le _ _ := SeqNum.le_refl _
  cur_i _ := .inl rfl
  dead_n _ _ _ h := .inl h
  mark := rfl
  used := Nat.le_refl _
  hold_o _ _ := rfl
  hold_i := Nat.le_refl _

theorem Step.trans {i : NodeId} {allow} {G G' G'' : Ghost E} (h : Step i allow G G') (h' : Step i allow G' G'') :
    Step i allow G G'' where
  toMono := h.toMono.trans h'.toMono
  acc_o j b hj := (h'.acc_o j b hj).trans (h.acc_o j b hj)
  prec_o j b hj := (h'.prec_o j b hj).trans (h.prec_o j b hj)
  endf_o n F q hn := (h'.endf_o n F q hn).trans (h.endf_o n F q hn)
  endf_le n F q := Lg.le_trans (h.endf_le n F q) (h'.endf_le n F q)
  endf_cur n F q hq := (h'.endf_cur n F q (SeqNum.le_trans hq (h.cur_le n F))).trans (h.endf_cur n F q hq)
  cur_o n F hF := (h'.cur_o n F hF).trans (h.cur_o n F hF)
  cur_le n F := SeqNum.le_trans (h.cur_le n F) (h'.cur_le n F)
  cur_i n := by
    rcases h'.cur_i n with h1 | h1
    · rw [h1]; exact h.cur_i n
    · exact .inr h1
  dead_n b F s hs := by
    rcases h'.dead_n b F s hs with h1 | ⟨h1, h2, h3⟩
    · exact h.dead_n b F s h1
    · exact .inr ⟨h1, Nat.lt_of_le_of_lt (SeqNum.session_le (h.cur_le b F)) h2, h3⟩
  mark := h'.mark.trans h.mark
  used := Nat.le_trans h.used h'.used
  hold_o j hj := (h'.hold_o j hj).trans (h.hold_o j hj)
  hold_i := Nat.le_trans h'.hold_i h.hold_i

/-- Sessions of other leaders do not die. -/
theorem Quiet.live {i : NodeId} {allow} {G G' : Ghost E} (h : Quiet i allow G G') {n : Ballot} {F : NodeId} {s : Nat} (hn : n.pid ≠ i)
    (hl : ¬ G.dead n F s) : ¬ G'.dead n F s := fun hd => (h.dead_n n F s hd).elim hl fun hx => hn hx.1

namespace Ghost

/-- `i` has log `l` in ballot `n`, into which it put `k` counted entries. -/
def setAcc (G : Ghost E) (i : NodeId) (n : Ballot) (l : Lg E) (k : Nat) : Ghost E :=
  { G with
    acc := fun j b => if j = i ∧ b = n then some l else G.acc j b
    used := G.used + k
    hold := fun j => if j = i then G.hold i - k else G.hold j }

/-- Follower `i` has log `l` in ballot `n` after accept message `q`. -/
def follow (G : Ghost E) (i : NodeId) (n : Ballot) (l : Lg E) (q : SeqNum) : Ghost E :=
  { G with
    acc := fun j b => if j = i ∧ b = n then some l else G.acc j b
    curg := fun b F => if b = n ∧ F = i then q else G.curg b F }

/-- `i` promises `n`. -/
def promise (G : Ghost E) (i : NodeId) (n na : Ballot) (l : Lg E) : Ghost E :=
  { G with prec := fun j b => if j = i ∧ b = n then some (na, l) else G.prec j b }

/-- `i` starts ballot `n` with log `l`. -/
def start (G : Ghost E) (i : NodeId) (n : Ballot) (l : Lg E) : Ghost E :=
  { G with
    acc := fun j b => if j = i ∧ b = n then some l else G.acc j b
    init := fun b => if b = n then some l else G.init b }

/-- Session `s` of ballot `n` to `F` is dead if `D`. -/
def kill (G : Ghost E) (D : Prop) (n : Ballot) (F : NodeId) (s : Nat) : Ghost E :=
  { G with dead := fun b X t => (D ∧ b = n ∧ X = F ∧ t = s) ∨ G.dead b X t }

/-- From message `q` to `F` on, the log is `v`. -/
def bump (G : Ghost E) (n : Ballot) (F : NodeId) (q : SeqNum) (v : Lg E) : Ghost E :=
  { G with endf := fun b X q' => if b = n ∧ X = F ∧ q ≤ q' then v else G.endf b X q' }

variable {cc : ClusterConfig} {G : Ghost E} {i F : NodeId} {n na : Ballot} {l l' p v : Lg E} {q : SeqNum} {allow : Allow}

theorem setAcc_step {k : Nat} (h : ∀ x, G.acc i n = some x → x ≤ l) (hk : k ≤ G.hold i) : Step i allow G (G.setAcc i n l k) where
  acc j b x hx := by
    simp only [setAcc]
    split
    · rename_i hc; obtain ⟨rfl, rfl⟩ := hc; exact ⟨l, rfl, h x hx⟩
    · exact ⟨x, hx, Lg.le_refl x⟩
  prec _ _ _ h := h
  init _ _ h := h
  dead _ _ _ h := h
  acc_o j b hj := by simp [setAcc, hj]
  prec_o _ _ _ := rfl
  endf_o _ _ _ _ := rfl
  endf_le _ _ _ := Lg.le_refl _
  endf_cur _ _ _ _ := rfl
  cur_o _ _ _ := rfl
  cur_le _ _ := SeqNum.le_refl _
  cur_i _ := .inl rfl
  dead_n _ _ _ h := .inl h
  mark := rfl
  used := Nat.le_add_right _ _
  hold_o j hj := by simp [setAcc, hj]
  hold_i := by simp only [setAcc, if_true]; omega

theorem setAcc_abs {k : Nat} (h : Abs cc G) (hi : n.pid = i) (hn : n ≠ {}) (ha : G.acc i n = some l) (hl : l ≤ l')
    (hp : ∀ b, G.prec i b ≠ none → b ≤ n) (hk : G.count l'.es ≤ G.count l.es + k) : Abs cc (G.setAcc i n l' k) where
  good j b hb := by
    simp only [setAcc] at hb
    split at hb
    · rename_i hc; obtain ⟨rfl, rfl⟩ := hc; exact h.good j b (by rw [ha]; simp)
    · exact h.good j b hb
  base j := by
    simp only [setAcc]
    rw [if_neg (by rintro ⟨-, h⟩; exact hn h.symm)]
    exact h.base j
  prec j b m x hx := by
    obtain ⟨h1, h2, h3, h4⟩ := h.prec j b m x hx
    refine ⟨h1, h2, ?_, ?_⟩
    · simp only [setAcc]
      rw [if_neg]
      · exact h3
      · rintro ⟨rfl, rfl⟩
        have := hp b (by simp only [setAcc] at hx; rw [hx]; simp)
        exact Ballot.lt_irrefl _ (Ballot.lt_of_lt_of_le h2 this)
    · intro b' hb' hacc
      refine h4 b' hb' ?_
      simp only [setAcc] at hacc
      split at hacc
      · rename_i hc; obtain ⟨rfl, rfl⟩ := hc; rw [ha]; simp
      · exact hacc
  acc j b x hx hb := by
    simp only [setAcc] at hx ⊢
    split at hx
    · rename_i hc
      obtain ⟨rfl, rfl⟩ := hc
      simp at hx
      subst hx
      obtain ⟨h1, p, l0, h2, h3, h4, h5, h6⟩ := h.acc j b l ha hb
      refine ⟨h1, l', l0, by rw [if_pos ⟨hi, rfl⟩], h3, Lg.le_trans h4 hl, Lg.le_refl _, fun h => absurd hi.symm h⟩
    · obtain ⟨h1, p, l0, h2, h3, h4, h5, h6⟩ := h.acc j b x hx hb
      refine ⟨h1, ?_⟩
      by_cases hc : b.pid = i ∧ b = n
      · obtain ⟨hc, rfl⟩ := hc
        rw [hc] at h2
        rw [ha] at h2; simp at h2; subst h2
        exact ⟨l', l0, by rw [if_pos ⟨hc, rfl⟩], h3, h4, Lg.le_trans h5 hl, h6⟩
      · exact ⟨p, l0, by rw [if_neg hc]; exact h2, h3, h4, h5, h6⟩
  init b x hx := by
    obtain ⟨h1, h2⟩ := h.init b x hx
    refine ⟨?_, h2⟩
    simp only [setAcc]
    split
    · simp
    · exact h1
  lead := h.lead
  endMono := h.endMono
  endLe m F q x hx := by
    simp only [setAcc] at hx ⊢
    split at hx
    · rename_i hc
      obtain ⟨hc, rfl⟩ := hc
      simp at hx; subst hx
      exact Lg.le_trans (h.endLe m F q l (by rw [hi]; exact ha)) hl
    · exact h.endLe m F q x hx
  endNone m hm := by
    simp only [setAcc] at hm
    split at hm
    · simp at hm
    · exact h.endNone m hm
  cnt j b x hx := by
    simp only [setAcc] at hx ⊢
    split at hx
    · have := h.cnt i n l ha
      cases hx
      simp only [count] at *
      omega
    · exact Nat.le_trans (h.cnt j b x hx) (Nat.le_add_right _ _)
  deadAcc m F s hs := by
    simp only [setAcc]
    split
    · simp
    · exact h.deadAcc m F s hs

theorem follow_step (h : ∀ x, G.acc i n = some x → x ≤ l) (hq : G.curg n i ≤ q) (ha : allow n q) :
    Step i allow G (G.follow i n l q) where
  acc j b x hx := by
    simp only [follow]
    split
    · rename_i hc; obtain ⟨rfl, rfl⟩ := hc; exact ⟨l, rfl, h x hx⟩
    · exact ⟨x, hx, Lg.le_refl x⟩
  prec _ _ _ h := h
  init _ _ h := h
  dead _ _ _ h := h
  acc_o j b hj := by simp [follow, hj]
  prec_o _ _ _ := rfl
  endf_o _ _ _ _ := rfl
  endf_le _ _ _ := Lg.le_refl _
  endf_cur _ _ _ _ := rfl
  cur_o b F hF := by simp [follow, hF]
  cur_le b F := by
    simp only [follow]
    split
    · rename_i hc; obtain ⟨rfl, rfl⟩ := hc; exact hq
    · exact SeqNum.le_refl _
  cur_i b := by
    simp only [follow]
    split
    · rename_i hc; obtain ⟨rfl, -⟩ := hc; exact .inr ha
    · exact .inl rfl
  dead_n _ _ _ h := .inl h
  mark := rfl
  used := Nat.le_refl _
  hold_o _ _ := rfl
  hold_i := Nat.le_refl _

/-- A follower update that stays at the same message. -/
theorem follow_step' (h : ∀ x, G.acc i n = some x → x ≤ l) : Step i allow G (G.follow i n l (G.curg n i)) where
  toMono := (follow_step (allow := ⟨fun _ _ => True, fun _ _ _ => False⟩) h (SeqNum.le_refl _) trivial).toMono
  acc_o j b hj := by simp [follow, hj]
  prec_o _ _ _ := rfl
  endf_o _ _ _ _ := rfl
  endf_le _ _ _ := Lg.le_refl _
  endf_cur _ _ _ _ := rfl
  cur_o b F hF := by simp [follow, hF]
  cur_le b F := by
    simp only [follow]
    split
    · rename_i hc; obtain ⟨rfl, rfl⟩ := hc; exact SeqNum.le_refl _
    · exact SeqNum.le_refl _
  cur_i b := by
    simp only [follow]
    split
    · rename_i hc; obtain ⟨rfl, -⟩ := hc; exact .inl rfl
    · exact .inl rfl
  dead_n _ _ _ h := .inl h
  mark := rfl
  used := Nat.le_refl _
  hold_o _ _ := rfl
  hold_i := Nat.le_refl _

theorem follow_abs (h : Abs cc G) (hi : n.pid ≠ i) (hn : n ≠ {}) {l0 : Lg E} (h0 : G.init n = some l0) (hl0 : l0 ≤ l)
    (hold : ∀ x, G.acc i n = some x → x ≤ l)
    (hl : l ≤ G.endf n i q) (hpr : G.prec i n ≠ none) (hp : ∀ b, G.prec i b ≠ none → b ≤ n) :
    Abs cc (G.follow i n l q) where
  good j b hb := by
    simp only [follow] at hb
    split at hb
    · rename_i hc; obtain ⟨rfl, rfl⟩ := hc; exact h.precGood hpr
    · exact h.good j b hb
  base j := by
    simp only [follow]
    rw [if_neg (by rintro ⟨-, h⟩; exact hn h.symm)]
    exact h.base j
  prec j b m x hx := by
    obtain ⟨h1, h2, h3, h4⟩ := h.prec j b m x hx
    have hlt : j = i → ¬ n < b := by
      rintro rfl hlt
      have := hp b (by simp only [follow] at hx; rw [hx]; simp)
      exact Ballot.lt_irrefl _ (Ballot.lt_of_lt_of_le hlt this)
    refine ⟨h1, h2, ?_, ?_⟩
    · simp only [follow]
      rw [if_neg]
      · exact h3
      · rintro ⟨rfl, rfl⟩
        exact hlt rfl h2
    · intro b' hb' hacc
      simp only [follow] at hacc
      split at hacc
      · rename_i hc; obtain ⟨rfl, rfl⟩ := hc; exact absurd hb' (hlt rfl)
      · exact h4 b' hb' hacc
  acc j b x hx hb := by
    simp only [follow] at hx ⊢
    split at hx
    · rename_i hc
      obtain ⟨rfl, rfl⟩ := hc
      simp at hx
      subst hx
      refine ⟨hpr, ?_⟩
      have := (h.init b l0 h0).1
      cases hp' : G.acc b.pid b with
      | none => exact absurd hp' this
      | some p =>
        refine ⟨p, l0, ?_, h0, hl0, Lg.le_trans hl (h.endLe b j q p hp'), fun _ => ?_⟩
        · rw [if_neg (by rintro ⟨h, -⟩; exact hi h)]
        · simpa using hl
    · rename_i hne
      obtain ⟨h1, p, l0', h2, h3, h4, h5, h6⟩ := h.acc j b x hx hb
      refine ⟨h1, p, l0', ?_, h3, h4, h5, ?_⟩
      · rw [if_neg (by rintro ⟨h, rfl⟩; exact hi h)]; exact h2
      · intro hj
        rw [if_neg (by rintro ⟨rfl, rfl⟩; exact hne ⟨rfl, rfl⟩)]
        exact h6 hj
  init b x hx := by
    obtain ⟨h1, h2⟩ := h.init b x hx
    refine ⟨?_, h2⟩
    simp only [follow]
    split
    · simp
    · exact h1
  lead := h.lead
  endMono := h.endMono
  endLe m F q x hx := by
    simp only [follow] at hx ⊢
    split at hx
    · rename_i hc; obtain ⟨hc, rfl⟩ := hc; exact absurd hc hi
    · exact h.endLe m F q x hx
  endNone m hm F := by
    simp only [follow] at hm ⊢
    split at hm
    · simp at hm
    · rename_i hc
      obtain ⟨h1, h2⟩ := h.endNone m hm F
      refine ⟨?_, h2⟩
      rw [if_neg]
      · exact h1
      · rintro ⟨rfl, rfl⟩
        exact (h.init m l0 h0).1 hm
  cnt j b x hx := by
    simp only [follow] at hx ⊢
    split at hx
    · cases hx
      cases hp' : G.acc n.pid n with
      | none => exact absurd hp' (h.init n l0 h0).1
      | some p =>
        exact Nat.le_trans ((Lg.pre (Lg.le_trans hl (h.endLe n i q p hp'))).sublist.countP_le) (h.cnt _ _ _ hp')
    · exact h.cnt j b x hx
  deadAcc m F s hs := by
    simp only [follow]
    split
    · simp
    · exact h.deadAcc m F s hs

theorem promise_step (h : G.prec i n = none) : Step i allow G (G.promise i n na l) where
  acc _ _ x hx := ⟨x, hx, Lg.le_refl x⟩
  prec j b r hr := by
    simp only [promise]
    rw [if_neg]
    · exact hr
    · rintro ⟨rfl, rfl⟩; rw [h] at hr; simp at hr
  init _ _ h := h
  dead _ _ _ h := h
  acc_o _ _ _ := rfl
  prec_o j b hj := by simp [promise, hj]
  endf_o _ _ _ _ := rfl
  endf_le _ _ _ := Lg.le_refl _
  endf_cur _ _ _ _ := rfl
  cur_o _ _ _ := rfl
  cur_le _ _ := SeqNum.le_refl _
  cur_i _ := .inl rfl
  dead_n _ _ _ h := .inl h
  mark := rfl
  used := Nat.le_refl _
  hold_o _ _ := rfl
  hold_i := Nat.le_refl _

theorem promise_abs (h : Abs cc G) (hnone : G.prec i n = none) (hg : GoodB cc n) (hlt : na < n) (ha : G.acc i na = some l)
    (hmax : ∀ b, G.acc i b ≠ none → b ≤ na) (hlead : n.pid = i ∨ G.prec n.pid n ≠ none) : Abs cc (G.promise i n na l) := by
  have hm := (promise_step (allow := ⟨fun _ _ => True, fun _ _ _ => False⟩) (na := na) (l := l) hnone).toMono
  exact {
    good := h.good
    base := h.base
    prec := fun j b m x hx => by
      simp only [promise] at hx
      split at hx
      · rename_i hc
        obtain ⟨rfl, rfl⟩ := hc
        simp at hx
        obtain ⟨rfl, rfl⟩ := hx
        exact ⟨hg, hlt, ha, fun b' _ hb' => hmax b' hb'⟩
      · exact h.prec j b m x hx
    acc := fun j b x hx hb => by
      obtain ⟨h1, h2⟩ := h.acc j b x hx hb
      exact ⟨hm.prec_ne h1, h2⟩
    init := fun b x hx => by
      obtain ⟨h1, Q, m, n', h2, h3, h4⟩ := h.init b x hx
      refine ⟨h1, Q, m, n', h2, hm.prec _ _ _ h3, fun j hj => ?_⟩
      obtain ⟨n'', l'', h5, h6⟩ := h4 j hj
      exact ⟨n'', l'', hm.prec _ _ _ h5, h6⟩
    lead := fun j b hb => by
      by_cases hc : j = i ∧ b = n
      · obtain ⟨rfl, rfl⟩ := hc
        rcases hlead with h | h
        · rw [h]; exact hb
        · exact hm.prec_ne h
      · simp only [promise] at hb
        rw [if_neg hc] at hb
        exact hm.prec_ne (h.lead j b hb)
    endMono := h.endMono
    endLe := h.endLe
    endNone := h.endNone
    cnt := h.cnt
    deadAcc := h.deadAcc }

theorem start_step (ha : G.acc i n = none) (hin : G.init n = none) : Step i allow G (G.start i n l) where
  acc j b x hx := by
    simp only [start]
    rw [if_neg]
    · exact ⟨x, hx, Lg.le_refl x⟩
    · rintro ⟨rfl, rfl⟩; rw [ha] at hx; simp at hx
  prec _ _ _ h := h
  init b x hx := by
    simp only [start]
    rw [if_neg]
    · exact hx
    · rintro rfl; rw [hin] at hx; simp at hx
  dead _ _ _ h := h
  acc_o j b hj := by simp [start, hj]
  prec_o _ _ _ := rfl
  endf_o _ _ _ _ := rfl
  endf_le _ _ _ := Lg.le_refl _
  endf_cur _ _ _ _ := rfl
  cur_o _ _ _ := rfl
  cur_le _ _ := SeqNum.le_refl _
  cur_i _ := .inl rfl
  dead_n _ _ _ h := .inl h
  mark := rfl
  used := Nat.le_refl _
  hold_o _ _ := rfl
  hold_i := Nat.le_refl _

theorem init_none (h : Abs cc G) (ha : G.acc n.pid n = none) : G.init n = none := by
  cases hx : G.init n with
  | none => rfl
  | some x => exact absurd ha (h.init n x hx).1

theorem start_abs (h : Abs cc G) (hi : n.pid = i) (hn : n ≠ {}) (ha : G.acc i n = none)
    (hpr : G.prec i n ≠ none) (hp : ∀ b, G.prec i b ≠ none → b ≤ n)
    (hq : ∃ Q m n', ReadQ cc Q ∧ G.prec m n = some (n', l) ∧
      ∀ i ∈ Q, ∃ n'' l', G.prec i n = some (n'', l') ∧ (n'' < n' ∨ (n'' = n' ∧ l' ≤ l))) : Abs cc (G.start i n l) := by
  have hin : G.init n = none := init_none h (by rw [hi]; exact ha)
  have hm := (start_step (allow := ⟨fun _ _ => True, fun _ _ _ => False⟩) (l := l) ha hin).toMono
  exact {
    good := fun j b hb => by
      simp only [start] at hb
      split at hb
      · rename_i hc; obtain ⟨rfl, rfl⟩ := hc; exact h.precGood hpr
      · exact h.good j b hb
    base := fun j => by
      simp only [start]
      rw [if_neg (by rintro ⟨-, h⟩; exact hn h.symm)]
      exact h.base j
    prec := fun j b m x hx => by
      obtain ⟨h1, h2, h3, h4⟩ := h.prec j b m x hx
      have hlt : j = i → ¬ n < b := by
        rintro rfl hlt
        have := hp b (by simp only [start] at hx; rw [hx]; simp)
        exact Ballot.lt_irrefl _ (Ballot.lt_of_lt_of_le hlt this)
      refine ⟨h1, h2, ?_, ?_⟩
      · simp only [start]
        rw [if_neg]
        · exact h3
        · rintro ⟨rfl, rfl⟩
          exact hlt rfl h2
      · intro b' hb' hacc
        simp only [start] at hacc
        split at hacc
        · rename_i hc; obtain ⟨rfl, rfl⟩ := hc; exact absurd hb' (hlt rfl)
        · exact h4 b' hb' hacc
    acc := fun j b x hx hb => by
      simp only [start] at hx ⊢
      split at hx
      · rename_i hc
        obtain ⟨rfl, rfl⟩ := hc
        simp at hx
        subst hx
        exact ⟨hpr, l, l, by rw [if_pos ⟨hi, rfl⟩], by rw [if_pos rfl], Lg.le_refl _, Lg.le_refl _, fun h => absurd hi.symm h⟩
      · obtain ⟨h1, p, l0, h2, h3, h4, h5, h6⟩ := h.acc j b x hx hb
        have hbn : b ≠ n := by rintro rfl; rw [hi, ha] at h2; simp at h2
        exact ⟨h1, p, l0, by rw [if_neg (fun h => hbn h.2)]; exact h2, by rw [if_neg hbn]; exact h3, h4, h5, h6⟩
    init := fun b x hx => by
      simp only [start] at hx
      split at hx
      · rename_i hc
        subst hc
        simp at hx
        subst hx
        refine ⟨?_, hq⟩
        simp [start, hi]
      · obtain ⟨h1, h2⟩ := h.init b x hx
        exact ⟨hm.acc_ne h1, h2⟩
    lead := h.lead
    endMono := h.endMono
    endLe := fun m F q x hx => by
      by_cases hc : m.pid = i ∧ m = n
      · obtain ⟨hc, rfl⟩ := hc
        rw [show (G.start i m l).endf m F q = G.endf m F q from rfl, (h.endNone m (by rw [hi]; exact ha) F).2 q]
        exact Lg.bot_le _
      · simp only [start] at hx
        rw [if_neg hc] at hx
        exact h.endLe m F q x hx
    endNone := fun m hm' F => by
      simp only [start] at hm'
      split at hm'
      · simp at hm'
      · exact h.endNone m hm' F
    cnt := fun j b x hx => by
      simp only [start] at hx
      split at hx
      · cases hx
        obtain ⟨Q, m, n', -, h1, -⟩ := hq
        exact h.cnt m n' l (h.prec m n n' l h1).2.2.1
      · exact h.cnt j b x hx
    deadAcc := fun m F s hs => hm.acc_ne (h.deadAcc m F s hs) }

theorem bump_step (hi : n.pid = i) (hq : G.curg n F < q) (hv : ∀ q', G.endf n F q' ≤ v) : Step i allow G (G.bump n F q v) where
  toMono := ⟨fun _ _ x hx => ⟨x, hx, Lg.le_refl x⟩, fun _ _ _ h => h, fun _ _ h => h, fun _ _ _ h => h⟩
  acc_o _ _ _ := rfl
  prec_o _ _ _ := rfl
  endf_o m F' q' hm := by
    simp only [bump]
    rw [if_neg]
    rintro ⟨rfl, -⟩; exact hm hi
  endf_le m F' q' := by
    simp only [bump]
    split
    · rename_i hc; obtain ⟨rfl, rfl, -⟩ := hc; exact hv q'
    · exact Lg.le_refl _
  endf_cur m F' q' hle := by
    simp only [bump]
    rw [if_neg]
    rintro ⟨rfl, rfl, hqq⟩
    exact SeqNum.lt_irrefl _ (SeqNum.lt_of_lt_of_le hq (SeqNum.le_trans hqq hle))
  cur_o _ _ _ := rfl
  cur_le _ _ := SeqNum.le_refl _
  cur_i _ := .inl rfl
  dead_n _ _ _ h := .inl h
  mark := rfl
  used := Nat.le_refl _
  hold_o _ _ := rfl
  hold_i := Nat.le_refl _

theorem bump_abs (h : Abs cc G) (hp : G.acc n.pid n = some p) (hvp : v ≤ p) (hq : G.curg n F < q)
    (hv : ∀ q', G.endf n F q' ≤ v) : Abs cc (G.bump n F q v) where
  good := h.good
  base := h.base
  prec := h.prec
  acc j b x hx hb := by
    obtain ⟨h1, p', l0', h2, h3, h4, h5, h6⟩ := h.acc j b x hx hb
    refine ⟨h1, p', l0', h2, h3, h4, h5, fun hj => ?_⟩
    simp only [bump]
    rw [if_neg]
    · exact h6 hj
    · rintro ⟨rfl, rfl, hqq⟩
      exact SeqNum.lt_irrefl _ (SeqNum.lt_of_lt_of_le hq hqq)
  init := h.init
  lead := h.lead
  endMono m X q1 q2 hle := by
    simp only [bump]
    by_cases hm : m = n ∧ X = F
    · obtain ⟨rfl, rfl⟩ := hm
      by_cases h1 : q ≤ q1
      · rw [if_pos ⟨rfl, rfl, h1⟩, if_pos ⟨rfl, rfl, SeqNum.le_trans h1 hle⟩]; exact Lg.le_refl _
      · rw [if_neg (fun h => h1 h.2.2)]
        split
        · exact hv q1
        · exact h.endMono m X q1 q2 hle
    · rw [if_neg (fun h => hm ⟨h.1, h.2.1⟩), if_neg (fun h => hm ⟨h.1, h.2.1⟩)]
      exact h.endMono m X q1 q2 hle
  endLe m X q' x hx := by
    simp only [bump] at hx ⊢
    split
    · rename_i hc
      obtain ⟨rfl, -, -⟩ := hc
      rw [hp] at hx; simp at hx; subst hx
      exact hvp
    · exact h.endLe m X q' x hx
  endNone m hm X := by
    have hmn : m ≠ n := by
      rintro rfl
      rw [show (G.bump m F q v).acc m.pid m = G.acc m.pid m from rfl, hp] at hm; simp at hm
    obtain ⟨h1, h2⟩ := h.endNone m hm X
    refine ⟨h1, fun q' => ?_⟩
    simp only [bump]
    rw [if_neg (fun h => hmn h.1)]
    exact h2 q'
  cnt := h.cnt
  deadAcc := h.deadAcc

theorem kill_step {D : Prop} {s : Nat} (hi : n.pid = i) (hs : D → (G.curg n F).session < s ∧ allow.die n F s) :
    Step i allow G (G.kill D n F s) where
  toMono := ⟨fun _ _ x hx => ⟨x, hx, Lg.le_refl x⟩, fun _ _ _ h => h, fun _ _ h => h, fun _ _ _ h => .inr h⟩
  acc_o _ _ _ := rfl
  prec_o _ _ _ := rfl
  endf_o _ _ _ _ := rfl
  endf_le _ _ _ := Lg.le_refl _
  endf_cur _ _ _ _ := rfl
  cur_o _ _ _ := rfl
  cur_le _ _ := SeqNum.le_refl _
  cur_i _ := .inl rfl
  dead_n b X t h := by
    rcases h with ⟨hd, rfl, rfl, rfl⟩ | h
    · exact .inr ⟨hi, hs hd⟩
    · exact .inl h
  mark := rfl
  used := Nat.le_refl _
  hold_o _ _ := rfl
  hold_i := Nat.le_refl _

theorem kill_abs {D : Prop} {s : Nat} (h : Abs cc G) (hp : G.acc n.pid n = some p) : Abs cc (G.kill D n F s) where
  good := h.good
  base := h.base
  prec := h.prec
  acc := h.acc
  init := h.init
  lead := h.lead
  endMono := h.endMono
  endLe := h.endLe
  endNone := h.endNone
  cnt := h.cnt
  deadAcc m X t ht := by
    rcases ht with ⟨-, rfl, -, -⟩ | ht
    · show G.acc m.pid m ≠ none
      rw [hp]; simp
    · exact h.deadAcc m X t ht

end Ghost
end Omni
