import Verif.Spec.UniCache
/-
UniCache: the encoder of the leader and the decoder of the follower run in lockstep.
-/
namespace Omni

variable {V R : Type} [DecidableEq V]

/-! ### Lists of pairs -/

section Lists
variable {A B : Type} [DecidableEq B]

theorem find_of_nodup {l : List A} {f : A → B} (h : (l.map f).Nodup) {p : A} (hp : p ∈ l) :
    l.find? (fun q => f q = f p) = some p := by
  induction l with
  | nil => cases hp
  | cons a r ih =>
    simp only [List.map_cons, List.nodup_cons] at h
    rcases List.mem_cons.1 hp with rfl | hp
    · simp
    · have : f a ≠ f p := fun e => h.1 (e ▸ List.mem_map_of_mem hp)
      simp [this, ih h.2 hp]

/-- Erasing by either component is the same thing. -/
theorem eraseP_swap {C : Type} [DecidableEq C] {l : List A} {f : A → B} {g : A → C} (hf : (l.map f).Nodup) (hg : (l.map g).Nodup)
    {p : A} (hp : p ∈ l) : l.eraseP (fun q => f q = f p) = l.eraseP (fun q => g q = g p) := by
  induction l with
  | nil => rfl
  | cons a r ih =>
    simp only [List.map_cons, List.nodup_cons] at hf hg
    rcases List.mem_cons.1 hp with rfl | hp
    · simp
    · have h1 : f a ≠ f p := fun e => hf.1 (e ▸ List.mem_map_of_mem hp)
      have h2 : g a ≠ g p := fun e => hg.1 (e ▸ List.mem_map_of_mem hp)
      simp [h1, h2, ih hf.2 hg.2 hp]

theorem map_eraseP_nodup {C : Type} {l : List A} {p : A → Bool} {f : A → C} (h : (l.map f).Nodup) : ((l.eraseP p).map f).Nodup :=
  h.sublist ((List.eraseP_sublist).map f)

theorem nodup_touch {C : Type} {l : List A} {f : A → B} {g : A → C} (hf : (l.map f).Nodup) (hg : (l.map g).Nodup) {p : A}
    (hp : p ∈ l) : ((p :: l.eraseP (fun q => f q = f p)).map g).Nodup := by
  induction l with
  | nil => cases hp
  | cons a r ih =>
    simp only [List.map_cons, List.nodup_cons] at hf hg
    rcases List.mem_cons.1 hp with rfl | hp
    · simp [hg]
    · have h1 : f a ≠ f p := fun e => hf.1 (e ▸ List.mem_map_of_mem hp)
      have := ih hf.2 hg.2 hp
      simp only [List.map_cons, List.nodup_cons] at this
      have hne : g a ≠ g p := fun e => hg.1 (e ▸ List.mem_map_of_mem hp)
      simp only [List.eraseP_cons, decide_eq_true_eq, h1, if_false, decide_false, Bool.cond_false, List.map_cons,
        List.nodup_cons, List.mem_cons, not_or]
      refine ⟨⟨hne.symm, this.1⟩, fun hm => hg.1 ?_, this.2⟩
      obtain ⟨q, hq, e⟩ := List.mem_map.1 hm
      exact e ▸ List.mem_map_of_mem (List.mem_of_mem_eraseP hq)

theorem find_none_of {l : List A} {f : A → B} {b : B} (h : b ∉ l.map f) : l.find? (fun q => f q = b) = none := by
  rw [List.find?_eq_none]
  intro q hq
  simp only [decide_eq_true_eq]
  exact fun e => h (e ▸ List.mem_map_of_mem hq)

end Lists

/-! ### LRU -/

/-- The follower's decoder mirrors the leader's encoder. -/
structure LRUni.Sync (l f : LRUni V) : Prop where
  items : f.lru_cache_decoder.items = l.lru_cache_encoder.items.map fun p => (p.2, p.1)
  keys : (l.lru_cache_encoder.items.map (·.1)).Nodup
  vals : (l.lru_cache_encoder.items.map (·.2)).Nodup
  le : ∀ p ∈ l.lru_cache_encoder.items, p.2 ≤ l.encoding
  count : l.encoding = l.lru_cache_encoder.items.length
  len : l.lru_cache_encoder.items.length ≤ l.size
  enc : f.encoding = l.encoding
  size : f.size = l.size
  max : f.max = l.max
  fits : l.size ≤ l.max
  pos : 0 < l.size
  ecap : l.size ≤ l.lru_cache_encoder.cap
  dcap : l.size ≤ f.lru_cache_decoder.cap

namespace LRUni

theorem Sync.step {l f : LRUni V} (h : Sync l f) (v : V) :
    ∃ r l' f', l.try_encode v = .ok (r, l') ∧ f.decode r = .ok (v, f') ∧ Sync l' f' ∧ l'.size = l.size ∧ l'.max = l.max := by
  obtain ⟨⟨ecap, items⟩, ld, lenc, lsize, lmax⟩ := l
  obtain ⟨fe, ⟨dcap, ditems⟩, enc, size, max⟩ := f
  obtain ⟨h1, h2, h3, h4, h5, h6, h7, h8, h9, h10, h11, h12, h13⟩ := h
  simp only at h1 h2 h3 h4 h5 h6 h7 h8 h9 h10 h11 h12 h13
  subst h1 h7 h8 h9
  by_cases hm : v ∈ items.map (·.1)
  · obtain ⟨⟨v', e⟩, hp, rfl⟩ := List.mem_map.1 hm
    have hf : items.find? (fun q => decide (q.1 = v')) = some (v', e) := find_of_nodup (f := (·.1)) h2 hp
    have hd : (items.map fun p => (p.2, p.1)).find? (fun q => decide (q.1 = e)) = some (e, v') := by
      rw [List.find?_map]
      have : items.find? (fun q => decide (q.2 = e)) = some (v', e) := find_of_nodup (f := (·.2)) h3 hp
      simp only [Function.comp_def, this, Option.map_some]
    refine ⟨.encoded e, { lru_cache_encoder := ⟨ecap, (v', e) :: items.eraseP fun q => decide (q.1 = v')⟩, lru_cache_decoder := ld, encoding := enc, size, max }, { lru_cache_encoder := fe, lru_cache_decoder := ⟨dcap, (e, v') :: (items.map fun p => (p.2, p.1)).eraseP fun q => decide (q.1 = e)⟩, encoding := enc, size, max },
      by simp [try_encode, LruCache.get, hf], by simp [decode, LruCache.get, hd], ?_, rfl, rfl⟩
    have hsw : items.eraseP (fun q => decide (q.1 = v')) = items.eraseP (fun q => decide (q.2 = e)) :=
      eraseP_swap (f := (·.1)) (g := (·.2)) h2 h3 hp
    have hlen : ((v', e) :: items.eraseP fun q => decide (q.1 = v')).length = items.length := by
      have := List.length_eraseP_of_mem hp (p := fun q => decide (q.1 = v')) (by simp)
      have := List.length_pos_of_mem hp
      simp; omega
    refine ⟨?_, nodup_touch (f := (·.1)) (g := (·.1)) h2 h2 hp, nodup_touch (f := (·.1)) (g := (·.2)) h2 h3 hp, ?_,
      h5.trans hlen.symm, hlen ▸ h6, rfl, rfl, rfl, h10, h11, h12, h13⟩
    · simp only [List.map_cons, hsw, List.eraseP_map, Function.comp_def]
    · intro p hp'
      rcases List.mem_cons.1 hp' with rfl | hp'
      · exact h4 _ hp
      · exact h4 _ (List.mem_of_mem_eraseP hp')
  · have hf : items.find? (fun q => decide (q.1 = v)) = none :=
      find_none_of (l := items) (f := fun q => q.1) hm
    by_cases hfull : items.length = size
    · have hne : items ≠ [] := by intro e; subst e; simp at hfull; omega
      obtain ⟨init, ⟨w, e⟩, rfl⟩ : ∃ init p, items = init ++ [p] := ⟨_, _, (List.dropLast_concat_getLast hne).symm⟩
      simp only [List.map_append, List.map_cons, List.map_nil] at h2 h3 hm
      have h2' := List.nodup_append.1 h2
      have h3' := List.nodup_append.1 h3
      have hv : v ∉ init.map (·.1) := fun h => hm (List.mem_append_left _ h)
      have he : e ∉ init.map (·.2) := fun h => h3'.2.2 _ h _ (List.mem_singleton.2 rfl) rfl
      have hany : init.any (fun q => decide (q.1 = v)) = false := by
        rw [List.any_eq_false]; intro q hq; simp only [decide_eq_true_eq]
        exact fun e => hv (e ▸ List.mem_map_of_mem hq)
      have hany' : (init.map fun p => (p.2, p.1)).any (fun q => decide (q.1 = e)) = false := by
        rw [List.any_eq_false]; intro q hq; simp only [decide_eq_true_eq]
        obtain ⟨p, hp, rfl⟩ := List.mem_map.1 hq
        exact fun e => he (e ▸ List.mem_map_of_mem hp)
      simp only [List.length_append, List.length_cons, List.length_nil] at hfull h5 h6
      have hc1 : init.length ≠ ecap := by omega
      have hc2 : init.length ≠ dcap := by omega
      refine ⟨.notEncoded v, { lru_cache_encoder := ⟨ecap, (v, e) :: init⟩, lru_cache_decoder := ld, encoding := enc, size, max },
        { lru_cache_encoder := fe, lru_cache_decoder := ⟨dcap, (e, v) :: init.map fun p => (p.2, p.1)⟩,
                encoding := enc, size, max }, ?_, ?_, ?_, rfl, rfl⟩
      · simp [try_encode, LruCache.get, hf, LruCache.len, hfull, LruCache.pop_lru, LruCache.push, hany, hc1]
      · simp only [decode, LruCache.len, List.length_map, List.length_append, List.length_cons, List.length_nil, hfull,
          if_true, LruCache.pop_lru, List.map_append, List.map_cons, List.map_nil, List.getLast?_append, List.getLast?_singleton,
          Option.some_or, Option.map_some, List.dropLast_append_cons, List.dropLast, List.append_nil, LruCache.push,
          hany', Bool.false_eq_true, if_false, hc2]
      · refine ⟨by simp, ?_, ?_, ?_, ?_, ?_, rfl, rfl, rfl, h10, h11, h12, h13⟩
        · simpa using ⟨by simpa using hv, h2'.1⟩
        · simpa using ⟨by simpa using he, h3'.1⟩
        · intro p hp
          rcases List.mem_cons.1 hp with rfl | hp
          · exact h4 (w, e) (by simp)
          · exact h4 p (by simp [hp])
        · simp; omega
        · simp; omega
    · have hany : items.any (fun q => decide (q.1 = v)) = false := by
        rw [List.any_eq_false]; intro q hq; simp only [decide_eq_true_eq]
        exact fun e => hm (e ▸ List.mem_map_of_mem hq)
      have hany' : (items.map fun p => (p.2, p.1)).any (fun q => decide (q.1 = enc + 1)) = false := by
        rw [List.any_eq_false]; intro q hq; simp only [decide_eq_true_eq]
        obtain ⟨p, hp, rfl⟩ := List.mem_map.1 hq
        have := h4 p hp
        simp only; omega
      have hc1 : items.length ≠ ecap := by omega
      have hc2 : items.length ≠ dcap := by omega
      have ho : enc < max := by omega
      refine ⟨.notEncoded v, { lru_cache_encoder := ⟨ecap, (v, enc + 1) :: items⟩, lru_cache_decoder := ld, encoding := enc + 1, size, max },
        { lru_cache_encoder := fe, lru_cache_decoder := ⟨dcap, (enc + 1, v) :: items.map fun p => (p.2, p.1)⟩,
                encoding := enc + 1, size, max }, ?_, ?_, ?_, rfl, rfl⟩
      · simp [try_encode, LruCache.get, hf, LruCache.len, hfull, LruCache.push, hany, hc1, addOne, ho]
        rfl
      · simp only [decode, LruCache.len, List.length_map, hfull, if_false, addOne, ho, if_true, LruCache.push,
          hany', Bool.false_eq_true, hc2, bind, Except.bind, pure, Except.pure]
      · refine ⟨by simp, ?_, ?_, ?_, ?_, ?_, rfl, rfl, rfl, h10, h11, h12, h13⟩
        · simpa using ⟨by simpa using hm, h2⟩
        · simp only [List.map_cons, List.nodup_cons]
          refine ⟨fun hx => ?_, h3⟩
          obtain ⟨p, hp, e⟩ := List.mem_map.1 hx
          have := h4 p hp; omega
        · intro p hp
          rcases List.mem_cons.1 hp with rfl | hp
          · exact Nat.le_refl _
          · exact Nat.le_succ_of_le (h4 p hp)
        · simp; omega
        · simp; omega

theorem sync_new {size max : Nat} (hs : 0 < size) (hm : size ≤ max) :
    ∃ c : LRUni V, new max size = .ok c ∧ Sync c c ∧ c.size = size ∧ c.max = max := by
  refine ⟨_, by simp [new, LruCache.new, Nat.ne_of_gt hs]; rfl, ?_, rfl, rfl⟩
  refine ⟨rfl, by simp, by simp, by simp, rfl, by simp, rfl, rfl, rfl, hm, hs, Nat.le_refl _, Nat.le_refl _⟩

end LRUni

/-- Pushing distinct keys into a cache with enough room puts them in front, the last one first. -/
theorem LruCache.pushAll_eq {K W : Type} [DecidableEq K] (xs : List (K × W)) :
    ∀ c : LruCache K W, (c.items.map (·.1) ++ xs.map (·.1)).Nodup → c.items.length + xs.length ≤ c.cap →
      c.pushAll xs = { c with items := xs.reverse ++ c.items } := by
  induction xs with
  | nil => intro c _ _; simp [pushAll]
  | cons p r ih =>
    intro c hn hl
    have hnew : p.1 ∉ c.items.map (·.1) := by
      intro h
      exact (List.nodup_append.1 hn).2.2 _ h _ (by simp) rfl
    have hany : c.items.any (fun q => decide (q.1 = p.1)) = false := by
      rw [List.any_eq_false]; intro q hq; simp only [decide_eq_true_eq]
      exact fun e => hnew (e ▸ List.mem_map_of_mem hq)
    simp only [List.length_cons] at hl
    have hc : c.items.length ≠ c.cap := by omega
    have hpush : c.push p.1 p.2 = { c with items := p :: c.items } := by simp [push, hany, len, hc]
    rw [pushAll, hpush, ih]
    · simp
    · simp only [List.map_cons, List.cons_append, List.nodup_cons]
      simp only [List.map_cons, List.nodup_append, List.nodup_cons, List.mem_cons] at hn
      refine ⟨?_, ?_⟩
      · rw [List.mem_append, not_or]; exact ⟨hnew, hn.2.1.1⟩
      · rw [List.nodup_append]; exact ⟨hn.1, hn.2.1.2, fun a ha b hb => hn.2.2 a ha b (Or.inr hb)⟩
    · simp; omega

namespace LRUni

/-- A clone mirrors the original's encoder, whatever follower the original is in lockstep with. -/
theorem Sync.clone {l f : LRUni V} (h : Sync l f) :
    ∃ c, l.clone = .ok c ∧ Sync l c ∧ c.lru_cache_encoder.items = [] := by
  have hn : l.size ≠ 0 := Nat.ne_of_gt h.pos
  have hp := LruCache.pushAll_eq (l.lru_cache_encoder.items.reverse.map fun p => (p.2, p.1)) ⟨l.size, []⟩
    (by simpa [Function.comp_def, List.map_reverse, (List.reverse_perm _).nodup_iff] using h.vals) (by simpa using h.len)
  refine ⟨{ l with lru_cache_encoder := ⟨1, []⟩,
                   lru_cache_decoder := ⟨l.size, l.lru_cache_encoder.items.map fun p => (p.2, p.1)⟩ }, ?_,
    ⟨rfl, h.keys, h.vals, h.le, h.count, h.len, rfl, rfl, rfl, h.fits, h.pos, h.ecap, Nat.le_refl _⟩, rfl⟩
  unfold LRUni.clone LruCache.new
  rw [if_neg hn, if_neg (by decide : ¬ (1 = 0))]
  show Except.ok { l with lru_cache_encoder := _, lru_cache_decoder := LruCache.pushAll ⟨l.size, []⟩ _ } = _
  rw [hp]
  simp

/-- A follower's cache that goes over a format without size hints still mirrors the leader's encoder, provided the size is
at most 255. -/
theorem Sync.wire {l f : LRUni V} (h : Sync l f) (hs : l.size ≤ 255) :
    ∃ c, f.wire (fun _ => none) = .ok c ∧ Sync l c := by
  have hlen : f.lru_cache_decoder.items.length ≤ 255 := by have := h.len; rw [h.items]; simp; omega
  have hp := LruCache.pushAll_eq f.lru_cache_decoder.items.reverse (⟨255, []⟩ : LruCache Nat V)
    (by rw [h.items]; simpa [Function.comp_def, List.map_reverse, (List.reverse_perm _).nodup_iff] using h.vals)
    (by simpa using hlen)
  refine ⟨{ f with lru_cache_encoder := LruCache.pushAll ⟨255, []⟩ f.lru_cache_encoder.items.reverse,
                   lru_cache_decoder := ⟨255, f.lru_cache_decoder.items⟩ }, ?_,
    ⟨h.items, h.keys, h.vals, h.le, h.count, h.len, h.enc, h.size, h.max, h.fits, h.pos, h.ecap, hs⟩⟩
  show Except.ok { f with lru_cache_encoder := _, lru_cache_decoder := LruCache.pushAll ⟨255, []⟩ _ } = _
  rw [hp]
  simp

end LRUni

/-! ### LFU: the cache as a function of abstract keys -/

section Lists
variable {A B : Type} [DecidableEq A] [DecidableEq B]

omit [DecidableEq A] [DecidableEq B] in
theorem inj_of_nodup_map {l : List A} {f : A → B} (h : (l.map f).Nodup) {p q : A} (hp : p ∈ l) (hq : q ∈ l) (e : f p = f q) :
    p = q := by
  induction l with
  | nil => cases hp
  | cons a r ih =>
    simp only [List.map_cons, List.nodup_cons] at h
    rcases List.mem_cons.1 hp with rfl | hp'
    · rcases List.mem_cons.1 hq with rfl | hq'
      · rfl
      · exact absurd (e ▸ List.mem_map_of_mem hq') h.1
    · rcases List.mem_cons.1 hq with rfl | hq'
      · exact absurd (e ▸ List.mem_map_of_mem hp') h.1
      · exact ih h.2 hp' hq'

theorem map_erase_of {l : List A} {f : A → B} {p : A} (h : ∀ q ∈ l, f q = f p → q = p) :
    (l.erase p).map f = (l.map f).erase (f p) := by
  induction l with
  | nil => rfl
  | cons a r ih =>
    have ih := ih fun q hq => h q (List.mem_cons_of_mem _ hq)
    by_cases e : a = p
    · subst e; simp
    · have : f a ≠ f p := fun e' => e (h a (List.mem_cons_self ..) e')
      simp [List.erase_cons, e, this, ih]

end Lists

namespace LFUCache
variable {K W : Type} [DecidableEq K]

/-- Every key is in the bin of its count and nowhere else. -/
structure WF (A : LFUCache K W) : Prop where
  nodup : (A.values.map (·.1)).Nodup
  bins : ∀ n l, A.frequency_bin n = some l → l.Nodup ∧ ∀ k ∈ l, ∃ vc, (k, vc) ∈ A.values ∧ vc.count = n
  mem : ∀ k vc, (k, vc) ∈ A.values → ∃ l, A.frequency_bin vc.count = some l ∧ k ∈ l

/-- The bin that `min_frequency` names is there and not empty. -/
def MinOk (A : LFUCache K W) : Prop := A.values ≠ [] → ∃ k l, A.frequency_bin A.min_frequency = some (k :: l)

omit [DecidableEq K] in
theorem WF.inj {A : LFUCache K W} (h : A.WF) {k : K} {a b : ValueCounter W} (ha : (k, a) ∈ A.values) (hb : (k, b) ∈ A.values) :
    a = b := by
  have := inj_of_nodup_map h.nodup ha hb rfl
  exact (Prod.mk.inj this).2

theorem lookup_of {A : LFUCache K W} (h : (A.values.map (·.1)).Nodup) {k : K} {a : ValueCounter W} (ha : (k, a) ∈ A.values) :
    A.lookup k = some a := by
  have := find_of_nodup (f := (·.1)) h ha
  simp only at this
  simp [lookup, this]

theorem lookup_none {A : LFUCache K W} {k : K} (h : k ∉ A.values.map (·.1)) : A.lookup k = none := by
  have := find_none_of (l := A.values) (f := fun q => q.1) h
  simp [lookup, this]

/-- The cache whose keys and values are functions of abstract keys. -/
def proj {P : Type} (f : P → K) (g : P → W) (A : LFUCache P Unit) : LFUCache K W where
  values := A.values.map fun p => (f p.1, ⟨g p.1, p.2.count⟩)
  frequency_bin n := (A.frequency_bin n).map (List.map f)
  capacity := A.capacity
  min_frequency := A.min_frequency

variable {P : Type} [DecidableEq P]

def keys (A : LFUCache P Unit) : List P := A.values.map (·.1)

omit [DecidableEq K] [DecidableEq P] in
theorem proj_keys (f : P → K) (g : P → W) (A : LFUCache P Unit) : (A.proj f g).values.map (·.1) = A.keys.map f := by
  simp [proj, keys, Function.comp_def]

omit [DecidableEq K] in
theorem binInsert_some {P : Type} [DecidableEq P] (bins : Nat → Option (List P)) (n : Nat) (k : P) (i : Nat) :
    binInsert bins n k i = if i = n then some (((bins n).getD []).erase k ++ [k]) else bins i := rfl

theorem bins_proj {f : P → K} {bins : Nat → Option (List P)} {n : Nat} {k : P}
    (h : ∀ l, bins n = some l → ∀ q ∈ l, f q = f k → q = k) :
    (fun i => (binInsert bins n k i).map (List.map f)) = binInsert (fun i => (bins i).map (List.map f)) n (f k) := by
  funext i
  unfold binInsert
  by_cases e : i = n
  · subst e
    cases hb : bins i with
    | none => simp [hb]
    | some l => simp [hb, map_erase_of (h l hb)]
  · simp [e]

/-- A hit: the key moves to the next bin, in the abstract cache and in every image of it. -/
theorem hit {A : LFUCache P Unit} (h : A.WF) (hm : A.MinOk) {p : P} (hp : p ∈ A.keys) :
    ∃ A' : LFUCache P Unit, A'.WF ∧ A'.MinOk ∧ A'.keys = A.keys ∧ A'.capacity = A.capacity ∧
      ∀ {K W : Type} [DecidableEq K] (f : P → K) (g : P → W), (A.keys.map f).Nodup →
        (A.proj f g).get (f p) = .ok (some (g p), A'.proj f g) := by
  obtain ⟨⟨_, vc⟩, hv, rfl⟩ := List.mem_map.1 hp
  obtain ⟨bin, hb, hpb⟩ := h.mem _ _ hv
  simp only at hb hpb hp ⊢
  rename_i p
  let A' : LFUCache P Unit := { A with
    values := A.values.map fun q => if q.1 = p then (q.1, { q.2 with count := q.2.count + 1 }) else q
    min_frequency := if vc.count = A.min_frequency && (bin.erase p).isEmpty then A.min_frequency + 1 else A.min_frequency
    frequency_bin := binInsert (fun i => if i = vc.count then some (bin.erase p) else A.frequency_bin i) (vc.count + 1) p }
  have hkeys : A'.keys = A.keys := by
    simp only [keys, A', List.map_map]
    apply List.map_congr_left
    intro q _
    simp only [Function.comp_def]
    split <;> rfl
  have hin : ∀ q w, (q, w) ∈ A.values → q ≠ p → (q, w) ∈ A'.values := fun q w hq hne =>
    List.mem_map.2 ⟨_, hq, by simp [hne]⟩
  have hin' : (p, { vc with count := vc.count + 1 }) ∈ A'.values := List.mem_map.2 ⟨_, hv, by simp⟩
  have hnot : ∀ l, A.frequency_bin (vc.count + 1) = some l → p ∉ l := by
    intro l hl hpl
    obtain ⟨w, hw, hc⟩ := (h.bins _ _ hl).2 _ hpl
    have := h.inj hw hv
    subst this; omega
  have hbin : ∀ i, A'.frequency_bin i = if i = vc.count + 1 then
      some (((A.frequency_bin (vc.count + 1)).getD []).erase p ++ [p]) else if i = vc.count then some (bin.erase p) else A.frequency_bin i := by
    intro i
    simp only [A', binInsert]
    by_cases e : i = vc.count + 1
    · simp [e]
    · simp [e]
  have hwf : A'.WF := by
    refine ⟨by rw [show A'.values.map (·.1) = A'.keys from rfl, hkeys]; exact h.nodup, ?_, ?_⟩
    · intro n l hl
      rw [hbin] at hl
      by_cases e1 : n = vc.count + 1
      · subst e1
        simp only [if_true, Option.some.injEq] at hl
        subst hl
        cases ho : A.frequency_bin (vc.count + 1) with
        | none => simp; exact ⟨_, hin', rfl⟩
        | some l =>
          have hb' := h.bins _ _ ho
          simp only [Option.getD_some, List.erase_of_not_mem (hnot l ho)]
          refine ⟨?_, ?_⟩
          · rw [List.nodup_append]
            exact ⟨hb'.1, by simp, fun a ha b hb => by
              simp only [List.mem_singleton] at hb; subst hb; exact fun e => hnot l ho (e ▸ ha)⟩
          · intro k hk
            rcases List.mem_append.1 hk with hk | hk
            · obtain ⟨w, hw, hc⟩ := hb'.2 k hk
              exact ⟨w, hin k w hw (fun e => hnot l ho (e ▸ hk)), hc⟩
            · simp only [List.mem_singleton] at hk; subst hk; exact ⟨_, hin', rfl⟩
      · rw [if_neg e1] at hl
        by_cases e2 : n = vc.count
        · subst e2
          simp only [if_true, Option.some.injEq] at hl
          subst hl
          have hb' := h.bins _ _ hb
          refine ⟨hb'.1.erase _, fun k hk => ?_⟩
          have hk' := (hb'.1.mem_erase_iff).1 hk
          obtain ⟨w, hw, hc⟩ := hb'.2 k hk'.2
          exact ⟨w, hin k w hw hk'.1, hc⟩
        · rw [if_neg e2] at hl
          have hb' := h.bins _ _ hl
          refine ⟨hb'.1, fun k hk => ?_⟩
          obtain ⟨w, hw, hc⟩ := hb'.2 k hk
          refine ⟨w, hin k w hw ?_, hc⟩
          rintro rfl
          exact e2 (hc ▸ (h.inj hw hv) ▸ rfl)
    · intro k w hw
      obtain ⟨⟨q, w'⟩, hq, e⟩ := List.mem_map.1 hw
      by_cases hqp : q = p
      · subst hqp
        simp only [if_true, Prod.mk.injEq] at e
        obtain ⟨rfl, rfl⟩ := e
        have := h.inj hq hv
        subst this
        exact ⟨_, by rw [hbin, if_pos rfl], by simp⟩
      · simp only [hqp, if_false, Prod.mk.injEq] at e
        obtain ⟨rfl, rfl⟩ := e
        obtain ⟨l, hl, hkl⟩ := h.mem _ _ hq
        rw [hbin]
        by_cases e1 : w'.count = vc.count + 1
        · refine ⟨_, by rw [if_pos e1], ?_⟩
          rw [← e1, hl]
          simp only [Option.getD_some, List.mem_append]
          exact Or.inl ((List.mem_erase_of_ne hqp).2 hkl)
        · rw [if_neg e1]
          by_cases e2 : w'.count = vc.count
          · rw [e2, hb] at hl
            cases Option.some.inj hl
            exact ⟨_, by rw [if_pos e2], (List.mem_erase_of_ne hqp).2 hkl⟩
          · exact ⟨l, by rw [if_neg e2]; exact hl, hkl⟩
  have hmin : A'.MinOk := by
    intro _
    obtain ⟨k, l, hkl⟩ := hm (fun e => by rw [e] at hv; cases hv)
    have hmf : A'.min_frequency = if vc.count = A.min_frequency && (bin.erase p).isEmpty then A.min_frequency + 1 else A.min_frequency := rfl
    by_cases e : vc.count = A.min_frequency
    · rw [← e, hb] at hkl
      cases Option.some.inj hkl
      cases he : (k :: l).erase p with
      | nil =>
        rw [hmf, if_pos (by simp [e, he]), ← e, hbin, if_pos rfl]
        cases hx : ((A.frequency_bin (vc.count + 1)).getD []).erase p with
        | nil => exact ⟨p, [], by simp⟩
        | cons a b => exact ⟨a, b ++ [p], by simp⟩
      | cons a b =>
        rw [hmf, if_neg (by simp [he]), ← e, hbin, if_neg (by omega), if_pos rfl]
        exact ⟨a, b, by rw [he]⟩
    · rw [hmf, if_neg (by simp [e]), hbin]
      by_cases e' : A.min_frequency = vc.count + 1
      · rw [if_pos e']
        cases hx : ((A.frequency_bin (vc.count + 1)).getD []).erase p with
        | nil => exact ⟨p, [], by simp⟩
        | cons a b => exact ⟨a, b ++ [p], by simp⟩
      · rw [if_neg e', if_neg (fun h => e h.symm)]
        exact ⟨k, l, hkl⟩
  refine ⟨A', hwf, hmin, hkeys, rfl, fun {K W} _ f g hf => ?_⟩
  have hinj : ∀ q ∈ A.keys, f q = f p → q = p := fun q hq e => inj_of_nodup_map hf hq hp e
  have hbk : ∀ n l, A.frequency_bin n = some l → ∀ q ∈ l, q ∈ A.keys := by
    intro n l hl q hq
    obtain ⟨w, hw, _⟩ := (h.bins n l hl).2 q hq
    exact List.mem_map.2 ⟨_, hw, rfl⟩
  have hl1 : (A.proj f g).lookup (f p) = some ⟨g p, vc.count⟩ :=
    lookup_of (by rw [proj_keys]; exact hf) (List.mem_map.2 ⟨_, hv, rfl⟩)
  have hl2 : (A'.proj f g).lookup (f p) = some ⟨g p, vc.count + 1⟩ :=
    lookup_of (by rw [proj_keys, hkeys]; exact hf) (List.mem_map.2 ⟨_, hin', rfl⟩)
  have hup : (A.proj f g).update_frequency_bin (f p) = .ok (A'.proj f g) := by
    unfold update_frequency_bin
    rw [hl1]
    have hb' : (A.proj f g).frequency_bin vc.count = some (bin.map f) := by simp [proj, hb]
    simp only [hb']
    rw [← map_erase_of fun q hq => hinj q (hbk _ _ hb q hq)]
    congr 1
    have e1 : ((A.proj f g).values.map fun q => if q.1 = f p then (q.1, { q.2 with count := q.2.count + 1 }) else q) =
        (A'.proj f g).values := by
      simp only [proj, A', List.map_map]
      apply List.map_congr_left
      intro q hq
      have hqk : q.1 ∈ A.keys := List.mem_map.2 ⟨_, hq, rfl⟩
      by_cases e : q.1 = p
      · simp [Function.comp_def, e]
      · have : f q.1 ≠ f p := fun e' => e (hinj _ hqk e')
        simp [Function.comp_def, e, this]
    have e2 : binInsert (fun i => if i = vc.count then some ((bin.erase p).map f) else (A.proj f g).frequency_bin i)
        (vc.count + 1) (f p) = (A'.proj f g).frequency_bin := by
      show _ = fun i => (binInsert (fun i => if i = vc.count then some (bin.erase p) else A.frequency_bin i) (vc.count + 1) p i).map
        (List.map f)
      rw [bins_proj]
      · congr 1
        funext i
        split <;> simp [proj]
      · intro l hl q hq
        rw [if_neg (by omega)] at hl
        exact hinj q (hbk _ _ hl q hq)
    have e3 : (if (decide (vc.count = (A.proj f g).min_frequency) && ((bin.erase p).map f).isEmpty) = true then
        (A.proj f g).min_frequency + 1 else (A.proj f g).min_frequency) = (A'.proj f g).min_frequency := by
      rw [List.isEmpty_map]; rfl
    simp only [e1, e2, e3]
    rfl
  unfold get
  rw [hup]
  show Except.ok (((A'.proj f g).lookup (f p)).map (·.value), A'.proj f g) = _
  rw [hl2]
  rfl

/-- A miss does not change the cache. -/
theorem miss {A : LFUCache P Unit} (f : P → K) (g : P → W) {k : K} (hk : k ∉ A.keys.map f) :
    (A.proj f g).get k = .ok (none, A.proj f g) := by
  have hl : (A.proj f g).lookup k = none := lookup_none (by rw [proj_keys]; exact hk)
  unfold get update_frequency_bin
  rw [hl]
  show Except.ok (((A.proj f g).lookup k).map (·.value), A.proj f g) = _
  rw [hl]
  rfl

/-- Evicting: the same abstract key goes from every image. -/
theorem evict {A : LFUCache P Unit} (h : A.WF) (hm : A.MinOk) (hne : A.keys ≠ []) :
    ∃ (p : P) (A' : LFUCache P Unit), p ∈ A.keys ∧ A'.WF ∧ A'.keys.Sublist A.keys ∧ p ∉ A'.keys ∧
      A'.keys.length + 1 = A.keys.length ∧ A'.capacity = A.capacity ∧
      ∀ {K W : Type} [DecidableEq K] (f : P → K) (g : P → W), (A.keys.map f).Nodup →
        (A.proj f g).evict_entry = .ok ((f p, some (g p)), A'.proj f g) := by
  obtain ⟨p, l, hb⟩ := hm (by intro e; apply hne; simp [keys, e])
  obtain ⟨hbn, hbm⟩ := h.bins _ _ hb
  obtain ⟨vc, hv, hc⟩ := hbm p (by simp)
  have hpl := (List.nodup_cons.1 hbn).1
  have hp : p ∈ A.keys := List.mem_map.2 ⟨_, hv, rfl⟩
  let A' : LFUCache P Unit := { A with
    frequency_bin := fun i => if i = A.min_frequency then some l else A.frequency_bin i
    values := A.values.eraseP fun q => q.1 = p }
  have hmem : ∀ q w, (q, w) ∈ A.values → q ≠ p → (q, w) ∈ A'.values := by
    intro q w hq hne
    exact (List.mem_eraseP_of_neg (by simpa using hne)).2 hq
  have hmem' : ∀ q w, (q, w) ∈ A'.values → (q, w) ∈ A.values ∧ q ≠ p := by
    intro q w hq
    refine ⟨List.mem_of_mem_eraseP hq, ?_⟩
    rintro rfl
    have := nodup_touch (f := (·.1)) (g := (·.1)) h.nodup h.nodup hv
    exact (List.nodup_cons.1 this).1 (List.mem_map.2 ⟨_, hq, rfl⟩)
  have hk : A'.keys = A.keys.erase p := by
    simp only [keys, A', List.erase_eq_eraseP, List.eraseP_map]
    congr 2
    funext q
    simp only [Function.comp_def, Bool.beq_eq_decide_eq, decide_eq_decide]
    exact eq_comm
  have hlen : A'.keys.length + 1 = A.keys.length := by
    rw [hk, List.length_erase_of_mem hp]
    have := List.length_pos_of_mem hp
    omega
  refine ⟨p, A', hp, ⟨?_, ?_, ?_⟩, hk ▸ List.erase_sublist, fun hx => ?_, hlen, rfl, fun {K W} _ f g hf => ?_⟩
  · exact map_eraseP_nodup h.nodup
  · intro n m hm'
    have hm' : (if n = A.min_frequency then some l else A.frequency_bin n) = some m := hm'
    by_cases e : n = A.min_frequency
    · rw [if_pos e] at hm'
      cases Option.some.inj hm'
      refine ⟨(List.nodup_cons.1 hbn).2, fun k hkl => ?_⟩
      obtain ⟨w, hw, hcw⟩ := hbm k (List.mem_cons_of_mem _ hkl)
      exact ⟨w, hmem k w hw (fun e => hpl (e ▸ hkl)), e ▸ hcw⟩
    · rw [if_neg e] at hm'
      obtain ⟨h1, h2⟩ := h.bins _ _ hm'
      refine ⟨h1, fun k hkl => ?_⟩
      obtain ⟨w, hw, hcw⟩ := h2 k hkl
      refine ⟨w, hmem k w hw ?_, hcw⟩
      rintro rfl
      exact e (hcw ▸ (h.inj hw hv) ▸ hc)
  · intro k w hw
    obtain ⟨hw, hne⟩ := hmem' k w hw
    obtain ⟨m, hm', hkm⟩ := h.mem _ _ hw
    show ∃ m, (if w.count = A.min_frequency then some l else A.frequency_bin w.count) = some m ∧ k ∈ m
    by_cases e : w.count = A.min_frequency
    · rw [if_pos e]
      rw [e, hb] at hm'
      cases Option.some.inj hm'
      exact ⟨l, rfl, (List.mem_cons.1 hkm).resolve_left hne⟩
    · rw [if_neg e]; exact ⟨m, hm', hkm⟩
  · rw [hk] at hx
    exact (h.nodup.mem_erase_iff.1 hx).1 rfl
  · have hinj : ∀ q ∈ A.keys, f q = f p → q = p := fun q hq e => inj_of_nodup_map hf hq hp e
    have hl1 : (A.proj f g).lookup (f p) = some ⟨g p, vc.count⟩ :=
      lookup_of (by rw [proj_keys]; exact hf) (List.mem_map.2 ⟨_, hv, rfl⟩)
    have hb' : (A.proj f g).frequency_bin (A.proj f g).min_frequency = some (f p :: l.map f) := by simp [proj, hb]
    unfold evict_entry
    rw [hb']
    simp only [hl1, Option.map_some]
    have e1 : ((A.proj f g).values.eraseP fun q => decide (q.1 = f p)) = (A'.proj f g).values := by
      simp only [proj, A', List.eraseP_map]
      congr 1
      have : ∀ (vs : List (P × ValueCounter Unit)), (∀ q ∈ vs, q.1 ∈ A.keys) →
          vs.eraseP ((fun q => decide (q.1 = f p)) ∘ fun q : P × ValueCounter Unit => (f q.1, (⟨g q.1, q.2.count⟩ : ValueCounter W))) =
            vs.eraseP fun q => decide (q.1 = p) := by
        intro vs hvs
        induction vs with
        | nil => rfl
        | cons a r ih =>
          have ih := ih fun q hq => hvs q (List.mem_cons_of_mem _ hq)
          by_cases e : a.1 = p
          · simp [Function.comp_def, e]
          · have : f a.1 ≠ f p := fun e' => e (hinj _ (hvs a (List.mem_cons_self ..)) e')
            simp only [List.eraseP_cons, Function.comp_def, e, this, decide_false, cond_false]
            congr 1
      exact this _ fun q hq => List.mem_map.2 ⟨_, hq, rfl⟩
    have e2 : (fun i => if i = (A.proj f g).min_frequency then some (l.map f) else (A.proj f g).frequency_bin i) =
        (A'.proj f g).frequency_bin := by
      funext i
      show _ = Option.map (List.map f) (if i = A.min_frequency then some l else A.frequency_bin i)
      by_cases e : i = A.min_frequency
      · rw [if_pos e, if_pos (show i = (A.proj f g).min_frequency from e)]; rfl
      · rw [if_neg e, if_neg (show ¬ i = (A.proj f g).min_frequency from e)]; rfl
    rw [e1, e2]
    rfl

/-- A new key, when there is room: it goes to bin 1 in every image. -/
theorem insert {A : LFUCache P Unit} (h : A.WF) {p : P} (hl : A.keys.length < A.capacity) (hp : p ∉ A.keys) :
    ∃ A' : LFUCache P Unit, A'.WF ∧ A'.MinOk ∧ A'.keys = A.keys ++ [p] ∧ A'.capacity = A.capacity ∧
      ∀ {K W : Type} [DecidableEq K] (f : P → K) (g : P → W), f p ∉ A.keys.map f →
        (A.proj f g).set (f p) (g p) = .ok (A'.proj f g) := by
  have hnb : ∀ n l, A.frequency_bin n = some l → p ∉ l := by
    intro n l hl hpl
    obtain ⟨w, hw, _⟩ := (h.bins n l hl).2 p hpl
    exact hp (List.mem_map.2 ⟨_, hw, rfl⟩)
  let A' : LFUCache P Unit := { A with
    values := A.values ++ [(p, { value := (), count := 1 })]
    min_frequency := 1
    frequency_bin := binInsert A.frequency_bin 1 p }
  have hk : A'.keys = A.keys ++ [p] := by simp [keys, A']
  have hbin : ∀ i, A'.frequency_bin i = if i = 1 then some (((A.frequency_bin 1).getD []).erase p ++ [p]) else A.frequency_bin i :=
    fun i => rfl
  have h1 : ((A.frequency_bin 1).getD []).erase p = (A.frequency_bin 1).getD [] := by
    apply List.erase_of_not_mem
    cases hb : A.frequency_bin 1 with
    | none => simp
    | some l => exact hnb 1 l hb
  refine ⟨A', ⟨?_, ?_, ?_⟩, ?_, hk, rfl, fun {K W} _ f g hf => ?_⟩
  · show A'.keys.Nodup
    rw [hk, List.nodup_append]
    exact ⟨h.nodup, by simp, fun a ha b hb => by
      simp only [List.mem_singleton] at hb; subst hb; exact fun e => hp (e ▸ ha)⟩
  · intro n l hln
    rw [hbin, h1] at hln
    by_cases e : n = 1
    · rw [if_pos e] at hln
      cases Option.some.inj hln
      subst e
      cases hb : A.frequency_bin 1 with
      | none => simp [A']
      | some m =>
        obtain ⟨hn, hm⟩ := h.bins _ _ hb
        simp only [Option.getD_some]
        refine ⟨?_, fun k hk => ?_⟩
        · rw [List.nodup_append]
          exact ⟨hn, by simp, fun a ha b hb' => by
            simp only [List.mem_singleton] at hb'; subst hb'; exact fun e => hnb 1 m hb (e ▸ ha)⟩
        · rcases List.mem_append.1 hk with hk | hk
          · obtain ⟨w, hw, hc⟩ := hm k hk
            exact ⟨w, List.mem_append_left _ hw, hc⟩
          · simp only [List.mem_singleton] at hk; subst hk
            exact ⟨⟨(), 1⟩, by simp [A'], rfl⟩
    · rw [if_neg e] at hln
      obtain ⟨hn, hm⟩ := h.bins _ _ hln
      refine ⟨hn, fun k hk => ?_⟩
      obtain ⟨w, hw, hc⟩ := hm k hk
      exact ⟨w, List.mem_append_left _ hw, hc⟩
  · intro k w hw
    rw [hbin, h1]
    rcases List.mem_append.1 hw with hw | hw
    · obtain ⟨l, hl, hkl⟩ := h.mem _ _ hw
      by_cases e : w.count = 1
      · rw [if_pos e]
        refine ⟨_, rfl, ?_⟩
        rw [e] at hl
        simp [hl, hkl]
      · rw [if_neg e]; exact ⟨l, hl, hkl⟩
    · simp only [List.mem_singleton, Prod.mk.injEq] at hw
      obtain ⟨rfl, rfl⟩ := hw
      exact ⟨_, by rw [if_pos rfl], by simp⟩
  · intro _
    show ∃ k l, A'.frequency_bin 1 = some (k :: l)
    rw [hbin, if_pos rfl, h1]
    cases (A.frequency_bin 1).getD [] with
    | nil => exact ⟨p, [], rfl⟩
    | cons a b => exact ⟨a, b ++ [p], rfl⟩
  · have hl1 : (A.proj f g).lookup (f p) = none := lookup_none (by rw [proj_keys]; exact hf)
    have hlen : ¬ (A.proj f g).len ≥ (A.proj f g).capacity := by
      simp only [len, proj, List.length_map]
      simp only [keys, List.length_map] at hl
      omega
    unfold set
    rw [hl1]
    simp only [hlen, if_false]
    show Except.ok _ = _
    congr 1
    have e2 : binInsert (A.proj f g).frequency_bin 1 (f p) = (A'.proj f g).frequency_bin := by
      show _ = fun i => (binInsert _ _ _ i).map (List.map f)
      rw [bins_proj]
      · rfl
      · intro l hl q hq e
        obtain ⟨w, hw, _⟩ := (h.bins _ _ hl).2 q hq
        exact absurd (List.mem_map.2 ⟨q, List.mem_map.2 ⟨_, hw, rfl⟩, e⟩) hf
    rw [e2]
    simp [proj, A']

end LFUCache

/-! ### LFU: leader and follower -/

/-- The follower's decoder and the leader's encoder are two images of one abstract cache of pairs. -/
structure LFUni.SyncAt (A : LFUCache (V × Nat) Unit) (l f : LFUni V) : Prop where
  wf : A.WF
  min : A.MinOk
  encoder : l.lfu_cache_encoder = A.proj (·.1) (·.2)
  decoder : f.lfu_cache_decoder = A.proj (·.2) (·.1)
  keys : (A.keys.map (·.1)).Nodup
  vals : (A.keys.map (·.2)).Nodup
  le : ∀ p ∈ A.keys, p.2 ≤ l.encoding
  count : l.encoding = A.keys.length
  len : A.keys.length ≤ l.size
  enc : f.encoding = l.encoding
  size : f.size = l.size
  max : f.max = l.max
  fits : l.size ≤ l.max
  pos : 0 < l.size
  cap : l.size ≤ A.capacity

def LFUni.Sync (l f : LFUni V) : Prop := ∃ A, LFUni.SyncAt A l f

namespace LFUni

theorem Sync.step {l f : LFUni V} (h : Sync l f) (v : V) :
    ∃ r l' f', l.try_encode v = .ok (r, l') ∧ f.decode r = .ok (v, f') ∧ Sync l' f' ∧ l'.size = l.size ∧ l'.max = l.max := by
  obtain ⟨le, ld, lenc, lsize, lmax⟩ := l
  obtain ⟨fe, fd, enc, size, max⟩ := f
  obtain ⟨A, hwf, hmin, h1, h1', h2, h3, h4, h5, h6, h7, h8, h9, h10, h11, h12⟩ := h
  simp only at h1 h1' h2 h3 h4 h5 h6 h7 h8 h9 h10 h11 h12
  subst h1 h1' h7 h8 h9
  by_cases hm : v ∈ A.keys.map (·.1)
  · obtain ⟨⟨v, e⟩, hp, rfl⟩ := List.mem_map.1 hm
    obtain ⟨A', hwf', hmin', hk, hc, hn⟩ := LFUCache.hit hwf hmin hp
    have he := hn (K := V) (W := Nat) (·.1) (·.2) h2
    have hd := hn (K := Nat) (W := V) (·.2) (·.1) h3
    simp only at he hd
    refine ⟨.encoded e, { lfu_cache_encoder := A'.proj (·.1) (·.2), lfu_cache_decoder := ld, encoding := enc, size, max },
      { lfu_cache_encoder := fe, lfu_cache_decoder := A'.proj (·.2) (·.1), encoding := enc, size, max }, ?_, ?_,
      ⟨A', hwf', hmin', rfl, rfl, hk ▸ h2, hk ▸ h3, hk ▸ h4, hk ▸ h5, hk ▸ h6, rfl, rfl, rfl, h10, h11, hc ▸ h12⟩, rfl, rfl⟩
    · simp [try_encode, he, bind, Except.bind, pure, Except.pure]
    · simp [decode, hd, bind, Except.bind, pure, Except.pure]
  · have he := LFUCache.miss (fun p : V × Nat => p.1) (fun p => p.2) hm
    have hlen1 : (A.proj (fun p : V × Nat => p.1) (fun p => p.2)).len = A.keys.length := by
      simp [LFUCache.len, LFUCache.proj, LFUCache.keys]
    have hlen2 : (A.proj (fun p : V × Nat => p.2) (fun p => p.1)).len = A.keys.length := by
      simp [LFUCache.len, LFUCache.proj, LFUCache.keys]
    by_cases hfull : A.keys.length = size
    · obtain ⟨⟨w, e⟩, B, hp, hBwf, hBk, hBp, hBlen, hBc, hBn⟩ :=
        LFUCache.evict hwf hmin (by intro e; rw [e] at hfull; simp at hfull; omega)
      have hsub : ∀ q, q ∈ B.keys → q ∈ A.keys := fun q hq => hBk.subset hq
      have hB2 : (B.keys.map (·.1)).Nodup := h2.sublist (hBk.map _)
      have hB3 : (B.keys.map (·.2)).Nodup := h3.sublist (hBk.map _)
      have hv : v ∉ B.keys.map (·.1) := by
        intro hx
        obtain ⟨q, hq, e⟩ := List.mem_map.1 hx
        exact hm (List.mem_map.2 ⟨q, hsub q hq, e⟩)
      have he2 : e ∉ B.keys.map (·.2) := by
        intro hx
        obtain ⟨q, hq, e'⟩ := List.mem_map.1 hx
        have : q = (w, e) := inj_of_nodup_map h3 (hsub q hq) hp e'
        exact hBp (this ▸ hq)
      obtain ⟨A', hwf', hmin', hk, hc, hn⟩ := LFUCache.insert (p := (v, e)) hBwf (by rw [hBc]; omega)
        (fun hx => hv (List.mem_map.2 ⟨_, hx, rfl⟩))
      have n1 := hBn (K := V) (W := Nat) (·.1) (·.2) h2
      have n2 := hBn (K := Nat) (W := V) (·.2) (·.1) h3
      have n3 := hn (K := V) (W := Nat) (·.1) (·.2) hv
      have n4 := hn (K := Nat) (W := V) (·.2) (·.1) he2
      simp only at n1 n2 n3 n4
      refine ⟨.notEncoded v, { lfu_cache_encoder := A'.proj (·.1) (·.2), lfu_cache_decoder := ld, encoding := enc, size, max },
        { lfu_cache_encoder := fe, lfu_cache_decoder := A'.proj (·.2) (·.1), encoding := enc, size, max }, ?_, ?_,
        ⟨A', hwf', hmin', rfl, rfl, ?_, ?_, ?_, ?_, ?_, rfl, rfl, rfl, h10, h11, by rw [hc, hBc]; exact h12⟩, rfl, rfl⟩
      · simp [try_encode, he, hlen1, hfull, n1, n3, bind, Except.bind, pure, Except.pure]
      · simp [decode, hlen2, hfull, n2, n4, bind, Except.bind, pure, Except.pure]
      · rw [hk, List.map_append, List.nodup_append]
        exact ⟨hB2, by simp, fun a ha b hb => by simp at hb; subst hb; exact fun e => hv (e ▸ ha)⟩
      · rw [hk, List.map_append, List.nodup_append]
        exact ⟨hB3, by simp, fun a ha b hb => by simp at hb; subst hb; exact fun e => he2 (e ▸ ha)⟩
      · intro q hq
        rw [hk] at hq
        rcases List.mem_append.1 hq with hq | hq
        · exact h4 q (hsub q hq)
        · simp only [List.mem_singleton] at hq; subst hq; exact h4 (w, e) hp
      · rw [hk]; simp; omega
      · rw [hk]; simp; omega
    · have ho : enc < max := by omega
      have he2 : enc + 1 ∉ A.keys.map (·.2) := by
        intro hx
        obtain ⟨q, hq, e'⟩ := List.mem_map.1 hx
        have := h4 q hq; omega
      obtain ⟨A', hwf', hmin', hk, hc, hn⟩ := LFUCache.insert (p := (v, enc + 1)) hwf (by omega)
        (fun hx => hm (List.mem_map.2 ⟨_, hx, rfl⟩))
      have n3 := hn (K := V) (W := Nat) (·.1) (·.2) hm
      have n4 := hn (K := Nat) (W := V) (·.2) (·.1) he2
      simp only at n3 n4
      refine ⟨.notEncoded v, { lfu_cache_encoder := A'.proj (·.1) (·.2), lfu_cache_decoder := ld, encoding := enc + 1, size, max },
        { lfu_cache_encoder := fe, lfu_cache_decoder := A'.proj (·.2) (·.1), encoding := enc + 1, size, max }, ?_, ?_,
        ⟨A', hwf', hmin', rfl, rfl, ?_, ?_, ?_, ?_, ?_, rfl, rfl, rfl, h10, h11, by rw [hc]; exact h12⟩, rfl, rfl⟩
      · simp [try_encode, he, hlen1, hfull, n3, bind, Except.bind, pure, Except.pure, addOne, ho]
      · simp [decode, hlen2, hfull, n4, bind, Except.bind, pure, Except.pure, addOne, ho]
      · rw [hk, List.map_append, List.nodup_append]
        exact ⟨h2, by simp, fun a ha b hb => by simp at hb; subst hb; exact fun e => hm (e ▸ ha)⟩
      · rw [hk, List.map_append, List.nodup_append]
        exact ⟨h3, by simp, fun a ha b hb => by simp at hb; subst hb; exact fun e => he2 (e ▸ ha)⟩
      · intro q hq
        rw [hk] at hq
        rcases List.mem_append.1 hq with hq | hq
        · exact Nat.le_succ_of_le (h4 q hq)
        · simp only [List.mem_singleton] at hq; subst hq; exact Nat.le_refl _
      · rw [hk]; simp; omega
      · rw [hk]; simp; omega

theorem sync_new {size max : Nat} (hs : 0 < size) (hm : size ≤ max) :
    ∃ c : LFUni V, new max size = .ok c ∧ Sync c c ∧ c.size = size ∧ c.max = max := by
  refine ⟨{ lfu_cache_encoder := { capacity := size }, lfu_cache_decoder := { capacity := size }, encoding := 0, size, max },
    by simp [new, LFUCache.with_capacity, Nat.ne_of_gt hs, bind, Except.bind, pure, Except.pure], ?_, rfl, rfl⟩
  refine ⟨{ capacity := size }, ⟨by simp, by simp, by simp⟩, by simp [LFUCache.MinOk], rfl, rfl, by simp [LFUCache.keys],
    by simp [LFUCache.keys], by simp [LFUCache.keys], rfl, by simp [LFUCache.keys], rfl, rfl, rfl, hm, hs, Nat.le_refl _⟩

end LFUni

end Omni
