import Verif.Proof.UniPolicy
import Verif.Spec.UniOnce
import Mathlib.Data.List.Induction
import Mathlib.Data.List.Perm.Subperm
/-
While there is room in the cache, the encoding of a value is its number in the order of first appearance.
-/
namespace Omni

variable {V : Type} [DecidableEq V]

theorem appearance_snoc (vs : List V) (v : V) : appearance (vs ++ [v]) = if v ∈ appearance vs then appearance vs else appearance vs ++ [v] := by
  unfold appearance
  rw [List.foldl_append]
  rfl

theorem mem_appearance (vs : List V) : ∀ w, w ∈ appearance vs ↔ w ∈ vs := by
  induction vs using List.reverseRecOn with
  | nil => exact fun w => Iff.rfl
  | append_singleton vs v ih =>
    intro w
    rw [appearance_snoc]
    split
    · rename_i h
      rw [ih, List.mem_append, List.mem_singleton]
      exact ⟨.inl, fun k => k.elim id fun e => e ▸ (ih v).1 h⟩
    · rw [List.mem_append, List.mem_append, ih]

theorem nodup_appearance (vs : List V) : (appearance vs).Nodup := by
  induction vs using List.reverseRecOn with
  | nil => exact List.nodup_nil
  | append_singleton vs v ih =>
    rw [appearance_snoc]
    split
    · exact ih
    · rename_i h
      rw [List.nodup_append]
      exact ⟨ih, by simp, fun a ha b hb e => h (by rw [← List.mem_singleton.1 hb, ← e]; exact ha)⟩

/-- A part of a list does not have more different values. -/
theorem length_appearance_le {us vs : List V} (h : ∀ w ∈ us, w ∈ vs) : (appearance us).length ≤ vs.dedup.length :=
  ((nodup_appearance us).subperm fun w hw => List.mem_dedup.2 (h w ((mem_appearance us w).1 hw))).length_le

/-- The pairs are the values of `F` with their numbers. -/
def Numbers (l : List (V × Nat)) (F : List V) : Prop := (l.map (·.1)).Perm F ∧ ∀ p ∈ l, p.2 = F.idxOf p.1 + 1

omit [DecidableEq V] in
theorem Numbers.perm [DecidableEq V] {l l' : List (V × Nat)} {F : List V} (h : Numbers l F) (hp : l'.Perm l) : Numbers l' F :=
  ⟨(hp.map _).trans h.1, fun p hm => h.2 p (hp.mem_iff.1 hm)⟩

theorem Numbers.snoc {l : List (V × Nat)} {F : List V} (h : Numbers l F) {v : V} (hv : v ∉ F) : Numbers (l ++ [(v, F.length + 1)]) (F ++ [v]) := by
  refine ⟨by rw [List.map_append]; exact h.1.append_right _, fun p hp => ?_⟩
  rcases List.mem_append.1 hp with hp | hp
  · rw [List.idxOf_append_of_mem (h.1.mem_iff.1 (List.mem_map_of_mem hp))]
    exact h.2 p hp
  · cases List.mem_singleton.1 hp
    rw [List.idxOf_append_of_notMem hv]
    simp

theorem FieldCache.try_encode_lru {c c' : LRUni V} {v : V} {m : MaybeEncoded V} (h : c.try_encode v = .ok (m, c')) :
    (FieldCache.lru c).try_encode v = .ok (m, .lru c') := by
  show (do let (r, c) ← c.try_encode v; return (r, FieldCache.lru c) : CM _) = _
  rw [h]
  rfl

theorem FieldCache.try_encode_lfu {c c' : LFUni V} {v : V} {m : MaybeEncoded V} (h : c.try_encode v = .ok (m, c')) :
    (FieldCache.lfu c).try_encode v = .ok (m, .lfu c') := by
  show (do let (r, c) ← c.try_encode v; return (r, FieldCache.lfu c) : CM _) = _
  rw [h]
  rfl

/-- Taking a pair out and putting it in front. -/
theorem perm_find {v : V} {p : V × Nat} {l : List (V × Nat)} (h : (l.find? fun p => p.1 = v) = some p) : (p :: l.eraseP fun p => p.1 = v).Perm l := by
  obtain ⟨h1, a, b, rfl, h2⟩ := List.find?_eq_some_iff_append.1 h
  rw [List.eraseP_append_right _ fun q hq => by simpa using h2 q hq, List.eraseP_cons_of_pos (p := fun p : V × Nat => decide (p.1 = v)) h1]
  exact List.perm_middle.symm

/-- The encoder of the field knows the values of `F`, and there has been room for them. -/
def FieldCache.Roomy (a : FieldAttr) (F : List V) : FieldCache V → Prop
  | .lru c => Numbers c.lru_cache_encoder.items F ∧ c.lru_cache_encoder.cap = a.size ∧ c.encoding = F.length ∧ c.size = a.size ∧ c.max = a.max
  | .lfu c => ∃ s : List (Used V), c.Ideal s a.size a.max ∧ Numbers (s.map fun u => (u.value, u.code)) F

theorem FieldCache.Roomy.hit {a : FieldAttr} (ha : a.Fits) {F : List V} {c : FieldCache V} (h : c.Roomy a F) {v : V} (hv : v ∈ F) :
    ∃ c', c.try_encode v = .ok (.encoded (F.idxOf v + 1), c') ∧ c'.Roomy a F := by
  cases c with
  | lru c =>
    obtain ⟨h1, h2, h3, h4, h5⟩ := h
    cases hf : c.lru_cache_encoder.items.find? fun p => p.1 = v with
    | none =>
      obtain ⟨p, hp, e⟩ := List.mem_map.1 (h1.1.mem_iff.2 hv)
      exact absurd (List.find?_eq_none.1 hf p hp) (by simpa using e)
    | some p =>
      have hp := List.mem_of_find?_eq_some hf
      have e : p.1 = v := by simpa using List.find?_some hf
      refine ⟨.lru { c with lru_cache_encoder := { c.lru_cache_encoder with items := p :: c.lru_cache_encoder.items.eraseP fun p => p.1 = v } }, ?_,
        h1.perm (perm_find hf), h2, h3, h4, h5⟩
      refine FieldCache.try_encode_lru ?_
      unfold LRUni.try_encode LruCache.get
      rw [hf]
      dsimp only
      rw [h1.2 p hp, e]
  | lfu c =>
    obtain ⟨s, h1, h2⟩ := h
    obtain ⟨c', k1, k2⟩ := h1.step ha.1 ha.2 v
    unfold Used.encode at k1 k2
    cases hf : s.find? fun u => u.value = v with
    | none =>
      obtain ⟨p, hp, e⟩ := List.mem_map.1 (h2.1.mem_iff.2 hv)
      obtain ⟨u, hu, rfl⟩ := List.mem_map.1 hp
      exact absurd (List.find?_eq_none.1 hf u hu) (by simpa using e)
    | some u =>
      have hu := List.mem_of_find?_eq_some hf
      have e : u.value = v := by simpa using List.find?_some hf
      rw [hf] at k1 k2
      dsimp only at k1 k2
      have hc : u.code = F.idxOf v + 1 := by rw [← e]; exact h2.2 (u.value, u.code) (List.mem_map_of_mem hu)
      refine ⟨.lfu c', ?_, _, k2, h2.perm ?_⟩
      · rw [← hc]
        exact FieldCache.try_encode_lfu k1
      · rw [← e, List.map_append]
        refine .trans ?_ ((LFUCache.perm_filter h1.show_.keys hu).map fun u => (u.value, u.code)).symm
        rw [List.map_append]
        exact .refl _

theorem FieldCache.Roomy.miss {a : FieldAttr} (ha : a.Fits) {F : List V} {c : FieldCache V} (h : c.Roomy a F) {v : V} (hv : v ∉ F) (hr : F.length < a.size) :
    ∃ c', c.try_encode v = .ok (.notEncoded v, c') ∧ c'.Roomy a (F ++ [v]) := by
  cases c with
  | lru c =>
    obtain ⟨h1, h2, h3, h4, h5⟩ := h
    have hl : c.lru_cache_encoder.items.length = F.length := by rw [← h1.1.length_eq, List.length_map]
    have hno : ∀ p ∈ c.lru_cache_encoder.items, ¬ p.1 = v := fun p hp e => hv (h1.1.mem_iff.1 (e ▸ List.mem_map_of_mem hp))
    have hf : (c.lru_cache_encoder.items.find? fun p => p.1 = v) = none := List.find?_eq_none.2 fun p hp => by simpa using hno p hp
    have hany : (c.lru_cache_encoder.items.any fun p => p.1 = v) = false := List.any_eq_false.2 fun p hp => by simpa using hno p hp
    refine ⟨.lru { c with lru_cache_encoder := { c.lru_cache_encoder with items := (v, F.length + 1) :: c.lru_cache_encoder.items }, encoding := F.length + 1 }, ?_,
      (h1.snoc hv).perm ?_, h2, by simp, h4, h5⟩
    · have := ha.2
      refine FieldCache.try_encode_lru ?_
      unfold LRUni.try_encode LruCache.get
      rw [hf]
      dsimp only
      unfold LruCache.len addOne
      rw [hl, if_neg (by omega), if_pos (by omega), h3]
      simp only [bind, Except.bind, pure, Except.pure]
      unfold LruCache.push LruCache.len
      rw [hany, if_neg (by simp), if_neg (by omega)]
    · exact List.perm_append_comm (l₁ := [(v, F.length + 1)])
  | lfu c =>
    obtain ⟨s, h1, h2⟩ := h
    obtain ⟨c', k1, k2⟩ := h1.step ha.1 ha.2 v
    have hl : s.length = F.length := by rw [← h2.1.length_eq]; simp
    have hf : (s.find? fun u => u.value = v) = none := List.find?_eq_none.2 fun u hu => by
      simp only [decide_eq_true_eq]
      exact fun e => hv (h2.1.mem_iff.1 (List.mem_map.2 ⟨(u.value, u.code), List.mem_map_of_mem hu, e⟩))
    unfold Used.encode at k1 k2
    rw [hf] at k1 k2
    dsimp only at k1 k2
    rw [if_pos (by omega)] at k1 k2
    refine ⟨.lfu c', ?_, _, k2, ?_⟩
    · exact FieldCache.try_encode_lfu k1
    · rw [List.map_append, hl]
      exact h2.snoc hv

theorem FieldCache.Roomy.all {a : FieldAttr} (ha : a.Fits) : ∀ (vs : List V) {c : FieldCache V} {us : List V}, c.Roomy a (appearance us) → (us ++ vs).dedup.length ≤ a.size →
    ∃ ms, c.encodeAll vs = .ok ms ∧ ms.length = vs.length ∧ ∀ b v f, vs = b ++ v :: f → ms[b.length]? = some (numbered (us ++ b) v)
  | [], _, _, _, _ => ⟨[], rfl, rfl, fun b v f e => by simp at e⟩
  | v :: vs, c, us, h, hs => by
    have hs' : ((us ++ [v]) ++ vs).dedup.length ≤ a.size := by rwa [List.append_assoc]
    obtain ⟨c', h1, h2⟩ : ∃ c', c.try_encode v = .ok (numbered us v, c') ∧ c'.Roomy a (appearance (us ++ [v])) := by
      unfold numbered
      rw [appearance_snoc]
      by_cases hv : v ∈ us
      · have hv' := (mem_appearance us v).2 hv
        rw [if_pos hv, if_pos hv']
        exact h.hit ha hv'
      · have hv' := fun k => hv ((mem_appearance us v).1 k)
        rw [if_neg hv, if_neg hv']
        refine h.miss ha hv' (Nat.lt_of_lt_of_le ?_ hs)
        have := length_appearance_le (us := us ++ [v]) (vs := us ++ v :: vs) fun w hw => by
          rcases List.mem_append.1 hw with k | k
          · exact List.mem_append_left _ k
          · cases List.mem_singleton.1 k; simp
        rw [appearance_snoc, if_neg hv', List.length_append] at this
        exact this
    obtain ⟨ms, k1, k2, k3⟩ := FieldCache.Roomy.all ha vs h2 hs'
    refine ⟨numbered us v :: ms, ?_, by simp [k2], fun b w f e => ?_⟩
    · simp only [FieldCache.encodeAll, h1, k1, bind, Except.bind, pure, Except.pure]
    · cases b with
      | nil => cases e; simp
      | cons x b =>
        cases e
        have := k3 b w f rfl
        simpa using this

theorem FieldCache.roomy_new {a : FieldAttr} (ha : a.Fits) : ∃ c : FieldCache V, FieldCache.new a = .ok c ∧ c.Roomy a (appearance []) := by
  unfold FieldCache.new
  by_cases hl : a.lfu = true
  · obtain ⟨c, h1, h2⟩ := LFUni.ideal_new (V := V) (max := a.max) ha.1
    refine ⟨.lfu c, ?_, [], h2, .refl _, nofun⟩
    rw [if_pos hl, h1]
    rfl
  · refine ⟨.lru { lru_cache_encoder := { cap := a.size }, lru_cache_decoder := { cap := a.size }, encoding := 0, size := a.size, max := a.max }, ?_,
      ⟨.refl _, nofun⟩, rfl, rfl, rfl, rfl⟩
    have := ha.1
    rw [if_neg hl]
    unfold LRUni.new LruCache.new
    rw [if_neg (by omega), if_neg (by omega)]
    rfl

end Omni
