import Verif.Proof.UniCache
import Verif.Spec.UniCache
/-
A serialised and deserialised LFU cache: the same entries in another order, and the same bins.
-/
namespace Omni

variable {K W V : Type} [DecidableEq K] [DecidableEq V]

/-- Both panic alike, or both do not. -/
def Alike2 {α β : Type} (R : α → β → Prop) : CM α → CM β → Prop
  | .ok a, .ok b => R a b
  | .error e, .error e' => e = e'
  | _, _ => False

theorem Alike2.bind {α β γ δ : Type} {R : α → β → Prop} {Q : γ → δ → Prop} {x : CM α} {y : CM β} {f : α → CM γ} {g : β → CM δ}
    (h : Alike2 R x y) (hf : ∀ a b, R a b → Alike2 Q (f a) (g b)) : Alike2 Q (x >>= f) (y >>= g) := by
  cases x <;> cases y <;> simp only [Alike2] at h
  · exact h
  · exact hf _ _ h

/-- `B` has the entries of `A`, perhaps in another order. -/
structure Twin (A B : LFUCache K W) : Prop where
  values : A.values.Perm B.values
  keys : (A.values.map (·.1)).Nodup
  bins : A.frequency_bin = B.frequency_bin
  nodup : ∀ i l, A.frequency_bin i = some l → l.Nodup
  cap : A.capacity = B.capacity
  min : A.min_frequency = B.min_frequency

namespace Twin
variable {A B : LFUCache K W}

omit [DecidableEq K] in
theorem self (h : Twin A B) : Twin A A := ⟨.refl _, h.keys, rfl, h.nodup, rfl, rfl⟩

omit [DecidableEq K] in
theorem swap (h : Twin A B) : Twin B A :=
  ⟨h.values.symm, (h.values.map _).nodup_iff.1 h.keys, h.bins.symm, by rw [← h.bins]; exact h.nodup, h.cap.symm, h.min.symm⟩

omit [DecidableEq K] in
theorem trans {C : LFUCache K W} (h : Twin A B) (k : Twin B C) : Twin A C :=
  ⟨h.values.trans k.values, h.keys, h.bins.trans k.bins, h.nodup, h.cap.trans k.cap, h.min.trans k.min⟩

omit [DecidableEq K] in
theorem len (h : Twin A B) : A.len = B.len := h.values.length_eq

theorem lookup (h : Twin A B) (k : K) : A.lookup k = B.lookup k := by
  by_cases hk : k ∈ A.values.map (·.1)
  · obtain ⟨⟨k', a⟩, hm, rfl⟩ := List.mem_map.1 hk
    rw [LFUCache.lookup_of h.keys hm, LFUCache.lookup_of h.swap.keys (h.values.mem_iff.1 hm)]
  · rw [LFUCache.lookup_none hk, LFUCache.lookup_none fun e => hk ((h.values.map _).mem_iff.2 e)]

theorem insert_nodup {bins : Nat → Option (List K)} (h : ∀ i l, bins i = some l → l.Nodup) (n : Nat) (k : K) : ∀ i l, LFUCache.binInsert bins n k i = some l → l.Nodup := by
  intro i l hl
  unfold LFUCache.binInsert at hl
  split at hl
  · have h1 : ((bins n).getD []).Nodup := by
      cases e : bins n with
      | none => exact List.nodup_nil
      | some l => exact h n l e
    cases hl
    rw [List.nodup_append]
    refine ⟨h1.erase k, by simp, fun a ha b hb e => ?_⟩
    simp only [List.mem_singleton] at hb
    subst hb
    subst e
    exact h1.not_mem_erase ha
  · exact h i l hl

theorem update (h : Twin A B) (k : K) : Alike2 Twin (A.update_frequency_bin k) (B.update_frequency_bin k) := by
  unfold LFUCache.update_frequency_bin
  rw [← h.lookup k, ← h.bins, ← h.min]
  cases A.lookup k with
  | none => exact h
  | some vc =>
    dsimp only
    cases e : A.frequency_bin vc.count with
    | none => rfl
    | some bin =>
      refine ⟨h.values.map _, ?_, rfl, insert_nodup ?_ _ _, h.cap, rfl⟩
      · have : (A.values.map fun p => if p.1 = k then (p.1, { p.2 with count := p.2.count + 1 }) else p).map (·.1) = A.values.map (·.1) := by
          rw [List.map_map]
          refine List.map_congr_left fun p _ => ?_
          simp only [Function.comp]
          split <;> rfl
        rw [this]
        exact h.keys
      · intro i l hl
        split at hl
        · cases hl; exact (h.nodup _ _ e).erase k
        · exact h.nodup i l hl

theorem get (h : Twin A B) (k : K) : Alike2 (fun x y => x.1 = y.1 ∧ Twin x.2 y.2) (A.get k) (B.get k) :=
  (h.update k).bind fun a b hab => ⟨by rw [hab.lookup], hab⟩

theorem erase (h : Twin A B) (k : K) {bins : Nat → Option (List K)} (hb : ∀ i l, bins i = some l → l.Nodup) :
    Twin { A with frequency_bin := bins, values := A.values.eraseP fun p => p.1 = k } { B with frequency_bin := bins, values := B.values.eraseP fun p => p.1 = k } where
  values := by
    refine List.Perm.eraseP _ ?_ h.values
    have := h.keys
    rw [List.Nodup, List.pairwise_map] at this
    refine this.imp fun hne e1 e2 => ?_
    simp only [decide_eq_true_eq] at e1 e2
    exact hne (e1.trans e2.symm)
  keys := h.keys.sublist ((List.eraseP_sublist ..).map _)
  bins := rfl
  nodup := hb
  cap := h.cap
  min := h.min

theorem evict (h : Twin A B) : Alike2 (fun x y => x.1 = y.1 ∧ Twin x.2 y.2 ∧ x.2.values.Sublist A.values) A.evict_entry B.evict_entry := by
  unfold LFUCache.evict_entry
  rw [← h.bins, ← h.min]
  cases e : A.frequency_bin A.min_frequency with
  | none => rfl
  | some l =>
    cases l with
    | nil => rfl
    | cons k bin =>
      dsimp only
      have hn : ∀ i l, (if i = A.min_frequency then some bin else A.frequency_bin i) = some l → l.Nodup := by
        intro i l hl
        split at hl
        · cases hl; exact (List.nodup_cons.1 (h.nodup _ _ e)).2
        · exact h.nodup i l hl
      have h1 := h.erase k hn
      exact ⟨by rw [h.lookup], ⟨h1.values, h1.keys, rfl, hn, h.cap, rfl⟩, List.eraseP_sublist ..⟩

theorem put (h : Twin A B) {k : K} (hk : A.lookup k = none) (v : W) :
    Twin { A with values := A.values ++ [(k, { value := v, count := 1 })], min_frequency := 1, frequency_bin := LFUCache.binInsert A.frequency_bin 1 k }
      { B with values := B.values ++ [(k, { value := v, count := 1 })], min_frequency := 1, frequency_bin := LFUCache.binInsert B.frequency_bin 1 k } where
  values := h.values.append_right _
  keys := by
    rw [List.map_append, List.nodup_append]
    refine ⟨h.keys, by simp, fun a ha b hb e => ?_⟩
    simp only [List.map_cons, List.map_nil, List.mem_singleton] at hb
    subst hb
    subst e
    obtain ⟨⟨k', x⟩, hm, rfl⟩ := List.mem_map.1 ha
    rw [LFUCache.lookup_of h.keys hm] at hk
    cases hk
  bins := by rw [h.bins]
  nodup := insert_nodup h.nodup 1 k
  cap := h.cap
  min := rfl

theorem set (h : Twin A B) (k : K) (v : W) : Alike2 Twin (A.set k v) (B.set k v) := by
  unfold LFUCache.set
  rw [← h.lookup k]
  cases e : A.lookup k with
  | some x =>
    dsimp only
    have : (A.values.map fun p => if p.1 = k then (p.1, { p.2 with value := v }) else p).map (·.1) = A.values.map (·.1) := by
      rw [List.map_map]
      refine List.map_congr_left fun p _ => ?_
      simp only [Function.comp]
      split <;> rfl
    have h2 : Twin { A with values := A.values.map fun p => if p.1 = k then (p.1, { p.2 with value := v }) else p }
        { B with values := B.values.map fun p => if p.1 = k then (p.1, { p.2 with value := v }) else p } :=
      ⟨h.values.map _, by rw [this]; exact h.keys, h.bins, h.nodup, h.cap, h.min⟩
    exact h2.update k
  | none =>
    dsimp only
    rw [← h.len, ← h.cap]
    split
    · refine h.evict.bind fun a b hab => ?_
      have h1 : a.2.lookup k = none := LFUCache.lookup_none fun hm => by
        obtain ⟨⟨k', x⟩, hm', rfl⟩ := List.mem_map.1 hm
        rw [LFUCache.lookup_of h.keys (hab.2.2.subset hm')] at e
        cases e
      exact hab.2.1.put h1 v
    · exact h.put e v

theorem setAll : ∀ (l : List (K × W)) {A B : LFUCache K W}, Twin A B → Alike2 Twin (A.setAll l) (B.setAll l)
  | [], _, _, h => h
  | p :: r, _, _, h => (h.set p.1 p.2).bind fun _ _ hab => hab.setAll r

omit [DecidableEq K] in
theorem fresh (c : Nat) : Twin ({ capacity := c } : LFUCache K W) { capacity := c } := ⟨.refl _, List.nodup_nil, rfl, nofun, rfl, rfl⟩

theorem mapOf_nodup {X : Type} : ∀ (l m : List (K × X)), ((m ++ l).map (·.1)).Nodup → LFUCache.mapOf m l = m ++ l
  | [], m, _ => by simp [LFUCache.mapOf]
  | p :: r, m, h => by
    have hp : ¬ (m.any fun q => q.1 = p.1) = true := by
      intro hc
      obtain ⟨q, hq, e⟩ := List.any_eq_true.1 hc
      rw [List.map_append, List.nodup_append] at h
      exact h.2.2 q.1 (List.mem_map_of_mem hq) p.1 (by simp) (by simpa using e)
    rw [LFUCache.mapOf, if_neg hp, mapOf_nodup r (m ++ [p]) (by simpa using h)]
    simp

theorem setOf_nodup : ∀ (l s : List K), (s ++ l).Nodup → LFUCache.setOf s l = s ++ l
  | [], s, _ => by simp [LFUCache.setOf]
  | k :: r, s, h => by
    have hk : k ∉ s := by
      rw [List.nodup_append] at h
      exact fun hs => h.2.2 k hs k (by simp) rfl
    rw [LFUCache.setOf, List.erase_of_not_mem hk, setOf_nodup r (s ++ [k]) (by simpa using h)]
    simp

/-- The deserialised cache is a twin. -/
theorem wire (h : Twin A A) {order : List (K × ValueCounter W) → List (K × ValueCounter W)} (ho : ∀ l, (order l).Perm l) : Twin A (A.wire order) where
  values := by
    show A.values.Perm (LFUCache.mapOf [] (order A.values))
    rw [mapOf_nodup _ [] (((ho A.values).map _).nodup_iff.2 h.keys)]
    exact (ho A.values).symm
  keys := h.keys
  bins := by
    funext i
    show A.frequency_bin i = (A.frequency_bin i).map fun l => LFUCache.setOf [] l
    cases e : A.frequency_bin i with
    | none => rfl
    | some l => rw [Option.map_some, setOf_nodup l [] (h.nodup i l e)]; rfl
  nodup := h.nodup
  cap := rfl
  min := rfl

end Twin

/-- The same for both halves of the cache of a field. -/
structure LFUni.Twins (c d : LFUni V) : Prop where
  enc : Twin c.lfu_cache_encoder d.lfu_cache_encoder
  dec : Twin c.lfu_cache_decoder d.lfu_cache_decoder
  encoding : c.encoding = d.encoding
  size : c.size = d.size
  max : c.max = d.max

namespace LFUni
variable {c d : LFUni V}

omit [DecidableEq V] in
theorem Twins.self (h : Twins c d) : Twins c c := ⟨h.enc.self, h.dec.self, rfl, rfl, rfl⟩

theorem Twins.try_encode (h : Twins c d) (v : V) : Alike2 (fun x y => x.1 = y.1 ∧ Twins x.2 y.2) (c.try_encode v) (d.try_encode v) := by
  unfold LFUni.try_encode
  refine (h.enc.get v).bind fun a b ⟨h1, h2⟩ => ?_
  obtain ⟨a1, a2⟩ := a
  obtain ⟨b1, b2⟩ := b
  dsimp only at h1 h2
  subst h1
  cases a1 with
  | some e => exact ⟨rfl, h2, h.dec, h.encoding, h.size, h.max⟩
  | none =>
    dsimp only
    rw [← h2.len, ← h.size, ← h.max, ← h.encoding]
    split
    · refine h2.evict.bind fun a b ⟨k1, k2, _⟩ => ?_
      obtain ⟨⟨a0, a1⟩, a2⟩ := a
      obtain ⟨⟨b0, b1⟩, b2⟩ := b
      dsimp only at k1 k2
      cases k1
      cases a1 with
      | none => rfl
      | some p => exact (k2.set v p).bind fun x y hxy => ⟨rfl, hxy, h.dec, rfl, rfl, rfl⟩
    · refine Alike2.bind (R := Eq) (by cases addOne c.max c.encoding <;> rfl) fun e e' he => ?_
      subst he
      exact (h2.set v e).bind fun x y hxy => ⟨rfl, hxy, h.dec, rfl, rfl, rfl⟩

omit [DecidableEq V] in
theorem Twins.decode (h : Twins c d) (m : MaybeEncoded V) : Alike2 (fun x y => x.1 = y.1 ∧ Twins x.2 y.2) (c.decode m) (d.decode m) := by
  unfold LFUni.decode
  cases m with
  | encoded e =>
    refine (h.dec.get e).bind fun a b ⟨h1, h2⟩ => ?_
    obtain ⟨a1, a2⟩ := a
    obtain ⟨b1, b2⟩ := b
    dsimp only at h1 h2
    subst h1
    cases a1 with
    | some v => exact ⟨rfl, h.enc, h2, h.encoding, h.size, h.max⟩
    | none => rfl
  | notEncoded v =>
    dsimp only
    rw [← h.dec.len, ← h.size, ← h.max, ← h.encoding]
    split
    · refine h.dec.evict.bind fun a b ⟨k1, k2, _⟩ => ?_
      obtain ⟨⟨a0, a1⟩, a2⟩ := a
      obtain ⟨⟨b0, b1⟩, b2⟩ := b
      dsimp only at k1 k2
      cases k1
      exact (k2.set a0 v).bind fun x y hxy => ⟨rfl, h.enc, hxy, rfl, rfl, rfl⟩
    · refine Alike2.bind (R := Eq) (by cases addOne c.max c.encoding <;> rfl) fun e e' he => ?_
      subst he
      exact (h.dec.set e v).bind fun x y hxy => ⟨rfl, h.enc, hxy, rfl, rfl, rfl⟩

theorem Twins.op (h : Twins c d) (o : CacheOp V) : Alike2 (fun x y => x.1 = y.1 ∧ Twins x.2 y.2) (c.op o) (d.op o) := by
  cases o with
  | encode v => exact (h.try_encode v).bind fun a b hab => ⟨by simp only [hab.1], hab.2⟩
  | decode m => exact (h.decode m).bind fun a b hab => ⟨by simp only [hab.1], hab.2⟩

theorem Twins.answers : ∀ (os : List (CacheOp V)) {c d : LFUni V}, Twins c d → d.answers os = c.answers os
  | [], _, _, _ => rfl
  | o :: os, c, d, h => by
    have h1 := h.op o
    unfold LFUni.answers
    cases e1 : c.op o with
    | error p =>
      cases e2 : d.op o with
      | error q => rw [e1, e2] at h1; cases h1; rfl
      | ok y => rw [e1, e2] at h1; exact h1.elim
    | ok x =>
      cases e2 : d.op o with
      | error q => rw [e1, e2] at h1; exact h1.elim
      | ok y =>
        rw [e1, e2] at h1
        obtain ⟨h2, h3⟩ := h1
        obtain ⟨x1, x2⟩ := x
        obtain ⟨y1, y2⟩ := y
        dsimp only at h2 h3 ⊢
        rw [h2, Twins.answers os h3]

theorem Twins.wire (h : Twins c c) {oe : List (V × ValueCounter Nat) → List (V × ValueCounter Nat)} {od : List (Nat × ValueCounter V) → List (Nat × ValueCounter V)}
    (he : ∀ l, (oe l).Perm l) (hd : ∀ l, (od l).Perm l) : Twins c (c.wire oe od) := ⟨h.enc.wire he, h.dec.wire hd, rfl, rfl, rfl⟩

omit [DecidableEq V] in
theorem Twins.swap (h : Twins c d) : Twins d c := ⟨h.enc.swap, h.dec.swap, h.encoding.symm, h.size.symm, h.max.symm⟩

omit [DecidableEq V] in
theorem Twins.trans {e : LFUni V} (h : Twins c d) (k : Twins d e) : Twins c e :=
  ⟨h.enc.trans k.enc, h.dec.trans k.dec, h.encoding.trans k.encoding, h.size.trans k.size, h.max.trans k.max⟩

omit [DecidableEq K] [DecidableEq V] in
theorem with_capacity_fresh {n : Nat} {A : LFUCache K W} (h : LFUCache.with_capacity n = .ok A) : Twin A A := by
  unfold LFUCache.with_capacity at h
  split at h
  · cases h
  · cases h; exact .fresh n

theorem Made.twins (h : Made c) : Twins c c := by
  induction h with
  | @new m s c h =>
    unfold LFUni.new at h
    cases e1 : (LFUCache.with_capacity s : CM (LFUCache V Nat)) with
    | error p => rw [e1] at h; cases h
    | ok a =>
      cases e2 : (LFUCache.with_capacity s : CM (LFUCache Nat V)) with
      | error p => rw [e1, e2] at h; cases h
      | ok b =>
        rw [e1, e2] at h
        cases h
        exact ⟨with_capacity_fresh e1, with_capacity_fresh e2, rfl, rfl, rfl⟩
  | @op _ _ o _ _ e ih =>
    have h1 := ih.op o
    rw [e] at h1
    exact h1.2
  | @clone c c' order _ e ih =>
    unfold LFUni.clone at e
    cases e1 : (LFUCache.with_capacity c.size : CM (LFUCache Nat V)) with
    | error p => rw [e1] at e; cases e
    | ok a =>
      rw [e1] at e
      have h1 := (with_capacity_fresh e1).setAll ((order (c.lfu_cache_encoder.values.map fun p => (p.1, p.2.value))).map fun p => (p.2, p.1))
      simp only [bind, Except.bind] at e
      split at e
      · cases e
      · rename_i b e2
        rw [e2] at h1
        split at e
        · cases e
        · rename_i b' e3
          cases e
          exact ⟨with_capacity_fresh e3, h1, rfl, rfl, rfl⟩
  | wire _ he hd ih => exact (ih.wire he hd).swap.self

end LFUni
end Omni
