import Verif.Proof.UniWire
/-
The cache of an entry and the leader's batch: leader and follower in lockstep.
-/
namespace Omni

variable {V R : Type} [DecidableEq V]

/-! ### The derived cache -/

namespace FieldCache

/-- The attributes of the field. -/
def attr : FieldCache V → FieldAttr
  | .lru c => { size := c.size, max := c.max }
  | .lfu c => { size := c.size, max := c.max, lfu := true }

inductive Sync : FieldCache V → FieldCache V → Prop
  | lru {l f : LRUni V} : l.Sync f → Sync (.lru l) (.lru f)
  | lfu {l g f : LFUni V} : l.Sync g → g.Twins f → Sync (.lfu l) (.lfu f)

theorem Sync.step {l f : FieldCache V} (h : Sync l f) (v : V) :
    ∃ r l' f', l.try_encode v = .ok (r, l') ∧ f.decode r = .ok (v, f') ∧ Sync l' f' ∧ l'.attr = l.attr := by
  cases h with
  | lru h =>
    obtain ⟨r, l', f', h1, h2, h3, h4, h5⟩ := h.step v
    exact ⟨r, .lru l', .lru f', by simp [try_encode, h1, bind, Except.bind, pure, Except.pure],
      by simp [decode, h2, bind, Except.bind, pure, Except.pure], .lru h3, by simp [attr, h4, h5]⟩
  | @lfu l g f h ht =>
    obtain ⟨r, l', g', h1, h2, h3, h4, h5⟩ := h.step v
    have hd := ht.decode r
    rw [h2] at hd
    cases hf : f.decode r with
    | error p => rw [hf] at hd; exact hd.elim
    | ok x =>
    rw [hf] at hd
    obtain ⟨v', f'⟩ := x
    obtain ⟨rfl, h6⟩ := hd
    exact ⟨r, .lfu l', .lfu f', by simp [try_encode, h1, bind, Except.bind, pure, Except.pure],
      by simp [decode, hf, bind, Except.bind, pure, Except.pure], .lfu h3 h6, by simp [attr, h4, h5]⟩

theorem sync_new {a : FieldAttr} (ha : a.Fits) : ∃ c : FieldCache V, new a = .ok c ∧ Sync c c ∧ c.attr = a := by
  unfold new
  split
  · rename_i hl
    obtain ⟨c, h1, h2, h3, h4⟩ := LFUni.sync_new (V := V) ha.1 ha.2
    exact ⟨.lfu c, by simp [h1, bind, Except.bind, pure, Except.pure], .lfu h2 (LFUni.Made.new h1).twins, by simp [attr, h3, h4, ← hl]⟩
  · rename_i hl
    obtain ⟨c, h1, h2, h3, h4⟩ := LRUni.sync_new (V := V) ha.1 ha.2
    exact ⟨.lru c, by simp [h1, bind, Except.bind, pure, Except.pure], .lru h2, by simp [attr, h3, h4, ← (by simpa using hl : a.lfu = false)]⟩

end FieldCache

namespace UCache

/-- The attributes of the fields. -/
def attrs (c : UCache V) : List FieldAttr := c.map FieldCache.attr

inductive Sync : UCache V → UCache V → Prop
  | nil : Sync [] []
  | cons {l f : FieldCache V} {ls fs : UCache V} : l.Sync f → Sync ls fs → Sync (l :: ls) (f :: fs)

theorem Sync.fields {l f : UCache V} (h : Sync l f) : ∀ vs : List V, vs.length = l.length →
    ∃ rs l' f', l.encodeFields vs = .ok (rs, l') ∧ f.decodeFields rs = .ok (vs, f') ∧ Sync l' f' ∧ l'.attrs = l.attrs := by
  induction h with
  | nil =>
    intro vs hv
    cases vs with
    | nil => exact ⟨[], [], [], rfl, rfl, .nil, rfl⟩
    | cons => simp at hv
  | cons h _ ih =>
    intro vs hv
    cases vs with
    | nil => simp at hv
    | cons v vs =>
      obtain ⟨r, l', f', h1, h2, h3, h4⟩ := h.step v
      obtain ⟨rs, ls', fs', k1, k2, k3, k4⟩ := ih vs (by simpa using hv)
      exact ⟨r :: rs, l' :: ls', f' :: fs', by simp [encodeFields, h1, k1, bind, Except.bind, pure, Except.pure],
        by simp [decodeFields, h2, k2, bind, Except.bind, pure, Except.pure], .cons h3 k3, by simpa [attrs, h4] using k4⟩

theorem Sync.stream {l f : UCache V} (h : Sync l f) (es : List (UEntry V R)) (he : ∀ e ∈ es, e.For l.attrs) :
    ∃ xs l' f', l.encodeAll es = .ok (xs, l') ∧ f.decodeAll xs = .ok (es, f') ∧ Sync l' f' ∧ l'.attrs = l.attrs := by
  induction es generalizing l f with
  | nil => exact ⟨[], l, f, rfl, rfl, h, rfl⟩
  | cons e es ih =>
    obtain ⟨rs, l', f', h1, h2, h3, h4⟩ := h.fields e.fields ((he e (by simp)).trans (by simp [attrs]))
    obtain ⟨xs, l'', f'', k1, k2, k3, k4⟩ := ih h3 (fun e' he' => by rw [h4]; exact he e' (by simp [he']))
    exact ⟨⟨rs, e.rest⟩ :: xs, l'', f'', by simp [encodeAll, try_encode, h1, k1, bind, Except.bind, pure, Except.pure],
      by simp [decodeAll, decode, h2, k2, bind, Except.bind, pure, Except.pure], k3, by rw [k4, h4]⟩

theorem sync_new {as : List FieldAttr} (ha : ∀ a ∈ as, a.Fits) : ∃ c : UCache V, new as = .ok c ∧ Sync c c ∧ c.attrs = as := by
  induction as with
  | nil => exact ⟨[], rfl, .nil, rfl⟩
  | cons a as ih =>
    obtain ⟨c, h1, h2, h3⟩ := FieldCache.sync_new (V := V) (ha a (by simp))
    obtain ⟨cs, k1, k2, k3⟩ := ih fun a' h' => ha a' (by simp [h'])
    exact ⟨c :: cs, by simp [new, h1, k1, bind, Except.bind, pure, Except.pure], .cons h2 k2, by simpa [attrs, h3] using k3⟩

theorem decodeAll_append {f : UCache V} {xs ys : List (UEncoded V R)} {es : List (UEntry V R)} {f' : UCache V}
    (h : f.decodeAll xs = .ok (es, f')) :
    f.decodeAll (xs ++ ys) = (f'.decodeAll ys).map fun r => (es ++ r.1, r.2) := by
  induction xs generalizing f es with
  | nil =>
    cases h
    cases hx : f'.decodeAll ys <;> simp [Except.map, hx]
  | cons x xs ih =>
    simp only [decodeAll, List.cons_append, bind, Except.bind, pure, Except.pure] at h ⊢
    cases hx : f.decode x with
    | error e => simp [hx] at h
    | ok r =>
      simp only [hx] at h ⊢
      cases hr : r.2.decodeAll xs with
      | error e => simp [hr] at h
      | ok r2 =>
        simp only [hr] at h
        cases h
        rw [ih hr]
        cases r2.2.decodeAll ys <;> simp [Except.map]

/-- No field is cached with the LFU policy. -/
def AllLru (c : UCache V) : Prop := ∀ x ∈ c, ∃ y, x = .lru y

theorem Sync.clone {l f : UCache V} (h : Sync l f) (hl : AllLru l) (order : List (V × Nat) → List (V × Nat)) :
    ∃ c, l.clone order = .ok c ∧ Sync l c := by
  induction h with
  | nil => exact ⟨[], rfl, .nil⟩
  | cons h _ ih =>
    obtain ⟨cs, k1, k2⟩ := ih fun x hx => hl x (by simp [hx])
    cases h with
    | lru h =>
      obtain ⟨c, h1, h2, _⟩ := h.clone
      exact ⟨.lru c :: cs, by simp [UCache.clone, FieldCache.clone, h1, k1, bind, Except.bind, pure, Except.pure], .cons (.lru h2) k2⟩
    | lfu h _ => obtain ⟨y, hy⟩ := hl _ (List.mem_cons_self ..); cases hy

end UCache

/-- Over the network: LFU fields in any format, LRU fields of at most 255 values in a format without size hints. -/
theorem UCache.Sync.wire {l f : UCache V} (h : Sync l f) {hint : Nat → Option Nat} {oe : Nat → List (V × ValueCounter Nat) → List (V × ValueCounter Nat)}
    {od : Nat → List (Nat × ValueCounter V) → List (Nat × ValueCounter V)} (he : ∀ i l, (oe i l).Perm l) (hd : ∀ i l, (od i l).Perm l)
    (hw : ∀ a ∈ l.attrs, a.lfu = false → a.size ≤ 255 ∧ ∀ n, hint n = none) : ∃ c, f.wire hint oe od = .ok c ∧ Sync l c := by
  induction h with
  | nil => exact ⟨[], rfl, .nil⟩
  | @cons l f ls fs h _ ih =>
    obtain ⟨cs, k1, k2⟩ := ih fun a ha => hw a (by rw [attrs, List.map_cons]; exact List.mem_cons_of_mem _ ha)
    have hw := hw l.attr (by rw [attrs, List.map_cons]; exact List.mem_cons_self ..)
    cases h with
    | lru h =>
      obtain ⟨h1, h2⟩ := hw rfl
      cases (funext h2 : hint = fun _ => none)
      obtain ⟨c, h3, h4⟩ := h.wire h1
      exact ⟨.lru c :: cs, by simp [UCache.wire, FieldCache.wire, h3, k1, bind, Except.bind, pure, Except.pure], .cons (.lru h4) k2⟩
    | lfu h ht =>
      exact ⟨.lfu _ :: cs, by simp only [UCache.wire, FieldCache.wire, k1, bind, Except.bind, pure, Except.pure],
        .cons (.lfu h (ht.trans (ht.swap.self.wire (he fs.length) (hd fs.length)))) k2⟩

/-! ### The first clone -/

theorem LFUni.clone_new {size max : Nat} (hs : 0 < size) (hm : size ≤ max) {order : List (V × Nat) → List (V × Nat)}
    (ho : order [] = []) {l : LFUni V} (hl : new max size = .ok l) : ∃ c, l.clone order = .ok c ∧ Sync l c := by
  have hn := Nat.ne_of_gt hs
  simp [new, LFUCache.with_capacity, hn, bind, Except.bind, pure, Except.pure] at hl
  subst hl
  refine ⟨{ lfu_cache_encoder := { capacity := 1 }, lfu_cache_decoder := { capacity := size }, encoding := 0, size, max },
    by simp [LFUni.clone, LFUCache.with_capacity, LFUCache.setAll, hn, ho, bind, Except.bind, pure, Except.pure], ?_⟩
  refine ⟨{ capacity := size }, ⟨by simp, by simp, by simp⟩, by simp [LFUCache.MinOk], rfl, rfl, by simp [LFUCache.keys],
    by simp [LFUCache.keys], by simp [LFUCache.keys], rfl, by simp [LFUCache.keys], rfl, rfl, rfl, hm, hs, Nat.le_refl _⟩

theorem UCache.clone_new {as : List FieldAttr} (ha : ∀ a ∈ as, a.Fits) {order : List (V × Nat) → List (V × Nat)}
    (ho : order [] = []) {l : UCache V} (hl : UCache.new as = .ok l) : ∃ c, l.clone order = .ok c ∧ UCache.Sync l c := by
  induction as generalizing l with
  | nil => cases hl; exact ⟨[], rfl, .nil⟩
  | cons a as ih =>
    obtain ⟨c, h1, h2, -⟩ := FieldCache.sync_new (V := V) (ha a (by simp))
    obtain ⟨cs, k1, k2, k3⟩ := UCache.sync_new (V := V) (as := as) fun a' h' => ha a' (by simp [h'])
    obtain ⟨ds, d1, d2⟩ := ih (fun a' h' => ha a' (by simp [h'])) k1
    simp [UCache.new, h1, k1, bind, Except.bind, pure, Except.pure] at hl
    subst hl
    obtain ⟨hs, hm⟩ := ha a (by simp)
    cases h2 with
    | lru h =>
      obtain ⟨c, h1, h2, _⟩ := h.clone
      exact ⟨.lru c :: ds, by simp [UCache.clone, FieldCache.clone, h1, d1, bind, Except.bind, pure, Except.pure], .cons (.lru h2) d2⟩
    | @lfu l _ _ h _ =>
      have hl : LFUni.new a.max a.size = .ok l := by
        unfold FieldCache.new at h1
        split at h1
        · cases hx : (LFUni.new a.max a.size : CM (LFUni V)) <;> simp [hx, bind, Except.bind, pure, Except.pure] at h1
          subst h1; rfl
        · cases hx : (LRUni.new a.max a.size : CM (LRUni V)) <;> simp [hx, bind, Except.bind, pure, Except.pure] at h1
      obtain ⟨c, h1, h2⟩ := LFUni.clone_new hs hm ho hl
      exact ⟨.lfu c :: ds, by simp [UCache.clone, FieldCache.clone, h1, d1, bind, Except.bind, pure, Except.pure], .cons (.lfu h2 (LFUni.Made.clone (.new hl) h1).twins) d2⟩

theorem UCache.new_allLru {as : List FieldAttr} (ha : ∀ a ∈ as, a.lfu = false) {l : UCache V} (hl : UCache.new as = .ok l) :
    UCache.AllLru l := by
  induction as generalizing l with
  | nil => cases hl; exact fun _ h => nomatch h
  | cons a as ih =>
    simp only [UCache.new, FieldCache.new, ha a (by simp), Bool.false_eq_true, if_false, bind, Except.bind, pure, Except.pure] at hl
    cases h1 : (LRUni.new a.max a.size : CM (LRUni V)) with
    | error => simp [h1] at hl
    | ok c =>
      cases h2 : (UCache.new as : CM (UCache V)) with
      | error => simp [h1, h2] at hl
      | ok cs =>
        simp only [h1, h2, Except.ok.injEq] at hl
        subst hl
        intro x hx
        rcases List.mem_cons.1 hx with rfl | hx
        · exact ⟨c, rfl⟩
        · exact ih (fun a' h' => ha a' (by simp [h'])) h2 x hx

theorem FieldCache.encode_lru {c : LRUni V} {v : V} {r : MaybeEncoded V} {c' : FieldCache V}
    (h : (FieldCache.lru c).try_encode v = .ok (r, c')) : ∃ y, c' = .lru y := by
  simp only [FieldCache.try_encode, bind, Except.bind, pure, Except.pure] at h
  cases hx : c.try_encode v <;> simp [hx] at h
  exact ⟨_, h.2.symm⟩

theorem UCache.encodeFields_allLru {l : UCache V} (hl : AllLru l) {vs : List V} {rs : List (MaybeEncoded V)} {l' : UCache V}
    (h : l.encodeFields vs = .ok (rs, l')) : AllLru l' := by
  induction l generalizing vs rs l' with
  | nil => cases vs <;> (simp [encodeFields] at h; rw [h.2]; exact hl)
  | cons c cs ih =>
    cases vs with
    | nil => simp [encodeFields] at h; rw [← h.2]; exact hl
    | cons v vs =>
      obtain ⟨y, rfl⟩ := hl _ (List.mem_cons_self ..)
      simp only [encodeFields, bind, Except.bind, pure, Except.pure] at h
      cases hx : (FieldCache.lru y).try_encode v with
      | error => simp [hx] at h
      | ok r =>
        cases hy : encodeFields cs vs with
        | error => simp [hx, hy] at h
        | ok r2 =>
          simp only [hx, hy, Except.ok.injEq, Prod.mk.injEq] at h
          obtain ⟨_, rfl⟩ := h
          intro x hx'
          rcases List.mem_cons.1 hx' with rfl | hx'
          · exact FieldCache.encode_lru hx
          · exact ih (fun x hx => hl x (by simp [hx])) hy x hx'

theorem UCache.encodeAll_allLru {l : UCache V} (hl : AllLru l) {es : List (UEntry V R)} {xs : List (UEncoded V R)} {l' : UCache V}
    (h : l.encodeAll es = .ok (xs, l')) : AllLru l' := by
  induction es generalizing l xs l' with
  | nil => cases h; exact hl
  | cons e es ih =>
    simp only [encodeAll, UCache.try_encode, bind, Except.bind, pure, Except.pure] at h
    cases hx : l.encodeFields e.fields with
    | error => simp [hx] at h
    | ok r =>
      cases hy : r.2.encodeAll es with
      | error => simp [hx, hy] at h
      | ok r2 =>
        simp only [hx, hy, Except.ok.injEq, Prod.mk.injEq] at h
        obtain ⟨_, rfl⟩ := h
        exact ih (encodeFields_allLru hl hx) hy

/-! ### The leader's batch -/

namespace UBatch

/-- The follower, once it has received what is in the batch, is in lockstep with the leader. -/
def Follows (b : UBatch V R) (f : UCache V) : Prop :=
  ∃ f', f.decodeAll b.batched_processed_by_leader = .ok (b.batched_entries, f') ∧ UCache.Sync b.unicache f'

theorem Follows.take {b : UBatch V R} {f : UCache V} (h : b.Follows f) :
    ∃ f', f.decodeAll b.batched_processed_by_leader = .ok (b.batched_entries, f') ∧ b.take.2.Follows f' := by
  obtain ⟨f', h1, h2⟩ := h
  exact ⟨f', h1, f', rfl, h2⟩

theorem Follows.call {b : UBatch V R} {f : UCache V} (h : b.Follows f) (c : UCall V R)
    (hc : c.For b.unicache.attrs) :
    ∃ o b' f', c.run b = .ok (o, b') ∧ f.decodeAll ((o.map (·.2)).getD []) = .ok ((o.map (·.1)).getD [], f') ∧ b'.Follows f' ∧
      b'.unicache.attrs = b.unicache.attrs := by
  cases c with
  | flush =>
    unfold UCall.run flush
    by_cases he : b.batched_entries.isEmpty
    · exact ⟨none, b, f, by simp [he], rfl, h, rfl⟩
    · obtain ⟨f', h1, h2⟩ := h.take
      exact ⟨some (b.batched_entries, b.batched_processed_by_leader), b.take.2, f', by simp [he]; rfl, h1, h2, rfl⟩
  | append es =>
    obtain ⟨f1, h1, h2⟩ := h
    obtain ⟨xs, l', f2, k1, k2, k3, k4⟩ := h2.stream es hc
    have hf : ({ b with unicache := l', batched_processed_by_leader := b.batched_processed_by_leader ++ xs,
                        batched_entries := b.batched_entries ++ es } : UBatch V R).Follows f := by
      refine ⟨f2, ?_, k3⟩
      show f.decodeAll (_ ++ _) = _
      rw [UCache.decodeAll_append h1, k2]
      rfl
    by_cases hfull : (b.batched_entries ++ es).length ≥ b.batch_size
    · obtain ⟨f', h1, h2⟩ := hf.take
      refine ⟨some (b.batched_entries ++ es, b.batched_processed_by_leader ++ xs), _, f', ?_, h1, h2, k4⟩
      simp only [UCall.run, append_entries, k1, bind, Except.bind, hfull, if_true]
      rfl
    · refine ⟨none, _, f, ?_, rfl, hf, k4⟩
      simp only [UCall.run, append_entries, k1, bind, Except.bind, hfull, if_false]
      rfl

theorem Follows.calls {b : UBatch V R} {f : UCache V} (h : b.Follows f) (cs : List (UCall V R))
    (hc : ∀ c ∈ cs, c.For b.unicache.attrs) :
    ∃ es xs b' f', b.calls cs = .ok ((es, xs), b') ∧ f.decodeAll xs = .ok (es, f') ∧ b'.Follows f' ∧
      b'.unicache.attrs = b.unicache.attrs := by
  induction cs generalizing b f with
  | nil => exact ⟨[], [], b, f, rfl, rfl, h, rfl⟩
  | cons c cs ih =>
    obtain ⟨o, b1, f1, h1, h2, h3, h4⟩ := h.call c (hc c (by simp))
    obtain ⟨es, xs, b2, f2, k1, k2, k3, k4⟩ := ih h3 (fun c' h' => by rw [h4]; exact hc c' (by simp [h']))
    refine ⟨(o.map (·.1)).getD [] ++ es, (o.map (·.2)).getD [] ++ xs, b2, f2,
      by simp [UBatch.calls, h1, k1, bind, Except.bind, pure, Except.pure], ?_, k3, k4.trans h4⟩
    rw [UCache.decodeAll_append h2, k2]
    rfl

theorem call_allLru {b : UBatch V R} (hb : UCache.AllLru b.unicache) {c : UCall V R} {o : Flushed V R} {b' : UBatch V R}
    (h : c.run b = .ok (o, b')) : UCache.AllLru b'.unicache := by
  cases c with
  | flush =>
    simp only [UCall.run, flush, Except.ok.injEq] at h
    split at h <;> (cases h; exact hb)
  | append es =>
    simp only [UCall.run, append_entries, bind, Except.bind, pure, Except.pure] at h
    cases hx : b.unicache.encodeAll es with
    | error => simp [hx] at h
    | ok r =>
      simp only [hx] at h
      split at h <;> (cases h; exact UCache.encodeAll_allLru hb hx)

theorem calls_allLru {b : UBatch V R} (hb : UCache.AllLru b.unicache) {cs : List (UCall V R)}
    {o : List (UEntry V R) × List (UEncoded V R)} {b' : UBatch V R} (h : b.calls cs = .ok (o, b')) : UCache.AllLru b'.unicache := by
  induction cs generalizing b o b' with
  | nil => cases h; exact hb
  | cons c cs ih =>
    simp only [UBatch.calls, bind, Except.bind, pure, Except.pure] at h
    cases hx : c.run b with
    | error => simp [hx] at h
    | ok r =>
      cases hy : r.2.calls cs with
      | error => simp [hx, hy] at h
      | ok r2 =>
        simp only [hx, hy, Except.ok.injEq, Prod.mk.injEq] at h
        obtain ⟨_, rfl⟩ := h
        exact ih (call_allLru hb hx) hy

/-- Whenever nothing waits in the batch, some cache is in lockstep with the leader's. -/
theorem synced_later {as : List FieldAttr} (ha : ∀ a ∈ as, a.Fits) {batch_size : Nat} {cs : List (UCall V R)} {c : UCache V} {o : List (UEntry V R) × List (UEncoded V R)}
    {b : UBatch V R} (hn : UCache.new as = .ok c) (hb : ({ batch_size, unicache := c } : UBatch V R).calls cs = .ok (o, b)) (he : b.batched_entries = [])
    (hc : ∀ c ∈ cs, c.For as) : b.unicache.attrs = as ∧ b.batched_processed_by_leader = [] ∧ ∃ g, UCache.Sync b.unicache g := by
  obtain ⟨c', h1, h2, h3⟩ := UCache.sync_new (V := V) ha
  cases hn.symm.trans h1
  have hf : ({ batch_size, unicache := c } : UBatch V R).Follows c := ⟨c, rfl, h2⟩
  obtain ⟨es, xs, b', f', n1, n2, ⟨g, g1, g2⟩, n4⟩ := hf.calls cs (by rw [h3]; exact hc)
  cases hb.symm.trans n1
  refine ⟨n4.trans h3, ?_, g, g2⟩
  rw [he] at g1
  cases hx : b.batched_processed_by_leader with
  | nil => rfl
  | cons x r =>
    rw [hx] at g1
    simp only [UCache.decodeAll, bind, Except.bind, pure, Except.pure] at g1
    cases hy : f'.decode x with
    | error => simp [hy] at g1
    | ok z =>
      cases hz : z.2.decodeAll r with
      | error => simp [hy, hz] at g1
      | ok z => simp [hy, hz] at g1

end UBatch

end Omni
