import Verif.Proof.UniEntry
/-
Properties of UniCache: C27 (decoding inverts encoding) and C42 (what a synchronised follower decodes is what the leader
appended), with the executions that refute the unrestricted C42 (finding F10 and its relatives).
-/
namespace Omni

variable {V R : Type} [DecidableEq V]

section Sample

/-- Two annotated fields: LRU of two values, LFU of two values. -/
def uAttrs : List FieldAttr := [{ size := 2 }, { size := 2, lfu := true }]

/-- A stream with hits, misses and evictions in both caches. -/
def uStream : List (UEntry Nat Nat) :=
  [⟨[1, 1], 0⟩, ⟨[2, 1], 1⟩, ⟨[1, 2], 2⟩, ⟨[3, 3], 3⟩, ⟨[1, 1], 4⟩, ⟨[2, 2], 5⟩, ⟨[2, 1], 6⟩]

example : (∀ a ∈ uAttrs, a.Fits) ∧ ∀ e ∈ uStream, e.For uAttrs := by decide

/-- What goes over the network for it. -/
example : ((UCache.new uAttrs).bind fun c => (c.encodeAll uStream).map (·.1.map (·.fields))) = .ok
    [[.notEncoded 1, .notEncoded 1], [.notEncoded 2, .encoded 1], [.encoded 1, .notEncoded 2], [.notEncoded 3, .notEncoded 3],
     [.encoded 1, .encoded 1], [.notEncoded 2, .notEncoded 2], [.encoded 2, .encoded 1]] := rfl

end Sample

/-! ## C27 -/

/-- C27: for all sizes and both policies, two caches that start equal (as `new` makes them): decoding what one makes of any
stream of entries gives back the stream, and nothing panics. The side condition is that the encoding type can count up to
the size. -/
theorem C27_roundtrip (as : List FieldAttr) (ha : ∀ a ∈ as, a.Fits) (es : List (UEntry V R)) (he : ∀ e ∈ es, e.For as) :
    ∃ c : UCache V, UCache.new as = .ok c ∧ RoundTrip c c es := by
  obtain ⟨c, h1, h2, h3⟩ := UCache.sync_new (V := V) ha
  obtain ⟨xs, l', f', k1, k2, _⟩ := h2.stream es (h3 ▸ he)
  exact ⟨c, h1, xs, l', f', k1, k2⟩

/-- C27, LRU: a follower that gets a clone of the leader's cache at any time (after any history `hs` of encoded entries)
decodes every later stream of that leader. -/
theorem C27_roundtrip_clone (as : List FieldAttr) (ha : ∀ a ∈ as, a.Fits) (hlru : ∀ a ∈ as, a.lfu = false)
    (order : List (V × Nat) → List (V × Nat)) (hs es : List (UEntry V R)) (hh : ∀ e ∈ hs, e.For as) (he : ∀ e ∈ es, e.For as) :
    ∃ (c : UCache V) (ys : List (UEncoded V R)) (l f : UCache V), UCache.new as = .ok c ∧ c.encodeAll hs = .ok (ys, l) ∧
      l.clone order = .ok f ∧ RoundTrip l f es := by
  obtain ⟨c, h1, h2, h3⟩ := UCache.sync_new (V := V) ha
  obtain ⟨ys, l, _, k1, _, k3, k4⟩ := h2.stream hs (h3 ▸ hh)
  obtain ⟨f, m1, m2⟩ := k3.clone (UCache.encodeAll_allLru (UCache.new_allLru hlru h1) k1) order
  obtain ⟨xs, l', f', n1, n2, _⟩ := m2.stream es (by rw [k4, h3]; exact he)
  exact ⟨c, ys, l, f, h1, k1, m1, xs, l', f', n1, n2⟩

example : ∃ (c : UCache Nat) (ys : List (UEncoded Nat Nat)) (l f : UCache Nat),
    UCache.new [{ size := 2 }] = .ok c ∧ c.encodeAll [⟨[1], 0⟩, ⟨[2], 0⟩, ⟨[3], 0⟩] = .ok (ys, l) ∧ l.clone id = .ok f ∧
    RoundTrip l f [⟨[3], 0⟩, ⟨[4], 0⟩, ⟨[3], 1⟩] :=
  C27_roundtrip_clone _ (by decide) (by decide) id _ _ (by decide) (by decide)

/-- C27, LRU over a serialisation format that gives no size hint (JSON): the follower's cache works if the size is at most
255. -/
theorem C27_wire_lru {size max : Nat} (hs : 0 < size) (hm : size ≤ max) (hw : size ≤ 255) (h : List V) (v : List V) :
    ∃ c l f f' : LRUni V, LRUni.new max size = .ok c ∧
      (∃ xs, UCache.encodeAll [.lru c] (h.map fun v => (⟨[v], ()⟩ : UEntry V Unit)) = .ok (xs, [.lru l])) ∧
      l.clone = .ok f ∧ f.wire (fun _ => none) = .ok f' ∧
      RoundTrip [.lru l] [.lru f'] (v.map fun v => (⟨[v], ()⟩ : UEntry V Unit)) := by
  obtain ⟨c, h1, h2, h3, h4⟩ := LRUni.sync_new (V := V) hs hm
  have key : ∀ (vs : List V) (l f : LRUni V), l.Sync f → ∃ xs l' f', l'.size = l.size ∧ LRUni.Sync l' f' ∧
      UCache.encodeAll [.lru l] (vs.map fun v => (⟨[v], ()⟩ : UEntry V Unit)) = .ok (xs, [.lru l']) ∧
      UCache.decodeAll [.lru f] xs = .ok (vs.map fun v => (⟨[v], ()⟩ : UEntry V Unit), [.lru f']) := by
    intro vs
    induction vs with
    | nil => intro l f h; exact ⟨[], l, f, rfl, h, rfl, rfl⟩
    | cons v vs ih =>
      intro l f h
      obtain ⟨r, l1, f1, a1, a2, a3, a4, _⟩ := h.step v
      obtain ⟨xs, l2, f2, b1, b2, b3, b4⟩ := ih l1 f1 a3
      refine ⟨⟨[r], ()⟩ :: xs, l2, f2, b1.trans a4, b2, ?_, ?_⟩
      · simp [UCache.encodeAll, UCache.try_encode, UCache.encodeFields, FieldCache.try_encode, a1, b3, bind, Except.bind, pure, Except.pure]
      · simp [UCache.decodeAll, UCache.decode, UCache.decodeFields, FieldCache.decode, a2, b4, bind, Except.bind, pure, Except.pure]
  obtain ⟨xs, l, _, k1, k2, k3, _⟩ := key h c c h2
  obtain ⟨f, m1, m2, _⟩ := k2.clone
  obtain ⟨f', w1, w2⟩ := m2.wire (by rw [k1, h3]; exact hw)
  obtain ⟨ys, l', f'', _, _, n1, n2⟩ := key v l f' w2
  exact ⟨c, l, f, f', h1, ⟨xs, k3⟩, m1, w1, ys, _, _, n1, n2⟩

/-! ## C42 -/

/-- C42, partial: a leader with a new cache (both policies). A follower that was synchronised before the leader's first
proposal decodes from the leader's `AcceptDecide`s exactly the entries that the leader appended to its own log, for every
batch size, every sequence of proposals and flushes. Missing: synchronisation at a later time with LFU fields or with
entries waiting in the batch, and leaders that were followers before (see the refutations). -/
theorem C42_first_sync_partial (as : List FieldAttr) (ha : ∀ a ∈ as, a.Fits) (order : List (V × Nat) → List (V × Nat))
    (ho : ∀ l, (order l).Perm l) (batch_size : Nat) (cs : List (UCall V R)) (hc : ∀ c ∈ cs, c.For as) :
    ∃ (c f : UCache V), UCache.new as = .ok c ∧ UBatch.get_unicache order ({ batch_size, unicache := c } : UBatch V R) = .ok f ∧
      ∃ es xs b f', ({ batch_size, unicache := c } : UBatch V R).calls cs = .ok ((es, xs), b) ∧ f.decodeAll xs = .ok (es, f') := by
  obtain ⟨c, h1, h2, h3⟩ := UCache.sync_new (V := V) ha
  obtain ⟨f, m1, m2⟩ := UCache.clone_new ha (List.perm_nil.1 (ho [])) h1
  have hf : ({ batch_size, unicache := c } : UBatch V R).Follows f := ⟨f, rfl, m2⟩
  obtain ⟨es, xs, b, f', n1, n2, _⟩ := hf.calls cs (by rw [h3]; exact hc)
  exact ⟨c, f, h1, m1, es, xs, b, f', n1, n2⟩

/-- C42, partial: LRU fields. A follower synchronised at any time when no entry waits in the leader's batch (always so with
`batch_size` at most 1) decodes exactly what the leader appends from then on. -/
theorem C42_later_sync_partial (as : List FieldAttr) (ha : ∀ a ∈ as, a.Fits) (hlru : ∀ a ∈ as, a.lfu = false)
    (order : List (V × Nat) → List (V × Nat)) (batch_size : Nat) (cs cs' : List (UCall V R)) (hc : ∀ c ∈ cs ++ cs', c.For as)
    {c : UCache V} {o : List (UEntry V R) × List (UEncoded V R)} {b : UBatch V R} (hn : UCache.new as = .ok c)
    (hb : ({ batch_size, unicache := c } : UBatch V R).calls cs = .ok (o, b)) (he : b.batched_entries = []) :
    ∃ f, b.get_unicache order = .ok f ∧ ∃ es xs b' f', b.calls cs' = .ok ((es, xs), b') ∧ f.decodeAll xs = .ok (es, f') := by
  obtain ⟨h3, hp, g, hg⟩ := UBatch.synced_later ha hn hb he fun c' hc' => hc _ (List.mem_append_left _ hc')
  obtain ⟨f, m1, m2⟩ := hg.clone (UBatch.calls_allLru (UCache.new_allLru hlru hn) hb) order
  have hf : b.Follows f := ⟨f, by rw [hp, he]; rfl, m2⟩
  obtain ⟨es, xs, b', f', k1, k2, _⟩ := hf.calls cs' (by rw [h3]; exact fun c' hc' => hc _ (List.mem_append_right _ hc'))
  exact ⟨f, m1, es, xs, b', f', k1, k2⟩

/-- The hypotheses are met with a batch size of two after a full batch was flushed. -/
example : ∃ (c : UCache Nat) (o : _) (b : UBatch Nat Nat), UCache.new [{ size := 2 }] = .ok c ∧
    ({ batch_size := 2, unicache := c } : UBatch Nat Nat).calls [.append [⟨[7], 0⟩], .append [⟨[8], 1⟩]] = .ok (o, b) ∧
    b.batched_entries = [] ∧ o.1 = [⟨[7], 0⟩, ⟨[8], 1⟩] := ⟨_, _, _, rfl, rfl, rfl, rfl⟩

/-- C42, partial, over the network: the same as `C42_first_sync_partial` for the cache that the follower gets after it went through a serialisation format. LFU fields may be of any size and
the format any; LRU fields must have at most 255 values and the format give no size hints (see the refutations). -/
theorem C42_first_sync_wire_partial (as : List FieldAttr) (ha : ∀ a ∈ as, a.Fits) (hint : Nat → Option Nat) (hw : ∀ a ∈ as, a.lfu = false → a.size ≤ 255 ∧ ∀ n, hint n = none)
    (order : List (V × Nat) → List (V × Nat)) (ho : ∀ l, (order l).Perm l)
    (oe : Nat → List (V × ValueCounter Nat) → List (V × ValueCounter Nat)) (he : ∀ i l, (oe i l).Perm l)
    (od : Nat → List (Nat × ValueCounter V) → List (Nat × ValueCounter V)) (hd : ∀ i l, (od i l).Perm l)
    (batch_size : Nat) (cs : List (UCall V R)) (hc : ∀ c ∈ cs, c.For as) :
    ∃ (c f g : UCache V), UCache.new as = .ok c ∧ UBatch.get_unicache order ({ batch_size, unicache := c } : UBatch V R) = .ok f ∧ f.wire hint oe od = .ok g ∧
      ∃ es xs b g', ({ batch_size, unicache := c } : UBatch V R).calls cs = .ok ((es, xs), b) ∧ g.decodeAll xs = .ok (es, g') := by
  obtain ⟨c, h1, h2, h3⟩ := UCache.sync_new (V := V) ha
  obtain ⟨f, m1, m2⟩ := UCache.clone_new ha (List.perm_nil.1 (ho [])) h1
  obtain ⟨g, w1, w2⟩ := m2.wire he hd (by rw [h3]; exact hw)
  have hf : ({ batch_size, unicache := c } : UBatch V R).Follows g := ⟨g, rfl, w2⟩
  obtain ⟨es, xs, b, f', n1, n2, _⟩ := hf.calls cs (by rw [h3]; exact hc)
  exact ⟨c, f, g, h1, m1, w1, es, xs, b, f', n1, n2⟩

/-- C42, partial, over the network: the same as `C42_later_sync_partial`. -/
theorem C42_later_sync_wire_partial (as : List FieldAttr) (ha : ∀ a ∈ as, a.Fits) (hlru : ∀ a ∈ as, a.lfu = false) (hw : ∀ a ∈ as, a.size ≤ 255)
    (order : List (V × Nat) → List (V × Nat)) (oe : Nat → List (V × ValueCounter Nat) → List (V × ValueCounter Nat)) (hoe : ∀ i l, (oe i l).Perm l)
    (od : Nat → List (Nat × ValueCounter V) → List (Nat × ValueCounter V)) (hod : ∀ i l, (od i l).Perm l)
    (batch_size : Nat) (cs cs' : List (UCall V R)) (hc : ∀ c ∈ cs ++ cs', c.For as)
    {c : UCache V} {o : List (UEntry V R) × List (UEncoded V R)} {b : UBatch V R} (hn : UCache.new as = .ok c)
    (hb : ({ batch_size, unicache := c } : UBatch V R).calls cs = .ok (o, b)) (he : b.batched_entries = []) :
    ∃ f g, b.get_unicache order = .ok f ∧ f.wire (fun _ => none) oe od = .ok g ∧ ∃ es xs b' g', b.calls cs' = .ok ((es, xs), b') ∧ g.decodeAll xs = .ok (es, g') := by
  obtain ⟨h3, hp, _, hg⟩ := UBatch.synced_later ha hn hb he fun c' hc' => hc _ (List.mem_append_left _ hc')
  obtain ⟨f, m1, m2⟩ := hg.clone (UBatch.calls_allLru (UCache.new_allLru hlru hn) hb) order
  obtain ⟨g, w1, w2⟩ := m2.wire hoe hod (by rw [h3]; exact fun a ha _ => ⟨hw a ha, fun _ => rfl⟩)
  have hf : b.Follows g := ⟨g, by rw [hp, he]; rfl, w2⟩
  obtain ⟨es, xs, b', f', k1, k2, _⟩ := hf.calls cs' (by rw [h3]; exact fun c' hc' => hc _ (List.mem_append_right _ hc'))
  exact ⟨f, g, m1, w1, es, xs, b', f', k1, k2⟩

/-- The hypotheses of both are met; in the first case by a large LFU field and a small LRU field, JSON, and hash maps that are written backwards. -/
example : (∀ a ∈ [({ size := 1000, max := 65535, lfu := true } : FieldAttr), { size := 2 }], a.Fits) ∧
    (∀ a ∈ [({ size := 1000, max := 65535, lfu := true } : FieldAttr), { size := 2 }], a.lfu = false → a.size ≤ 255 ∧ ∀ n : Nat, (fun _ => none : Nat → Option Nat) n = none) ∧
    (∀ (_ : Nat) (l : List (Nat × ValueCounter Nat)), l.reverse.Perm l) ∧
    (∀ c ∈ [UCall.append [(⟨[7, 8], 0⟩ : UEntry Nat Nat)], .flush], c.For [{ size := 1000, max := 65535, lfu := true }, { size := 2 }]) ∧
    ∃ (c : UCache Nat) (o : _) (b : UBatch Nat Nat), UCache.new [{ size := 2 }] = .ok c ∧
      ({ batch_size := 2, unicache := c } : UBatch Nat Nat).calls [.append [⟨[7], 0⟩], .append [⟨[8], 1⟩]] = .ok (o, b) ∧ b.batched_entries = [] ∧ ∀ a ∈ [({ size := 2 } : FieldAttr)], a.size ≤ 255 := by
  refine ⟨by decide, fun a ha h => ?_, fun _ l => l.reverse_perm, fun c hc => ?_, ⟨_, _, _, rfl, rfl, rfl, by decide⟩⟩
  · simp only [List.mem_cons, List.not_mem_nil, or_false] at ha
    rcases ha with rfl | rfl
    · cases h
    · exact ⟨by decide, fun _ => rfl⟩
  · simp only [List.mem_cons, List.not_mem_nil, or_false] at hc
    rcases hc with rfl | rfl
    · intro e he; cases List.mem_singleton.1 he; rfl
    · trivial

/-- With a batch size of at most one nothing ever waits in the batch. -/
theorem C42_unbatched {batch_size : Nat} (h : batch_size ≤ 1) {c : UCache V} {cs : List (UCall V R)}
    {o : List (UEntry V R) × List (UEncoded V R)} {b : UBatch V R}
    (hb : ({ batch_size, unicache := c } : UBatch V R).calls cs = .ok (o, b)) : b.batched_entries = [] := by
  have key : ∀ (cs : List (UCall V R)) (b : UBatch V R) o b', b.batch_size ≤ 1 → b.batched_entries = [] → b.calls cs = .ok (o, b') →
      b'.batched_entries = [] := by
    intro cs
    induction cs with
    | nil => intro b o b' _ h2 h3; cases h3; exact h2
    | cons c cs ih =>
      intro b o b' h1 h2 h3
      simp only [UBatch.calls, bind, Except.bind, pure, Except.pure] at h3
      cases hx : c.run b with
      | error => simp [hx] at h3
      | ok r =>
        cases hy : r.2.calls cs with
        | error => simp [hx, hy] at h3
        | ok r2 =>
          simp only [hx, hy, Except.ok.injEq, Prod.mk.injEq] at h3
          obtain ⟨_, rfl⟩ := h3
          have : r.2.batch_size ≤ 1 ∧ r.2.batched_entries = [] := by
            cases c with
            | flush =>
              simp only [UCall.run, UBatch.flush, h2, List.isEmpty_nil, if_true, Except.ok.injEq] at hx
              subst hx; exact ⟨h1, h2⟩
            | append es =>
              simp only [UCall.run, UBatch.append_entries, bind, Except.bind, pure, Except.pure] at hx
              cases hz : b.unicache.encodeAll es with
              | error => simp [hz] at hx
              | ok z =>
                simp only [hz] at hx
                split at hx
                · cases hx; exact ⟨h1, rfl⟩
                · rename_i hlt
                  cases hx
                  simp only [h2, List.nil_append, ge_iff_le, Nat.not_le] at hlt ⊢
                  exact ⟨h1, List.length_eq_zero_iff.1 (by omega)⟩
          exact ih r.2 _ _ this.1 this.2 hy
  exact key cs _ o b h rfl hb

/-! ### Refutations of the unrestricted C42 -/

/-- `RoundTrip` as a computation. -/
def roundTrips [DecidableEq R] (l f : UCache V) (es : List (UEntry V R)) : Bool :=
  match l.encodeAll es with
  | .ok (xs, _) => match f.decodeAll xs with | .ok (r, _) => decide (r = es) | .error _ => false
  | .error _ => false

theorem roundTrips_of [DecidableEq R] {l f : UCache V} {es : List (UEntry V R)} (h : RoundTrip l f es) : roundTrips l f es = true := by
  obtain ⟨xs, l', f', h1, h2⟩ := h
  simp [roundTrips, h1, h2]

/-- Entries with one annotated field. -/
def oneField (vs : List Nat) : List (UEntry Nat Unit) := vs.map fun v => ⟨[v], ()⟩

theorem perm_three {l : List (Nat × Nat)} {a b c : Nat × Nat} (h : l.Perm [a, b, c]) :
    l = [a, b, c] ∨ l = [a, c, b] ∨ l = [b, a, c] ∨ l = [b, c, a] ∨ l = [c, a, b] ∨ l = [c, b, a] := by
  have two : ∀ {m : List (Nat × Nat)} {a b : Nat × Nat}, m.Perm [a, b] → m = [a, b] ∨ m = [b, a] := by
    intro m a b h
    match m, h.length_eq with
    | [x, y], _ =>
      rcases (by simpa using h.subset (List.mem_cons_self ..) : x = a ∨ x = b) with rfl | rfl
      · have := List.perm_singleton.1 ((List.perm_cons x).1 h); simp_all
      · have := List.perm_singleton.1 ((List.perm_cons x).1 (h.trans (List.Perm.swap ..))); simp_all
  match l, h.length_eq with
  | x :: m, _ =>
    rcases (by simpa using h.subset (List.mem_cons_self ..) : x = a ∨ x = b ∨ x = c) with rfl | rfl | rfl
    · rcases two ((List.perm_cons x).1 h) with rfl | rfl <;> simp
    · rcases two ((List.perm_cons x).1 (h.trans (List.Perm.swap ..))) with rfl | rfl <;> simp
    · have h' : ([a, b, x] : List (Nat × Nat)).Perm [x, a, b] :=
        ((List.perm_append_comm (l₁ := [a, b]) (l₂ := [x])))
      rcases two ((List.perm_cons x).1 (h.trans h')) with rfl | rfl <;> simp

/-- A leader that encodes the values 1, 1, 1, 2, 2, 3 in an LFU cache of size three, synchronises a follower, and encodes
`es`: does the follower decode `es`? -/
def lfuLate (order : List (Nat × Nat) → List (Nat × Nat)) (es : List Nat) : CM Bool := do
  let c ← UCache.new [{ size := 3, lfu := true }]
  let r ← c.encodeAll (oneField [1, 1, 1, 2, 2, 3])
  let f ← r.2.clone order
  return roundTrips r.2 f (oneField es)

theorem lfuLate_false {order : List (Nat × Nat) → List (Nat × Nat)} {es : List Nat} (h : lfuLate order es = .ok false) :
    ∃ (c l f : UCache Nat) (xs : List (UEncoded Nat Unit)), UCache.new [{ size := 3, lfu := true }] = .ok c ∧
      c.encodeAll (oneField [1, 1, 1, 2, 2, 3]) = .ok (xs, l) ∧ l.clone order = .ok f ∧ ¬ RoundTrip l f (oneField es) := by
  simp only [lfuLate, bind, Except.bind, pure, Except.pure] at h
  cases hc : (UCache.new [{ size := 3, lfu := true }] : CM (UCache Nat)) with
  | error => simp [hc] at h
  | ok c =>
    simp only [hc] at h
    cases hl : c.encodeAll (oneField [1, 1, 1, 2, 2, 3]) with
    | error => simp [hl] at h
    | ok r =>
      simp only [hl] at h
      cases hf : r.2.clone order with
      | error => simp [hf] at h
      | ok f =>
        simp only [hf, Except.ok.injEq] at h
        refine ⟨c, r.2, f, r.1, rfl, hl, hf, fun hr => ?_⟩
        rw [roundTrips_of hr] at h
        cases h

/-- The one list that the iteration order is applied to. -/
theorem lfuLate_order (order : List (Nat × Nat) → List (Nat × Nat)) (es : List Nat) :
    lfuLate order es = lfuLate (fun _ => order [(1, 1), (2, 2), (3, 3)]) es := rfl

/-- F10: LFU fields. The clone that a late follower gets has lost the frequencies. Whatever the iteration order of the
`HashMap` is, there is a stream that the follower does not decode to what the leader appended. -/
theorem C42_false_lfu_late_sync (order : List (Nat × Nat) → List (Nat × Nat)) (ho : ∀ l, (order l).Perm l) :
    ∃ (c l f : UCache Nat) (xs : List (UEncoded Nat Unit)) (es : List Nat), UCache.new [{ size := 3, lfu := true }] = .ok c ∧
      c.encodeAll (oneField [1, 1, 1, 2, 2, 3]) = .ok (xs, l) ∧ l.clone order = .ok f ∧ ¬ RoundTrip l f (oneField es) := by
  have key : ∃ es, lfuLate order es = .ok false := by
    rcases perm_three (ho [(1, 1), (2, 2), (3, 3)]) with h | h | h | h | h | h
    · exact ⟨[4, 1], by rw [lfuLate_order, h]; rfl⟩
    · exact ⟨[4, 1], by rw [lfuLate_order, h]; rfl⟩
    · exact ⟨[4, 2], by rw [lfuLate_order, h]; rfl⟩
    · exact ⟨[4, 2], by rw [lfuLate_order, h]; rfl⟩
    · exact ⟨[4, 3, 1], by rw [lfuLate_order, h]; rfl⟩
    · exact ⟨[4, 3, 2], by rw [lfuLate_order, h]; rfl⟩
  obtain ⟨es, h⟩ := key
  obtain ⟨c, l, f, xs, h1, h2, h3, h4⟩ := lfuLate_false h
  exact ⟨c, l, f, xs, es, h1, h2, h3, h4⟩

/-- F10: a follower that becomes leader encodes with a cache of capacity one, but counts as if it had the full size. The
next followers panic when they decode (LRU). -/
theorem C42_false_promoted_lru : ∃ (c f g : UCache Nat) (xs : List (UEncoded Nat Unit)) (f' : UCache Nat),
    UCache.new [{ size := 2 }] = .ok c ∧ c.clone id = .ok f ∧ f.clone id = .ok g ∧
    f.encodeAll (oneField [1, 2, 3, 3]) = .ok (xs, f') ∧ (g.decodeAll xs).map (·.1) = .error .notCached :=
  ⟨_, _, _, _, _, rfl, rfl, rfl, rfl, rfl⟩

/-- F10: the same for LFU. -/
theorem C42_false_promoted_lfu : ∃ (c f g : UCache Nat) (xs : List (UEncoded Nat Unit)) (f' : UCache Nat),
    UCache.new [{ size := 2, lfu := true }] = .ok c ∧ c.clone id = .ok f ∧ f.clone id = .ok g ∧
    f.encodeAll (oneField [1, 2, 3, 3]) = .ok (xs, f') ∧ (g.decodeAll xs).map (·.1) = .error .notCached :=
  ⟨_, _, _, _, _, rfl, rfl, rfl, rfl, rfl⟩

/-- F13: a follower that is synchronised while an entry waits in the leader's batch gets a clone that contains the entry
already, and later the entry again. From then on its encodings are shifted: it decodes other entries than the leader
appended, without any error. -/
theorem C42_false_sync_with_batch : ∃ (c f : UCache Nat) (b : UBatch Nat Unit) (o : _),
    UCache.new [{}] = .ok c ∧ ({ batch_size := 2, unicache := c } : UBatch Nat Unit).calls [.append (oneField [1])] = .ok (o, b) ∧
    b.get_unicache id = .ok f ∧
    ∃ xs b' f', b.calls [.append (oneField [2]), .append (oneField [2, 2])] = .ok ((oneField [1, 2, 2, 2], xs), b') ∧
      f.decodeAll xs = .ok (oneField [1, 2, 1, 1], f') :=
  ⟨_, _, _, _, rfl, rfl, rfl, _, _, _, rfl, rfl⟩

/-- F14: over a serialisation format that knows the length of a sequence (such as bincode), deserialising the cache that an
`AcceptSync` carries always panics: the encoder of a clone is empty and becomes a cache of capacity zero. -/
theorem C42_false_sized_format (l f : LRUni V) (h : l.clone = .ok f) : f.wire some = .error .zeroSize := by
  have : f.lru_cache_encoder.items = [] := by
    unfold LRUni.clone LruCache.new at h
    by_cases hs : l.size = 0
    · rw [if_pos hs] at h; cases h
    · rw [if_neg hs] at h; cases h; rfl
  simp [LRUni.wire, LruCache.new, LruCache.len, this, bind, Except.bind]

example : ((LRUni.new 255 2 : CM (LRUni Nat)).bind fun l => l.clone.map fun f => f.size) = .ok 2 := rfl

/-- F14: over a format without size hints the capacity becomes 255; a larger cache evicts too early. -/
theorem C42_false_unsized_format : ∃ (c f g : LRUni Nat), LRUni.new 65535 300 = .ok c ∧ c.clone = .ok f ∧
    f.wire (fun _ => none) = .ok g ∧ ¬ RoundTrip [.lru c] [.lru g] (oneField (List.range 256 ++ [0])) := by
  refine ⟨{ lru_cache_encoder := ⟨300, []⟩, lru_cache_decoder := ⟨300, []⟩, encoding := 0, size := 300, max := 65535 },
    { lru_cache_encoder := ⟨1, []⟩, lru_cache_decoder := ⟨300, []⟩, encoding := 0, size := 300, max := 65535 },
    { lru_cache_encoder := ⟨255, []⟩, lru_cache_decoder := ⟨255, []⟩, encoding := 0, size := 300, max := 65535 },
    rfl, rfl, rfl, fun hr => ?_⟩
  have h : roundTrips [.lru ⟨⟨300, []⟩, ⟨300, []⟩, 0, 300, 65535⟩] [.lru ⟨⟨255, []⟩, ⟨255, []⟩, 0, 300, 65535⟩]
    (oneField (List.range 256 ++ [0])) = false := by decide +kernel
  rw [roundTrips_of hr] at h
  cases h

end Omni
