import Verif.Proof.UniCache
/-
The LFU cache replaces the value that is used least often, and of these the one that has not been used for the longest time.
-/
namespace Omni

variable {V : Type} [DecidableEq V]

/-- What the maps of the cache say about a value. -/
def Used.entry (u : Used V) : V × ValueCounter Nat := (u.value, ⟨u.code, u.uses⟩)

/-- The maps of the cache hold the values of `s`, and each bin in the order of `s`. -/
structure LFUCache.Shows (c : LFUCache V Nat) (s : List (Used V)) (size : Nat) : Prop where
  keys : (s.map (·.value)).Nodup
  values : c.values.Perm (s.map Used.entry)
  bins : ∀ n, (c.frequency_bin n).getD [] = (s.filter fun u => u.uses = n).map (·.value)
  pos : ∀ u ∈ s, 1 ≤ u.uses
  cap : c.capacity = size

/-- And the least frequency is right. -/
structure LFUCache.Least (c : LFUCache V Nat) (s : List (Used V)) : Prop where
  le : ∀ u ∈ s, c.min_frequency ≤ u.uses
  mem : s ≠ [] → ∃ u ∈ s, u.uses = c.min_frequency

namespace LFUCache
variable {c : LFUCache V Nat} {s : List (Used V)} {size : Nat}

omit [DecidableEq V] in
theorem entry_keys (s : List (Used V)) : (s.map Used.entry).map (·.1) = s.map (·.value) := by
  rw [List.map_map]; rfl

omit [DecidableEq V] in
theorem Shows.nodup (h : c.Shows s size) : (c.values.map (·.1)).Nodup := by
  rw [(h.values.map _).nodup_iff, entry_keys]
  exact h.keys

theorem Shows.look (h : c.Shows s size) {u : Used V} (hu : u ∈ s) : c.lookup u.value = some ⟨u.code, u.uses⟩ :=
  lookup_of h.nodup (h.values.mem_iff.2 (List.mem_map_of_mem hu))

theorem Shows.look_none (h : c.Shows s size) {v : V} (hv : ∀ u ∈ s, u.value ≠ v) : c.lookup v = none := by
  refine lookup_none fun hm => ?_
  rw [(h.values.map _).mem_iff, entry_keys] at hm
  obtain ⟨u, hu, e⟩ := List.mem_map.1 hm
  exact hv u hu e

omit [DecidableEq V] in
theorem Shows.len (h : c.Shows s size) : c.len = s.length := by
  unfold LFUCache.len
  rw [h.values.length_eq, List.length_map]

omit [DecidableEq V] in
theorem Shows.inj (h : c.Shows s size) {u w : Used V} (hu : u ∈ s) (hw : w ∈ s) (e : u.value = w.value) : u = w :=
  inj_of_nodup_map h.keys hu hw e

omit [DecidableEq V] in
theorem Shows.bin_nodup (h : c.Shows s size) (n : Nat) : ((s.filter fun u => u.uses = n).map (·.value)).Nodup :=
  h.keys.sublist (List.filter_sublist.map _)

/-- Without a value, a bin is what is left of it. -/
theorem filter_bin (s : List (Used V)) (v : V) (n : Nat) :
    ((s.filter fun w => w.value ≠ v).filter fun u => u.uses = n).map (·.value) = ((s.filter fun u => u.uses = n).map (·.value)).filter fun k => k ≠ v := by
  rw [List.filter_map, List.filter_filter, List.filter_filter]
  congr 1
  refine List.filter_congr fun u _ => ?_
  simp [Function.comp, Bool.and_comm]

/-- A value first. -/
theorem perm_filter {u : Used V} : ∀ {s : List (Used V)}, (s.map (·.value)).Nodup → u ∈ s → s.Perm ((s.filter fun w => w.value ≠ u.value) ++ [u])
  | a :: r, hn, hu => by
    rw [List.map_cons, List.nodup_cons] at hn
    rcases List.mem_cons.1 hu with rfl | hu
    · have h1 : (r.filter fun w => w.value ≠ u.value) = r := List.filter_eq_self.2 fun w hw => by
        simp only [ne_eq, decide_not, Bool.not_eq_eq_eq_not, Bool.not_true, decide_eq_false_iff_not]
        exact fun e => hn.1 (e ▸ List.mem_map_of_mem hw)
      rw [List.filter_cons_of_neg (by simp), h1]
      exact List.perm_append_comm (l₁ := [u])
    · have h1 : a.value ≠ u.value := fun e => hn.1 (e ▸ List.mem_map_of_mem hu)
      rw [List.filter_cons_of_pos (by simpa using h1)]
      exact (perm_filter hn.2 hu).cons a

/-- A hit. -/
theorem Shows.hit (h : c.Shows s size) (hl : c.Least s) {u : Used V} (hu : u ∈ s) :
    ∃ c', c.get u.value = .ok (some u.code, c') ∧ c'.Shows ((s.filter fun w => w.value ≠ u.value) ++ [{ u with uses := u.uses + 1 }]) size ∧
      c'.Least ((s.filter fun w => w.value ≠ u.value) ++ [{ u with uses := u.uses + 1 }]) := by
  have hb := h.bins u.uses
  have hin : u.value ∈ (c.frequency_bin u.uses).getD [] := by
    rw [hb]
    exact List.mem_map_of_mem (List.mem_filter.2 ⟨hu, by simp⟩)
  obtain ⟨bin, hbin⟩ : ∃ bin, c.frequency_bin u.uses = some bin := by
    cases e : c.frequency_bin u.uses with
    | none => rw [e] at hin; cases hin
    | some l => exact ⟨l, rfl⟩
  rw [hbin, Option.getD_some] at hb hin
  have hbn : bin.Nodup := by rw [hb]; exact h.bin_nodup _
  have her : bin.erase u.value = bin.filter fun k => k ≠ u.value := by
    rw [hbn.erase_eq_filter]
    exact List.filter_congr fun k _ => by simp [bne]; rfl
  let c' : LFUCache V Nat := { c with
    values := c.values.map fun p => if p.1 = u.value then (p.1, { p.2 with count := p.2.count + 1 }) else p
    min_frequency := if u.uses = c.min_frequency && (bin.erase u.value).isEmpty then c.min_frequency + 1 else c.min_frequency
    frequency_bin := binInsert (fun i => if i = u.uses then some (bin.erase u.value) else c.frequency_bin i) (u.uses + 1) u.value }
  have hu' : c.update_frequency_bin u.value = .ok c' := by
    unfold update_frequency_bin
    rw [h.look hu]
    dsimp only
    rw [hbin]
  have hs : c'.Shows ((s.filter fun w => w.value ≠ u.value) ++ [{ u with uses := u.uses + 1 }]) size := by
    refine ⟨?_, ?_, fun n => ?_, fun w hw => ?_, h.cap⟩
    · have := ((perm_filter h.keys hu).map (·.value)).nodup_iff.1 h.keys
      rwa [List.map_append] at this ⊢
    · show (c.values.map _).Perm _
      refine (h.values.map _).trans ?_
      rw [List.map_map]
      refine ((perm_filter h.keys hu).map _).trans (.of_eq ?_)
      rw [List.map_append, List.map_append]
      congr 1
      · refine List.map_congr_left fun w hw => ?_
        have := (List.mem_filter.1 hw).2
        simp only [ne_eq, decide_not, Bool.not_eq_eq_eq_not, Bool.not_true, decide_eq_false_iff_not] at this
        exact if_neg this
      · simp only [List.map_cons, List.map_nil, Function.comp, Used.entry, if_true]
    · rw [List.filter_append, List.map_append, filter_bin, ← h.bins n]
      have hc' : c'.frequency_bin = binInsert (fun i => if i = u.uses then some (bin.erase u.value) else c.frequency_bin i) (u.uses + 1) u.value := rfl
      rw [hc']
      unfold binInsert
      by_cases e1 : n = u.uses + 1
      · subst e1
        have h1 : u.value ∉ (c.frequency_bin (u.uses + 1)).getD [] := by
          rw [h.bins]
          intro hm
          obtain ⟨w, hw, e⟩ := List.mem_map.1 hm
          obtain ⟨hw1, hw2⟩ := List.mem_filter.1 hw
          cases h.inj hw1 hu e
          simp at hw2
        dsimp only
        rw [if_pos rfl, if_neg (by omega), Option.getD_some, List.erase_of_not_mem h1, List.filter_eq_self.2 fun k hk => decide_eq_true (p := k ≠ u.value) fun e => h1 (e ▸ hk)]
        simp
      · rw [if_neg e1]
        have h0 : ([{ u with uses := u.uses + 1 }] : List (Used V)).filter (fun w => w.uses = n) = [] := List.filter_eq_nil_iff.2 fun w hw => by
          cases List.mem_singleton.1 hw
          simpa using Ne.symm e1
        rw [h0, List.map_nil, List.append_nil]
        dsimp only
        by_cases e2 : n = u.uses
        · subst e2
          rw [if_pos rfl, hbin, Option.getD_some, Option.getD_some, her]
        · rw [if_neg e2]
          refine (List.filter_eq_self.2 fun k hk => ?_).symm
          rw [h.bins] at hk
          obtain ⟨w, hw, rfl⟩ := List.mem_map.1 hk
          obtain ⟨hw1, hw2⟩ := List.mem_filter.1 hw
          simp only [decide_eq_true_eq] at hw2 ⊢
          intro e
          cases h.inj hw1 hu e
          exact e2 hw2.symm
    · rcases List.mem_append.1 hw with hw | hw
      · exact h.pos w (List.mem_filter.1 hw).1
      · cases List.mem_singleton.1 hw
        exact Nat.le_add_left ..
  refine ⟨c', ?_, hs, ?_⟩
  · unfold LFUCache.get
    rw [hu']
    have := hs.look (u := { u with uses := u.uses + 1 }) (by simp)
    dsimp only at this
    simp only [bind, Except.bind, pure, Except.pure, this, Option.map_some]
  · have hold : ∀ w ∈ s, w.value ≠ u.value → w ∈ (s.filter fun w => w.value ≠ u.value) ++ [{ u with uses := u.uses + 1 }] := fun w hw hne =>
      List.mem_append_left _ (List.mem_filter.2 ⟨hw, by simpa using hne⟩)
    by_cases hc : u.uses = c.min_frequency ∧ bin.erase u.value = []
    · have hm : c'.min_frequency = c.min_frequency + 1 := by
        show (if _ then _ else _) = _
        rw [if_pos (by simp [hc.1, hc.2])]
      refine ⟨fun w hw => ?_, fun _ => ⟨{ u with uses := u.uses + 1 }, by simp, by rw [hm]; simp [hc.1]⟩⟩
      rw [hm]
      rcases List.mem_append.1 hw with hw | hw
      · obtain ⟨hw1, hw2⟩ := List.mem_filter.1 hw
        refine Nat.lt_of_le_of_ne (hl.le w hw1) fun e => ?_
        have : w.value ∈ bin.erase u.value := by
          rw [her, List.mem_filter]
          refine ⟨?_, hw2⟩
          rw [hb]
          exact List.mem_map_of_mem (List.mem_filter.2 ⟨hw1, by simp [hc.1, e]⟩)
        rw [hc.2] at this
        cases this
      · cases List.mem_singleton.1 hw
        show c.min_frequency + 1 ≤ u.uses + 1
        omega
    · have hm : c'.min_frequency = c.min_frequency := by
        show (if _ then _ else _) = _
        rw [if_neg (by simpa using hc)]
      refine ⟨fun w hw => ?_, fun _ => ?_⟩
      · rw [hm]
        rcases List.mem_append.1 hw with hw | hw
        · exact hl.le w (List.mem_filter.1 hw).1
        · cases List.mem_singleton.1 hw
          exact Nat.le_succ_of_le (hl.le u hu)
      · rw [hm]
        by_cases e : u.uses = c.min_frequency
        · cases e2 : bin.erase u.value with
          | nil => exact absurd ⟨e, e2⟩ hc
          | cons k r =>
            have hk : k ∈ bin.erase u.value := by rw [e2]; exact List.mem_cons_self ..
            rw [her, List.mem_filter, hb] at hk
            obtain ⟨w, hw, rfl⟩ := List.mem_map.1 hk.1
            obtain ⟨hw1, hw2⟩ := List.mem_filter.1 hw
            exact ⟨w, hold w hw1 (by simpa using hk.2), by simpa [e] using hw2⟩
        · obtain ⟨w, hw, e1⟩ := hl.mem (List.ne_nil_of_mem hu)
          exact ⟨w, hold w hw fun e2 => e (by rw [← h.inj hw hu e2]; exact e1), e1⟩

/-- Eviction. -/
theorem Shows.evict (h : c.Shows s size) (hl : c.Least s) (hs : s ≠ []) :
    ∃ u c', u ∈ s ∧ (s.find? fun u => s.all fun w => u.uses ≤ w.uses) = some u ∧ c.evict_entry = .ok ((u.value, some u.code), c') ∧
      c'.Shows (s.filter fun w => w.value ≠ u.value) size := by
  obtain ⟨w, hw, ew⟩ := hl.mem hs
  have hf : (s.find? fun u => s.all fun w => u.uses ≤ w.uses) = s.find? fun u => u.uses = c.min_frequency := by
    have key : ∀ t : List (Used V), (∀ u ∈ t, u ∈ s) → (t.find? fun u => s.all fun w => u.uses ≤ w.uses) = t.find? fun u => u.uses = c.min_frequency := by
      intro t
      induction t with
      | nil => intro _; rfl
      | cons a r ih =>
        intro ht
        have ha : (s.all fun w => decide (a.uses ≤ w.uses)) = decide (a.uses = c.min_frequency) := by
          rw [Bool.eq_iff_iff, List.all_eq_true, decide_eq_true_eq]
          refine ⟨fun k => Nat.le_antisymm (by have := k w hw; rw [decide_eq_true_eq, ew] at this; exact this) (hl.le a (ht a (List.mem_cons_self ..))), fun e x hx => ?_⟩
          rw [decide_eq_true_eq, e]
          exact hl.le x hx
        rw [List.find?_cons, List.find?_cons, ha, ih fun u hu => ht u (List.mem_cons_of_mem _ hu)]
    exact key s fun _ hu => hu
  cases hx : s.filter fun u => u.uses = c.min_frequency with
  | nil =>
    have : w ∈ s.filter fun u => u.uses = c.min_frequency := List.mem_filter.2 ⟨hw, by simpa using ew⟩
    rw [hx] at this
    cases this
  | cons u r =>
    have hu : u ∈ s.filter fun u => u.uses = c.min_frequency := by rw [hx]; exact List.mem_cons_self ..
    obtain ⟨hu1, hu2⟩ := List.mem_filter.1 hu
    have hu2 : u.uses = c.min_frequency := by simpa using hu2
    have hfind : (s.find? fun u => u.uses = c.min_frequency) = some u := by
      rw [← List.head?_filter, hx]; rfl
    have hb := h.bins c.min_frequency
    rw [hx, List.map_cons] at hb
    have hbin : c.frequency_bin c.min_frequency = some (u.value :: r.map (·.value)) := by
      cases e : c.frequency_bin c.min_frequency with
      | none => rw [e] at hb; cases hb
      | some l => rw [e] at hb; rw [← hb]; rfl
    refine ⟨u, { c with frequency_bin := fun i => if i = c.min_frequency then some (r.map (·.value)) else c.frequency_bin i
                        values := c.values.eraseP fun p => p.1 = u.value }, hu1, hf.trans hfind, ?_, ?_⟩
    · unfold evict_entry
      rw [hbin]
      dsimp only
      rw [h.look hu1]
      rfl
    · have hk := h.keys.sublist ((List.filter_sublist (p := fun w : Used V => decide (w.value ≠ u.value))).map (·.value))
      refine ⟨hk, ?_, fun n => ?_, fun x hx => h.pos x (List.mem_filter.1 hx).1, h.cap⟩
      · have h1 : (c.values.eraseP fun p => p.1 = u.value).Perm (((s.filter fun w => w.value ≠ u.value) ++ [u]).map Used.entry |>.eraseP fun p => p.1 = u.value) := by
          refine List.Perm.eraseP _ ?_ (h.values.trans ((perm_filter h.keys hu1).map _))
          have := h.nodup
          rw [List.Nodup, List.pairwise_map] at this
          refine this.imp fun hne e1 e2 => ?_
          simp only [decide_eq_true_eq] at e1 e2
          exact hne (e1.trans e2.symm)
        refine h1.trans (.of_eq ?_)
        rw [List.map_append, List.eraseP_append_right]
        · simp [Used.entry]
        · intro p hp
          obtain ⟨x, hx, rfl⟩ := List.mem_map.1 hp
          have := (List.mem_filter.1 hx).2
          simp only [ne_eq, decide_eq_true_eq] at this
          exact fun e => this (of_decide_eq_true e)
      · rw [filter_bin, ← h.bins n]
        show (if n = c.min_frequency then _ else _ : Option (List V)).getD [] = _
        by_cases e : n = c.min_frequency
        · subst e
          rw [if_pos rfl, hbin, Option.getD_some, Option.getD_some, List.filter_cons_of_neg (by simp)]
          refine (List.filter_eq_self.2 fun k hk => ?_).symm
          have := h.bin_nodup c.min_frequency
          rw [hx, List.map_cons, List.nodup_cons] at this
          exact decide_eq_true (p := k ≠ u.value) fun e => this.1 (e ▸ hk)
        · rw [if_neg e]
          refine (List.filter_eq_self.2 fun k hk => ?_).symm
          rw [h.bins] at hk
          obtain ⟨x, hx, rfl⟩ := List.mem_map.1 hk
          obtain ⟨hx1, hx2⟩ := List.mem_filter.1 hx
          simp only [decide_eq_true_eq] at hx2 ⊢
          intro e'
          cases h.inj hx1 hu1 e'
          exact e (hx2.symm.trans hu2)

/-- A new value, if there is room. -/
theorem Shows.put (h : c.Shows s size) {v : V} (hv : ∀ u ∈ s, u.value ≠ v) (hr : s.length < size) (e : Nat) :
    ∃ c', c.set v e = .ok c' ∧ c'.Shows (s ++ [⟨v, e, 1⟩]) size ∧ c'.Least (s ++ [⟨v, e, 1⟩]) := by
  refine ⟨{ c with values := c.values ++ [(v, { value := e, count := 1 })], min_frequency := 1, frequency_bin := binInsert c.frequency_bin 1 v }, ?_, ?_, ?_⟩
  · unfold LFUCache.set
    rw [h.look_none hv]
    dsimp only
    rw [if_neg (by rw [h.len, h.cap]; omega)]
    rfl
  · refine ⟨?_, ?_, fun n => ?_, fun x hx => ?_, h.cap⟩
    · rw [List.map_append, List.nodup_append]
      refine ⟨h.keys, by simp, fun a ha b hb e => ?_⟩
      obtain ⟨u, hu, rfl⟩ := List.mem_map.1 ha
      simp only [List.map_cons, List.map_nil, List.mem_singleton] at hb
      exact hv u hu (e.trans hb)
    · rw [List.map_append]
      exact h.values.append_right _
    · rw [List.filter_append, List.map_append, ← h.bins n]
      show (binInsert _ _ _ n).getD [] = _
      unfold binInsert
      by_cases e1 : n = 1
      · subst e1
        have h1 : v ∉ (c.frequency_bin 1).getD [] := by
          rw [h.bins]
          intro hm
          obtain ⟨w, hw, e⟩ := List.mem_map.1 hm
          exact hv w (List.mem_filter.1 hw).1 e
        rw [if_pos rfl, Option.getD_some, List.erase_of_not_mem h1]
        simp
      · rw [if_neg e1, List.filter_cons_of_neg (by simpa using Ne.symm e1)]
        simp
    · rcases List.mem_append.1 hx with hx | hx
      · exact h.pos x hx
      · cases List.mem_singleton.1 hx
        exact Nat.le_refl 1
  · refine ⟨fun x hx => ?_, fun _ => ⟨⟨v, e, 1⟩, by simp, rfl⟩⟩
    rcases List.mem_append.1 hx with hx | hx
    · exact h.pos x hx
    · cases List.mem_singleton.1 hx
      exact Nat.le_refl 1

end LFUCache

/-- The encoder of a field is the ideal one. -/
structure LFUni.Ideal (c : LFUni V) (s : List (Used V)) (size max : Nat) : Prop where
  show_ : c.lfu_cache_encoder.Shows s size
  least : c.lfu_cache_encoder.Least s
  encoding : c.encoding = s.length
  size_eq : c.size = size
  max_eq : c.max = max
  le : s.length ≤ size

theorem LFUni.Ideal.step {c : LFUni V} {s : List (Used V)} {size max : Nat} (h : c.Ideal s size max) (hs : 0 < size) (hm : size ≤ max) (v : V) :
    ∃ c', c.try_encode v = .ok ((Used.encode size s v).1, c') ∧ c'.Ideal (Used.encode size s v).2 size max := by
  unfold Used.encode
  cases e : s.find? fun u => u.value = v with
  | some u =>
    have hu := List.mem_of_find?_eq_some e
    have hv : u.value = v := by simpa using List.find?_some e
    subst hv
    obtain ⟨d, h1, h2, h3⟩ := h.show_.hit h.least hu
    have hlen := (LFUCache.perm_filter h.show_.keys hu).length_eq
    rw [List.length_append] at hlen
    refine ⟨{ c with lfu_cache_encoder := d }, ?_, h2, h3, h.encoding.trans ?_, h.size_eq, h.max_eq, Nat.le_trans (Nat.le_of_eq ?_) h.le⟩
    · unfold LFUni.try_encode
      rw [h1]
      rfl
    · rw [hlen, List.length_append]; rfl
    · rw [hlen, List.length_append]; rfl
  | none =>
    have hv : ∀ u ∈ s, u.value ≠ v := fun u hu => by simpa using List.find?_eq_none.1 e u hu
    have hg : c.lfu_cache_encoder.get v = .ok (none, c.lfu_cache_encoder) := by
      unfold LFUCache.get LFUCache.update_frequency_bin
      rw [h.show_.look_none hv]
      simp only [bind, Except.bind, pure, Except.pure, h.show_.look_none hv, Option.map_none]
    dsimp only
    by_cases hr : s.length < size
    · obtain ⟨d, h1, h2, h3⟩ := h.show_.put hv hr (s.length + 1)
      rw [if_pos hr]
      refine ⟨{ c with lfu_cache_encoder := d, encoding := s.length + 1 }, ?_, h2, h3, by simp, h.size_eq, h.max_eq, by rw [List.length_append]; exact hr⟩
      unfold LFUni.try_encode
      rw [hg]
      simp only [bind, Except.bind, pure, Except.pure, h.show_.len, h.size_eq, addOne, h.encoding, h.max_eq]
      rw [if_neg (by omega), if_pos (by omega)]
      simp only [h1]
    · have hlen : s.length = size := Nat.le_antisymm h.le (Nat.le_of_not_lt hr)
      obtain ⟨u, d, hu, h1, h2, h3⟩ := h.show_.evict h.least (by rintro rfl; simp at hlen; omega)
      have hl2 := (LFUCache.perm_filter h.show_.keys hu).length_eq
      rw [List.length_append, List.length_singleton] at hl2
      obtain ⟨d', k1, k2, k3⟩ := h3.put (v := v) (fun w hw => hv w (List.mem_filter.1 hw).1) (by omega) u.code
      rw [if_neg hr, h1]
      refine ⟨{ c with lfu_cache_encoder := d' }, ?_, k2, k3, ?_, h.size_eq, h.max_eq, ?_⟩
      · unfold LFUni.try_encode
        rw [hg]
        simp only [bind, Except.bind, pure, Except.pure, h.show_.len, h.size_eq]
        rw [if_pos hlen, h2]
        simp only [k1]
      · show c.encoding = _
        rw [h.encoding, List.length_append, List.length_singleton]
        exact hl2
      · show List.length (_ ++ _) ≤ size
        rw [List.length_append, List.length_singleton]
        omega

theorem LFUni.Ideal.answers {size max : Nat} (hs : 0 < size) (hm : size ≤ max) : ∀ (vs : List V) {c : LFUni V} {s : List (Used V)}, c.Ideal s size max →
    c.answers (vs.map .encode) = (Used.encodeAll size s vs).map .encoded
  | [], _, _, _ => rfl
  | v :: vs, c, s, h => by
    obtain ⟨c', h1, h2⟩ := h.step hs hm v
    rw [List.map_cons, LFUni.answers, LFUni.op, h1, Used.encodeAll, List.map_cons]
    simp only [bind, Except.bind, pure, Except.pure]
    rw [LFUni.Ideal.answers hs hm vs h2]

theorem LFUni.ideal_new {size max : Nat} (hs : 0 < size) : ∃ c : LFUni V, LFUni.new max size = .ok c ∧ c.Ideal [] size max := by
  refine ⟨{ lfu_cache_encoder := { capacity := size }, lfu_cache_decoder := { capacity := size }, encoding := 0, size, max }, ?_, ?_⟩
  · unfold LFUni.new LFUCache.with_capacity
    rw [if_neg (by omega), if_neg (by omega)]
    rfl
  · exact ⟨⟨List.nodup_nil, .refl _, fun _ => rfl, nofun, rfl⟩, ⟨nofun, fun h => absurd rfl h⟩, rfl, rfl, rfl, Nat.zero_le _⟩

end Omni
