import Verif.Spec.UniRecent
/-
The LRU cache knows the values that were used last.
-/
namespace Omni

variable {V : Type} [DecidableEq V]

/-- The different values of a list, given the last one first. -/
def latest : List V → List V
  | [] => []
  | v :: r => v :: (latest r).erase v

theorem mem_latest {v : V} : ∀ {r : List V}, v ∈ latest r ↔ v ∈ r
  | [] => Iff.rfl
  | a :: r => by
    rw [latest, List.mem_cons, List.mem_cons]
    by_cases e : v = a
    · simp [e]
    · rw [List.mem_erase_of_ne e, mem_latest]

theorem nodup_latest : ∀ r : List V, (latest r).Nodup
  | [] => List.nodup_nil
  | a :: r => by
    rw [latest, List.nodup_cons]
    exact ⟨(nodup_latest r).not_mem_erase, (nodup_latest r).erase a⟩

theorem length_latest (r : List V) : (latest r).length = r.dedup.length :=
  ((List.perm_ext_iff_of_nodup (nodup_latest r) r.nodup_dedup).2 fun v => by rw [mem_latest, List.mem_dedup]).length_eq

/-- What is before a value, without another one. -/
theorem takeWhile_erase {v a : V} (h : a ≠ v) : ∀ l : List V, (l.erase a).takeWhile (fun w => w ≠ v) = (l.takeWhile fun w => w ≠ v).erase a
  | [] => rfl
  | b :: l => by
    by_cases e : b = a
    · subst e
      rw [List.erase_cons_head, List.takeWhile_cons_of_pos (by simpa using h), List.erase_cons_head]
    · rw [List.erase_cons_tail (by simpa using e)]
      by_cases e2 : b = v
      · rw [List.takeWhile_cons_of_neg (by simpa using e2), List.takeWhile_cons_of_neg (by simpa using e2)]; rfl
      · rw [List.takeWhile_cons_of_pos (by simpa using e2), List.takeWhile_cons_of_pos (by simpa using e2), takeWhile_erase h l, List.erase_cons_tail (by simpa using e)]

theorem latest_before (v : V) : ∀ r : List V, (latest r).takeWhile (fun w => w ≠ v) = latest (r.takeWhile fun w => w ≠ v)
  | [] => rfl
  | a :: r => by
    rw [latest]
    by_cases e : a = v
    · rw [List.takeWhile_cons_of_neg (by simpa using e), List.takeWhile_cons_of_neg (by simpa using e)]; rfl
    · rw [List.takeWhile_cons_of_pos (by simpa using e), List.takeWhile_cons_of_pos (by simpa using e), latest, takeWhile_erase e, latest_before v r]

theorem mem_take_iff {v : V} : ∀ {l : List V} {n : Nat}, v ∈ l.take n ↔ v ∈ l ∧ (l.takeWhile fun w => w ≠ v).length < n
  | [], n => by simp
  | a :: l, 0 => by simp
  | a :: l, n + 1 => by
    rw [List.take_succ_cons, List.mem_cons, List.mem_cons]
    by_cases e : v = a
    · subst e
      rw [List.takeWhile_cons_of_neg (by simp)]
      simp
    · rw [List.takeWhile_cons_of_pos (by simpa using Ne.symm e), mem_take_iff (l := l)]
      simp [e]

theorem takeWhile_append_cons {v : V} {a b : List V} (h : v ∉ a) : (a ++ v :: b).takeWhile (fun w => w ≠ v) = a := by
  rw [List.takeWhile_append_of_pos fun w hw => by simpa using fun e : w = v => h (e ▸ hw), List.takeWhile_cons_of_neg (by simp), List.append_nil]

/-- The first values of the list of the latest ones are the recent ones. -/
theorem mem_latest_take {size : Nat} {vs : List V} {v : V} : v ∈ (latest vs.reverse).take size ↔ UsedLast size vs v := by
  rw [mem_take_iff, mem_latest, latest_before, length_latest]
  constructor
  · rintro ⟨h1, h2⟩
    obtain ⟨a, b, e, h3⟩ := List.eq_append_cons_of_mem h1
    rw [e, takeWhile_append_cons h3] at h2
    refine ⟨b.reverse, a.reverse, ?_, by simpa using h3, ?_⟩
    · rw [← List.reverse_reverse vs, e]; simp
    · rwa [((List.reverse_perm a).dedup).length_eq]
  · rintro ⟨b, s, rfl, h1, h2⟩
    have e : (b ++ v :: s).reverse = s.reverse ++ v :: b.reverse := by simp
    rw [e, takeWhile_append_cons (by simpa using h1), ((List.reverse_perm s).dedup).length_eq]
    exact ⟨by simp, h2⟩

/-- The encoder knows the latest values, in their order. -/
structure LRUni.Ideal (c : LRUni V) (r : List V) (size max : Nat) : Prop where
  keys : c.lru_cache_encoder.items.map (·.1) = (latest r).take size
  cap : c.lru_cache_encoder.cap = size
  encoding : c.encoding = c.lru_cache_encoder.items.length
  size_eq : c.size = size
  max_eq : c.max = max

theorem erase_take {v : V} : ∀ {l : List V} {n : Nat}, v ∈ l.take (n + 1) → (l.take (n + 1)).erase v = (l.erase v).take n
  | a :: l, n, h => by
    rw [List.take_succ_cons] at h ⊢
    by_cases e : a = v
    · subst e
      rw [List.erase_cons_head, List.erase_cons_head]
    · rw [List.erase_cons_tail (by simpa using e), List.erase_cons_tail (by simpa using e)]
      cases n with
      | zero => simp at h; exact absurd h.symm e
      | succ n =>
        rw [List.take_succ_cons, erase_take ((List.mem_cons.1 h).resolve_left (Ne.symm e))]

theorem take_erase_of_not_mem {v : V} : ∀ {l : List V} {n : Nat}, v ∉ l.take (n + 1) → (l.erase v).take n = l.take n
  | [], n, _ => rfl
  | a :: l, 0, _ => by simp
  | a :: l, n + 1, h => by
    rw [List.take_succ_cons, List.mem_cons, not_or] at h
    rw [List.erase_cons_tail (by simpa using Ne.symm h.1), List.take_succ_cons, List.take_succ_cons, take_erase_of_not_mem h.2]

theorem map_eraseP_fst (v : V) : ∀ l : List (V × Nat), (l.eraseP fun p => p.1 = v).map (·.1) = (l.map (·.1)).erase v
  | [] => rfl
  | p :: l => by
    by_cases e : p.1 = v
    · rw [List.eraseP_cons_of_pos (by simpa using e), List.map_cons, e, List.erase_cons_head]
    · rw [List.eraseP_cons_of_neg (by simpa using e), List.map_cons, List.map_cons, List.erase_cons_tail (by simpa using e), map_eraseP_fst v l]

theorem LRUni.Ideal.step {c : LRUni V} {r : List V} {size max : Nat} (h : c.Ideal r size max) (hs : 0 < size) (hm : size ≤ max) (v : V) :
    ∃ m c', c.try_encode v = .ok (m, c') ∧ c'.Ideal (v :: r) size max ∧
      ((∃ e, m = .encoded e) ∧ v ∈ (latest r).take size ∨ m = .notEncoded v ∧ v ∉ (latest r).take size) := by
  obtain ⟨n, rfl⟩ : ∃ n, size = n + 1 := ⟨size - 1, by omega⟩
  have hlen : c.lru_cache_encoder.items.length ≤ n + 1 := by
    rw [← List.length_map (f := (·.1)), h.keys]
    exact List.length_take_le ..
  cases hf : c.lru_cache_encoder.items.find? fun p => p.1 = v with
  | some p =>
    have hp := List.mem_of_find?_eq_some hf
    have hv : p.1 = v := by simpa using List.find?_some hf
    have hin : v ∈ (latest r).take (n + 1) := by rw [← h.keys, ← hv]; exact List.mem_map_of_mem hp
    refine ⟨.encoded p.2, { c with lru_cache_encoder := { c.lru_cache_encoder with items := p :: c.lru_cache_encoder.items.eraseP fun p => p.1 = v } }, ?_,
      ⟨?_, h.cap, ?_, h.size_eq, h.max_eq⟩, .inl ⟨⟨_, rfl⟩, hin⟩⟩
    · unfold LRUni.try_encode LruCache.get
      rw [hf]
    · show List.map _ (_ :: _) = _
      rw [List.map_cons, map_eraseP_fst, h.keys, erase_take hin, latest, List.take_succ_cons, hv]
    · have := List.length_eraseP_of_mem (p := fun p : V × Nat => decide (p.1 = v)) hp (by simpa using hv)
      have h0 := List.length_pos_of_mem hp
      rw [h.encoding]
      show _ = List.length (_ :: _)
      rw [List.length_cons, this]
      omega
  | none =>
    have hnm : v ∉ c.lru_cache_encoder.items.map (·.1) := by
      intro hm
      obtain ⟨p, hp, e⟩ := List.mem_map.1 hm
      have := List.find?_eq_none.1 hf p hp
      simp [e] at this
    have hnin : v ∉ (latest r).take (n + 1) := by rwa [← h.keys]
    have hany : ∀ l : List (V × Nat), (∀ p ∈ l, p ∈ c.lru_cache_encoder.items) → (l.any fun p => p.1 = v) = false := fun l hl => by
      rw [List.any_eq_false]
      intro p hp e
      exact hnm (List.mem_map.2 ⟨p, hl p hp, by simpa using e⟩)
    by_cases hfull : c.lru_cache_encoder.items.length = n + 1
    · obtain ⟨p, hp⟩ : ∃ p, c.lru_cache_encoder.items.getLast? = some p := by
        cases e : c.lru_cache_encoder.items.getLast? with
        | none => rw [List.getLast?_eq_none_iff] at e; rw [e] at hfull; cases hfull
        | some p => exact ⟨p, rfl⟩
      refine ⟨.notEncoded v, { c with lru_cache_encoder := { c.lru_cache_encoder with items := (v, p.2) :: c.lru_cache_encoder.items.dropLast } }, ?_,
        ⟨?_, h.cap, ?_, h.size_eq, h.max_eq⟩, .inr ⟨rfl, hnin⟩⟩
      · unfold LRUni.try_encode LruCache.get
        rw [hf]
        dsimp only
        rw [if_pos (by rw [h.size_eq]; exact hfull)]
        unfold LruCache.pop_lru
        rw [hp]
        dsimp only [Option.map_some]
        unfold LruCache.push
        dsimp only
        rw [hany _ fun p hp => (List.dropLast_sublist _).subset hp, if_neg (by simp), if_neg]
        unfold LruCache.len
        dsimp only
        rw [List.length_dropLast, hfull, h.cap]
        omega
      · show List.map _ (_ :: _) = _
        rw [List.map_cons, List.map_dropLast, h.keys, latest, List.take_succ_cons, take_erase_of_not_mem hnin]
        have : ((latest r).take (n + 1)).length = n + 1 := by rw [← h.keys, List.length_map, hfull]
        rw [List.dropLast_eq_take, this, List.take_take]
        simp
      · rw [h.encoding]
        show _ = List.length (_ :: _)
        rw [List.length_cons, List.length_dropLast, hfull]
        rfl
    · refine ⟨.notEncoded v, { c with lru_cache_encoder := { c.lru_cache_encoder with items := (v, c.lru_cache_encoder.items.length + 1) :: c.lru_cache_encoder.items },
                                      encoding := c.lru_cache_encoder.items.length + 1 }, ?_, ⟨?_, h.cap, rfl, h.size_eq, h.max_eq⟩, .inr ⟨rfl, hnin⟩⟩
      · unfold LRUni.try_encode LruCache.get
        rw [hf]
        dsimp only
        rw [if_neg (by rw [h.size_eq]; exact hfull)]
        unfold addOne
        rw [if_pos (by rw [h.encoding, h.max_eq]; omega), h.encoding]
        simp only [bind, Except.bind, pure, Except.pure]
        unfold LruCache.push
        rw [hany _ fun p hp => hp, if_neg (by simp), if_neg]
        unfold LruCache.len
        rw [h.cap]
        exact hfull
      · have hl : (latest r).length ≤ n := by
          have : ((latest r).take (n + 1)).length = c.lru_cache_encoder.items.length := by rw [← h.keys, List.length_map]
          rw [List.length_take] at this
          omega
        have hk := h.keys
        rw [List.take_of_length_le (by omega)] at hk hnin
        show List.map _ (_ :: _) = _
        rw [List.map_cons, hk, latest, List.take_succ_cons, List.erase_of_not_mem hnin, List.take_of_length_le hl]

theorem LRUni.Ideal.all {size max : Nat} (hs : 0 < size) (hm : size ≤ max) : ∀ (vs : List V) {c : LRUni V} {us : List V}, c.Ideal us.reverse size max →
    ∃ ms, c.encodeAll vs = .ok ms ∧ ms.length = vs.length ∧ ∀ a v b, vs = a ++ v :: b →
      (∃ e, ms[a.length]? = some (.encoded e)) ∧ UsedLast size (us ++ a) v ∨ ms[a.length]? = some (.notEncoded v) ∧ ¬ UsedLast size (us ++ a) v
  | [], _, _, _ => ⟨[], rfl, rfl, fun a v b e => by simp at e⟩
  | v :: vs, c, us, h => by
    obtain ⟨m, c', h1, h2, h3⟩ := h.step hs hm v
    have e : v :: us.reverse = (us ++ [v]).reverse := by simp
    rw [e] at h2
    obtain ⟨ms, k1, k2, k3⟩ := LRUni.Ideal.all hs hm vs h2
    refine ⟨m :: ms, ?_, by simp [k2], fun a w b hab => ?_⟩
    · simp only [LRUni.encodeAll, h1, k1, bind, Except.bind, pure, Except.pure]
    · cases a with
      | nil =>
        cases hab
        rw [mem_latest_take] at h3
        simpa using h3
      | cons x a =>
        cases hab
        have := k3 a w b rfl
        simpa using this

theorem LRUni.ideal_new {size max : Nat} (hs : 0 < size) : ∃ c : LRUni V, LRUni.new max size = .ok c ∧ c.Ideal [] size max := by
  refine ⟨{ lru_cache_encoder := { cap := size }, lru_cache_decoder := { cap := size }, encoding := 0, size, max }, ?_, ?_⟩
  · unfold LRUni.new LruCache.new
    rw [if_neg (by omega), if_neg (by omega)]
    rfl
  · exact ⟨by simp [latest], rfl, rfl, rfl, rfl⟩

end Omni
