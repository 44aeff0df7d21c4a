import Verif.Proof.Safety.Links
import Verif.Spec.Decided
/-
From the invariant to what users see.
-/
namespace Omni

variable {E S : Type}

theorem sliceGet_getElem? {l : List E} {a b k : Nat} {e : E} (h : (sliceGet l a b)[k]? = some e) : l[a + k]? = some e := by
  unfold sliceGet at h
  split at h
  · rw [List.getElem?_drop, List.getElem?_take] at h
    split at h
    · exact h
    · simp at h
  · simp at h

theorem sliceGet_length (l : List E) (a b : Nat) : (sliceGet l a b).length ≤ b - a := by
  unfold sliceGet
  split
  · simp; omega
  · simp

theorem IStore.markDecided_length (d : Nat) : ∀ (l : List E) (i : Nat), (IStore.markDecided d i l : List (LogEntry E S)).length = l.length
  | [], _ => rfl
  | _ :: l, i => by simp [IStore.markDecided, IStore.markDecided_length d l]

namespace IStore
variable {s : IStore E S}

theorem markDecided_decided {d : Nat} : ∀ {l : List E} {i k : Nat} {e : E},
    (markDecided d i l : List (LogEntry E S))[k]? = some (.decided e) → l[k]? = some e ∧ i + k < d
  | [], i, k, e, h => by simp [markDecided] at h
  | x :: l, i, 0, e, h => by
    simp only [markDecided, List.getElem?_cons_zero, Option.some.injEq] at h
    split at h
    · rename_i hd
      simp at h; subst h; exact ⟨rfl, hd⟩
    · simp at h
  | x :: l, i, k + 1, e, h => by
    simp only [markDecided, List.getElem?_cons_succ] at h
    have := markDecided_decided h
    exact ⟨by simpa using this.1, by omega⟩

theorem markDecided_stop {d : Nat} : ∀ {l : List E} {i k : Nat} {ss : StopSign} {f : Bool},
    (markDecided d i l : List (LogEntry E S))[k]? ≠ some (.stopSign ss f)
  | [], i, k, ss, f => by simp [markDecided]
  | x :: l, i, 0, ss, f => by
    simp only [markDecided, List.getElem?_cons_zero]
    split <;> simp
  | x :: l, i, k + 1, ss, f => by
    simp only [markDecided, List.getElem?_cons_succ]
    exact markDecided_stop

theorem entries_decided (h : Mirror s) {a b k : Nat} {e : E} {l : List (LogEntry E S)} (hr : s.create_read_log_entries a b = some l)
    (hk : l[k]? = some (.decided e)) : a + k < s.storage.ld ∧ s.storage.entryAt (a + k) = some e := by
  unfold create_read_log_entries at hr
  split at hr
  · simp at hr
  · rename_i es hes
    simp at hr; subst hr
    obtain ⟨h1, h2⟩ := markDecided_decided hk
    refine ⟨by rw [← h.dec]; exact h2, ?_⟩
    unfold Mem.get_entries at hes
    split at hes
    · rename_i x y hx hy
      simp at hes; subst hes
      have := sliceGet_getElem? h1
      simp only [usub] at hx
      split at hx
      · simp at hx
        have htr := h.trim
        unfold Mem.entryAt
        rw [if_neg (by omega), show a + k - s.storage.compacted_idx = x + k by omega]
        exact this
      · simp at hx
    · simp at hes

theorem entries_length {a b : Nat} {l : List (LogEntry E S)} (hr : s.create_read_log_entries a b = some l) : l.length ≤ b - a := by
  unfold create_read_log_entries at hr
  split at hr
  · simp at hr
  · rename_i es hes
    simp at hr; subst hr
    rw [markDecided_length]
    unfold Mem.get_entries usub at hes
    split at hes
    · rename_i x y hx hy
      simp at hes; subst hes
      have := sliceGet_length s.storage.log x y
      split at hx <;> split at hy <;> simp at hx hy
      omega
    · simp at hes

theorem marker_not {c : Nat} : (∀ e, s.create_compacted_entry c ≠ .decided e) ∧
    (∀ ss f, s.create_compacted_entry c ≠ .stopSign ss f) := by
  unfold create_compacted_entry
  cases s.storage.snapshot <;> simp

/-- What `read` can return. -/
theorem read_cases {lo hi : Bound} {l : List (LogEntry E S)} (hr : s.read lo hi = some (some l)) :
    (l = [s.create_compacted_entry s.cache.compacted_idx]) ∨
    (∃ b es tl, s.create_read_log_entries (startIdx lo) b = some es ∧ s.cache.compacted_idx ≤ startIdx lo ∧ l = es ++ tl ∧ b + tl.length = s.endIdx hi ∧
      (tl = [] ∨ (b + 1 = s.cache.accepted_idx ∧ ∃ ss, s.cache.stopsign = some ss ∧ tl = [.stopSign ss s.cache.stopsign_is_decided]))) ∨
    (∃ b es tl, s.create_read_log_entries s.cache.compacted_idx b = some es ∧ startIdx lo < s.cache.compacted_idx ∧
      l = s.create_compacted_entry s.cache.compacted_idx :: (es ++ tl) ∧ s.cache.compacted_idx < s.endIdx hi ∧
      (tl = [] ∨ ∃ ss, s.cache.stopsign = some ss ∧ tl = [.stopSign ss s.cache.stopsign_is_decided])) ∨
    (∃ ss, s.cache.stopsign = some ss ∧ startIdx lo + 1 = s.cache.accepted_idx ∧ l = [.stopSign ss s.cache.stopsign_is_decided]) := by
  have typ : ∀ i t, s.get_entry_type i s.cache.compacted_idx s.cache.accepted_idx = some t →
      (t = .compacted ∧ i < s.cache.compacted_idx) ∨ (t = .entry ∧ s.cache.compacted_idx ≤ i) ∨
      (∃ ss, t = .stopSign ss ∧ s.cache.stopsign = some ss ∧ i + 1 = s.cache.accepted_idx ∧ s.cache.compacted_idx ≤ i) := by
    intro i t ht
    unfold get_entry_type at ht
    split at ht
    · simp at ht; exact .inl ⟨ht.symm, by assumption⟩
    · split at ht
      · simp at ht; exact .inr (.inl ⟨ht.symm, by omega⟩)
      · split at ht
        · split at ht
          · rename_i ss hss; simp at ht; exact .inr (.inr ⟨ss, ht.symm, hss, by omega, by omega⟩)
          · simp at ht; exact .inr (.inl ⟨ht.symm, by omega⟩)
        · simp at ht
  unfold read at hr
  simp only at hr
  split at hr
  · simp at hr
  rename_i hz
  split at hr
  · simp at hr; exact .inl hr.symm
  · simp at hr
  · rename_i tt htt hto
    split at hr
    · simp at hr
    · rename_i ft hft
      have h1 := typ _ _ hft
      have h2 := typ _ _ hto
      split at hr
      · -- entry, entry
        split at hr
        · simp at hr
        · rename_i es hes
          simp at hr; subst hr
          rcases h1 with h1 | h1 | ⟨_, h1, -⟩ <;> try simp at h1
          exact .inr (.inl ⟨_, es, [], hes, h1, by simp, rfl, .inl rfl⟩)
      · rename_i ss
        split at hr
        · simp at hr
        · rename_i es hes
          simp at hr; subst hr
          rcases h1 with h1 | h1 | ⟨_, h1, -⟩ <;> try simp at h1
          rcases h2 with h2 | h2 | ⟨ss', h2, h3, h4, h5⟩ <;> try simp at h2
          subst h2
          exact .inr (.inl ⟨_, es, _, hes, h1, rfl, by simp; omega, .inr ⟨h4, ss, h3, rfl⟩⟩)
      · split at hr
        · simp at hr
        · rename_i es hes
          simp at hr; subst hr
          rcases h1 with h1 | h1 | ⟨_, h1, -⟩ <;> try simp at h1
          rcases h2 with h2 | h2 | ⟨_, h2, -⟩ <;> try simp at h2
          exact .inr (.inr (.inl ⟨_, es, [], hes, h1, by simp, by omega, .inl rfl⟩))
      · rename_i ss
        split at hr
        · simp at hr
        · rename_i es hes
          simp at hr; subst hr
          rcases h1 with h1 | h1 | ⟨_, h1, -⟩ <;> try simp at h1
          rcases h2 with h2 | h2 | ⟨ss', h2, h3, h4, h5⟩ <;> try simp at h2
          subst h2
          exact .inr (.inr (.inl ⟨_, es, _, hes, h1, by simp, by omega, .inr ⟨ss, h3, rfl⟩⟩))
      · rename_i ss _
        simp at hr; subst hr
        rcases h1 with h1 | h1 | ⟨ss', h1, h3, h4, -⟩ <;> try simp at h1
        subst h1
        exact .inr (.inr (.inr ⟨ss, h3, h4, rfl⟩))
      · simp at hr

/-- Decided entries in what `read` returns. -/
theorem read_decided (h : Mirror s) {lo hi : Bound} {l : List (LogEntry E S)} (hr : s.read lo hi = some (some l)) {k : Nat} {e : E}
    (hk : l[k]? = some (.decided e)) :
    let p := if startIdx lo < s.cache.compacted_idx then s.cache.compacted_idx + k - 1 else startIdx lo + k
    p < s.storage.ld ∧ s.storage.entryAt p = some e := by
  have tail : ∀ {es tl : List (LogEntry E S)} {k : Nat}, (tl = [] ∨ ∃ ss, s.cache.stopsign = some ss ∧ tl = [.stopSign ss s.cache.stopsign_is_decided]) →
      (es ++ tl)[k]? = some (.decided e) → es[k]? = some (.decided e) := by
    intro es tl k ht hk
    rcases Nat.lt_or_ge k es.length with hlt | hge
    · rwa [List.getElem?_append_left hlt] at hk
    · rw [List.getElem?_append_right hge] at hk
      exfalso
      rcases ht with rfl | ⟨ss, -, rfl⟩
      · simp at hk
      · cases hx : k - es.length <;> rw [hx] at hk <;> simp at hk
  rcases read_cases hr with rfl | ⟨b, es, tl, h1, h2, rfl, -, h3⟩ | ⟨b, es, tl, h1, h2, rfl, -, h3⟩ | ⟨ss, -, -, rfl⟩
  · cases k with
    | zero => simp at hk; exact absurd hk (marker_not.1 e)
    | succ k => simp at hk
  · simp only
    rw [if_neg (by omega)]
    exact entries_decided h h1 (tail (h3.imp id fun h => h.2) hk)
  · simp only
    rw [if_pos h2]
    cases k with
    | zero => simp at hk; exact absurd hk (marker_not.1 e)
    | succ k =>
      simp only [List.getElem?_cons_succ] at hk
      exact entries_decided h h1 (tail h3 hk)
  · cases k <;> simp at hk

/-- A StopSign in what `read` returns. -/
theorem read_stop {lo hi : Bound} {l : List (LogEntry E S)} (hr : s.read lo hi = some (some l)) {k : Nat} {ss : StopSign} {f : Bool}
    (hk : l[k]? = some (.stopSign ss f)) : s.cache.stopsign = some ss ∧ f = s.cache.stopsign_is_decided := by
  have tail : ∀ {b a : Nat} {es tl : List (LogEntry E S)} {k : Nat}, s.create_read_log_entries a b = some es →
      (tl = [] ∨ ∃ ss, s.cache.stopsign = some ss ∧ tl = [.stopSign ss s.cache.stopsign_is_decided]) →
      (es ++ tl)[k]? = some (.stopSign ss f) → s.cache.stopsign = some ss ∧ f = s.cache.stopsign_is_decided := by
    intro b a es tl k hes ht hk
    rcases Nat.lt_or_ge k es.length with hlt | hge
    · rw [List.getElem?_append_left hlt] at hk
      unfold create_read_log_entries at hes
      split at hes
      · simp at hes
      · simp at hes; subst hes; exact absurd hk markDecided_stop
    · rw [List.getElem?_append_right hge] at hk
      rcases ht with rfl | ⟨ss, h1, rfl⟩
      · simp at hk
      · cases hx : k - es.length <;> rw [hx] at hk <;> simp at hk
        exact ⟨by rw [h1, hk.1], hk.2.symm⟩
  rcases read_cases hr with rfl | ⟨b, es, tl, h1, h2, rfl, -, h3⟩ | ⟨b, es, tl, h1, h2, rfl, -, h3⟩ | ⟨ss', h1, -, rfl⟩
  · cases k with
    | zero => simp at hk; exact absurd hk (marker_not.2 ss f)
    | succ k => simp at hk
  · exact tail h1 (h3.imp id fun h => h.2) hk
  · cases k with
    | zero => simp at hk; exact absurd hk (marker_not.2 ss f)
    | succ k =>
      simp only [List.getElem?_cons_succ] at hk
      exact tail h1 h3 hk
  · cases k with
    | zero => simp at hk; exact ⟨by rw [h1, hk.1], hk.2.symm⟩
    | succ k => simp at hk

end IStore

theorem OP.posOf_eq {op : OP E S} (lo : IStore.Bound) (k : Nat) : op.posOf lo k =
    if IStore.startIdx lo < op.sp.ist.cache.compacted_idx then op.sp.ist.cache.compacted_idx + k - 1 else IStore.startIdx lo + k := by
  cases lo <;> rfl

theorem getLast?_some_idx {α : Type} {l : List α} {a : α} (h : l.getLast? = some a) : l[l.length - 1]? = some a := by
  rw [List.getLast?_eq_getElem?] at h
  exact h

/-- The list behind `read(p)` has one element. -/
theorem OP.read_entries_one {op : OP E S} {p : Nat} {v : LogEntry E S} (h : op.read p = some (some v)) :
    ∃ l, op.sp.ist.read (.included p) (.excluded (p + 1)) = some (some l) ∧ l.getLast? = some v := by
  unfold OP.read at h
  split at h
  · simp at h
  · simp at h
  · rename_i l hl
    exact ⟨l, hl, by simpa using h⟩

theorem OP.read_one_cases {op : OP E S} {p : Nat} {l : List (LogEntry E S)}
    (h : op.sp.ist.read (.included p) (.excluded (p + 1)) = some (some l)) :
    (p < op.sp.ist.cache.compacted_idx ∧ l = [op.sp.ist.create_compacted_entry op.sp.ist.cache.compacted_idx]) ∨
    (op.sp.ist.cache.compacted_idx ≤ p ∧ l.length ≤ 1) := by
  rcases IStore.read_cases h with rfl | ⟨b, es, tl, h3, h4, rfl, h6, h5⟩ | ⟨b, es, tl, h3, h4, rfl, h6, h5⟩ | ⟨ss, h3, h4, rfl⟩
  · by_cases hc : p < op.sp.ist.cache.compacted_idx
    · exact .inl ⟨hc, rfl⟩
    · exact .inr ⟨by omega, by simp⟩
  · refine .inr ⟨h4, ?_⟩
    have := IStore.entries_length h3
    simp only [IStore.endIdx, IStore.startIdx] at *
    rw [List.length_append]
    have : tl.length ≤ 1 := by rcases h5 with rfl | ⟨-, ss, -, rfl⟩ <;> simp
    omega
  · simp only [IStore.endIdx, IStore.startIdx] at *
    omega
  · by_cases hc : p < op.sp.ist.cache.compacted_idx
    · refine .inl ⟨hc, ?_⟩
      unfold IStore.read at h
      simp [IStore.endIdx, IStore.get_entry_type, hc] at h
      rw [h]
    · exact .inr ⟨by omega, by simp⟩

namespace OP.Shows
variable {op : OP E S} {p : Nat}

theorem decided (hm : Mirror op.sp.ist) {e : E} (h : op.Shows p (.decided e)) :
    p < op.sp.ist.storage.ld ∧ op.sp.ist.storage.entryAt p = some e := by
  cases h with
  | read h =>
    obtain ⟨l, h1, h2⟩ := OP.read_entries_one h
    have := IStore.read_decided hm h1 (getLast?_some_idx h2)
    simp only at this
    rcases OP.read_one_cases h1 with ⟨hc, rfl⟩ | ⟨hc, hl⟩
    · simp at h2; exact absurd h2 (IStore.marker_not.1 e)
    · rw [if_neg (show ¬ IStore.startIdx (.included p) < _ by simp only [IStore.startIdx]; omega), show l.length - 1 = 0 by omega] at this
      exact this
  | read_entries lo hi l k h hk hp =>
    rw [hp, OP.posOf_eq]
    exact IStore.read_decided hm h hk
  | read_decided_suffix i l k h hk hp =>
    rw [hp, OP.posOf_eq]
    unfold OP.read_decided_suffix IStore.read_decided_suffix at h
    split at h
    · exact IStore.read_decided hm h hk
    · simp at h

theorem stop {ss : StopSign} {f : Bool} (h : op.Shows p (.stopSign ss f)) :
    op.sp.ist.cache.stopsign = some ss ∧ f = op.sp.ist.cache.stopsign_is_decided := by
  cases h with
  | read h =>
    obtain ⟨l, h1, h2⟩ := OP.read_entries_one h
    exact IStore.read_stop h1 (getLast?_some_idx h2)
  | read_entries lo hi l k h hk hp => exact IStore.read_stop h hk
  | read_decided_suffix i l k h hk hp =>
    unfold OP.read_decided_suffix IStore.read_decided_suffix at h
    split at h
    · exact IStore.read_stop h hk
    · simp at h

end OP.Shows

theorem OP.read_stop_pos {op : OP E S} {p : Nat} {ss : StopSign} {f : Bool} (h : op.read p = some (some (.stopSign ss f))) :
    p + 1 = op.sp.ist.cache.accepted_idx := by
  obtain ⟨l, h1, h2⟩ := OP.read_entries_one h
  have hs := getLast?_some_idx h2
  rcases IStore.read_cases h1 with rfl | ⟨b, es, tl, h3, h4, rfl, h6, h5⟩ | ⟨b, es, tl, h3, h4, rfl, h6, h5⟩ | ⟨ss, h3, h4, rfl⟩
  · simp at h2; exact absurd h2 (IStore.marker_not.2 ss f)
  · rcases h5 with rfl | ⟨h5, ss', -, rfl⟩
    · exfalso
      simp only [List.append_nil] at hs
      unfold IStore.create_read_log_entries at h3
      split at h3
      · simp at h3
      · simp at h3; subst h3; exact IStore.markDecided_stop hs
    · simp [IStore.endIdx] at h6; omega
  · simp only [IStore.endIdx, IStore.startIdx] at *
    omega
  · exact h4

/-! ### Logs -/

theorem Lg.get_eq {l lg : Lg E} {d p : Nat} (h : l ≤ lg) (hc : l.Covers d) (hp : p < d) : l.es[p]? = lg.es[p]? := by
  have := Lg.take_eq (Lg.le_refl l) h hc
  have h1 : (l.es.take d)[p]? = (lg.es.take d)[p]? := by rw [this]
  rwa [List.getElem?_take_of_lt hp, List.getElem?_take_of_lt hp] at h1

theorem Lg.get_le {a b : Lg E} {p : Nat} {e : E} (h : a ≤ b) (he : a.es[p]? = some e) : b.es[p]? = some e := by
  obtain ⟨t, ht⟩ := Lg.pre h
  rw [← ht, List.getElem?_append_left (List.getElem?_eq_some_iff.1 he).1]
  exact he

section disk
variable {cc : ClusterConfig} {i j : NodeId} {G : Ghost E} {d : Mem E S} {lg : Lg E}

theorem DiskInv.entry (h : DiskInv cc i G d lg) {p : Nat} {e : E} (he : d.entryAt p = some e) : lg.es[p]? = some e := by
  unfold Mem.entryAt at he
  split at he
  · simp at he
  · rename_i hc
    rw [h.log, List.getElem?_drop, show d.compacted_idx + (p - d.compacted_idx) = p by omega] at he
    exact he

theorem DiskInv.of_entry (h : DiskInv cc i G d lg) {p : Nat} {e : E} (he : lg.es[p]? = some e) :
    p < d.compacted_idx ∨ d.entryAt p = some e := by
  unfold Mem.entryAt
  by_cases hc : p < d.compacted_idx
  · exact .inl hc
  · right
    rw [if_neg hc, h.log, List.getElem?_drop, show d.compacted_idx + (p - d.compacted_idx) = p by omega]
    exact he

theorem DiskInv.keeps {G' : Ghost E} {d' : Mem E S} {l lg' : Lg E} {k p : Nat} (h : DiskInv cc i G d lg) (h' : DiskInv cc j G' d' lg')
    (hl : l ≤ lg) (hl' : l ≤ lg') (hc : l.Covers k) (hp : p < k) : d'.Keeps d p := by
  intro e he
  refine h'.of_entry (Lg.get_le hl' ?_)
  rw [Lg.get_eq hl hc hp]
  exact h.entry he

theorem DiskInv.hasPos {l : Lg E} {k p : Nat} (h : DiskInv cc i G d lg) (hl : l ≤ lg) (hc : l.Covers k) (hp : p < k) : d.HasPos p := by
  rcases hc with hc | hc
  · left
    have := (Lg.pre hl).length_le
    rw [h.log, List.length_drop]
    omega
  · right
    rw [h.ss, ← Lg.eq_of_ss hl hc]
    exact hc

theorem DiskInv.stop_of_cut {l : Lg E} {k : Nat} (h : DiskInv cc i G d lg) (hl : l ≤ lg) (hc : l.Covers k)
    (hk : d.compacted_idx + d.log.length < k) : l = lg ∧ l.ss ≠ none := by
  have hs : l.ss ≠ none := by
    rcases hc with hc | hc
    · have := (Lg.pre hl).length_le
      rw [h.log, List.length_drop] at hk
      omega
    · exact hc
  exact ⟨Lg.eq_of_ss hl hs, hs⟩

/-- The leader of a ballot has everything chosen up to it. -/
theorem DiskInv.lead_le (hv : cc.validate = .ok ()) (hA : Abs cc G) (h : DiskInv cc j G d lg) {b : Ballot} {l : Lg E}
    (hj : (d.acc_round.getD {}).pid = j) (hc : G.Chosen cc b l) (hb : b ≤ d.acc_round.getD {}) : l ≤ lg := by
  rcases Ballot.lt_or_le b (d.acc_round.getD {}) with hlt | hge
  · exact hA.fixed_le_acc (hc.fixed hv) hlt h.acc
  · obtain ⟨j', a, h1, h2⟩ := hc.exists_acc hv
    have : b = d.acc_round.getD {} := Ballot.eq_of_le_of_le (hA.good j' b (by rw [h1]; simp))
      (hA.good j _ (by rw [h.acc]; simp)) hb hge
    obtain ⟨p, h3, h4⟩ := hA.le_prop h1
    rw [this, hj, h.acc] at h3
    simp at h3
    subst h3
    exact Lg.le_trans h2 h4

/-- A chosen log is part of the log of everybody whose accepted ballot is not lower. -/
theorem DiskInv.chosen_le (hA : Abs cc G) (h : DiskInv cc j G d lg) {b : Ballot} {l : Lg E} (hf : G.Fixed cc b l)
    (hb : b < d.acc_round.getD {} ∨ ∃ a, G.acc j b = some a ∧ l ≤ a) : l ≤ lg := by
  rcases hb with hb | ⟨a, h1, h2⟩
  · exact hA.fixed_le_acc hf hb h.acc
  · have hle := h.accMax b (by rw [h1]; simp)
    rcases Ballot.lt_or_le b (d.acc_round.getD {}) with hlt | hge
    · exact hA.fixed_le_acc hf hlt h.acc
    · have : b = d.acc_round.getD {} := Ballot.eq_of_le_of_le (hA.good j b (by rw [h1]; simp))
        (hA.good j _ (by rw [h.acc]; simp)) hle hge
      rw [this, h.acc] at h1
      simp at h1
      subst h1
      exact h2

theorem Ghost.DecOK.cut {n : Ballot} {k : Nat} (h : G.DecOK cc n lg k) :
    ∃ l, l ≤ lg ∧ l.Covers k ∧ (k = 0 ∧ l = {} ∨ ∃ b, b ≤ n ∧ G.Chosen cc b l) := by
  rcases h with rfl | ⟨b, l, h1, h2, h3, h4⟩
  · exact ⟨{}, Lg.bot_le _, Lg.covers_zero _, .inl ⟨rfl, rfl⟩⟩
  · exact ⟨l, h4, h3, .inr ⟨b, h1, h2⟩⟩

/-- Decided parts of two logs are comparable. -/
theorem Ghost.DecOK.agree (hv : cc.validate = .ok ()) (hA : Abs cc G) {n n' : Ballot} {k k' : Nat} {lg' : Lg E}
    (h : G.DecOK cc n lg k) (h' : G.DecOK cc n' lg' k') :
    ∃ l l', l ≤ lg ∧ l.Covers k ∧ l' ≤ lg' ∧ l'.Covers k' ∧ (l ≤ l' ∨ l' ≤ l) := by
  obtain ⟨l, h1, h2, h3⟩ := h.cut
  obtain ⟨l', h1', h2', h3'⟩ := h'.cut
  refine ⟨l, l', h1, h2, h1', h2', ?_⟩
  rcases h3 with ⟨-, rfl⟩ | ⟨b, -, h3⟩
  · exact .inl (Lg.bot_le _)
  · rcases h3' with ⟨-, rfl⟩ | ⟨b', -, h3'⟩
    · exact .inr (Lg.bot_le _)
    · exact hA.chosen_comparable hv h3 h3'

theorem Ghost.DecOK.entry_eq (hv : cc.validate = .ok ()) (hA : Abs cc G) {n n' : Ballot} {k k' p : Nat} {lg' : Lg E}
    (h : G.DecOK cc n lg k) (h' : G.DecOK cc n' lg' k') (hp : p < k) (hp' : p < k') {e f : E}
    (he : lg.es[p]? = some e) (hf : lg'.es[p]? = some f) : e = f := by
  obtain ⟨l, l', h1, h2, h3, h4, h5⟩ := h.agree hv hA h'
  rw [← Lg.get_eq h1 h2 hp] at he
  rw [← Lg.get_eq h3 h4 hp'] at hf
  rcases h5 with h5 | h5
  · have := Lg.get_le h5 he
    rw [hf] at this; simpa using this.symm
  · have := Lg.get_le h5 hf
    rw [he] at this; simpa using this

/-- A decided StopSign ends the log. -/
theorem Ghost.DecOK.stop_eq (hv : cc.validate = .ok ()) (hA : Abs cc G) {n n' : Ballot} {k k' : Nat} {lg' : Lg E}
    (h : G.DecOK cc n lg k) (h' : G.DecOK cc n' lg' k') (hs : lg.es.length < k) :
    (lg'.es.length < k' → lg' = lg) ∧ (∀ p, p < k' → p < lg'.es.length → p < lg.es.length) := by
  obtain ⟨l, l', h1, h2, h3, h4, h5⟩ := h.agree hv hA h'
  have stop : ∀ {a b : Lg E} {k : Nat}, a ≤ b → a.Covers k → b.es.length < k → a.ss ≠ none := by
    intro a b k hab hc hk
    rcases hc with hc | hc
    · have := (Lg.pre hab).length_le; omega
    · exact hc
  have hl : l = lg := Lg.eq_of_ss h1 (stop h1 h2 hs)
  subst hl
  have hls := stop h1 h2 hs
  refine ⟨fun hs' => ?_, fun p hp hpl => ?_⟩
  · have hl' : l' = lg' := Lg.eq_of_ss h3 (stop h3 h4 hs')
    subst hl'
    rcases h5 with h5 | h5
    · exact (Lg.eq_of_ss h5 hls).symm
    · exact Lg.eq_of_ss h5 (stop h3 h4 hs')
  · have hp' : p < l'.es.length := by
      have hg := Lg.get_eq h3 h4 hp
      rw [List.getElem?_eq_getElem hpl] at hg
      exact (List.getElem?_eq_some_iff.1 hg).1
    rcases h5 with h5 | h5
    · rw [Lg.eq_of_ss h5 hls]; exact hp'
    · exact Nat.lt_of_lt_of_le hp' (Lg.pre h5).length_le

end disk

section up
variable {cc : ClusterConfig} {i j : NodeId} {pre : NodeId → List (PaxosMessage E S)} {G : Ghost E} {s : SP E S} {lg : Lg E}

theorem Core.stop_decided (h : Core cc i pre G s lg) (hd : s.ist.cache.stopsign_is_decided = true) :
    lg.es.length < s.ist.storage.ld ∧ s.ist.cache.decided_idx = s.ist.cache.accepted_idx := by
  simp only [StateCache.stopsign_is_decided, Bool.and_eq_true, decide_eq_true_eq] at hd
  have hs : lg.ss ≠ none := by
    rw [← h.disk.ss, ← h.mir.ss]
    exact Option.isSome_iff_ne_none.1 hd.1
  have := h.idx.2 hs
  rw [← h.mir.dec]
  exact ⟨by omega, hd.2⟩

theorem Core.ss_eq (h : Core cc i pre G s lg) : s.ist.cache.stopsign = lg.ss := by rw [h.mir.ss, h.disk.ss]

end up

/-! ### Quorums in plain words -/

theorem peersOf_length {nodes : List NodeId} (hn : nodes.Nodup) (i : NodeId) :
    nodes.length ≤ (SP.peersOf nodes i).length + 1 := by
  unfold SP.peersOf
  have : (nodes.filter fun x => decide (x = i)).length ≤ 1 := by
    induction nodes with
    | nil => simp
    | cons x l ih =>
      have hx := List.nodup_cons.1 hn
      simp only [List.filter_cons]
      split
      · rename_i h
        simp at h; subst h
        have : l.filter (fun y => decide (y = x)) = [] := by
          rw [List.filter_eq_nil_iff]
          intro a ha hax
          simp at hax
          exact hx.1 (hax ▸ ha)
        rw [this]; simp
      · exact ih hx.2
  have h2 : nodes.length = (nodes.filter fun x => decide (x = i)).length + (nodes.filter fun x => decide (x ≠ i)).length := by
    clear this hn
    induction nodes with
    | nil => rfl
    | cons x l ih => by_cases hx : x = i <;> simp [List.filter_cons, hx] <;> simp at ih <;> omega
  omega

theorem WriteQ.spec {cc : ClusterConfig} (hn : cc.nodes.Nodup) {W : List NodeId} (h : WriteQ cc W) : AcceptQuorum cc W := by
  obtain ⟨i, hi⟩ := h.size
  refine ⟨h.nodup, fun x hx => (h.node x hx).1, ?_⟩
  unfold quorumAt Quorum.with Quorum.is_accept_quorum at hi
  have := peersOf_length hn i
  cases hq : cc.flexible_quorum with
  | none => rw [hq] at hi; simp at hi; simp only; omega
  | some q => rw [hq] at hi; simpa using hi

theorem ReadQ.spec {cc : ClusterConfig} (hn : cc.nodes.Nodup) {W : List NodeId} (h : ReadQ cc W) : PrepareQuorum cc W := by
  obtain ⟨i, hi⟩ := h.size
  refine ⟨h.nodup, fun x hx => (h.node x hx).1, ?_⟩
  unfold quorumAt Quorum.with Quorum.is_prepare_quorum at hi
  have := peersOf_length hn i
  cases hq : cc.flexible_quorum with
  | none => rw [hq] at hi; simp at hi; simp only; omega
  | some q => rw [hq] at hi; simpa using hi

end Omni
