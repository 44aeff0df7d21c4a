import Verif.Proof.Life
import Verif.Spec.Read
/-
The read functions return what the specification of Spec/Read.lean says.
-/
namespace Omni

variable {E S : Type}

/-- The states in which reads are specified: the cache mirrors the storage and the log is as long as recorded. -/
structure ReadOK (s : IStore E S) : Prop where
  comp : s.cache.compacted_idx = s.storage.compacted_idx
  trim : s.storage.trimmed_idx = s.storage.compacted_idx
  dcd : s.cache.decided_idx = s.storage.ld
  ss : s.cache.stopsign = s.storage.stopsign
  len : s.cache.accepted_idx = s.storage.len
  dec : s.cache.decided_idx ≤ s.cache.accepted_idx

theorem OP.Consistent.readOK {op : OP E S} (h : op.Consistent) : ReadOK op.sp.ist :=
  ⟨h.compacted, h.trimmed, h.decided, h.stopsign, h.accepted, by rw [h.decided, h.accepted]; exact h.bound⟩

theorem filterMap_view_log (m : Mem E S) : ∀ (k i : Nat), m.compacted_idx ≤ i → i - m.compacted_idx + k ≤ m.log.length →
    (List.range' i k).filterMap m.view =
      IStore.markDecided m.ld i ((m.log.drop (i - m.compacted_idx)).take k)
  | 0, i, _, _ => by simp [IStore.markDecided]
  | k + 1, i, h1, h2 => by
    have hlt : i - m.compacted_idx < m.log.length := by omega
    have hd : m.log.drop (i - m.compacted_idx) = m.log[i - m.compacted_idx] :: m.log.drop (i + 1 - m.compacted_idx) := by
      rw [List.drop_eq_getElem_cons hlt]
      congr 2; omega
    have hv : m.view i = some (if i < m.ld then .decided m.log[i - m.compacted_idx]
        else .undecided m.log[i - m.compacted_idx]) := by
      unfold Mem.view
      rw [if_neg (by omega), List.getElem?_eq_getElem hlt]
    rw [List.range'_succ, List.filterMap_cons_some hv, hd, List.take_succ_cons, IStore.markDecided,
      filterMap_view_log m k (i + 1) (by omega) (by omega)]

namespace IStore

variable {s : IStore E S}

theorem stopsign_flag (h : ReadOK s) {ss : StopSign} (hs : s.cache.stopsign = some ss) :
    s.cache.stopsign_is_decided = decide (s.storage.compacted_idx + s.storage.log.length < s.storage.ld) := by
  have h1 := h.len
  have h2 := h.dec
  have h3 := h.dcd
  have hss := h.ss
  rw [hs] at hss
  unfold Mem.len at h1
  rw [← hss] at h1
  simp only [Option.isSome_some, if_true] at h1
  unfold StateCache.stopsign_is_decided
  simp only [hs, Option.isSome_some, Bool.true_and]
  congr 1
  apply propext
  omega

theorem entries_eq (h : ReadOK s) {a b : Nat} (hc : s.cache.compacted_idx ≤ a) (hab : a ≤ b)
    (hb : b ≤ s.cache.compacted_idx + s.storage.log.length) :
    s.create_read_log_entries a b = some ((List.range' a (b - a)).filterMap s.storage.view) := by
  have h1 := h.comp
  have h2 := h.trim
  unfold create_read_log_entries Mem.get_entries usub
  rw [if_pos (by omega), if_pos (by omega)]
  simp only
  rw [filterMap_view_log _ _ _ (by omega) (by omega), h.dcd]
  congr 2
  unfold sliceGet
  rw [if_pos (by omega), h2, List.drop_take]
  congr 1
  omega

theorem range_split {a b : Nat} (h : a < b) : List.range' a (b - a) = List.range' a (b - 1 - a) ++ [b - 1] := by
  have : b - a = (b - 1 - a) + 1 := by omega
  rw [this, List.range'_concat]
  congr 2; omega

theorem marker_eq (h : ReadOK s) : s.create_compacted_entry s.cache.compacted_idx = s.storage.marker := by
  unfold create_compacted_entry Mem.marker
  rw [h.comp]
  cases s.storage.snapshot <;> rfl

/-- Reading a non-empty range inside the log. -/
theorem read_spec (h : ReadOK s) {lo hi : Bound} {a b : Nat} (ha : startIdx lo = a) (hb : s.endIdx hi = b)
    (hab : a < b) (hlen : b ≤ s.storage.len) : s.read lo hi = some (some (s.storage.viewRange a b)) := by
  have hl := h.len
  have hcomp := h.comp
  have hss := h.ss
  unfold read
  simp only [ha, hb]
  rw [if_neg (by omega)]
  have hlen' := hlen
  unfold Mem.len at hlen hl
  by_cases hbc : b - 1 < s.cache.compacted_idx
  · -- everything is compacted
    simp only [get_entry_type, hbc, if_true]
    unfold Mem.viewRange
    rw [if_pos (by omega), marker_eq h]
    have : b - max a s.storage.compacted_idx = 0 := by omega
    simp [this]
  · have hto : ∀ x, s.get_entry_type (b - 1) s.cache.compacted_idx s.cache.accepted_idx = x →
        (x = some .entry ∧ b ≤ s.storage.compacted_idx + s.storage.log.length) ∨
        (∃ ss, x = some (.stopSign ss) ∧ s.cache.stopsign = some ss ∧
          b = s.storage.compacted_idx + s.storage.log.length + 1) := by
      intro x hx
      unfold get_entry_type at hx
      rw [if_neg hbc] at hx
      cases hs : s.storage.stopsign with
      | none =>
        left
        rw [hs] at hl hlen
        simp only [Option.isSome_none, Bool.false_eq_true, if_false] at hl hlen
        refine ⟨?_, by omega⟩
        rw [hss, hs] at hx
        split at hx
        · exact hx.symm
        · rw [if_pos (by omega)] at hx; exact hx.symm
      | some ss =>
        rw [hs] at hl hlen
        simp only [Option.isSome_some, if_true] at hl hlen
        rw [hss, hs] at hx
        split at hx
        · left; exact ⟨hx.symm, by omega⟩
        · rw [if_pos (by omega)] at hx
          right; exact ⟨ss, hx.symm, by rw [hss, hs], by omega⟩
    have hfrom : ∀ x, s.get_entry_type a s.cache.compacted_idx s.cache.accepted_idx = x →
        (x = some .compacted ∧ a < s.storage.compacted_idx) ∨
        (x = some .entry ∧ s.storage.compacted_idx ≤ a ∧ a < s.storage.compacted_idx + s.storage.log.length) ∨
        (∃ ss, x = some (.stopSign ss) ∧ s.cache.stopsign = some ss ∧
          a = s.storage.compacted_idx + s.storage.log.length ∧ s.storage.compacted_idx ≤ a) := by
      intro x hx
      unfold get_entry_type at hx
      split at hx
      · left; exact ⟨hx.symm, by omega⟩
      · right
        cases hs : s.storage.stopsign with
        | none =>
          left
          rw [hs] at hl hlen
          simp only [Option.isSome_none, Bool.false_eq_true, if_false] at hl hlen
          refine ⟨?_, by omega, by omega⟩
          rw [hss, hs] at hx
          split at hx
          · exact hx.symm
          · rw [if_pos (by omega)] at hx; exact hx.symm
        | some ss =>
          rw [hs] at hl hlen
          simp only [Option.isSome_some, if_true] at hl hlen
          rw [hss, hs] at hx
          split at hx
          · left; exact ⟨hx.symm, by omega, by omega⟩
          · rw [if_pos (by omega)] at hx
            right; exact ⟨ss, hx.symm, by rw [hss, hs], by omega, by omega⟩
    have hlast : ∀ ss, s.cache.stopsign = some ss → b = s.storage.compacted_idx + s.storage.log.length + 1 →
        s.storage.view (b - 1) = some (.stopSign ss s.cache.stopsign_is_decided) := by
      intro ss hs hb'
      unfold Mem.view
      rw [if_neg (by omega), List.getElem?_eq_none (by omega)]
      simp only
      rw [if_pos (by omega), ← hss, hs, stopsign_flag h hs, hb']
      simp
    rcases hto _ rfl with ⟨h1, h1'⟩ | ⟨ss, h1, h1ss, h1'⟩ <;>
      rcases hfrom _ rfl with ⟨h2, h2'⟩ | ⟨h2, h2', h2''⟩ | ⟨ss', h2, h2ss, h2', h2''⟩ <;>
      simp only [h1, h2]
    · -- compacted .. entry
      rw [entries_eq h (Nat.le_refl _) (by omega) (by omega)]
      simp only
      unfold Mem.viewRange
      rw [if_pos h2', marker_eq h, Nat.max_eq_right (by omega), ← hcomp]
      simp
    · rw [entries_eq h (by omega) (by omega) (by omega)]
      simp only
      unfold Mem.viewRange
      rw [if_neg (by omega), Nat.max_eq_left (by omega)]
      simp
    · omega
    · rw [entries_eq h (Nat.le_refl _) (by omega) (by omega)]
      simp only
      unfold Mem.viewRange
      rw [if_pos h2', marker_eq h, Nat.max_eq_right (by omega), ← hcomp,
        range_split (a := s.cache.compacted_idx) (b := b) (by omega), List.filterMap_append]
      simp [hlast ss h1ss h1']
    · rw [entries_eq h (by omega) (by omega) (by omega)]
      simp only
      unfold Mem.viewRange
      rw [if_neg (by omega), Nat.max_eq_left (by omega), range_split hab, List.filterMap_append]
      simp [hlast ss h1ss h1']
    · unfold Mem.viewRange
      have hb1 : b - max a s.storage.compacted_idx = 1 := by omega
      have hm : max a s.storage.compacted_idx = b - 1 := by omega
      rw [hb1, hm, if_neg (by omega)]
      have hse : ss' = ss := by rw [h1ss] at h2ss; simpa using h2ss.symm
      subst hse
      simp [hlast ss' h1ss h1']

/-- Reading a range that ends beyond the log. -/
theorem read_beyond (h : ReadOK s) {lo hi : Bound} {b : Nat} (hb : s.endIdx hi = b)
    (hlen : s.storage.len < b) : s.read lo hi = some none := by
  have hl := h.len
  have hcomp := h.comp
  unfold read
  simp only [hb]
  rw [if_neg (by omega)]
  have : s.get_entry_type (b - 1) s.cache.compacted_idx s.cache.accepted_idx = none := by
    unfold get_entry_type
    have : s.storage.compacted_idx ≤ s.storage.len := by unfold Mem.len; omega
    rw [if_neg (by omega), if_neg (by omega), if_neg (by omega)]
  simp only [this]

/-- Reading a non-empty range never panics. -/
theorem read_returns (h : Mirror s) {lo hi : Bound} (hlt : startIdx lo < s.endIdx hi) : s.read lo hi ≠ none := by
  have hcomp := h.comp
  have htrim := h.trim
  have hent : ∀ a b, s.cache.compacted_idx ≤ a → s.cache.compacted_idx ≤ b → s.create_read_log_entries a b ≠ none := by
    intro a b ha hb
    unfold create_read_log_entries Mem.get_entries usub
    rw [if_pos (by omega), if_pos (by omega)]
    simp
  unfold read
  simp only
  rw [if_neg (by omega)]
  generalize hb : s.endIdx hi = b at *
  generalize ha : startIdx lo = a at *
  have hto : ∀ x, s.get_entry_type (b - 1) s.cache.compacted_idx s.cache.accepted_idx = some x →
      (x = .compacted) ∨ (s.cache.compacted_idx < b ∧ (x = .entry ∨ ∃ ss, x = .stopSign ss)) := by
    intro x hx
    unfold get_entry_type at hx
    split at hx
    · left; simpa using hx.symm
    · right
      refine ⟨by omega, ?_⟩
      split at hx
      · left; simpa using hx.symm
      · split at hx
        · cases hs : s.cache.stopsign with
          | none => rw [hs] at hx; left; simpa using hx.symm
          | some ss => rw [hs] at hx; right; exact ⟨ss, by simpa using hx.symm⟩
        · simp at hx
  have hfrom : ∀ x, s.get_entry_type a s.cache.compacted_idx s.cache.accepted_idx = some x →
      (x = .compacted) ∨ (s.cache.compacted_idx ≤ a ∧
        (x = .entry ∨ ∃ ss, x = .stopSign ss ∧ s.cache.stopsign = some ss ∧ a + 1 = s.cache.accepted_idx)) := by
    intro x hx
    unfold get_entry_type at hx
    split at hx
    · left; simpa using hx.symm
    · right
      refine ⟨by omega, ?_⟩
      split at hx
      · left; simpa using hx.symm
      · split at hx
        · cases hs : s.cache.stopsign with
          | none => rw [hs] at hx; left; simpa using hx.symm
          | some ss => rw [hs] at hx; right; exact ⟨ss, by simpa using hx.symm, rfl, by omega⟩
        · simp at hx
  cases ht : s.get_entry_type (b - 1) s.cache.compacted_idx s.cache.accepted_idx with
  | none => simp
  | some t =>
    rcases hto t ht with rfl | ⟨hb', rfl | ⟨ss, rfl⟩⟩
    · simp
    all_goals
      cases hf : s.get_entry_type a s.cache.compacted_idx s.cache.accepted_idx with
      | none => simp
      | some f =>
        rcases hfrom f hf with rfl | ⟨ha', rfl | ⟨ss', rfl, hss, hacc⟩⟩
        · simp only
          split
          · exact absurd (by assumption) (hent _ _ (by omega) (by omega))
          · simp
        · simp only
          split
          · exact absurd (by assumption) (hent _ _ (by omega) (by omega))
          · simp
        · first
            | simp; done
            | (exfalso
               unfold get_entry_type at ht
               rw [hss] at ht
               repeat' split at ht
               all_goals first | omega | (simp at ht; done) | simp_all)

end IStore

theorem Mem.viewRange_one (m : Mem E S) (i : Nat) (h : i < m.len) : (m.viewRange i (i + 1)).getLast? = m.view i := by
  unfold Mem.viewRange
  by_cases hc : i < m.compacted_idx
  · have : i + 1 - max i m.compacted_idx = 0 := by omega
    rw [if_pos hc, this]
    simp [Mem.view, hc]
  · have h1 : i + 1 - max i m.compacted_idx = 1 := by omega
    have h2 : max i m.compacted_idx = i := by omega
    rw [if_neg hc, h1, h2]
    have hv : ∃ x, m.view i = some x := by
      unfold Mem.view
      rw [if_neg hc]
      split
      · exact ⟨_, rfl⟩
      · rename_i hn
        rw [List.getElem?_eq_none_iff] at hn
        unfold Mem.len at h
        cases hs : m.stopsign with
        | none => rw [hs] at h; simp at h; omega
        | some ss =>
          rw [hs] at h
          simp only [Option.isSome_some, if_true] at h
          rw [if_pos (by omega)]
          exact ⟨_, rfl⟩
    obtain ⟨x, hx⟩ := hv
    simp [hx]

theorem Mem.view_beyond (m : Mem E S) (i : Nat) (h : m.len ≤ i) : m.view i = none := by
  unfold Mem.len at h
  unfold Mem.view
  rw [if_neg (by omega), List.getElem?_eq_none (by omega)]
  simp only
  split
  · cases hs : m.stopsign with
    | none => rfl
    | some ss => rw [hs] at h; simp at h; omega
  · rfl

end Omni
