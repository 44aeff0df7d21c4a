import Verif.Proof.Read
/-
What compaction does to a consistent storage.
-/
namespace Omni

variable {E S : Type}

theorem Mem.view_compactTo (m : Mem E S) (k : Nat) (ht : m.trimmed_idx = m.compacted_idx) (hk : m.compacted_idx ≤ k)
    (hk' : k ≤ m.compacted_idx + m.log.length) (i : Nat) (hi : k ≤ i) : (m.compactTo k).view i = m.view i := by
  unfold Mem.view Mem.compactTo
  simp only
  rw [if_neg (show ¬ i < k by omega), if_neg (show ¬ i < m.compacted_idx by omega), List.getElem?_drop]
  have h1 : min (k - m.trimmed_idx) m.log.length + (i - k) = i - m.compacted_idx := by omega
  rw [h1]
  have h2 : k + (m.log.drop (min (k - m.trimmed_idx) m.log.length)).length = m.compacted_idx + m.log.length := by
    rw [List.length_drop]; omega
  simp only [h2]

theorem Mem.len_compactTo (m : Mem E S) (k : Nat) (ht : m.trimmed_idx = m.compacted_idx) (hk : m.compacted_idx ≤ k)
    (hk' : k ≤ m.compacted_idx + m.log.length) : (m.compactTo k).len = m.len := by
  unfold Mem.len Mem.compactTo
  simp only [List.length_drop]
  split <;> omega

namespace IStore

variable {s : IStore E S}

/-- The state after compacting to `k` with the transaction `ops`, if that is further than before; `sn` replaces the snapshot. -/
def compacted (s : IStore E S) (k : Nat) (sn : Option S) (ops : List (StorageOp E S)) : IStore E S :=
  { s with
    storage := { s.storage.compactTo k with snapshot := sn }
    cache := { s.cache with compacted_idx := k }
    trail := { s.storage.compactTo k with snapshot := sn } :: s.trail
    calls := .atomically ops :: s.calls }

/-- Where a request for `i` compacts to: `i`, but not over the StopSign. -/
def cut (s : IStore E S) (i : Nat) : Nat := min i (s.storage.compacted_idx + s.storage.log.length)

theorem target_spec (h : ReadOK s) (idx : Option Nat) :
    s.compactTarget idx = some (if idx.getD s.cache.decided_idx ≤ s.cache.decided_idx
      then .ok (s.cut (idx.getD s.cache.decided_idx)) else .error (.undecidedIndex s.cache.decided_idx)) := by
  have h1 := h.len
  have h2 := h.dec
  have h3 := h.ss
  have hd : s.get_decided_idx_without_stopsign = some (s.cut s.cache.decided_idx) := by
    unfold get_decided_idx_without_stopsign cut
    unfold Mem.len at h1
    cases hs : s.storage.stopsign with
    | none =>
      have : s.cache.stopsign_is_decided = false := by simp [StateCache.stopsign_is_decided, h3, hs]
      rw [hs] at h1
      simp at h1
      simp only [this, Bool.false_eq_true, if_false]
      congr 1; omega
    | some ss =>
      rw [hs] at h1
      simp at h1
      by_cases he : s.cache.decided_idx = s.cache.accepted_idx
      · have : s.cache.stopsign_is_decided = true := by simp [StateCache.stopsign_is_decided, h3, hs, he]
        simp only [this, if_true, usub]
        rw [if_pos (by omega)]
        congr 1; omega
      · have : s.cache.stopsign_is_decided = false := by simp [StateCache.stopsign_is_decided, he]
        simp only [this, Bool.false_eq_true, if_false]
        congr 1; omega
  unfold compactTarget
  rw [hd]
  cases idx with
  | none => simp
  | some i =>
    simp only [Option.getD_some]
    unfold Mem.len at h1
    have hs1 : (if s.storage.stopsign.isSome = true then 1 else 0) ≤ 1 := by split <;> omega
    split
    · rw [if_pos (by omega)]
      unfold cut
      congr 2; omega
    · split
      · rename_i he; rw [if_pos (by omega), he]
      · rw [if_neg (by omega)]

/-- The two outcomes of `try_trim`. -/
theorem try_trim_spec (h : ReadOK s) (i : Nat) :
    try_trim i s = if i ≤ s.cache.decided_idx
      then .ok (.ok ()) (if s.cache.compacted_idx < s.cut i then s.compacted (s.cut i) s.storage.snapshot [.trim (s.cut i), .setCompactedIdx (s.cut i)] else s)
      else .ok (.error (.undecidedIndex s.cache.decided_idx)) s := by
  split
  · rename_i hi
    refine M.eq_ok_of_sat ?_
    simp only [try_trim, M.sat_bind, M.sat_get, M.sat_ofPan, target_spec h, Option.getD_some, if_pos hi]
    refine ⟨fun t ht => ?_, fun hn => by simp at hn⟩
    simp at ht; subst ht
    simp only [M.sat_ite, M.sat_bind, sat_writeOps, sat_setCache, M.sat_pure, true_and]
    have hc := h.comp
    have ht := h.trim
    refine ⟨fun hk => ⟨fun m' hw => ?_, fun hn => ?_⟩, fun hk => by rw [if_neg (by omega)]⟩
    · obtain ⟨_, h2⟩ := trim_ops hw
      simp only [Mem.write_atomically, Option.some.injEq] at h2
      subst h2
      rw [if_pos (by omega)]
      rfl
    · exfalso
      simp only [Mem.write_atomically, Mem.apply, Mem.trim, usub] at hn
      rw [if_pos (by omega)] at hn
      simp at hn
  · rename_i hi
    refine M.eq_ok_of_sat ?_
    simp only [try_trim, M.sat_bind, M.sat_get, M.sat_ofPan, target_spec h, Option.getD_some, if_neg hi]
    refine ⟨fun t ht => ?_, fun hn => by simp at hn⟩
    simp at ht; subst ht
    simp

theorem compacted_readOK (h : ReadOK s) {i : Nat} {sn : Option S} (hk : s.cache.compacted_idx < s.cut i) :
    ReadOK (s.compacted (s.cut i) sn ops) := by
  have hc := h.comp
  have hl := Mem.len_compactTo s.storage (s.cut i) h.trim (by omega) (by unfold cut; omega)
  refine ⟨rfl, rfl, h.dcd, h.ss, ?_, h.dec⟩
  rw [show (s.compacted (s.cut i) sn ops).storage.len = (s.storage.compactTo (s.cut i)).len from rfl, hl]
  exact h.len

theorem compacted_view (h : ReadOK s) {i : Nat} {sn : Option S} (hk : s.cache.compacted_idx < s.cut i) (j : Nat)
    (hj : s.cut i ≤ j) : (s.compacted (s.cut i) sn ops).storage.view j = s.storage.view j := by
  have hc := h.comp
  rw [← Mem.view_compactTo s.storage (s.cut i) h.trim (by omega) (by unfold cut; omega) j hj]
  unfold compacted Mem.view
  simp only
  have : ¬ j < (s.storage.compactTo (s.cut i)).compacted_idx := by simp only [Mem.compactTo]; omega
  rw [if_neg this, if_neg this]

variable [SnapOps E S]

/-- What `create_snapshot` returns for a target further than the compacted index. -/
theorem create_snapshot_spec (h : ReadOK s) {i : Nat} (hk : s.cache.compacted_idx < s.cut i) {r : Except CompactionErr S}
    (hr : s.create_snapshot (s.cut i) = some r) :
    ∃ sn d, r = .ok sn ∧ SnapOps.create (s.storage.log.take (s.cut i - s.storage.compacted_idx)) = some d ∧
      ((s.storage.snapshot = none ∧ sn = d) ∨
       ∃ o, s.storage.snapshot = some o ∧ SnapOps.merge E o d = some sn) := by
  have hc := h.comp
  have ht := h.trim
  have hcut : s.cut i ≤ s.storage.compacted_idx + s.storage.log.length := by unfold cut; omega
  unfold create_snapshot at hr
  simp only at hr
  rw [if_neg (by omega)] at hr
  have hg : s.storage.get_entries s.cache.compacted_idx (s.cut i) =
      some (s.storage.log.take (s.cut i - s.storage.compacted_idx)) := by
    unfold Mem.get_entries usub sliceGet
    rw [if_pos (by omega), if_pos (by omega)]
    simp only
    rw [if_pos (by omega), hc, ht]
    simp
  rw [hg] at hr
  simp only at hr
  cases hcr : (SnapOps.create (s.storage.log.take (s.cut i - s.storage.compacted_idx)) : Pan S) with
  | none => rw [hcr] at hr; simp at hr
  | some d =>
    rw [hcr] at hr
    simp only at hr
    cases hsn : s.storage.snapshot with
    | none => rw [hsn] at hr; simp at hr; exact ⟨d, d, hr.symm, rfl, .inl ⟨rfl, rfl⟩⟩
    | some o =>
      rw [hsn] at hr
      simp only at hr
      cases hm : SnapOps.merge E o d with
      | none => rw [hm] at hr; simp at hr
      | some sn => rw [hm] at hr; simp at hr; exact ⟨sn, d, hr.symm, rfl, .inr ⟨o, rfl, hm⟩⟩

/-- Outcomes of `try_snapshot`; it panics only if the user's snapshot code does. -/
theorem try_snapshot_spec (h : ReadOK s) (idx : Option Nat) :
    M.Sat (try_snapshot idx) s (fun r s' =>
        (idx.getD s.cache.decided_idx ≤ s.cache.decided_idx ∧ r = .ok () ∧
          ((s.cut (idx.getD s.cache.decided_idx) ≤ s.cache.compacted_idx ∧ s' = s) ∨
           (s.cache.compacted_idx < s.cut (idx.getD s.cache.decided_idx) ∧
            ∃ sn d, s' = s.compacted (s.cut (idx.getD s.cache.decided_idx)) (some sn)
              [.trim (s.cut (idx.getD s.cache.decided_idx)), .setCompactedIdx (s.cut (idx.getD s.cache.decided_idx)), .setSnapshot (some sn)] ∧
              SnapOps.create (s.storage.log.take (s.cut (idx.getD s.cache.decided_idx) - s.storage.compacted_idx)) = some d ∧
              ((s.storage.snapshot = none ∧ sn = d) ∨
                ∃ o, s.storage.snapshot = some o ∧ SnapOps.merge E o d = some sn)))) ∨
        (s.cache.decided_idx < idx.getD s.cache.decided_idx ∧ r = .error (.undecidedIndex s.cache.decided_idx) ∧ s' = s))
      (fun _ => s.create_snapshot (s.cut (idx.getD s.cache.decided_idx)) = none) := by
  have hc := h.comp
  have ht := h.trim
  simp only [try_snapshot, M.sat_bind, M.sat_get, M.sat_ofPan, target_spec h]
  refine ⟨fun t htt => ?_, fun hn => by simp at hn⟩
  simp only [Option.some.injEq] at htt
  subst htt
  by_cases hi : idx.getD s.cache.decided_idx ≤ s.cache.decided_idx
  · simp only [if_pos hi, M.sat_ite, M.sat_bind, M.sat_ofPan, M.sat_pure]
    refine ⟨fun hk => ⟨fun r hr => ?_, fun hn => hn⟩, fun hk => .inl ⟨hi, trivial, .inl ⟨by omega, trivial⟩⟩⟩
    obtain ⟨sn, d, rfl, hd, hm⟩ := create_snapshot_spec h (by omega) hr
    simp only [M.sat_bind, sat_writeOps, sat_setCache, M.sat_pure]
    refine ⟨fun m' hw => ?_, fun hn => ?_⟩
    · obtain ⟨_, h2⟩ := trim_ops hw
      simp only [Mem.write_atomically, Mem.apply, Mem.set_snapshot, Option.some.injEq] at h2
      subst h2
      exact .inl ⟨hi, trivial, .inr ⟨by omega, sn, d, rfl, hd, hm⟩⟩
    · exfalso
      simp only [Mem.write_atomically, Mem.apply, Mem.trim, usub] at hn
      rw [if_pos (by omega)] at hn
      simp at hn
  · simp only [if_neg hi, M.sat_pure]
    exact .inr ⟨by omega, trivial, trivial⟩

end IStore
end Omni
