import Verif.Proof.Compact
import Verif.Spec.Snapshot
import Verif.Spec.Sample
/-
Property C16 (properties.jsonl): the snapshot a server receives when its log is synchronised. The full claim is false
(`C16_false_delta` in Props/Witness.lean); here what holds.
-/
namespace Omni

variable {E S : Type} [SnapOps E S]

/-- What `create_log_sync` puts into the message, when it sends no delta snapshot. -/
theorem create_log_sync_whole (law : SnapLaw E S) {s : SP E S} (h : ReadOK s.ist) {L : List E} (hL : s.ist.storage.Holds L)
    {cp od : Nat} {y : LogSync E S} (hy : s.create_log_sync cp od = some y)
    (hod : od ≤ s.ist.cache.compacted_idx ∨ SnapOps.use_snapshots E S = false ∨ s.ist.cache.decided_idx ≤ cp) :
    y.stopsign = s.ist.storage.stopsign ∧ y.suffix = L.drop y.sync_idx ∧
    ((∃ c, y.decided_snapshot = some (.complete c) ∧ 0 < y.sync_idx ∧ y.sync_idx ≤ L.length ∧
        y.sync_idx ≤ s.ist.cache.decided_idx ∧ SnapOps.create (L.take y.sync_idx) = some c) ∨
      (y.decided_snapshot = none ∧ y.sync_idx ≤ cp)) := by
  have hlen : s.ist.storage.log.length = L.length - s.ist.storage.compacted_idx := by rw [hL.log, List.length_drop]
  have hb := hL.bound
  have hc := h.comp
  have ht := h.trim
  have hln := h.len
  have hdec := h.dec
  have hss := h.ss
  unfold Mem.len at hln
  have hsuf : ∀ i es, s.ist.storage.get_suffix i = some es → s.ist.storage.compacted_idx ≤ i ∧ es = L.drop i := by
    intro i es he
    simp only [Mem.get_suffix, usub, ht] at he
    by_cases hi : s.ist.storage.compacted_idx ≤ i
    · rw [if_pos hi] at he
      simp only [Option.some.injEq] at he
      subst he
      refine ⟨hi, ?_⟩
      rw [hL.log, List.drop_drop]
      congr 1; omega
    · rw [if_neg hi] at he; simp at he
  unfold SP.create_log_sync at hy
  simp only at hy
  split at hy
  · rename_i hu
    split at hy
    · cases hy
    · rename_i snap ci hdiff
      split at hy
      · cases hy
      · rename_i suffix hsf
        simp only [Option.some.injEq] at hy
        subst hy
        obtain ⟨hle, rfl⟩ := hsuf _ _ hsf
        have hod' : od ≤ s.ist.cache.compacted_idx := by
          rcases hod with h1 | h1 | h1
          · exact h1
          · rw [h1] at hu; exact absurd hu.1 (by simp)
          · omega
        -- the decided index without the StopSign
        simp only [IStore.create_diff_snapshot, IStore.get_decided_idx_without_stopsign] at hdiff
        have hld : ∃ ld, (if s.ist.cache.stopsign_is_decided then usub s.ist.cache.decided_idx 1
              else some s.ist.cache.decided_idx) = some ld ∧ L.drop s.ist.cache.decided_idx = L.drop ld ∧
            s.ist.cache.compacted_idx ≤ ld ∧ ld ≤ s.ist.cache.decided_idx ∧ ld ≤ L.length := by
          by_cases hd : s.ist.cache.stopsign_is_decided = true
          · simp only [StateCache.stopsign_is_decided, Bool.and_eq_true, decide_eq_true_eq] at hd
            have hs1 : s.ist.storage.stopsign.isSome = true := by rw [← hss]; exact hd.1
            rw [hs1] at hln
            simp only [if_true] at hln
            refine ⟨s.ist.cache.decided_idx - 1, ?_, ?_, by omega, by omega, by omega⟩
            · rw [if_pos (by simp [StateCache.stopsign_is_decided, hd])]
              simp only [usub]
              rw [if_pos (by omega)]
            · rw [List.drop_eq_nil_of_le (by omega), List.drop_eq_nil_of_le (by omega)]
          · refine ⟨s.ist.cache.decided_idx, by rw [if_neg hd], rfl, by omega, Nat.le_refl _, ?_⟩
            have hne : ¬ (s.ist.storage.stopsign.isSome = true ∧ s.ist.cache.decided_idx = s.ist.cache.accepted_idx) := by
              rintro ⟨h1, h2⟩
              apply hd
              simp only [StateCache.stopsign_is_decided, hss, h1, Bool.true_and, decide_eq_true_eq, h2]
            by_cases h1 : s.ist.storage.stopsign.isSome = true
            · rw [if_pos h1] at hln
              have : s.ist.cache.decided_idx ≠ s.ist.cache.accepted_idx := fun h2 => hne ⟨h1, h2⟩
              omega
            · rw [if_neg h1] at hln
              omega
        obtain ⟨ld, e1, e2, e3, e4, e5⟩ := hld
        rw [e1] at hdiff
        simp only [if_pos hod'] at hdiff
        by_cases hlt : s.ist.cache.compacted_idx < ld
        · rw [if_pos hlt] at hdiff
          split at hdiff
          · cases hdiff
          · rename_i sn hsn
            simp only [Option.some.injEq, Prod.mk.injEq] at hdiff
            obtain ⟨rfl, rfl⟩ := hdiff
            refine ⟨hss, e2, .inl ⟨sn, rfl, ?_, ?_, e4, ?_⟩⟩
            · show 0 < ld; omega
            · exact e5
            · show SnapOps.create (L.take ld) = some sn
              unfold IStore.expectOk at hsn
              split at hsn
              · rename_i a ha
                simp only [Option.some.injEq] at hsn
                subst hsn
                unfold IStore.create_snapshot at ha
                simp only at ha
                rw [if_neg (by omega)] at ha
                have hge : s.ist.storage.get_entries s.ist.cache.compacted_idx ld
                    = some ((L.take ld).drop s.ist.storage.compacted_idx) := by
                  simp only [Mem.get_entries, usub, ht, hc]
                  rw [if_pos (Nat.le_refl _), if_pos (by omega)]
                  simp only [sliceGet, Nat.sub_self, Nat.zero_le, true_and, List.drop_zero]
                  rw [if_pos (by omega), hL.log, List.drop_take]
                rw [hge] at ha
                simp only at ha
                have htake : L.take ld = L.take s.ist.storage.compacted_idx ++ (L.take ld).drop s.ist.storage.compacted_idx := by
                  conv => lhs; rw [← List.take_append_drop s.ist.storage.compacted_idx (L.take ld)]
                  rw [List.take_take, Nat.min_eq_left (by omega)]
                split at ha
                · cases ha
                · rename_i dl hdl
                  split at ha
                  · rename_i hn
                    simp only [Option.some.injEq, Except.ok.injEq] at ha
                    subst ha
                    have hz : s.ist.storage.compacted_idx = 0 := by
                      rcases Nat.eq_zero_or_pos s.ist.storage.compacted_idx with h0 | h0
                      · exact h0
                      · obtain ⟨x, hx, -⟩ := hL.snap h0
                        rw [hn] at hx; cases hx
                    rw [hz] at hdl
                    simpa using hdl
                  · rename_i sn0 hs0
                    split at ha
                    · cases ha
                    · rename_i m hm
                      simp only [Option.some.injEq, Except.ok.injEq] at ha
                      subst ha
                      have hpos : 0 < s.ist.storage.compacted_idx := by
                        rcases Nat.eq_zero_or_pos s.ist.storage.compacted_idx with h0 | h0
                        · have := hL.fresh h0; rw [hs0] at this; cases this
                        · exact h0
                      obtain ⟨x, hx, hcx⟩ := hL.snap hpos
                      rw [hs0] at hx
                      simp only [Option.some.injEq] at hx
                      subst hx
                      rw [htake, ← law _ _ _ _ hcx hdl]
                      exact hm
              · cases hsn
        · rw [if_neg hlt] at hdiff
          simp only [Option.some.injEq, Prod.mk.injEq] at hdiff
          obtain ⟨rfl, rfl⟩ := hdiff
          have hcl : s.ist.storage.compacted_idx = ld := by omega
          refine ⟨hss, e2, ?_⟩
          rcases Nat.eq_zero_or_pos s.ist.storage.compacted_idx with h0 | h0
          · refine .inr ⟨by rw [hL.fresh h0]; rfl, ?_⟩
            show ld ≤ cp; omega
          · obtain ⟨x, hx, hcx⟩ := hL.snap h0
            refine .inl ⟨x, by rw [hx]; rfl, ?_, ?_, e4, ?_⟩
            · show 0 < ld; omega
            · exact e5
            · show SnapOps.create (L.take ld) = some x
              rw [← hcl]; exact hcx
  · split at hy
    · cases hy
    · rename_i suffix hsf
      simp only [Option.some.injEq] at hy
      subst hy
      exact ⟨hss, (hsuf _ _ hsf).2, .inr ⟨rfl, Nat.le_refl _⟩⟩

/-- C16 (full claim: "after a server synchronises its log using a snapshot sent by another server, the snapshot it stores
represents exactly the decided entries below its new compacted index". False when a delta snapshot is sent, see
`C16_false_delta`.) Proved for all other synchronisations, of a follower by its leader and of a leader from a promise.

The sender's reads are consistent and it holds the log `L` (as entries and, before its compacted index, a snapshot of exactly
those entries). It builds the synchronisation for a receiver with the common prefix `cp` and the decided index `od`, and sends no
delta: it has compacted at least up to `od`, or does not need a snapshot. If the receiver, who agrees on the common prefix,
completes the synchronisation, then it holds `L` too: from its new compacted index on as entries, before it as the snapshot of
exactly those entries; and its StopSign is the sender's. It has compacted only what it had before or what is decided at the
sender. -/
theorem C16_sync_partial (law : SnapLaw E S) (s : SP E S) (hs : ReadOK s.ist) (L : List E) (hL : s.ist.storage.Holds L)
    (cp od : Nat) (y : LogSync E S) (hy : s.create_log_sync cp od = some y)
    (hod : od ≤ s.ist.cache.compacted_idx ∨ SnapOps.use_snapshots E S = false ∨ s.ist.cache.decided_idx ≤ cp)
    (r : IStore E S) (hr : ReadOK r) (K : List E) (hK : r.storage.Holds K) (hcp : cp ≤ K.length) (hpre : K.take cp = L.take cp)
    (b : Ballot) (d a : Nat) (r' : IStore E S) (hrun : IStore.sync_log b d (some y) r = .ok a r') :
    r'.storage.Holds L ∧ r'.storage.stopsign = s.ist.storage.stopsign ∧
    r'.cache.compacted_idx = r'.storage.compacted_idx ∧ r'.storage.trimmed_idx = r'.storage.compacted_idx ∧
    (r'.storage.compacted_idx = r.storage.compacted_idx ∨ r'.storage.compacted_idx ≤ s.ist.cache.decided_idx) := by
  obtain ⟨h1, h2, h3⟩ := create_log_sync_whole law hs hL hy hod
  have hcpL : cp ≤ L.length := by
    have := congrArg List.length hpre
    rw [List.length_take, List.length_take] at this
    omega
  have ht := hr.trim
  have hc := hr.comp
  have hb := hK.bound
  have hstop : ∀ (m m' : Mem E S), m.stopsign = r.storage.stopsign →
      m.write_atomically (IStore.syncStopsignOps r.cache.stopsign y.stopsign) = some m' →
      m' = { m with stopsign := y.stopsign } := by
    intro m m' hm hw
    have hrs := hr.ss
    unfold IStore.syncStopsignOps at hw
    split at hw
    · rename_i ss _ hss
      simp only [Mem.write_atomically, Mem.apply, Mem.set_stopsign, Option.some.injEq] at hw
      rw [← hw, hss]
    · rename_i hss _
      simp only [Mem.write_atomically, Mem.apply, Mem.set_stopsign, Option.some.injEq] at hw
      rw [← hw, hss]
    · rename_i hss ho
      simp only [Mem.write_atomically, Option.some.injEq] at hw
      rw [← hw, hss, ← ho, hrs, ← hm]
  have happ : ∀ (xs ys : List (StorageOp E S)) (m : Mem E S), m.write_atomically (xs ++ ys) =
      (m.write_atomically xs).bind fun m' => m'.write_atomically ys := by
    intro xs ys
    induction xs with
    | nil => intro m; rfl
    | cons x xs ih =>
      intro m
      simp only [List.cons_append, Mem.write_atomically]
      cases m.apply x with
      | none => rfl
      | some m1 => exact ih m1
  have key : M.Sat (IStore.sync_log b d (some y)) r (fun _ r' => r'.storage.Holds L ∧ r'.storage.stopsign = s.ist.storage.stopsign ∧
      r'.cache.compacted_idx = r'.storage.compacted_idx ∧ r'.storage.trimmed_idx = r'.storage.compacted_idx ∧
      (r'.storage.compacted_idx = r.storage.compacted_idx ∨ r'.storage.compacted_idx ≤ s.ist.cache.decided_idx))
      (fun _ => True) := by
    simp only [IStore.sync_log, M.sat_bind, IStore.sat_setCache, M.sat_get, M.sat_ofPan, IStore.sat_writeOps, M.sat_pure]
    refine ⟨fun sops hops => ⟨fun m' hw => ?_, fun _ => trivial⟩, fun _ => trivial⟩
    rw [happ] at hw
    obtain ⟨m1, hw1, hw2⟩ := Option.bind_eq_some_iff.1 hw
    rcases h3 with ⟨c, hsn, hpos, hle, hdec, hcr⟩ | ⟨hsn, hle⟩
    · simp only [IStore.syncSnapshotOps, hsn, Option.some.injEq] at hops
      subst hops
      simp only [List.cons_append, List.nil_append, Mem.write_atomically, Mem.apply, Mem.set_accepted_round,
        Mem.set_decided_idx, Mem.trim, Mem.set_compacted_idx, Mem.set_snapshot, Mem.append_on_prefix, usub] at hw1
      by_cases hx : r.storage.trimmed_idx ≤ y.sync_idx
      · rw [if_pos hx] at hw1
        simp only [Nat.le_refl, if_true, Mem.append_entries, Nat.sub_self, List.take_zero, List.nil_append,
          Option.some.injEq] at hw1
        have := hstop m1 m' (by rw [← hw1]) hw2
        rw [← hw1] at this
        subst this
        refine ⟨⟨hle, h2, fun h0 => ?_, fun _ => ⟨c, rfl, hcr⟩⟩, h1, ?_, rfl, .inr hdec⟩
        · exact absurd (show y.sync_idx = 0 from h0) (by omega)
        · simp [hsn]
      · rw [if_neg hx] at hw1; simp at hw1
    · simp only [IStore.syncSnapshotOps, hsn, Option.some.injEq] at hops
      subst hops
      simp only [List.append_nil, List.cons_append, List.nil_append, Mem.write_atomically, Mem.apply, Mem.set_accepted_round,
        Mem.set_decided_idx, Mem.append_on_prefix, usub] at hw1
      by_cases hx : r.storage.trimmed_idx ≤ y.sync_idx
      · rw [if_pos hx] at hw1
        simp only [Mem.append_entries, Option.some.injEq] at hw1
        have := hstop m1 m' (by rw [← hw1]) hw2
        rw [← hw1] at this
        subst this
        have hKL : ∀ j, j ≤ cp → K.take j = L.take j := by
          intro j hj
          have := congrArg (List.take j) hpre
          rwa [List.take_take, List.take_take, Nat.min_eq_left hj] at this
        refine ⟨⟨?_, ?_, ?_, ?_⟩, h1, ?_, ht, .inl rfl⟩
        · show r.storage.compacted_idx ≤ L.length; omega
        · show r.storage.log.take (y.sync_idx - r.storage.trimmed_idx) ++ y.suffix = L.drop r.storage.compacted_idx
          rw [h2, hK.log, ht, ← List.drop_take, hKL y.sync_idx hle, ← List.drop_append_of_le_length,
            List.take_append_drop]
          rw [List.length_take]; omega
        · exact hK.fresh
        · intro h0
          obtain ⟨x, hx', hcx⟩ := hK.snap h0
          refine ⟨x, hx', ?_⟩
          show SnapOps.create (L.take r.storage.compacted_idx) = some x
          rw [← hKL _ (by omega)]; exact hcx
        · simp [hsn, hc]
      · rw [if_neg hx] at hw1; simp at hw1
  have := M.sat_ok key hrun
  exact this

section Example
attribute [local instance] Sample.useSync

/-- A server that has compacted two entries into a snapshot, decided a third and accepted a fourth. -/
def Sample.snapDisk : Mem Nat (List Nat) :=
  { log := [9, 10], ld := 3, trimmed_idx := 2, compacted_idx := 2, snapshot := some [7, 8], n_prom := some ⟨1, 4, 0, 3⟩ }

/-- It synchronises one that holds one decided entry and one that will be replaced: what it sends, and what the other one holds
afterwards. -/
example : (Sample.start 1 Sample.snapDisk).map (fun op => decide (op.sp.create_log_sync 1 1 =
      some ⟨some (.complete [7, 8, 9]), [10], 3, none⟩)) = some true ∧
    (match IStore.sync_log ⟨1, 5, 0, 1⟩ 3 (some ⟨some (.complete [7, 8, 9]), [10], 3, none⟩)
        (IStore.with { log := [7, 0], ld := 1 } 1) with
      | .ok a r => decide (a = 4 ∧ r.storage.log = [10] ∧ r.storage.compacted_idx = 3 ∧ r.storage.snapshot = some [7, 8, 9])
      | .panic _ => false) = true := by decide +kernel

example : Sample.snapDisk.Holds [7, 8, 9, 10] := ⟨by decide, by decide, by decide, fun _ => ⟨_, rfl, rfl⟩⟩
example : SnapLaw Nat (List Nat) := by
  rintro a b x y ⟨⟩ ⟨⟩
  rfl
end Example

end Omni
