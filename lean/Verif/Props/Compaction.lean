import Verif.Proof.Compact
import Verif.Spec.Basic
import Verif.Spec.Sample
import Verif.Spec.Snapshot
/-
Properties of the read API and of compaction on a server whose cached numbers agree with its storage: C13, C14, C15, C17.
-/
namespace Omni

variable {E S : Type}

/-! ## C17 -/

/-- C17, one position. -/
theorem C17_read (op : OP E S) (h : op.Consistent) (i : Nat) : op.read i = some (op.at i) := by
  unfold OP.read OP.at
  by_cases hi : i < op.sp.ist.storage.len
  · rw [IStore.read_spec h.readOK (lo := .included i) (hi := .excluded (i + 1)) (a := i) (b := i + 1) rfl rfl (by omega)
      (by omega)]
    simp only [Mem.viewRange_one _ i hi]
  · rw [IStore.read_beyond h.readOK (hi := .excluded (i + 1)) (b := i + 1) rfl (by omega)]
    simp only [Mem.view_beyond op.sp.ist.storage i (by omega)]

/-- C17, ranges: a non-empty range inside the log returns the positions in order, the compacted ones as one marker; a range
that ends beyond the log returns `None`. -/
theorem C17_read_entries (op : OP E S) (h : op.Consistent) (lo hi : IStore.Bound) :
    (lo.first < hi.last op.sp.ist.storage.len → hi.last op.sp.ist.storage.len ≤ op.sp.ist.storage.len →
      op.read_entries lo hi =
        some (some (op.sp.ist.storage.viewRange lo.first (hi.last op.sp.ist.storage.len)))) ∧
    (op.sp.ist.storage.len < hi.last op.sp.ist.storage.len → op.read_entries lo hi = some none) := by
  have he : op.sp.ist.endIdx hi = hi.last op.sp.ist.storage.len := by
    cases hi <;> simp [IStore.endIdx, IStore.Bound.last, h.accepted]
  have hs : IStore.startIdx lo = lo.first := by cases lo <;> rfl
  exact ⟨fun h1 h2 => IStore.read_spec h.readOK hs he h1 h2, fun h1 => IStore.read_beyond h.readOK he h1⟩

/-- C17, the decided suffix: the positions from `i` up to the decided index; `None` if there are none. -/
theorem C17_read_decided_suffix (op : OP E S) (h : op.Consistent) (i : Nat) :
    op.read_decided_suffix i =
      some (if i < op.get_decided_idx then some (op.sp.ist.storage.viewRange i op.get_decided_idx) else none) := by
  unfold OP.read_decided_suffix IStore.read_decided_suffix OP.get_decided_idx
  split
  · rename_i hi
    rw [IStore.read_spec h.readOK (a := i) (b := op.sp.ist.cache.decided_idx) rfl rfl hi]
    rw [h.decided]; exact h.bound
  · rfl

/-- What the positions are, in plain words: the marker below the compacted index, then the stored entries flagged decided
exactly below the decided index, then the StopSign, then nothing. -/
theorem C17_positions (op : OP E S) (h : op.Consistent) (i : Nat) :
    (i < op.get_compacted_idx → op.read i = some (some (match op.sp.ist.storage.snapshot with
      | some s => .snapshotted op.get_compacted_idx s
      | none => .trimmed op.get_compacted_idx))) ∧
    (∀ e, op.sp.ist.storage.log[i]? = some e → op.read (op.get_compacted_idx + i) =
      some (some (if op.get_compacted_idx + i < op.get_decided_idx then .decided e else .undecided e))) ∧
    (∀ ss, op.sp.ist.storage.stopsign = some ss →
      op.read (op.get_compacted_idx + op.sp.ist.storage.log.length) = some (some (.stopSign ss
        (decide (op.get_compacted_idx + op.sp.ist.storage.log.length < op.get_decided_idx))))) ∧
    (op.sp.ist.storage.len ≤ i → op.read i = some none) := by
  simp only [C17_read op h, OP.at, OP.get_compacted_idx, OP.get_decided_idx, h.compacted, h.decided]
  refine ⟨fun hi => ?_, fun e he => ?_, fun ss hss => ?_, fun hi => ?_⟩
  · simp only [Mem.view, hi, if_true, Mem.marker]
    cases op.sp.ist.storage.snapshot <;> rfl
  · unfold Mem.view
    rw [if_neg (by omega), Nat.add_sub_cancel_left, he]
  · unfold Mem.view
    rw [if_neg (by omega), Nat.add_sub_cancel_left, List.getElem?_eq_none (Nat.le_refl _)]
    simp [hss]
  · rw [Mem.view_beyond _ i hi]

/-- The server started from `Sample.disk` is consistent. -/
example : (match Sample.start 2 Sample.disk with
    | some op => decide (op.sp.ist.cache.compacted_idx = op.sp.ist.storage.compacted_idx ∧
        op.sp.ist.storage.trimmed_idx = op.sp.ist.storage.compacted_idx ∧
        op.sp.ist.cache.decided_idx = op.sp.ist.storage.ld ∧
        op.sp.ist.cache.stopsign = op.sp.ist.storage.stopsign ∧
        op.sp.ist.cache.accepted_idx = op.sp.ist.storage.len ∧ op.sp.ist.storage.ld ≤ op.sp.ist.storage.len)
    | none => false) = true := by decide +kernel

/-! ## C13 -/

theorem consistent_of_readOK {op : OP E S} {i : IStore E S} (h : ReadOK i) :
    OP.Consistent { op with sp := { op.sp with ist := i } } :=
  ⟨h.comp, h.trim, h.dcd, h.ss, h.len, by have := h.dec; rw [h.dcd, h.len] at this; exact this⟩

theorem min_all_eq {ls : LeaderState E S} {a : Nat} (ha : a ∈ ls.accepted_indexes) (hmin : ∀ b ∈ ls.accepted_indexes, a ≤ b) :
    ls.get_min_all_accepted_idx = some a := by
  unfold LeaderState.get_min_all_accepted_idx
  cases hl : ls.accepted_indexes with
  | nil => rw [hl] at ha; simp at ha
  | cons x r =>
    rw [hl] at ha hmin
    have key : ∀ (r : List Nat) (x : Nat), r.foldl min x ∈ x :: r ∧ ∀ b ∈ x :: r, r.foldl min x ≤ b := by
      intro r
      induction r with
      | nil => simp
      | cons y r ih =>
        intro x
        have := ih (min x y)
        simp only [List.foldl_cons]
        refine ⟨?_, ?_⟩
        · rcases List.mem_cons.1 this.1 with h1 | h1
          · rw [h1]
            rcases Nat.le_total x y with hxy | hxy
            · simp [Nat.min_eq_left hxy]
            · simp [Nat.min_eq_right hxy]
          · simp [h1]
        · intro b hb
          have h0 := this.2 (min x y) (by simp)
          simp only [List.mem_cons] at hb
          rcases hb with rfl | rfl | hb
          · omega
          · omega
          · exact this.2 b (by simp [hb])
    simp only
    obtain ⟨k1, k2⟩ := key r x
    have := k2 a ha
    have := hmin _ k1
    congr 1; omega

/-- C13: `trim` on a consistent server always returns.
It returns an error, and then nothing changed, in exactly these cases: the server is not the leader (the error names the
server it promised to); it is asked for more than the smallest index `a` accepted by all (the error carries `a`); the
target, `a` if none is given, is beyond its decided index (the error carries the decided index).
Otherwise the target is at most every accepted index and at most the decided index; the compacted index becomes the
target, but stays before a StopSign and never goes back; every position from the compacted index on shows what it showed
before; and every peer is told to trim to the target. Nothing else changes. -/
theorem C13_trim (op : OP E S) (h : op.Consistent) (idx : Option Nat) (a : Nat)
    (ha : a ∈ op.sp.ls.accepted_indexes) (hmin : ∀ b ∈ op.sp.ls.accepted_indexes, a ≤ b) :
    ∃ r op', OP.trim idx op = .ok r op' ∧
      match r with
      | .error e => op' = op ∧
          ((op.sp.role ≠ .leader ∧ e = .notCurrentLeader op.get_promise.pid) ∨
           (op.sp.role = .leader ∧ a < idx.getD a ∧ e = .notAllDecided a) ∨
           (op.sp.role = .leader ∧ idx.getD a ≤ a ∧ op.get_decided_idx < idx.getD a ∧
             e = .undecidedIndex op.get_decided_idx))
      | .ok () =>
          op.sp.role = .leader ∧ (∀ b ∈ op.sp.ls.accepted_indexes, idx.getD a ≤ b) ∧ idx.getD a ≤ op.get_decided_idx ∧
          op'.get_compacted_idx = max op.get_compacted_idx
            (min (idx.getD a) (op.sp.ist.storage.compacted_idx + op.sp.ist.storage.log.length)) ∧
          (∀ i, op'.get_compacted_idx ≤ i → op'.read i = op.read i) ∧
          op'.get_decided_idx = op.get_decided_idx ∧ op'.Consistent ∧
          op' = { op with sp := { op.sp with
            ist := op'.sp.ist
            outgoing := op.sp.outgoing ++ op.sp.peers.map fun p =>
              { src := op.sp.pid, dst := p, msg := .compaction (.trim (idx.getD a)) } } } := by
  have hm := min_all_eq ha hmin
  by_cases hr : op.sp.role = .leader
  · by_cases h1 : idx.getD a ≤ a
    · have hts := IStore.try_trim_spec h.readOK (idx.getD a)
      by_cases h2 : idx.getD a ≤ op.sp.ist.cache.decided_idx
      · rw [if_pos h2] at hts
        have hgen : ∀ i', IStore.try_trim (idx.getD a) op.sp.ist = .ok (.ok ()) i' →
            OP.trim idx op = .ok (.ok ()) { op with sp := { op.sp with
              ist := i'
              outgoing := op.sp.outgoing ++ op.sp.peers.map fun p =>
                { src := op.sp.pid, dst := p, msg := .compaction (.trim (idx.getD a)) } } } := by
          intro i' hi'
          refine M.eq_ok_of_sat ?_
          simp only [OP.trim, SP.trim, OP.sat_onSP, M.sat_bind, M.sat_get, M.sat_ite, hr, M.sat_ofPan, hm,
            true_implies, not_true_eq_false, false_implies, and_true, reduceCtorEq]
          rintro b hb
          simp only [Option.some.injEq] at hb
          subst hb
          refine ⟨fun _ => ?_, fun hn => absurd h1 hn⟩
          rw [SP.sat_onStore, M.sat_of_eq hi']
          simp only [M.sat_bind]
          rw [M.sat_of_eq (SP.forEach_send op.sp.peers (fun _ => .compaction (.trim (idx.getD a))) _)]
          simp [hr]
        have hcc := h.compacted
        refine ⟨_, _, hgen _ hts, hr, fun b hb => ?_, h2, ?_⟩
        · have := hmin b hb; omega
        · split
          · rename_i hk
            have hk' := hk
            unfold IStore.cut at hk'
            refine ⟨?_, fun i hi => ?_, rfl, ?_, rfl⟩
            · show op.sp.ist.cut _ = max op.sp.ist.cache.compacted_idx _
              unfold IStore.cut; omega
            · have hc : OP.Consistent { op with sp := { op.sp with
                  ist := op.sp.ist.compacted (op.sp.ist.cut (idx.getD a)) op.sp.ist.storage.snapshot
                    [.trim (op.sp.ist.cut (idx.getD a)), .setCompactedIdx (op.sp.ist.cut (idx.getD a))] } } :=
                consistent_of_readOK (IStore.compacted_readOK h.readOK hk)
              have e1 := C17_read _ hc i
              rw [C17_read op h i]
              refine Eq.trans e1 ?_
              congr 1
              exact IStore.compacted_view h.readOK hk i hi
            · have hc : OP.Consistent { op with sp := { op.sp with
                  ist := op.sp.ist.compacted (op.sp.ist.cut (idx.getD a)) op.sp.ist.storage.snapshot
                    [.trim (op.sp.ist.cut (idx.getD a)), .setCompactedIdx (op.sp.ist.cut (idx.getD a))] } } :=
                consistent_of_readOK (IStore.compacted_readOK h.readOK hk)
              exact ⟨hc.1, hc.2, hc.3, hc.4, hc.5, hc.6⟩
          · rename_i hk
            unfold IStore.cut at hk
            refine ⟨?_, fun i hi => rfl, rfl, ⟨h.1, h.2, h.3, h.4, h.5, h.6⟩, rfl⟩
            show op.sp.ist.cache.compacted_idx = max op.sp.ist.cache.compacted_idx _
            omega
      · rw [if_neg h2] at hts
        refine ⟨.error (.undecidedIndex op.get_decided_idx), op, M.eq_ok_of_sat ?_, rfl,
          .inr (.inr ⟨hr, h1, by simp only [OP.get_decided_idx]; omega, rfl⟩)⟩
        simp only [OP.trim, SP.trim, OP.sat_onSP, M.sat_bind, M.sat_get, M.sat_ite, hr, M.sat_ofPan, hm,
          true_implies, not_true_eq_false, false_implies, and_true, reduceCtorEq]
        rintro b hb
        simp only [Option.some.injEq] at hb
        subst hb
        refine ⟨fun _ => ?_, fun hn => absurd h1 hn⟩
        rw [SP.sat_onStore, M.sat_of_eq hts]
        exact ⟨rfl, rfl⟩
    · refine ⟨.error (.notAllDecided a), op, M.eq_ok_of_sat ?_, rfl, .inr (.inl ⟨hr, by omega, rfl⟩)⟩
      simp [OP.trim, SP.trim, hr, hm, h1]
  · refine ⟨.error (.notCurrentLeader op.get_promise.pid), op, M.eq_ok_of_sat ?_, rfl, .inl ⟨hr, rfl⟩⟩
    simp [OP.trim, SP.trim, hr]
    rfl

section Example
/-- A leader of a three-server cluster whose decided log [5, 6, 7] is accepted by everyone up to index 2. -/
example : ((Sample.start 1 { log := [5, 6, 7], ld := 3 }).map fun op =>
      match OP.trim (E := Nat) (S := List Nat) none { op with sp := { op.sp with role := .leader
                                                                                 ls := { op.sp.ls with accepted_indexes := [3, 2, 3] } } } with
      | .ok (.ok ()) op' => [op'.read 1, op'.read 2]
      | _ => []) = some [some (some (.trimmed 2)), some (some (.decided 7))] := by decide +kernel
end Example

/-! ## C14 -/

variable [SnapOps E S]

/-- Only the storage of the server can have changed; the decided index is as before; the compacted index did not go back
and compacted only decided positions; every position from it on reads as before; a request beyond the decided index is
ignored altogether. -/
structure CompactionOutcome (c : Compaction) (op op' : OP E S) : Prop where
  frame : op' = { op with sp := { op.sp with ist := op'.sp.ist } }
  consistent : op'.Consistent
  promise : op'.get_promise = op.get_promise
  round : op'.sp.ist.cache.accepted_round = op.sp.ist.cache.accepted_round
  decided : op'.get_decided_idx = op.get_decided_idx
  forward : op.get_compacted_idx ≤ op'.get_compacted_idx
  onlyDecided : op'.get_compacted_idx ≤ max op.get_compacted_idx op.get_decided_idx
  reads : ∀ i, op'.get_compacted_idx ≤ i → op'.read i = op.read i
  ignored : ∀ i, (c = .trim i ∨ c = .snapshot (some i)) → op.get_decided_idx < i → op' = op

/-- C14: a forwarded compaction request at a consistent server, whatever its index, has the outcome above. A trim
request always returns; a snapshot request returns unless the user's snapshot code panics. -/
theorem C14_compaction_request (op : OP E S) (h : op.Consistent) (c : Compaction) (src dst : NodeId) :
    match OP.handle_incoming (.paxos { src, dst, msg := .compaction c }) op with
    | .ok _ op' => CompactionOutcome c op op'
    | .panic _ => (∃ i, c = .snapshot i) ∧
        ((∃ es : List E, (SnapOps.create es : Pan S) = none) ∨ ∃ x y : S, SnapOps.merge E x y = none) := by
  have hR := h.readOK
  have hcc := h.compacted
  have base : CompactionOutcome c op op :=
    ⟨rfl, h, rfl, rfl, rfl, Nat.le_refl _, Nat.le_max_left .., fun _ _ => rfl, fun _ _ _ => rfl⟩
  have comp : ∀ (i : Nat) (sn : Option S) (ops : List (StorageOp E S)), i ≤ op.sp.ist.cache.decided_idx → op.sp.ist.cache.compacted_idx < op.sp.ist.cut i →
      (c = .trim i ∨ c = .snapshot (some i) ∨ c = .snapshot none) →
      CompactionOutcome c op { op with sp := { op.sp with ist := op.sp.ist.compacted (op.sp.ist.cut i) sn ops } } := by
    intro i sn ops hi hk hc
    have hcons : OP.Consistent { op with sp := { op.sp with ist := op.sp.ist.compacted (op.sp.ist.cut i) sn ops } } :=
      consistent_of_readOK (IStore.compacted_readOK hR hk)
    have hk' := hk
    unfold IStore.cut at hk'
    refine ⟨rfl, hcons, rfl, rfl, rfl, ?_, ?_, fun j hj => ?_, fun j hj hd => ?_⟩
    · show op.sp.ist.cache.compacted_idx ≤ op.sp.ist.cut i
      omega
    · show op.sp.ist.cut i ≤ max _ op.sp.ist.cache.decided_idx
      unfold IStore.cut; omega
    · rw [C17_read _ hcons, C17_read op h]
      congr 1
      exact IStore.compacted_view hR hk j hj
    · exfalso
      have hd' : op.sp.ist.cache.decided_idx < j := hd
      rcases hj with rfl | rfl <;> simp at hc <;> omega
  cases c with
  | trim i =>
    have hts := IStore.try_trim_spec hR i
    have hsat : M.Sat (OP.handle_incoming (.paxos { src, dst, msg := .compaction (.trim i) })) op
        (fun _ op' => CompactionOutcome (.trim i) op op') (fun _ => False) := by
      simp only [OP.handle_incoming, SP.handle, SP.handle_compaction, OP.sat_onSP, M.sat_bind, SP.sat_onStore]
      split at hts
      · rename_i hi
        rw [M.sat_of_eq hts, M.sat_pure]
        split
        · rename_i hk; exact comp i _ _ hi hk (.inl rfl)
        · exact base
      · rw [M.sat_of_eq hts, M.sat_pure]
        exact base
    cases hrun : OP.handle_incoming (.paxos { src, dst, msg := .compaction (.trim i) }) op with
    | ok _ op' => have := M.sat_ok hsat hrun; exact this
    | panic op' => exact (M.sat_panic hsat hrun).elim
  | snapshot idx =>
    have hts := IStore.try_snapshot_spec hR idx
    have hsat : M.Sat (OP.handle_incoming (.paxos { src, dst, msg := .compaction (.snapshot idx) })) op
        (fun _ op' => ∃ i', op' = { op with sp := { op.sp with ist := i' } } ∧ (i' = op.sp.ist ∨
          (idx.getD op.sp.ist.cache.decided_idx ≤ op.sp.ist.cache.decided_idx ∧
            op.sp.ist.cache.compacted_idx < op.sp.ist.cut (idx.getD op.sp.ist.cache.decided_idx) ∧
            ∃ sn ops, i' = op.sp.ist.compacted (op.sp.ist.cut (idx.getD op.sp.ist.cache.decided_idx)) (some sn) ops)))
        (fun _ => op.sp.ist.create_snapshot (op.sp.ist.cut (idx.getD op.sp.ist.cache.decided_idx)) = none) := by
      simp only [OP.handle_incoming, SP.handle, SP.handle_compaction, SP.snapshot, OP.sat_onSP, M.sat_bind, SP.sat_onStore,
        M.sat_get]
      refine M.sat_mono hts (fun r i' hr => ?_) fun _ h => h
      rcases hr with ⟨hi, rfl, ⟨_, rfl⟩ | ⟨hk, sn, d, rfl, -, -⟩⟩ | ⟨_, rfl, rfl⟩
      · simp
      · simp only [M.sat_bind, M.sat_whenDo, Bool.true_eq_false, false_implies, true_and, not_false_eq_true, true_implies,
          M.sat_pure]
        exact ⟨_, rfl, .inr ⟨hi, hk, sn, _, rfl⟩⟩
      · simp only [M.sat_pure]
        exact ⟨_, rfl, .inl rfl⟩
    cases hrun : OP.handle_incoming (.paxos { src, dst, msg := .compaction (.snapshot idx) }) op with
    | ok _ op' =>
      simp only
      obtain ⟨i', rfl, rfl | ⟨hi, hk, sn, ops, rfl⟩⟩ := M.sat_ok hsat hrun
      · exact base
      · have := comp _ (some sn) ops hi hk (by cases idx <;> simp)
        exact this
    | panic op' =>
      have hp := M.sat_panic hsat hrun
      simp only
      refine ⟨⟨idx, rfl⟩, ?_⟩
      unfold IStore.create_snapshot at hp
      simp only at hp
      split at hp
      · simp at hp
      · rename_i hge
        split at hp
        · rename_i hg
          exfalso
          have htr := h.trimmed
          unfold Mem.get_entries usub at hg
          rw [if_pos (by omega), if_pos (by omega)] at hg
          simp at hg
        · split at hp
          · exact .inl ⟨_, by assumption⟩
          · split at hp
            · simp at hp
            · split at hp
              · exact .inr ⟨_, _, by assumption⟩
              · simp at hp

section Example
attribute [local instance] Sample.noSync
/-- A follower that decided two of three entries is asked to trim to 2, and to 3. -/
example : ((Sample.start 2 { log := [5, 6, 7], ld := 2 }).map fun op =>
      [2, 3].map fun i => match OP.handle_incoming (.paxos ⟨1, 2, .compaction (.trim i)⟩) op with
        | .ok _ op' => [op'.read 0, op'.read 2]
        | _ => []) = some [[some (some (.trimmed 2)), some (some (.undecided 7))],
          [some (some (.decided 5)), some (some (.undecided 7))]] := by decide +kernel
end Example

/-! ## C15 -/

/-- Snapshot calls keep `Holds`. -/
theorem snapshot_holds (law : SnapLaw E S) (op : OP E S) (h : op.Consistent) (L : List E) (hL : op.sp.ist.storage.Holds L)
    (idx : Option Nat) (lo : Bool) :
    M.Sat (Call.snapshot idx lo).run op (fun _ op' => op'.Consistent ∧ op'.sp.ist.storage.Holds L) (fun _ => True) := by
  have hR := h.readOK
  have hcc := h.compacted
  have hts := IStore.try_snapshot_spec hR idx
  simp only [Call.run, OP.snapshot, SP.snapshot, OP.sat_onSP, M.sat_bind, SP.sat_onStore, M.sat_get]
  refine M.sat_mono hts (fun r i' hr => ?_) fun _ _ => trivial
  have key : ReadOK i' ∧ i'.storage.Holds L := by
    rcases hr with ⟨hi, rfl, ⟨_, rfl⟩ | ⟨hk, sn, d, rfl, hd, hm⟩⟩ | ⟨_, rfl, rfl⟩
    · exact ⟨hR, hL⟩
    · refine ⟨IStore.compacted_readOK hR hk, ?_⟩
      generalize hkk : op.sp.ist.cut (idx.getD op.sp.ist.cache.decided_idx) = k at *
      have hk1 : k ≤ op.sp.ist.storage.compacted_idx + op.sp.ist.storage.log.length := by
        rw [← hkk]; unfold IStore.cut; omega
      have hlen : op.sp.ist.storage.log.length = L.length - op.sp.ist.storage.compacted_idx := by
        rw [hL.log, List.length_drop]
      have hb := hL.bound
      have htr := h.trimmed
      refine ⟨?_, ?_, fun h0 => ?_, fun _ => ?_⟩
      · show k ≤ L.length; omega
      · show op.sp.ist.storage.log.drop (min (k - op.sp.ist.storage.trimmed_idx) op.sp.ist.storage.log.length) = L.drop k
        rw [htr, Nat.min_eq_left (by omega), hL.log, List.drop_drop]
        congr 1; omega
      · exact absurd (show k = 0 from h0) (by omega)
      · refine ⟨sn, rfl, ?_⟩
        show SnapOps.create (L.take k) = some sn
        have htake : L.take k = L.take op.sp.ist.storage.compacted_idx ++
            op.sp.ist.storage.log.take (k - op.sp.ist.storage.compacted_idx) := by
          rw [hL.log, ← List.take_add]
          congr 1; omega
        rcases hm with ⟨hn, rfl⟩ | ⟨o, ho, hmg⟩
        · have hz : op.sp.ist.storage.compacted_idx = 0 := by
            rcases Nat.eq_zero_or_pos op.sp.ist.storage.compacted_idx with h0 | h0
            · exact h0
            · obtain ⟨s, hs, -⟩ := hL.snap h0
              rw [hn] at hs; simp at hs
          rw [htake, hz]
          rw [hz] at hd
          simpa using hd
        · have hpos : 0 < op.sp.ist.storage.compacted_idx := by
            rcases Nat.eq_zero_or_pos op.sp.ist.storage.compacted_idx with h0 | h0
            · have := hL.fresh h0; rw [ho] at this; simp at this
            · exact h0
          obtain ⟨s, hs, hcs⟩ := hL.snap hpos
          rw [ho] at hs
          simp at hs
          subst hs
          rw [htake, ← law _ _ _ _ hcs hd]
          exact hmg
    · exact ⟨hR, hL⟩
  cases r with
  | ok u =>
    simp only [M.sat_bind, M.sat_whenDo, M.sat_pure]
    refine ⟨fun _ => ?_, fun _ => ⟨consistent_of_readOK key.1, key.2⟩⟩
    rw [M.sat_of_eq (SP.forEach_send op.sp.peers (fun _ => .compaction (.snapshot idx)) _)]
    exact ⟨⟨key.1.comp, key.1.trim, key.1.dcd, key.1.ss, key.1.len, (consistent_of_readOK (op := op) key.1).bound⟩, key.2⟩
  | error e => simp only [M.sat_pure]; exact ⟨consistent_of_readOK key.1, key.2⟩

/-- A local snapshot sends nothing. -/
theorem snapshot_local (op : OP E S) (idx : Option Nat) :
    M.Sat (Call.snapshot idx true).run op (fun _ op' => op'.sp.outgoing = op.sp.outgoing) (fun _ => True) := by
  simp only [Call.run, OP.snapshot, SP.snapshot, OP.sat_onSP, M.sat_bind, SP.sat_onStore, M.sat_get]
  refine M.sat_mono (M.sat_true _ _) (fun r i' _ => ?_) fun _ _ => trivial
  cases r with
  | ok u => simp only [M.sat_bind, M.sat_whenDo, M.sat_pure]; exact ⟨fun h => (nomatch h), fun _ => trivial⟩
  | error e => simp only [M.sat_pure]

/-- C15: start from a consistent server that holds the log `L` (entries from the compacted index on, before it the snapshot
of exactly those entries; with nothing compacted this just says that the stored log is `L`). After any sequence of
snapshot calls, with any indexes, successful or not, every read below the compacted index `c` returns
`Snapshotted(c, s)` where `s` is the snapshot of the first `c` entries of `L`, and the entries from `c` on are still
there. If all calls were for local snapshots, nothing is sent. -/
theorem C15_local_snapshot (law : SnapLaw E S) (op : OP E S) (h : op.Consistent) (L : List E)
    (hL : op.sp.ist.storage.Holds L) (calls : List (Option Nat × Bool)) (op' : OP E S)
    (hrun : op.runCalls (calls.map fun c => .snapshot c.1 c.2) = some op') :
    op'.sp.ist.storage.Holds L ∧
    (∀ i, i < op'.get_compacted_idx → ∃ s, SnapOps.create (L.take op'.get_compacted_idx) = some s ∧
      op'.read i = some (some (.snapshotted op'.get_compacted_idx s))) ∧
    ((∀ c ∈ calls, c.2 = true) → op'.sp.outgoing = op.sp.outgoing) := by
  have key : op'.Consistent ∧ op'.sp.ist.storage.Holds L := by
    induction calls generalizing op with
    | nil => simp [OP.runCalls] at hrun; subst hrun; exact ⟨h, hL⟩
    | cons c cs ih =>
      simp only [List.map_cons, OP.runCalls] at hrun
      cases hc : (Call.snapshot c.1 c.2 : Call E S).run op with
      | ok a op1 =>
        rw [hc] at hrun
        have h1 := M.sat_ok (snapshot_holds law op h L hL c.1 c.2) hc
        exact ih op1 h1.1 h1.2 hrun
      | panic op1 => rw [hc] at hrun; simp at hrun
  refine ⟨key.2, fun i hi => ?_, fun hloc => ?_⟩
  case refine_2 =>
    clear key h hL
    induction calls generalizing op with
    | nil => simp [OP.runCalls] at hrun; subst hrun; rfl
    | cons c cs ih =>
      simp only [List.map_cons, OP.runCalls] at hrun
      cases hc : (Call.snapshot c.1 c.2 : Call E S).run op with
      | ok a op1 =>
        rw [hc] at hrun
        have h1 : op1.sp.outgoing = op.sp.outgoing := by
          rw [hloc c (List.mem_cons_self ..)] at hc
          exact (M.sat_ok (snapshot_local op c.1) hc :)
        rw [ih op1 hrun fun c' hc' => hloc c' (List.mem_cons_of_mem _ hc'), h1]
      | panic op1 => rw [hc] at hrun; simp at hrun
  have hcomp : op'.get_compacted_idx = op'.sp.ist.storage.compacted_idx := key.1.compacted
  obtain ⟨s, hs, hcs⟩ := key.2.snap (by omega)
  refine ⟨s, by rw [hcomp]; exact hcs, ?_⟩
  rw [(C17_positions op' key.1 i).1 hi, hs]

section Example
attribute [local instance] Sample.noSync
/-- Lists of entries are lawful snapshots. -/
example : SnapLaw Nat (List Nat) := by
  intro a b x y hx hy
  simp only [SnapOps.create, SnapOps.merge, Option.some.injEq] at *
  rw [hx, hy]
/-- Three snapshot calls, the second one beyond the decided index. -/
example : ((Sample.start 1 { log := [5, 6, 7], ld := 2 }).bind fun op =>
      (op.runCalls [.snapshot (some 1) true, .snapshot (some 3) true, .snapshot none true]).map (·.read 0)) =
    some (some (some (.snapshotted 2 [5, 6]))) := by decide +kernel
end Example

end Omni
