import Verif.Proof.Sat
import Verif.Proof.Ballot
/-
Invariants of one server under arbitrary calls and messages: the cache mirrors the storage, the promise and the compacted
index never decrease, a server leads only ballots obtained after its start.
-/
namespace Omni

variable {E S : Type}

/-- The promise a storage holds (mod.rs 65-72: absent means default). -/
def Mem.prom (m : Mem E S) : Ballot := m.n_prom.getD {}

/-- Durable facts with lower bounds `b` for the promise and `c` for the compacted index. -/
structure DiskOK (b : Ballot) (c : Nat) (m : Mem E S) : Prop where
  prom : b ≤ m.prom
  comp : c ≤ m.compacted_idx
  trim : m.trimmed_idx = m.compacted_idx

/-- The cache holds what the storage holds. -/
structure Mirror (s : IStore E S) : Prop where
  prom : s.cache.promise = s.storage.prom
  acc : s.cache.accepted_round = s.storage.acc_round.getD {}
  dec : s.cache.decided_idx = s.storage.ld
  comp : s.cache.compacted_idx = s.storage.compacted_idx
  trim : s.storage.trimmed_idx = s.storage.compacted_idx
  ss : s.cache.stopsign = s.storage.stopsign

/-- Invariant of the internal storage between operations. -/
structure IInv (b : Ballot) (c : Nat) (s : IStore E S) : Prop where
  mir : Mirror s
  prom : b ≤ s.storage.prom
  comp : c ≤ s.storage.compacted_idx
  trail : ∀ m ∈ s.trail, DiskOK b c m

/-- What is left after a panic. -/
structure IBad (b : Ballot) (c : Nat) (s : IStore E S) : Prop where
  disk : DiskOK b c s.storage
  trail : ∀ m ∈ s.trail, DiskOK b c m

theorem IInv.disk {b c} {s : IStore E S} (h : IInv b c s) : DiskOK b c s.storage := ⟨h.prom, h.comp, h.mir.trim⟩

theorem IInv.bad {b c} {s : IStore E S} (h : IInv b c s) : IBad b c s := ⟨h.disk, h.trail⟩

theorem IInv.bad' {b c} {s : IStore E S} (h : IInv b c s) (cc : StateCache E) : IBad b c { s with cache := cc } :=
  ⟨h.disk, h.trail⟩

/-- Still the invariant, and promise and accepted round are as before. -/
structure IKeep (b : Ballot) (c : Nat) (s s' : IStore E S) : Prop where
  inv : IInv b c s'
  prom : s'.cache.promise = s.cache.promise
  acc : s'.cache.accepted_round = s.cache.accepted_round

theorem IInv.keep {b c} {s : IStore E S} (h : IInv b c s) : IKeep b c s s := ⟨h, rfl, rfl⟩

theorem IKeep.trans {b c} {s t u : IStore E S} (h : IKeep b c s t) (h' : IKeep b c t u) : IKeep b c s u :=
  ⟨h'.inv, h'.prom.trans h.prom, h'.acc.trans h.acc⟩

namespace IStore

variable {b : Ballot} {c : Nat} {s : IStore E S}

/-- Log and batch changes, and the accepted index, are irrelevant for `IInv`. -/
theorem inv_append_nb (h : IInv b c s) (es : List E) :
    M.Sat (append_entries_without_batching es) s (fun _ s' => IKeep b c s s') (IBad b c) := by
  simp only [append_entries_without_batching, M.sat_bind, M.sat_get, sat_write_append, sat_write_stopsign, sat_write_promise, sat_write_decided, sat_setCache, M.sat_pure,
    Mem.append_entries]
  exact ⟨⟨⟨h.mir.prom, h.mir.acc, h.mir.dec, h.mir.comp, h.mir.trim, h.mir.ss⟩, h.prom, h.comp,
    List.forall_mem_cons.2 ⟨⟨h.prom, h.comp, h.mir.trim⟩, h.trail⟩⟩, rfl, rfl⟩

theorem inv_batch (h : IInv b c s) (l : List E) : IInv b c { s with cache := { s.cache with batched_entries := l } } :=
  ⟨⟨h.mir.prom, h.mir.acc, h.mir.dec, h.mir.comp, h.mir.trim, h.mir.ss⟩, h.prom, h.comp, h.trail⟩

theorem inv_cache_append (h : IInv b c s) (es : List E) :
    M.Sat (cache_append_entries es) s (fun _ s' => IKeep b c s s') (IBad b c) := by
  simp only [cache_append_entries, take_entries_if_batch_is_full, M.sat_bind, M.sat_get, sat_setCache, M.sat_ite,
    M.sat_pure]
  exact ⟨fun _ => ⟨inv_batch h _, rfl, rfl⟩, fun _ => ⟨inv_batch h _, rfl, rfl⟩⟩

theorem inv_flush_if_full (h : IInv b c s) (r : Option (List E)) :
    M.Sat (flush_if_full_batch r) s (fun _ s' => IKeep b c s s') (IBad b c) := by
  cases r with
  | none => exact h.keep
  | some l =>
    simp only [flush_if_full_batch, M.sat_bind, M.sat_pure]
    exact inv_append_nb h l

theorem inv_append_entry (h : IInv b c s) (e : E) :
    M.Sat (append_entry_with_batching e) s (fun _ s' => IKeep b c s s') (IBad b c) := by
  simp only [append_entry_with_batching, M.sat_bind]
  exact M.sat_mono (inv_cache_append h _) (fun _ _ h =>
    M.sat_mono (inv_flush_if_full h.inv _) (fun _ _ h' => h.trans h') fun _ h => h) fun _ h => h

theorem inv_append_entries (h : IInv b c s) (es : List E) :
    M.Sat (append_entries_with_batching es) s (fun _ s' => IKeep b c s s') (IBad b c) := by
  simp only [append_entries_with_batching, M.sat_bind]
  exact M.sat_mono (inv_cache_append h _) (fun _ _ h =>
    M.sat_mono (inv_flush_if_full h.inv _) (fun _ _ h' => h.trans h') fun _ h => h) fun _ h => h

theorem inv_append_get (h : IInv b c s) (es : List E) :
    M.Sat (append_entries_and_get_accepted_idx es) s (fun _ s' => IKeep b c s s') (IBad b c) := by
  simp only [append_entries_and_get_accepted_idx, M.sat_bind]
  refine M.sat_mono (inv_cache_append h _) (fun r _ h => ?_) fun _ h => h
  cases r with
  | none => exact h
  | some l =>
    simp only [M.sat_bind, M.sat_pure]
    exact M.sat_mono (inv_append_nb h.inv l) (fun _ _ h' => h.trans h') fun _ h => h

theorem inv_append_ss (h : IInv b c s) (ss : StopSign) :
    M.Sat (append_stopsign ss) s (fun _ s' => IKeep b c s s') (IBad b c) := by
  have hd := h.disk
  have hm := h.mir
  have ht := h.trail
  simp only [append_stopsign, cache_append_stopsign, M.sat_bind, M.sat_get, sat_setCache, M.sat_ite, M.sat_pure,
    flush_if_full_batch, append_entries_without_batching, sat_write_append, sat_write_stopsign, sat_write_promise, sat_write_decided, Mem.append_entries, Mem.set_stopsign]
  refine ⟨fun _ => ?_, fun _ => ?_⟩
  · exact ⟨⟨⟨hm.prom, hm.acc, hm.dec, hm.comp, hm.trim, rfl⟩, h.prom, h.comp,
      List.forall_mem_cons.2 ⟨⟨h.prom, h.comp, hm.trim⟩, ht⟩⟩, rfl, rfl⟩
  · exact ⟨⟨⟨hm.prom, hm.acc, hm.dec, hm.comp, hm.trim, rfl⟩, h.prom, h.comp,
      List.forall_mem_cons.2 ⟨⟨h.prom, h.comp, hm.trim⟩, List.forall_mem_cons.2 ⟨⟨h.prom, h.comp, hm.trim⟩, ht⟩⟩⟩, rfl, rfl⟩

theorem inv_flush_batch (h : IInv b c s) : M.Sat flush_batch s (fun _ s' => IKeep b c s s') (IBad b c) := by
  simp only [flush_batch, M.sat_bind, M.sat_get, sat_setCache]
  exact M.sat_mono (inv_append_nb (inv_batch h _) _) (fun _ _ h' => ⟨h'.inv, h'.prom, h'.acc⟩) fun _ h => h

theorem inv_flush_get (h : IInv b c s) :
    M.Sat flush_batch_and_get_entries s (fun _ s' => IKeep b c s s') (IBad b c) := by
  simp only [flush_batch_and_get_entries, M.sat_bind, M.sat_get, M.sat_ite, sat_setCache]
  exact ⟨fun _ => h.keep, fun _ => M.sat_mono (inv_flush_if_full (inv_batch h _) _)
    (fun _ _ h' => ⟨h'.inv, h'.prom, h'.acc⟩) fun _ h => h⟩

theorem inv_set_promise (h : IInv b c s) (n : Ballot) (hn : b ≤ n) :
    M.Sat (set_promise n) s (fun _ s' => IInv b c s' ∧ s'.cache.promise = n ∧ s'.cache.accepted_round = s.cache.accepted_round) (IBad b c) := by
  have hm := h.mir
  simp only [set_promise, M.sat_bind, M.sat_get, sat_setCache, sat_write_append, sat_write_stopsign, sat_write_promise, sat_write_decided, Mem.set_promise]
  exact ⟨⟨⟨rfl, hm.acc, hm.dec, hm.comp, hm.trim, hm.ss⟩, hn, h.comp,
    List.forall_mem_cons.2 ⟨⟨hn, h.comp, hm.trim⟩, h.trail⟩⟩, trivial, trivial⟩

theorem inv_set_decided (h : IInv b c s) (i : Nat) :
    M.Sat (set_decided_idx i) s (fun _ s' => IKeep b c s s') (IBad b c) := by
  have hm := h.mir
  simp only [set_decided_idx, M.sat_bind, M.sat_get, sat_setCache, sat_write_append, sat_write_stopsign, sat_write_promise, sat_write_decided, Mem.set_decided_idx]
  exact ⟨⟨⟨hm.prom, hm.acc, rfl, hm.comp, hm.trim, hm.ss⟩, h.prom, h.comp,
    List.forall_mem_cons.2 ⟨⟨h.prom, h.comp, hm.trim⟩, h.trail⟩⟩, rfl, rfl⟩

theorem inv_set_stopsign (h : IInv b c s) (ss : Option StopSign) :
    M.Sat (set_stopsign ss) s (fun _ s' => IKeep b c s s') (IBad b c) := by
  have hm := h.mir
  simp only [set_stopsign, M.sat_bind, M.sat_get, M.sat_ofPan, sat_setCache, sat_write_append, sat_write_stopsign, sat_write_promise, sat_write_decided, Mem.set_stopsign, M.sat_pure]
  exact ⟨fun _ _ => ⟨⟨⟨hm.prom, hm.acc, hm.dec, hm.comp, hm.trim, rfl⟩, h.prom, h.comp,
    List.forall_mem_cons.2 ⟨⟨h.prom, h.comp, hm.trim⟩, h.trail⟩⟩, rfl, rfl⟩, fun _ => h.bad⟩

end IStore

/-- Storage after `trim(i)` and `set_compacted_idx(i)`. -/
def Mem.compactTo (m : Mem E S) (i : Nat) : Mem E S :=
  { m with log := m.log.drop (min (i - m.trimmed_idx) m.log.length), trimmed_idx := i, compacted_idx := i }

namespace IStore
variable {b : Ballot} {c : Nat} {s : IStore E S}

/-- What compaction writes to the storage. -/
theorem trim_ops {m m' : Mem E S} {i : Nat} {rest : List (StorageOp E S)}
    (h : m.write_atomically (.trim i :: .setCompactedIdx i :: rest) = some m') :
    m.trimmed_idx ≤ i ∧ (m.compactTo i).write_atomically rest = some m' := by
  simp only [Mem.write_atomically, Mem.apply, Mem.trim, usub, Mem.set_compacted_idx] at h
  by_cases hi : m.trimmed_idx ≤ i
  · simp only [hi, if_true] at h; exact ⟨hi, h⟩
  · simp [hi] at h

theorem inv_try_trim (h : IInv b c s) (i : Nat) :
    M.Sat (try_trim i) s (fun _ s' => IKeep b c s s') (IBad b c) := by
  have hm := h.mir
  simp only [try_trim, M.sat_bind, M.sat_get, M.sat_ofPan]
  refine ⟨fun t _ => ?_, fun _ => h.bad⟩
  cases t with
  | error e => exact h.keep
  | ok k =>
    simp only [M.sat_ite, M.sat_bind, sat_writeOps, sat_setCache, M.sat_pure]
    refine ⟨fun hk => ⟨fun m' hw => ?_, fun _ => h.bad⟩, fun _ => h.keep⟩
    obtain ⟨h1, h2⟩ := trim_ops hw
    simp only [Mem.write_atomically, Option.some.injEq, Mem.compactTo] at h2
    subst h2
    have hc : c ≤ k := by have := h.comp; have := hm.trim; omega
    exact ⟨⟨⟨hm.prom, hm.acc, hm.dec, rfl, rfl, hm.ss⟩, h.prom, hc,
      List.forall_mem_cons.2 ⟨⟨h.prom, hc, rfl⟩, h.trail⟩⟩, rfl, rfl⟩

variable [SnapOps E S]

theorem inv_try_snapshot (h : IInv b c s) (i : Option Nat) :
    M.Sat (try_snapshot i) s (fun _ s' => IKeep b c s s') (IBad b c) := by
  have hm := h.mir
  simp only [try_snapshot, M.sat_bind, M.sat_get, M.sat_ofPan]
  refine ⟨fun t _ => ?_, fun _ => h.bad⟩
  cases t with
  | error e => exact h.keep
  | ok k =>
    simp only [M.sat_ite, M.sat_bind, M.sat_ofPan, M.sat_pure]
    refine ⟨fun hk => ⟨fun r _ => ?_, fun _ => h.bad⟩, fun _ => h.keep⟩
    cases r with
    | error e => exact h.keep
    | ok sn =>
      simp only [M.sat_bind, sat_writeOps, sat_setCache, M.sat_pure]
      refine ⟨fun m' hw => ?_, fun _ => h.bad⟩
      obtain ⟨h1, h2⟩ := trim_ops hw
      simp only [Mem.write_atomically, Mem.apply, Mem.set_snapshot, Option.some.injEq, Mem.compactTo] at h2
      subst h2
      have hc : c ≤ k := by have := h.comp; have := hm.trim; omega
      exact ⟨⟨⟨hm.prom, hm.acc, hm.dec, rfl, rfl, hm.ss⟩, h.prom, hc,
        List.forall_mem_cons.2 ⟨⟨h.prom, hc, rfl⟩, h.trail⟩⟩, rfl, rfl⟩

omit [SnapOps E S] in
/-- The tail of the transaction of `sync_log`. -/
theorem sync_tail {m m' : Mem E S} {k : Nat} {es : List E} {o n : Option StopSign} (ho : m.stopsign = o)
    (h : m.write_atomically (.appendOnPrefix k es :: syncStopsignOps o n) = some m') :
    m.trimmed_idx ≤ k ∧ m' = { m with log := m.log.take (k - m.trimmed_idx) ++ es, stopsign := n } := by
  simp only [Mem.write_atomically, Mem.apply, Mem.append_on_prefix, usub, Mem.append_entries] at h
  by_cases hk : m.trimmed_idx ≤ k
  · refine ⟨hk, ?_⟩
    simp only [hk, if_true] at h
    subst ho
    cases n <;> cases hm : m.stopsign <;> rw [hm] at h <;>
      simp [syncStopsignOps, Mem.write_atomically, Mem.apply, Mem.set_stopsign] at h <;> rw [← h] <;> simp [hm]
  · simp [hk] at h

omit [SnapOps E S] in
theorem base_ops {m m' : Mem E S} {n : Ballot} {d : Nat} {rest : List (StorageOp E S)}
    (h : m.write_atomically (.setAcceptedRound n :: .setDecidedIndex d :: rest) = some m') :
    { m with acc_round := some n, ld := d }.write_atomically rest = some m' := h

theorem inv_sync_log (h : IInv b c s) (n : Ballot) (d : Nat) (ls : Option (LogSync E S)) :
    M.Sat (sync_log n d ls) s (fun _ s' => IInv b c s' ∧ s'.cache.promise = s.cache.promise ∧ s'.cache.accepted_round = n)
      (IBad b c) := by
  have hm := h.mir
  cases ls with
  | none =>
    simp only [sync_log, M.sat_bind, M.sat_get, sat_setCache, sat_writeOps, M.sat_pure]
    refine ⟨fun m' hw => ?_, fun _ => h.bad' _⟩
    have h2 := base_ops hw
    simp only [Mem.write_atomically, Option.some.injEq, Mem.compactTo] at h2
    subst h2
    exact ⟨⟨⟨hm.prom, rfl, rfl, hm.comp, hm.trim, hm.ss⟩, h.prom, h.comp,
      List.forall_mem_cons.2 ⟨⟨h.prom, h.comp, hm.trim⟩, h.trail⟩⟩, trivial, trivial⟩
  | some sync =>
    simp only [sync_log, M.sat_bind, M.sat_get, sat_setCache, M.sat_ofPan, sat_writeOps, M.sat_pure]
    refine ⟨fun ops hops => ⟨fun m' hw => ?_, fun _ => h.bad' _⟩, fun _ => h.bad' _⟩
    simp only [List.cons_append, List.nil_append, List.append_assoc] at hw
    have h2 := base_ops hw
    have hcase : (sync.decided_snapshot = none ∧ ops = []) ∨
        (sync.decided_snapshot.isSome = true ∧ ∃ sn, ops =
          [.trim sync.sync_idx, .setCompactedIdx sync.sync_idx, .setSnapshot (some sn)]) := by
      simp only [syncSnapshotOps] at hops
      split at hops
      · rename_i hs; simp at hops; right; exact ⟨by simp [hs], _, hops.symm⟩
      · rename_i hs
        split at hops
        · simp at hops
        · split at hops
          · simp at hops
          · simp at hops; right; exact ⟨by simp [hs], _, hops.symm⟩
      · rename_i hs; simp at hops; left; exact ⟨hs, hops⟩
    rcases hcase with ⟨hs, rfl⟩ | ⟨hs, sn, rfl⟩
    · simp only [List.nil_append] at h2
      obtain ⟨_, rfl⟩ := sync_tail (by exact hm.ss.symm) h2
      simp only [hs, Option.isSome_none]
      exact ⟨⟨⟨hm.prom, rfl, rfl, hm.comp, hm.trim, rfl⟩, h.prom, h.comp,
        List.forall_mem_cons.2 ⟨⟨h.prom, h.comp, hm.trim⟩, h.trail⟩⟩, trivial, trivial⟩
    · simp only [List.cons_append, List.nil_append] at h2
      obtain ⟨h3, h4⟩ := trim_ops h2
      rw [show ∀ (m : Mem E S) op r, m.write_atomically (op :: r) =
        (match m.apply op with | none => none | some m' => m'.write_atomically r) from fun _ _ _ => rfl] at h4
      simp only [Mem.apply, Mem.set_snapshot, Mem.compactTo] at h4
      obtain ⟨_, rfl⟩ := sync_tail (by exact hm.ss.symm) h4
      have hc : c ≤ sync.sync_idx := by have := h.comp; have := hm.trim; simp only at h3; omega
      simp only [hs]
      exact ⟨⟨⟨hm.prom, rfl, rfl, rfl, rfl, rfl⟩, h.prom, hc,
        List.forall_mem_cons.2 ⟨⟨h.prom, hc, rfl⟩, h.trail⟩⟩, trivial, trivial⟩

end IStore
end Omni
