import Verif.Proof.Sat
import Verif.Proof.SendOnly
import Verif.Spec.Validity
import Verif.Spec.Decided
import Verif.Proof.LifeInv
/-
Provenance: everything a server stores, buffers or sends is made of entries, stop signs and snapshots that satisfy given
predicates, if everything handed to it does.
-/
namespace Omni

variable {E S : Type} [SnapOps E S]

/-- Predicates for entries, stop signs, snapshots (closed under the snapshot operations), the snapshots sent in synchronisation,
compaction requests, compacted index and snapshot of a storage, the own pid, and configuration id, pid, and number
with priority of ballots. -/
structure Prov (E S : Type) [SnapOps E S] where
  okp : NodeId → Prop
  okb : Nat → NodeId → Nat × Nat → Prop
  ent : E → Prop
  stop : StopSign → Prop
  snap : S → Prop
  create : ∀ {es : List E} {x : S}, (∀ e ∈ es, ent e) → SnapOps.create es = some x → snap x
  merge : ∀ {x y z : S}, snap x → snap y → SnapOps.merge E x y = some z → snap z
  snapT : SnapshotType S → Prop
  sent : ∀ {x : S}, SnapOps.use_snapshots E S = true → snap x → snapT (.complete x) ∧ snapT (.delta x)
  got : ∀ {x : S}, snapT (.complete x) ∨ snapT (.delta x) → snap x
  pair : Nat → Option S → Prop
  gotPair : ∀ {x : SnapshotType S}, snapT x → ∀ k y, pair k y
  comp : Compaction → Prop

namespace Prov

variable (P : Prov E S)

/-- No condition on compacted index and snapshot. -/
def pairAny : Prop := ∀ k x, P.pair k x

def bal (b : Ballot) : Prop := b = {} ∨ P.okb b.config_id b.pid (b.n, b.priority)

def balO (b : Option Ballot) : Prop := ∀ x, b = some x → P.bal x

def ents (es : List E) : Prop := ∀ e ∈ es, P.ent e

def stopO (ss : Option StopSign) : Prop := ∀ x, ss = some x → P.stop x

def snapO (x : Option S) : Prop := ∀ y, x = some y → P.snap y

structure mem (m : Mem E S) : Prop where
  log : P.ents m.log
  snap : P.snapO m.snapshot
  stop : P.stopO m.stopsign
  prom : P.balO m.n_prom
  accr : P.balO m.acc_round
  pair : P.pair m.compacted_idx m.snapshot

structure ist (i : IStore E S) : Prop where
  sto : P.mem i.storage
  trail : ∀ m ∈ i.trail, P.mem m
  batch : P.ents i.cache.batched_entries
  stop : P.stopO i.cache.stopsign
  cprom : P.bal i.cache.promise
  cacc : P.bal i.cache.accepted_round

structure sync (l : LogSync E S) : Prop where
  snap : ∀ x, l.decided_snapshot = some x → P.snapT x
  suffix : P.ents l.suffix
  stop : P.stopO l.stopsign

def syncO (l : Option (LogSync E S)) : Prop := ∀ x, l = some x → P.sync x

def msg : PaxosMsg E S → Prop
  | .prepare p => P.bal p.n
  | .promise p => P.syncO p.log_sync
  | .acceptSync a => P.sync a.log_sync ∧ P.bal a.n
  | .acceptDecide a => P.ents a.entries
  | .proposalForward es => P.ents es
  | .acceptStopSign a => P.stop a.ss
  | .forwardStopSign ss => P.stop ss
  | .compaction c => P.comp c
  | _ => True

structure sp (s : SP E S) : Prop where
  ist : P.ist s.ist
  buf : P.ents s.buffered_proposals
  bss : P.stopO s.buffered_stopsign
  out : ∀ m ∈ s.outgoing, P.msg m.msg
  max : P.syncO s.ls.max_promise_sync
  cached : ∀ p, s.cached_promise = some p → P.syncO p.log_sync
  pid : P.okp s.pid
  lead : P.bal s.ls.n_leader

def op : StorageOp E S → Prop
  | .appendEntry e => P.ent e
  | .appendEntries es => P.ents es
  | .appendOnPrefix _ es => P.ents es
  | .setStopsign ss => P.stopO ss
  | .setSnapshot s => P.snapO s ∧ P.pairAny
  | .setCompactedIdx _ => P.pairAny
  | .setPromise b => P.bal b
  | .setAcceptedRound b => P.bal b
  | _ => True

def meta? (md : Option (AcceptedMetaData E)) : Prop := ∀ x, md = some x → P.ents x.entries

def entsO (es : Option (List E)) : Prop := ∀ x, es = some x → P.ents x

variable {P}

theorem ents_nil : P.ents [] := by intro e h; cases h

theorem ents_append {a b : List E} (ha : P.ents a) (hb : P.ents b) : P.ents (a ++ b) := by
  intro e h; rcases List.mem_append.1 h with h | h
  · exact ha e h
  · exact hb e h

theorem ents_take {a : List E} (ha : P.ents a) (k : Nat) : P.ents (a.take k) := fun e h => ha e (List.mem_of_mem_take h)

theorem ents_drop {a : List E} (ha : P.ents a) (k : Nat) : P.ents (a.drop k) := fun e h => ha e (List.mem_of_mem_drop h)

theorem stopO_none : P.stopO none := by intro x h; cases h

theorem stopO_some {ss : StopSign} (h : P.stop ss) : P.stopO (some ss) := by intro x e; cases e; exact h

theorem syncO_none : P.syncO none := by intro x h; cases h

theorem mem_empty (h0 : P.pair 0 none) : P.mem {} := ⟨ents_nil, (by intro x h; cases h), stopO_none, (by intro x h; cases h), (by intro x h; cases h), h0⟩

/-! ### Storage -/

theorem apply {m m' : Mem E S} (hm : P.mem m) {o : StorageOp E S} (ho : P.op o) (h : m.apply o = some m') : P.mem m' := by
  cases o with
  | appendEntry e =>
    cases h; exact ⟨ents_append hm.log (by intro x hx; rw [List.mem_singleton.1 hx]; exact ho), hm.snap, hm.stop, hm.prom, hm.accr, hm.pair⟩
  | appendEntries es => cases h; exact ⟨ents_append hm.log ho, hm.snap, hm.stop, hm.prom, hm.accr, hm.pair⟩
  | appendOnPrefix i es =>
    simp only [Mem.apply, Mem.append_on_prefix] at h
    split at h
    · cases h
    · cases h; exact ⟨ents_append (ents_take hm.log _) ho, hm.snap, hm.stop, hm.prom, hm.accr, hm.pair⟩
  | setPromise b => cases h; exact ⟨hm.log, hm.snap, hm.stop, (by intro x hx; cases hx; exact ho), hm.accr, hm.pair⟩
  | setDecidedIndex b => cases h; exact ⟨hm.log, hm.snap, hm.stop, hm.prom, hm.accr, hm.pair⟩
  | setAcceptedRound b => cases h; exact ⟨hm.log, hm.snap, hm.stop, hm.prom, (by intro x hx; cases hx; exact ho), hm.pair⟩
  | setCompactedIdx b => cases h; exact ⟨hm.log, hm.snap, hm.stop, hm.prom, hm.accr, ho _ _⟩
  | trim i =>
    simp only [Mem.apply, Mem.trim] at h
    split at h
    · cases h
    · cases h; exact ⟨ents_drop hm.log _, hm.snap, hm.stop, hm.prom, hm.accr, hm.pair⟩
  | setStopsign ss => cases h; exact ⟨hm.log, hm.snap, ho, hm.prom, hm.accr, hm.pair⟩
  | setSnapshot s => cases h; exact ⟨hm.log, ho.1, hm.stop, hm.prom, hm.accr, ho.2 _ _⟩

theorem write_atomically {m m' : Mem E S} (hm : P.mem m) {os : List (StorageOp E S)} (ho : ∀ o ∈ os, P.op o)
    (h : m.write_atomically os = some m') : P.mem m' := by
  induction os generalizing m with
  | nil => cases h; exact hm
  | cons o os ih =>
    simp only [Mem.write_atomically] at h
    split at h
    · cases h
    · rename_i m1 h1
      exact ih (apply hm (ho o List.mem_cons_self) h1) (fun x hx => ho x (List.mem_cons_of_mem _ hx)) h

theorem get_entries {m : Mem E S} (hm : P.mem m) {a b : Nat} {es : List E} (h : m.get_entries a b = some es) : P.ents es := by
  simp only [Mem.get_entries] at h
  split at h
  · cases h
    unfold sliceGet; split
    · exact ents_drop (ents_take hm.log _) _
    · exact ents_nil
  · cases h

theorem get_suffix {m : Mem E S} (hm : P.mem m) {a : Nat} {es : List E} (h : m.get_suffix a = some es) : P.ents es := by
  simp only [Mem.get_suffix] at h
  split at h
  · cases h
  · cases h; exact ents_drop hm.log _

theorem create_snapshot {i : IStore E S} (hi : P.ist i) {k : Nat} {x : S} (h : i.create_snapshot k = some (.ok x)) :
    P.snap x := by
  simp only [IStore.create_snapshot] at h
  split at h
  · cases h
  · split at h
    · cases h
    · rename_i es he
      split at h
      · cases h
      · rename_i d hd
        have hd' := P.create (get_entries hi.sto he) hd
        split at h
        · cases h; exact hd'
        · rename_i sn hsn
          split at h
          · cases h
          · rename_i sn' hm
            cases h; exact P.merge (hi.sto.snap _ hsn) hd' hm

theorem expectOk {α : Type} {x : Pan (Except CompactionErr α)} {a : α} (h : IStore.expectOk x = some a) : x = some (.ok a) := by
  unfold IStore.expectOk at h; split at h
  · cases h; rfl
  · cases h

theorem create_diff {i : IStore E S} (hi : P.ist i) (hu : SnapOps.use_snapshots E S = true) {k : Nat}
    {r : Option (SnapshotType S) × Nat} (h : i.create_diff_snapshot k = some r) : ∀ x, r.1 = some x → P.snapT x := by
  simp only [IStore.create_diff_snapshot] at h
  split at h
  · cases h
  · split at h
    · split at h
      · split at h
        · cases h
        · rename_i sn hsn
          cases h; intro x hx; cases hx; exact (P.sent hu (create_snapshot hi (expectOk hsn))).1
      · cases h
        intro x hx
        simp only [Option.map_eq_some_iff] at hx
        obtain ⟨y, hy, rfl⟩ := hx
        exact (P.sent hu (hi.sto.snap y hy)).1
    · split at h
      · cases h
      · rename_i es he
        split at h
        · cases h
        · rename_i d hd
          cases h; intro x hx; cases hx; exact (P.sent hu (P.create (get_entries hi.sto he) hd)).2

theorem syncSnapshotOps {i : IStore E S} (hi : P.ist i) {l : LogSync E S} (hl : P.sync l) {os : List (StorageOp E S)}
    (h : i.syncSnapshotOps l = some os) : ∀ o ∈ os, P.op o := by
  have key : ∀ (k : Nat) (x : S), P.snap x → P.pairAny →
      ∀ o ∈ ([.trim k, .setCompactedIdx k, .setSnapshot (some x)] : List (StorageOp E S)), P.op o := by
    intro k x hx hp o ho
    simp only [List.mem_cons, List.not_mem_nil, or_false] at ho
    rcases ho with rfl | rfl | rfl
    · trivial
    · exact hp
    · exact ⟨by intro y hy; cases hy; exact hx, hp⟩
  simp only [IStore.syncSnapshotOps] at h
  split at h
  · rename_i c hc
    cases h; exact key _ c (P.got (.inl (hl.snap _ hc))) (P.gotPair (hl.snap _ hc))
  · rename_i d hd
    split at h
    · cases h
    · rename_i sn hsn
      split at h
      · cases h
      · rename_i sn' hm
        cases h
        refine key _ sn' (P.merge ?_ (P.got (.inr (hl.snap _ hd))) hm) (P.gotPair (hl.snap _ hd))
        simp only [IStore.create_decided_snapshot] at hsn
        split at hsn
        · cases hsn
        · exact create_snapshot hi (expectOk hsn)
  · cases h; intro o ho; cases ho

theorem syncStopsignOps {old new : Option StopSign} (h : P.stopO new) :
    ∀ o ∈ (IStore.syncStopsignOps old new : List (StorageOp E S)), P.op o := by
  intro o ho
  unfold IStore.syncStopsignOps at ho
  split at ho <;> simp at ho <;> subst ho
  · exact h
  · exact stopO_none

end Prov

/-! ### The internal storage -/

namespace IStore

variable {P : Prov E S} {i : IStore E S}

theorem Pv.write (h : P.ist i) {m : Mem E S} (hm : P.mem m) {cs : List (StorageCall E S)} :
    P.ist { i with storage := m, trail := m :: i.trail, calls := cs } :=
  ⟨hm, fun x hx => (List.mem_cons.1 hx).elim (fun e => e ▸ hm) (h.trail x), h.batch, h.stop, h.cprom, h.cacc⟩

theorem pv_writeOps (h : P.ist i) {os : List (StorageOp E S)} (ho : ∀ o ∈ os, P.op o) :
    M.Sat (writeOps os) i (fun _ j => P.ist j) P.ist := by
  rw [sat_writeOps]
  exact ⟨fun m hm => Pv.write h (Prov.write_atomically h.sto ho hm), fun _ => h⟩

theorem pv_append_nb (h : P.ist i) {es : List E} (he : P.ents es) :
    M.Sat (append_entries_without_batching es) i (fun _ j => P.ist j) P.ist := by
  simp only [append_entries_without_batching, M.sat_bind, M.sat_get, sat_write_append, sat_write_stopsign, sat_write_promise, sat_write_decided, sat_setCache, M.sat_pure]
  have := Pv.write h (cs := []) (m := i.storage.append_entries es) ⟨Prov.ents_append h.sto.log he, h.sto.snap, h.sto.stop, h.sto.prom, h.sto.accr, h.sto.pair⟩
  exact ⟨this.sto, this.trail, this.batch, this.stop, this.cprom, this.cacc⟩

theorem pv_take (h : P.ist i) : M.Sat take_entries_if_batch_is_full i (fun r j => P.ist j ∧ P.entsO r) P.ist := by
  simp only [take_entries_if_batch_is_full, M.sat_bind, M.sat_get, M.sat_ite, sat_setCache, M.sat_pure]
  refine ⟨fun _ => ⟨⟨h.sto, h.trail, Prov.ents_nil, h.stop, h.cprom, h.cacc⟩, ?_⟩, fun _ => ⟨h, ?_⟩⟩
  · intro x hx; cases hx; exact h.batch
  · intro x hx; cases hx

theorem pv_cache_append (h : P.ist i) {es : List E} (he : P.ents es) :
    M.Sat (cache_append_entries es) i (fun r j => P.ist j ∧ P.entsO r) P.ist := by
  simp only [cache_append_entries, M.sat_bind, sat_setCache]
  exact pv_take ⟨h.sto, h.trail, Prov.ents_append h.batch he, h.stop, h.cprom, h.cacc⟩

theorem pv_flush_if (h : P.ist i) {r : Option (List E)} (hr : P.entsO r) :
    M.Sat (flush_if_full_batch r) i (fun md j => P.ist j ∧ P.meta? md) P.ist := by
  cases r with
  | none => exact ⟨h, by intro x hx; cases hx⟩
  | some es =>
    simp only [flush_if_full_batch, M.sat_bind, M.sat_pure]
    exact M.sat_mono (pv_append_nb h (hr es rfl)) (fun _ _ hj => ⟨hj, by intro x hx; cases hx; exact hr es rfl⟩) fun _ h => h

theorem pv_append_entries (h : P.ist i) {es : List E} (he : P.ents es) :
    M.Sat (append_entries_with_batching es) i (fun md j => P.ist j ∧ P.meta? md) P.ist := by
  simp only [append_entries_with_batching, M.sat_bind]
  exact M.sat_mono (pv_cache_append h he) (fun _ _ hj => pv_flush_if hj.1 hj.2) fun _ h => h

theorem pv_append_get (h : P.ist i) {es : List E} (he : P.ents es) :
    M.Sat (append_entries_and_get_accepted_idx es) i (fun _ j => P.ist j) P.ist := by
  simp only [append_entries_and_get_accepted_idx, M.sat_bind]
  refine M.sat_mono (pv_cache_append h he) (fun r j hj => ?_) fun _ h => h
  cases r with
  | none => exact hj.1
  | some es => rw [M.sat_bind]; exact M.sat_mono (pv_append_nb hj.1 (hj.2 es rfl)) (fun _ _ h => h) fun _ h => h

theorem pv_append_ss (h : P.ist i) {ss : StopSign} (hs : P.stop ss) :
    M.Sat (append_stopsign ss) i (fun md j => P.ist j ∧ P.meta? md) P.ist := by
  simp only [append_stopsign, cache_append_stopsign, M.sat_bind, M.sat_get, sat_setCache, M.sat_ite, M.sat_pure, sat_write_append, sat_write_stopsign, sat_write_promise, sat_write_decided]
  have h1 : P.ist { i with cache := { i.cache with stopsign := some ss } } :=
    ⟨h.sto, h.trail, h.batch, Prov.stopO_some hs, h.cprom, h.cacc⟩
  have fin : ∀ (md : Option (AcceptedMetaData E)) (j : IStore E S), P.ist j ∧ P.meta? md →
      P.ist { j with storage := j.storage.set_stopsign (some ss), trail := j.storage.set_stopsign (some ss) :: j.trail,
                     calls := .one (.setStopsign (some ss)) :: j.calls
                     cache := { j.cache with accepted_idx := j.cache.accepted_idx + 1 } } ∧ P.meta? md := by
    intro md j hj
    have := Pv.write hj.1 (cs := []) (m := j.storage.set_stopsign (some ss)) ⟨hj.1.sto.log, hj.1.sto.snap, Prov.stopO_some hs, hj.1.sto.prom, hj.1.sto.accr, hj.1.sto.pair⟩
    exact ⟨⟨this.sto, this.trail, this.batch, this.stop, this.cprom, this.cacc⟩, hj.2⟩
  refine ⟨fun _ => ?_, fun _ => ?_⟩
  · exact M.sat_mono (pv_flush_if h1 (by intro x hx; cases hx)) (fun md j hj => fin md j hj) fun _ h => h
  · refine M.sat_mono (pv_flush_if (i := { i with cache := { i.cache with stopsign := some ss, batched_entries := [] } })
      ⟨h.sto, h.trail, Prov.ents_nil, Prov.stopO_some hs, h.cprom, h.cacc⟩ (r := some i.cache.batched_entries) ?_)
      (fun md j hj => fin md j hj) fun _ h => h
    intro x hx; cases hx; exact h.batch

theorem pv_flush (h : P.ist i) : M.Sat flush_batch i (fun _ j => P.ist j) P.ist := by
  simp only [flush_batch, M.sat_bind, M.sat_get, sat_setCache]
  exact pv_append_nb (i := { i with cache := { i.cache with batched_entries := [] } })
    ⟨h.sto, h.trail, Prov.ents_nil, h.stop, h.cprom, h.cacc⟩ h.batch

theorem pv_flush_get (h : P.ist i) :
    M.Sat flush_batch_and_get_entries i (fun md j => P.ist j ∧ P.meta? md) P.ist := by
  simp only [flush_batch_and_get_entries, M.sat_bind, M.sat_get, M.sat_ite, sat_setCache]
  refine ⟨fun _ => pv_flush_if h (by intro x hx; cases hx), fun _ => ?_⟩
  refine pv_flush_if (i := { i with cache := { i.cache with batched_entries := [] } })
    ⟨h.sto, h.trail, Prov.ents_nil, h.stop, h.cprom, h.cacc⟩ ?_
  intro x hx; cases hx; exact h.batch

theorem pv_sync_log (h : P.ist i) {n : Ballot} (hn : P.bal n) (d : Nat) {l : Option (LogSync E S)} (hl : P.syncO l) :
    M.Sat (sync_log n d l) i (fun _ j => P.ist j) P.ist := by
  have hbase : ∀ o ∈ ([.setAcceptedRound n, .setDecidedIndex d] : List (StorageOp E S)), P.op o := by
    intro o ho; simp only [List.mem_cons, List.not_mem_nil, or_false] at ho; rcases ho with rfl | rfl
    · exact hn
    · trivial
  simp only [sync_log, M.sat_bind, sat_setCache]
  have h1 : P.ist { i with cache := { i.cache with accepted_round := n, decided_idx := d } } :=
    ⟨h.sto, h.trail, h.batch, h.stop, h.cprom, hn⟩
  cases l with
  | none =>
    simp only [M.sat_bind]
    exact M.sat_mono (pv_writeOps h1 hbase) (fun _ _ hj => hj) fun _ h => h
  | some l =>
    have hl := hl l rfl
    simp only [M.sat_bind, M.sat_get, M.sat_ofPan, sat_setCache]
    refine ⟨fun os hos => ?_, fun _ => h1⟩
    refine M.sat_mono (pv_writeOps (P := P) (by exact ⟨h.sto, h.trail, h.batch, hl.stop, h.cprom, hn⟩) ?_) (fun _ _ hj => hj) fun _ h => h
    intro o ho
    simp only [List.mem_append] at ho
    rcases ho with ((ho | ho) | ho) | ho
    · exact hbase o ho
    · exact Prov.syncSnapshotOps h1 hl hos o ho
    · rw [List.mem_singleton.1 ho]; exact hl.suffix
    · exact Prov.syncStopsignOps hl.stop o ho

theorem pv_try_trim (h : P.ist i) (hp : P.pairAny) (k : Nat) : M.Sat (try_trim k) i (fun _ j => P.ist j) P.ist := by
  simp only [try_trim, M.sat_bind, M.sat_get, M.sat_ofPan]
  refine ⟨fun t _ => ?_, fun _ => h⟩
  cases t with
  | error e => exact h
  | ok k =>
    simp only [M.sat_ite, M.sat_bind, sat_setCache, M.sat_pure]
    refine ⟨fun _ => ?_, fun _ => h⟩
    refine M.sat_mono (pv_writeOps h ?_) (fun _ _ hj => ⟨hj.sto, hj.trail, hj.batch, hj.stop, hj.cprom, hj.cacc⟩) fun _ h => h
    intro o ho; simp only [List.mem_cons, List.not_mem_nil, or_false] at ho; rcases ho with rfl | rfl
    · trivial
    · exact hp

theorem pv_try_snapshot (h : P.ist i) (hp : P.pairAny) (k : Option Nat) : M.Sat (try_snapshot k) i (fun _ j => P.ist j) P.ist := by
  simp only [try_snapshot, M.sat_bind, M.sat_get, M.sat_ofPan]
  refine ⟨fun t _ => ?_, fun _ => h⟩
  cases t with
  | error e => exact h
  | ok k =>
    simp only [M.sat_ite, M.sat_bind, M.sat_ofPan, M.sat_pure]
    refine ⟨fun _ => ⟨fun r hr => ?_, fun _ => h⟩, fun _ => h⟩
    cases r with
    | error e => exact h
    | ok x =>
      simp only [M.sat_bind, sat_setCache, M.sat_pure]
      refine M.sat_mono (pv_writeOps h ?_) (fun _ _ hj => ⟨hj.sto, hj.trail, hj.batch, hj.stop, hj.cprom, hj.cacc⟩) fun _ h => h
      intro o ho; simp only [List.mem_cons, List.not_mem_nil, or_false] at ho
      rcases ho with rfl | rfl | rfl
      · trivial
      · exact hp
      · exact ⟨by intro y hy; cases hy; exact Prov.create_snapshot h hr, hp⟩

theorem pv_set_promise (h : P.ist i) {b : Ballot} (hb : P.bal b) : M.Sat (set_promise b) i (fun _ j => P.ist j) P.ist := by
  simp only [set_promise, M.sat_bind, M.sat_get, sat_setCache, sat_write_append, sat_write_stopsign, sat_write_promise, sat_write_decided]
  have := Pv.write h (cs := []) (m := i.storage.set_promise b)
    ⟨h.sto.log, h.sto.snap, h.sto.stop, (by intro x hx; cases hx; exact hb), h.sto.accr, h.sto.pair⟩
  exact ⟨this.sto, this.trail, this.batch, this.stop, hb, this.cacc⟩

theorem pv_set_decided (h : P.ist i) (d : Nat) : M.Sat (set_decided_idx d) i (fun _ j => P.ist j) P.ist := by
  simp only [set_decided_idx, M.sat_bind, M.sat_get, sat_setCache, sat_write_append, sat_write_stopsign, sat_write_promise, sat_write_decided]
  have := Pv.write h (cs := []) (m := i.storage.set_decided_idx d) ⟨h.sto.log, h.sto.snap, h.sto.stop, h.sto.prom, h.sto.accr, h.sto.pair⟩
  exact ⟨this.sto, this.trail, this.batch, this.stop, this.cprom, this.cacc⟩

theorem pv_set_stopsign (h : P.ist i) {ss : Option StopSign} (hs : P.stopO ss) :
    M.Sat (set_stopsign ss) i (fun _ j => P.ist j) P.ist := by
  simp only [set_stopsign, M.sat_bind, M.sat_get, M.sat_ofPan, sat_setCache, sat_write_append, sat_write_stopsign, sat_write_promise, sat_write_decided, M.sat_pure]
  refine ⟨fun a _ => ?_, fun _ => h⟩
  have := Pv.write h (cs := []) (m := i.storage.set_stopsign ss) ⟨h.sto.log, h.sto.snap, hs, h.sto.prom, h.sto.accr, h.sto.pair⟩
  exact ⟨this.sto, this.trail, this.batch, hs, this.cprom, this.cacc⟩

end IStore

/-! ### Sequence Paxos -/

namespace SP

variable {P : Prov E S} {s : SP E S}

/-- Running `m` keeps the provenance, whether it returns or panics. -/
abbrev Keeps (P : Prov E S) {α : Type} (m : M (SP E S) α) (s : SP E S) : Prop := M.Sat m s (fun _ t => P.sp t) P.sp

theorem pv_bind {α β : Type} {m : M (SP E S) α} {f : α → M (SP E S) β} (hm : Keeps P m s)
    (hf : ∀ a t, P.sp t → Keeps P (f a) t) : Keeps P (m >>= f) s := by
  unfold Keeps; rw [M.sat_bind]
  exact M.sat_mono hm (fun a t h => hf a t h) fun _ h => h

theorem pv_store {α : Type} {m : M (IStore E S) α} (h : P.sp s) (hm : M.Sat m s.ist (fun _ i => P.ist i) P.ist) :
    Keeps P (onStore m) s := by
  unfold Keeps; rw [sat_onStore]
  exact M.sat_mono hm (fun _ _ hi => ⟨hi, h.buf, h.bss, h.out, h.max, h.cached, h.pid, h.lead⟩)
    fun _ hi => ⟨hi, h.buf, h.bss, h.out, h.max, h.cached, h.pid, h.lead⟩

theorem pv_storeR {α : Type} {m : M (IStore E S) α} {R : α → Prop} (h : P.sp s)
    (hm : M.Sat m s.ist (fun a i => P.ist i ∧ R a) P.ist) :
    M.Sat (onStore m) s (fun a t => P.sp t ∧ R a) P.sp := by
  rw [sat_onStore]
  exact M.sat_mono hm (fun _ _ hi => ⟨⟨hi.1, h.buf, h.bss, h.out, h.max, h.cached, h.pid, h.lead⟩, hi.2⟩)
    fun _ hi => ⟨hi, h.buf, h.bss, h.out, h.max, h.cached, h.pid, h.lead⟩

theorem pv_forEach {α : Type} {xs : List α} {body : α → M (SP E S) Unit} (h : P.sp s)
    (hb : ∀ x t, P.sp t → Keeps P (body x) t) : Keeps P (M.forEach xs body) s :=
  M.sat_forEach P.sp h fun x _ t ht => hb x t ht

theorem Pv.send (h : P.sp s) (to : NodeId) {m : PaxosMsg E S} (hm : P.msg m) :
    P.sp { s with outgoing := s.outgoing ++ [{ src := s.pid, dst := to, msg := m }] } :=
  ⟨h.ist, h.buf, h.bss, fun x hx => by
    rcases List.mem_append.1 hx with hx | hx
    · exact h.out x hx
    · rw [List.mem_singleton.1 hx]; exact hm, h.max, h.cached, h.pid, h.lead⟩

/-- The parts of the leader state that matter here are the same. -/
def SameL (a b : LeaderState E S) : Prop := a.max_promise_sync = b.max_promise_sync ∧ a.n_leader = b.n_leader

theorem Pv.ls (h : P.sp s) {ls : LeaderState E S} (hl : SameL ls s.ls) :
    P.sp { s with ls := ls } :=
  ⟨h.ist, h.buf, h.bss, h.out, by simpa only [hl.1] using h.max, h.cached, h.pid, by simpa only [hl.2] using h.lead⟩

theorem Pv.role (h : P.sp s) (r : Role) (p : Phase) : P.sp { s with role := r, phase := p } :=
  ⟨h.ist, h.buf, h.bss, h.out, h.max, h.cached, h.pid, h.lead⟩

theorem pv_send (h : P.sp s) (to : NodeId) {m : PaxosMsg E S} (hm : P.msg m) : Keeps P (send to m) s := by
  unfold Keeps; rw [sat_send]; exact Pv.send h to hm

theorem mem_modify {α : Type} {l : List α} {k : Nat} {f : α → α} {x : α} (h : x ∈ l.modify k f) :
    x ∈ l ∨ ∃ y ∈ l, x = f y := by
  induction l generalizing k with
  | nil => simp at h
  | cons a l ih =>
    cases k with
    | zero =>
      simp only [List.modify_zero_cons, List.mem_cons] at h
      rcases h with rfl | h
      · exact .inr ⟨a, List.mem_cons_self, rfl⟩
      · exact .inl (List.mem_cons_of_mem _ h)
    | succ k =>
      simp only [List.modify_succ_cons, List.mem_cons] at h
      rcases h with rfl | h
      · exact .inl List.mem_cons_self
      · rcases ih h with h | ⟨y, hy, e⟩
        · exact .inl (List.mem_cons_of_mem _ h)
        · exact .inr ⟨y, List.mem_cons_of_mem _ hy, e⟩

theorem pv_setMsg (h : P.sp s) (k : Nat) {m : PaxosMsg E S} (hm : P.msg m) : Keeps P (setMsg k m) s := by
  unfold Keeps; rw [sat_setMsg]
  refine ⟨h.ist, h.buf, h.bss, fun x hx => ?_, h.max, h.cached, h.pid, h.lead⟩
  rcases mem_modify hx with hx | ⟨y, _, rfl⟩
  · exact h.out x hx
  · exact hm

theorem pv_onLS (h : P.sp s) {f : LeaderState E S → Pan (LeaderState E S)}
    (hf : ∀ ls', f s.ls = some ls' → SameL ls' s.ls) : Keeps P (onLS f) s := by
  unfold Keeps; rw [sat_onLS]
  exact ⟨fun ls' e => Pv.ls h (hf ls' e), fun _ => h⟩

theorem pv_onLS' {α : Type} (h : P.sp s) {f : LeaderState E S → Pan (LeaderState E S × α)}
    (hf : ∀ r, f s.ls = some r → SameL r.1 s.ls) : Keeps P (onLS' f) s := by
  unfold Keeps; rw [sat_onLS']
  exact ⟨fun r e => Pv.ls h (hf r e), fun _ => h⟩

theorem meta_max {ls ls' : LeaderState E S} {pid : NodeId} {k : Option Nat}
    (h : ls.set_latest_accept_meta pid k = some ls') : SameL ls' ls := by
  rw [LeaderState.set_latest_accept_meta_eq h]; exact ⟨rfl, rfl⟩

theorem next_max {ls : LeaderState E S} {pid : NodeId} {r : LeaderState E S × SeqNum}
    (h : ls.next_seq_num pid = some r) : SameL r.1 ls := by
  rw [LeaderState.next_seq_num_eq h]; exact ⟨rfl, rfl⟩

theorem incr_max {ls ls' : LeaderState E S} {pid : NodeId}
    (h : ls.increment_seq_num_session pid = some ls') : SameL ls' ls := by
  rw [LeaderState.increment_eq h]; exact ⟨rfl, rfl⟩

theorem acc_max {ls ls' : LeaderState E S} {pid : NodeId} {i : Nat}
    (h : ls.set_accepted_idx pid i = some ls') : SameL ls' ls := by
  unfold LeaderState.set_accepted_idx at h; split at h <;> cases h; exact ⟨rfl, rfl⟩

theorem reset_max {ls ls' : LeaderState E S} {pid : NodeId}
    (h : ls.reset_promise pid = some ls') : SameL ls' ls := by
  unfold LeaderState.reset_promise at h; split at h <;> cases h; exact ⟨rfl, rfl⟩

theorem lost_max {ls ls' : LeaderState E S} {pid : NodeId}
    (h : ls.lost_promise pid = some ls') : SameL ls' ls := by
  unfold LeaderState.lost_promise at h; split at h <;> cases h; exact ⟨rfl, rfl⟩

theorem pv_set_promise (h : P.sp s) {p : Promise E S} (hp : P.syncO p.log_sync) (f : NodeId) (ck : Bool) :
    Keeps P (onLS' fun ls => ls.set_promise p f ck) s := by
  unfold Keeps; rw [sat_onLS']
  refine ⟨fun r e => ?_, fun _ => h⟩
  simp only [LeaderState.set_promise, LeaderState.update_max] at e
  split at e
  · cases e
  · cases e
    simp only
    split
    · exact ⟨h.ist, h.buf, h.bss, h.out, hp, h.cached, h.pid, h.lead⟩
    · exact ⟨h.ist, h.buf, h.bss, h.out, h.max, h.cached, h.pid, h.lead⟩

theorem pv_reconnected (h : P.sp s) (pid : NodeId) : Keeps P (reconnected pid) s := by
  simp only [Keeps, reconnected, M.sat_bind, M.sat_get, M.sat_ite, M.sat_pure, M.sat_whenDo, sat_setState, sat_send]
  exact ⟨fun _ => h, fun _ => ⟨fun _ => Pv.send (s := { s with role := .follower, phase := .recover })
    (Pv.role h _ _) pid (m := .prepareReq s.get_promise) trivial,
    fun _ => Pv.send h pid (m := .prepareReq s.get_promise) trivial⟩⟩

theorem pv_forward_proposals (h : P.sp s) {es : List E} (he : P.ents es) : Keeps P (forward_proposals es) s := by
  simp only [Keeps, forward_proposals, M.sat_bind, M.sat_get, M.sat_ite, M.sat_upd, sat_send]
  exact ⟨fun _ => Pv.send h _ he, fun _ => ⟨h.ist, Prov.ents_append h.buf he, h.bss, h.out, h.max, h.cached, h.pid, h.lead⟩⟩

theorem pv_forward_stopsign (h : P.sp s) {ss : StopSign} (hs : P.stop ss) : Keeps P (forward_stopsign ss) s := by
  simp only [Keeps, forward_stopsign, M.sat_bind, M.sat_get, M.sat_ite, M.sat_upd, sat_send, M.sat_pure]
  exact ⟨fun _ => Pv.send h _ hs,
    fun _ => ⟨fun _ => ⟨h.ist, h.buf, Prov.stopO_some hs, h.out, h.max, h.cached, h.pid, h.lead⟩, fun _ => h⟩⟩

theorem pv_create_log_sync (h : P.sp s) {a b : Nat} {l : LogSync E S} (hl : s.create_log_sync a b = some l) : P.sync l := by
  simp only [create_log_sync] at hl
  split at hl
  · rename_i hu
    split at hl
    · cases hl
    · rename_i snap ci hd
      split at hl
      · cases hl
      · rename_i suf hs
        cases hl
        exact ⟨Prov.create_diff h.ist hu.1 hd, Prov.get_suffix h.ist.sto hs, h.ist.stop⟩
  · split at hl
    · cases hl
    · rename_i suf hs
      cases hl
      exact ⟨(by intro x hx; cases hx), Prov.get_suffix h.ist.sto hs, h.ist.stop⟩

theorem pv_trim (h : P.sp s) (i : Option Nat) (hp : P.pairAny) (hc : ∀ k, P.comp (.trim k)) : Keeps P (trim i) s := by
  unfold trim
  refine pv_bind (m := M.get) h fun a t ht => ?_
  simp only [Keeps, M.sat_ite, M.sat_bind, M.sat_ofPan, M.sat_pure]
  refine ⟨fun _ => ⟨fun k _ => ⟨fun _ => ?_, fun _ => ht⟩, fun _ => ht⟩, fun _ => ht⟩
  refine M.sat_mono (pv_store ht (IStore.pv_try_trim ht.ist hp _)) (fun r u hu => ?_) fun _ h => h
  cases r with
  | error e => exact hu
  | ok _ =>
    rw [M.sat_bind]
    exact pv_forEach hu fun x t ht => pv_send ht x (hc _)

theorem pv_snapshot (h : P.sp s) (i : Option Nat) (lo : Bool) (hp : P.pairAny)
    (hc : lo = false → ∀ k, P.comp (.snapshot k)) : Keeps P (snapshot i lo) s := by
  unfold snapshot
  refine pv_bind (m := M.get) h fun a t ht => pv_bind (pv_store ht (IStore.pv_try_snapshot ht.ist hp _)) fun r u hu => ?_
  cases r with
  | error e => exact hu
  | ok _ =>
    simp only [Keeps, M.sat_bind, M.sat_whenDo, M.sat_pure]
    exact ⟨fun hl => pv_forEach hu fun x t ht => pv_send ht x (hc (by simpa using hl) _), fun _ => hu⟩

theorem pv_handle_compaction (h : P.sp s) (hp : P.pairAny) (c : Compaction) : Keeps P (handle_compaction c) s := by
  cases c with
  | trim i => exact pv_bind (pv_store h (IStore.pv_try_trim h.ist hp _)) fun _ _ h => h
  | snapshot i => exact pv_bind (pv_snapshot h i true hp (fun e => by cases e)) fun _ _ h => h

theorem pv_send_prepare (h : P.sp s) (to : NodeId) : Keeps P (send_prepare to) s :=
  by
  simp only [Keeps, send_prepare, M.sat_bind, M.sat_get]; exact pv_send h to h.lead

theorem pv_handle_leader (h : P.sp s) {n : Ballot} (hn : P.bal n) : Keeps P (handle_leader n) s := by
  unfold handle_leader
  refine pv_bind (m := M.get) h fun a t ht => ?_
  simp only [Keeps, M.sat_ite, M.sat_pure, M.sat_bind, M.sat_upd]
  refine ⟨fun _ => ht, fun _ => ⟨fun _ => ?_, fun _ => Pv.role ht _ _⟩⟩
  have h0 : P.sp { t with ls := LeaderState.with n t.ls.max_pid t.ls.quorum } :=
    ⟨ht.ist, ht.buf, ht.bss, ht.out, Prov.syncO_none, ht.cached, ht.pid, hn⟩
  refine M.sat_mono (pv_store h0 (IStore.pv_flush h0.ist)) (fun _ u hu => ?_) fun _ h => h
  refine M.sat_mono (pv_store hu (IStore.pv_set_promise hu.ist hn)) (fun _ v hv => ?_) fun _ h => h
  rw [M.sat_get]
  refine M.sat_mono (pv_set_promise hv (p := _) (by exact Prov.syncO_none) _ _) (fun _ w hw => ?_) fun _ h => h
  rw [sat_setState]
  exact pv_forEach (Pv.role hw _ _) fun x t ht => pv_send ht x hn

theorem pv_handle_preparereq (h : P.sp s) (n : Ballot) (f : NodeId) : Keeps P (handle_preparereq n f) s := by
  unfold handle_preparereq
  refine pv_bind (m := M.get) h fun a t ht => ?_
  simp only [Keeps, M.sat_ite, M.sat_pure]
  refine ⟨fun _ => ?_, fun _ => ht⟩
  exact pv_bind (pv_onLS ht fun _ => reset_max) fun _ _ ht => pv_bind (pv_onLS ht fun _ => meta_max) fun _ _ ht =>
    pv_send_prepare ht f

theorem pv_latest (h : P.sp s) {to : NodeId} {k : Nat} {a : AcceptDecide E}
    (he : s.get_latest_accdec to = some (some (k, a))) : P.ents a.entries := by
  simp only [get_latest_accdec] at he
  split at he
  · cases he
  · cases he
  · split at he
    · split at he
      · cases he
      · rename_i m hm
        split at he
        · rename_i a' ha
          cases he
          have := h.out m (List.mem_of_getElem? hm)
          rw [ha] at this; exact this
        · cases he
    · cases he

theorem pv_send_acceptdecide_to (h : P.sp s) {es : List E} (he : P.ents es) (pid : NodeId) :
    Keeps P (send_acceptdecide_to es pid) s := by
  simp only [Keeps, send_acceptdecide_to, M.sat_bind, M.sat_get, M.sat_ofPan]
  refine ⟨fun r hr => ?_, fun _ => h⟩
  match r with
  | some (idx, acc) => exact pv_setMsg h idx (Prov.ents_append (pv_latest h hr) he)
  | none =>
    exact pv_bind (pv_onLS h fun _ => meta_max) fun _ _ ht => pv_bind (pv_onLS' ht fun _ => next_max) fun _ _ ht =>
      pv_send ht pid he

theorem pv_send_acceptdecide (h : P.sp s) {es : List E} (he : P.ents es) : Keeps P (send_acceptdecide es) s :=
  pv_bind (m := M.get) h fun _ _ ht => pv_forEach ht fun x _ ht => pv_send_acceptdecide_to ht he x

theorem pv_accepted_leader (h : P.sp s) {md : Option (AcceptedMetaData E)} (hm : P.meta? md) :
    Keeps P (accepted_leader md) s := by
  cases md with
  | none => exact h
  | some md =>
    exact pv_bind (m := M.get) h fun _ _ ht => pv_bind (pv_onLS ht fun _ => acc_max) fun _ _ ht =>
      pv_send_acceptdecide ht (hm md rfl)

theorem pv_accept_entries_leader (h : P.sp s) {es : List E} (he : P.ents es) : Keeps P (accept_entries_leader es) s := by
  unfold accept_entries_leader Keeps
  rw [M.sat_bind]
  exact M.sat_mono (pv_storeR h (IStore.pv_append_entries h.ist he)) (fun _ _ ht => pv_accepted_leader ht.1 ht.2) fun _ h => h

theorem pv_seq (h : P.sp s) (to : NodeId) (re : Bool) : Keeps P (seqNumFor to re) s := by
  unfold seqNumFor
  split
  · refine pv_onLS' h fun r e => ?_
    simp only [Option.map_eq_some_iff] at e
    obtain ⟨q, _, rfl⟩ := e; exact ⟨rfl, rfl⟩
  · exact pv_onLS' h fun _ => next_max

theorem pv_send_accept_stopsign (h : P.sp s) (to : NodeId) {ss : StopSign} (hs : P.stop ss) (re : Bool) :
    Keeps P (send_accept_stopsign to ss re) s :=
  pv_bind (pv_seq h to re) fun _ _ ht => pv_bind (m := M.get) ht fun _ _ ht => pv_send ht to hs

theorem pv_send_decide (h : P.sp s) (to : NodeId) (d : Nat) (re : Bool) : Keeps P (send_decide to d re) s :=
  pv_bind (pv_seq h to re) fun _ _ ht => pv_bind (m := M.get) ht fun _ _ ht => pv_send ht to trivial

theorem pv_accept_stopsign_leader (h : P.sp s) {ss : StopSign} (hs : P.stop ss) : Keeps P (accept_stopsign_leader ss) s := by
  unfold accept_stopsign_leader Keeps
  rw [M.sat_bind]
  refine M.sat_mono (pv_storeR h (IStore.pv_append_ss h.ist hs)) (fun md t ht => ?_) fun _ h => h
  refine pv_bind ?_ fun _ u hu => pv_bind (m := M.get) hu fun _ _ hu => pv_bind (pv_onLS hu fun _ => acc_max) fun _ _ hu =>
    pv_forEach hu fun x _ ht => pv_send_accept_stopsign ht x hs false
  cases md with
  | none => exact ht.1
  | some md => exact pv_send_acceptdecide ht.1 (ht.2 md rfl)

theorem pv_append_buffered (h : P.sp s) (i : Nat) : Keeps P (append_buffered i) s := by
  unfold append_buffered
  refine pv_bind (m := M.get) h fun a t ht => ?_
  simp only [Keeps, M.sat_ite, M.sat_pure]
  refine ⟨fun _ => ht, fun _ => pv_bind ?_ fun j u hu => ?_⟩
  · simp only [Keeps, append_buffered_proposals, M.sat_bind, M.sat_get, M.sat_ite, M.sat_pure, M.sat_upd]
    refine ⟨fun _ => ht, fun _ => ?_⟩
    have h0 : P.sp { t with buffered_proposals := [] } := ⟨ht.ist, Prov.ents_nil, ht.bss, ht.out, ht.max, ht.cached, ht.pid, ht.lead⟩
    exact pv_store h0 (IStore.pv_append_nb h0.ist ht.buf)
  · simp only [Keeps, append_buffered_stopsign, M.sat_bind, M.sat_get]
    cases hb : u.buffered_stopsign with
    | none => exact hu
    | some ss =>
      simp only [M.sat_bind, M.sat_upd, M.sat_get, M.sat_pure]
      have h0 : P.sp { u with buffered_stopsign := none } := ⟨hu.ist, hu.buf, Prov.stopO_none, hu.out, hu.max, hu.cached, hu.pid, hu.lead⟩
      exact M.sat_mono (pv_storeR h0 (IStore.pv_append_ss h0.ist (hu.bss ss hb))) (fun _ _ h => h.1) fun _ h => h

theorem pv_send_accsync (h : P.sp s) (to : NodeId) : Keeps P (send_accsync to) s := by
  simp only [Keeps, send_accsync, M.sat_bind, M.sat_get, M.sat_ofPan]
  refine ⟨fun r _ => ⟨fun l hl => ?_, fun _ => h⟩, fun _ => h⟩
  have hl := pv_create_log_sync h hl
  refine M.sat_mono (pv_onLS h fun _ => incr_max) (fun _ t ht => ?_) fun _ h => h
  exact M.sat_mono (pv_onLS' ht fun _ => next_max) (fun _ u hu => pv_send hu to ⟨hl, h.lead⟩) fun _ h => h

theorem pv_handle_majority (h : P.sp s) : Keeps P handle_majority_promises s := by
  simp only [Keeps, handle_majority_promises, M.sat_bind, M.sat_get, M.sat_upd]
  have h0 : P.sp { s with ls := { s.ls with max_promise_sync := none } } :=
    ⟨h.ist, h.buf, h.bss, h.out, Prov.syncO_none, h.cached, h.pid, h.lead⟩
  refine M.sat_mono (pv_store h0 (IStore.pv_sync_log h0.ist h.lead _ h.max)) (fun a t ht => ?_) fun _ h => h
  refine M.sat_mono (pv_append_buffered ht a) (fun a u hu => ?_) fun _ h => h
  rw [sat_setState]
  refine M.sat_mono (pv_onLS (Pv.role hu _ _) fun _ => acc_max) (fun _ v hv => ?_) fun _ h => h
  exact pv_forEach hv fun x _ ht => pv_send_accsync ht x

theorem pv_handle_promise (h : P.sp s) {p : Promise E S} (hp : P.syncO p.log_sync) (f : NodeId) :
    Keeps P (handle_promise p f) s := by
  simp only [Keeps, handle_promise, M.sat_bind, M.sat_get]
  split
  · simp only [handle_promise_prepare, M.sat_bind, M.sat_get, M.sat_ite, M.sat_pure]
    refine ⟨fun _ => ?_, fun _ => h⟩
    exact M.sat_mono (pv_set_promise h hp f true) (fun r t ht => ⟨fun _ => pv_handle_majority ht, fun _ => ht⟩) fun _ h => h
  · simp only [handle_promise_accept, M.sat_bind, M.sat_get, M.sat_ite, M.sat_pure]
    refine ⟨fun _ => ?_, fun _ => h⟩
    exact M.sat_mono (pv_set_promise h hp f false) (fun r t ht => pv_send_accsync ht f) fun _ h => h
  · exact h

theorem pv_announce (h : P.sp s) (d : Nat) (pid : NodeId) : Keeps P (announce_decided d pid) s := by
  simp only [Keeps, announce_decided, M.sat_bind, M.sat_get, M.sat_ofPan]
  refine ⟨fun r hr => ?_, fun _ => h⟩
  match r with
  | some (idx, acc) => exact pv_setMsg h idx (show P.ents acc.entries from pv_latest h hr)
  | none => exact pv_send_decide h pid d false

theorem pv_handle_accepted (h : P.sp s) (a : Accepted) (f : NodeId) : Keeps P (handle_accepted a f) s := by
  simp only [Keeps, handle_accepted, M.sat_bind, M.sat_get, M.sat_ite, M.sat_pure]
  refine ⟨fun _ => ?_, fun _ => h⟩
  refine M.sat_mono (pv_onLS h fun _ => acc_max) (fun _ t ht => ⟨fun _ => ?_, fun _ => ht⟩) fun _ h => h
  exact M.sat_mono (pv_store ht (IStore.pv_set_decided ht.ist _))
    (fun _ u hu => pv_forEach hu fun x _ ht => pv_announce ht _ x) fun _ h => h

theorem pv_handle_notaccepted (h : P.sp s) (n : Ballot) (f : NodeId) : Keeps P (handle_notaccepted n f) s := by
  simp only [Keeps, handle_notaccepted, M.sat_bind, M.sat_get, M.sat_ite, M.sat_pure]
  exact ⟨fun _ => pv_onLS h fun _ => lost_max, fun _ => h⟩

theorem pv_handle_forwarded_proposal (h : P.sp s) {es : List E} (he : P.ents es) :
    Keeps P (handle_forwarded_proposal es) s := by
  simp only [Keeps, handle_forwarded_proposal, M.sat_bind, M.sat_get, M.sat_ite, M.sat_pure]
  refine ⟨fun _ => h, fun _ => ?_⟩
  split
  · exact ⟨h.ist, Prov.ents_append h.buf he, h.bss, h.out, h.max, h.cached, h.pid, h.lead⟩
  · exact pv_accept_entries_leader h he
  · exact pv_forward_proposals h he

theorem pv_handle_forwarded_stopsign (h : P.sp s) {ss : StopSign} (hs : P.stop ss) :
    Keeps P (handle_forwarded_stopsign ss) s := by
  simp only [Keeps, handle_forwarded_stopsign, M.sat_bind, M.sat_get, M.sat_ite, M.sat_pure]
  refine ⟨fun _ => h, fun _ => ?_⟩
  split
  · exact ⟨h.ist, h.buf, Prov.stopO_some hs, h.out, h.max, h.cached, h.pid, h.lead⟩
  · exact pv_accept_stopsign_leader h hs
  · exact pv_forward_stopsign h hs

theorem pv_handle_prepare (h : P.sp s) {p : Prepare} (hp : P.bal p.n) (f : NodeId) : Keeps P (handle_prepare p f) s := by
  simp only [Keeps, handle_prepare, M.sat_bind, M.sat_get, M.sat_ite, M.sat_pure, M.sat_upd, M.sat_ofPan, sat_send]
  refine ⟨fun _ => ?_, fun _ => h⟩
  refine M.sat_mono (pv_store h (IStore.pv_flush h.ist)) (fun _ t ht => ?_) fun _ h => h
  refine M.sat_mono (pv_store ht (IStore.pv_set_promise ht.ist hp)) (fun _ u hu => ?_) fun _ h => h
  have h0 : P.sp { u with role := .follower, phase := .prepare, current_seq_num := {} } :=
    ⟨hu.ist, hu.buf, hu.bss, hu.out, hu.max, hu.cached, hu.pid, hu.lead⟩
  refine ⟨fun l hl => ?_, fun _ => h0⟩
  have hl' : P.syncO l := by
    simp only [promise_log_sync] at hl
    split at hl
    · obtain ⟨x, hx, rfl⟩ := Option.map_eq_some_iff.1 hl
      intro y hy; cases hy; exact pv_create_log_sync h0 hx
    · split at hl
      · obtain ⟨x, hx, rfl⟩ := Option.map_eq_some_iff.1 hl
        intro y hy; cases hy; exact pv_create_log_sync h0 hx
      · cases hl; exact Prov.syncO_none
  exact Pv.send (s := { u with
      role := .follower, phase := .prepare, current_seq_num := {}
      cached_promise := some { n := p.n, n_accepted := u.ist.cache.accepted_round, decided_idx := u.ist.cache.decided_idx,
                               accepted_idx := u.ist.cache.accepted_idx, log_sync := l } })
    ⟨hu.ist, hu.buf, hu.bss, hu.out, hu.max, (by intro q hq; cases hq; exact hl'), hu.pid, hu.lead⟩ f hl'

theorem pv_check_valid_ballot (h : P.sp s) (n : Ballot) : Keeps P (check_valid_ballot n) s := by
  simp only [Keeps, check_valid_ballot, M.sat_bind, M.sat_get]
  split
  · exact h
  · exact pv_bind (pv_send h _ trivial) fun _ _ ht => ht
  · exact pv_bind (pv_reconnected h _) fun _ _ ht => ht

theorem pv_forward_buffered (h : P.sp s) : Keeps P forward_buffered_proposals s := by
  simp only [Keeps, forward_buffered_proposals, M.sat_bind, M.sat_get, M.sat_upd, M.sat_ite, M.sat_pure]
  have h0 : P.sp { s with buffered_proposals := [] } := ⟨h.ist, Prov.ents_nil, h.bss, h.out, h.max, h.cached, h.pid, h.lead⟩
  exact ⟨fun _ => h0, fun _ => pv_forward_proposals h0 h.buf⟩

theorem pv_handle_acceptsync (h : P.sp s) {a : AcceptSync E S} (ha : P.sync a.log_sync) (hb : P.bal a.n) (f : NodeId) :
    Keeps P (handle_acceptsync a f) s := by
  unfold handle_acceptsync
  refine pv_bind (pv_check_valid_ballot h a.n) fun ok t ht => ?_
  simp only [Keeps, M.sat_bind, M.sat_get, M.sat_ite, M.sat_pure, M.sat_upd, M.sat_whenDo, sat_setState, sat_send]
  refine ⟨fun _ => ?_, fun _ => ht⟩
  have h0 : P.sp { t with cached_promise := none } :=
    ⟨ht.ist, ht.buf, ht.bss, ht.out, ht.max, (by intro q hq; cases hq), ht.pid, ht.lead⟩
  refine M.sat_mono (pv_store h0 (IStore.pv_sync_log h0.ist hb _ (by intro x hx; cases hx; exact ha)))
    (fun k u hu => ?_) fun _ h => h
  have fin : ∀ v : SP E S, P.sp v → P.sp { v with
      role := .follower, phase := .accept, current_seq_num := a.seq_num
      latest_accepted_meta := some (a.n, v.outgoing.length)
      outgoing := v.outgoing ++ [{ src := v.pid, dst := f, msg := .accepted { n := a.n, accepted_idx := k } }] } := by
    intro v hv
    have := Pv.send hv f (m := .accepted { n := a.n, accepted_idx := k }) trivial
    exact ⟨this.ist, this.buf, this.bss, this.out, this.max, this.cached, this.pid, this.lead⟩
  exact ⟨fun _ => M.sat_mono (pv_forward_buffered hu) (fun _ v hv => fin v hv) fun _ h => h, fun _ => fin u hu⟩

theorem pv_accept_guard (h : P.sp s) (n : Ballot) (q : SeqNum) (any : Bool) : Keeps P (accept_guard n q any) s := by
  unfold accept_guard
  refine pv_bind (pv_check_valid_ballot h n) fun ok t ht => ?_
  simp only [Keeps, M.sat_bind, M.sat_get, M.sat_ite, M.sat_pure, handle_sequence_num]
  refine ⟨fun _ => ?_, fun _ => ht⟩
  split
  · exact ⟨ht.ist, ht.buf, ht.bss, ht.out, ht.max, ht.cached, ht.pid, ht.lead⟩
  · rw [M.sat_bind]; exact pv_reconnected ht _
  · exact ht

theorem pv_reply_accepted (h : P.sp s) (n : Ballot) (i : Nat) : Keeps P (reply_accepted n i) s := by
  simp only [Keeps, reply_accepted, M.sat_bind, M.sat_get, M.sat_ofPan]
  refine ⟨fun r _ => ?_, fun _ => h⟩
  match r with
  | some (idx, a) => exact pv_setMsg h idx trivial
  | none =>
    have := Pv.send h n.pid (m := .accepted { n, accepted_idx := i }) trivial
    exact ⟨this.ist, this.buf, this.bss, this.out, this.max, this.cached, this.pid, this.lead⟩

theorem pv_reply_opt (h : P.sp s) (n : Ballot) (i : Option Nat) : Keeps P (reply_opt n i) s := by
  cases i with
  | none => exact h
  | some i => exact pv_reply_accepted h n i

theorem pv_update_decided (h : P.sp s) (d : Nat) : Keeps P (update_decided_idx_and_get_accepted_idx d) s := by
  simp only [Keeps, update_decided_idx_and_get_accepted_idx, M.sat_bind, M.sat_get, M.sat_ite, M.sat_pure]
  refine ⟨fun _ => h, fun _ => ⟨fun _ => ?_, fun _ => pv_store h (IStore.pv_set_decided h.ist _)⟩⟩
  exact M.sat_mono (pv_store h (IStore.pv_flush h.ist))
    (fun _ _ ht => pv_store ht (IStore.pv_set_decided ht.ist _)) fun _ h => h

theorem pv_handle_acceptdecide (h : P.sp s) {a : AcceptDecide E} (ha : P.ents a.entries) :
    Keeps P (handle_acceptdecide a) s := by
  unfold handle_acceptdecide
  refine pv_bind (pv_accept_guard h _ _ _) fun ok t ht => ?_
  rw [Keeps, M.sat_ite]
  refine ⟨fun _ => ?_, fun _ => ht⟩
  exact pv_bind (pv_store ht (IStore.pv_append_get ht.ist ha)) fun _ _ ht =>
    pv_bind (pv_update_decided ht _) fun _ _ ht => pv_reply_opt ht _ _

theorem pv_handle_accept_stopsign (h : P.sp s) {a : AcceptStopSign} (ha : P.stop a.ss) :
    Keeps P (handle_accept_stopsign a) s := by
  unfold handle_accept_stopsign
  refine pv_bind (pv_accept_guard h _ _ _) fun ok t ht => ?_
  rw [Keeps, M.sat_ite]
  refine ⟨fun _ => ?_, fun _ => ht⟩
  exact pv_bind (pv_store ht (IStore.pv_flush ht.ist)) fun _ _ ht =>
    pv_bind (pv_store ht (IStore.pv_set_stopsign ht.ist (Prov.stopO_some ha))) fun _ _ ht => pv_reply_accepted ht _ _

theorem pv_handle_decide (h : P.sp s) (d : Decide) : Keeps P (handle_decide d) s := by
  unfold handle_decide
  refine pv_bind (pv_accept_guard h _ _ _) fun ok t ht => ?_
  rw [Keeps, M.sat_ite]
  exact ⟨fun _ => pv_bind (pv_update_decided ht _) fun _ _ ht => pv_reply_opt ht _ _, fun _ => ht⟩

theorem pv_resend_prepare (h : P.sp s) : Keeps P resend_prepare s := by
  simp only [Keeps, resend_prepare, M.sat_bind, M.sat_get, M.sat_ofPan]
  exact ⟨fun r _ => pv_forEach h fun x _ ht => pv_send_prepare ht x, fun _ => h⟩

theorem pv_resend_stopsign (h : P.sp s) {ss : StopSign} (hs : P.stop ss) (f : NodeId) : Keeps P (resend_stopsign ss f) s := by
  simp only [Keeps, resend_stopsign, M.sat_bind, M.sat_get, M.sat_ite, M.sat_ofPan, M.sat_pure]
  exact ⟨fun _ => pv_send_decide h _ _ _,
    fun _ => ⟨fun a _ => ⟨fun _ => pv_send_accept_stopsign h _ hs _, fun _ => h⟩, fun _ => h⟩⟩

theorem pv_resend (h : P.sp s) : Keeps P resend_message_timeout s := by
  have hall : ∀ t : SP E S, P.sp t → Keeps P send_preparereq_to_all_peers t := fun t ht =>
    pv_bind (m := M.get) ht fun _ _ ht => pv_forEach ht fun x _ ht => pv_send ht x trivial
  simp only [Keeps, resend_message_timeout, M.sat_bind, M.sat_get]
  split
  · simp only [resend_messages_leader, M.sat_bind, M.sat_get]
    split
    · exact pv_resend_prepare h
    · refine pv_bind ?_ fun _ _ ht => pv_resend_prepare ht
      simp only [Keeps, resend_stopsigns, M.sat_bind, M.sat_get]
      cases hs : s.ist.cache.stopsign with
      | none => exact h
      | some ss => exact pv_forEach h fun x _ ht => pv_resend_stopsign ht (h.ist.stop ss hs) x
    · exact h
    · exact h
  · simp only [resend_messages_follower, M.sat_bind, M.sat_get]
    split
    · split
      · rename_i p hp
        exact pv_send h _ (h.cached p hp)
      · simp only [M.sat_bind, sat_setState]
        exact hall _ (Pv.role h _ _)
    · exact hall _ h
    · exact h
    · exact h

theorem pv_flush_timeout (h : P.sp s) : Keeps P flush_batch_timeout s := by
  simp only [Keeps, flush_batch_timeout, M.sat_bind, M.sat_get]
  split
  · simp only [flush_batch_leader, M.sat_bind]
    exact M.sat_mono (pv_storeR h (IStore.pv_flush_get h.ist)) (fun _ _ ht => pv_accepted_leader ht.1 ht.2) fun _ h => h
  · simp only [flush_batch_follower, M.sat_bind, M.sat_get]
    refine M.sat_mono (pv_store h (IStore.pv_flush h.ist)) (fun k t ht => ?_) fun _ h => h
    simp only [M.sat_ite, M.sat_pure]
    exact ⟨fun _ => pv_reply_accepted ht _ _, fun _ => ht⟩
  · exact h

theorem pv_handle (h : P.sp s) {m : PaxosMessage E S} (hm : P.msg m.msg) (hp : ∀ c, m.msg = .compaction c → P.pairAny) :
    Keeps P (handle m) s := by
  unfold handle
  split <;> rename_i heq <;> rw [heq] at hm
  · exact pv_handle_preparereq h _ _
  · exact pv_handle_prepare h hm _
  · exact pv_handle_promise h hm _
  · exact pv_handle_acceptsync h hm.1 hm.2 _
  · exact pv_handle_acceptdecide h hm
  · exact pv_handle_notaccepted h _ _
  · exact pv_handle_accepted h _ _
  · exact pv_handle_decide h _
  · exact pv_handle_forwarded_proposal h hm
  · exact pv_handle_compaction h (hp _ heq) _
  · exact pv_handle_accept_stopsign h hm
  · exact pv_handle_forwarded_stopsign h hm

/-- The entry has to satisfy the predicate only if the call is not refused. -/
theorem pv_append (h : P.sp s) {e : E} (he : s.accepted_reconfiguration = false → P.ent e) : Keeps P (append e) s := by
  simp only [Keeps, append, M.sat_bind, M.sat_get, M.sat_ite, M.sat_pure]
  refine ⟨fun _ => h, fun hf => ?_⟩
  have he' : P.ents [e] := by intro x hx; rw [List.mem_singleton.1 hx]; exact he (by simpa using hf)
  simp only [propose_entry, M.sat_bind, M.sat_get]
  split
  · exact ⟨h.ist, Prov.ents_append h.buf he', h.bss, h.out, h.max, h.cached, h.pid, h.lead⟩
  · exact pv_accept_entries_leader h he'
  · exact pv_forward_proposals h he'

theorem pv_reconfigure (h : P.sp s) (c : ClusterConfig) (md : Option (List Nat))
    (hs : s.accepted_reconfiguration = false → P.stop { next_config := c, metadata := md }) :
    Keeps P (reconfigure c md) s := by
  simp only [Keeps, reconfigure, M.sat_bind, M.sat_get, M.sat_ite, M.sat_pure]
  refine ⟨fun _ => h, fun hf => ?_⟩
  have hs := hs (by simpa using hf)
  simp only [propose_stopsign, M.sat_bind, M.sat_get]
  split
  · exact ⟨h.ist, h.buf, Prov.stopO_some hs, h.out, h.max, h.cached, h.pid, h.lead⟩
  · exact pv_accept_stopsign_leader h hs
  · exact pv_forward_stopsign h hs

end SP

/-! ### Leader election -/

namespace Prov

variable (P : Prov E S)

def ble (b : BLE) : Prop := ∃ n, P.okb b.current_ballot.config_id b.current_ballot.pid n

variable {P} {b : BLE}

theorem ble_happy (h : P.ble b) (r : Role) (p : Phase) : P.ble (b.update_happiness r p) := h

theorem ble_leader (h : P.ble b) : P.ble b.update_leader := by
  unfold BLE.update_leader
  split
  · split <;> exact h
  · exact h

theorem ble_takeover (h : P.ble b) : P.ble b.check_takeover := by
  unfold BLE.check_takeover
  split
  · exact h
  · split <;> exact h

theorem ble_sync (h : P.ble b) {n : Ballot} (hn : P.bal n) : P.ble (b.sync_with_promise n) := by
  unfold BLE.sync_with_promise
  split
  · rename_i hlt
    unfold ble; simp only
    split
    · rcases hn with rfl | hn
      · exact absurd (Ballot.default_le b.leader) ((Ballot.not_le ..).2 hlt)
      · exact ⟨_, hn⟩
    · exact h
  · exact h

theorem ble_timeout (h : P.ble b) (r : Role) (p : Phase) {n : Ballot} (hn : P.bal n) :
    P.ble (b.hb_timeout r p n).2 ∧ ∀ x, (b.hb_timeout r p n).1 = some x → ∃ n, P.okb x.config_id x.pid n := by
  have h1 : P.ble (b.hb_timeout r p n).2 :=
    ble_sync (b := ((b.update_leader.update_happiness r p).check_takeover).new_hb_round) (ble_takeover (ble_leader h)) hn
  refine ⟨h1, fun x hx => ?_⟩
  have : x = (b.hb_timeout r p n).2.current_ballot := by
    simp only [BLE.hb_timeout] at hx ⊢
    split at hx
    · exact (Option.some.inj hx).symm
    · cases hx
  rw [this]; exact h1

theorem ble_handle (h : P.ble b) (m : BLEMessage) : P.ble (b.handle m) := by
  unfold BLE.handle
  split
  · exact h
  · unfold BLE.handle_reply; split <;> exact h

end Prov

/-! ### The server -/

namespace Prov

variable (P : Prov E S)

def message : Message E S → Prop
  | .paxos m => P.msg m.msg
  | .ble _ => True

/-- What the call hands to the server satisfies the predicates, unless the call is refused. -/
def call (op : OP E S) : Call E S → Prop
  | .append e => op.sp.accepted_reconfiguration = false → P.ent e
  | .reconfigure c md => c.validate = .ok () → op.sp.accepted_reconfiguration = false →
      P.stop { next_config := c, metadata := md }
  | .tick => ∀ b, (op.ble.hb_timeout op.sp.role op.sp.phase op.sp.get_promise).1 = some b →
      (∃ n, P.okb b.config_id b.pid n) → P.okb b.config_id b.pid (b.n, b.priority)
  | .tryBecomeLeader => ∀ c p q, (∃ n, P.okb c p n) → P.okb c p (op.sp.get_promise.n + 1, q)
  | .handleIncoming m => P.message m ∧ ∀ x c, m = .paxos x → x.msg = .compaction c → P.pairAny
  | .trim _ => P.pairAny ∧ ∀ k, P.comp (.trim k)
  | .snapshot _ lo => P.pairAny ∧ (lo = false → ∀ k, P.comp (.snapshot k))
  | _ => True

/-- Sequence Paxos and leader election. -/
structure srv (op : OP E S) : Prop where
  sp : P.sp op.sp
  ble : P.ble op.ble

def server : Server E S → Prop
  | .up op => P.srv op
  | .down d => P.mem d

variable {P}

/-- A call that only concerns Sequence Paxos. -/
theorem run_sp {α : Type} {op : OP E S} {m : M (SP E S) α} (h : P.srv op) (hm : SP.Keeps P m op.sp) :
    M.Sat (OP.onSP m) op (fun _ t => P.srv t) P.srv := by
  rw [OP.sat_onSP]
  exact M.sat_mono hm (fun _ _ ht => ⟨ht, h.ble⟩) fun _ ht => ⟨ht, h.ble⟩

theorem run {op : OP E S} {c : Call E S} (h : P.srv op) (hc : P.call op c) :
    M.Sat c.run op (fun _ t => P.srv t) P.srv := by
  cases c with
  | append e => simp only [Call.run, OP.append, M.sat_bind, M.sat_pure]; exact run_sp h (SP.pv_append h.sp hc)
  | reconfigure cc md =>
    simp only [Call.run, OP.reconfigure, M.sat_bind, M.sat_pure]
    split
    · exact h
    · rename_i hv
      exact run_sp h (SP.pv_reconfigure h.sp cc md (hc hv))
  | tick =>
    have hel : M.Sat OP.election_timeout { op with election_clock := op.election_clock.tick_and_check_timeout.2 }
        (fun _ t => P.srv t) P.srv := by
      simp only [OP.election_timeout, M.sat_bind, M.sat_get, M.sat_upd]
      have hb := ble_timeout h.ble op.sp.role op.sp.phase (n := op.sp.get_promise) h.sp.ist.cprom
      split
      · rename_i x hx
        exact run_sp (op := { op with
            election_clock := op.election_clock.tick_and_check_timeout.2
            ble := (op.ble.hb_timeout op.sp.role op.sp.phase op.sp.get_promise).2 }) ⟨h.sp, hb.1⟩
          (SP.pv_handle_leader h.sp (.inr (hc x hx (hb.2 x hx))))
      · exact ⟨h.sp, hb.1⟩
    simp only [Call.run, OP.tick, M.sat_bind, M.sat_get, M.sat_upd]
    have h1 : M.Sat (M.whenDo (op.election_clock.tick_and_check_timeout.1 = true) OP.election_timeout)
        { op with election_clock := op.election_clock.tick_and_check_timeout.2 }
        (fun _ t => P.srv t) P.srv := by
      rw [M.sat_whenDo]; exact ⟨fun _ => hel, fun _ => ⟨h.sp, h.ble⟩⟩
    refine M.sat_mono h1 (fun _ t ht => ?_) fun _ h => h
    have h2 : M.Sat (M.whenDo (op.resend_message_clock.tick_and_check_timeout.1 = true)
        (OP.onSP SP.resend_message_timeout)) { t with resend_message_clock := t.resend_message_clock.tick_and_check_timeout.2 }
        (fun _ t => P.srv t) P.srv := by
      rw [M.sat_whenDo]
      exact ⟨fun _ => run_sp (op := { t with resend_message_clock := t.resend_message_clock.tick_and_check_timeout.2 })
        ⟨ht.sp, ht.ble⟩ (SP.pv_resend ht.sp), fun _ => ⟨ht.sp, ht.ble⟩⟩
    refine M.sat_mono h2 (fun _ u hu => ?_) fun _ h => h
    rw [M.sat_whenDo]
    exact ⟨fun _ => run_sp (op := { u with flush_batch_clock := u.flush_batch_clock.tick_and_check_timeout.2 })
      ⟨hu.sp, hu.ble⟩ (SP.pv_flush_timeout hu.sp), fun _ => ⟨hu.sp, hu.ble⟩⟩
  | tryBecomeLeader =>
    simp only [Call.run, OP.try_become_leader, M.sat_bind, M.sat_get]
    exact run_sp h (SP.pv_handle_leader h.sp (.inr (hc _ _ _ h.ble)))
  | setPriority p => exact ⟨h.sp, h.ble⟩
  | reconnected p => exact run_sp h (SP.pv_reconnected h.sp p)
  | trim i => simp only [Call.run, OP.trim, M.sat_bind, M.sat_pure]; exact run_sp h (SP.pv_trim h.sp i hc.1 hc.2)
  | snapshot i lo => simp only [Call.run, OP.snapshot, M.sat_bind, M.sat_pure]; exact run_sp h (SP.pv_snapshot h.sp i lo hc.1 hc.2)
  | handleIncoming m =>
    simp only [Call.run, OP.handle_incoming]
    cases m with
    | paxos p => exact run_sp h (SP.pv_handle h.sp hc.1 fun c e => hc.2 p c rfl e)
    | ble x => exact ⟨h.sp, ble_handle h.ble x⟩

theorem clear {op : OP E S} (h : P.srv op) : P.srv op.clearTrail :=
  ⟨⟨⟨h.sp.ist.sto, (by intro m hm; cases hm), h.sp.ist.batch, h.sp.ist.stop, h.sp.ist.cprom, h.sp.ist.cacc⟩, h.sp.buf, h.sp.bss,
    h.sp.out, h.sp.max, h.sp.cached, h.sp.pid, h.sp.lead⟩, h.ble⟩

theorem callResult {op : OP E S} {c : Call E S} (h : P.srv op) (hc : P.call op c) : P.server (op.callResult c) := by
  have hc' : P.call op.clearTrail c := by cases c <;> exact hc
  have := run (clear h) hc'
  unfold OP.callResult
  unfold M.Sat at this
  split at this <;> rename_i e <;> rw [e]
  · exact this
  · exact this.sp.ist.sto

theorem callTrail {op : OP E S} {c : Call E S} (h : P.srv op) (hc : P.call op c) :
    ∀ m ∈ op.callTrail c, P.mem m := by
  have hc' : P.call op.clearTrail c := by cases c <;> exact hc
  have := run (clear h) hc'
  unfold OP.callTrail
  unfold M.Sat at this
  split at this <;> rename_i e <;> rw [e]
  · exact this.sp.ist.trail
  · exact this.sp.ist.trail

theorem build {cfg : OmniPaxosConfig} {d : Mem E S} {op : OP E S} (h : P.mem d) (hp : P.okp cfg.server_config.pid)
    (ho : ∃ n, P.okb cfg.cluster_config.configuration_id cfg.server_config.pid n)
    (hb : OP.build cfg d = some (.ok op)) : P.srv op := by
  obtain ⟨mp, -, rfl⟩ := OP.build_eq hb
  have hd : ∀ o : Option Ballot, P.balO o → P.bal (o.getD {}) := by
    intro o ho
    cases o with
    | none => exact .inl rfl
    | some b => exact ho b rfl
  have hm : P.mem { d with n_prom := some (d.n_prom.getD {}) } :=
    ⟨h.log, h.snap, h.stop, (by intro x hx; cases hx; exact hd _ h.prom), h.accr, h.pair⟩
  refine ⟨⟨⟨hm, ?_, ents_nil, h.stop, hd _ h.prom, hd _ h.accr⟩, ents_nil, stopO_none, ?_, syncO_none,
    (by intro p hp; cases hp), hp, hd _ h.prom⟩, ?_⟩
  · intro m hx; rw [List.mem_singleton.1 hx]; exact hm
  · intro m hx
    simp only at hx
    split at hx
    · obtain ⟨p, _, rfl⟩ := List.mem_map.1 hx; trivial
    · cases hx
  · show ∃ n, P.okb _ _ n
    simp only [BLE.with, BLE.new_hb_round]
    split
    · split
      · exact ho
      · exact ho
    · exact ho

theorem take {op : OP E S} (h : P.srv op) :
    P.srv (op.take_outgoing_messages []).2 ∧ ∀ m ∈ (op.take_outgoing_messages []).1, P.message m := by
  refine ⟨⟨⟨h.sp.ist, h.sp.buf, h.sp.bss, (by intro m hm; cases hm), h.sp.max, h.sp.cached, h.sp.pid, h.sp.lead⟩, h.ble⟩,
    fun m hm => ?_⟩
  simp only [OP.take_outgoing_messages, SP.take_outgoing_msgs, List.isEmpty_nil, if_true, List.mem_append, List.mem_map] at hm
  rcases hm with ⟨x, hx, rfl⟩ | ⟨x, hx, rfl⟩
  · exact h.sp.out x hx
  · trivial

end Prov

/-! ### Runs -/

/-- The predicates of a run, for the server `i`. -/
def Prov.ofRun (cc : ClusterConfig) (acts : List (LAction E S)) (i : NodeId) : Prov E S where
  okp p := p = i
  okb c p _ := c = cc.configuration_id ∧ p ∈ cc.nodes ∧ p ≠ 0
  ent := Loose.Appended cc acts
  stop := Loose.Requested cc acts
  snap := BuiltFrom (Loose.Appended cc acts)
  create := .create
  merge := .merge
  snapT x := match x with
    | .complete x => BuiltFrom (Loose.Appended cc acts) x
    | .delta x => BuiltFrom (Loose.Appended cc acts) x
  sent := fun _ h => ⟨h, h⟩
  got := fun h => h.elim id id
  pair _ _ := True
  gotPair := fun _ _ _ => trivial
  comp _ := True

/-- Every server and every message ever sent. -/
structure Prov.loose (cc : ClusterConfig) (acts : List (LAction E S)) (c : Loose E S) : Prop where
  servers : ∀ i, (Prov.ofRun cc acts i).server (c.servers i)
  sent : ∀ m ∈ c.sent, (Prov.ofRun cc acts 0).message m

theorem Prov.set {cc : ClusterConfig} {acts : List (LAction E S)} {c : Loose E S} (h : Prov.loose cc acts c) {i : NodeId}
    {s : Server E S} (hs : (Prov.ofRun cc acts i).server s) : Prov.loose cc acts (c.setServer i s) :=
  ⟨fun j => by
    simp only [Loose.setServer]
    split
    · rename_i e; rw [e]; exact hs
    · exact h.servers j, h.sent⟩

theorem Prov.message_zero {cc : ClusterConfig} {acts : List (LAction E S)} {m : Message E S} {i : NodeId}
    (h : (Prov.ofRun cc acts i).message m) : (Prov.ofRun cc acts 0).message m := by
  cases m with
  | ble m => trivial
  | paxos m =>
    obtain ⟨src, dst, m⟩ := m
    cases m <;> try exact h
    · rename_i p
      exact fun x hx => ⟨(h x hx).snap, (h x hx).suffix, (h x hx).stop⟩
    · rename_i a
      exact ⟨⟨h.1.snap, h.1.suffix, h.1.stop⟩, h.2⟩

theorem Prov.message_any {cc : ClusterConfig} {acts : List (LAction E S)} {m : Message E S}
    (h : (Prov.ofRun cc acts 0).message m) (i : NodeId) : (Prov.ofRun cc acts i).message m := by
  cases m with
  | ble m => trivial
  | paxos m =>
    obtain ⟨src, dst, m⟩ := m
    cases m <;> try exact h
    · rename_i p
      exact fun x hx => ⟨(h x hx).snap, (h x hx).suffix, (h x hx).stop⟩
    · rename_i a
      exact ⟨⟨h.1.snap, h.1.suffix, h.1.stop⟩, h.2⟩

/-- Calls of the run hand over what the run's predicates describe. -/
theorem Prov.call_ofRun {cc : ClusterConfig} {acts pre post : List (LAction E S)} {a : LAction E S} {c : Loose E S}
    {i : NodeId} {op : OP E S} {call : Call E S} (he : acts = pre ++ a :: post)
    (hpre : Loose.init.run cc pre = some c) (hup : c.servers i = .up op)
    (ha : a = .call i call ∨ ∃ k, a = .crashCall i call k) (hc : call.isIncoming = false) (j : NodeId) :
    (Prov.ofRun cc acts j).call op call := by
  cases call with
  | append e =>
    intro hf
    refine ⟨pre, a, post, c, i, op, he, hpre, hup, ha, fun r op' hr => ?_⟩
    have hs : M.Sat (OP.append e) op (fun r _ => r = .ok ()) (fun _ => True) := by
      simp only [OP.append, OP.sat_onSP, SP.append, M.sat_bind, M.sat_get, M.sat_ite, M.sat_pure]
      exact ⟨fun h => absurd h (by simp [hf]), fun _ => M.sat_mono (M.sat_true _ _) (fun _ _ _ => trivial) fun _ _ => trivial⟩
    exact M.sat_ok (Q := fun r _ => r = .ok ()) hs hr
  | reconfigure nc md =>
    intro hv hf
    refine ⟨pre, a, post, c, i, op, he, hpre, hup, ha, fun r op' hr => ?_⟩
    have hs : M.Sat (OP.reconfigure nc md) op (fun r _ => r = .ok ()) (fun _ => True) := by
      unfold OP.reconfigure
      rw [hv]
      simp only [OP.sat_onSP, SP.reconfigure, M.sat_bind, M.sat_get, M.sat_ite, M.sat_pure]
      exact ⟨fun h => absurd h (by simp [hf]), fun _ => M.sat_mono (M.sat_true _ _) (fun _ _ _ => trivial) fun _ _ => trivial⟩
    exact M.sat_ok (Q := fun r _ => r = .ok ()) hs hr
  | handleIncoming m => simp [Call.isIncoming] at hc
  | tick => exact fun _ _ h => h.elim fun _ h => h
  | tryBecomeLeader => exact fun _ _ _ h => h.elim fun _ h => h
  | setPriority p => trivial
  | reconnected p => trivial
  | trim i => exact ⟨fun _ _ => trivial, fun _ => trivial⟩
  | snapshot i lo => exact ⟨fun _ _ => trivial, fun _ _ => trivial⟩

theorem OP.build_node {cc : ClusterConfig} {cfg : ServerConfig} {d : Mem E S} {op : OP E S}
    (hb : OP.build { cluster_config := cc, server_config := cfg } d = some (.ok op)) :
    cc.validate = .ok () ∧ cfg.pid ∈ cc.nodes ∧ cfg.pid ≠ 0 := by
  have hval : (OmniPaxosConfig.validate { cluster_config := cc, server_config := cfg }) = .ok () := by
    unfold OP.build at hb
    split at hb
    · simp at hb
    · assumption
  unfold OmniPaxosConfig.validate at hval
  split at hval
  · simp at hval
  · rename_i h1
    split at hval
    · simp at hval
    · rename_i h2
      split at hval
      · simp at hval
      · rename_i h3
        refine ⟨h1, by simpa using h3, ?_⟩
        intro h0
        unfold ServerConfig.validate at h2
        simp [h0] at h2

theorem Prov.step {cc : ClusterConfig} {acts pre post : List (LAction E S)} {a : LAction E S} {c c' : Loose E S}
    (he : acts = pre ++ a :: post) (hpre : Loose.init.run cc pre = some c) (h : Prov.loose cc acts c)
    (hs : c.step cc a = some c') : Prov.loose cc acts c' := by
  have hsrv : ∀ i s, c.servers i = s → (Prov.ofRun cc acts i).server s := fun i s e => e ▸ h.servers i
  have hmsg : ∀ n m, c.sent[n]? = some m → ∀ i, (Prov.ofRun cc acts i).message m := fun n m hm i =>
    Prov.message_any (h.sent m (List.mem_of_getElem? hm)) i
  cases a with
  | start i cfg =>
    simp only [Loose.step] at hs
    split at hs
    · cases hs
    · rename_i d hd
      split at hs
      · rename_i hp
        split at hs
        · rename_i op hb
          cases hs
          have hn := OP.build_node hb
          exact Prov.set h (Prov.build (cfg := { cluster_config := cc, server_config := cfg }) (hsrv i _ hd) hp ⟨(0, 0), rfl, hn.2⟩ hb)
        · cases hs
      · cases hs
  | crash i =>
    simp only [Loose.step] at hs
    split at hs
    · rename_i op hu
      cases hs; exact Prov.set h (show (Prov.ofRun cc acts i).mem _ from (hsrv i _ hu).sp.ist.sto)
    · cases hs
  | call i call =>
    simp only [Loose.step] at hs
    split at hs
    · rename_i op hu
      split at hs
      · cases hs
      · rename_i hc
        cases hs
        exact Prov.set h (Prov.callResult (hsrv i _ hu) (Prov.call_ofRun he hpre hu (.inl rfl) (by simpa using hc) i))
    · cases hs
  | crashCall i call k =>
    simp only [Loose.step] at hs
    split at hs
    · rename_i op hu
      split at hs
      · cases hs
      · rename_i hc
        split at hs
        · rename_i d hd
          cases hs
          exact Prov.set h (Prov.callTrail (hsrv i _ hu)
            (Prov.call_ofRun he hpre hu (.inr ⟨k, rfl⟩) (by simpa using hc) i) d (List.mem_of_getElem? hd))
        · cases hs
    · cases hs
  | take i =>
    simp only [Loose.step] at hs
    split at hs
    · rename_i op hu
      cases hs
      have ht := Prov.take (hsrv i _ hu)
      refine ⟨fun j => ?_, fun m hm => ?_⟩
      · simp only; split
        · rename_i e; rw [e]; exact ht.1
        · exact h.servers j
      · rcases List.mem_append.1 hm with hm | hm
        · exact h.sent m hm
        · exact Prov.message_zero (ht.2 m hm)
    · cases hs
  | deliver n =>
    simp only [Loose.step] at hs
    split at hs
    · cases hs
    · rename_i m hm
      split at hs
      · cases hs
      · rename_i op hu
        cases hs
        exact Prov.set h (Prov.callResult (hsrv _ _ hu) ⟨hmsg n m hm _, fun _ _ _ _ _ _ => trivial⟩)
  | crashDeliver n k =>
    simp only [Loose.step] at hs
    split at hs
    · cases hs
    · rename_i m hm
      split at hs
      · cases hs
      · rename_i op hu
        split at hs
        · rename_i d hd
          cases hs
          exact Prov.set h (Prov.callTrail (c := .handleIncoming m) (hsrv _ _ hu) ⟨hmsg n m hm _, fun _ _ _ _ _ _ => trivial⟩ d (List.mem_of_getElem? hd))
        · cases hs

theorem Loose.run_append (cc : ClusterConfig) (c : Loose E S) (xs ys : List (LAction E S)) :
    c.run cc (xs ++ ys) = (c.run cc xs).bind fun d => d.run cc ys := by
  induction xs generalizing c with
  | nil => rfl
  | cons x xs ih =>
    simp only [List.cons_append, Loose.run]
    cases c.step cc x with
    | none => rfl
    | some d => exact ih d

theorem Prov.runs {cc : ClusterConfig} {acts : List (LAction E S)} {c : Loose E S} (hr : Loose.init.run cc acts = some c) :
    Prov.loose cc acts c := by
  have key : ∀ (post pre : List (LAction E S)) (d : Loose E S), acts = pre ++ post → Loose.init.run cc pre = some d →
      Prov.loose cc acts d → ∀ d', d.run cc post = some d' → Prov.loose cc acts d' := by
    intro post
    induction post with
    | nil => intro pre d _ _ hd d' h; cases h; exact hd
    | cons a post ih =>
      intro pre d he hpre hd d' h
      simp only [Loose.run] at h
      split at h
      · cases h
      · rename_i d1 h1
        refine ih (pre ++ [a]) d1 (by simp [he]) ?_ (Prov.step he hpre hd h1) d' h
        rw [Loose.run_append, hpre]
        simp only [Option.bind, Loose.run, h1]
  refine key acts [] Loose.init rfl rfl ⟨fun i => ?_, fun m hm => by cases hm⟩ c hr
  exact Prov.mem_empty trivial

/-! ### Reads -/

theorem Prov.markDecided {P : Prov E S} {es : List E} (h : P.ents es) (d i : Nat) :
    ∀ x ∈ (IStore.markDecided d i es : List (LogEntry E S)),
      (∃ e, P.ent e ∧ (x = .decided e ∨ x = .undecided e)) := by
  induction es generalizing i with
  | nil => intro x hx; cases hx
  | cons e es ih =>
    intro x hx
    rcases List.mem_cons.1 hx with rfl | hx
    · refine ⟨e, h e List.mem_cons_self, ?_⟩
      split
      · exact .inl rfl
      · exact .inr rfl
    · exact ih (fun y hy => h y (List.mem_cons_of_mem _ hy)) (i + 1) x hx

/-- The predicate on what a read returns. -/
def Prov.shown (P : Prov E S) : LogEntry E S → Prop
  | .decided e => P.ent e
  | .undecided e => P.ent e
  | .trimmed _ => True
  | .snapshotted k s => P.snap s ∧ P.pair k (some s)
  | .stopSign ss _ => P.stop ss

theorem Prov.read {P : Prov E S} {i : IStore E S} (h : P.ist i) {lo hi : IStore.Bound} {v : List (LogEntry E S)}
    (hp : ∀ y, i.storage.snapshot = some y → P.pair i.cache.compacted_idx (some y)) (hr : i.read lo hi = some (some v)) :
    ∀ x ∈ v, P.shown x := by
  have hent : ∀ {a b : Nat} {es : List (LogEntry E S)}, i.create_read_log_entries a b = some es → ∀ x ∈ es, P.shown x := by
    intro a b es he x hx
    simp only [IStore.create_read_log_entries] at he
    split at he
    · cases he
    · rename_i l hl
      cases he
      obtain ⟨e, h1, rfl | rfl⟩ := Prov.markDecided (Prov.get_entries h.sto hl) _ _ x hx <;> exact h1
  have hcomp : P.shown (i.create_compacted_entry i.cache.compacted_idx) := by
    unfold IStore.create_compacted_entry
    split
    · rename_i sn hs; exact ⟨h.sto.snap _ hs, hp sn hs⟩
    · trivial
  have hss : ∀ {k a b : Nat} {ss : StopSign}, i.get_entry_type k a b = some (.stopSign ss) → P.stop ss := by
    intro k a b ss he
    simp only [IStore.get_entry_type] at he
    split at he
    · cases he
    · split at he
      · cases he
      · split at he
        · split at he
          · rename_i s hs
            cases he; exact h.stop _ hs
          · cases he
        · cases he
  have happ : ∀ {a b : List (LogEntry E S)}, (∀ x ∈ a, P.shown x) → (∀ x ∈ b, P.shown x) → ∀ x ∈ a ++ b, P.shown x := by
    intro a b ha hb x hx
    rcases List.mem_append.1 hx with hx | hx
    · exact ha x hx
    · exact hb x hx
  have hone : ∀ {y : LogEntry E S}, P.shown y → ∀ x ∈ [y], P.shown x := by
    intro y hy x hx; rw [List.mem_singleton.1 hx]; exact hy
  have hcons : ∀ {y : LogEntry E S} {b : List (LogEntry E S)}, P.shown y → (∀ x ∈ b, P.shown x) → ∀ x ∈ y :: b, P.shown x := by
    intro y b hy hb x hx
    rcases List.mem_cons.1 hx with rfl | hx
    · exact hy
    · exact hb x hx
  simp only [IStore.read] at hr
  split at hr
  · cases hr
  · split at hr
    · cases hr; exact hone hcomp
    · cases hr
    · rename_i tt _ htt
      split at hr
      · cases hr
      · rename_i ft hft
        split at hr
        · split at hr
          · cases hr
          · rename_i es he
            cases hr; exact hent he
        · split at hr
          · cases hr
          · rename_i es he
            cases hr; exact happ (hent he) (hone (hss htt))
        · split at hr
          · cases hr
          · rename_i es he
            cases hr; exact hcons hcomp (hent he)
        · split at hr
          · cases hr
          · rename_i es he
            cases hr; exact happ (hcons hcomp (hent he)) (hone (hss htt))
        · cases hr; exact hone (hss hft)
        · cases hr

theorem OP.Shows.prov {P : Prov E S} {op : OP E S} (hi : P.ist op.sp.ist)
    (hp : ∀ y, op.sp.ist.storage.snapshot = some y → P.pair op.sp.ist.cache.compacted_idx (some y)) {p : Nat}
    {v : LogEntry E S} (hv : op.Shows p v) : P.shown v := by
  cases hv with
  | read hv =>
    unfold OP.read at hv
    split at hv
    · cases hv
    · cases hv
    · rename_i l hl
      cases hv' : l.getLast? with
      | none => rw [hv'] at hv; cases hv
      | some x =>
        rw [hv'] at hv; cases hv
        exact Prov.read hi hp hl v (List.mem_of_getLast? hv')
  | read_entries lo hi' l k hv hk _ => exact Prov.read hi hp hv v (List.mem_of_getElem? hk)
  | read_decided_suffix j l k hv hk _ =>
    unfold OP.read_decided_suffix IStore.read_decided_suffix at hv
    split at hv
    · exact Prov.read hi hp hv v (List.mem_of_getElem? hk)
    · cases hv

end Omni
