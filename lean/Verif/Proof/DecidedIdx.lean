import Verif.Proof.Quorum
import Verif.Proof.Safety.Slot
/-
Which calls change the decided index, and how.
-/
namespace Omni

variable {E S : Type}

/-- The decided index of the cache, of the storage and of every durable state written by the call satisfies `J`; the accepted
index is at least `lo`. -/
structure DI (J : Nat → Prop) (lo : Nat) (i : IStore E S) : Prop where
  dec : J i.cache.decided_idx
  acc : lo ≤ i.cache.accepted_idx
  sto : J i.storage.ld
  trail : ∀ m ∈ i.trail, J m.ld

variable {J : Nat → Prop} {lo : Nat}

/-- Operations other than SetDecidedIndex leave the decided index alone. -/
def StorageOp.noDec : StorageOp E S → Bool
  | .setDecidedIndex _ => false
  | _ => true

theorem Mem.write_ld {ops : List (StorageOp E S)} (ho : ∀ o ∈ ops, o.noDec = true) {m m' : Mem E S}
    (h : m.write_atomically ops = some m') : m'.ld = m.ld := by
  induction ops generalizing m with
  | nil => cases h; rfl
  | cons o ops ih =>
    simp only [Mem.write_atomically] at h
    split at h
    · cases h
    · rename_i m1 h1
      rw [ih (fun o ho' => ho o (List.mem_cons_of_mem _ ho')) h]
      have := ho o List.mem_cons_self
      cases o with
      | appendEntry e => cases h1; rfl
      | appendEntries es => cases h1; rfl
      | appendOnPrefix i es =>
        simp only [Mem.apply, Mem.append_on_prefix] at h1
        split at h1
        · cases h1
        · cases h1; rfl
      | setPromise b => cases h1; rfl
      | setDecidedIndex k => cases this
      | setAcceptedRound b => cases h1; rfl
      | setCompactedIdx k => cases h1; rfl
      | trim k =>
        simp only [Mem.apply, Mem.trim] at h1
        split at h1
        · cases h1
        · cases h1; rfl
      | setStopsign ss => cases h1; rfl
      | setSnapshot sn => cases h1; rfl

theorem Mem.write_ld_or {ops : List (StorageOp E S)} {d : Nat} (ho : ∀ o ∈ ops, o.noDec = true ∨ o = .setDecidedIndex d)
    {m m' : Mem E S} (h : m.write_atomically ops = some m') : m'.ld = m.ld ∨ m'.ld = d := by
  induction ops generalizing m with
  | nil => cases h; exact .inl rfl
  | cons o ops ih =>
    have h0 := h
    simp only [Mem.write_atomically] at h
    split at h
    · cases h
    · rename_i m1 h1
      rcases ih (fun o ho' => ho o (List.mem_cons_of_mem _ ho')) h with e | e
      · rw [e]
        rcases ho o List.mem_cons_self with ho | rfl
        · refine .inl (Mem.write_ld (ops := [o]) (by simpa using ho) (m' := m1) ?_)
          simp only [Mem.write_atomically, h1]
        · cases h1; exact .inr rfl
      · exact .inr e

namespace IStore

variable {i : IStore E S}

abbrev KeepsD (J : Nat → Prop) (lo : Nat) {α : Type} (m : M (IStore E S) α) (i : IStore E S) : Prop :=
  M.Sat m i (fun _ j => DI J lo j) (DI J lo)

theorem d_bind {α β : Type} {m : M (IStore E S) α} {f : α → M (IStore E S) β} (hm : KeepsD J lo m i)
    (hf : ∀ a j, DI J lo j → KeepsD J lo (f a) j) : KeepsD J lo (m >>= f) i := by
  unfold KeepsD; rw [M.sat_bind]
  exact M.sat_mono hm (fun a j h => hf a j h) fun _ h => h

theorem d_cache (h : DI J lo i) {f : StateCache E → StateCache E} (hd : (f i.cache).decided_idx = i.cache.decided_idx)
    (ha : i.cache.accepted_idx ≤ (f i.cache).accepted_idx) : KeepsD J lo (setCache f) i := by
  unfold KeepsD; rw [sat_setCache]
  exact ⟨by simpa only [hd] using h.dec, Nat.le_trans h.acc ha, h.sto, h.trail⟩

theorem d_put (h : DI J lo i) {m : Mem E S} (hd : J m.ld) (c : StorageCall E S) :
    DI J lo { i with storage := m, trail := m :: i.trail, calls := c :: i.calls } := by
  refine ⟨h.dec, h.acc, hd, fun x hx => ?_⟩
  rcases List.mem_cons.1 hx with rfl | hx
  · exact hd
  · exact h.trail x hx

theorem d_writeOps (h : DI J lo i) {ops : List (StorageOp E S)} (ho : ∀ o ∈ ops, o.noDec = true) :
    KeepsD J lo (writeOps ops) i := by
  unfold KeepsD; rw [sat_writeOps]
  refine ⟨fun m hm => ?_, fun _ => h⟩
  have hd : J m.ld := by rw [Mem.write_ld ho hm]; exact h.sto
  exact d_put h hd _

theorem d_append_nb (h : DI J lo i) (es : List E) : KeepsD J lo (append_entries_without_batching es) i := by
  unfold append_entries_without_batching
  refine d_bind ((sat_write_append ..).2 (d_put h (m := i.storage.append_entries es) h.sto _)) fun _ j hj => ?_
  exact d_bind (d_cache hj rfl (Nat.le_add_right ..)) fun _ k hk => hk

theorem d_take (h : DI J lo i) : KeepsD J lo take_entries_if_batch_is_full i := by
  simp only [KeepsD, take_entries_if_batch_is_full, M.sat_bind, M.sat_get, M.sat_ite, M.sat_pure]
  exact ⟨fun _ => d_cache h rfl (Nat.le_refl _), fun _ => h⟩

theorem d_cache_append (h : DI J lo i) (es : List E) : KeepsD J lo (cache_append_entries es) i :=
  d_bind (d_cache h rfl (Nat.le_refl _)) fun _ _ h => d_take h

theorem d_flush_if (h : DI J lo i) (r : Option (List E)) : KeepsD J lo (flush_if_full_batch r) i := by
  cases r with
  | none => exact h
  | some es => exact d_bind (d_append_nb h es) fun _ _ h => h

theorem d_append_entries (h : DI J lo i) (es : List E) : KeepsD J lo (append_entries_with_batching es) i :=
  d_bind (d_cache_append h es) fun r _ h => d_flush_if h r

theorem d_append_get (h : DI J lo i) (es : List E) : KeepsD J lo (append_entries_and_get_accepted_idx es) i := by
  refine d_bind (d_cache_append h es) fun r j h => ?_
  cases r with
  | none => exact h
  | some es => exact d_bind (d_append_nb h es) fun _ _ h => h

theorem d_append_ss (h : DI J lo i) (ss : StopSign) : KeepsD J lo (append_stopsign ss) i := by
  unfold append_stopsign
  refine d_bind ?_ fun r j hj => d_bind (d_flush_if hj r) fun md k hk => ?_
  · refine d_bind (d_cache h rfl (Nat.le_refl _)) fun _ j hj => ?_
    simp only [KeepsD, M.sat_bind, M.sat_get, M.sat_ite, M.sat_pure]
    exact ⟨fun _ => hj, fun _ => d_cache hj rfl (Nat.le_refl _)⟩
  · refine d_bind ((sat_write_stopsign ..).2 (d_put hk (m := k.storage.set_stopsign (some ss)) hk.sto _)) fun _ l hl => ?_
    exact d_bind (d_cache hl rfl (Nat.le_add_right ..)) fun _ _ h => h

theorem d_flush (h : DI J lo i) : KeepsD J lo flush_batch i := by
  simp only [KeepsD, flush_batch, M.sat_bind, M.sat_get]
  exact M.sat_mono (d_cache h rfl (Nat.le_refl _)) (fun _ _ h => d_append_nb h _) fun _ h => h

theorem d_flush_get (h : DI J lo i) : KeepsD J lo flush_batch_and_get_entries i := by
  simp only [KeepsD, flush_batch_and_get_entries, M.sat_bind, M.sat_get, M.sat_ite]
  exact ⟨fun _ => d_flush_if h _, fun _ => M.sat_mono (d_cache h rfl (Nat.le_refl _)) (fun _ _ h => d_flush_if h _) fun _ h => h⟩

theorem d_try_trim (h : DI J lo i) (k : Nat) : KeepsD J lo (try_trim k) i := by
  simp only [KeepsD, try_trim, M.sat_bind, M.sat_get, M.sat_ofPan]
  refine ⟨fun t _ => ?_, fun _ => h⟩
  cases t with
  | error e => exact h
  | ok k =>
    simp only [M.sat_ite, M.sat_pure]
    refine ⟨fun _ => ?_, fun _ => h⟩
    refine d_bind (d_writeOps h (by intro o ho; simp only [List.mem_cons, List.not_mem_nil, or_false] at ho; rcases ho with rfl | rfl <;> rfl))
      fun _ j hj => d_bind (d_cache hj rfl (Nat.le_refl _)) fun _ _ h => h

theorem d_try_snapshot [SnapOps E S] (h : DI J lo i) (k : Option Nat) : KeepsD J lo (try_snapshot k) i := by
  simp only [KeepsD, try_snapshot, M.sat_bind, M.sat_get, M.sat_ofPan]
  refine ⟨fun t _ => ?_, fun _ => h⟩
  cases t with
  | error e => exact h
  | ok k =>
    simp only [M.sat_ite, M.sat_bind, M.sat_ofPan, M.sat_pure]
    refine ⟨fun _ => ⟨fun r hr => ?_, fun _ => h⟩, fun _ => h⟩
    cases r with
    | error e => exact h
    | ok x =>
      refine d_bind (d_writeOps h (by intro o ho; simp only [List.mem_cons, List.not_mem_nil, or_false] at ho; rcases ho with rfl | rfl | rfl <;> rfl))
        fun _ j hj => d_bind (d_cache hj rfl (Nat.le_refl _)) fun _ _ h => h

theorem d_set_stopsign (h : DI J lo i) (ss : StopSign) : KeepsD J lo (set_stopsign (some ss)) i := by
  simp only [KeepsD, set_stopsign, M.sat_bind, M.sat_get, M.sat_ofPan]
  refine ⟨fun a ha => ?_, fun _ => h⟩
  have hle : i.cache.accepted_idx ≤ a := by
    split at ha
    · cases ha; exact Nat.le_add_right ..
    · rename_i h1 h2; cases h1
    · cases ha; exact Nat.le_refl _
  refine M.sat_mono (d_cache h rfl hle) (fun _ j hj => ?_) fun _ h => h
  exact M.sat_mono ((sat_write_stopsign ..).2 (d_put hj (m := j.storage.set_stopsign (some ss)) hj.sto _)) (fun _ _ h => h) fun _ h => h

theorem d_set_promise (h : DI J lo i) (b : Ballot) : KeepsD J lo (set_promise b) i := by
  simp only [KeepsD, set_promise, M.sat_bind, M.sat_get]
  refine M.sat_mono (d_cache h rfl (Nat.le_refl _)) (fun _ j hj => ?_) fun _ h => h
  exact (sat_write_promise ..).2 (d_put hj (m := j.storage.set_promise b) hj.sto _)

theorem d_sync [SnapOps E S] (h : DI J 0 i) (n : Ballot) {d : Nat} (hd : J d) (y : Option (LogSync E S)) :
    KeepsD J 0 (sync_log n d y) i := by
  have wr : ∀ {ops : List (StorageOp E S)} {j : IStore E S}, DI J 0 j → (∀ o ∈ ops, o.noDec = true ∨ o = .setDecidedIndex d) →
      KeepsD J 0 (writeOps ops) j := by
    intro ops j hj ho
    unfold KeepsD; rw [sat_writeOps]
    refine ⟨fun m hm => ?_, fun _ => hj⟩
    have hd : J m.ld := by
      rcases Mem.write_ld_or ho hm with e | e <;> rw [e]
      · exact hj.sto
      · exact hd
    exact d_put hj hd _
  have sn : ∀ {j : IStore E S} {y : LogSync E S} {ops : List (StorageOp E S)}, j.syncSnapshotOps y = some ops →
      ∀ o ∈ ops, o.noDec = true := by
    intro j y ops h o ho
    unfold syncSnapshotOps at h
    split at h
    · cases h; simp only [List.mem_cons, List.not_mem_nil, or_false] at ho; rcases ho with rfl | rfl | rfl <;> rfl
    · split at h
      · cases h
      · split at h
        · cases h
        · cases h; simp only [List.mem_cons, List.not_mem_nil, or_false] at ho; rcases ho with rfl | rfl | rfl <;> rfl
    · cases h; cases ho
  have ss : ∀ {a b : Option StopSign}, ∀ o ∈ (syncStopsignOps a b : List (StorageOp E S)), o.noDec = true := by
    intro a b o ho
    unfold syncStopsignOps at ho
    split at ho
    · simp only [List.mem_cons, List.not_mem_nil, or_false] at ho; subst ho; rfl
    · simp only [List.mem_cons, List.not_mem_nil, or_false] at ho; subst ho; rfl
    · cases ho
  unfold sync_log
  rw [KeepsD, M.sat_bind, sat_setCache]
  have h1 : DI J 0 { i with cache := { i.cache with accepted_round := n, decided_idx := d } } :=
    ⟨hd, Nat.zero_le _, h.sto, h.trail⟩
  cases y with
  | none =>
    refine d_bind (wr h1 ?_) fun _ _ h => h
    intro o ho
    simp only [List.mem_cons, List.not_mem_nil, or_false] at ho
    rcases ho with rfl | rfl
    · exact .inl rfl
    · exact .inr rfl
  | some y =>
    simp only
    rw [M.sat_bind, M.sat_get, M.sat_bind, M.sat_ofPan]
    refine ⟨fun so hso => ?_, fun _ => h1⟩
    rw [M.sat_bind, sat_setCache]
    refine d_bind (i := ⟨_, _, _, _⟩) (wr ⟨hd, Nat.zero_le _, h.sto, h.trail⟩ ?_) fun _ _ h => h
    intro o ho
    simp only [List.mem_append, List.mem_cons, List.not_mem_nil, or_false] at ho
    rcases ho with (((rfl | rfl) | ho) | rfl) | ho
    · exact .inl rfl
    · exact .inr rfl
    · exact .inl (sn hso o ho)
    · exact .inl rfl
    · exact .inl (ss o ho)

theorem d_set_decided (h : DI J lo i) {d : Nat} (hd : J d) : KeepsD J lo (set_decided_idx d) i := by
  simp only [KeepsD, set_decided_idx, M.sat_bind, M.sat_get, sat_setCache]
  exact d_put (i := { i with cache := { i.cache with decided_idx := d } }) ⟨hd, h.acc, h.sto, h.trail⟩
    (m := i.storage.set_decided_idx d) hd _

end IStore

namespace SP

variable {s : SP E S}

abbrev KeepsD (J : Nat → Prop) (lo : Nat) {α : Type} (m : M (SP E S) α) (s : SP E S) : Prop :=
  M.Sat m s (fun _ t => DI J lo t.ist) (fun t => DI J lo t.ist)

theorem d_bind {α β : Type} {m : M (SP E S) α} {f : α → M (SP E S) β} (hm : KeepsD J lo m s)
    (hf : ∀ a t, DI J lo t.ist → KeepsD J lo (f a) t) : KeepsD J lo (m >>= f) s := by
  unfold KeepsD; rw [M.sat_bind]
  exact M.sat_mono hm (fun a j h => hf a j h) fun _ h => h

theorem d_store {α : Type} {m : M (IStore E S) α} (hm : IStore.KeepsD J lo m s.ist) : KeepsD J lo (onStore m) s := by
  unfold KeepsD; rw [sat_onStore]; exact hm

theorem d_forEach {α : Type} {xs : List α} {body : α → M (SP E S) Unit} (h : DI J lo s.ist)
    (hb : ∀ x t, DI J lo t.ist → KeepsD J lo (body x) t) : KeepsD J lo (M.forEach xs body) s :=
  M.sat_forEach (fun t => DI J lo t.ist) h fun x _ t ht => hb x t ht

theorem d_so {α : Type} {m : M (SP E S) α} (h : DI J lo s.ist)
    (hm : M.Sat m s (fun _ t => SendOnly s t) (SendOnly s)) : KeepsD J lo m s :=
  M.sat_mono hm (fun _ t ht => by rw [ht]; exact h) fun t ht => by rw [ht]; exact h

theorem d_send (h : DI J lo s.ist) (to : NodeId) (m : PaxosMsg E S) : KeepsD J lo (send to m) s := by
  unfold KeepsD; rw [sat_send]; exact h

theorem d_onLS (h : DI J lo s.ist) (f : LeaderState E S → Pan (LeaderState E S)) : KeepsD J lo (onLS f) s := by
  unfold KeepsD; rw [sat_onLS]; exact ⟨fun _ _ => h, fun _ => h⟩

theorem d_onLS' {α : Type} (h : DI J lo s.ist) (f : LeaderState E S → Pan (LeaderState E S × α)) : KeepsD J lo (onLS' f) s := by
  unfold KeepsD; rw [sat_onLS']; exact ⟨fun _ _ => h, fun _ => h⟩

theorem d_reconnected (h : DI J lo s.ist) (pid : NodeId) : KeepsD J lo (reconnected pid) s := by
  simp only [KeepsD, reconnected, M.sat_bind, M.sat_get, M.sat_ite, M.sat_pure, M.sat_whenDo, sat_setState, sat_send]
  exact ⟨fun _ => h, fun _ => ⟨fun _ => h, fun _ => h⟩⟩

theorem d_forward_proposals (h : DI J lo s.ist) (es : List E) : KeepsD J lo (forward_proposals es) s := by
  simp only [KeepsD, forward_proposals, M.sat_bind, M.sat_get, M.sat_ite, M.sat_upd, sat_send]
  exact ⟨fun _ => h, fun _ => h⟩

theorem d_forward_stopsign (h : DI J lo s.ist) (ss : StopSign) : KeepsD J lo (forward_stopsign ss) s := by
  simp only [KeepsD, forward_stopsign, M.sat_bind, M.sat_get, M.sat_ite, M.sat_upd, sat_send, M.sat_pure]
  exact ⟨fun _ => h, fun _ => ⟨fun _ => h, fun _ => h⟩⟩

theorem d_trim (h : DI J lo s.ist) (i : Option Nat) : KeepsD J lo (trim i) s := by
  unfold trim
  refine d_bind (m := M.get) h fun a t ht => ?_
  simp only [KeepsD, M.sat_ite, M.sat_bind, M.sat_ofPan, M.sat_pure]
  refine ⟨fun _ => ⟨fun k _ => ⟨fun _ => ?_, fun _ => ht⟩, fun _ => ht⟩, fun _ => ht⟩
  refine M.sat_mono (d_store (IStore.d_try_trim ht _)) (fun r u hu => ?_) fun _ h => h
  cases r with
  | error e => exact hu
  | ok _ => rw [M.sat_bind]; exact d_forEach hu fun x t ht => d_send ht x _

theorem d_snapshot [SnapOps E S] (h : DI J lo s.ist) (i : Option Nat) (l : Bool) : KeepsD J lo (snapshot i l) s := by
  unfold snapshot
  refine d_bind (m := M.get) h fun a t ht => d_bind (d_store (IStore.d_try_snapshot ht _)) fun r u hu => ?_
  cases r with
  | error e => exact hu
  | ok _ =>
    simp only [KeepsD, M.sat_bind, M.sat_whenDo, M.sat_pure]
    exact ⟨fun _ => d_forEach hu fun x t ht => d_send ht x _, fun _ => hu⟩

theorem d_handle_compaction [SnapOps E S] (h : DI J lo s.ist) (c : Compaction) : KeepsD J lo (handle_compaction c) s := by
  cases c with
  | trim i => exact d_bind (d_store (IStore.d_try_trim h _)) fun _ _ h => h
  | snapshot i => exact d_bind (d_snapshot h i true) fun _ _ h => h

theorem d_handle_leader (h : DI J lo s.ist) (n : Ballot) : KeepsD J lo (handle_leader n) s := by
  simp only [KeepsD, handle_leader, M.sat_bind, M.sat_get, M.sat_ite, M.sat_pure, M.sat_upd]
  refine ⟨fun _ => h, fun hn => ⟨fun hp => ?_, fun _ => h⟩⟩
  refine M.sat_mono (d_store (IStore.d_flush (i := s.ist) h)) (fun _ t ht => ?_) fun _ h => h
  refine M.sat_mono (d_store (IStore.d_set_promise ht n))
    (fun _ u hu => ?_) fun _ h => h
  refine M.sat_mono (d_onLS' hu _) (fun _ v hv => ?_) fun _ h => h
  rw [sat_setState]
  exact d_forEach (s := { v with role := .leader, phase := .prepare }) hv fun x _ ht => d_send ht x _

theorem d_handle_preparereq (h : DI J lo s.ist) (n : Ballot) (f : NodeId) : KeepsD J lo (handle_preparereq n f) s := by
  unfold handle_preparereq
  refine d_bind (m := M.get) h fun a t ht => ?_
  simp only [KeepsD, M.sat_ite, M.sat_pure]
  refine ⟨fun _ => ?_, fun _ => ht⟩
  exact d_bind (d_onLS ht _) fun _ _ ht => d_bind (d_onLS ht _) fun _ _ ht => d_so ht (so_send_prepare f)

theorem d_accepted_leader (h : DI J lo s.ist) (md : Option (AcceptedMetaData E)) : KeepsD J lo (accepted_leader md) s := by
  cases md with
  | none => exact h
  | some md =>
    simp only [KeepsD, accepted_leader, M.sat_bind, M.sat_get]
    exact M.sat_mono (d_onLS h _) (fun _ _ ht => d_so ht (so_send_acceptdecide _)) fun _ h => h

theorem d_accept_entries_leader (h : DI J lo s.ist) (es : List E) : KeepsD J lo (accept_entries_leader es) s :=
  d_bind (d_store (IStore.d_append_entries h es)) fun _ _ ht => d_accepted_leader ht _

theorem d_accept_stopsign_leader (h : DI J lo s.ist) (ss : StopSign) : KeepsD J lo (accept_stopsign_leader ss) s := by
  unfold accept_stopsign_leader
  refine d_bind (d_store (IStore.d_append_ss h ss)) fun md t ht => d_bind ?_ fun _ u hu => ?_
  · cases md with
    | none => exact ht
    | some md => exact d_so ht (so_send_acceptdecide _)
  · simp only [KeepsD, M.sat_bind, M.sat_get]
    exact M.sat_mono (d_onLS hu _)
      (fun _ _ ht => d_forEach ht fun x _ ht => d_so ht (so_send_accept_stopsign x ss false)) fun _ h => h

theorem d_handle_promise_accept [SnapOps E S] (h : DI J lo s.ist) (p : Promise E S) (f : NodeId) :
    KeepsD J lo (handle_promise_accept p f) s := by
  unfold handle_promise_accept
  refine d_bind (m := M.get) h fun a t ht => ?_
  simp only [KeepsD, M.sat_ite, M.sat_pure]
  exact ⟨fun _ => d_bind (d_onLS' ht _) fun _ _ ht => d_so ht (so_send_accsync f), fun _ => ht⟩

theorem d_handle_accepted (h : DI J lo s.ist) {a : Accepted} {f : NodeId}
    (ha : s.ist.cache.decided_idx < a.accepted_idx → J a.accepted_idx) : KeepsD J lo (handle_accepted a f) s := by
  simp only [KeepsD, handle_accepted, M.sat_bind, M.sat_get, M.sat_ite, M.sat_pure, sat_onLS]
  refine ⟨fun hg => ⟨fun ls e => ⟨fun hc => ?_, fun _ => h⟩, fun _ => h⟩, fun _ => h⟩
  exact M.sat_mono (d_store (IStore.d_set_decided (i := s.ist) h (ha hc.1))) (fun _ t ht =>
    d_forEach ht fun x _ ht => d_so ht (so_announce_decided _ x)) fun _ h => h

theorem d_handle_notaccepted (h : DI J lo s.ist) (n : Ballot) (f : NodeId) : KeepsD J lo (handle_notaccepted n f) s := by
  simp only [KeepsD, handle_notaccepted, M.sat_bind, M.sat_get, M.sat_ite, M.sat_pure]
  exact ⟨fun _ => d_onLS h _, fun _ => h⟩

theorem d_handle_forwarded_proposal (h : DI J lo s.ist) (es : List E) : KeepsD J lo (handle_forwarded_proposal es) s := by
  simp only [KeepsD, handle_forwarded_proposal, M.sat_bind, M.sat_get, M.sat_ite, M.sat_pure]
  refine ⟨fun _ => h, fun _ => ?_⟩
  split
  · exact h
  · exact d_accept_entries_leader h es
  · exact d_forward_proposals h es

theorem d_handle_forwarded_stopsign (h : DI J lo s.ist) (ss : StopSign) : KeepsD J lo (handle_forwarded_stopsign ss) s := by
  simp only [KeepsD, handle_forwarded_stopsign, M.sat_bind, M.sat_get, M.sat_ite, M.sat_pure]
  refine ⟨fun _ => h, fun _ => ?_⟩
  split
  · exact h
  · exact d_accept_stopsign_leader h ss
  · exact d_forward_stopsign h ss

theorem d_handle_prepare [SnapOps E S] (h : DI J lo s.ist) (p : Prepare) (f : NodeId) : KeepsD J lo (handle_prepare p f) s := by
  simp only [KeepsD, handle_prepare, M.sat_bind, M.sat_get, M.sat_ite, M.sat_pure, M.sat_upd, M.sat_ofPan, sat_send]
  refine ⟨fun hg => ?_, fun _ => h⟩
  refine M.sat_mono (d_store (IStore.d_flush h)) (fun _ t ht => ?_) fun _ h => h
  refine M.sat_mono (d_store (IStore.d_set_promise ht p.n)) (fun _ u hu => ?_) fun _ h => h
  exact ⟨fun _ _ => hu, fun _ => hu⟩

theorem d_check_valid_ballot (h : DI J lo s.ist) (n : Ballot) : KeepsD J lo (check_valid_ballot n) s := by
  simp only [KeepsD, check_valid_ballot, M.sat_bind, M.sat_get]
  split
  · exact h
  · exact d_bind (d_send h _ _) fun _ _ ht => ht
  · exact d_bind (d_reconnected h _) fun _ _ ht => ht

theorem d_accept_guard (h : DI J lo s.ist) (n : Ballot) (q : SeqNum) (any : Bool) : KeepsD J lo (accept_guard n q any) s := by
  unfold accept_guard
  refine d_bind (d_check_valid_ballot h n) fun ok t ht => ?_
  simp only [KeepsD, M.sat_bind, M.sat_get, M.sat_ite, M.sat_pure, handle_sequence_num]
  refine ⟨fun _ => ?_, fun _ => ht⟩
  split
  · exact ht
  · rw [M.sat_bind]; exact d_reconnected ht _
  · exact ht

theorem d_reply_accepted (h : DI J lo s.ist) (n : Ballot) (i : Nat) : KeepsD J lo (reply_accepted n i) s := by
  simp only [KeepsD, reply_accepted, M.sat_bind, M.sat_get, M.sat_ofPan]
  refine ⟨fun r _ => ?_, fun _ => h⟩
  match r with
  | some (idx, a) => rw [sat_setMsg]; exact h
  | none => exact h

theorem d_reply_opt (h : DI J lo s.ist) (n : Ballot) (i : Option Nat) : KeepsD J lo (reply_opt n i) s := by
  cases i with
  | none => exact h
  | some i => exact d_reply_accepted h n i

theorem d_handle_accept_stopsign (h : DI J lo s.ist) (a : AcceptStopSign) : KeepsD J lo (handle_accept_stopsign a) s := by
  unfold handle_accept_stopsign
  refine d_bind (d_accept_guard h _ _ _) fun ok t ht => ?_
  rw [KeepsD, M.sat_ite]
  refine ⟨fun _ => ?_, fun _ => ht⟩
  exact d_bind (d_store (IStore.d_flush ht)) fun _ _ ht =>
    d_bind (d_store (IStore.d_set_stopsign ht _)) fun _ _ ht => d_reply_accepted ht _ _

theorem d_resend (h : DI J lo s.ist) : KeepsD J lo resend_message_timeout s := by
  have hall : ∀ t : SP E S, DI J lo t.ist → KeepsD J lo send_preparereq_to_all_peers t := fun t ht =>
    d_bind (m := M.get) ht fun _ _ ht => d_forEach ht fun x _ ht => d_send ht x _
  simp only [KeepsD, resend_message_timeout, M.sat_bind, M.sat_get]
  split
  · exact d_so h so_resend_messages_leader
  · simp only [resend_messages_follower, M.sat_bind, M.sat_get]
    split
    · split
      · exact d_send h _ _
      · simp only [M.sat_bind, sat_setState]; exact hall _ h
    · exact hall _ h
    · exact h
    · exact h

theorem d_flush_timeout (h : DI J lo s.ist) : KeepsD J lo flush_batch_timeout s := by
  simp only [KeepsD, flush_batch_timeout, M.sat_bind, M.sat_get]
  split
  · simp only [flush_batch_leader, M.sat_bind]
    exact M.sat_mono (d_store (IStore.d_flush_get h)) (fun _ _ ht => d_accepted_leader ht _) fun _ h => h
  · simp only [flush_batch_follower, M.sat_bind, M.sat_get]
    refine M.sat_mono (d_store (IStore.d_flush h)) (fun k t ht => ?_) fun _ h => h
    simp only [M.sat_ite, M.sat_pure]
    exact ⟨fun _ => d_reply_accepted ht _ _, fun _ => ht⟩
  · exact h

theorem d_append (h : DI J lo s.ist) (e : E) : KeepsD J lo (append e) s := by
  simp only [KeepsD, append, M.sat_bind, M.sat_get, M.sat_ite, M.sat_pure]
  refine ⟨fun _ => h, fun hf => ?_⟩
  simp only [propose_entry, M.sat_bind, M.sat_get]
  split
  · exact h
  · exact d_accept_entries_leader h [e]
  · exact d_forward_proposals h _

theorem d_reconfigure (h : DI J lo s.ist) (c : ClusterConfig) (md : Option (List Nat)) : KeepsD J lo (reconfigure c md) s := by
  simp only [KeepsD, reconfigure, M.sat_bind, M.sat_get, M.sat_ite, M.sat_pure]
  refine ⟨fun _ => h, fun hf => ?_⟩
  simp only [propose_stopsign, M.sat_bind, M.sat_get]
  split
  · exact h
  · exact d_accept_stopsign_leader h _
  · exact d_forward_stopsign h _

/-! ### The decided index of a follower grows -/

theorem d_update_decided {d : Nat} (h : DI (d ≤ ·) d s.ist) (k : Nat) :
    KeepsD (d ≤ ·) d (update_decided_idx_and_get_accepted_idx k) s := by
  simp only [KeepsD, update_decided_idx_and_get_accepted_idx, M.sat_bind, M.sat_get, M.sat_ite, M.sat_pure]
  refine ⟨fun _ => h, fun hk => ?_⟩
  have hd : d ≤ k := Nat.le_trans h.dec (Nat.le_of_lt (Nat.not_le.1 hk))
  refine ⟨fun _ => ?_, fun _ => d_store (IStore.d_set_decided h hd)⟩
  have hfl : M.Sat IStore.flush_batch s.ist (fun a j => DI (d ≤ ·) d j ∧ d ≤ a) (DI (d ≤ ·) d) := by
    refine M.sat_mono (M.sat_and (IStore.d_flush h) (?_ : M.Sat _ _ (fun a j => a = j.cache.accepted_idx) fun _ => True))
      (fun a j hj => ⟨hj.1, by rw [hj.2]; exact hj.1.acc⟩) fun _ h => h.1
    simp only [IStore.flush_batch, IStore.append_entries_without_batching, M.sat_bind, M.sat_get, IStore.sat_setCache,
      IStore.sat_write_append, IStore.sat_write_stopsign, IStore.sat_write_promise, IStore.sat_write_decided, M.sat_pure]
  rw [sat_onStore]
  refine M.sat_mono hfl (fun a j hj => ?_) fun _ h => h
  exact d_store (s := { s with ist := j }) (IStore.d_set_decided hj.1 (Nat.le_min.2 ⟨hd, hj.2⟩))

theorem d_handle_acceptdecide {d : Nat} (h : DI (d ≤ ·) d s.ist) (a : AcceptDecide E) :
    KeepsD (d ≤ ·) d (handle_acceptdecide a) s := by
  unfold handle_acceptdecide
  refine d_bind (d_accept_guard h _ _ _) fun ok t ht => ?_
  rw [KeepsD, M.sat_ite]
  refine ⟨fun _ => ?_, fun _ => ht⟩
  exact d_bind (d_store (IStore.d_append_get ht _)) fun _ _ ht =>
    d_bind (d_update_decided ht _) fun _ _ ht => d_reply_opt ht _ _

theorem d_handle_decide {d : Nat} (h : DI (d ≤ ·) d s.ist) (a : Decide) : KeepsD (d ≤ ·) d (handle_decide a) s := by
  unfold handle_decide
  refine d_bind (d_accept_guard h _ _ _) fun ok t ht => ?_
  rw [KeepsD, M.sat_ite]
  exact ⟨fun _ => d_bind (d_update_decided ht _) fun _ _ ht => d_reply_opt ht _ _, fun _ => ht⟩

theorem d_weaken {α : Type} {m : M (SP E S) α} (h : KeepsD J lo m s) : KeepsD J 0 m s :=
  M.sat_mono h (fun _ _ h => ⟨h.dec, Nat.zero_le _, h.sto, h.trail⟩) fun _ h => ⟨h.dec, Nat.zero_le _, h.sto, h.trail⟩

theorem d_handle_acceptsync [SnapOps E S] (h : DI J 0 s.ist) (a : AcceptSync E S) (f : NodeId) (ha : J a.decided_idx) :
    KeepsD J 0 (handle_acceptsync a f) s := by
  unfold handle_acceptsync
  refine d_bind (d_check_valid_ballot h _) fun ok t ht => ?_
  rw [KeepsD, M.sat_bind, M.sat_get, M.sat_ite]
  refine ⟨fun _ => ?_, fun _ => ht⟩
  refine d_bind (m := M.upd _) (by rw [KeepsD, M.sat_upd]; exact ht) fun _ u hu => ?_
  refine d_bind (d_store (IStore.d_sync hu _ ha _)) fun k v hv => ?_
  rw [KeepsD, M.sat_bind, M.sat_get]
  refine d_bind (m := M.whenDo _ _) ?_ fun _ w hw => ?_
  · rw [KeepsD, M.sat_whenDo]
    refine ⟨fun _ => ?_, fun _ => hv⟩
    simp only [forward_buffered_proposals, M.sat_bind, M.sat_get, M.sat_upd, M.sat_ite, M.sat_pure]
    exact ⟨fun _ => hv, fun _ => d_forward_proposals (s := { v with buffered_proposals := [] }) hv _⟩
  · rw [KeepsD, M.sat_bind, sat_setState, M.sat_bind, M.sat_upd]
    exact d_send (s := { w with role := .follower, phase := .accept, current_seq_num := a.seq_num, latest_accepted_meta := some (a.n, w.outgoing.length) }) hw _ _

/-- The leader takes over at the largest decided index promised, which is at least the one in its own promise. -/
theorem d_handle_majority [SnapOps E S] {d : Nat} (h : DI (d ≤ ·) 0 s.ist) (hd : d ≤ s.ls.get_max_decided_idx) :
    KeepsD (d ≤ ·) 0 handle_majority_promises s := by
  unfold handle_majority_promises
  rw [KeepsD, M.sat_bind, M.sat_get, M.sat_bind, M.sat_upd]
  refine d_bind (d_store (s := { s with ls := _ }) (IStore.d_sync h _ hd _)) fun k t ht => d_bind (?_ : KeepsD _ _ (append_buffered k) t) fun k u hu => ?_
  · unfold append_buffered
    simp only [KeepsD, M.sat_bind, M.sat_get, M.sat_ite, M.sat_pure]
    refine ⟨fun _ => ht, fun _ => ?_⟩
    have h1 : KeepsD (d ≤ ·) 0 (append_buffered_proposals k) t := by
      simp only [KeepsD, append_buffered_proposals, M.sat_bind, M.sat_get, M.sat_ite, M.sat_pure, M.sat_upd]
      exact ⟨fun _ => ht, fun _ => d_store (s := { t with buffered_proposals := [] }) (IStore.d_append_nb ht _)⟩
    refine M.sat_mono h1 (fun k u hu => ?_) fun _ h => h
    simp only [append_buffered_stopsign, M.sat_bind, M.sat_get]
    cases hb : u.buffered_stopsign with
    | none => exact hu
    | some ss =>
      simp only [M.sat_bind, M.sat_upd, M.sat_get, M.sat_pure]
      exact M.sat_mono (d_store (s := { u with buffered_stopsign := none }) (IStore.d_append_ss hu _)) (fun _ _ h => h) fun _ h => h
  · rw [KeepsD, M.sat_bind, sat_setState]
    refine d_bind (d_onLS (s := { u with role := .leader, phase := .accept }) hu _) fun _ v hv => ?_
    rw [KeepsD, M.sat_bind, M.sat_get]
    exact d_forEach hv fun x _ ht => d_so ht (so_send_accsync x)

theorem foldl_max_le (l : List Nat) (a : Nat) : a ≤ l.foldl max a ∧ ∀ x ∈ l, x ≤ l.foldl max a := by
  induction l generalizing a with
  | nil => exact ⟨Nat.le_refl _, nofun⟩
  | cons y l ih =>
    obtain ⟨h1, h2⟩ := ih (max a y)
    refine ⟨Nat.le_trans (Nat.le_max_left ..) h1, fun x hx => ?_⟩
    rcases List.mem_cons.1 hx with rfl | hx
    · exact Nat.le_trans (Nat.le_max_right ..) h1
    · exact h2 x hx

theorem promisedDecided_mem {l : List PromiseState} {m : PromiseMetaData} (h : PromiseState.promised m ∈ l) :
    m.decided_idx ∈ LeaderState.promisedDecided l := by
  induction l with
  | nil => cases h
  | cons x l ih =>
    rcases List.mem_cons.1 h with rfl | hl
    · exact List.mem_cons_self
    · cases x <;> simp only [LeaderState.promisedDecided]
      all_goals first | exact ih hl | exact List.mem_cons_of_mem _ (ih hl)

theorem d_handle_promise_prepare [SnapOps E S] {d : Nat} (h : DI (d ≤ ·) 0 s.ist) {p : Promise E S} {frm : NodeId}
    {md : PromiseMetaData} (hf : frm ≠ s.pid) (hm : slot s.ls.promises_meta s.pid = some (.promised md))
    (hd : d ≤ md.decided_idx) : KeepsD (d ≤ ·) 0 (handle_promise_prepare p frm) s := by
  simp only [KeepsD, handle_promise_prepare, M.sat_bind, M.sat_get, M.sat_ite, M.sat_pure, sat_onLS']
  refine ⟨fun _ => ⟨fun r hr => ⟨fun _ => ?_, fun _ => h⟩, fun _ => h⟩, fun _ => h⟩
  refine d_handle_majority h ?_
  simp only [LeaderState.set_promise] at hr
  split at hr
  · cases hr
  · rename_i v hv
    cases hr
    have hu : ∀ (m : PromiseMetaData) (y : Option (LogSync E S)) (b : Bool), (s.ls.update_max m y b).promises_meta = s.ls.promises_meta := by
      intro m y b; unfold LeaderState.update_max; split <;> rfl
    rw [hu] at hv
    obtain ⟨-, -, -, -, ho⟩ := setSlot_spec hv
    have := slot_mem ((ho s.pid (Ne.symm hf)).trans hm)
    exact Nat.le_trans hd ((foldl_max_le _ 0).2 _ (promisedDecided_mem this))

/-- All messages but AcceptSync, and Promise outside the Accept phase. -/
theorem d_handle [SnapOps E S] {d : Nat} (h : DI (d ≤ ·) d s.ist) {m : PaxosMessage E S}
    (h1 : ∀ a, m.msg ≠ .acceptSync a) (h2 : ∀ p, m.msg = .promise p → s.phase ≠ .prepare) : KeepsD (d ≤ ·) d (handle m) s := by
  unfold handle
  split <;> rename_i heq
  · exact d_handle_preparereq h _ _
  · exact d_handle_prepare h _ _
  · simp only [KeepsD, handle_promise, M.sat_bind, M.sat_get]
    split
    · rename_i hp; exact absurd hp (h2 _ heq)
    · exact d_handle_promise_accept h _ _
    · exact h
  · exact absurd heq (h1 _)
  · exact d_handle_acceptdecide h _
  · exact d_handle_notaccepted h _ _
  · exact d_handle_accepted h fun hk => Nat.le_trans h.dec (Nat.le_of_lt hk)
  · exact d_handle_decide h _
  · exact d_handle_forwarded_proposal h _
  · exact d_handle_compaction h _
  · exact d_handle_accept_stopsign h _
  · exact d_handle_forwarded_stopsign h _

/-- The same, with AcceptSync messages that do not carry a smaller decided index, and with the promises of others for a leader
whose own promise carries its decided index. -/
theorem d_handle_all [SnapOps E S] {d : Nat} (h : DI (d ≤ ·) d s.ist) {m : PaxosMessage E S}
    (h1 : ∀ a, m.msg = .acceptSync a → d ≤ a.decided_idx)
    (h2 : ∀ p, m.msg = .promise p → s.role = .leader → s.phase = .prepare →
      m.src ≠ s.pid ∧ ∃ md, slot s.ls.promises_meta s.pid = some (.promised md) ∧ d ≤ md.decided_idx) :
    KeepsD (d ≤ ·) 0 (handle m) s := by
  have h0 : DI (d ≤ ·) 0 s.ist := ⟨h.dec, Nat.zero_le _, h.sto, h.trail⟩
  by_cases hs : ∃ a, m.msg = .acceptSync a
  · obtain ⟨a, ha⟩ := hs
    unfold handle
    rw [ha]
    exact d_handle_acceptsync h0 a m.src (h1 a ha)
  by_cases hp : ∃ p, m.msg = .promise p
  · obtain ⟨p, hp⟩ := hp
    unfold handle
    rw [hp]
    simp only [KeepsD, handle_promise, M.sat_bind, M.sat_get]
    split
    · rename_i hr hph
      obtain ⟨h3, md, h4, h5⟩ := h2 p hp hr hph
      exact d_handle_promise_prepare h0 h3 h4 h5
    · exact d_handle_promise_accept h0 _ _
    · exact h0
  · exact d_weaken (d_handle h (fun a ha => hs ⟨a, ha⟩) fun p e => absurd ⟨p, e⟩ hp)

end SP

/-! ### The whole server -/

/-- Kept by everything a server does on its own other than compaction. -/
structure SP.Closed0On [SnapOps E S] (N : Ballot → Prop) (A : NodeId → Prop) (Q P : SP E S → Prop) : Prop where
  lead : ∀ n s, N n → Q s → M.Sat (SP.handle_leader n) s (fun _ => Q) P
  resend : ∀ s, Q s → M.Sat SP.resend_message_timeout s (fun _ => Q) P
  flush : ∀ s, Q s → M.Sat SP.flush_batch_timeout s (fun _ => Q) P
  append : ∀ e s, Q s → M.Sat (SP.append e) s (fun _ => Q) P
  reconf : ∀ c md s, Q s → M.Sat (SP.reconfigure c md) s (fun _ => Q) P
  recon : ∀ p s, A p → Q s → M.Sat (SP.reconnected p) s (fun _ => Q) P

structure SP.Closed0 [SnapOps E S] (Q P : SP E S → Prop) : Prop where
  lead : ∀ n s, Q s → M.Sat (SP.handle_leader n) s (fun _ => Q) P
  resend : ∀ s, Q s → M.Sat SP.resend_message_timeout s (fun _ => Q) P
  flush : ∀ s, Q s → M.Sat SP.flush_batch_timeout s (fun _ => Q) P
  append : ∀ e s, Q s → M.Sat (SP.append e) s (fun _ => Q) P
  reconf : ∀ c md s, Q s → M.Sat (SP.reconfigure c md) s (fun _ => Q) P
  recon : ∀ p s, Q s → M.Sat (SP.reconnected p) s (fun _ => Q) P

theorem SP.Closed0.on [SnapOps E S] {Q P : SP E S → Prop} (h : SP.Closed0 Q P) (N : Ballot → Prop) (A : NodeId → Prop) : SP.Closed0On N A Q P :=
  ⟨fun n s _ => h.lead n s, h.resend, h.flush, h.append, h.reconf, fun p s _ => h.recon p s⟩

/-- Kept by everything a server does on its own. -/
structure SP.Closed [SnapOps E S] (Q P : SP E S → Prop) : Prop extends SP.Closed0 Q P where
  trim : ∀ i s, Q s → M.Sat (SP.trim i) s (fun _ => Q) P
  snap : ∀ i l s, Q s → M.Sat (SP.snapshot i l) s (fun _ => Q) P

/-- The election hands a server only ballots of its own. -/
theorem BLE.hb_timeout_some {b : BLE} {r : Role} {p : Phase} {n x : Ballot} (h : (b.hb_timeout r p n).1 = some x) :
    x.pid = b.pid ∨ x.pid = b.current_ballot.pid := by
  have hx : x = (b.hb_timeout r p n).2.current_ballot := by
    simp only [BLE.hb_timeout] at h ⊢
    split at h
    · exact (Option.some.inj h).symm
    · cases h
  have h1 : ∀ c : BLE, c.check_takeover.pid = c.pid ∧ c.check_takeover.current_ballot.pid = c.current_ballot.pid := by
    intro c; unfold BLE.check_takeover; split <;> (try split) <;> exact ⟨rfl, rfl⟩
  have h2 : ∀ c : BLE, c.update_leader.pid = c.pid ∧ c.update_leader.current_ballot = c.current_ballot := by
    intro c; unfold BLE.update_leader; split <;> (try split) <;> exact ⟨rfl, rfl⟩
  have h3 := h1 (b.update_leader.update_happiness r p)
  have h4 := h2 b
  rw [hx]
  simp only [BLE.hb_timeout, BLE.sync_with_promise]
  split
  · simp only
    split
    · rename_i e
      exact .inl (e.trans (h3.1.trans h4.1))
    · exact .inr (h3.2.trans (congrArg Ballot.pid h4.2))
  · exact .inr (h3.2.trans (congrArg Ballot.pid h4.2))

theorem OP.run_closedOn [SnapOps E S] {N : Ballot → Prop} {A : NodeId → Prop} {Q P : SP E S → Prop} (hc : SP.Closed0On N A Q P) {op : OP E S}
    (hN : ∀ n : Ballot, n.pid = op.ble.pid ∨ n.pid = op.ble.current_ballot.pid → N n) (h : Q op.sp) (c : Call E S)
    (hA : ∀ p, c = .reconnected p → A p)
    (hm : ∀ m, c = .handleIncoming (.paxos m) → M.Sat (SP.handle m) op.sp (fun _ => Q) P)
    (ht : ∀ i, c = .trim i → M.Sat (SP.trim i) op.sp (fun _ => Q) P)
    (hs : ∀ i l, c = .snapshot i l → M.Sat (SP.snapshot i l) op.sp (fun _ => Q) P) :
    M.Sat c.run op (fun _ t => Q t.sp) (fun t => P t.sp) := by
  have lift : ∀ {α : Type} {m : M (SP E S) α} (o : OP E S), M.Sat m o.sp (fun _ => Q) P →
      M.Sat (OP.onSP m) o (fun _ t => Q t.sp) (fun t => P t.sp) := by
    intro α m o hm; rw [OP.sat_onSP]; exact hm
  cases c with
  | append e => simp only [Call.run, OP.append, M.sat_bind, M.sat_pure]; exact lift _ (hc.append e _ h)
  | reconfigure cc md =>
    simp only [Call.run, OP.reconfigure, M.sat_bind, M.sat_pure]
    split
    · exact h
    · exact lift _ (hc.reconf _ _ _ h)
  | tick =>
    simp only [Call.run, OP.tick, M.sat_bind, M.sat_get, M.sat_upd]
    have h1 : M.Sat (M.whenDo (op.election_clock.tick_and_check_timeout.1 = true) OP.election_timeout)
        { op with election_clock := op.election_clock.tick_and_check_timeout.2 } (fun _ t => Q t.sp) (fun t => P t.sp) := by
      rw [M.sat_whenDo]
      refine ⟨fun _ => ?_, fun _ => h⟩
      simp only [OP.election_timeout, M.sat_bind, M.sat_get, M.sat_upd]
      split
      · rename_i e; exact lift _ (hc.lead _ _ (hN _ (BLE.hb_timeout_some e)) h)
      · exact h
    refine M.sat_mono h1 (fun _ t ht => ?_) fun _ h => h
    have h2 : M.Sat (M.whenDo (op.resend_message_clock.tick_and_check_timeout.1 = true)
        (OP.onSP SP.resend_message_timeout)) { t with resend_message_clock := t.resend_message_clock.tick_and_check_timeout.2 }
        (fun _ t => Q t.sp) (fun t => P t.sp) := by
      rw [M.sat_whenDo]
      exact ⟨fun _ => lift _ (hc.resend _ ht), fun _ => ht⟩
    refine M.sat_mono h2 (fun _ u hu => ?_) fun _ h => h
    rw [M.sat_whenDo]
    exact ⟨fun _ => lift _ (hc.flush _ hu), fun _ => hu⟩
  | tryBecomeLeader =>
    simp only [Call.run, OP.try_become_leader, M.sat_bind, M.sat_get]
    exact lift _ (hc.lead _ _ (hN _ (.inr rfl)) h)
  | setPriority p => exact h
  | reconnected p => exact lift _ (hc.recon _ _ (hA _ rfl) h)
  | trim i => simp only [Call.run, OP.trim, M.sat_bind, M.sat_pure]; exact lift _ (ht _ rfl)
  | snapshot i lo => simp only [Call.run, OP.snapshot, M.sat_bind, M.sat_pure]; exact lift _ (hs _ _ rfl)
  | handleIncoming m =>
    simp only [Call.run, OP.handle_incoming]
    cases m with
    | paxos p => exact lift _ (hm p rfl)
    | ble x => exact h

theorem OP.run_closed0 [SnapOps E S] {Q P : SP E S → Prop} (hc : SP.Closed0 Q P) {op : OP E S} (h : Q op.sp) (c : Call E S)
    (hm : ∀ m, c = .handleIncoming (.paxos m) → M.Sat (SP.handle m) op.sp (fun _ => Q) P)
    (ht : ∀ i, c = .trim i → M.Sat (SP.trim i) op.sp (fun _ => Q) P)
    (hs : ∀ i l, c = .snapshot i l → M.Sat (SP.snapshot i l) op.sp (fun _ => Q) P) :
    M.Sat c.run op (fun _ t => Q t.sp) (fun t => P t.sp) :=
  OP.run_closedOn (hc.on (fun _ => True) fun _ => True) (fun _ _ => trivial) h c (fun _ _ => trivial) hm ht hs

theorem OP.run_closed [SnapOps E S] {Q P : SP E S → Prop} (hc : SP.Closed Q P) {op : OP E S} (h : Q op.sp) (c : Call E S)
    (hm : ∀ m, c = .handleIncoming (.paxos m) → M.Sat (SP.handle m) op.sp (fun _ => Q) P) :
    M.Sat c.run op (fun _ t => Q t.sp) (fun t => P t.sp) :=
  OP.run_closed0 hc.toClosed0 h c hm (fun _ _ => hc.trim _ _ h) fun _ _ _ => hc.snap _ _ _ h

theorem SP.closed_d [SnapOps E S] : SP.Closed (E := E) (S := S) (fun s => DI J lo s.ist) (fun s => DI J lo s.ist) where
  lead n _ h := SP.d_handle_leader h n
  resend _ h := SP.d_resend h
  flush _ h := SP.d_flush_timeout h
  append e _ h := SP.d_append h e
  reconf c md _ h := SP.d_reconfigure h c md
  recon p _ h := SP.d_reconnected h p
  trim i _ h := SP.d_trim h i
  snap i l _ h := SP.d_snapshot h i l

theorem SP.closed_q [SnapOps E S] {R : Ev} : SP.Closed0On (E := E) (S := S) (fun n => n.pid = R.me) (fun p => R.node p ∨ R.ask p) (QI R) (fun _ => True) where
  lead n _ hn h := SP.q_handle_leader h hn
  resend _ h := SP.q_resend h
  flush _ h := SP.q_flush_timeout h
  append e _ h := SP.q_append h e
  reconf c md _ h := SP.q_reconfigure h c md
  recon p _ hp h := SP.q_reconnected h p hp

end Omni
