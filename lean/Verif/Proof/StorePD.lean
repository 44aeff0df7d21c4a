import Verif.Proof.Sat
/-
Which storage operations change the promise and the decided index.
-/
namespace Omni

variable {E S : Type}

/-- Same promise and same decided index (of the cache). -/
def IStore.PD (i j : IStore E S) : Prop := j.cache.promise = i.cache.promise ∧ j.cache.decided_idx = i.cache.decided_idx

theorem IStore.PD.refl (i : IStore E S) : IStore.PD i i := ⟨rfl, rfl⟩

theorem IStore.PD.trans {i j k : IStore E S} (h : IStore.PD i j) (h' : IStore.PD j k) : IStore.PD i k :=
  ⟨h'.1.trans h.1, h'.2.trans h.2⟩

namespace IStore

variable {i : IStore E S}

/-- Running `m` changes neither, whether it returns or panics. -/
abbrev KeepsPD {α : Type} (m : M (IStore E S) α) (i : IStore E S) : Prop := M.Sat m i (fun _ j => PD i j) (PD i)

theorem pd_bind {α β : Type} {m : M (IStore E S) α} {f : α → M (IStore E S) β} (hm : KeepsPD m i)
    (hf : ∀ a j, KeepsPD (f a) j) : KeepsPD (m >>= f) i := by
  unfold KeepsPD; rw [M.sat_bind]
  exact M.sat_mono hm (fun a j h => M.sat_mono (hf a j) (fun _ _ h' => h.trans h') fun _ h' => h.trans h') fun _ h => h

theorem pd_append_nb (es : List E) : KeepsPD (append_entries_without_batching es) i := by
  simp only [KeepsPD, append_entries_without_batching, M.sat_bind, M.sat_get, sat_write_append, sat_write_stopsign, sat_write_promise, sat_write_decided, sat_setCache, M.sat_pure]
  exact ⟨rfl, rfl⟩

theorem pd_take : KeepsPD take_entries_if_batch_is_full i := by
  simp only [KeepsPD, take_entries_if_batch_is_full, M.sat_bind, M.sat_get, M.sat_ite, sat_setCache, M.sat_pure]
  exact ⟨fun _ => ⟨rfl, rfl⟩, fun _ => ⟨rfl, rfl⟩⟩

theorem pd_cache_append (es : List E) : KeepsPD (cache_append_entries es) i :=
  pd_bind (m := setCache _) ⟨rfl, rfl⟩ fun _ _ => pd_take

theorem pd_flush_if (r : Option (List E)) : KeepsPD (flush_if_full_batch r) i := by
  cases r with
  | none => exact ⟨rfl, rfl⟩
  | some es => exact pd_bind (pd_append_nb es) fun _ j => .refl j

theorem pd_append_entries (es : List E) : KeepsPD (append_entries_with_batching es) i :=
  pd_bind (pd_cache_append es) fun r _ => pd_flush_if r

theorem pd_append_get (es : List E) : KeepsPD (append_entries_and_get_accepted_idx es) i := by
  refine pd_bind (pd_cache_append es) fun r j => ?_
  cases r with
  | none => exact .refl j
  | some es => exact pd_bind (pd_append_nb es) fun _ j => .refl j

theorem pd_append_ss (ss : StopSign) : KeepsPD (append_stopsign ss) i := by
  unfold append_stopsign
  refine pd_bind ?_ fun r j => pd_bind (pd_flush_if r) fun md k => ?_
  · simp only [KeepsPD, cache_append_stopsign, M.sat_bind, M.sat_get, sat_setCache, M.sat_ite, M.sat_pure]
    exact ⟨fun _ => ⟨rfl, rfl⟩, fun _ => ⟨rfl, rfl⟩⟩
  · exact ⟨rfl, rfl⟩

theorem pd_flush : KeepsPD flush_batch i := by
  simp only [KeepsPD, flush_batch, M.sat_bind, M.sat_get, sat_setCache]
  exact pd_append_nb (i := { i with cache := { i.cache with batched_entries := [] } }) _

theorem pd_flush_get : KeepsPD flush_batch_and_get_entries i := by
  simp only [KeepsPD, flush_batch_and_get_entries, M.sat_bind, M.sat_get, M.sat_ite, sat_setCache]
  exact ⟨fun _ => pd_flush_if _, fun _ => pd_flush_if (i := { i with cache := { i.cache with batched_entries := [] } }) _⟩

theorem pd_try_trim (k : Nat) : KeepsPD (try_trim k) i := by
  simp only [KeepsPD, try_trim, M.sat_bind, M.sat_get, M.sat_ofPan]
  refine ⟨fun t _ => ?_, fun _ => .refl i⟩
  cases t with
  | error e => exact .refl i
  | ok k =>
    simp only [M.sat_ite, M.sat_bind, sat_setCache, M.sat_pure, sat_writeOps]
    exact ⟨fun _ => ⟨fun m _ => ⟨rfl, rfl⟩, fun _ => .refl i⟩, fun _ => .refl i⟩

theorem pd_try_snapshot [SnapOps E S] (k : Option Nat) : KeepsPD (try_snapshot k) i := by
  simp only [KeepsPD, try_snapshot, M.sat_bind, M.sat_get, M.sat_ofPan]
  refine ⟨fun t _ => ?_, fun _ => .refl i⟩
  cases t with
  | error e => exact .refl i
  | ok k =>
    simp only [M.sat_ite, M.sat_bind, M.sat_ofPan, M.sat_pure]
    refine ⟨fun _ => ⟨fun r hr => ?_, fun _ => .refl i⟩, fun _ => .refl i⟩
    cases r with
    | error e => exact .refl i
    | ok x =>
      simp only [M.sat_bind, sat_setCache, M.sat_pure, sat_writeOps]
      exact ⟨fun m _ => ⟨rfl, rfl⟩, fun _ => .refl i⟩

theorem pd_set_stopsign (ss : Option StopSign) : KeepsPD (set_stopsign ss) i := by
  simp only [KeepsPD, set_stopsign, M.sat_bind, M.sat_get, M.sat_ofPan, sat_setCache, sat_write_append, sat_write_stopsign, sat_write_promise, sat_write_decided, M.sat_pure]
  exact ⟨fun a _ => ⟨rfl, rfl⟩, fun _ => .refl i⟩

theorem pd_set_promise (b : Ballot) : M.Sat (set_promise b) i
    (fun _ j => j.cache.promise = b ∧ j.cache.decided_idx = i.cache.decided_idx) fun _ => False := by
  simp only [set_promise, M.sat_bind, M.sat_get, sat_setCache, sat_write_append, sat_write_stopsign, sat_write_promise, sat_write_decided]; trivial

theorem pd_set_decided (d : Nat) : M.Sat (set_decided_idx d) i
    (fun _ j => j.cache.promise = i.cache.promise ∧ j.cache.decided_idx = d) fun _ => False := by
  simp only [set_decided_idx, M.sat_bind, M.sat_get, sat_setCache, sat_write_append, sat_write_stopsign, sat_write_promise, sat_write_decided]; trivial

theorem pd_sync_log [SnapOps E S] (n : Ballot) (d : Nat) (l : Option (LogSync E S)) : M.Sat (sync_log n d l) i
    (fun _ j => j.cache.promise = i.cache.promise ∧ j.cache.decided_idx = d) fun _ => True := by
  simp only [sync_log, M.sat_bind, sat_setCache]
  cases l with
  | none =>
    simp only [M.sat_bind, sat_writeOps, M.sat_get, M.sat_pure]
    exact ⟨fun _ _ => by simp, fun _ => trivial⟩
  | some l =>
    simp only [M.sat_bind, M.sat_get, M.sat_ofPan, sat_setCache, sat_writeOps, M.sat_pure]
    exact ⟨fun os hos => ⟨fun _ _ => by simp, fun _ => trivial⟩, fun _ => trivial⟩

end IStore
end Omni
