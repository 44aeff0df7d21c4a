import Verif.Proof.SendOnly
import Verif.Spec.Batch
/-
Appending through the batch.
-/
namespace Omni

variable {E S : Type}

/-- Only log, batch and accepted index changed; `es` was added behind log and batch. -/
structure Appended (es : List E) (s s' : IStore E S) : Prop where
  storage : s'.storage = { s.storage with log := s'.storage.log }
  cache : s'.cache = { s.cache with batched_entries := s'.cache.batched_entries, accepted_idx := s'.cache.accepted_idx }
  log : s'.storage.log ++ s'.cache.batched_entries = s.storage.log ++ s.cache.batched_entries ++ es
  pre : s.storage.log <+: s'.storage.log
  idx : s'.cache.accepted_idx + s.storage.log.length = s.cache.accepted_idx + s'.storage.log.length

namespace IStore

theorem append_batched (es : List E) (s : IStore E S) :
    M.Sat (cache_append_entries es >>= flush_if_full_batch) s (fun r s' => Appended es s s' ∧
      (0 < s.cache.batch_size → s'.cache.batched_entries.length < s.cache.batch_size) ∧
      (∀ md, r = some md → md.accepted_idx = s'.cache.accepted_idx ∧
        md.entries = s.cache.batched_entries ++ es)) (fun _ => False) := by
  simp only [cache_append_entries, take_entries_if_batch_is_full, M.sat_bind, M.sat_get, sat_setCache, M.sat_ite,
    M.sat_pure, flush_if_full_batch, append_entries_without_batching, sat_write_append, sat_write_stopsign, sat_write_promise, sat_write_decided, Mem.append_entries]
  refine ⟨fun _ => ⟨⟨rfl, rfl, by simp, by simp, by simp; omega⟩, by simp, ?_⟩,
    fun hb => ⟨⟨rfl, rfl, by simp, by simp, by simp⟩, fun _ => by simp at hb ⊢; omega, by simp⟩⟩
  rintro md hmd
  simp at hmd
  subst hmd
  exact ⟨by simp, rfl⟩

theorem append_entry_spec (e : E) (s : IStore E S) :
    M.Sat (append_entry_with_batching e) s (fun r s' => Appended [e] s s' ∧
      (0 < s.cache.batch_size → s'.cache.batched_entries.length < s.cache.batch_size) ∧
      (∀ md, r = some md → md.accepted_idx = s'.cache.accepted_idx ∧
        md.entries = s.cache.batched_entries ++ [e])) (fun _ => False) := append_batched [e] s

theorem append_entries_spec (es : List E) (s : IStore E S) :
    M.Sat (append_entries_with_batching es) s (fun r s' => Appended es s s' ∧
      (0 < s.cache.batch_size → s'.cache.batched_entries.length < s.cache.batch_size) ∧
      (∀ md, r = some md → md.accepted_idx = s'.cache.accepted_idx ∧
        md.entries = s.cache.batched_entries ++ es)) (fun _ => False) := append_batched es s

theorem flush_get_spec (s : IStore E S) :
    M.Sat flush_batch_and_get_entries s (fun _ s' => Appended [] s s' ∧ s'.cache.batched_entries = []) (fun _ => False) := by
  simp only [flush_batch_and_get_entries, flush_if_full_batch, append_entries_without_batching, M.sat_bind, M.sat_get,
    M.sat_ite, sat_setCache, sat_write_append, sat_write_stopsign, sat_write_promise, sat_write_decided, M.sat_pure, Mem.append_entries]
  exact ⟨fun h => ⟨⟨rfl, rfl, by simp, by simp, rfl⟩, List.isEmpty_iff.1 h⟩,
    fun _ => ⟨⟨rfl, rfl, by simp, by simp, by simp; omega⟩, trivial⟩⟩

end IStore

namespace SP

/-- The leader's reaction to a flushed batch touches only its leader state and the outgoing buffer. -/
theorem accepted_leader_frame (md : Option (AcceptedMetaData E)) (s : SP E S) :
    M.Sat (accepted_leader md) s (fun _ s' => s' = { s with outgoing := s'.outgoing, ls := s'.ls }) (fun _ => True) := by
  cases md with
  | none => rfl
  | some md =>
    simp only [accepted_leader, M.sat_bind, M.sat_get, sat_onLS]
    refine ⟨fun ls _ => ?_, fun _ => trivial⟩
    refine M.sat_mono (so_send_acceptdecide md.entries) (fun _ t ht => ?_) fun _ _ => trivial
    rw [ht]

/-- Outcome of a proposal at a leader in accept phase. -/
theorem accept_frame {m : M (IStore E S) (Option (AcceptedMetaData E))} {s : SP E S}
    {Q : IStore E S → Prop} (hm : M.Sat m s.ist (fun _ i => Q i) (fun _ => False)) :
    M.Sat (onStore m >>= accepted_leader) s
      (fun _ s' => Q s'.ist ∧ s' = { s with ist := s'.ist, outgoing := s'.outgoing, ls := s'.ls }) (fun _ => True) := by
  rw [M.sat_bind, sat_onStore]
  refine M.sat_mono hm (fun md i hi => ?_) fun _ h => h.elim
  refine M.sat_mono (accepted_leader_frame md _) (fun _ t ht => ?_) fun _ _ => trivial
  have h1 : t.ist = i := by rw [ht]
  exact ⟨by rw [h1]; exact hi, by rw [ht]⟩

end SP

namespace IStore

theorem append_get_spec (es : List E) (s : IStore E S) :
    M.Sat (append_entries_and_get_accepted_idx es) s (fun _ s' => Appended es s s') (fun _ => False) := by
  simp only [append_entries_and_get_accepted_idx, cache_append_entries, take_entries_if_batch_is_full, M.sat_bind, M.sat_get,
    sat_setCache, M.sat_ite, M.sat_pure, append_entries_without_batching, sat_write_append, sat_write_stopsign, sat_write_promise, sat_write_decided, Mem.append_entries]
  exact ⟨fun _ => ⟨rfl, rfl, by simp, by simp, by simp; omega⟩, fun hb => ⟨rfl, rfl, by simp, by simp, by simp⟩⟩

theorem flush_batch_spec (s : IStore E S) :
    M.Sat flush_batch s (fun r s' => Appended [] s s' ∧ s'.cache.batched_entries = [] ∧ r = s'.cache.accepted_idx)
      (fun _ => False) := by
  simp only [flush_batch, append_entries_without_batching, M.sat_bind, M.sat_get, sat_setCache, sat_write_append, sat_write_stopsign, sat_write_promise, sat_write_decided, M.sat_pure,
    Mem.append_entries]
  exact ⟨⟨rfl, rfl, by simp, by simp, by simp; omega⟩, trivial, trivial⟩

theorem set_stopsign_spec (ss : Option StopSign) (s : IStore E S) :
    M.Sat (set_stopsign ss) s (fun _ s' => s'.storage.log = s.storage.log ∧
      s'.cache.batched_entries = s.cache.batched_entries ∧ s'.storage.stopsign = ss) (fun _ => True) := by
  simp only [set_stopsign, M.sat_bind, M.sat_get, M.sat_ofPan, sat_setCache, sat_write_append, sat_write_stopsign, sat_write_promise, sat_write_decided, M.sat_pure, Mem.set_stopsign]
  exact ⟨fun _ _ => ⟨trivial, trivial, trivial⟩, fun _ => trivial⟩

end IStore

/-- A numbered message with entries `es` and number `q` has been applied. -/
structure Applied (es : List E) (s : SP E S) (q : SeqNum) (s' : SP E S) : Prop where
  seq : s'.current_seq_num = q
  log : s'.ist.storage.log ++ s'.ist.cache.batched_entries = s.ist.storage.log ++ s.ist.cache.batched_entries ++ es
  role : s'.role = s.role
  phase : s'.phase = s.phase

/-- What updating the decided index leaves alone. -/
def SameLog (s s' : SP E S) : Prop :=
  s'.ist.storage.log ++ s'.ist.cache.batched_entries = s.ist.storage.log ++ s.ist.cache.batched_entries ∧
  s'.ist.storage.stopsign = s.ist.storage.stopsign ∧ s' = { s with ist := s'.ist }

namespace SP

theorem update_decided_spec (d : Nat) (s : SP E S) :
    M.Sat (update_decided_idx_and_get_accepted_idx d) s (fun _ s' => SameLog s s') (fun _ => False) := by
  simp only [update_decided_idx_and_get_accepted_idx, M.sat_bind, M.sat_get, M.sat_ite, M.sat_pure, sat_onStore,
    IStore.set_decided_idx, IStore.sat_setCache, IStore.sat_write_append, IStore.sat_write_stopsign, IStore.sat_write_promise, IStore.sat_write_decided, Mem.set_decided_idx]
  refine ⟨fun _ => ⟨rfl, rfl, rfl⟩, fun _ => ⟨fun _ => ?_, fun _ => ⟨rfl, rfl, rfl⟩⟩⟩
  refine M.sat_mono (IStore.flush_batch_spec s.ist) (fun _ i h => ?_) fun _ h => h
  have h1 := h.1.log
  refine ⟨by simpa using h1, ?_, rfl⟩
  show i.storage.stopsign = _
  rw [h.1.storage]

theorem reply_opt_spec (n : Ballot) (o : Option Nat) (s : SP E S) :
    M.Sat (reply_opt n o) s (fun _ s' => s'.ist = s.ist ∧ s'.current_seq_num = s.current_seq_num ∧ s'.role = s.role ∧
      s'.phase = s.phase) (fun _ => True) := by
  cases o with
  | none => exact ⟨rfl, rfl, rfl, rfl⟩
  | some i =>
    simp only [reply_opt, reply_accepted, M.sat_bind, M.sat_get, M.sat_ofPan]
    refine ⟨fun a _ => ?_, fun _ => trivial⟩
    cases a with
    | none => simp
    | some a => simp

end SP

theorem Applied.refl (s : SP E S) (q : SeqNum) : Applied [] s q { s with current_seq_num := q } :=
  ⟨rfl, by simp, rfl, rfl⟩

theorem Applied.start {es : List E} {s : SP E S} {q : SeqNum} {i : IStore E S} (h : Appended es s.ist i) :
    Applied es s q { s with current_seq_num := q, ist := i } := ⟨rfl, h.log, rfl, rfl⟩

theorem Applied.trans {es : List E} {s t u v : SP E S} {q : SeqNum} (h : Applied es s q t) (h1 : SameLog t u)
    (h2 : v.ist = u.ist ∧ v.current_seq_num = u.current_seq_num ∧ v.role = u.role ∧ v.phase = u.phase) :
    Applied es s q v := by
  obtain ⟨a, b, c⟩ := h1
  obtain ⟨d, e, f, g⟩ := h2
  refine ⟨?_, ?_, ?_, ?_⟩
  · rw [e, c]; exact h.seq
  · rw [d, a]; exact h.log
  · rw [f, c]; exact h.role
  · rw [g, c]; exact h.phase

end Omni
