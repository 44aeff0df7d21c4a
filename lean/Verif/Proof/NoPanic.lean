import Verif.Proof.DecidedIdx
import Verif.Proof.Project
/-
Which calls can panic: every index into the leader's vectors and into the outgoing buffer is in range, so a panic can only come
from a log that was cut off at the front, or from the snapshot type. Independent of the network.

The invariant comes in two strengths: with `cl = true` nothing was ever cut off and no snapshot is on its way ("clean"), with
`cl = false` it allows compaction.
-/
namespace Omni

variable {E S : Type}

/-- In a clean run no log was ever cut off at the front: a promise or AcceptSync without a snapshot, and no compaction
request. -/
def PaxosMsg.Clean (cl : Bool) : PaxosMsg E S → Prop
  | .promise p => cl = true → ∀ y, p.log_sync = some y → y.decided_snapshot = none
  | .acceptSync a => cl = true → a.log_sync.decided_snapshot = none
  | .compaction _ => cl = false
  | _ => True

/-- What storage holds: the two indexes agree, and in a clean run nothing is trimmed. -/
structure DH (cl : Bool) (d : Mem E S) : Prop where
  eq : d.trimmed_idx = d.compacted_idx
  clean : cl = true → d.trimmed_idx = 0

/-- The storage now and at every write of the call. -/
structure TI (cl : Bool) (i : IStore E S) : Prop where
  disk : DH cl i.storage
  trail : ∀ d ∈ i.trail, DH cl d

/-- The internal storage between two operations. -/
structure IH (cl : Bool) (i : IStore E S) : Prop extends TI cl i where
  cac : i.cache.compacted_idx = i.storage.compacted_idx
  stop : i.cache.stopsign.isSome = true → 1 ≤ i.cache.accepted_idx

/-- The leader state has a slot for each of the pids `1..N`, and its references into the outgoing buffer are below `L`. -/
structure LH (cl : Bool) (N L : Nat) (ls : LeaderState E S) : Prop where
  mp : ls.max_pid = N
  l1 : ls.promises_meta.length = N
  l2 : ls.follower_seq_nums.length = N
  l3 : ls.accepted_indexes.length = N
  l4 : ls.latest_accept_meta.length = N
  refs : ∀ (k : Nat) (b : Ballot) (j : Nat), ls.latest_accept_meta[k]? = some (some (b, j)) → j < L
  slots : ∀ (k : Nat) (m : PromiseMetaData), ls.promises_meta[k]? = some (.promised m) → m.pid = k + 1
  sync : cl = true → ∀ y, ls.max_promise_sync = some y → y.decided_snapshot = none

structure HI (cl : Bool) (N me : Nat) (s : SP E S) : Prop where
  pid : s.pid = me
  own : 1 ≤ me ∧ me ≤ N
  peers : ∀ p ∈ s.peers, 1 ≤ p ∧ p ≤ N
  ist : IH cl s.ist
  ls : LH cl N s.outgoing.length s.ls
  ref : ∀ b j, s.latest_accepted_meta = some (b, j) → j < s.outgoing.length
  out : ∀ m ∈ s.outgoing, m.src = me ∧ m.msg.Clean cl
  cached : ∀ p, s.cached_promise = some p → (PaxosMsg.promise p).Clean cl

/-- What an incoming message must be. -/
structure PaxosMessage.Fine (cl : Bool) (N : Nat) (m : PaxosMessage E S) : Prop where
  src : 1 ≤ m.src ∧ m.src ≤ N
  clean : m.msg.Clean cl

variable {cl : Bool} {N L me : Nat} {s : SP E S}

/-! ### Slots -/

theorem slot_some {α : Type} {l : List α} (hl : l.length = N) {p : NodeId} (hp : 1 ≤ p ∧ p ≤ N) : ∃ x, slot l p = some x := by
  obtain ⟨k, rfl⟩ : ∃ k, p = k + 1 := ⟨p - 1, by omega⟩
  have : k < l.length := by omega
  exact ⟨l[k], by simp [slot, this]⟩

theorem setSlot_some {α : Type} {l : List α} (hl : l.length = N) {p : NodeId} (hp : 1 ≤ p ∧ p ≤ N) (a : α) :
    ∃ v, setSlot l p a = some v ∧ v.length = N := by
  obtain ⟨k, rfl⟩ : ∃ k, p = k + 1 := ⟨p - 1, by omega⟩
  have : k < l.length := by omega
  exact ⟨l.set k a, by simp [setSlot, this], by simp [hl]⟩

theorem promisedFrom_range {own : NodeId} {l : List PromiseState} {k x : Nat} (h : x ∈ LeaderState.promisedFrom own k l) :
    k ≤ x ∧ x < k + l.length ∧ ∃ m, l[x - k]? = some (.promised m) := by
  induction l generalizing k with
  | nil => cases h
  | cons p l ih =>
    simp only [LeaderState.promisedFrom] at h
    have rest : x ∈ LeaderState.promisedFrom own (k + 1) l →
        k ≤ x ∧ x < k + (p :: l).length ∧ ∃ m, (p :: l)[x - k]? = some (.promised m) := by
      intro h
      obtain ⟨h1, h2, m, h3⟩ := ih h
      refine ⟨by omega, by simp only [List.length_cons]; omega, m, ?_⟩
      rw [show x - k = (x - (k + 1)) + 1 by omega]
      simpa using h3
    split at h
    · rename_i hc
      rcases List.mem_cons.1 h with rfl | h
      · refine ⟨Nat.le_refl _, by simp, ?_⟩
        cases p with
        | promised m => exact ⟨m, by simp⟩
        | notPromised => simp [PromiseState.isPromised] at hc
        | promisedHigher => simp [PromiseState.isPromised] at hc
      · exact rest h
    · exact rest h

theorem followers_range {ls : LeaderState E S} (h : LH cl N L ls) {x : NodeId} (hx : x ∈ ls.get_promised_followers) :
    (1 ≤ x ∧ x ≤ N) ∧ ∃ m, slot ls.promises_meta x = some (.promised m) := by
  obtain ⟨h1, h2, m, h3⟩ := promisedFrom_range hx
  refine ⟨⟨h1, by rw [h.l1] at h2; omega⟩, m, ?_⟩
  obtain ⟨k, rfl⟩ : ∃ k, x = k + 1 := ⟨x - 1, by omega⟩
  simpa [slot] using h3

theorem LH.mono {ls : LeaderState E S} (h : LH cl N L ls) {L' : Nat} (hl : L ≤ L') : LH cl N L' ls :=
  ⟨h.mp, h.l1, h.l2, h.l3, h.l4, fun k b j e => Nat.lt_of_lt_of_le (h.refs k b j e) hl, h.slots, h.sync⟩

theorem LH.with (n : Ballot) (q : Quorum) : LH cl N L (LeaderState.with n N q : LeaderState E S) := by
  refine ⟨rfl, by simp [LeaderState.with], by simp [LeaderState.with], by simp [LeaderState.with], by simp [LeaderState.with],
    fun k b j e => ?_, fun k m e => ?_, nofun⟩
  · simp only [LeaderState.with, List.getElem?_replicate] at e; split at e <;> cases e
  · simp only [LeaderState.with, List.getElem?_replicate] at e; split at e <;> cases e

namespace LeaderState

variable {ls : LeaderState E S} {p : NodeId}

theorem h_off (h : LH cl N L ls) (hp : 1 ≤ p ∧ p ≤ N) {st : PromiseState} (hst : st.isPromised = false) :
    ∃ v, setSlot ls.promises_meta p st = some v ∧ LH cl N L { ls with promises_meta := v } := by
  obtain ⟨v, hv, hl⟩ := setSlot_some h.l1 hp st
  refine ⟨v, hv, h.mp, hl, h.l2, h.l3, h.l4, h.refs, fun k m e => ?_, h.sync⟩
  rcases SP.setSlot_get hv e with ⟨_, rfl⟩ | e
  · simp [PromiseState.isPromised] at hst
  · exact h.slots k m e

theorem h_reset (h : LH cl N L ls) (hp : 1 ≤ p ∧ p ≤ N) : ∃ ls', ls.reset_promise p = some ls' ∧ LH cl N L ls' := by
  obtain ⟨v, hv, h'⟩ := h_off h hp (st := .notPromised) rfl
  exact ⟨_, by simp only [reset_promise, hv], h'⟩

theorem h_lost (h : LH cl N L ls) (hp : 1 ≤ p ∧ p ≤ N) : ∃ ls', ls.lost_promise p = some ls' ∧ LH cl N L ls' := by
  obtain ⟨v, hv, h'⟩ := h_off h hp (st := .promisedHigher) rfl
  exact ⟨_, by simp only [lost_promise, hv], h'⟩

theorem h_set_promise (h : LH cl N L ls) {f : NodeId} (hp : 1 ≤ f ∧ f ≤ N) {pr : Promise E S} (hc : (PaxosMsg.promise pr).Clean cl)
    (ck : Bool) : ∃ r, ls.set_promise pr f ck = some r ∧ LH cl N L r.1 ∧ ∃ m, slot r.1.promises_meta f = some (.promised m) := by
  obtain ⟨m, hm, hpid⟩ : ∃ m : PromiseMetaData, m = { n_accepted := pr.n_accepted, accepted_idx := pr.accepted_idx, decided_idx := pr.decided_idx, pid := f } ∧ m.pid = f := ⟨_, rfl, rfl⟩
  have h1 : LH cl N L (ls.update_max m pr.log_sync ck) := by
    unfold update_max
    split
    · exact ⟨h.mp, h.l1, h.l2, h.l3, h.l4, h.refs, h.slots, hc⟩
    · exact h
  obtain ⟨v, hv, hl⟩ := setSlot_some h1.l1 hp (.promised m)
  refine ⟨({ ls.update_max m pr.log_sync ck with promises_meta := v }, _),
    by simp only [set_promise, ← hm, hv]; rfl, ⟨h1.mp, hl, h1.l2, h1.l3, h1.l4, h1.refs, fun k x e => ?_, h1.sync⟩, m, ?_⟩
  · rcases SP.setSlot_get hv e with ⟨e1, e2⟩ | e
    · cases e2; rw [hpid]; exact e1.symm
    · exact h1.slots k x e
  · obtain ⟨k, rfl⟩ : ∃ k, f = k + 1 := ⟨f - 1, by omega⟩
    simp only [setSlot] at hv
    split at hv
    · rename_i hk
      cases hv
      simp [slot, hk]
    · cases hv

theorem h_ref (h : LH cl N L ls) (hp : 1 ≤ p ∧ p ≤ N) {i : Option Nat} {L' : Nat} (hi : ∀ j, i = some j → j < L') (hL : L ≤ L') :
    ∃ ls', ls.set_latest_accept_meta p i = some ls' ∧ LH cl N L' ls' ∧ ls'.promises_meta = ls.promises_meta := by
  obtain ⟨v, hv, hl⟩ := setSlot_some h.l4 hp (i.map fun x => (ls.n_leader, x))
  refine ⟨{ ls with latest_accept_meta := v }, by simp only [set_latest_accept_meta, hv],
    ⟨h.mp, h.l1, h.l2, h.l3, hl, fun k b j e => ?_, h.slots, h.sync⟩, rfl⟩
  rcases SP.setSlot_get hv e with ⟨_, e⟩ | e
  · cases i with
    | none => cases e
    | some x => cases e; exact hi _ rfl
  · exact Nat.lt_of_lt_of_le (h.refs k b j e) hL

theorem h_next (h : LH cl N L ls) (hp : 1 ≤ p ∧ p ≤ N) :
    ∃ r, ls.next_seq_num p = some r ∧ LH cl N L r.1 ∧ r.1.promises_meta = ls.promises_meta := by
  obtain ⟨q, hq⟩ := slot_some h.l2 hp
  obtain ⟨v, hv, hl⟩ := setSlot_some h.l2 hp ({ q with counter := q.counter + 1 } : SeqNum)
  exact ⟨({ ls with follower_seq_nums := v }, _), by simp only [next_seq_num, hq, hv]; rfl,
    ⟨h.mp, h.l1, hl, h.l3, h.l4, h.refs, h.slots, h.sync⟩, rfl⟩

theorem h_incr (h : LH cl N L ls) (hp : 1 ≤ p ∧ p ≤ N) :
    ∃ ls', ls.increment_seq_num_session p = some ls' ∧ LH cl N L ls' ∧ ls'.promises_meta = ls.promises_meta := by
  obtain ⟨q, hq⟩ := slot_some h.l2 hp
  obtain ⟨v, hv, hl⟩ := setSlot_some h.l2 hp ({ session := q.session + 1, counter := 0 } : SeqNum)
  exact ⟨{ ls with follower_seq_nums := v }, by simp only [increment_seq_num_session, hq, hv],
    ⟨h.mp, h.l1, hl, h.l3, h.l4, h.refs, h.slots, h.sync⟩, rfl⟩

theorem h_accepted (h : LH cl N L ls) (hp : 1 ≤ p ∧ p ≤ N) (i : Nat) :
    ∃ ls', ls.set_accepted_idx p i = some ls' ∧ LH cl N L ls' ∧ ls'.promises_meta = ls.promises_meta := by
  obtain ⟨v, hv, hl⟩ := setSlot_some h.l3 hp i
  exact ⟨{ ls with accepted_indexes := v }, by simp only [set_accepted_idx, hv],
    ⟨h.mp, h.l1, h.l2, hl, h.l4, h.refs, h.slots, h.sync⟩, rfl⟩

theorem h_preparable (h : LH cl N L ls) {ps : List NodeId} (hp : ∀ p ∈ ps, 1 ≤ p ∧ p ≤ N) :
    ∃ r, ls.get_preparable_peers ps = some r := by
  induction ps with
  | nil => exact ⟨[], rfl⟩
  | cons p ps ih =>
    obtain ⟨x, hx⟩ := slot_some h.l1 (hp p (List.mem_cons_self))
    obtain ⟨r, hr⟩ := ih fun q hq => hp q (List.mem_cons_of_mem _ hq)
    simp only [get_preparable_peers, hx, hr]
    cases x <;> exact ⟨_, rfl⟩

end LeaderState

/-! ### The internal storage -/

namespace IStore

/-- Running `m` keeps the invariant, leaves the compacted index, and does not panic. -/
abbrev SafeI (cl : Bool) {α : Type} (m : M (IStore E S) α) (i : IStore E S) : Prop :=
  M.Sat m i (fun _ j => IH cl j ∧ j.cache.compacted_idx = i.cache.compacted_idx) (fun _ => False)

variable {i : IStore E S}

theorem TI_write (h : TI cl i) {m : Mem E S} {c : StateCache E} {cs : List (StorageCall E S)} (hm : DH cl m) :
    TI cl ({ storage := m, cache := c, trail := m :: i.trail, calls := cs } : IStore E S) :=
  ⟨hm, fun d hd => by
    rcases List.mem_cons.1 hd with rfl | hd
    · exact hm
    · exact h.trail d hd⟩

theorem IH_write (h : IH cl i) {m : Mem E S} {c : StateCache E} {cs : List (StorageCall E S)} (hm : DH cl m)
    (hc : c.compacted_idx = m.compacted_idx) (hs : c.stopsign.isSome = true → 1 ≤ c.accepted_idx) :
    IH cl ({ storage := m, cache := c, trail := m :: i.trail, calls := cs } : IStore E S) :=
  ⟨TI_write h.toTI hm, hc, hs⟩

theorem DH_of {d m : Mem E S} (h : DH cl d) (h1 : m.trimmed_idx = d.trimmed_idx) (h2 : m.compacted_idx = d.compacted_idx) : DH cl m :=
  ⟨by rw [h1, h2]; exact h.eq, by rw [h1]; exact h.clean⟩

theorem i_append_nb (h : IH cl i) (es : List E) : SafeI cl (append_entries_without_batching es) i := by
  simp only [SafeI, append_entries_without_batching, M.sat_bind, M.sat_get, sat_write_append, sat_write_stopsign, sat_write_promise, sat_write_decided, sat_setCache, M.sat_pure]
  exact ⟨IH_write h (m := i.storage.append_entries es) (DH_of h.disk rfl rfl) h.cac fun e => Nat.le_trans (h.stop e) (Nat.le_add_right _ _), trivial⟩

/-- The batched entries do not matter. -/
theorem _root_.Omni.IH.batch (h : IH cl i) (b : List E) : IH cl { i with cache := { i.cache with batched_entries := b } } :=
  ⟨⟨h.disk, h.trail⟩, h.cac, h.stop⟩

theorem i_flush_if (h : IH cl i) (r : Option (List E)) : SafeI cl (flush_if_full_batch r) i := by
  cases r with
  | none => exact ⟨h, rfl⟩
  | some l =>
    simp only [SafeI, flush_if_full_batch, M.sat_bind, M.sat_pure]
    exact i_append_nb h l

theorem i_cache_append (h : IH cl i) (es : List E) : SafeI cl (cache_append_entries es) i := by
  simp only [SafeI, cache_append_entries, take_entries_if_batch_is_full, M.sat_bind, M.sat_get, sat_setCache, M.sat_ite, M.sat_pure]
  exact ⟨fun _ => ⟨h.batch [], trivial⟩, fun _ => ⟨h.batch _, trivial⟩⟩

theorem SafeI.bind {α β : Type} {m : M (IStore E S) α} {f : α → M (IStore E S) β} (hm : SafeI cl m i)
    (hf : ∀ a j, IH cl j → SafeI cl (f a) j) : SafeI cl (m >>= f) i := by
  simp only [SafeI, M.sat_bind]
  exact M.sat_mono hm (fun a j hj => M.sat_mono (hf a j hj.1) (fun _ _ hk => ⟨hk.1, hk.2.trans hj.2⟩) fun _ h => h) fun _ h => h

theorem i_append_entries (h : IH cl i) (es : List E) : SafeI cl (append_entries_with_batching es) i :=
  SafeI.bind (i_cache_append h es) fun r _ hj => i_flush_if hj r

theorem i_append_get (h : IH cl i) (es : List E) : SafeI cl (append_entries_and_get_accepted_idx es) i := by
  refine SafeI.bind (i_cache_append h es) fun r j hj => ?_
  cases r with
  | none => exact ⟨hj, rfl⟩
  | some l => simp only [SafeI, M.sat_bind, M.sat_pure]; exact i_append_nb hj l

theorem i_append_ss (h : IH cl i) (ss : StopSign) : SafeI cl (append_stopsign ss) i := by
  have hd := h.disk
  have hd' : DH cl (i.storage.append_entries i.cache.batched_entries) := DH_of hd rfl rfl
  simp only [SafeI, append_stopsign, cache_append_stopsign, M.sat_bind, M.sat_get, sat_setCache, M.sat_ite, M.sat_pure]
  refine ⟨fun _ => ?_, fun _ => ?_⟩
  · simp only [flush_if_full_batch, M.sat_pure, sat_write_stopsign, sat_setCache]
    exact ⟨⟨TI_write (m := i.storage.set_stopsign (some ss)) h.toTI (DH_of hd rfl rfl), h.cac, fun _ => Nat.le_add_left _ _⟩, trivial⟩
  · simp only [flush_if_full_batch, append_entries_without_batching, M.sat_bind, M.sat_get, M.sat_pure, sat_write_append, sat_write_stopsign, sat_setCache]
    refine ⟨⟨?_, h.cac, fun _ => Nat.le_add_left _ _⟩, trivial⟩
    refine ⟨DH_of hd rfl rfl, fun d hm => ?_⟩
    rcases List.mem_cons.1 hm with rfl | hm
    · exact DH_of hd rfl rfl
    · rcases List.mem_cons.1 hm with rfl | hm
      · exact hd'
      · exact h.trail d hm

theorem i_flush (h : IH cl i) : SafeI cl flush_batch i := by
  simp only [SafeI, flush_batch, M.sat_bind, M.sat_get, sat_setCache]
  exact i_append_nb (h.batch []) _

theorem i_flush_get (h : IH cl i) : SafeI cl flush_batch_and_get_entries i := by
  simp only [SafeI, flush_batch_and_get_entries, M.sat_bind, M.sat_get, sat_setCache, M.sat_ite]
  exact ⟨fun _ => i_flush_if h none, fun _ => i_flush_if (h.batch []) _⟩

theorem i_set_promise (h : IH cl i) (b : Ballot) : SafeI cl (set_promise b) i := by
  simp only [SafeI, set_promise, M.sat_bind, M.sat_get, sat_setCache, sat_write_append, sat_write_stopsign, sat_write_promise, sat_write_decided]
  exact ⟨IH_write h (m := i.storage.set_promise b) (DH_of h.disk rfl rfl) h.cac h.stop, trivial⟩

theorem i_set_decided (h : IH cl i) (d : Nat) : SafeI cl (set_decided_idx d) i := by
  simp only [SafeI, set_decided_idx, M.sat_bind, M.sat_get, sat_setCache, sat_write_append, sat_write_stopsign, sat_write_promise, sat_write_decided]
  exact ⟨IH_write h (m := i.storage.set_decided_idx d) (DH_of h.disk rfl rfl) h.cac h.stop, trivial⟩

theorem i_set_stopsign (h : IH cl i) (ss : StopSign) : SafeI cl (set_stopsign (some ss)) i := by
  simp only [SafeI, set_stopsign, M.sat_bind, M.sat_get, M.sat_ofPan, sat_setCache, sat_write_append, sat_write_stopsign, sat_write_promise, sat_write_decided, M.sat_pure]
  refine ⟨fun a e => ⟨IH_write h (m := i.storage.set_stopsign (some ss)) (DH_of h.disk rfl rfl) h.cac fun _ => ?_, trivial⟩, fun e => by split at e <;> simp_all⟩
  split at e <;> simp_all
  · omega
  · have := h.stop (Option.isSome_iff_ne_none.2 (by assumption)); omega

/-! Compaction -/

theorem decided_wss (h : IH cl i) : ∃ k, i.get_decided_idx_without_stopsign = some k ∧ i.cache.decided_idx ≤ k + 1 := by
  unfold get_decided_idx_without_stopsign
  split
  · rename_i hs
    simp only [StateCache.stopsign_is_decided, Bool.and_eq_true, decide_eq_true_eq] at hs
    have := h.stop hs.1
    exact ⟨i.cache.decided_idx - 1, by simp only [usub]; rw [if_pos (by omega)], by omega⟩
  · exact ⟨_, rfl, by omega⟩

theorem target (h : IH cl i) (idx : Option Nat) : ∃ r, i.compactTarget idx = some r := by
  obtain ⟨k, hk, -⟩ := decided_wss h
  simp only [compactTarget, hk]
  cases idx with
  | none => exact ⟨_, rfl⟩
  | some j => simp only; split; · exact ⟨_, rfl⟩
              split <;> exact ⟨_, rfl⟩

theorem trim_to {d : Mem E S} (h : DH cl d) (hcl : cl = false) {k : Nat} (hk : d.compacted_idx ≤ k) :
    ∃ m, d.trim k = some m ∧ m.trimmed_idx = k := by
  have : usub k d.trimmed_idx = some (k - d.trimmed_idx) := by rw [usub, if_pos (by rw [h.eq]; exact hk)]
  exact ⟨_, by simp only [Mem.trim, this]; rfl, rfl⟩

theorem i_try_trim (h : IH cl i) (hcl : cl = false) (k : Nat) : M.Sat (try_trim k) i (fun _ j => IH cl j) (fun _ => False) := by
  obtain ⟨r, hr⟩ := target h (some k)
  simp only [try_trim, M.sat_bind, M.sat_get, M.sat_ofPan, hr]
  refine ⟨fun _ e => ?_, nofun⟩
  cases e
  cases r with
  | error e => exact h
  | ok c =>
    simp only [M.sat_ite, M.sat_bind, sat_writeOps, sat_setCache, M.sat_pure]
    refine ⟨fun hc => ?_, fun _ => h⟩
    obtain ⟨m, hm, ht⟩ := trim_to h.disk hcl (k := c) (by rw [← h.cac]; omega)
    have : i.storage.write_atomically [.trim c, .setCompactedIdx c] = some (m.set_compacted_idx c) := by
      simp [Mem.write_atomically, Mem.apply, hm]
    rw [this]
    refine ⟨fun _ e => ?_, nofun⟩
    cases e
    exact IH_write h ⟨ht, fun e => by rw [hcl] at e; cases e⟩ rfl h.stop

theorem get_entries_ok {d : Mem E S} (h : DH cl d) {a b : Nat} (ha : d.compacted_idx ≤ a) (hb : d.compacted_idx ≤ b) :
    ∃ es, d.get_entries a b = some es := by
  have e := h.eq
  have h1 : usub a d.trimmed_idx = some (a - d.trimmed_idx) := by rw [usub, if_pos (by omega)]
  have h2 : usub b d.trimmed_idx = some (b - d.trimmed_idx) := by rw [usub, if_pos (by omega)]
  exact ⟨_, by simp only [Mem.get_entries, h1, h2]; rfl⟩

/-- Creating a snapshot fails only for an index below the compacted one, or in the snapshot type. -/
theorem create_ok [SnapOps E S] (ht : SnapTotal E S) (hd : DH cl i.storage) (hc : i.cache.compacted_idx = i.storage.compacted_idx)
    {k : Nat} (hk : i.cache.compacted_idx ≤ k) : ∃ x, i.create_snapshot k = some (.ok x) := by
  obtain ⟨es, he⟩ := get_entries_ok hd (a := i.cache.compacted_idx) (b := k) (by omega) (by omega)
  obtain ⟨x, hx⟩ := ht.1 es
  simp only [create_snapshot, if_neg (Nat.not_lt.2 hk), he, hx]
  cases i.storage.snapshot with
  | none => exact ⟨_, rfl⟩
  | some y =>
    obtain ⟨z, hz⟩ := ht.2 y x
    exact ⟨z, by simp only [hz]⟩

theorem i_try_snapshot [SnapOps E S] (h : IH cl i) (hcl : cl = false) (k : Option Nat) :
    M.Sat (try_snapshot k) i (fun _ j => IH cl j) (fun j => TI cl j ∧ ¬ SnapTotal E S) := by
  obtain ⟨r, hr⟩ := target h k
  simp only [try_snapshot, M.sat_bind, M.sat_get, M.sat_ofPan, hr]
  refine ⟨fun _ e => ?_, nofun⟩
  cases e
  cases r with
  | error e => exact h
  | ok c =>
    simp only [M.sat_ite, M.sat_bind, M.sat_ofPan, M.sat_pure]
    refine ⟨fun hc => ⟨fun r _ => ?_, fun e => ⟨h.toTI, fun ht => ?_⟩⟩, fun _ => h⟩
    · cases r with
      | error e => exact h
      | ok sn =>
        simp only [M.sat_bind, sat_writeOps, sat_setCache, M.sat_pure]
        obtain ⟨m, hm, ht⟩ := trim_to h.disk hcl (k := c) (by rw [← h.cac]; omega)
        have : i.storage.write_atomically [.trim c, .setCompactedIdx c, .setSnapshot (some sn)] =
            some ((m.set_compacted_idx c).set_snapshot (some sn)) := by
          simp [Mem.write_atomically, Mem.apply, hm]
        rw [this]
        refine ⟨fun _ e => ?_, nofun⟩
        cases e
        exact IH_write h ⟨ht, fun e => by rw [hcl] at e; cases e⟩ rfl h.stop
    · obtain ⟨x, hx⟩ := create_ok ht h.disk h.cac (k := c) (by omega)
      rw [e] at hx; cases hx

/-! Log synchronisation -/

theorem i_ss_ops {m : Mem E S} (hm : DH cl m) (a b : Option StopSign) :
    ∃ m', m.write_atomically (syncStopsignOps a b) = some m' ∧ DH cl m' ∧ m'.compacted_idx = m.compacted_idx := by
  cases a <;> cases b <;> exact ⟨_, rfl, DH_of hm rfl rfl, rfl⟩

theorem write_append (m : Mem E S) (a b : List (StorageOp E S)) :
    m.write_atomically (a ++ b) = match m.write_atomically a with | none => none | some m' => m'.write_atomically b := by
  induction a generalizing m with
  | nil => rfl
  | cons o a ih =>
    simp only [List.cons_append, Mem.write_atomically]
    cases m.apply o with
    | none => rfl
    | some m' => exact ih m'

/-- The last part of the transaction: append the suffix and set the StopSign. -/
theorem i_tail_ops {m : Mem E S} (hm : DH cl m) (y : LogSync E S) (a b : Option StopSign) :
    (∀ m', m.write_atomically ([.appendOnPrefix y.sync_idx y.suffix] ++ syncStopsignOps a b) = some m' →
      DH cl m' ∧ m'.compacted_idx = m.compacted_idx) ∧
    (m.write_atomically ([.appendOnPrefix y.sync_idx y.suffix] ++ syncStopsignOps a b) = none → y.sync_idx < m.compacted_idx) := by
  simp only [List.cons_append, List.nil_append, Mem.write_atomically, Mem.apply, Mem.append_on_prefix]
  by_cases hk : m.trimmed_idx ≤ y.sync_idx
  · have hu : usub y.sync_idx m.trimmed_idx = some (y.sync_idx - m.trimmed_idx) := by rw [usub, if_pos hk]
    simp only [hu]
    obtain ⟨m', e, hd, hc⟩ := i_ss_ops (m := ({ m with log := m.log.take (y.sync_idx - m.trimmed_idx) }.append_entries y.suffix : Mem E S))
      (DH_of hm rfl rfl) a b
    rw [e]
    exact ⟨fun _ e => by cases e; exact ⟨hd, hc⟩, nofun⟩
  · have hu : usub y.sync_idx m.trimmed_idx = none := by rw [usub, if_neg hk]
    simp only [hu]
    exact ⟨nofun, fun _ => by rw [← hm.eq]; omega⟩

/-- The transaction of a synchronisation that carries a snapshot. -/
theorem i_snap_ops {m : Mem E S} (hm : DH cl m) (hcl : cl = false) (y : LogSync E S) (sn : S) (a b : Option StopSign) :
    (∀ m', m.write_atomically ([.trim y.sync_idx, .setCompactedIdx y.sync_idx, .setSnapshot (some sn)] ++
      ([.appendOnPrefix y.sync_idx y.suffix] ++ syncStopsignOps a b)) = some m' → DH cl m' ∧ m'.compacted_idx = y.sync_idx) ∧
    (m.write_atomically ([.trim y.sync_idx, .setCompactedIdx y.sync_idx, .setSnapshot (some sn)] ++
      ([.appendOnPrefix y.sync_idx y.suffix] ++ syncStopsignOps a b)) = none → y.sync_idx < m.compacted_idx) := by
  rw [write_append]
  by_cases hk : m.compacted_idx ≤ y.sync_idx
  · obtain ⟨m', e, ht⟩ := trim_to hm hcl hk
    have : m.write_atomically [.trim y.sync_idx, .setCompactedIdx y.sync_idx, .setSnapshot (some sn)] =
        some ((m'.set_compacted_idx y.sync_idx).set_snapshot (some sn)) := by
      simp [Mem.write_atomically, Mem.apply, e]
    rw [this]
    obtain ⟨h1, h2⟩ := i_tail_ops (m := (m'.set_compacted_idx y.sync_idx).set_snapshot (some sn)) (cl := cl)
      ⟨ht, fun e => by rw [hcl] at e; cases e⟩ y a b
    refine ⟨h1, fun e => ?_⟩
    have h3 : y.sync_idx < y.sync_idx := h2 e
    omega
  · have hu : usub y.sync_idx m.trimmed_idx = none := by rw [usub, if_neg (by rw [hm.eq]; exact hk)]
    have : m.write_atomically [.trim y.sync_idx, .setCompactedIdx y.sync_idx, .setSnapshot (some sn)] = none := by
      simp [Mem.write_atomically, Mem.apply, Mem.trim, hu]
    rw [this]
    exact ⟨nofun, fun _ => by omega⟩

/-- Why a synchronisation may fail: it begins in the compacted part, or it brings a delta snapshot. -/
def SyncFails [SnapOps E S] (i : IStore E S) (d : Nat) : Option (LogSync E S) → Prop
  | none => False
  | some y => y.sync_idx < i.cache.compacted_idx ∨
      ∃ x, y.decided_snapshot = some (.delta x) ∧ (¬ SnapTotal E S ∨ d ≤ i.cache.compacted_idx ∧ 0 < i.cache.compacted_idx)

theorem i_sync_log [SnapOps E S] (h : IH cl i) (n : Ballot) (d : Nat) {l : Option (LogSync E S)}
    (hl : cl = true → ∀ y, l = some y → y.decided_snapshot = none) :
    M.Sat (sync_log n d l) i (fun _ j => IH cl j ∧ ((∀ y, l = some y → y.decided_snapshot = none) → j.cache.compacted_idx = i.cache.compacted_idx))
      (fun j => TI cl j ∧ SyncFails i d l) := by
  have hb : DH cl ((i.storage.set_accepted_round n).set_decided_idx d) := DH_of h.disk rfl rfl
  have hbase : i.storage.write_atomically [.setAcceptedRound n, .setDecidedIndex d] =
      some ((i.storage.set_accepted_round n).set_decided_idx d) := rfl
  cases l with
  | none =>
    simp only [sync_log, M.sat_bind, sat_setCache, sat_writeOps, M.sat_get, M.sat_pure]
    refine ⟨fun m e => ?_, nofun⟩
    cases e
    exact ⟨IH_write h hb h.cac h.stop, fun _ => trivial⟩
  | some y =>
    have fin : ∀ {m : Mem E S} {c : Nat} {cs : List (StorageCall E S)}, DH cl m → m.compacted_idx = c →
        IH cl { i with
          storage := m
          trail := m :: i.trail
          calls := cs
          cache := { i.cache with
            accepted_round := n
            decided_idx := d
            compacted_idx := c
            accepted_idx := y.sync_idx + y.suffix.length + (if y.stopsign.isSome then 1 else 0)
            stopsign := y.stopsign } } := fun hm hc =>
      ⟨TI_write h.toTI hm, hc.symm, fun hs => by
        show 1 ≤ _ + _
        rw [if_pos hs]; omega⟩
    simp only [sync_log, M.sat_bind, sat_setCache, sat_writeOps, M.sat_get, M.sat_pure, M.sat_ofPan, syncSnapshotOps]
    -- the transaction with a snapshot
    have snap : ∀ sn : S, cl = false → y.decided_snapshot ≠ none →
        (∀ m, i.storage.write_atomically ([.setAcceptedRound n, .setDecidedIndex d] ++
            [.trim y.sync_idx, .setCompactedIdx y.sync_idx, .setSnapshot (some sn)] ++ [.appendOnPrefix y.sync_idx y.suffix] ++
            syncStopsignOps i.cache.stopsign y.stopsign) = some m → DH cl m ∧ m.compacted_idx = y.sync_idx) ∧
        (i.storage.write_atomically ([.setAcceptedRound n, .setDecidedIndex d] ++
            [.trim y.sync_idx, .setCompactedIdx y.sync_idx, .setSnapshot (some sn)] ++ [.appendOnPrefix y.sync_idx y.suffix] ++
            syncStopsignOps i.cache.stopsign y.stopsign) = none → y.sync_idx < i.cache.compacted_idx) := by
      intro sn hcl _
      rw [List.append_assoc, List.append_assoc, write_append, hbase]
      obtain ⟨h1, h2⟩ := i_snap_ops hb hcl y sn i.cache.stopsign y.stopsign
      exact ⟨h1, fun e => by rw [h.cac]; exact h2 e⟩
    cases hy : y.decided_snapshot with
    | none =>
      refine ⟨fun ops e => ?_, nofun⟩
      cases e
      rw [List.append_nil, List.append_assoc, write_append, hbase]
      obtain ⟨h1, h2⟩ := i_tail_ops hb y i.cache.stopsign y.stopsign
      refine ⟨fun m e => ?_, fun e => ⟨⟨h.disk, h.trail⟩, .inl ?_⟩⟩
      · obtain ⟨h3, h4⟩ := h1 m e
        exact ⟨fin h3 (h4.trans h.cac.symm), fun _ => rfl⟩
      · rw [h.cac]; exact h2 e
    | some st =>
      have hcl : cl = false := by
        cases cl with
        | false => rfl
        | true => have := hl rfl y rfl; rw [hy] at this; cases this
      have ne : y.decided_snapshot ≠ none := by rw [hy]; nofun
      have ok := fun sn : S => snap sn hcl ne
      cases st with
      | complete c =>
        refine ⟨fun ops e => ?_, nofun⟩
        cases e
        obtain ⟨h1, h2⟩ := ok c
        refine ⟨fun m e => ?_, fun e => ⟨⟨h.disk, h.trail⟩, .inl (h2 e)⟩⟩
        obtain ⟨h3, h4⟩ := h1 m e
        exact ⟨fin h3 h4, fun e => by have := e y rfl; rw [hy] at this; cases this⟩
      | delta x =>
        simp only
        refine ⟨fun ops e => ?_, fun e => ⟨⟨h.disk, h.trail⟩, .inr ⟨x, hy, ?_⟩⟩⟩
        · split at e
          · cases e
          · split at e
            · cases e
            · rename_i sn' _
              cases e
              obtain ⟨h1, h2⟩ := ok sn'
              refine ⟨fun m e => ?_, fun e => ⟨⟨h.disk, h.trail⟩, .inl (h2 e)⟩⟩
              obtain ⟨h3, h4⟩ := h1 m e
              exact ⟨fin h3 h4, fun e => by have := e y rfl; rw [hy] at this; cases this⟩
        · by_cases ht : SnapTotal E S
          · refine .inr (Classical.byContradiction fun hn => ?_)
            have h0 : IH cl { i with cache := { i.cache with accepted_round := n, decided_idx := d } } :=
              ⟨⟨h.disk, h.trail⟩, h.cac, h.stop⟩
            obtain ⟨k, hk, hd⟩ := decided_wss h0
            have hd : d ≤ k + 1 := hd
            obtain ⟨x', hx⟩ := create_ok ht h0.disk h0.cac (k := k) (by
              show i.cache.compacted_idx ≤ k
              omega)
            obtain ⟨z, hz⟩ := ht.2 x' x
            simp only [create_decided_snapshot, hk, hx, expectOk, hz] at e
            cases e
          · exact .inl ht

end IStore

/-! ### Sequence Paxos -/

theorem HI.store (h : HI cl N me s) {i : IStore E S} (hi : IH cl i) : HI cl N me { s with ist := i } :=
  ⟨h.pid, h.own, h.peers, hi, h.ls, h.ref, h.out, h.cached⟩

theorem HI.leader (h : HI cl N me s) {ls : LeaderState E S} (hl : LH cl N s.outgoing.length ls) : HI cl N me { s with ls := ls } :=
  ⟨h.pid, h.own, h.peers, h.ist, hl, h.ref, h.out, h.cached⟩

theorem HI.send (h : HI cl N me s) (to : NodeId) {m : PaxosMsg E S} (hm : m.Clean cl) :
    HI cl N me { s with outgoing := s.outgoing ++ [{ src := s.pid, dst := to, msg := m }] } := by
  have hl : s.outgoing.length ≤ (s.outgoing ++ [({ src := s.pid, dst := to, msg := m } : PaxosMessage E S)]).length := by simp
  refine ⟨h.pid, h.own, h.peers, h.ist, h.ls.mono hl, fun b j e => Nat.lt_of_lt_of_le (h.ref b j e) hl, fun x hx => ?_, h.cached⟩
  rcases List.mem_append.1 hx with hx | hx
  · exact h.out x hx
  · rw [List.mem_singleton.1 hx]; exact ⟨h.pid, hm⟩

namespace SP

/-- Running `m` keeps the invariant and does not panic. -/
abbrev Safe (cl : Bool) (N me : Nat) {α : Type} (m : M (SP E S) α) (s : SP E S) : Prop := M.Sat m s (fun _ t => HI cl N me t) (fun _ => False)

theorem h_bind {α β : Type} {m : M (SP E S) α} {f : α → M (SP E S) β} (hm : Safe cl N me m s)
    (hf : ∀ a t, HI cl N me t → Safe cl N me (f a) t) : Safe cl N me (m >>= f) s := by
  unfold Safe; rw [M.sat_bind]
  exact M.sat_mono hm (fun a t h => hf a t h) fun _ h => h

theorem h_store {α : Type} {m : M (IStore E S) α} (h : HI cl N me s) (hm : IH cl s.ist → IStore.SafeI cl m s.ist) :
    Safe cl N me (onStore m) s := by
  unfold Safe; rw [sat_onStore]
  exact M.sat_mono (hm h.ist) (fun _ _ hi => h.store hi.1) fun _ h => h

theorem h_forEach {α : Type} {xs : List α} {body : α → M (SP E S) Unit} (h : HI cl N me s)
    (hb : ∀ x ∈ xs, ∀ t, HI cl N me t → Safe cl N me (body x) t) : Safe cl N me (M.forEach xs body) s :=
  M.sat_forEach (HI cl N me) h fun x hx t ht => hb x hx t ht

theorem h_send (h : HI cl N me s) (to : NodeId) {m : PaxosMsg E S} (hm : m.Clean cl) : Safe cl N me (send to m) s := by
  unfold Safe; rw [sat_send]; exact h.send to hm

theorem h_onLS (h : HI cl N me s) {f : LeaderState E S → Pan (LeaderState E S)}
    (hf : ∃ ls, f s.ls = some ls ∧ LH cl N s.outgoing.length ls) : Safe cl N me (onLS f) s := by
  obtain ⟨ls, e, hl⟩ := hf
  unfold Safe; rw [sat_onLS, e]
  exact ⟨fun _ e => by cases e; exact h.leader hl, nofun⟩

theorem h_onLS' {α : Type} (h : HI cl N me s) {f : LeaderState E S → Pan (LeaderState E S × α)}
    (hf : ∃ r, f s.ls = some r ∧ LH cl N s.outgoing.length r.1) : Safe cl N me (onLS' f) s := by
  obtain ⟨r, e, hl⟩ := hf
  unfold Safe; rw [sat_onLS', e]
  exact ⟨fun _ e => by cases e; exact h.leader hl, nofun⟩

/-- Fields that do not matter here. -/
theorem HI.free (h : HI cl N me s) (r : Role) (p : Phase) (bp : List E) (bs : Option StopSign) (q : SeqNum) :
    HI cl N me { s with role := r, phase := p, buffered_proposals := bp, buffered_stopsign := bs, current_seq_num := q } :=
  ⟨h.pid, h.own, h.peers, h.ist, h.ls, h.ref, h.out, h.cached⟩

theorem h_reconnected (h : HI cl N me s) (pid : NodeId) : Safe cl N me (reconnected pid) s := by
  simp only [Safe, reconnected, M.sat_bind, M.sat_get, M.sat_ite, M.sat_pure, M.sat_whenDo, sat_setState]
  exact ⟨fun _ => h, fun _ => ⟨fun _ => h_send (HI.free h .follower .recover _ _ _) pid trivial, fun _ => h_send h pid trivial⟩⟩

theorem h_forward_proposals (h : HI cl N me s) (es : List E) : Safe cl N me (forward_proposals es) s := by
  simp only [Safe, forward_proposals, M.sat_bind, M.sat_get, M.sat_ite, M.sat_upd]
  exact ⟨fun _ => h_send h _ trivial, fun _ => HI.free h _ _ _ _ _⟩

theorem h_forward_stopsign (h : HI cl N me s) (ss : StopSign) : Safe cl N me (forward_stopsign ss) s := by
  simp only [Safe, forward_stopsign, M.sat_bind, M.sat_get, M.sat_ite, M.sat_upd, M.sat_pure]
  exact ⟨fun _ => h_send h _ trivial, fun _ => ⟨fun _ => HI.free h _ _ _ _ _, fun _ => h⟩⟩

theorem h_send_prepare (h : HI cl N me s) (to : NodeId) : Safe cl N me (send_prepare to) s := by
  simp only [Safe, send_prepare, M.sat_bind, M.sat_get]
  exact h_send h to trivial

theorem h_handle_leader (h : HI cl N me s) (n : Ballot) : Safe cl N me (handle_leader n) s := by
  simp only [Safe, handle_leader, M.sat_bind, M.sat_get, M.sat_ite, M.sat_pure]
  refine ⟨fun _ => h, fun _ => ⟨fun _ => ?_, fun _ => HI.free h .follower _ _ _ _⟩⟩
  rw [M.sat_upd]
  have h0 : HI cl N me { s with ls := LeaderState.with n s.ls.max_pid s.ls.quorum } :=
    h.leader (by rw [h.ls.mp]; exact LH.with n _)
  refine M.sat_mono (h_store h0 fun hi => IStore.i_flush hi) (fun _ t ht => ?_) fun _ h => h
  refine M.sat_mono (h_store ht fun hi => IStore.i_set_promise hi n) (fun _ t ht => ?_) fun _ h => h
  obtain ⟨r, e, hl, -⟩ := LeaderState.h_set_promise ht.ls (f := t.pid) (by rw [ht.pid]; exact ht.own)
    (pr := { n, n_accepted := t.ist.cache.accepted_round, decided_idx := t.ist.cache.decided_idx,
             accepted_idx := t.ist.cache.accepted_idx, log_sync := none }) nofun true
  refine M.sat_mono (h_onLS' ht ⟨r, e, hl⟩) (fun _ u hu => ?_) fun _ h => h
  rw [sat_setState]
  exact h_forEach (HI.free hu .leader .prepare _ _ _) fun x _ t ht => h_send ht x trivial

theorem h_handle_preparereq (h : HI cl N me s) (n : Ballot) {f : NodeId} (hf : 1 ≤ f ∧ f ≤ N) :
    Safe cl N me (handle_preparereq n f) s := by
  simp only [Safe, handle_preparereq, M.sat_bind, M.sat_get, M.sat_ite, M.sat_pure]
  refine ⟨fun _ => ?_, fun _ => h⟩
  refine M.sat_mono (h_onLS h (LeaderState.h_reset h.ls hf)) (fun _ t ht => ?_) fun _ h => h
  obtain ⟨ls, e, hl, -⟩ := LeaderState.h_ref ht.ls hf (i := none) nofun (Nat.le_refl _)
  exact M.sat_mono (h_onLS ht ⟨ls, e, hl⟩) (fun _ u hu => h_send_prepare hu f) fun _ h => h

theorem h_setMsg (h : HI cl N me s) (k : Nat) {m : PaxosMsg E S} (hm : m.Clean cl) : Safe cl N me (setMsg k m) s := by
  unfold Safe; rw [sat_setMsg]
  have hl : ∀ f : PaxosMessage E S → PaxosMessage E S, (s.outgoing.modify k f).length = s.outgoing.length := by simp
  refine ⟨h.pid, h.own, h.peers, h.ist, by rw [hl]; exact h.ls, fun b j e => by rw [hl]; exact h.ref b j e, fun x hx => ?_, h.cached⟩
  rcases mem_modify hx with hx | ⟨y, hy, rfl⟩
  · exact h.out x hx
  · exact ⟨(h.out y hy).1, hm⟩

/-- Looking up the cached message succeeds. -/
theorem h_latest (h : HI cl N me s) {p : NodeId} (hp : 1 ≤ p ∧ p ≤ N) : ∃ r, s.get_latest_accdec p = some r := by
  obtain ⟨x, hx⟩ := slot_some h.ls.l4 hp
  simp only [get_latest_accdec, LeaderState.get_latest_accept_meta, hx]
  match x with
  | none => exact ⟨_, rfl⟩
  | some (b, j) =>
    have hj : j < s.outgoing.length := by
      obtain ⟨k, rfl⟩ : ∃ k, p = k + 1 := ⟨p - 1, by omega⟩
      exact h.ls.refs k b j (by simpa [slot] using hx)
    simp only [List.getElem?_eq_getElem hj]
    split
    · split <;> exact ⟨_, rfl⟩
    · exact ⟨_, rfl⟩

theorem h_send_acceptdecide_to (h : HI cl N me s) (es : List E) {p : NodeId} (hp : 1 ≤ p ∧ p ≤ N) :
    Safe cl N me (send_acceptdecide_to es p) s := by
  obtain ⟨r, hr⟩ := h_latest h hp
  simp only [Safe, send_acceptdecide_to, M.sat_bind, M.sat_get, M.sat_ofPan, hr]
  refine ⟨fun r e => ?_, nofun⟩
  cases e
  match r with
  | some (idx, acc) => exact h_setMsg h idx trivial
  | none =>
    -- the reference is to the message about to be sent
    obtain ⟨ls, e1, l1, -⟩ := LeaderState.h_ref h.ls hp (i := some s.outgoing.length) (L' := s.outgoing.length + 1)
      (fun j e => by cases e; omega) (by omega)
    obtain ⟨r, e2, l2, -⟩ := LeaderState.h_next l1 hp
    simp only [M.sat_bind, sat_onLS, sat_onLS', sat_send, e1]
    refine ⟨fun _ e => ?_, nofun⟩
    cases e
    rw [e2]
    refine ⟨fun _ e => ?_, nofun⟩
    cases e
    have h1 := h.send p (m := .acceptDecide { n := s.ls.n_leader, seq_num := r.2, decided_idx := s.ist.cache.decided_idx, entries := es }) trivial
    exact ⟨h1.pid, h1.own, h1.peers, h1.ist, by simpa using l2, h1.ref, h1.out, h1.cached⟩

theorem h_followers (h : HI cl N me s) : ∀ x ∈ s.ls.get_promised_followers, 1 ≤ x ∧ x ≤ N := fun _ hx => (followers_range h.ls hx).1

theorem h_send_acceptdecide (h : HI cl N me s) (es : List E) : Safe cl N me (send_acceptdecide es) s := by
  simp only [Safe, send_acceptdecide, M.sat_bind, M.sat_get]
  exact h_forEach h fun x hx t ht => h_send_acceptdecide_to ht es (h_followers h x hx)

theorem h_set_accepted (h : HI cl N me s) {p : NodeId} (hp : 1 ≤ p ∧ p ≤ N) (i : Nat) :
    Safe cl N me (onLS fun ls => ls.set_accepted_idx p i) s := by
  obtain ⟨ls, e, hl, -⟩ := LeaderState.h_accepted h.ls hp i
  exact h_onLS h ⟨ls, e, hl⟩

theorem HI.mine (h : HI cl N me s) : 1 ≤ s.pid ∧ s.pid ≤ N := by rw [h.pid]; exact h.own

theorem h_accepted_leader (h : HI cl N me s) (md : Option (AcceptedMetaData E)) : Safe cl N me (accepted_leader md) s := by
  cases md with
  | none => exact h
  | some md =>
    simp only [Safe, accepted_leader, M.sat_bind, M.sat_get]
    exact M.sat_mono (h_set_accepted h (HI.mine h) _) (fun _ _ ht => h_send_acceptdecide ht _) fun _ h => h

theorem h_accept_entries_leader (h : HI cl N me s) (es : List E) : Safe cl N me (accept_entries_leader es) s :=
  h_bind (h_store h fun hi => IStore.i_append_entries hi es) fun _ _ ht => h_accepted_leader ht _

theorem h_seq (h : HI cl N me s) {to : NodeId} (ht : 1 ≤ to ∧ to ≤ N) (re : Bool) : Safe cl N me (seqNumFor to re) s := by
  unfold seqNumFor
  split
  · obtain ⟨q, hq⟩ := slot_some h.ls.l2 ht
    exact h_onLS' h ⟨(s.ls, q), by simp [LeaderState.get_seq_num, hq], h.ls⟩
  · obtain ⟨r, e, hl, -⟩ := LeaderState.h_next h.ls ht
    exact h_onLS' h ⟨r, e, hl⟩

theorem h_send_accept_stopsign (h : HI cl N me s) {to : NodeId} (ht : 1 ≤ to ∧ to ≤ N) (ss : StopSign) (re : Bool) :
    Safe cl N me (send_accept_stopsign to ss re) s :=
  h_bind (h_seq h ht re) fun _ _ hu => h_bind (m := M.get) hu fun _ _ hv => h_send hv to trivial

theorem h_send_decide (h : HI cl N me s) {to : NodeId} (ht : 1 ≤ to ∧ to ≤ N) (d : Nat) (re : Bool) :
    Safe cl N me (send_decide to d re) s :=
  h_bind (h_seq h ht re) fun _ _ hu => h_bind (m := M.get) hu fun _ _ hv => h_send hv to trivial

theorem h_accept_stopsign_leader (h : HI cl N me s) (ss : StopSign) : Safe cl N me (accept_stopsign_leader ss) s := by
  unfold accept_stopsign_leader
  refine h_bind (h_store h fun hi => IStore.i_append_ss hi ss) fun md t ht => h_bind ?_ fun _ u hu => ?_
  · cases md with
    | none => exact ht
    | some md => exact h_send_acceptdecide ht _
  · simp only [Safe, M.sat_bind, M.sat_get]
    exact M.sat_mono (h_set_accepted hu (HI.mine hu) _)
      (fun _ v hv => h_forEach hv fun x hx w hw => h_send_accept_stopsign hw (h_followers hu x hx) ss false) fun _ h => h

theorem h_append_buffered (h : HI cl N me s) (i : Nat) : Safe cl N me (append_buffered i) s := by
  unfold append_buffered
  simp only [Safe, M.sat_bind, M.sat_get, M.sat_ite, M.sat_pure]
  refine ⟨fun _ => h, fun _ => ?_⟩
  have h1 : Safe cl N me (append_buffered_proposals i) s := by
    simp only [Safe, append_buffered_proposals, M.sat_bind, M.sat_get, M.sat_ite, M.sat_pure, M.sat_upd]
    exact ⟨fun _ => h, fun _ => h_store (HI.free h _ _ [] _ _) fun hi => IStore.i_append_nb hi _⟩
  refine M.sat_mono h1 (fun k u hu => ?_) fun _ h => h
  simp only [append_buffered_stopsign, M.sat_bind, M.sat_get]
  cases hb : u.buffered_stopsign with
  | none => exact hu
  | some ss =>
    simp only [M.sat_bind, M.sat_upd, M.sat_get, M.sat_pure]
    exact M.sat_mono (h_store (HI.free hu _ _ _ none _) fun hi => IStore.i_append_ss hi ss) (fun _ _ h => h) fun _ h => h

theorem h_handle_notaccepted (h : HI cl N me s) (n : Ballot) {f : NodeId} (hf : 1 ≤ f ∧ f ≤ N) :
    Safe cl N me (handle_notaccepted n f) s := by
  simp only [Safe, handle_notaccepted, M.sat_bind, M.sat_get, M.sat_ite, M.sat_pure]
  exact ⟨fun _ => h_onLS h (LeaderState.h_lost h.ls hf), fun _ => h⟩

theorem h_announce (h : HI cl N me s) (d : Nat) {p : NodeId} (hp : 1 ≤ p ∧ p ≤ N) : Safe cl N me (announce_decided d p) s := by
  obtain ⟨r, hr⟩ := h_latest h hp
  simp only [Safe, announce_decided, M.sat_bind, M.sat_get, M.sat_ofPan, hr]
  refine ⟨fun r e => ?_, nofun⟩
  cases e
  match r with
  | some (idx, acc) => exact h_setMsg h idx trivial
  | none => exact h_send_decide h hp d false

theorem h_handle_accepted (h : HI cl N me s) (a : Accepted) {f : NodeId} (hf : 1 ≤ f ∧ f ≤ N) :
    Safe cl N me (handle_accepted a f) s := by
  simp only [Safe, handle_accepted, M.sat_bind, M.sat_get, M.sat_ite, M.sat_pure]
  refine ⟨fun _ => ?_, fun _ => h⟩
  refine M.sat_mono (h_set_accepted h hf _) (fun _ t ht => ⟨fun _ => ?_, fun _ => ht⟩) fun _ h => h
  exact M.sat_mono (h_store ht fun hi => IStore.i_set_decided hi _)
    (fun _ u hu => h_forEach hu fun x hx v hv => h_announce hv _ (h_followers ht x hx)) fun _ h => h

theorem h_handle_forwarded_proposal (h : HI cl N me s) (es : List E) : Safe cl N me (handle_forwarded_proposal es) s := by
  simp only [Safe, handle_forwarded_proposal, M.sat_bind, M.sat_get, M.sat_ite, M.sat_pure]
  refine ⟨fun _ => h, fun _ => ?_⟩
  split
  · exact HI.free h _ _ _ _ _
  · exact h_accept_entries_leader h es
  · exact h_forward_proposals h es

theorem h_handle_forwarded_stopsign (h : HI cl N me s) (ss : StopSign) : Safe cl N me (handle_forwarded_stopsign ss) s := by
  simp only [Safe, handle_forwarded_stopsign, M.sat_bind, M.sat_get, M.sat_ite, M.sat_pure]
  refine ⟨fun _ => h, fun _ => ?_⟩
  split
  · exact HI.free h _ _ _ (some ss) _
  · exact h_accept_stopsign_leader h ss
  · exact h_forward_stopsign h ss

theorem h_check_valid_ballot (h : HI cl N me s) (n : Ballot) : Safe cl N me (check_valid_ballot n) s := by
  simp only [Safe, check_valid_ballot, M.sat_bind, M.sat_get]
  split
  · exact h
  · exact h_bind (h_send h _ trivial) fun _ _ ht => ht
  · exact h_bind (h_reconnected h _) fun _ _ ht => ht

theorem h_forward_buffered (h : HI cl N me s) : Safe cl N me forward_buffered_proposals s := by
  simp only [Safe, forward_buffered_proposals, M.sat_bind, M.sat_get, M.sat_upd, M.sat_ite, M.sat_pure]
  exact ⟨fun _ => HI.free h _ _ [] _ _, fun _ => h_forward_proposals (HI.free h _ _ [] _ _) _⟩

theorem h_accept_guard (h : HI cl N me s) (n : Ballot) (q : SeqNum) (any : Bool) : Safe cl N me (accept_guard n q any) s := by
  unfold accept_guard
  refine h_bind (h_check_valid_ballot h n) fun ok t ht => ?_
  simp only [Safe, M.sat_bind, M.sat_get, M.sat_ite, M.sat_pure, handle_sequence_num]
  refine ⟨fun _ => ?_, fun _ => ht⟩
  split
  · exact HI.free ht _ _ _ _ _
  · rw [M.sat_bind]; exact h_reconnected ht _
  · exact ht

theorem h_latest_accepted (h : HI cl N me s) (n : Ballot) : ∃ r, s.get_latest_accepted n = some r := by
  unfold get_latest_accepted
  split
  · exact ⟨_, rfl⟩
  · rename_i b j e
    have hj := h.ref b j e
    simp only [List.getElem?_eq_getElem hj]
    split
    · split <;> exact ⟨_, rfl⟩
    · exact ⟨_, rfl⟩

/-- Send an Accepted and remember where it is. -/
theorem HI.reply (h : HI cl N me s) (b : Ballot) (to : NodeId) (a : Accepted) : HI cl N me { s with
    latest_accepted_meta := some (b, s.outgoing.length)
    outgoing := s.outgoing ++ [{ src := s.pid, dst := to, msg := .accepted a }] } := by
  have h1 := h.send to (m := .accepted a) trivial
  exact ⟨h1.pid, h1.own, h1.peers, h1.ist, h1.ls, fun b j e => by cases e; simp, h1.out, h1.cached⟩

theorem h_reply_accepted (h : HI cl N me s) (n : Ballot) (i : Nat) : Safe cl N me (reply_accepted n i) s := by
  obtain ⟨r, hr⟩ := h_latest_accepted h n
  simp only [Safe, reply_accepted, M.sat_bind, M.sat_get, M.sat_ofPan, hr]
  refine ⟨fun r e => ?_, nofun⟩
  cases e
  match r with
  | some (idx, a) => exact h_setMsg h idx trivial
  | none => exact HI.reply h n n.pid { n, accepted_idx := i }

theorem h_reply_opt (h : HI cl N me s) (n : Ballot) (i : Option Nat) : Safe cl N me (reply_opt n i) s := by
  cases i with
  | none => exact h
  | some i => exact h_reply_accepted h n i

theorem h_set_decided (h : HI cl N me s) (d : Nat) : Safe cl N me (onStore (IStore.set_decided_idx d)) s :=
  h_store h fun hi => IStore.i_set_decided hi d

theorem h_update_decided (h : HI cl N me s) (d : Nat) : Safe cl N me (update_decided_idx_and_get_accepted_idx d) s := by
  simp only [Safe, update_decided_idx_and_get_accepted_idx, M.sat_bind, M.sat_get, M.sat_ite, M.sat_pure]
  refine ⟨fun _ => h, fun _ => ⟨fun _ => ?_, fun _ => h_set_decided h _⟩⟩
  exact M.sat_mono (h_store h IStore.i_flush) (fun _ _ ht => h_set_decided ht _) fun _ h => h

theorem h_handle_acceptdecide (h : HI cl N me s) (a : AcceptDecide E) : Safe cl N me (handle_acceptdecide a) s := by
  unfold handle_acceptdecide
  refine h_bind (h_accept_guard h _ _ _) fun ok t ht => ?_
  rw [Safe, M.sat_ite]
  refine ⟨fun _ => ?_, fun _ => ht⟩
  exact h_bind (h_store ht fun hi => IStore.i_append_get hi _) fun _ _ ht =>
    h_bind (h_update_decided ht _) fun _ _ ht => h_reply_opt ht _ _

theorem h_handle_accept_stopsign (h : HI cl N me s) (a : AcceptStopSign) : Safe cl N me (handle_accept_stopsign a) s := by
  unfold handle_accept_stopsign
  refine h_bind (h_accept_guard h _ _ _) fun ok t ht => ?_
  rw [Safe, M.sat_ite]
  refine ⟨fun _ => ?_, fun _ => ht⟩
  exact h_bind (h_store ht IStore.i_flush) fun _ _ ht =>
    h_bind (h_store ht fun hi => IStore.i_set_stopsign hi _) fun _ _ ht => h_reply_accepted ht _ _

theorem h_handle_decide (h : HI cl N me s) (d : Decide) : Safe cl N me (handle_decide d) s := by
  unfold handle_decide
  refine h_bind (h_accept_guard h _ _ _) fun ok t ht => ?_
  rw [Safe, M.sat_ite]
  exact ⟨fun _ => h_bind (h_update_decided ht _) fun _ _ ht => h_reply_opt ht _ _, fun _ => ht⟩

theorem h_resend_prepare (h : HI cl N me s) : Safe cl N me resend_prepare s := by
  obtain ⟨r, hr⟩ := LeaderState.h_preparable h.ls h.peers
  simp only [Safe, resend_prepare, M.sat_bind, M.sat_get, M.sat_ofPan, hr]
  exact ⟨fun r _ => h_forEach h fun x _ t ht => h_send_prepare ht x, nofun⟩

theorem h_resend_stopsign (h : HI cl N me s) (ss : StopSign) {f : NodeId} (hf : 1 ≤ f ∧ f ≤ N) : Safe cl N me (resend_stopsign ss f) s := by
  obtain ⟨a, ha⟩ := slot_some h.ls.l3 hf
  simp only [Safe, resend_stopsign, M.sat_bind, M.sat_get, M.sat_ite, M.sat_ofPan, M.sat_pure, LeaderState.get_accepted_idx, ha]
  exact ⟨fun _ => h_send_decide h hf _ _,
    fun _ => ⟨fun a _ => ⟨fun _ => h_send_accept_stopsign h hf ss _, fun _ => h⟩, nofun⟩⟩

theorem h_resend (h : HI cl N me s) : Safe cl N me resend_message_timeout s := by
  have hall : ∀ t : SP E S, HI cl N me t → Safe cl N me send_preparereq_to_all_peers t := fun t ht =>
    h_bind (m := M.get) ht fun _ _ ht => h_forEach ht fun x _ _ ht => h_send ht x trivial
  simp only [Safe, resend_message_timeout, M.sat_bind, M.sat_get]
  split
  · simp only [resend_messages_leader, M.sat_bind, M.sat_get]
    split
    · exact h_resend_prepare h
    · refine h_bind ?_ fun _ _ ht => h_resend_prepare ht
      simp only [Safe, resend_stopsigns, M.sat_bind, M.sat_get]
      cases hs : s.ist.cache.stopsign with
      | none => exact h
      | some ss => exact h_forEach h fun x hx t ht => h_resend_stopsign ht ss (h_followers h x hx)
    · exact h
    · exact h
  · simp only [resend_messages_follower, M.sat_bind, M.sat_get]
    split
    · split
      · rename_i p hp
        exact h_send h _ (h.cached p hp)
      · simp only [M.sat_bind, sat_setState]
        exact hall _ (HI.free h _ _ _ _ _)
    · exact hall _ h
    · exact h
    · exact h

theorem h_flush_timeout (h : HI cl N me s) : Safe cl N me flush_batch_timeout s := by
  simp only [Safe, flush_batch_timeout, M.sat_bind, M.sat_get]
  split
  · simp only [flush_batch_leader, M.sat_bind]
    exact M.sat_mono (h_store h IStore.i_flush_get) (fun _ _ ht => h_accepted_leader ht _) fun _ h => h
  · simp only [flush_batch_follower, M.sat_bind, M.sat_get]
    refine M.sat_mono (h_store h IStore.i_flush) (fun k t ht => ?_) fun _ h => h
    simp only [M.sat_ite, M.sat_pure]
    exact ⟨fun _ => h_reply_accepted ht _ _, fun _ => ht⟩
  · exact h

theorem h_append (h : HI cl N me s) (e : E) : Safe cl N me (append e) s := by
  simp only [Safe, append, M.sat_bind, M.sat_get, M.sat_ite, M.sat_pure]
  refine ⟨fun _ => h, fun hf => ?_⟩
  simp only [propose_entry, M.sat_bind, M.sat_get]
  split
  · exact HI.free h _ _ _ _ _
  · exact h_accept_entries_leader h [e]
  · exact h_forward_proposals h _

theorem h_reconfigure (h : HI cl N me s) (c : ClusterConfig) (md : Option (List Nat)) : Safe cl N me (reconfigure c md) s := by
  simp only [Safe, reconfigure, M.sat_bind, M.sat_get, M.sat_ite, M.sat_pure]
  refine ⟨fun _ => h, fun hf => ?_⟩
  simp only [propose_stopsign, M.sat_bind, M.sat_get]
  split
  · exact HI.free h _ _ _ (some _) _
  · exact h_accept_stopsign_leader h _
  · exact h_forward_stopsign h _

/-! ### With log synchronisation -/

variable [SnapOps E S]

/-- The part of the log to send is cut off. -/
def CreateFails (i : IStore E S) (c : Nat) : Prop :=
  SnapOps.use_snapshots E S = true ∧ ¬ SnapTotal E S ∨
    c < i.cache.compacted_idx ∧ (SnapOps.use_snapshots E S = true → i.cache.decided_idx ≤ i.cache.compacted_idx)

omit [SnapOps E S] in
theorem suffix_none {d : Mem E S} (h : DH cl d) {c : Nat} (e : d.get_suffix c = none) : c < d.compacted_idx := by
  simp only [Mem.get_suffix, usub] at e
  by_cases hc : d.trimmed_idx ≤ c
  · rw [if_pos hc] at e; cases e
  · rw [← h.eq]; omega

theorem diff_none {i : IStore E S} (h : IH cl i) {o : Nat} (ht : SnapTotal E S) (e : i.create_diff_snapshot o = none) :
    i.cache.decided_idx ≤ i.cache.compacted_idx := by
  obtain ⟨k, hk, hd⟩ := IStore.decided_wss h
  simp only [IStore.create_diff_snapshot, hk] at e
  split at e
  · split at e
    · obtain ⟨x, hx⟩ := IStore.create_ok ht h.disk h.cac (k := k) (by omega)
      simp only [hx, IStore.expectOk] at e
      cases e
    · cases e
  · rename_i ho
    by_cases hkc : i.cache.compacted_idx ≤ k
    · obtain ⟨es, he⟩ := IStore.get_entries_ok h.disk (a := o) (b := k) (by rw [← h.cac]; omega) (by rw [← h.cac]; omega)
      obtain ⟨x, hx⟩ := ht.1 es
      simp only [he, hx] at e
      cases e
    · omega

theorem h_create (h : IH cl s.ist) (hu : cl = true → SnapOps.use_snapshots E S = false) (c o : Nat) :
    (∀ y, s.create_log_sync c o = some y → cl = true → y.decided_snapshot = none) ∧
    (s.create_log_sync c o = none → CreateFails s.ist c) := by
  unfold create_log_sync
  simp only
  split
  · rename_i hd
    refine ⟨fun y _ hc => (by rw [hu hc] at hd; cases hd.1), fun e => ?_⟩
    by_cases ht : SnapTotal E S
    · refine .inr ?_
      have key : s.ist.cache.decided_idx ≤ s.ist.cache.compacted_idx := by
        split at e
        · rename_i e'
          exact diff_none h ht e'
        · split at e
          · rename_i e'
            have := suffix_none h.disk e'
            rw [← h.cac] at this; omega
          · cases e
      exact ⟨by omega, fun _ => key⟩
    · exact .inl ⟨hd.1, ht⟩
  · rename_i hd
    split
    · rename_i e'
      have := suffix_none h.disk e'
      rw [← h.cac] at this
      refine ⟨nofun, fun _ => .inr ⟨this, fun hu => ?_⟩⟩
      have : ¬ s.ist.cache.decided_idx > c := fun h => hd ⟨hu, h⟩
      omega
    · exact ⟨fun y e _ => by cases e; rfl, nofun⟩

theorem h_sync_indexes {ls : LeaderState E S} (h : LH cl N L ls) {to : NodeId} (hp : ∃ m, slot ls.promises_meta to = some (.promised m)) :
    ∃ r, sync_indexes ls to = some r := by
  obtain ⟨m, hm⟩ := hp
  have : m.pid = to := by
    cases to with
    | zero => simp [slot] at hm
    | succ k => exact h.slots k m (by simpa [slot] using hm)
  simp only [sync_indexes, LeaderState.get_promise_meta, hm, LeaderState.get_decided_idx, this]
  exact ⟨_, rfl⟩

/-- Why an AcceptSync or a Promise may not be possible to send or to handle: something is cut off, here or in a
synchronisation received. -/
def Cut (s : SP E S) : Prop :=
  SnapOps.use_snapshots E S = true ∧ ¬ SnapTotal E S ∨ s.ist.cache.compacted_idx ≠ 0

theorem CreateFails.cut {c : Nat} (h : CreateFails s.ist c) : Cut s := by
  rcases h with h | h
  · exact .inl h
  · exact .inr (by omega)

theorem h_send_accsync (h : HI cl N me s) (hu : cl = true → SnapOps.use_snapshots E S = false) {to : NodeId} (ht : 1 ≤ to ∧ to ≤ N)
    (hp : ∃ m, slot s.ls.promises_meta to = some (.promised m)) :
    M.Sat (send_accsync to) s (fun _ t => HI cl N me t ∧ t.ls.promises_meta = s.ls.promises_meta ∧ t.ist = s.ist)
      (fun t => TI cl t.ist ∧ Cut s) := by
  obtain ⟨r, hr⟩ := h_sync_indexes h.ls hp
  obtain ⟨hy, hn⟩ := h_create h.ist hu r.1 r.2
  obtain ⟨l1, e1, g1, p1⟩ := LeaderState.h_incr h.ls ht
  obtain ⟨r2, e2, g2, p2⟩ := LeaderState.h_next g1 ht
  simp only [send_accsync, M.sat_bind, M.sat_get, M.sat_ofPan, sat_onLS, sat_onLS', sat_send, hr]
  refine ⟨fun _ e => ?_, nofun⟩
  cases e
  refine ⟨fun y e => ?_, fun e => ⟨h.ist.toTI, (hn e).cut⟩⟩
  rw [e1]
  refine ⟨fun _ e => ?_, nofun⟩
  cases e
  rw [e2]
  refine ⟨fun _ e => ?_, nofun⟩
  cases e
  exact ⟨(h.leader g2).send to (m := .acceptSync _) (hy y e), p2.trans p1, trivial⟩

/-- Something is cut off, or a synchronisation to apply carries a snapshot. -/
def CutOr (s : SP E S) (ls : LeaderState E S) : Prop :=
  Cut s ∨ ∃ y, ls.max_promise_sync = some y ∧ y.decided_snapshot.isSome = true

omit [SnapOps E S] in
theorem k_append_buffered (h : HI cl N me s) (i : Nat) :
    M.Sat (append_buffered i) s (fun _ t => t.ist.cache.compacted_idx = s.ist.cache.compacted_idx) (fun _ => False) := by
  unfold append_buffered
  simp only [M.sat_bind, M.sat_get, M.sat_ite, M.sat_pure]
  refine ⟨fun _ => trivial, fun _ => ?_⟩
  have h1 : M.Sat (append_buffered_proposals i) s
      (fun _ t => HI cl N me t ∧ t.ist.cache.compacted_idx = s.ist.cache.compacted_idx) (fun _ => False) := by
    simp only [append_buffered_proposals, M.sat_bind, M.sat_get, M.sat_ite, M.sat_pure, M.sat_upd, sat_onStore]
    refine ⟨fun _ => ⟨h, trivial⟩, fun _ => ?_⟩
    exact M.sat_mono (IStore.i_append_nb h.ist s.buffered_proposals)
      (fun _ _ hj => ⟨(HI.free h s.role s.phase [] s.buffered_stopsign s.current_seq_num).store hj.1, hj.2⟩) fun _ h => h
  refine M.sat_mono h1 (fun k u hu => ?_) fun _ h => h
  simp only [append_buffered_stopsign, M.sat_bind, M.sat_get]
  cases hb : u.buffered_stopsign with
  | none => exact hu.2
  | some ss =>
    simp only [M.sat_bind, M.sat_upd, M.sat_get, M.sat_pure, sat_onStore]
    exact M.sat_mono (IStore.i_append_ss hu.1.ist ss) (fun _ _ hj => hj.2.trans hu.2) fun _ h => h

theorem h_handle_majority (h : HI cl N me s) (hu : cl = true → SnapOps.use_snapshots E S = false) :
    M.Sat handle_majority_promises s (fun _ t => HI cl N me t) (fun t => TI cl t.ist ∧ CutOr s s.ls) := by
  simp only [handle_majority_promises, M.sat_bind, M.sat_get, M.sat_upd]
  have h0 : HI cl N me { s with ls := { s.ls with max_promise_sync := none } } :=
    h.leader ⟨h.ls.mp, h.ls.l1, h.ls.l2, h.ls.l3, h.ls.l4, h.ls.refs, h.ls.slots, fun _ => nofun⟩
  rw [sat_onStore]
  refine M.sat_mono (IStore.i_sync_log h0.ist _ _ h.ls.sync) (fun a i hi => ?_) (fun i hi => ⟨hi.1, ?_⟩)
  · have ht := h0.store hi.1
    refine M.sat_mono (M.sat_and (h_append_buffered ht a) (k_append_buffered ht a)) (fun a u hu' => ?_) fun _ h => h.1.elim
    rw [sat_setState]
    refine M.sat_mono (M.sat_and (h_set_accepted (HI.free hu'.1 .leader .accept _ _ _) (HI.mine h) a)
      (show M.Sat _ _ (fun _ v => v.ist = u.ist) (fun _ => True) by rw [sat_onLS]; exact ⟨fun _ _ => rfl, fun _ => trivial⟩))
      (fun _ v hv => ?_) fun _ h => h.1.elim
    have := M.sat_forEach (P := fun t => TI cl t.ist ∧ CutOr s s.ls) (xs := v.ls.get_promised_followers)
      (body := (send_accsync : _ → M (SP E S) Unit))
      (s := v) (fun w => HI cl N me w ∧ w.ls.promises_meta = v.ls.promises_meta ∧ w.ist = v.ist) ⟨hv.1, rfl, rfl⟩ fun x hx w hw => by
        obtain ⟨r1, r2⟩ := followers_range hv.1.ls hx
        refine M.sat_mono (h_send_accsync hw.1 hu r1 (by rw [hw.2.1]; exact r2))
          (fun _ _ h => ⟨h.1, h.2.1.trans hw.2.1, h.2.2.trans hw.2.2⟩) fun _ h => ⟨h.1, ?_⟩
        by_cases hs : ∀ y, s.ls.max_promise_sync = some y → y.decided_snapshot = none
        · have e : w.ist.cache.compacted_idx = s.ist.cache.compacted_idx := by
            rw [hw.2.2, hv.2, hu'.2]; exact hi.2 hs
          rcases h.2 with h | h
          · exact .inl (.inl h)
          · exact .inl (.inr (by rw [← e]; exact h))
        · simp only [Classical.not_forall] at hs
          obtain ⟨y, hy, hn⟩ := hs
          exact .inr ⟨y, hy, Option.isSome_iff_ne_none.2 hn⟩
    exact M.sat_mono this (fun _ _ h => h.1) fun _ h => h
  · have hf := hi.2
    cases hm : s.ls.max_promise_sync with
    | none => rw [hm] at hf; exact hf.elim
    | some y =>
      rw [hm] at hf
      rcases hf with hf | ⟨x, hx, -⟩
      · exact .inl (.inr fun e => by
          have : y.sync_idx < s.ist.cache.compacted_idx := hf
          omega)
      · exact .inr ⟨y, hm, by rw [hx]; rfl⟩

omit [SnapOps E S] in
theorem set_promise_sync {ls : LeaderState E S} {pr : Promise E S} {f : NodeId} {ck : Bool} {r : LeaderState E S × Bool}
    (e : ls.set_promise pr f ck = some r) : r.1.max_promise_sync = ls.max_promise_sync ∨ r.1.max_promise_sync = pr.log_sync := by
  simp only [LeaderState.set_promise] at e
  split at e
  · cases e
  · cases e
    simp only [LeaderState.update_max]
    split
    · exact .inr rfl
    · exact .inl rfl

/-- Why a Promise may not be possible to handle. -/
def PromiseFails (s : SP E S) (p : Promise E S) : Prop :=
  CutOr s s.ls ∨ ∃ y, p.log_sync = some y ∧ y.decided_snapshot.isSome = true

theorem h_handle_promise (h : HI cl N me s) (hu : cl = true → SnapOps.use_snapshots E S = false) {p : Promise E S}
    (hc : (PaxosMsg.promise p).Clean cl) {f : NodeId} (hf : 1 ≤ f ∧ f ≤ N) :
    M.Sat (handle_promise p f) s (fun _ t => HI cl N me t) (fun t => TI cl t.ist ∧ PromiseFails s p) := by
  simp only [handle_promise, M.sat_bind, M.sat_get]
  split
  · simp only [handle_promise_prepare, M.sat_bind, M.sat_get, M.sat_ite, M.sat_pure]
    refine ⟨fun hn => ?_, fun _ => h⟩
    obtain ⟨r, e, hl, -⟩ := LeaderState.h_set_promise h.ls hf hc true
    rw [sat_onLS', e]
    refine ⟨fun _ e' => ?_, nofun⟩
    cases e'
    refine ⟨fun hq => M.sat_mono (h_handle_majority (h.leader hl) hu) (fun _ _ h => h) fun _ hp => ⟨hp.1, ?_⟩, fun _ => h.leader hl⟩
    rcases hp.2 with hp | ⟨y, hy, hs⟩
    · exact .inl (.inl hp)
    · rcases set_promise_sync e with e | e
      · exact .inl (.inr ⟨y, by rw [← e]; exact hy, hs⟩)
      · exact .inr ⟨y, by rw [← e]; exact hy, hs⟩
  · simp only [handle_promise_accept, M.sat_bind, M.sat_get, M.sat_ite, M.sat_pure]
    refine ⟨fun hn => ?_, fun _ => h⟩
    obtain ⟨r, e, hl, hs⟩ := LeaderState.h_set_promise h.ls hf hc false
    rw [sat_onLS', e]
    refine ⟨fun _ e => ?_, nofun⟩
    cases e
    exact M.sat_mono (h_send_accsync (h.leader hl) hu hf hs) (fun _ _ h => h.1) fun _ h => ⟨h.1, .inl (.inl h.2)⟩
  · exact h

/-- Why a Prepare may not be possible to answer. -/
def PrepareFails (s : SP E S) (p : Prepare) : Prop :=
  SnapOps.use_snapshots E S = true ∧ ¬ SnapTotal E S ∨
    (p.decided_idx < s.ist.cache.compacted_idx ∨ p.accepted_idx < s.ist.cache.compacted_idx) ∧
      (SnapOps.use_snapshots E S = true → s.ist.cache.decided_idx ≤ s.ist.cache.compacted_idx)

theorem h_handle_prepare (h : HI cl N me s) (hu : cl = true → SnapOps.use_snapshots E S = false) (p : Prepare) (f : NodeId) :
    M.Sat (handle_prepare p f) s (fun _ t => HI cl N me t) (fun t => TI cl t.ist ∧ PrepareFails s p) := by
  simp only [handle_prepare, M.sat_bind, M.sat_get, M.sat_ite, M.sat_pure, M.sat_upd, M.sat_ofPan, sat_onStore]
  refine ⟨fun hg => ?_, fun _ => h⟩
  have d1 : ∀ i : IStore E S, M.Sat IStore.flush_batch i (fun _ j => j.cache.decided_idx = i.cache.decided_idx) (fun _ => True) := by
    intro i
    simp [IStore.flush_batch, IStore.append_entries_without_batching]
  have d2 : ∀ i : IStore E S, M.Sat (IStore.set_promise p.n) i (fun _ j => j.cache.decided_idx = i.cache.decided_idx) (fun _ => True) := by
    intro i
    simp [IStore.set_promise]
  refine M.sat_mono (M.sat_and (IStore.i_flush h.ist) (d1 _)) (fun _ i hi => ?_) fun _ h => h.1.elim
  refine M.sat_mono (M.sat_and (IStore.i_set_promise hi.1.1 p.n) (d2 _)) (fun _ j hj => ?_) fun _ h => h.1.elim
  have e1 : j.cache.compacted_idx = s.ist.cache.compacted_idx := hj.1.2.trans hi.1.2
  have e2 : j.cache.decided_idx = s.ist.cache.decided_idx := hj.2.trans hi.2
  have hu' : HI cl N me { s with ist := j } := h.store hj.1.1
  have hI : HI cl N me { s with ist := j, role := .follower, phase := .prepare, current_seq_num := {} } :=
    HI.free hu' .follower .prepare s.buffered_proposals s.buffered_stopsign {}
  have key : (∀ l, SP.promise_log_sync { s with ist := j, role := .follower, phase := .prepare, current_seq_num := {} } p = some l →
      cl = true → ∀ y, l = some y → y.decided_snapshot = none) ∧
      (SP.promise_log_sync { s with ist := j, role := .follower, phase := .prepare, current_seq_num := {} } p = none → PrepareFails s p) := by
    unfold promise_log_sync
    simp only
    have fails : ∀ {c : Nat}, CreateFails j c → c = p.decided_idx ∨ c = p.accepted_idx → PrepareFails s p := by
      intro c hc he
      rcases hc with hc | ⟨hc, hd⟩
      · exact .inl hc
      · rw [e1] at hc
        rw [e1, e2] at hd
        rcases he with rfl | rfl
        · exact .inr ⟨.inl hc, hd⟩
        · exact .inr ⟨.inr hc, hd⟩
    split
    · obtain ⟨a, b⟩ := h_create hI.ist hu p.decided_idx p.decided_idx
      refine ⟨fun l e hcl y hy => ?_, fun e => fails (b (by simpa using e)) (.inl rfl)⟩
      subst hy
      simp only [Option.map_eq_some_iff] at e
      obtain ⟨y', e, e'⟩ := e
      cases e'
      exact a _ e hcl
    · split
      · obtain ⟨a, b⟩ := h_create hI.ist hu p.accepted_idx p.decided_idx
        refine ⟨fun l e hcl y hy => ?_, fun e => fails (b (by simpa using e)) (.inr rfl)⟩
        subst hy
        simp only [Option.map_eq_some_iff] at e
        obtain ⟨y', e, e'⟩ := e
        cases e'
        exact a _ e hcl
      · exact ⟨fun l e _ y hy => (by cases e; cases hy), nofun⟩
  refine ⟨fun l e => ?_, fun e => ⟨hj.1.1.toTI, key.2 e⟩⟩
  have hc := key.1 l e
  refine h_send ?_ f hc
  exact ⟨hI.pid, hI.own, hI.peers, hI.ist, hI.ls, hI.ref, hI.out, fun q e => by cases e; exact hc⟩

omit [SnapOps E S] in
theorem ist_check_valid (b : Ballot) : M.Sat (check_valid_ballot b) s (fun _ t => t.ist = s.ist) (fun _ => True) := by
  simp only [check_valid_ballot, M.sat_bind, M.sat_get]
  split
  · exact rfl
  · simp
  · simp only [reconnected, M.sat_bind, M.sat_get, M.sat_ite, M.sat_pure, M.sat_whenDo, sat_setState, sat_send]
    exact ⟨fun _ => trivial, fun _ => ⟨fun _ => trivial, fun _ => trivial⟩⟩

theorem h_handle_acceptsync (h : HI cl N me s) {a : AcceptSync E S} (ha : (PaxosMsg.acceptSync a).Clean cl) (f : NodeId) :
    M.Sat (handle_acceptsync a f) s (fun _ t => HI cl N me t)
      (fun t => TI cl t.ist ∧ s.ist.SyncFails a.decided_idx (some a.log_sync)) := by
  simp only [handle_acceptsync, M.sat_bind]
  refine M.sat_mono (M.sat_and (h_check_valid_ballot h a.n) (ist_check_valid a.n)) (fun ok t ht => ?_) fun _ h => h.1.elim
  simp only [M.sat_bind, M.sat_get, M.sat_ite, M.sat_pure, M.sat_upd, M.sat_whenDo, sat_setState, sat_send, sat_onStore]
  refine ⟨fun hg => ?_, fun _ => ht.1⟩
  have h0 : HI cl N me { t with cached_promise := none } :=
    ⟨ht.1.pid, ht.1.own, ht.1.peers, ht.1.ist, ht.1.ls, ht.1.ref, ht.1.out, nofun⟩
  refine M.sat_mono (IStore.i_sync_log h0.ist _ _ (fun hc y e => by cases e; exact ha hc)) (fun k i hi => ?_) fun _ hp => ?_
  · have hu := h0.store hi.1
    have fin : ∀ v : SP E S, HI cl N me v → HI cl N me { v with
        role := .follower, phase := .accept, current_seq_num := a.seq_num
        latest_accepted_meta := some (a.n, v.outgoing.length)
        outgoing := v.outgoing ++ [{ src := v.pid, dst := f, msg := .accepted { n := a.n, accepted_idx := k } }] } :=
      fun v hv => HI.free (HI.reply hv a.n f { n := a.n, accepted_idx := k }) _ _ _ _ _
    exact ⟨fun _ => M.sat_mono (h_forward_buffered hu) (fun _ v hv => fin v hv) fun _ h => h.elim, fun _ => fin _ hu⟩
  · have := hp.2
    rw [← ht.2]
    exact ⟨hp.1, this⟩

omit [SnapOps E S] in
theorem h_try_trim (h : HI cl N me s) (hcl : cl = false) (i : Nat) : Safe cl N me (onStore (IStore.try_trim i)) s := by
  rw [Safe, sat_onStore]
  exact M.sat_mono (IStore.i_try_trim h.ist hcl i) (fun _ _ hi => h.store hi) fun _ h => h

omit [SnapOps E S] in
theorem h_trim (h : HI cl N me s) (hcl : cl = false) (i : Option Nat) : Safe cl N me (trim i) s := by
  have hmin : ∃ a, s.ls.get_min_all_accepted_idx = some a := by
    have := h.ls.l3
    have ho := h.own
    unfold LeaderState.get_min_all_accepted_idx
    cases e : s.ls.accepted_indexes with
    | nil => rw [e] at this; simp at this; omega
    | cons x l => exact ⟨_, rfl⟩
  obtain ⟨a, ha⟩ := hmin
  simp only [Safe, trim, M.sat_bind, M.sat_get, M.sat_ite, M.sat_pure, M.sat_ofPan, ha]
  refine ⟨fun _ => ⟨fun b _ => ⟨fun _ => ?_, fun _ => h⟩, nofun⟩, fun _ => h⟩
  refine M.sat_mono (h_try_trim h hcl _) (fun r t ht => ?_) fun _ h => h
  cases r with
  | error e => exact ht
  | ok u =>
    simp only [M.sat_bind, M.sat_pure]
    exact h_forEach ht fun x _ w hw => h_send hw x hcl

theorem h_snapshot (h : HI cl N me s) (hcl : cl = false) (i : Option Nat) (l : Bool) :
    M.Sat (snapshot i l) s (fun _ t => HI cl N me t) (fun t => TI cl t.ist ∧ ¬ SnapTotal E S) := by
  simp only [snapshot, M.sat_bind, M.sat_get, sat_onStore]
  refine M.sat_mono (IStore.i_try_snapshot h.ist hcl i) (fun r j hj => ?_) fun _ h => h
  cases r with
  | error e => exact h.store hj
  | ok u =>
    simp only [M.sat_bind, M.sat_pure, M.sat_whenDo]
    exact ⟨fun _ => M.sat_mono (h_forEach (h.store hj) fun x _ w hw => h_send hw x hcl) (fun _ _ h => h) fun _ h => h.elim,
      fun _ => h.store hj⟩

/-- Which messages may not be possible to handle. -/
def Fails (s : SP E S) : PaxosMsg E S → Prop
  | .prepare p => PrepareFails s p
  | .promise p => PromiseFails s p
  | .acceptSync a => s.ist.SyncFails a.decided_idx (some a.log_sync)
  | .compaction (.snapshot _) => ¬ SnapTotal E S
  | _ => False

theorem h_handle (h : HI cl N me s) (hu : cl = true → SnapOps.use_snapshots E S = false) {m : PaxosMessage E S} (hm : m.Fine cl N) :
    M.Sat (handle m) s (fun _ t => HI cl N me t) (fun t => TI cl t.ist ∧ Fails s m.msg) := by
  obtain ⟨hf, hc⟩ := hm
  have safe : ∀ {x : M (SP E S) Unit}, Safe cl N me x s →
      M.Sat x s (fun _ t => HI cl N me t) (fun t => TI cl t.ist ∧ Fails s m.msg) :=
    fun h => M.sat_mono h (fun _ _ h => h) fun _ h => h.elim
  unfold handle
  split <;> rename_i heq <;> rw [heq] at hc
  · exact safe (h_handle_preparereq h _ hf)
  · rw [heq]; exact h_handle_prepare h hu _ _
  · rw [heq]; exact h_handle_promise h hu hc hf
  · rw [heq]; exact h_handle_acceptsync h hc _
  · exact safe (h_handle_acceptdecide h _)
  · exact safe (h_handle_notaccepted h _ hf)
  · exact safe (h_handle_accepted h _ hf)
  · exact safe (h_handle_decide h _)
  · exact safe (h_handle_forwarded_proposal h _)
  · rename_i c
    cases c with
    | trim i => exact safe (h_bind (h_try_trim h hc i) fun _ _ ht => ht)
    | snapshot i =>
      rw [heq]
      simp only [handle_compaction, M.sat_bind, M.sat_pure]
      exact h_snapshot h hc i true
  · exact safe (h_handle_accept_stopsign h _)
  · exact safe (h_handle_forwarded_stopsign h _)

/-- In a clean run every message can be handled. -/
theorem Fails.clean (h : HI true N me s) (hu : SnapOps.use_snapshots E S = false) {m : PaxosMsg E S} (hm : m.Clean true) : ¬ Fails s m := by
  have h0 : s.ist.cache.compacted_idx = 0 := by rw [h.ist.cac, ← h.ist.disk.eq]; exact h.ist.disk.clean rfl
  have hc : ¬ Cut s := by
    rintro (⟨e, -⟩ | e)
    · rw [hu] at e; cases e
    · exact e h0
  cases m with
  | prepare p =>
    rintro (⟨e, -⟩ | ⟨e, -⟩)
    · rw [hu] at e; cases e
    · omega
  | promise p =>
    rintro ((e | ⟨y, e, hs⟩) | ⟨y, e, hs⟩)
    · exact hc e
    · rw [h.ls.sync rfl y e] at hs; cases hs
    · rw [hm rfl y e] at hs; cases hs
  | acceptSync a =>
    rintro (e | ⟨x, e, -⟩)
    · omega
    · rw [hm rfl] at e; cases e
  | compaction c => cases hm
  | _ => exact fun h => h

/-! ### Exactly when -/

omit [SnapOps E S] in
theorem suffix_iff {d : Mem E S} (h : DH cl d) (c : Nat) : d.get_suffix c = none ↔ c < d.compacted_idx := by
  refine ⟨suffix_none h, fun hc => ?_⟩
  simp only [Mem.get_suffix, usub]
  rw [if_neg (by rw [h.eq]; omega)]

/-- When answering a Prepare panics, if log synchronisation does not use snapshots. -/
theorem prepare_iff (h : HI cl N me s) (hu : SnapOps.use_snapshots E S = false) (p : Prepare) (f : NodeId) :
    let C := (s.get_promise < p.n ∨ (s.get_promise = p.n ∧ s.phase = .recover)) ∧
      (p.n_accepted < s.ist.cache.accepted_round ∧ p.decided_idx < s.ist.cache.compacted_idx ∨
        s.ist.cache.accepted_round = p.n_accepted ∧
        p.accepted_idx < s.ist.cache.accepted_idx + s.ist.cache.batched_entries.length ∧ p.accepted_idx < s.ist.cache.compacted_idx)
    M.Sat (handle_prepare p f) s (fun _ _ => ¬ C) (fun _ => C) := by
  intro C
  have hd : DH cl ((s.ist.storage.append_entries s.ist.cache.batched_entries).set_promise p.n) := IStore.DH_of h.ist.disk rfl rfl
  have hs : ∀ c, ((s.ist.storage.append_entries s.ist.cache.batched_entries).set_promise p.n).get_suffix c = none ↔
      c < s.ist.cache.compacted_idx := fun c => by rw [suffix_iff hd, h.ist.cac]; rfl
  have hirr : ∀ b : Ballot, ¬ b < b := fun b hb => by
    have := Ballot.not_le.2 hb
    exact this (Ballot.le_refl b)
  simp only [handle_prepare, M.sat_bind, M.sat_get, M.sat_ite, M.sat_pure, M.sat_upd, M.sat_ofPan, sat_onStore, IStore.flush_batch,
    IStore.append_entries_without_batching, IStore.sat_setCache, IStore.sat_write_append, IStore.set_promise, IStore.sat_write_promise,
    promise_log_sync, create_log_sync, hu, sat_send]
  refine ⟨fun hg => ?_, fun hg hC => hg hC.1⟩
  simp only [Bool.false_eq_true, false_and, if_false]
  by_cases h1 : p.n_accepted < s.ist.cache.accepted_round
  · rw [if_pos h1]
    refine ⟨fun a e hC => ?_, fun e => ⟨hg, .inl ⟨h1, ?_⟩⟩⟩
    · rcases hC.2 with ⟨-, h2⟩ | ⟨h2, -⟩
      · rw [(hs _).2 h2] at e; cases e
      · rw [h2] at h1; exact hirr _ h1
    · refine (hs _).1 ?_
      split at e
      · assumption
      · cases e
  · rw [if_neg h1]
    split
    · rename_i h2
      refine ⟨fun a e hC => ?_, fun e => ⟨hg, .inr ⟨h2.1, h2.2, ?_⟩⟩⟩
      · rcases hC.2 with ⟨h3, -⟩ | ⟨-, -, h3⟩
        · exact h1 h3
        · rw [(hs _).2 h3] at e; cases e
      · refine (hs _).1 ?_
        split at e
        · assumption
        · cases e
    · rename_i h2
      refine ⟨fun a e hC => ?_, nofun⟩
      rcases hC.2 with ⟨h3, -⟩ | ⟨h3, h4, -⟩
      · exact h1 h3
      · exact h2 ⟨h3, h4⟩

/-- When handling an AcceptSync without a snapshot panics. -/
theorem acceptsync_iff (h : HI cl N me s) {a : AcceptSync E S} (ha : a.log_sync.decided_snapshot = none) (f : NodeId) :
    let C := (s.get_promise ≤ a.n ∧ a.n ≤ s.get_promise) ∧ s.role = .follower ∧ s.phase = .prepare ∧ a.log_sync.sync_idx < s.ist.cache.compacted_idx
    M.Sat (handle_acceptsync a f) s (fun _ _ => ¬ C) (fun _ => C) := by
  intro C
  simp only [handle_acceptsync, M.sat_bind, check_valid_ballot, M.sat_get]
  cases hcmp : s.get_promise.cmp a.n with
  | eq =>
    have he : s.get_promise ≤ a.n ∧ a.n ≤ s.get_promise := by
      rcases Ballot.cmp_cases s.get_promise a.n with h | h | h
      · rw [hcmp] at h; cases h.1
      · exact h.2
      · rw [hcmp] at h; cases h.1
    simp only [M.sat_pure, M.sat_bind, M.sat_get, M.sat_ite, M.sat_upd, true_and]
    refine ⟨fun hg => ?_, fun hg hC => hg ⟨hC.2.1, hC.2.2.1⟩⟩
    rw [sat_onStore]
    have hl : cl = true → ∀ y, some a.log_sync = some y → y.decided_snapshot = none := fun _ y e => by cases e; exact ha
    have key := M.sat_and (IStore.i_sync_log (i := s.ist) h.ist a.n a.decided_idx hl)
      (show M.Sat (IStore.sync_log a.n a.decided_idx (some a.log_sync)) s.ist
        (fun _ _ => s.ist.cache.compacted_idx ≤ a.log_sync.sync_idx) (fun _ => True) by
        simp only [IStore.sync_log, M.sat_bind, IStore.sat_setCache, IStore.sat_writeOps, M.sat_get, M.sat_pure, M.sat_ofPan,
          IStore.syncSnapshotOps, ha]
        refine ⟨fun ops e => ?_, fun _ => trivial⟩
        cases e
        refine ⟨fun m e => ?_, fun _ => trivial⟩
        simp only [List.append_nil, List.cons_append, List.nil_append, Mem.write_atomically, Mem.apply, Mem.append_on_prefix] at e
        have : usub a.log_sync.sync_idx s.ist.storage.trimmed_idx ≠ none := by
          intro e'
          simp only [Mem.set_accepted_round, Mem.set_decided_idx, e'] at e
          cases e
        simp only [usub] at this
        rw [h.ist.cac, ← h.ist.disk.eq]
        exact Classical.byContradiction fun hn => this (if_neg hn))
    refine M.sat_mono key (fun k i hi => ?_) fun i hi => ⟨he, hg.1, hg.2, ?_⟩
    · have hu : HI cl N me { s with cached_promise := none, ist := i } :=
        ⟨h.pid, h.own, h.peers, hi.1.1, h.ls, h.ref, h.out, nofun⟩
      have hn : ¬ C := fun hC => by have := hi.2; have := hC.2.2.2; omega
      simp only [M.sat_whenDo, M.sat_bind, M.sat_get, sat_setState, M.sat_upd, sat_send]
      exact ⟨fun _ => M.sat_mono (h_forward_buffered hu) (fun _ _ _ => hn) fun _ h => h.elim, fun _ => hn⟩
    · rcases hi.1.2 with hf | ⟨x, hx, -⟩
      · exact hf
      · rw [ha] at hx; cases hx
  | gt =>
    have hne : ¬ C := fun hC => by
      rcases Ballot.cmp_cases s.get_promise a.n with h | h | h
      · exact Ballot.not_le.2 h.2 hC.1.2
      · rw [hcmp] at h; cases h.1
      · exact Ballot.not_le.2 h.2 hC.1.1
    simp [hne]
  | lt =>
    have hne : ¬ C := fun hC => by
      rcases Ballot.cmp_cases s.get_promise a.n with h | h | h
      · exact Ballot.not_le.2 h.2 hC.1.2
      · rw [hcmp] at h; cases h.1
      · exact Ballot.not_le.2 h.2 hC.1.1
    simp [reconnected, hne]

end SP
end Omni
