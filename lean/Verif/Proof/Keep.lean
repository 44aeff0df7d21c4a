import Verif.Proof.DecidedIdx
import Verif.Proof.Batch
/-
What a server has in its log, its batch and its proposal buffer stays there, except for synchronisation and compaction.
-/
namespace Omni

variable {E S : Type}

/-- Log and batch begin with `lo`, the proposal buffer with `bp`. -/
structure LBI (lo bp : List E) (i : IStore E S) (b : List E) : Prop where
  log : lo <+: i.storage.log ++ i.cache.batched_entries
  buf : bp <+: b

abbrev LB (lo bp : List E) (s : SP E S) : Prop := LBI lo bp s.ist s.buffered_proposals

namespace SP

variable {s : SP E S} {lo bp : List E}

abbrev KeepsB (lo bp : List E) {α : Type} (m : M (SP E S) α) (s : SP E S) : Prop :=
  M.Sat m s (fun _ t => LB lo bp t) (fun t => LB lo bp t)

abbrev BS (lo bp : List E) {α : Type} (m : M (IStore E S) α) (s : SP E S) : Prop :=
  M.Sat m s.ist (fun _ j => LB lo bp { s with ist := j }) (fun j => LB lo bp { s with ist := j })

theorem LB.appended {es : List E} {i : IStore E S} (h : LB lo bp s) (ha : Appended es s.ist i) :
    LB lo bp { s with ist := i } := ⟨by rw [ha.log]; exact h.log.trans (List.prefix_append ..), h.buf⟩

theorem LB.same {i : IStore E S} (h : LB lo bp s) (h1 : i.storage.log = s.ist.storage.log)
    (h2 : i.cache.batched_entries = s.ist.cache.batched_entries) : LB lo bp { s with ist := i } :=
  ⟨by rw [h1, h2]; exact h.log, h.buf⟩

theorem sb_flush (h : LB lo bp s) : BS lo bp IStore.flush_batch s :=
  M.sat_mono (IStore.flush_batch_spec s.ist) (fun _ _ ha => LB.appended h ha.1) fun _ h => h.elim

theorem sb_flush_get (h : LB lo bp s) : BS lo bp IStore.flush_batch_and_get_entries s :=
  M.sat_mono (IStore.flush_get_spec s.ist) (fun _ _ ha => LB.appended h ha.1) fun _ h => h.elim

theorem sb_append_entries (h : LB lo bp s) (es : List E) : BS lo bp (IStore.append_entries_with_batching es) s :=
  M.sat_mono (IStore.append_entries_spec es s.ist) (fun _ _ ha => LB.appended h ha.1) fun _ h => h.elim

theorem sb_append_get (h : LB lo bp s) (es : List E) : BS lo bp (IStore.append_entries_and_get_accepted_idx es) s :=
  M.sat_mono (IStore.append_get_spec es s.ist) (fun _ _ ha => LB.appended h ha) fun _ h => h.elim

theorem sb_append_ss (h : LB lo bp s) (ss : StopSign) : BS lo bp (IStore.append_stopsign ss) s := by
  simp only [BS, IStore.append_stopsign, IStore.cache_append_stopsign, M.sat_bind, M.sat_get, IStore.sat_setCache, M.sat_ite,
    M.sat_pure, IStore.flush_if_full_batch, IStore.append_entries_without_batching, IStore.sat_write_append, IStore.sat_write_stopsign, IStore.sat_write_promise, IStore.sat_write_decided, Mem.set_stopsign,
    Mem.append_entries]
  refine ⟨fun _ => ⟨h.log, h.buf⟩, fun _ => ⟨?_, h.buf⟩⟩
  simpa using h.log

theorem sb_set_stopsign (h : LB lo bp s) (ss : StopSign) : BS lo bp (IStore.set_stopsign (some ss)) s := by
  simp only [BS, IStore.set_stopsign, M.sat_bind, M.sat_get, M.sat_ofPan, IStore.sat_setCache, IStore.sat_write_append, IStore.sat_write_stopsign, IStore.sat_write_promise, IStore.sat_write_decided, M.sat_pure,
    Mem.set_stopsign]
  exact ⟨fun _ _ => ⟨h.log, h.buf⟩, fun _ => h⟩

theorem sb_set_promise (h : LB lo bp s) (b : Ballot) : BS lo bp (IStore.set_promise b) s := by
  simp only [BS, IStore.set_promise, M.sat_bind, M.sat_get, IStore.sat_setCache, IStore.sat_write_append, IStore.sat_write_stopsign, IStore.sat_write_promise, IStore.sat_write_decided, Mem.set_promise]
  exact ⟨h.log, h.buf⟩

theorem sb_set_decided (h : LB lo bp s) (d : Nat) : BS lo bp (IStore.set_decided_idx d) s := by
  simp only [BS, IStore.set_decided_idx, M.sat_bind, M.sat_get, IStore.sat_setCache, IStore.sat_write_append, IStore.sat_write_stopsign, IStore.sat_write_promise, IStore.sat_write_decided, Mem.set_decided_idx]
  exact ⟨h.log, h.buf⟩

theorem b_bind {α β : Type} {m : M (SP E S) α} {f : α → M (SP E S) β} (hm : KeepsB lo bp m s)
    (hf : ∀ a t, LB lo bp t → KeepsB lo bp (f a) t) : KeepsB lo bp (m >>= f) s := by
  unfold KeepsB; rw [M.sat_bind]
  exact M.sat_mono hm (fun a j h => hf a j h) fun _ h => h

theorem b_store {α : Type} {m : M (IStore E S) α} (hm : BS lo bp m s) : KeepsB lo bp (onStore m) s := by
  unfold KeepsB; rw [sat_onStore]; exact hm

theorem b_forEach {α : Type} {xs : List α} {body : α → M (SP E S) Unit} (h : LB lo bp s)
    (hb : ∀ x t, LB lo bp t → KeepsB lo bp (body x) t) : KeepsB lo bp (M.forEach xs body) s :=
  M.sat_forEach (fun t => LB lo bp t) h fun x _ t ht => hb x t ht

theorem b_so {α : Type} {m : M (SP E S) α} (h : LB lo bp s)
    (hm : M.Sat m s (fun _ t => SendOnly s t) (SendOnly s)) : KeepsB lo bp m s :=
  M.sat_mono hm (fun _ t ht => by rw [ht]; exact h) fun t ht => by rw [ht]; exact h

theorem b_send (h : LB lo bp s) (to : NodeId) (m : PaxosMsg E S) : KeepsB lo bp (send to m) s := by
  unfold KeepsB; rw [sat_send]; exact h

theorem b_onLS (h : LB lo bp s) (f : LeaderState E S → Pan (LeaderState E S)) : KeepsB lo bp (onLS f) s := by
  unfold KeepsB; rw [sat_onLS]; exact ⟨fun _ _ => h, fun _ => h⟩

theorem b_onLS' {α : Type} (h : LB lo bp s) (f : LeaderState E S → Pan (LeaderState E S × α)) : KeepsB lo bp (onLS' f) s := by
  unfold KeepsB; rw [sat_onLS']; exact ⟨fun _ _ => h, fun _ => h⟩

theorem b_reconnected (h : LB lo bp s) (pid : NodeId) : KeepsB lo bp (reconnected pid) s := by
  simp only [KeepsB, reconnected, M.sat_bind, M.sat_get, M.sat_ite, M.sat_pure, M.sat_whenDo, sat_setState, sat_send]
  exact ⟨fun _ => h, fun _ => ⟨fun _ => h, fun _ => h⟩⟩

theorem b_forward_proposals (h : LB lo bp s) (es : List E) : KeepsB lo bp (forward_proposals es) s := by
  simp only [KeepsB, forward_proposals, M.sat_bind, M.sat_get, M.sat_ite, M.sat_upd, sat_send]
  exact ⟨fun _ => h, fun _ => ⟨h.log, h.buf.trans (List.prefix_append ..)⟩⟩

theorem b_forward_stopsign (h : LB lo bp s) (ss : StopSign) : KeepsB lo bp (forward_stopsign ss) s := by
  simp only [KeepsB, forward_stopsign, M.sat_bind, M.sat_get, M.sat_ite, M.sat_upd, sat_send, M.sat_pure]
  exact ⟨fun _ => h, fun _ => ⟨fun _ => h, fun _ => h⟩⟩

theorem b_handle_leader (h : LB lo bp s) (n : Ballot) : KeepsB lo bp (handle_leader n) s := by
  simp only [KeepsB, handle_leader, M.sat_bind, M.sat_get, M.sat_ite, M.sat_pure, M.sat_upd]
  refine ⟨fun _ => h, fun hn => ⟨fun hp => ?_, fun _ => h⟩⟩
  refine M.sat_mono (b_store (sb_flush (s := s) h)) (fun _ t ht => ?_) fun _ h => h
  refine M.sat_mono (b_store (sb_set_promise ht n))
    (fun _ u hu => ?_) fun _ h => h
  refine M.sat_mono (b_onLS' hu _) (fun _ v hv => ?_) fun _ h => h
  rw [sat_setState]
  exact b_forEach (s := { v with role := .leader, phase := .prepare }) hv fun x _ ht => b_send ht x _

theorem b_handle_preparereq (h : LB lo bp s) (n : Ballot) (f : NodeId) : KeepsB lo bp (handle_preparereq n f) s := by
  unfold handle_preparereq
  refine b_bind (m := M.get) h fun a t ht => ?_
  simp only [KeepsB, M.sat_ite, M.sat_pure]
  refine ⟨fun _ => ?_, fun _ => ht⟩
  exact b_bind (b_onLS ht _) fun _ _ ht => b_bind (b_onLS ht _) fun _ _ ht => b_so ht (so_send_prepare f)

theorem b_accepted_leader (h : LB lo bp s) (md : Option (AcceptedMetaData E)) : KeepsB lo bp (accepted_leader md) s := by
  cases md with
  | none => exact h
  | some md =>
    simp only [KeepsB, accepted_leader, M.sat_bind, M.sat_get]
    exact M.sat_mono (b_onLS h _) (fun _ _ ht => b_so ht (so_send_acceptdecide _)) fun _ h => h

theorem b_accept_entries_leader (h : LB lo bp s) (es : List E) : KeepsB lo bp (accept_entries_leader es) s :=
  b_bind (b_store (sb_append_entries h es)) fun _ _ ht => b_accepted_leader ht _

theorem b_accept_stopsign_leader (h : LB lo bp s) (ss : StopSign) : KeepsB lo bp (accept_stopsign_leader ss) s := by
  unfold accept_stopsign_leader
  refine b_bind (b_store (sb_append_ss h ss)) fun md t ht => b_bind ?_ fun _ u hu => ?_
  · cases md with
    | none => exact ht
    | some md => exact b_so ht (so_send_acceptdecide _)
  · simp only [KeepsB, M.sat_bind, M.sat_get]
    exact M.sat_mono (b_onLS hu _)
      (fun _ _ ht => b_forEach ht fun x _ ht => b_so ht (so_send_accept_stopsign x ss false)) fun _ h => h

theorem b_handle_promise_accept [SnapOps E S] (h : LB lo bp s) (p : Promise E S) (f : NodeId) :
    KeepsB lo bp (handle_promise_accept p f) s := by
  unfold handle_promise_accept
  refine b_bind (m := M.get) h fun a t ht => ?_
  simp only [KeepsB, M.sat_ite, M.sat_pure]
  exact ⟨fun _ => b_bind (b_onLS' ht _) fun _ _ ht => b_so ht (so_send_accsync f), fun _ => ht⟩

theorem b_handle_notaccepted (h : LB lo bp s) (n : Ballot) (f : NodeId) : KeepsB lo bp (handle_notaccepted n f) s := by
  simp only [KeepsB, handle_notaccepted, M.sat_bind, M.sat_get, M.sat_ite, M.sat_pure]
  exact ⟨fun _ => b_onLS h _, fun _ => h⟩

theorem b_handle_forwarded_proposal (h : LB lo bp s) (es : List E) : KeepsB lo bp (handle_forwarded_proposal es) s := by
  simp only [KeepsB, handle_forwarded_proposal, M.sat_bind, M.sat_get, M.sat_ite, M.sat_pure]
  refine ⟨fun _ => h, fun _ => ?_⟩
  split
  · rw [M.sat_upd]; exact ⟨h.log, h.buf.trans (List.prefix_append ..)⟩
  · exact b_accept_entries_leader h es
  · exact b_forward_proposals h es

theorem b_handle_forwarded_stopsign (h : LB lo bp s) (ss : StopSign) : KeepsB lo bp (handle_forwarded_stopsign ss) s := by
  simp only [KeepsB, handle_forwarded_stopsign, M.sat_bind, M.sat_get, M.sat_ite, M.sat_pure]
  refine ⟨fun _ => h, fun _ => ?_⟩
  split
  · exact h
  · exact b_accept_stopsign_leader h ss
  · exact b_forward_stopsign h ss

theorem b_handle_prepare [SnapOps E S] (h : LB lo bp s) (p : Prepare) (f : NodeId) : KeepsB lo bp (handle_prepare p f) s := by
  simp only [KeepsB, handle_prepare, M.sat_bind, M.sat_get, M.sat_ite, M.sat_pure, M.sat_upd, M.sat_ofPan, sat_send]
  refine ⟨fun hg => ?_, fun _ => h⟩
  refine M.sat_mono (b_store (sb_flush h)) (fun _ t ht => ?_) fun _ h => h
  refine M.sat_mono (b_store (sb_set_promise ht p.n)) (fun _ u hu => ?_) fun _ h => h
  exact ⟨fun _ _ => hu, fun _ => hu⟩

theorem b_check_valid_ballot (h : LB lo bp s) (n : Ballot) : KeepsB lo bp (check_valid_ballot n) s := by
  simp only [KeepsB, check_valid_ballot, M.sat_bind, M.sat_get]
  split
  · exact h
  · exact b_bind (b_send h _ _) fun _ _ ht => ht
  · exact b_bind (b_reconnected h _) fun _ _ ht => ht

theorem b_accept_guard (h : LB lo bp s) (n : Ballot) (q : SeqNum) (any : Bool) : KeepsB lo bp (accept_guard n q any) s := by
  unfold accept_guard
  refine b_bind (b_check_valid_ballot h n) fun ok t ht => ?_
  simp only [KeepsB, M.sat_bind, M.sat_get, M.sat_ite, M.sat_pure, handle_sequence_num]
  refine ⟨fun _ => ?_, fun _ => ht⟩
  split
  · exact ht
  · rw [M.sat_bind]; exact b_reconnected ht _
  · exact ht

theorem b_reply_accepted (h : LB lo bp s) (n : Ballot) (i : Nat) : KeepsB lo bp (reply_accepted n i) s := by
  simp only [KeepsB, reply_accepted, M.sat_bind, M.sat_get, M.sat_ofPan]
  refine ⟨fun r _ => ?_, fun _ => h⟩
  match r with
  | some (idx, a) => rw [sat_setMsg]; exact h
  | none => exact h

theorem b_reply_opt (h : LB lo bp s) (n : Ballot) (i : Option Nat) : KeepsB lo bp (reply_opt n i) s := by
  cases i with
  | none => exact h
  | some i => exact b_reply_accepted h n i

theorem b_handle_accept_stopsign (h : LB lo bp s) (a : AcceptStopSign) : KeepsB lo bp (handle_accept_stopsign a) s := by
  unfold handle_accept_stopsign
  refine b_bind (b_accept_guard h _ _ _) fun ok t ht => ?_
  rw [KeepsB, M.sat_ite]
  refine ⟨fun _ => ?_, fun _ => ht⟩
  exact b_bind (b_store (sb_flush ht)) fun _ _ ht =>
    b_bind (b_store (sb_set_stopsign ht _)) fun _ _ ht => b_reply_accepted ht _ _

theorem b_resend (h : LB lo bp s) : KeepsB lo bp resend_message_timeout s := by
  have hall : ∀ t : SP E S, LB lo bp t → KeepsB lo bp send_preparereq_to_all_peers t := fun t ht =>
    b_bind (m := M.get) ht fun _ _ ht => b_forEach ht fun x _ ht => b_send ht x _
  simp only [KeepsB, resend_message_timeout, M.sat_bind, M.sat_get]
  split
  · exact b_so h so_resend_messages_leader
  · simp only [resend_messages_follower, M.sat_bind, M.sat_get]
    split
    · split
      · exact b_send h _ _
      · simp only [M.sat_bind, sat_setState]; exact hall _ h
    · exact hall _ h
    · exact h
    · exact h

theorem b_flush_timeout (h : LB lo bp s) : KeepsB lo bp flush_batch_timeout s := by
  simp only [KeepsB, flush_batch_timeout, M.sat_bind, M.sat_get]
  split
  · simp only [flush_batch_leader, M.sat_bind]
    exact M.sat_mono (b_store (sb_flush_get h)) (fun _ _ ht => b_accepted_leader ht _) fun _ h => h
  · simp only [flush_batch_follower, M.sat_bind, M.sat_get]
    refine M.sat_mono (b_store (sb_flush h)) (fun k t ht => ?_) fun _ h => h
    simp only [M.sat_ite, M.sat_pure]
    exact ⟨fun _ => b_reply_accepted ht _ _, fun _ => ht⟩
  · exact h

theorem b_append (h : LB lo bp s) (e : E) : KeepsB lo bp (append e) s := by
  simp only [KeepsB, append, M.sat_bind, M.sat_get, M.sat_ite, M.sat_pure]
  refine ⟨fun _ => h, fun hf => ?_⟩
  simp only [propose_entry, M.sat_bind, M.sat_get]
  split
  · rw [M.sat_upd]; exact ⟨h.log, h.buf.trans (List.prefix_append ..)⟩
  · exact b_accept_entries_leader h [e]
  · exact b_forward_proposals h _

theorem b_reconfigure (h : LB lo bp s) (c : ClusterConfig) (md : Option (List Nat)) : KeepsB lo bp (reconfigure c md) s := by
  simp only [KeepsB, reconfigure, M.sat_bind, M.sat_get, M.sat_ite, M.sat_pure]
  refine ⟨fun _ => h, fun hf => ?_⟩
  simp only [propose_stopsign, M.sat_bind, M.sat_get]
  split
  · exact h
  · exact b_accept_stopsign_leader h _
  · exact b_forward_stopsign h _

theorem b_handle_accepted (h : LB lo bp s) (a : Accepted) (f : NodeId) : KeepsB lo bp (handle_accepted a f) s := by
  simp only [KeepsB, handle_accepted, M.sat_bind, M.sat_get, M.sat_ite, M.sat_pure, sat_onLS]
  refine ⟨fun hg => ⟨fun ls e => ⟨fun hc => ?_, fun _ => h⟩, fun _ => h⟩, fun _ => h⟩
  exact M.sat_mono (b_store (sb_set_decided (s := { s with ls := ls }) h _)) (fun _ t ht =>
    b_forEach ht fun x _ ht => b_so ht (so_announce_decided _ x)) fun _ h => h

theorem b_update_decided (h : LB lo bp s) (k : Nat) :
    KeepsB lo bp (update_decided_idx_and_get_accepted_idx k) s := by
  simp only [KeepsB, update_decided_idx_and_get_accepted_idx, M.sat_bind, M.sat_get, M.sat_ite, M.sat_pure]
  refine ⟨fun _ => h, fun hk => ⟨fun _ => ?_, fun _ => b_store (sb_set_decided h _)⟩⟩
  exact M.sat_mono (b_store (sb_flush h)) (fun a j hj => b_store (sb_set_decided hj _)) fun _ h => h

theorem b_handle_acceptdecide (h : LB lo bp s) (a : AcceptDecide E) :
    KeepsB lo bp (handle_acceptdecide a) s := by
  unfold handle_acceptdecide
  refine b_bind (b_accept_guard h _ _ _) fun ok t ht => ?_
  rw [KeepsB, M.sat_ite]
  refine ⟨fun _ => ?_, fun _ => ht⟩
  exact b_bind (b_store (sb_append_get ht _)) fun _ _ ht =>
    b_bind (b_update_decided ht _) fun _ _ ht => b_reply_opt ht _ _

theorem b_handle_decide (h : LB lo bp s) (a : Decide) : KeepsB lo bp (handle_decide a) s := by
  unfold handle_decide
  refine b_bind (b_accept_guard h _ _ _) fun ok t ht => ?_
  rw [KeepsB, M.sat_ite]
  exact ⟨fun _ => b_bind (b_update_decided ht _) fun _ _ ht => b_reply_opt ht _ _, fun _ => ht⟩

/-- All messages but AcceptSync, Compaction, and Promise outside the Accept phase. -/
theorem b_handle [SnapOps E S] (h : LB lo bp s) {m : PaxosMessage E S} (h1 : ∀ a, m.msg ≠ .acceptSync a)
    (h2 : ∀ p, m.msg = .promise p → s.phase ≠ .prepare) (h3 : ∀ c, m.msg ≠ .compaction c) : KeepsB lo bp (handle m) s := by
  unfold handle
  split <;> rename_i heq
  · exact b_handle_preparereq h _ _
  · exact b_handle_prepare h _ _
  · simp only [KeepsB, handle_promise, M.sat_bind, M.sat_get]
    split
    · rename_i hp; exact absurd hp (h2 _ heq)
    · exact b_handle_promise_accept h _ _
    · exact h
  · exact absurd heq (h1 _)
  · exact b_handle_acceptdecide h _
  · exact b_handle_notaccepted h _ _
  · exact b_handle_accepted h _ _
  · exact b_handle_decide h _
  · exact b_handle_forwarded_proposal h _
  · exact absurd heq (h3 _)
  · exact b_handle_accept_stopsign h _
  · exact b_handle_forwarded_stopsign h _

/-! ### Proposals waiting in the buffer, when the server is synchronised -/

/-- The proposals `bp` are still in the buffer, or in the log, or on their way to the server promised to. -/
def Waiting (bp : List E) (s : SP E S) : Prop :=
  bp <+: s.buffered_proposals ∨ bp <:+: s.ist.storage.log ∨
    { src := s.pid, dst := s.ist.cache.promise.pid, msg := .proposalForward bp } ∈ s.outgoing

theorem waiting_acceptsync [SnapOps E S] (a : AcceptSync E S) (f : NodeId) :
    M.Sat (handle_acceptsync a f) s (fun _ t => Waiting s.buffered_proposals t) (fun _ => True) := by
  have hck : M.Sat (check_valid_ballot a.n) s (fun _ t => t.buffered_proposals = s.buffered_proposals) (fun _ => True) := by
    simp only [check_valid_ballot, M.sat_bind, M.sat_get]
    split
    · rw [M.sat_pure]
    · simp only [M.sat_bind, sat_send, M.sat_pure]
    · simp only [M.sat_bind, reconnected, M.sat_get, M.sat_ite, M.sat_pure, M.sat_whenDo, sat_setState, sat_send]
      exact ⟨fun _ => trivial, fun _ => ⟨fun _ => trivial, fun _ => trivial⟩⟩
  simp only [handle_acceptsync, M.sat_bind, M.sat_get, M.sat_ite, M.sat_upd, M.sat_pure, sat_onStore]
  refine M.sat_mono hck (fun ok t ht => ⟨fun _ => ?_, fun _ => .inl (by rw [ht]; exact List.prefix_rfl)⟩) fun _ _ => trivial
  refine M.sat_mono (M.sat_true _ _) (fun k i _ => ?_) fun _ _ => trivial
  rw [M.sat_whenDo]
  refine ⟨fun _ => ?_, fun _ => ?_⟩
  · simp only [forward_buffered_proposals, forward_proposals, M.sat_bind, M.sat_get, M.sat_upd, M.sat_ite, M.sat_pure, sat_send,
      sat_setState]
    refine ⟨fun he => .inl (by rw [← ht, List.isEmpty_iff.1 he]; exact List.prefix_rfl), fun _ => ⟨fun _ => ?_, fun _ => ?_⟩⟩
    · exact .inr (.inr (by rw [← ht]; simp [get_current_leader, get_promise]))
    · exact .inl (by rw [← ht]; simp)
  · simp only [M.sat_bind, M.sat_upd, sat_send, sat_setState]
    exact .inl (by rw [ht]; exact List.prefix_rfl)

theorem waiting_majority [SnapOps E S] :
    M.Sat handle_majority_promises s (fun _ t => s.buffered_proposals <+: t.buffered_proposals ∨ s.buffered_proposals <:+: t.ist.storage.log) (fun _ => True) := by
  simp only [handle_majority_promises, M.sat_bind, M.sat_get, M.sat_upd, sat_onStore]
  refine M.sat_mono (M.sat_true _ _) (fun k i _ => ?_) fun _ _ => trivial
  have hb : M.Sat (append_buffered k) { s with ls := { s.ls with max_promise_sync := none }, ist := i }
      (fun _ t => s.buffered_proposals <+: t.buffered_proposals ∨ s.buffered_proposals <:+: t.ist.storage.log) (fun _ => True) := by
    simp only [append_buffered, append_buffered_proposals, M.sat_bind, M.sat_get, M.sat_upd, M.sat_ite, M.sat_pure, sat_onStore,
      IStore.append_entries_without_batching, IStore.sat_write_append, IStore.sat_write_stopsign, IStore.sat_write_promise, IStore.sat_write_decided, IStore.sat_setCache]
    have hss : ∀ (k : Nat) (t : SP E S), (s.buffered_proposals <+: t.buffered_proposals ∨ s.buffered_proposals <:+: t.ist.storage.log) →
        M.Sat (append_buffered_stopsign k) t (fun _ t => s.buffered_proposals <+: t.buffered_proposals ∨ s.buffered_proposals <:+: t.ist.storage.log) (fun _ => True) := by
      intro k t ht
      simp only [append_buffered_stopsign, M.sat_bind, M.sat_get]
      split
      · simp only [M.sat_bind, M.sat_upd, sat_onStore, M.sat_get, M.sat_pure]
        simp only [IStore.append_stopsign, IStore.cache_append_stopsign, M.sat_bind, M.sat_get, IStore.sat_setCache, M.sat_ite,
          M.sat_pure, IStore.flush_if_full_batch, IStore.append_entries_without_batching, IStore.sat_write_append, IStore.sat_write_stopsign, IStore.sat_write_promise, IStore.sat_write_decided, Mem.set_stopsign,
          Mem.append_entries]
        refine ⟨fun _ => ht, fun _ => ?_⟩
        rcases ht with ht | ht
        · exact .inl ht
        · exact .inr (ht.trans (List.prefix_append ..).isInfix)
      · exact ht
    refine ⟨fun _ => .inl List.prefix_rfl, fun _ => ⟨fun _ => hss _ _ (.inl List.prefix_rfl), fun _ => hss _ _ (.inr ?_)⟩⟩
    exact (List.suffix_append ..).isInfix
  refine M.sat_mono hb (fun k t ht => ?_) fun _ _ => trivial
  rw [sat_setState, sat_onLS]
  refine ⟨fun ls _ => ?_, fun _ => trivial⟩
  refine M.sat_mono (so_forEach fun p t => so_send_accsync p) (fun _ u hu => ?_) fun _ _ => trivial
  rw [hu]; exact ht

theorem b_any {α : Type} (h : LB [] bp s) (m : M (IStore E S) α) : BS [] bp m s := by
  unfold BS M.Sat
  split <;> exact ⟨List.nil_prefix, h.buf⟩

theorem b_trim (h : LB [] bp s) (i : Option Nat) : KeepsB [] bp (trim i) s := by
  unfold trim
  refine b_bind (m := M.get) h fun a t ht => ?_
  simp only [KeepsB, M.sat_ite, M.sat_bind, M.sat_ofPan, M.sat_pure]
  refine ⟨fun _ => ⟨fun k _ => ⟨fun _ => ?_, fun _ => ht⟩, fun _ => ht⟩, fun _ => ht⟩
  refine M.sat_mono (b_store (b_any ht _)) (fun r u hu => ?_) fun _ h => h
  cases r with
  | error e => exact hu
  | ok _ => rw [M.sat_bind]; exact b_forEach hu fun x t ht => b_send ht x _

theorem b_snapshot [SnapOps E S] (h : LB [] bp s) (i : Option Nat) (l : Bool) : KeepsB [] bp (snapshot i l) s := by
  unfold snapshot
  refine b_bind (m := M.get) h fun a t ht => b_bind (b_store (b_any ht _)) fun r u hu => ?_
  cases r with
  | error e => exact hu
  | ok _ =>
    simp only [KeepsB, M.sat_bind, M.sat_whenDo, M.sat_pure]
    exact ⟨fun _ => b_forEach hu fun x t ht => b_send ht x _, fun _ => hu⟩

theorem b_handle_compaction [SnapOps E S] (h : LB [] bp s) (c : Compaction) : KeepsB [] bp (handle_compaction c) s := by
  cases c with
  | trim i => exact b_bind (b_store (b_any h _)) fun _ _ h => h
  | snapshot i => exact b_bind (b_snapshot h i true) fun _ _ h => h

/-- After handling any message the buffered proposals are still somewhere. -/
theorem waiting_handle [SnapOps E S] (m : PaxosMessage E S) :
    M.Sat (handle m) s (fun _ t => Waiting s.buffered_proposals t) (fun _ => True) := by
  have h0 : LB [] s.buffered_proposals s := ⟨List.nil_prefix, List.prefix_rfl⟩
  have lift : ∀ {m : M (SP E S) Unit}, KeepsB [] s.buffered_proposals m s →
      M.Sat m s (fun _ t => Waiting s.buffered_proposals t) (fun _ => True) := fun h =>
    M.sat_mono h (fun _ _ h => .inl h.buf) fun _ _ => trivial
  by_cases h1 : ∃ a, m.msg = .acceptSync a
  · obtain ⟨a, ha⟩ := h1
    unfold handle; rw [ha]
    exact waiting_acceptsync a m.src
  by_cases h3 : ∃ c, m.msg = .compaction c
  · obtain ⟨c, hc⟩ := h3
    unfold handle; rw [hc]
    exact lift (b_handle_compaction h0 c)
  by_cases h2 : ∃ p, m.msg = .promise p ∧ s.phase = .prepare
  · obtain ⟨p, hp, hph⟩ := h2
    unfold handle; rw [hp]
    simp only [handle_promise, M.sat_bind, M.sat_get]
    split <;> rename_i hx
    · simp only [handle_promise_prepare, M.sat_bind, M.sat_get, M.sat_ite, M.sat_pure, sat_onLS']
      refine ⟨fun _ => ⟨fun r hr => ⟨fun _ => ?_, fun _ => .inl List.prefix_rfl⟩, fun _ => trivial⟩, fun _ => .inl List.prefix_rfl⟩
      exact M.sat_mono (waiting_majority (s := { s with ls := r.1 })) (fun _ t ht => ht.elim .inl fun h => .inr (.inl h)) fun _ _ => trivial
    · exact lift (b_handle_promise_accept h0 _ _)
    · exact lift (m := pure ()) h0
  · exact lift (b_handle h0 (fun a e => h1 ⟨a, e⟩) (fun p e hp => h2 ⟨p, e, hp⟩) fun c e => h3 ⟨c, e⟩)


theorem closed_b [SnapOps E S] : SP.Closed0 (E := E) (S := S) (LB lo bp) (LB lo bp) where
  lead n _ h := b_handle_leader h n
  resend _ h := b_resend h
  flush _ h := b_flush_timeout h
  append e _ h := b_append h e
  reconf c md _ h := b_reconfigure h c md
  recon p _ h := b_reconnected h p

end SP

end Omni
