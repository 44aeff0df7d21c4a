import Verif.Proof.QuorumRun
import Verif.Proof.AnyRun
/-
A server in the Accept phase without a StopSign holds no proposal back.
-/
namespace Omni

variable {E S : Type}

/-- In the Accept phase without a StopSign, no proposal waits in the buffers. -/
def SP.Held (s : SP E S) : Prop :=
  s.ist.cache.stopsign = none → s.phase = .accept → s.buffered_proposals = [] ∧ (s.role = .leader → s.buffered_stopsign = none)

namespace IStore

variable {i : IStore E S} {b : Prop}

/-- `b`, if there is no StopSign. -/
abbrev NS (b : Prop) (i : IStore E S) : Prop := i.cache.stopsign = none → b

abbrev KeepsN (b : Prop) {α : Type} (m : M (IStore E S) α) (i : IStore E S) : Prop := M.Sat m i (fun _ j => NS b j) (fun _ => True)

theorem n_bind {α β : Type} {m : M (IStore E S) α} {f : α → M (IStore E S) β} (hm : KeepsN b m i)
    (hf : ∀ a j, NS b j → KeepsN b (f a) j) : KeepsN b (m >>= f) i := by
  unfold KeepsN; rw [M.sat_bind]
  exact M.sat_mono hm (fun a j h => hf a j h) fun _ h => h

theorem n_cache (h : NS b i) {f : StateCache E → StateCache E} (hd : (f i.cache).stopsign = i.cache.stopsign) : KeepsN b (setCache f) i := by
  unfold KeepsN; rw [sat_setCache]
  exact fun e => h (hd.symm.trans e)

theorem n_writeOps (h : NS b i) (ops : List (StorageOp E S)) : KeepsN b (writeOps ops) i := by
  unfold KeepsN; rw [sat_writeOps]
  exact ⟨fun m hm => h, fun _ => trivial⟩

theorem n_append_nb (h : NS b i) (es : List E) : KeepsN b (append_entries_without_batching es) i := by
  unfold append_entries_without_batching
  refine n_bind ((sat_write_append ..).2 h) fun _ j hj => ?_
  exact n_bind (n_cache hj rfl) fun _ k hk => hk

theorem n_cache_append (h : NS b i) (es : List E) : KeepsN b (cache_append_entries es) i := by
  refine n_bind (n_cache h rfl) fun _ _ h => ?_
  simp only [KeepsN, take_entries_if_batch_is_full, M.sat_bind, M.sat_get, M.sat_ite, M.sat_pure]
  exact ⟨fun _ => n_cache h rfl, fun _ => h⟩

theorem n_flush_if (h : NS b i) (r : Option (List E)) : KeepsN b (flush_if_full_batch r) i := by
  cases r with
  | none => exact h
  | some es => exact n_bind (n_append_nb h es) fun _ _ h => h

theorem n_append_entries (h : NS b i) (es : List E) : KeepsN b (append_entries_with_batching es) i :=
  n_bind (n_cache_append h es) fun r _ h => n_flush_if h r

theorem n_append_get (h : NS b i) (es : List E) : KeepsN b (append_entries_and_get_accepted_idx es) i := by
  refine n_bind (n_cache_append h es) fun r j h => ?_
  cases r with
  | none => exact h
  | some es => exact n_bind (n_append_nb h es) fun _ _ h => h

theorem n_append_ss (ss : StopSign) : KeepsN b (append_stopsign ss) i := by
  unfold append_stopsign cache_append_stopsign
  refine n_bind (n_bind (i := i) (m := setCache _) ?_ fun _ j hj => ?_) fun r j hj => n_bind (n_flush_if hj r) fun md k hk => ?_
  · unfold KeepsN; rw [sat_setCache]; exact nofun
  · simp only [KeepsN, M.sat_bind, M.sat_get, M.sat_ite, M.sat_pure]
    exact ⟨fun _ => hj, fun _ => n_cache hj rfl⟩
  · refine n_bind ((sat_write_stopsign ..).2 hk) fun _ l hl => ?_
    exact n_bind (n_cache hl rfl) fun _ _ h => h

theorem n_flush (h : NS b i) : KeepsN b flush_batch i := by
  simp only [KeepsN, flush_batch, M.sat_bind, M.sat_get]
  exact M.sat_mono (n_cache h rfl) (fun _ _ h => n_append_nb h _) fun _ h => h

theorem n_flush_get (h : NS b i) : KeepsN b flush_batch_and_get_entries i := by
  simp only [KeepsN, flush_batch_and_get_entries, M.sat_bind, M.sat_get, M.sat_ite]
  exact ⟨fun _ => n_flush_if h _, fun _ => M.sat_mono (n_cache h rfl) (fun _ _ h => n_flush_if h _) fun _ h => h⟩

theorem n_try_trim (h : NS b i) (k : Nat) : KeepsN b (try_trim k) i := by
  simp only [KeepsN, try_trim, M.sat_bind, M.sat_get, M.sat_ofPan]
  refine ⟨fun t _ => ?_, fun _ => trivial⟩
  cases t with
  | error e => exact h
  | ok k =>
    simp only [M.sat_ite, M.sat_pure]
    exact ⟨fun _ => n_bind (n_writeOps h _) fun _ j hj => n_bind (n_cache hj rfl) fun _ _ h => h, fun _ => h⟩

theorem n_try_snapshot [SnapOps E S] (h : NS b i) (k : Option Nat) : KeepsN b (try_snapshot k) i := by
  simp only [KeepsN, try_snapshot, M.sat_bind, M.sat_get, M.sat_ofPan]
  refine ⟨fun t _ => ?_, fun _ => trivial⟩
  cases t with
  | error e => exact h
  | ok k =>
    simp only [M.sat_ite, M.sat_bind, M.sat_ofPan, M.sat_pure]
    refine ⟨fun _ => ⟨fun r hr => ?_, fun _ => trivial⟩, fun _ => h⟩
    cases r with
    | error e => exact h
    | ok x => exact n_bind (n_writeOps h _) fun _ j hj => n_bind (n_cache hj rfl) fun _ _ h => h

theorem n_set_stopsign (ss : StopSign) : KeepsN b (set_stopsign (some ss)) i := by
  simp only [KeepsN, set_stopsign, M.sat_bind, M.sat_get, M.sat_ofPan, IStore.sat_setCache, IStore.sat_write_stopsign, M.sat_pure]
  exact ⟨fun _ _ => nofun, fun _ => trivial⟩

theorem n_set_promise (h : NS b i) (n : Ballot) : KeepsN b (set_promise n) i :=
  n_bind (n_cache h rfl) fun _ _ h => (sat_write_promise ..).2 h

theorem n_set_decided (h : NS b i) (n : Nat) : KeepsN b (set_decided_idx n) i :=
  n_bind (n_cache h rfl) fun _ _ h => (sat_write_decided ..).2 h

end IStore

namespace SP

variable {s : SP E S}

abbrev KeepsW {α : Type} (m : M (SP E S) α) (s : SP E S) : Prop := M.Sat m s (fun _ t => Held t) (fun _ => True)

abbrev WS {α : Type} (m : M (IStore E S) α) (s : SP E S) : Prop :=
  M.Sat m s.ist (fun _ j => Held { s with ist := j }) (fun _ => True)

theorem sw_flush (h : Held s) : WS IStore.flush_batch s := IStore.n_flush h
theorem sw_flush_get (h : Held s) : WS IStore.flush_batch_and_get_entries s := IStore.n_flush_get h
theorem sw_append_entries (h : Held s) (es : List E) : WS (IStore.append_entries_with_batching es) s := IStore.n_append_entries h es
theorem sw_append_get (h : Held s) (es : List E) : WS (IStore.append_entries_and_get_accepted_idx es) s := IStore.n_append_get h es
theorem sw_append_ss (_ : Held s) (ss : StopSign) : WS (IStore.append_stopsign ss) s :=
  IStore.n_append_ss (i := s.ist) (b := s.phase = .accept → s.buffered_proposals = [] ∧ (s.role = .leader → s.buffered_stopsign = none)) ss
theorem sw_set_stopsign (_ : Held s) (ss : StopSign) : WS (IStore.set_stopsign (some ss)) s :=
  IStore.n_set_stopsign (i := s.ist) (b := s.phase = .accept → s.buffered_proposals = [] ∧ (s.role = .leader → s.buffered_stopsign = none)) ss
theorem sw_set_promise (h : Held s) (b : Ballot) : WS (IStore.set_promise b) s := IStore.n_set_promise h b
theorem sw_set_decided (h : Held s) (d : Nat) : WS (IStore.set_decided_idx d) s := IStore.n_set_decided h d

theorem w_bind {α β : Type} {m : M (SP E S) α} {f : α → M (SP E S) β} (hm : KeepsW m s)
    (hf : ∀ a t, Held t → KeepsW (f a) t) : KeepsW (m >>= f) s := by
  unfold KeepsW; rw [M.sat_bind]
  exact M.sat_mono hm (fun a j h => hf a j h) fun _ h => h

theorem w_store {α : Type} {m : M (IStore E S) α} (hm : WS m s) : KeepsW (onStore m) s := by
  unfold KeepsW; rw [sat_onStore]; exact hm

theorem w_forEach {α : Type} {xs : List α} {body : α → M (SP E S) Unit} (h : Held s)
    (hb : ∀ x t, Held t → KeepsW (body x) t) : KeepsW (M.forEach xs body) s :=
  M.sat_forEach (fun t => Held t) h fun x _ t ht => hb x t ht

theorem w_so {α : Type} {m : M (SP E S) α} (h : Held s)
    (hm : M.Sat m s (fun _ t => SendOnly s t) (SendOnly s)) : KeepsW m s :=
  M.sat_mono hm (fun _ t ht => by rw [ht]; exact h) fun t ht => trivial

theorem w_send (h : Held s) (to : NodeId) (m : PaxosMsg E S) : KeepsW (send to m) s := by
  unfold KeepsW; rw [sat_send]; exact h

theorem w_onLS (h : Held s) (f : LeaderState E S → Pan (LeaderState E S)) : KeepsW (onLS f) s := by
  unfold KeepsW; rw [sat_onLS]; exact ⟨fun _ _ => h, fun _ => trivial⟩

theorem w_onLS' {α : Type} (h : Held s) (f : LeaderState E S → Pan (LeaderState E S × α)) : KeepsW (onLS' f) s := by
  unfold KeepsW; rw [sat_onLS']; exact ⟨fun _ _ => h, fun _ => trivial⟩

theorem w_reconnected (h : Held s) (pid : NodeId) : KeepsW (reconnected pid) s := by
  simp only [KeepsW, reconnected, M.sat_bind, M.sat_get, M.sat_ite, M.sat_pure, M.sat_whenDo, sat_setState, sat_send]
  exact ⟨fun _ => h, fun _ => ⟨fun _ _ => nofun, fun _ => h⟩⟩

theorem w_forward_proposals (h : Held s) (hv : s.phase = .accept → s.get_current_leader > 0 ∧ s.pid ≠ s.get_current_leader) (es : List E) : KeepsW (forward_proposals es) s := by
  simp only [KeepsW, forward_proposals, M.sat_bind, M.sat_get, M.sat_ite, M.sat_upd, sat_send]
  exact ⟨fun _ => h, fun hn _ hp => absurd (hv hp) hn⟩

theorem w_forward_stopsign (h : Held s) (hv : s.role = .leader → s.phase = .accept → False) (ss : StopSign) : KeepsW (forward_stopsign ss) s := by
  simp only [KeepsW, forward_stopsign, M.sat_bind, M.sat_get, M.sat_ite, M.sat_upd, sat_send, M.sat_pure]
  exact ⟨fun _ => h, fun _ => ⟨fun _ e hp => ⟨(h e hp).1, fun hr => (hv hr hp).elim⟩, fun _ => h⟩⟩

theorem w_handle_leader (h : Held s) (n : Ballot) : KeepsW (handle_leader n) s := by
  simp only [KeepsW, handle_leader, M.sat_bind, M.sat_get, M.sat_ite, M.sat_pure, M.sat_upd]
  refine ⟨fun _ => h, fun hn => ⟨fun hp => ?_, fun _ e hp => ⟨(h e hp).1, nofun⟩⟩⟩
  refine M.sat_mono (w_store (sw_flush (s := s) h)) (fun _ t ht => ?_) fun _ h => h
  refine M.sat_mono (w_store (sw_set_promise ht n))
    (fun _ u hu => ?_) fun _ h => h
  refine M.sat_mono (w_onLS' hu _) (fun _ v hv => ?_) fun _ h => h
  rw [sat_setState]
  exact w_forEach (s := { v with role := .leader, phase := .prepare }) (fun _ => nofun) fun x _ ht => w_send ht x _

theorem w_handle_preparereq (h : Held s) (n : Ballot) (f : NodeId) : KeepsW (handle_preparereq n f) s := by
  unfold handle_preparereq
  refine w_bind (m := M.get) h fun a t ht => ?_
  simp only [KeepsW, M.sat_ite, M.sat_pure]
  refine ⟨fun _ => ?_, fun _ => ht⟩
  exact w_bind (w_onLS ht _) fun _ _ ht => w_bind (w_onLS ht _) fun _ _ ht => w_so ht (so_send_prepare f)

theorem w_accepted_leader (h : Held s) (md : Option (AcceptedMetaData E)) : KeepsW (accepted_leader md) s := by
  cases md with
  | none => exact h
  | some md =>
    simp only [KeepsW, accepted_leader, M.sat_bind, M.sat_get]
    exact M.sat_mono (w_onLS h _) (fun _ _ ht => w_so ht (so_send_acceptdecide _)) fun _ h => h

theorem w_accept_entries_leader (h : Held s) (es : List E) : KeepsW (accept_entries_leader es) s :=
  w_bind (w_store (sw_append_entries h es)) fun _ _ ht => w_accepted_leader ht _

theorem w_accept_stopsign_leader (h : Held s) (ss : StopSign) : KeepsW (accept_stopsign_leader ss) s := by
  unfold accept_stopsign_leader
  refine w_bind (w_store (sw_append_ss h ss)) fun md t ht => w_bind ?_ fun _ u hu => ?_
  · cases md with
    | none => exact ht
    | some md => exact w_so ht (so_send_acceptdecide _)
  · simp only [KeepsW, M.sat_bind, M.sat_get]
    exact M.sat_mono (w_onLS hu _)
      (fun _ _ ht => w_forEach ht fun x _ ht => w_so ht (so_send_accept_stopsign x ss false)) fun _ h => h

theorem w_handle_promise_accept [SnapOps E S] (h : Held s) (p : Promise E S) (f : NodeId) :
    KeepsW (handle_promise_accept p f) s := by
  unfold handle_promise_accept
  refine w_bind (m := M.get) h fun a t ht => ?_
  simp only [KeepsW, M.sat_ite, M.sat_pure]
  exact ⟨fun _ => w_bind (w_onLS' ht _) fun _ _ ht => w_so ht (so_send_accsync f), fun _ => ht⟩

theorem w_handle_notaccepted (h : Held s) (n : Ballot) (f : NodeId) : KeepsW (handle_notaccepted n f) s := by
  simp only [KeepsW, handle_notaccepted, M.sat_bind, M.sat_get, M.sat_ite, M.sat_pure]
  exact ⟨fun _ => w_onLS h _, fun _ => h⟩

/-- A follower in the Accept phase knows another server as leader. -/
def Knows (s : SP E S) : Prop := s.role = .follower → s.phase = .accept → s.get_current_leader > 0 ∧ s.pid ≠ s.get_current_leader

theorem Knows.other (hk : Knows s) (h : s.role = .leader → s.phase = .accept → False) (hp : s.phase = .accept) :
    s.get_current_leader > 0 ∧ s.pid ≠ s.get_current_leader := by
  cases hr : s.role with
  | leader => exact (h hr hp).elim
  | follower => exact hk hr hp

theorem w_handle_forwarded_proposal (h : Held s) (hk : Knows s) (es : List E) : KeepsW (handle_forwarded_proposal es) s := by
  simp only [KeepsW, handle_forwarded_proposal, M.sat_bind, M.sat_get, M.sat_ite, M.sat_pure]
  refine ⟨fun _ => h, fun _ => ?_⟩
  split <;> rename_i e1 e2
  · rw [M.sat_upd]; exact fun _ (hp : s.phase = .accept) => nomatch e2.symm.trans hp
  · exact w_accept_entries_leader h es
  · exact w_forward_proposals h (hk.other e2) es

theorem w_handle_forwarded_stopsign (h : Held s) (ss : StopSign) : KeepsW (handle_forwarded_stopsign ss) s := by
  simp only [KeepsW, handle_forwarded_stopsign, M.sat_bind, M.sat_get, M.sat_ite, M.sat_pure]
  refine ⟨fun _ => h, fun _ => ?_⟩
  split <;> rename_i e1 e2
  · rw [M.sat_upd]; exact fun _ (hp : s.phase = .accept) => nomatch e2.symm.trans hp
  · exact w_accept_stopsign_leader h ss
  · exact w_forward_stopsign h e2 ss

theorem w_handle_prepare [SnapOps E S] (h : Held s) (p : Prepare) (f : NodeId) : KeepsW (handle_prepare p f) s := by
  simp only [KeepsW, handle_prepare, M.sat_bind, M.sat_get, M.sat_ite, M.sat_pure, M.sat_upd, M.sat_ofPan, sat_send]
  refine ⟨fun hg => ?_, fun _ => h⟩
  refine M.sat_mono (w_store (sw_flush h)) (fun _ t ht => ?_) fun _ h => h
  refine M.sat_mono (w_store (sw_set_promise ht p.n)) (fun _ u hu => ?_) fun _ h => h
  exact ⟨fun _ _ _ => nofun, fun _ => trivial⟩

theorem w_check_valid_ballot (h : Held s) (n : Ballot) : KeepsW (check_valid_ballot n) s := by
  simp only [KeepsW, check_valid_ballot, M.sat_bind, M.sat_get]
  split
  · exact h
  · exact w_bind (w_send h _ _) fun _ _ ht => ht
  · exact w_bind (w_reconnected h _) fun _ _ ht => ht

theorem w_accept_guard (h : Held s) (n : Ballot) (q : SeqNum) (any : Bool) : KeepsW (accept_guard n q any) s := by
  unfold accept_guard
  refine w_bind (w_check_valid_ballot h n) fun ok t ht => ?_
  simp only [KeepsW, M.sat_bind, M.sat_get, M.sat_ite, M.sat_pure, handle_sequence_num]
  refine ⟨fun _ => ?_, fun _ => ht⟩
  split
  · exact ht
  · rw [M.sat_bind]; exact w_reconnected ht _
  · exact ht

theorem w_reply_accepted (h : Held s) (n : Ballot) (i : Nat) : KeepsW (reply_accepted n i) s := by
  simp only [KeepsW, reply_accepted, M.sat_bind, M.sat_get, M.sat_ofPan]
  refine ⟨fun r _ => ?_, fun _ => trivial⟩
  match r with
  | some (idx, a) => rw [sat_setMsg]; exact h
  | none => exact h

theorem w_reply_opt (h : Held s) (n : Ballot) (i : Option Nat) : KeepsW (reply_opt n i) s := by
  cases i with
  | none => exact h
  | some i => exact w_reply_accepted h n i

theorem w_handle_accept_stopsign (h : Held s) (a : AcceptStopSign) : KeepsW (handle_accept_stopsign a) s := by
  unfold handle_accept_stopsign
  refine w_bind (w_accept_guard h _ _ _) fun ok t ht => ?_
  rw [KeepsW, M.sat_ite]
  refine ⟨fun _ => ?_, fun _ => ht⟩
  exact w_bind (w_store (sw_flush ht)) fun _ _ ht =>
    w_bind (w_store (sw_set_stopsign ht _)) fun _ _ ht => w_reply_accepted ht _ _

theorem w_resend (h : Held s) : KeepsW resend_message_timeout s := by
  have hall : ∀ t : SP E S, Held t → KeepsW send_preparereq_to_all_peers t := fun t ht =>
    w_bind (m := M.get) ht fun _ _ ht => w_forEach ht fun x _ ht => w_send ht x _
  simp only [KeepsW, resend_message_timeout, M.sat_bind, M.sat_get]
  split
  · exact w_so h so_resend_messages_leader
  · simp only [resend_messages_follower, M.sat_bind, M.sat_get]
    split
    · split
      · exact w_send h _ _
      · simp only [M.sat_bind, sat_setState]; exact hall _ fun _ => nofun
    · exact hall _ h
    · exact h
    · exact h

theorem w_flush_timeout (h : Held s) : KeepsW flush_batch_timeout s := by
  simp only [KeepsW, flush_batch_timeout, M.sat_bind, M.sat_get]
  split
  · simp only [flush_batch_leader, M.sat_bind]
    exact M.sat_mono (w_store (sw_flush_get h)) (fun _ _ ht => w_accepted_leader ht _) fun _ h => h
  · simp only [flush_batch_follower, M.sat_bind, M.sat_get]
    refine M.sat_mono (w_store (sw_flush h)) (fun k t ht => ?_) fun _ h => h
    simp only [M.sat_ite, M.sat_pure]
    exact ⟨fun _ => w_reply_accepted ht _ _, fun _ => ht⟩
  · exact h

theorem w_append (h : Held s) (hk : Knows s) (e : E) : KeepsW (append e) s := by
  simp only [KeepsW, append, M.sat_bind, M.sat_get, M.sat_ite, M.sat_pure]
  refine ⟨fun _ => h, fun hf => ?_⟩
  simp only [propose_entry, M.sat_bind, M.sat_get]
  split <;> rename_i e1 e2
  · rw [M.sat_upd]; exact fun _ (hp : s.phase = .accept) => nomatch e2.symm.trans hp
  · exact w_accept_entries_leader h [e]
  · exact w_forward_proposals h (hk.other e2) _

theorem w_reconfigure (h : Held s) (c : ClusterConfig) (md : Option (List Nat)) : KeepsW (reconfigure c md) s := by
  simp only [KeepsW, reconfigure, M.sat_bind, M.sat_get, M.sat_ite, M.sat_pure]
  refine ⟨fun _ => h, fun hf => ?_⟩
  simp only [propose_stopsign, M.sat_bind, M.sat_get]
  split <;> rename_i e1 e2
  · rw [M.sat_upd]; exact fun _ (hp : s.phase = .accept) => nomatch e2.symm.trans hp
  · exact w_accept_stopsign_leader h _
  · exact w_forward_stopsign h e2 _

theorem w_handle_accepted (h : Held s) (a : Accepted) (f : NodeId) : KeepsW (handle_accepted a f) s := by
  simp only [KeepsW, handle_accepted, M.sat_bind, M.sat_get, M.sat_ite, M.sat_pure, sat_onLS]
  refine ⟨fun hg => ⟨fun ls e => ⟨fun hc => ?_, fun _ => h⟩, fun _ => trivial⟩, fun _ => h⟩
  exact M.sat_mono (w_store (sw_set_decided (s := { s with ls := ls }) h _)) (fun _ t ht =>
    w_forEach ht fun x _ ht => w_so ht (so_announce_decided _ x)) fun _ h => h

theorem w_update_decided (h : Held s) (k : Nat) :
    KeepsW (update_decided_idx_and_get_accepted_idx k) s := by
  simp only [KeepsW, update_decided_idx_and_get_accepted_idx, M.sat_bind, M.sat_get, M.sat_ite, M.sat_pure]
  refine ⟨fun _ => h, fun hk => ⟨fun _ => ?_, fun _ => w_store (sw_set_decided h _)⟩⟩
  exact M.sat_mono (w_store (sw_flush h)) (fun a j hj => w_store (sw_set_decided hj _)) fun _ h => h

theorem w_handle_acceptdecide (h : Held s) (a : AcceptDecide E) :
    KeepsW (handle_acceptdecide a) s := by
  unfold handle_acceptdecide
  refine w_bind (w_accept_guard h _ _ _) fun ok t ht => ?_
  rw [KeepsW, M.sat_ite]
  refine ⟨fun _ => ?_, fun _ => ht⟩
  exact w_bind (w_store (sw_append_get ht _)) fun _ _ ht =>
    w_bind (w_update_decided ht _) fun _ _ ht => w_reply_opt ht _ _

theorem w_handle_decide (h : Held s) (a : Decide) : KeepsW (handle_decide a) s := by
  unfold handle_decide
  refine w_bind (w_accept_guard h _ _ _) fun ok t ht => ?_
  rw [KeepsW, M.sat_ite]
  exact ⟨fun _ => w_bind (w_update_decided ht _) fun _ _ ht => w_reply_opt ht _ _, fun _ => ht⟩

theorem w_try (h : Held s) (i : Nat) : KeepsW (onStore (IStore.try_trim i)) s := w_store (IStore.n_try_trim h i)

theorem w_trim (h : Held s) (i : Option Nat) : KeepsW (trim i) s := by
  unfold trim
  refine w_bind (m := M.get) h fun a t ht => ?_
  simp only [KeepsW, M.sat_ite, M.sat_bind, M.sat_ofPan, M.sat_pure]
  refine ⟨fun _ => ⟨fun k _ => ⟨fun _ => ?_, fun _ => ht⟩, fun _ => trivial⟩, fun _ => ht⟩
  refine M.sat_mono (w_try ht _) (fun r u hu => ?_) fun _ h => h
  cases r with
  | error e => exact hu
  | ok _ => rw [M.sat_bind]; exact w_forEach hu fun x t ht => w_send ht x _

theorem w_snapshot [SnapOps E S] (h : Held s) (i : Option Nat) (l : Bool) : KeepsW (snapshot i l) s := by
  unfold snapshot
  refine w_bind (m := M.get) h fun a t ht => w_bind (w_store (IStore.n_try_snapshot ht _)) fun r u hu => ?_
  cases r with
  | error e => exact hu
  | ok _ =>
    simp only [KeepsW, M.sat_bind, M.sat_whenDo, M.sat_pure]
    exact ⟨fun _ => w_forEach hu fun x t ht => w_send ht x _, fun _ => hu⟩

theorem w_handle_compaction [SnapOps E S] (h : Held s) (c : Compaction) : KeepsW (handle_compaction c) s := by
  cases c with
  | trim i => exact w_bind (w_try h _) fun _ _ h => h
  | snapshot i => exact w_bind (w_snapshot h i true) fun _ _ h => h

theorem w_handle_acceptsync [SnapOps E S] (h : Held s) {a : AcceptSync E S} (ha : a.n.pid > 0 ∧ s.pid ≠ a.n.pid) (f : NodeId) :
    KeepsW (handle_acceptsync a f) s := by
  simp only [KeepsW, handle_acceptsync, M.sat_bind, M.sat_get, M.sat_ite, M.sat_upd, M.sat_pure, sat_onStore]
  refine M.sat_mono (M.sat_and (w_check_valid_ballot h a.n) (check_valid_true a.n)) (fun ok t ht => ⟨fun hg => ?_, fun _ => ht.1⟩) fun _ _ => trivial
  obtain ⟨rfl, hc⟩ := ht.2 hg.1
  have hp : ∀ i : IStore E S, i.cache.promise = t.ist.cache.promise → i.cache.promise.pid > 0 ∧ t.pid ≠ i.cache.promise.pid := fun i e => by
    rw [e, ((Ballot.cmp_eq_iff ..).1 hc).2.2]; exact ha
  refine M.sat_mono (IStore.pd_sync_log _ _ _) (fun k i hi => ?_) fun _ _ => trivial
  rw [M.sat_whenDo]
  refine ⟨fun _ => ?_, fun hs => ?_⟩
  · simp only [forward_buffered_proposals, forward_proposals, M.sat_bind, M.sat_get, M.sat_upd, M.sat_ite, M.sat_pure, sat_send,
      sat_setState]
    exact ⟨fun he _ _ => ⟨rfl, nofun⟩, fun _ => ⟨fun _ _ _ => ⟨rfl, nofun⟩, fun hn => absurd (hp i hi.1) hn⟩⟩
  · simp only [M.sat_bind, M.sat_upd, sat_send, sat_setState]
    exact fun e => absurd (Option.isNone_iff_eq_none.2 e) hs

theorem w_handle_majority [SnapOps E S] : KeepsW handle_majority_promises s := by
  simp only [KeepsW, handle_majority_promises, M.sat_bind, M.sat_get, M.sat_upd, sat_onStore]
  refine M.sat_mono (M.sat_true _ _) (fun k i _ => ?_) fun _ _ => trivial
  have hb : M.Sat (append_buffered k) { s with ls := { s.ls with max_promise_sync := none }, ist := i }
      (fun _ t => t.ist.cache.stopsign = none → t.buffered_proposals = [] ∧ t.buffered_stopsign = none) (fun _ => True) := by
    simp only [append_buffered, append_buffered_proposals, M.sat_bind, M.sat_get, M.sat_upd, M.sat_ite, M.sat_pure, sat_onStore,
      IStore.append_entries_without_batching, IStore.sat_write_append, IStore.sat_setCache]
    have hss : ∀ (k : Nat) (t : SP E S), t.buffered_proposals = [] →
        M.Sat (append_buffered_stopsign k) t (fun _ t => t.ist.cache.stopsign = none → t.buffered_proposals = [] ∧ t.buffered_stopsign = none) (fun _ => True) := by
      intro k t ht
      simp only [append_buffered_stopsign, M.sat_bind, M.sat_get]
      split <;> rename_i e
      · simp only [M.sat_bind, M.sat_upd, sat_onStore, M.sat_get, M.sat_pure]
        exact IStore.n_append_ss _
      · rw [M.sat_pure]; exact fun _ => ⟨ht, e⟩
    refine ⟨fun hr e => ?_, fun _ => ⟨fun he => hss _ _ (List.isEmpty_iff.1 he), fun _ => hss _ _ rfl⟩⟩
    simp only [accepted_reconfiguration] at hr
    rw [e] at hr; cases hr
  refine M.sat_mono hb (fun k t ht => ?_) fun _ _ => trivial
  rw [sat_setState, sat_onLS]
  refine ⟨fun ls _ => ?_, fun _ => trivial⟩
  refine M.sat_mono (so_forEach fun p t => so_send_accsync p) (fun _ u hu => ?_) fun _ _ => trivial
  rw [hu]; exact fun e _ => ⟨(ht e).1, fun _ => (ht e).2⟩

/-- Every message keeps `Held`. -/
theorem w_handle [SnapOps E S] (h : Held s) (hk : Knows s) {m : PaxosMessage E S} (hm : ∀ a, m.msg = .acceptSync a → a.n.pid > 0 ∧ s.pid ≠ a.n.pid) :
    KeepsW (handle m) s := by
  unfold handle
  split <;> rename_i heq
  · exact w_handle_preparereq h _ _
  · exact w_handle_prepare h _ _
  · simp only [KeepsW, handle_promise, M.sat_bind, M.sat_get]
    split
    · simp only [handle_promise_prepare, M.sat_bind, M.sat_get, M.sat_ite, M.sat_pure, sat_onLS']
      exact ⟨fun _ => ⟨fun r hr => ⟨fun _ => w_handle_majority, fun _ => h⟩, fun _ => trivial⟩, fun _ => h⟩
    · exact w_handle_promise_accept h _ _
    · exact h
  · exact w_handle_acceptsync h (hm _ heq) _
  · exact w_handle_acceptdecide h _
  · exact w_handle_notaccepted h _ _
  · exact w_handle_accepted h _ _
  · exact w_handle_decide h _
  · exact w_handle_forwarded_proposal h hk _
  · exact w_handle_compaction h _
  · exact w_handle_accept_stopsign h _
  · exact w_handle_forwarded_stopsign h _

theorem QI.knows {R : Ev} (h : QI R s) (hz : ∀ n, R.sync n → n.pid > 0) : Knows s := by
  intro hr hp
  obtain ⟨h1, h2⟩ := h.acc hr hp
  exact ⟨hz _ h2, fun e => h1.2 (e.symm.trans h.pid)⟩

theorem closed_w [SnapOps E S] {R : Ev} (hz : ∀ n, R.sync n → n.pid > 0) :
    SP.Closed0On (E := E) (S := S) (fun n => n.pid = R.me) (fun p => R.node p ∨ R.ask p) (fun s => QI R s ∧ Held s) (fun _ => True) where
  lead n _ hn h := M.sat_mono (M.sat_and (q_handle_leader h.1 hn) (w_handle_leader h.2 n)) (fun _ _ h => h) fun _ _ => trivial
  resend _ h := M.sat_mono (M.sat_and (q_resend h.1) (w_resend h.2)) (fun _ _ h => h) fun _ _ => trivial
  flush _ h := M.sat_mono (M.sat_and (q_flush_timeout h.1) (w_flush_timeout h.2)) (fun _ _ h => h) fun _ _ => trivial
  append e _ h := M.sat_mono (M.sat_and (q_append h.1 e) (w_append h.2 (QI.knows h.1 hz) e)) (fun _ _ h => h) fun _ _ => trivial
  reconf c md _ h := M.sat_mono (M.sat_and (q_reconfigure h.1 c md) (w_reconfigure h.2 c md)) (fun _ _ h => h) fun _ _ => trivial
  recon p _ hp h := M.sat_mono (M.sat_and (q_reconnected h.1 p hp) (w_reconnected h.2 p)) (fun _ _ h => h) fun _ _ => trivial

end SP

variable [SnapOps E S]

/-- Along a run: the running servers have positive pids and hold nothing back; messages come from positive pids. -/
abbrev HeldInv (c : Loose E S) : Prop :=
  LInv (fun i op => i > 0 ∧ op.sp.Held) (fun _ _ => True) (fun m => ∀ p, m = .paxos p → p.src > 0) c

theorem HeldInv.step {cc : ClusterConfig} {acts : List (LAction E S)} {c c' : Loose E S} (hr : Loose.init.run cc acts = some c)
    (h : HeldInv c) {a : LAction E S} (hs : c.step cc a = some c') : HeldInv c' := by
  let A : NodeId → Prop := fun _ => True
  have hq : QRun cc A c := QRun.runsOn hr fun _ _ _ => trivial
  have h' : LInv (fun i op => c.servers i = .up op ∧ i > 0 ∧ op.sp.Held) (fun _ _ => True) (fun m => m ∈ c.sent ∧ ∀ p, m = .paxos p → p.src > 0) c :=
    ⟨fun i op e => ⟨e, h.up i op e⟩, fun _ _ _ => trivial, fun m hm => ⟨hm, h.sent m hm⟩⟩
  refine LInv.move (cc := cc) (ok := fun _ => True) ⟨fun _ _ h => h.2, fun _ _ _ => trivial, fun _ h => h.2, fun cfg d op _ hb => ?start,
    fun _ _ _ => trivial, fun i op call hu _ hc => ⟨fun op' ho => ⟨hu.2.1, ?call⟩, fun _ _ => trivial, fun _ _ => trivial⟩,
    fun i op hu => ⟨⟨hu.2.1, hu.2.2⟩, fun m hm p e => ?take⟩⟩ h' (by cases a <;> trivial) hs
  case start =>
    have hz : cfg.pid ≠ 0 := by
      unfold OP.build at hb
      split at hb
      · cases hb
      · rename_i hv
        intro e
        simp [OmniPaxosConfig.validate, ServerConfig.validate, e] at hv
        revert hv
        split <;> simp
    obtain ⟨mp, hv, rfl⟩ := OP.build_eq hb
    refine ⟨Nat.pos_of_ne_zero hz, fun _ e => ?_⟩
    simp only at e; split at e <;> cases e
  case call =>
    have hz : ∀ n, (Ev.ofSent cc A c.sent i).sync n → n.pid > 0 := by
      rintro n ⟨a, -, hm⟩
      exact h.sent _ hm _ rfl
    have h1 := (hq.srv i op hu.1).2
    have p1 := (Prov.runs hr).servers i
    rw [hu.1] at p1
    have hp := OwnPid.runs hr hu.1
    have hcl : op.clearTrail.sp.Held := hu.2.2
    have hs := OP.run_closedOn (op := op.clearTrail) (SP.closed_w hz)
      (fun n hn => hn.elim (·.trans hp.1) (·.trans hp.2)) ⟨h1.clear, hcl⟩ call (fun p e => .inr trivial) (fun m e => by
      obtain ⟨⟨hm, -⟩, hd⟩ := hc _ e
      have hd : m.dst = i := hd
      have hg : (Ev.ofSent cc A c.sent i).given m := hd ▸ Ev.given_ofSent hq hm
      refine M.sat_mono (M.sat_and (SP.q_handle h1.clear hg fun b hb hcmp => ?_) (SP.w_handle hcl (SP.QI.knows h1.clear hz) fun a ha => ?_))
        (fun _ _ h => h) fun _ _ => trivial
      · exact Prov.bal_eq p1.sp.ist.cprom (hq.bal hr hm hb i) hcmp
      · unfold Ev.given at hg
        rw [ha] at hg
        exact ⟨hz _ hg.2.2.2, fun e => hg.1.2 (hg.2.1.symm.trans (e.symm.trans h1.pid))⟩)
      (fun j _ => M.sat_mono (M.sat_and (SP.q_trim h1.clear j) (SP.w_trim hcl j)) (fun _ _ h => h) fun _ _ => trivial)
      fun j l _ => M.sat_mono (M.sat_and (SP.q_snapshot h1.clear j l) (SP.w_snapshot hcl j l)) (fun _ _ h => h) fun _ _ => trivial
    unfold OP.callResult at ho
    unfold M.Sat at hs
    split at hs <;> rename_i e <;> rw [e] at ho
    · cases ho; exact hs.2
    · cases ho
  case take =>
    subst e
    simp only [OP.take_outgoing_messages, SP.take_outgoing_msgs, List.isEmpty_nil, if_true, List.mem_append, List.mem_map] at hm
    rcases hm with ⟨x, hx, e⟩ | ⟨x, hx, e⟩
    · cases e
      rw [((hq.srv i op hu.1).2.out _ hx).1]
      exact hu.2.1
    · cases e

theorem HeldInv.runs {cc : ClusterConfig} {acts : List (LAction E S)} {c : Loose E S} (hr : Loose.init.run cc acts = some c) : HeldInv c := by
  have key : ∀ (post pre : List (LAction E S)) (d : Loose E S), Loose.init.run cc pre = some d → HeldInv d → ∀ d', d.run cc post = some d' → HeldInv d' := by
    intro post
    induction post with
    | nil => intro pre d _ hd d' h; cases h; exact hd
    | cons a post ih =>
      intro pre d hpre hd d' h
      simp only [Loose.run] at h
      split at h
      · cases h
      · rename_i d1 h1
        refine ih (pre ++ [a]) d1 ?_ (HeldInv.step hpre hd h1) d' h
        rw [Loose.run_append, hpre]
        simp only [Option.bind, Loose.run, h1]
  exact key acts [] Loose.init rfl ⟨fun i op e => by simp [Loose.init] at e, fun _ _ _ => trivial, fun m hm => by cases hm⟩ c hr

end Omni
