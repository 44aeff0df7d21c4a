import Verif.Proof.AnyRun
import Verif.Proof.NoPanicRun
/-
Invariants of the leader state alone: what all its methods keep, all handlers keep, in every run.
-/
namespace Omni

variable {E S : Type}

/-- `P` is kept by every method of the leader state; those that note a promise (or its loss) only for servers in `J`, those that
note an accepted index only for servers in `K`. -/
structure LSClosed (J K : NodeId → Prop) (P : LeaderState E S → Prop) : Prop where
  fresh : ∀ ls n, P ls → ls.n_leader < n → P (LeaderState.with n ls.max_pid ls.quorum)
  reset : ∀ ls p ls', P ls → J p → ls.reset_promise p = some ls' → P ls'
  lost : ∀ ls p ls', P ls → J p → ls.lost_promise p = some ls' → P ls'
  prom : ∀ ls x f b r, P ls → J f → ls.set_promise x f b = some r → P r.1
  ref : ∀ ls p i ls', P ls → ls.set_latest_accept_meta p i = some ls' → P ls'
  next : ∀ ls p r, P ls → ls.next_seq_num p = some r → P r.1
  incr : ∀ ls p ls', P ls → ls.increment_seq_num_session p = some ls' → P ls'
  acc : ∀ ls p i ls', P ls → K p → ls.set_accepted_idx p i = some ls' → P ls'
  sync : ∀ ls, P ls → P { ls with max_promise_sync := none }
  taken : ∀ ls, P ls → P ls.reset_latest_accept_meta

variable {J K : NodeId → Prop} {P : LeaderState E S → Prop} {s : SP E S}

/-- The server itself is in `J` and `K`. -/
abbrev LJ (J K : NodeId → Prop) (P : LeaderState E S → Prop) (s : SP E S) : Prop := P s.ls ∧ J s.pid ∧ K s.pid

namespace SP

abbrev KeepsL (J K : NodeId → Prop) (P : LeaderState E S → Prop) {α : Type} (m : M (SP E S) α) (s : SP E S) : Prop :=
  M.Sat m s (fun _ t => LJ J K P t) (fun _ => True)

theorem l_bind {α β : Type} {m : M (SP E S) α} {f : α → M (SP E S) β} (hm : KeepsL J K P m s)
    (hf : ∀ a t, LJ J K P t → KeepsL J K P (f a) t) : KeepsL J K P (m >>= f) s := by
  unfold KeepsL; rw [M.sat_bind]
  exact M.sat_mono hm (fun a t h => hf a t h) fun _ h => h

theorem l_store {α : Type} (h : LJ J K P s) (m : M (IStore E S) α) : KeepsL J K P (onStore m) s := by
  unfold KeepsL; rw [sat_onStore]
  exact M.sat_mono (M.sat_true m s.ist) (fun _ _ _ => h) fun _ _ => trivial

theorem l_forEach {α : Type} {xs : List α} {body : α → M (SP E S) Unit} (h : LJ J K P s)
    (hb : ∀ x t, LJ J K P t → KeepsL J K P (body x) t) : KeepsL J K P (M.forEach xs body) s :=
  M.sat_forEach (fun t => LJ J K P t) h fun x _ t ht => hb x t ht

theorem l_onLS (h : LJ J K P s) {f : LeaderState E S → Pan (LeaderState E S)} (hf : ∀ ls', P s.ls → f s.ls = some ls' → P ls') :
    KeepsL J K P (onLS f) s := by
  unfold KeepsL; rw [sat_onLS]; exact ⟨fun ls e => ⟨hf ls h.1 e, h.2⟩, fun _ => trivial⟩

theorem l_onLS' {α : Type} (h : LJ J K P s) {f : LeaderState E S → Pan (LeaderState E S × α)}
    (hf : ∀ r, P s.ls → f s.ls = some r → P r.1) : KeepsL J K P (onLS' f) s := by
  unfold KeepsL; rw [sat_onLS']; exact ⟨fun r e => ⟨hf r h.1 e, h.2⟩, fun _ => trivial⟩

theorem l_reconnected (h : LJ J K P s) (pid : NodeId) : KeepsL J K P (reconnected pid) s := by
  simp only [KeepsL, reconnected, M.sat_bind, M.sat_get, M.sat_ite, M.sat_pure, M.sat_whenDo, sat_setState, sat_send]
  simp [LJ, h.1, h.2.1, h.2.2]

theorem l_forward_proposals (h : LJ J K P s) (es : List E) : KeepsL J K P (forward_proposals es) s := by
  simp only [KeepsL, forward_proposals, M.sat_bind, M.sat_get, M.sat_ite, M.sat_upd, sat_send]
  simp [LJ, h.1, h.2.1, h.2.2]

theorem l_forward_stopsign (h : LJ J K P s) (ss : StopSign) : KeepsL J K P (forward_stopsign ss) s := by
  simp only [KeepsL, forward_stopsign, M.sat_bind, M.sat_get, M.sat_ite, M.sat_upd, M.sat_pure, sat_send]
  simp [LJ, h.1, h.2.1, h.2.2]

theorem l_send_prepare (h : LJ J K P s) (to : NodeId) : KeepsL J K P (send_prepare to) s := h

theorem l_trim (h : LJ J K P s) (i : Option Nat) : KeepsL J K P (trim i) s := by
  simp only [KeepsL, trim, M.sat_bind, M.sat_get, M.sat_ite, M.sat_pure, M.sat_ofPan]
  refine ⟨fun _ => ⟨fun a _ => ⟨fun _ => M.sat_mono (l_store h _) (fun r t ht => ?_) fun _ h => h, fun _ => h⟩, fun _ => trivial⟩, fun _ => h⟩
  cases r with
  | error e => exact ht
  | ok u => exact l_bind (l_forEach ht fun x _ ht => ht) fun _ _ ht => ht

theorem l_snapshot [SnapOps E S] (h : LJ J K P s) (i : Option Nat) (l : Bool) : KeepsL J K P (snapshot i l) s := by
  simp only [KeepsL, snapshot, M.sat_bind, M.sat_get]
  refine M.sat_mono (l_store h _) (fun r t ht => ?_) fun _ h => h
  cases r with
  | error e => exact ht
  | ok u =>
    simp only [M.sat_bind, M.sat_whenDo, M.sat_pure]
    exact ⟨fun _ => l_forEach ht fun x _ ht => ht, fun _ => ht⟩

theorem l_handle_compaction [SnapOps E S] (h : LJ J K P s) (c : Compaction) : KeepsL J K P (handle_compaction c) s := by
  cases c with
  | trim i => exact l_bind (l_store h _) fun _ _ ht => ht
  | snapshot i => exact l_bind (l_snapshot h i true) fun _ _ ht => ht

variable (hP : LSClosed J K P)
include hP

theorem l_handle_leader (h : LJ J K P s) (n : Ballot) : KeepsL J K P (handle_leader n) s := by
  simp only [KeepsL, handle_leader, M.sat_bind, M.sat_get, M.sat_ite, M.sat_pure]
  refine ⟨fun _ => h, fun hn => ⟨fun _ => ?_, fun _ => h⟩⟩
  rw [M.sat_upd]
  have hlt : s.ls.n_leader < n := Ballot.not_le.1 fun hx => hn (.inl hx)
  refine M.sat_mono (l_store (s := { s with ls := LeaderState.with n s.ls.max_pid s.ls.quorum }) ⟨hP.fresh _ n h.1 hlt, h.2⟩ _)
    (fun _ t ht => ?_) fun _ h => h
  refine M.sat_mono (l_store ht _) (fun _ t ht => ?_) fun _ h => h
  refine M.sat_mono (l_onLS' ht fun r h e => hP.prom _ _ _ _ r h ht.2.1 e) (fun _ t ht => ?_) fun _ h => h
  rw [sat_setState]
  exact l_forEach ht fun x _ ht => ht

theorem l_handle_preparereq (h : LJ J K P s) (n : Ballot) {f : NodeId} (hf : J f) : KeepsL J K P (handle_preparereq n f) s := by
  simp only [KeepsL, handle_preparereq, M.sat_bind, M.sat_get, M.sat_ite, M.sat_pure]
  refine ⟨fun _ => ?_, fun _ => h⟩
  refine M.sat_mono (l_onLS h fun _ h e => hP.reset _ _ _ h hf e) (fun _ t ht => ?_) fun _ h => h
  exact M.sat_mono (l_onLS ht fun _ h e => hP.ref _ _ _ _ h e) (fun _ u hu => l_send_prepare hu f) fun _ h => h

theorem l_send_acceptdecide (h : LJ J K P s) (es : List E) : KeepsL J K P (send_acceptdecide es) s := by
  simp only [KeepsL, send_acceptdecide, M.sat_bind, M.sat_get]
  refine l_forEach h fun p t ht => ?_
  simp only [KeepsL, send_acceptdecide_to, M.sat_bind, M.sat_get, M.sat_ofPan]
  refine ⟨fun r _ => ?_, fun _ => trivial⟩
  match r with
  | some (idx, acc) => exact ht
  | none =>
    exact l_bind (l_onLS ht fun _ h e => hP.ref _ _ _ _ h e) fun _ _ ht =>
      l_bind (l_onLS' ht fun _ h e => hP.next _ _ _ h e) fun _ _ ht => ht

theorem l_accepted_leader (h : LJ J K P s) (md : Option (AcceptedMetaData E)) : KeepsL J K P (accepted_leader md) s := by
  cases md with
  | none => exact h
  | some md =>
    simp only [KeepsL, accepted_leader, M.sat_bind, M.sat_get]
    exact M.sat_mono (l_onLS h fun _ hh e => hP.acc _ _ _ _ hh h.2.2 e) (fun _ _ ht => l_send_acceptdecide hP ht _) fun _ h => h

theorem l_accept_entries_leader (h : LJ J K P s) (es : List E) : KeepsL J K P (accept_entries_leader es) s :=
  l_bind (l_store h _) fun _ _ ht => l_accepted_leader hP ht _

theorem l_seq (h : LJ J K P s) (to : NodeId) (re : Bool) : KeepsL J K P (seqNumFor to re) s := by
  unfold seqNumFor
  split
  · refine l_onLS' h fun r h e => ?_
    simp only [Option.map_eq_some_iff] at e
    obtain ⟨q, _, rfl⟩ := e; exact h
  · exact l_onLS' h fun _ h e => hP.next _ _ _ h e

theorem l_send_accept_stopsign (h : LJ J K P s) (to : NodeId) (ss : StopSign) (re : Bool) :
    KeepsL J K P (send_accept_stopsign to ss re) s :=
  l_bind (l_seq hP h to re) fun _ _ hu => hu

theorem l_send_decide (h : LJ J K P s) (to : NodeId) (d : Nat) (re : Bool) : KeepsL J K P (send_decide to d re) s :=
  l_bind (l_seq hP h to re) fun _ _ hu => hu

theorem l_accept_stopsign_leader (h : LJ J K P s) (ss : StopSign) : KeepsL J K P (accept_stopsign_leader ss) s := by
  unfold accept_stopsign_leader
  refine l_bind (l_store h _) fun md t ht => l_bind ?_ fun _ u hu => ?_
  · cases md with
    | none => exact ht
    | some md => exact l_send_acceptdecide hP ht _
  · simp only [KeepsL, M.sat_bind, M.sat_get]
    exact M.sat_mono (l_onLS hu fun _ h e => hP.acc _ _ _ _ h hu.2.2 e)
      (fun _ v hv => l_forEach hv fun x _ hw => l_send_accept_stopsign hP hw x ss false) fun _ h => h

theorem l_announce (h : LJ J K P s) (d : Nat) (p : NodeId) : KeepsL J K P (announce_decided d p) s := by
  simp only [KeepsL, announce_decided, M.sat_bind, M.sat_get, M.sat_ofPan]
  refine ⟨fun r _ => ?_, fun _ => trivial⟩
  match r with
  | some (idx, acc) => exact h
  | none => exact l_send_decide hP h p d false

theorem l_handle_accepted (h : LJ J K P s) (a : Accepted) {f : NodeId} (hf : K f) : KeepsL J K P (handle_accepted a f) s := by
  simp only [KeepsL, handle_accepted, M.sat_bind, M.sat_get, M.sat_ite, M.sat_pure]
  refine ⟨fun _ => ?_, fun _ => h⟩
  refine M.sat_mono (l_onLS h fun _ h e => hP.acc _ _ _ _ h hf e) (fun _ t ht => ⟨fun _ => ?_, fun _ => ht⟩) fun _ h => h
  exact M.sat_mono (l_store ht _) (fun _ u hu => l_forEach hu fun x _ hv => l_announce hP hv _ x) fun _ h => h

theorem l_handle_notaccepted (h : LJ J K P s) (n : Ballot) {f : NodeId} (hf : J f) : KeepsL J K P (handle_notaccepted n f) s := by
  simp only [KeepsL, handle_notaccepted, M.sat_bind, M.sat_get, M.sat_ite, M.sat_pure]
  exact ⟨fun _ => l_onLS h fun _ h e => hP.lost _ _ _ h hf e, fun _ => h⟩

theorem l_handle_forwarded_proposal (h : LJ J K P s) (es : List E) : KeepsL J K P (handle_forwarded_proposal es) s := by
  simp only [KeepsL, handle_forwarded_proposal, M.sat_bind, M.sat_get, M.sat_ite, M.sat_pure]
  refine ⟨fun _ => h, fun _ => ?_⟩
  split
  · exact h
  · exact l_accept_entries_leader hP h es
  · exact l_forward_proposals h es

theorem l_handle_forwarded_stopsign (h : LJ J K P s) (ss : StopSign) : KeepsL J K P (handle_forwarded_stopsign ss) s := by
  simp only [KeepsL, handle_forwarded_stopsign, M.sat_bind, M.sat_get, M.sat_ite, M.sat_pure]
  refine ⟨fun _ => h, fun _ => ?_⟩
  split
  · exact h
  · exact l_accept_stopsign_leader hP h ss
  · exact l_forward_stopsign h ss

omit hP in
theorem l_check_valid_ballot (h : LJ J K P s) (n : Ballot) : KeepsL J K P (check_valid_ballot n) s := by
  simp only [KeepsL, check_valid_ballot, M.sat_bind, M.sat_get]
  split
  · exact h
  · exact l_bind (m := send _ _) h fun _ _ ht => ht
  · exact l_bind (l_reconnected h _) fun _ _ ht => ht

omit hP in
theorem l_accept_guard (h : LJ J K P s) (n : Ballot) (q : SeqNum) (any : Bool) : KeepsL J K P (accept_guard n q any) s := by
  unfold accept_guard
  refine l_bind (l_check_valid_ballot h n) fun ok t ht => ?_
  simp only [KeepsL, M.sat_bind, M.sat_get, M.sat_ite, M.sat_pure, handle_sequence_num]
  refine ⟨fun _ => ?_, fun _ => ht⟩
  split
  · exact ht
  · rw [M.sat_bind]; exact l_reconnected ht _
  · exact ht

omit hP in
theorem l_reply_accepted (h : LJ J K P s) (n : Ballot) (i : Nat) : KeepsL J K P (reply_accepted n i) s := by
  simp only [KeepsL, reply_accepted, M.sat_bind, M.sat_get, M.sat_ofPan]
  refine ⟨fun r _ => ?_, fun _ => trivial⟩
  match r with
  | some (idx, a) => exact h
  | none => exact h

omit hP in
theorem l_reply_opt (h : LJ J K P s) (n : Ballot) (i : Option Nat) : KeepsL J K P (reply_opt n i) s := by
  cases i with
  | none => exact h
  | some i => exact l_reply_accepted h n i

omit hP in
theorem l_update_decided (h : LJ J K P s) (d : Nat) : KeepsL J K P (update_decided_idx_and_get_accepted_idx d) s := by
  simp only [KeepsL, update_decided_idx_and_get_accepted_idx, M.sat_bind, M.sat_get, M.sat_ite, M.sat_pure]
  refine ⟨fun _ => h, fun _ => ⟨fun _ => ?_, fun _ => l_store h _⟩⟩
  exact M.sat_mono (l_store h _) (fun _ _ ht => l_store ht _) fun _ h => h

omit hP in
theorem l_handle_acceptdecide (h : LJ J K P s) (a : AcceptDecide E) : KeepsL J K P (handle_acceptdecide a) s := by
  unfold handle_acceptdecide
  refine l_bind (l_accept_guard h _ _ _) fun ok t ht => ?_
  rw [KeepsL, M.sat_ite]
  refine ⟨fun _ => ?_, fun _ => ht⟩
  exact l_bind (l_store ht _) fun _ _ ht => l_bind (l_update_decided ht _) fun _ _ ht => l_reply_opt ht _ _

omit hP in
theorem l_handle_accept_stopsign (h : LJ J K P s) (a : AcceptStopSign) : KeepsL J K P (handle_accept_stopsign a) s := by
  unfold handle_accept_stopsign
  refine l_bind (l_accept_guard h _ _ _) fun ok t ht => ?_
  rw [KeepsL, M.sat_ite]
  refine ⟨fun _ => ?_, fun _ => ht⟩
  exact l_bind (l_store ht _) fun _ _ ht => l_bind (l_store ht _) fun _ _ ht => l_reply_accepted ht _ _

omit hP in
theorem l_handle_decide (h : LJ J K P s) (d : Decide) : KeepsL J K P (handle_decide d) s := by
  unfold handle_decide
  refine l_bind (l_accept_guard h _ _ _) fun ok t ht => ?_
  rw [KeepsL, M.sat_ite]
  exact ⟨fun _ => l_bind (l_update_decided ht _) fun _ _ ht => l_reply_opt ht _ _, fun _ => ht⟩

omit hP in
theorem l_resend_prepare (h : LJ J K P s) : KeepsL J K P resend_prepare s := by
  simp only [KeepsL, resend_prepare, M.sat_bind, M.sat_get, M.sat_ofPan]
  exact ⟨fun r _ => l_forEach h fun x _ ht => l_send_prepare ht x, fun _ => trivial⟩

theorem l_resend (h : LJ J K P s) : KeepsL J K P resend_message_timeout s := by
  have hall : ∀ t : SP E S, LJ J K P t → KeepsL J K P send_preparereq_to_all_peers t := fun t ht =>
    l_bind (m := M.get) ht fun _ _ ht => l_forEach ht fun x _ ht => ht
  simp only [KeepsL, resend_message_timeout, M.sat_bind, M.sat_get]
  split
  · simp only [resend_messages_leader, M.sat_bind, M.sat_get]
    split
    · exact l_resend_prepare h
    · refine l_bind ?_ fun _ _ ht => l_resend_prepare ht
      simp only [KeepsL, resend_stopsigns, M.sat_bind, M.sat_get]
      cases hs : s.ist.cache.stopsign with
      | none => exact h
      | some ss =>
        refine l_forEach h fun x t ht => ?_
        simp only [KeepsL, resend_stopsign, M.sat_bind, M.sat_get, M.sat_ite, M.sat_ofPan, M.sat_pure]
        exact ⟨fun _ => l_send_decide hP ht _ _ _,
          fun _ => ⟨fun a _ => ⟨fun _ => l_send_accept_stopsign hP ht _ ss _, fun _ => ht⟩, fun _ => trivial⟩⟩
    · exact h
    · exact h
  · simp only [resend_messages_follower, M.sat_bind, M.sat_get]
    split
    · split
      · exact h
      · simp only [M.sat_bind, sat_setState]
        exact hall _ h
    · exact hall _ h
    · exact h
    · exact h

theorem l_flush_timeout (h : LJ J K P s) : KeepsL J K P flush_batch_timeout s := by
  simp only [KeepsL, flush_batch_timeout, M.sat_bind, M.sat_get]
  split
  · simp only [flush_batch_leader, M.sat_bind]
    exact M.sat_mono (l_store h _) (fun _ _ ht => l_accepted_leader hP ht _) fun _ h => h
  · simp only [flush_batch_follower, M.sat_bind, M.sat_get]
    refine M.sat_mono (l_store h _) (fun k t ht => ?_) fun _ h => h
    simp only [M.sat_ite, M.sat_pure]
    exact ⟨fun _ => l_reply_accepted ht _ _, fun _ => ht⟩
  · exact h

theorem l_append (h : LJ J K P s) (e : E) : KeepsL J K P (append e) s := by
  simp only [KeepsL, append, M.sat_bind, M.sat_get, M.sat_ite, M.sat_pure]
  refine ⟨fun _ => h, fun hf => ?_⟩
  simp only [propose_entry, M.sat_bind, M.sat_get]
  split
  · exact h
  · exact l_accept_entries_leader hP h [e]
  · exact l_forward_proposals h _

theorem l_reconfigure (h : LJ J K P s) (c : ClusterConfig) (md : Option (List Nat)) : KeepsL J K P (reconfigure c md) s := by
  simp only [KeepsL, reconfigure, M.sat_bind, M.sat_get, M.sat_ite, M.sat_pure]
  refine ⟨fun _ => h, fun hf => ?_⟩
  simp only [propose_stopsign, M.sat_bind, M.sat_get]
  split
  · exact h
  · exact l_accept_stopsign_leader hP h _
  · exact l_forward_stopsign h _

omit hP in
theorem l_append_buffered (h : LJ J K P s) (i : Nat) : KeepsL J K P (append_buffered i) s := by
  unfold append_buffered
  simp only [KeepsL, M.sat_bind, M.sat_get, M.sat_ite, M.sat_pure]
  refine ⟨fun _ => h, fun _ => ?_⟩
  have h1 : KeepsL J K P (append_buffered_proposals i) s := by
    simp only [KeepsL, append_buffered_proposals, M.sat_bind, M.sat_get, M.sat_ite, M.sat_pure, M.sat_upd]
    exact ⟨fun _ => h, fun _ => l_store (s := { s with buffered_proposals := [] }) h _⟩
  refine M.sat_mono h1 (fun k u hu => ?_) fun _ h => h
  simp only [append_buffered_stopsign, M.sat_bind, M.sat_get]
  cases hb : u.buffered_stopsign with
  | none => exact hu
  | some ss =>
    simp only [M.sat_bind, M.sat_upd, M.sat_get, M.sat_pure]
    exact M.sat_mono (l_store (s := { u with buffered_stopsign := none }) hu _) (fun _ _ h => h) fun _ h => h

variable [SnapOps E S]

theorem l_send_accsync (h : LJ J K P s) (to : NodeId) : KeepsL J K P (send_accsync to) s := by
  simp only [KeepsL, send_accsync, M.sat_bind, M.sat_get, M.sat_ofPan]
  refine ⟨fun r _ => ⟨fun l hl => ?_, fun _ => trivial⟩, fun _ => trivial⟩
  refine M.sat_mono (l_onLS h fun _ h e => hP.incr _ _ _ h e) (fun _ t ht => ?_) fun _ h => h
  exact M.sat_mono (l_onLS' ht fun _ h e => hP.next _ _ _ h e) (fun _ u hu => hu) fun _ h => h

theorem l_handle_majority (h : LJ J K P s) : KeepsL J K P handle_majority_promises s := by
  simp only [KeepsL, handle_majority_promises, M.sat_bind, M.sat_get, M.sat_upd]
  refine M.sat_mono (l_store (s := { s with ls := { s.ls with max_promise_sync := none } }) ⟨hP.sync _ h.1, h.2⟩ _) (fun a t ht => ?_) fun _ h => h
  refine M.sat_mono (l_append_buffered ht a) (fun a u hu => ?_) fun _ h => h
  rw [sat_setState]
  refine M.sat_mono (l_onLS (s := { u with role := .leader, phase := .accept }) hu fun _ hx e => hP.acc _ _ _ _ hx h.2.2 e) (fun _ v hv => ?_) fun _ h => h
  exact l_forEach hv fun x t ht => l_send_accsync hP ht x

theorem l_handle_promise (h : LJ J K P s) (p : Promise E S) {f : NodeId} (hf : J f) : KeepsL J K P (handle_promise p f) s := by
  simp only [KeepsL, handle_promise, M.sat_bind, M.sat_get]
  split
  · simp only [handle_promise_prepare, M.sat_bind, M.sat_get, M.sat_ite, M.sat_pure]
    refine ⟨fun hn => ?_, fun _ => h⟩
    exact M.sat_mono (l_onLS' h fun _ h e => hP.prom _ _ _ _ _ h hf e)
      (fun r t ht => ⟨fun hq => l_handle_majority hP ht, fun _ => ht⟩) fun _ h => h
  · simp only [handle_promise_accept, M.sat_bind, M.sat_get, M.sat_ite, M.sat_pure]
    refine ⟨fun hn => ?_, fun _ => h⟩
    exact M.sat_mono (l_onLS' h fun _ h e => hP.prom _ _ _ _ _ h hf e) (fun r t ht => l_send_accsync hP ht f) fun _ h => h
  · exact h

omit hP in
theorem l_handle_prepare (h : LJ J K P s) (p : Prepare) (f : NodeId) : KeepsL J K P (handle_prepare p f) s := by
  simp only [KeepsL, handle_prepare, M.sat_bind, M.sat_get, M.sat_ite, M.sat_pure, M.sat_upd, M.sat_ofPan, sat_send]
  refine ⟨fun hg => ?_, fun _ => h⟩
  refine M.sat_mono (l_store h _) (fun _ t ht => ?_) fun _ h => h
  exact M.sat_mono (l_store ht _) (fun _ u hu => ⟨fun l hl => hu, fun _ => trivial⟩) fun _ h => h

omit hP in
theorem l_handle_acceptsync (h : LJ J K P s) (a : AcceptSync E S) (f : NodeId) : KeepsL J K P (handle_acceptsync a f) s := by
  unfold handle_acceptsync
  refine l_bind (l_check_valid_ballot h a.n) fun ok t ht => ?_
  simp only [KeepsL, M.sat_bind, M.sat_get, M.sat_ite, M.sat_pure, M.sat_upd, M.sat_whenDo, sat_setState, sat_send]
  refine ⟨fun hg => ?_, fun _ => ht⟩
  refine M.sat_mono (l_store (s := { t with cached_promise := none }) ht _) (fun k u hu => ?_) fun _ h => h
  refine ⟨fun _ => ?_, fun _ => hu⟩
  simp only [forward_buffered_proposals, M.sat_bind, M.sat_get, M.sat_upd, M.sat_ite, M.sat_pure]
  exact ⟨fun _ => hu, fun _ => M.sat_mono (l_forward_proposals (P := P) (s := { u with buffered_proposals := [] }) hu _) (fun _ _ h => h) fun _ h => h⟩

theorem l_handle (h : LJ J K P s) (m : PaxosMessage E S)
    (hJ : (∃ n, m.msg = .prepareReq n) ∨ (∃ p, m.msg = .promise p) ∨ (∃ n, m.msg = .notAccepted n) → J m.src)
    (hK : (∃ a, m.msg = .accepted a) → K m.src) : KeepsL J K P (handle m) s := by
  unfold handle
  split <;> rename_i hm
  · exact l_handle_preparereq hP h _ (hJ (.inl ⟨_, hm⟩))
  · exact l_handle_prepare h _ _
  · exact l_handle_promise hP h _ (hJ (.inr (.inl ⟨_, hm⟩)))
  · exact l_handle_acceptsync h _ _
  · exact l_handle_acceptdecide h _
  · exact l_handle_notaccepted hP h _ (hJ (.inr (.inr ⟨_, hm⟩)))
  · exact l_handle_accepted hP h _ (hK ⟨_, hm⟩)
  · exact l_handle_decide h _
  · exact l_handle_forwarded_proposal hP h _
  · exact l_handle_compaction h _
  · exact l_handle_accept_stopsign h _
  · exact l_handle_forwarded_stopsign hP h _

theorem closed_l : SP.Closed (E := E) (S := S) (LJ J K P) (fun _ => True) where
  lead n _ h := l_handle_leader hP h n
  resend _ h := l_resend hP h
  flush _ h := l_flush_timeout hP h
  append e _ h := l_append hP h e
  reconf c md _ h := l_reconfigure hP h c md
  recon p _ h := l_reconnected h p
  trim i _ h := l_trim h i
  snap i l _ h := l_snapshot h i l

end SP

/-- In every run. -/
theorem Loose.leader_inv [SnapOps E S] (hP : LSClosed (fun _ => True) (fun _ => True) P) {cc : ClusterConfig}
    (h0 : ∀ i ∈ cc.nodes, ∀ n mp, SP.maxPid i (SP.peersOf cc.nodes i) = some mp →
      P (LeaderState.with n mp (Quorum.with cc.flexible_quorum ((SP.peersOf cc.nodes i).length + 1))))
    {as : List (LAction E S)} {c : Loose E S} (hr : Loose.init.run cc as = some c) {i : NodeId} {op : OP E S}
    (hop : c.servers i = .up op) : i ∈ cc.nodes ∧ P op.sp.ls := by
  have hc : LClosed (E := E) (S := S) cc (fun _ => True) (fun i op => i ∈ cc.nodes ∧ P op.sp.ls) (fun _ _ => True) (fun _ => True) := by
    refine ⟨fun _ => trivial, fun cfg d op _ hb => ?_, fun _ _ _ => trivial, fun i op call h _ _ => ⟨fun op' e => ⟨h.1, ?_⟩, fun _ _ => trivial,
      fun _ _ => trivial⟩, fun i op h => ⟨⟨h.1, hP.taken _ h.2⟩, fun _ _ => trivial⟩⟩
    · have hi := (OP.build_node hb).2.1
      obtain ⟨mp, hmp, rfl⟩ := OP.build_eq hb
      exact ⟨hi, h0 _ hi _ mp hmp⟩
    · have hs := OP.run_closed (op := op.clearTrail) (SP.closed_l hP) ⟨h.2, trivial, trivial⟩ call fun m _ =>
        SP.l_handle (s := op.clearTrail.sp) hP ⟨h.2, trivial, trivial⟩ m (fun _ => trivial) (fun _ => trivial)
      unfold OP.callResult at e
      unfold M.Sat at hs
      split at hs <;> rename_i e' <;> rw [e'] at e
      · cases e; exact hs.1
      · cases e
  exact (LInv.runs hc (fun a _ => by cases a <;> trivial) hr).up i op hop

/-- The length of the vector of accepted indexes. -/
theorem lsLength (N : Nat) : LSClosed (E := E) (S := S) (fun _ => True) (fun _ => True) fun ls => ls.max_pid = N ∧ ls.accepted_indexes.length = N := by
  refine ⟨fun ls n h _ => ?_, ?_, ?_, ?_, ?_, ?_, ?_, ?_, fun _ h => h, fun _ h => h⟩
  · simp [LeaderState.with, h.1]
  · intro ls p ls' h _ e
    unfold LeaderState.reset_promise at e; split at e <;> cases e; exact h
  · intro ls p ls' h _ e
    unfold LeaderState.lost_promise at e; split at e <;> cases e; exact h
  · intro ls x f b r h _ e
    unfold LeaderState.set_promise LeaderState.update_max at e
    simp only at e
    split at e <;> cases e
    dsimp only
    split <;> exact h
  · intro ls p i ls' h e
    unfold LeaderState.set_latest_accept_meta at e; split at e <;> cases e; exact h
  · intro ls p r h e
    unfold LeaderState.next_seq_num at e; split at e
    · cases e
    · simp only at e; split at e <;> cases e; exact h
  · intro ls p r h e
    unfold LeaderState.increment_seq_num_session at e; split at e
    · cases e
    · split at e <;> cases e; exact h
  · intro ls p i ls' h _ e
    unfold LeaderState.set_accepted_idx at e; split at e <;> cases e
    rename_i v hv
    refine ⟨h.1, ?_⟩
    unfold setSlot at hv
    split at hv
    · cases hv
    · split at hv <;> cases hv
      simpa using h.2

end Omni
