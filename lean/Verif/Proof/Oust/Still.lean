import Verif.Proof.StorePD
import Verif.Proof.ServerInv
/-
Handlers other than those of elections and of Prepares: they change neither the promise nor the ballot of the leader state, keep the Prepares and AcceptSyncs that wait to be sent,
and send Prepares of the leader state only.
-/
namespace Omni

variable {E S : Type}

/-- The ballot of a Prepare or of an AcceptSync. -/
def PaxosMsg.opens : PaxosMsg E S → Option Ballot
  | .prepare p => some p.n
  | .acceptSync a => some a.n
  | _ => none

theorem PaxosMsg.opens_none {m : PaxosMsg E S} (h : m.opens = none) (p : Prepare) : m ≠ .prepare p := by
  rintro rfl
  cases h

structure Still (s t : SP E S) : Prop where
  promise : t.ist.cache.promise = s.ist.cache.promise
  pid : t.pid = s.pid
  peers : t.peers = s.peers
  lead : t.ls.n_leader = s.ls.n_leader
  role : s.role = .leader → s.ist.cache.promise.pid = s.pid → t.role = .leader
  kept : ∀ m ∈ s.outgoing, ∀ b, m.msg.opens = some b → m ∈ t.outgoing
  new : ∀ m ∈ t.outgoing, ∀ p, m.msg = .prepare p → m ∈ s.outgoing ∨ p.n = s.ls.n_leader

namespace Still

variable {s t u : SP E S}

theorem refl (s : SP E S) : Still s s := ⟨rfl, rfl, rfl, rfl, fun h _ => h, fun _ h _ _ => h, fun _ h _ _ => .inl h⟩

theorem trans (h : Still s t) (h' : Still t u) : Still s u := by
  refine ⟨h'.promise.trans h.promise, h'.pid.trans h.pid, h'.peers.trans h.peers, h'.lead.trans h.lead, fun a b => h'.role (h.role a b) (by rw [h.promise, h.pid]; exact b),
    fun m hm p e => h'.kept m (h.kept m hm p e) p e, fun m hm p e => ?_⟩
  rcases h'.new m hm p e with h1 | h1
  · exact h.new m h1 p e
  · exact .inr (h1.trans h.lead)

theorem sent (s : SP E S) (to : NodeId) (msg : PaxosMsg E S) (h : ∀ p, msg = .prepare p → p.n = s.ls.n_leader) :
    Still s { s with outgoing := s.outgoing ++ [{ src := s.pid, dst := to, msg }] } := by
  refine ⟨rfl, rfl, rfl, rfl, fun h _ => h, fun m hm _ _ => List.mem_append_left _ hm, fun m hm p e => ?_⟩
  rcases List.mem_append.1 hm with hm | hm
  · exact .inl hm
  · simp only [List.mem_cons, List.not_mem_nil, or_false] at hm
    subst hm
    exact .inr (h p e)

theorem modified {idx : Nat} {x : PaxosMessage E S} (hx : s.outgoing[idx]? = some x) (h : x.msg.opens = none) (msg : PaxosMsg E S) (h' : ∀ p, msg ≠ .prepare p) :
    Still s { s with outgoing := s.outgoing.modify idx fun m => { m with msg } } := by
  have hlt := (List.getElem?_eq_some_iff.1 hx).1
  have hget := (List.getElem?_eq_some_iff.1 hx).2
  refine ⟨rfl, rfl, rfl, rfl, fun h _ => h, fun m hm p e => ?_, fun m hm p e => ?_⟩
  · obtain ⟨k, hk, ek⟩ := List.mem_iff_getElem.1 hm
    refine List.mem_iff_getElem.2 ⟨k, by simpa using hk, ?_⟩
    rw [List.getElem_modify]
    split
    · rename_i e1
      subst e1
      rw [hget] at ek
      subst ek
      rw [h] at e
      cases e
    · exact ek
  · obtain ⟨k, hk, ek⟩ := List.mem_iff_getElem.1 hm
    have hk' : k < s.outgoing.length := by simpa using hk
    have ek : (s.outgoing.modify idx fun m => { m with msg })[k] = m := ek
    rw [List.getElem_modify] at ek
    split at ek
    · subst ek
      exact absurd e (h' p)
    · exact .inl (ek ▸ List.getElem_mem hk')

end Still

namespace LeaderState

theorem lead_meta {ls ls' : LeaderState E S} {pid : NodeId} {x : Option Nat} (h : ls.set_latest_accept_meta pid x = some ls') : ls'.n_leader = ls.n_leader := by
  unfold set_latest_accept_meta at h; split at h <;> simp at h; subst h; rfl

theorem lead_acc {ls ls' : LeaderState E S} {pid : NodeId} {x : Nat} (h : ls.set_accepted_idx pid x = some ls') : ls'.n_leader = ls.n_leader := by
  unfold set_accepted_idx at h; split at h <;> simp at h; subst h; rfl

theorem lead_reset {ls ls' : LeaderState E S} {pid : NodeId} (h : ls.reset_promise pid = some ls') : ls'.n_leader = ls.n_leader := by
  unfold reset_promise at h; split at h <;> simp at h; subst h; rfl

theorem lead_lost {ls ls' : LeaderState E S} {pid : NodeId} (h : ls.lost_promise pid = some ls') : ls'.n_leader = ls.n_leader := by
  unfold lost_promise at h; split at h <;> simp at h; subst h; rfl

theorem lead_next {ls : LeaderState E S} {pid : NodeId} {r : LeaderState E S × SeqNum} (h : ls.next_seq_num pid = some r) : r.1.n_leader = ls.n_leader := by
  rw [next_seq_num_eq h]

theorem lead_incr {ls ls' : LeaderState E S} {pid : NodeId} (h : ls.increment_seq_num_session pid = some ls') : ls'.n_leader = ls.n_leader := by
  rw [increment_eq h]

end LeaderState

namespace SP

variable {s : SP E S}

abbrev Stays {α : Type} (m : M (SP E S) α) (s : SP E S) : Prop := M.Sat m s (fun _ t => Still s t) (fun _ => True)

theorem y_bind {α β : Type} {m : M (SP E S) α} {f : α → M (SP E S) β} (hm : Stays m s) (hf : ∀ a t, Stays (f a) t) : Stays (m >>= f) s := by
  unfold Stays; rw [M.sat_bind]
  exact M.sat_mono hm (fun a j h => M.sat_mono (hf a j) (fun _ _ h' => h.trans h') fun _ h => h) fun _ h => h

theorem y_pure {α : Type} (a : α) : Stays (pure a) s := Still.refl s

theorem y_get {α : Type} {f : SP E S → M (SP E S) α} (hf : Stays (f s) s) : Stays (M.get >>= f) s := hf

theorem y_pan {α : Type} (x : Pan α) : Stays (M.ofPan x) s := by
  unfold Stays; rw [M.sat_ofPan]; exact ⟨fun _ _ => .refl s, fun _ => trivial⟩

theorem y_forEach {α : Type} {xs : List α} {body : α → M (SP E S) Unit} (hb : ∀ x t, Stays (body x) t) : Stays (M.forEach xs body) s :=
  M.sat_forEach_any xs hb
where
  M.sat_forEach_any (xs : List α) (hb : ∀ x t, Stays (body x) t) : ∀ {s}, Stays (M.forEach xs body) s := by
    induction xs with
    | nil => intro s; exact Still.refl s
    | cons x xs ih =>
      intro s
      unfold Stays
      rw [M.sat_forEach_cons]
      exact M.sat_mono (hb x s) (fun _ t h => M.sat_mono ih (fun _ _ h' => h.trans h') fun _ h => h) fun _ h => h

theorem y_send (to : NodeId) (msg : PaxosMsg E S) (h : ∀ p, msg = .prepare p → p.n = s.ls.n_leader) : Stays (send to msg) s := Still.sent s to msg h

theorem y_store {α : Type} {m : M (IStore E S) α} (hm : M.Sat m s.ist (fun _ j => j.cache.promise = s.ist.cache.promise) fun _ => True) : Stays (onStore m) s := by
  unfold Stays; rw [sat_onStore]
  exact M.sat_mono hm (fun _ j h => ⟨h, rfl, rfl, rfl, fun h _ => h, fun _ h _ _ => h, fun _ h _ _ => .inl h⟩) fun _ h => h

theorem y_pd {α : Type} {m : M (IStore E S) α} (hm : IStore.KeepsPD m s.ist) : Stays (onStore m) s :=
  y_store (M.sat_mono hm (fun _ _ h => h.1) fun _ _ => trivial)

theorem y_decided (d : Nat) : Stays (onStore (IStore.set_decided_idx d)) s :=
  y_store (M.sat_mono (IStore.pd_set_decided d) (fun _ _ h => h.1) fun _ _ => trivial)

theorem y_sync [SnapOps E S] (n : Ballot) (d : Nat) (l : Option (LogSync E S)) : Stays (onStore (IStore.sync_log n d l)) s :=
  y_store (M.sat_mono (IStore.pd_sync_log n d l) (fun _ _ h => h.1) fun _ _ => trivial)

theorem y_ls {f : LeaderState E S → Pan (LeaderState E S)} (hf : ∀ ls', f s.ls = some ls' → ls'.n_leader = s.ls.n_leader) : Stays (onLS f) s := by
  unfold Stays; rw [sat_onLS]
  exact ⟨fun ls e => ⟨rfl, rfl, rfl, hf ls e, fun h _ => h, fun _ h _ _ => h, fun _ h _ _ => .inl h⟩, fun _ => trivial⟩

theorem y_ls' {α : Type} {f : LeaderState E S → Pan (LeaderState E S × α)} (hf : ∀ r, f s.ls = some r → r.1.n_leader = s.ls.n_leader) : Stays (onLS' f) s := by
  unfold Stays; rw [sat_onLS']
  exact ⟨fun r e => ⟨rfl, rfl, rfl, hf r e, fun h _ => h, fun _ h _ _ => h, fun _ h _ _ => .inl h⟩, fun _ => trivial⟩

/-- Fields other than those in question. -/
theorem y_upd {f : SP E S → SP E S} (h1 : (f s).ist = s.ist) (h2 : (f s).pid = s.pid) (h3 : (f s).peers = s.peers) (h4 : (f s).ls.n_leader = s.ls.n_leader)
    (h5 : (f s).role = s.role) (h6 : (f s).outgoing = s.outgoing) : Stays (M.upd f) s :=
  ⟨by rw [h1], h2, h3, h4, fun h _ => h5.trans h, fun m hm _ _ => by rw [h6]; exact hm, fun m hm _ _ => .inl (by rw [h6] at hm; exact hm)⟩

theorem y_send_prepare (to : NodeId) : Stays (send_prepare to) s := y_get (y_send _ _ fun p e => by cases e; rfl)

theorem y_reconnected (pid : NodeId) : Stays (reconnected pid) s := by
  simp only [Stays, reconnected, M.sat_bind, M.sat_get, M.sat_ite, M.sat_pure, M.sat_whenDo, sat_setState, sat_send]
  refine ⟨fun _ => .refl s, fun hne => ⟨fun e => ?_, fun _ => .sent s _ _ nofun⟩⟩
  have h1 : Still s { s with role := .follower, phase := .recover } :=
    ⟨rfl, rfl, rfl, rfl, fun _ h => absurd (e.trans h) hne, fun _ h _ _ => h, fun _ h _ _ => .inl h⟩
  exact h1.trans (.sent _ _ _ nofun)

theorem y_forward_proposals (es : List E) : Stays (forward_proposals es) s := by
  refine y_get ?_
  unfold Stays; rw [M.sat_ite]
  exact ⟨fun _ => y_send _ _ nofun, fun _ => y_upd rfl rfl rfl rfl rfl rfl⟩

theorem y_forward_stopsign (ss : StopSign) : Stays (forward_stopsign ss) s := by
  refine y_get ?_
  unfold Stays; rw [M.sat_ite, M.sat_ite]
  exact ⟨fun _ => y_send _ _ nofun, fun _ => ⟨fun _ => y_upd rfl rfl rfl rfl rfl rfl, fun _ => .refl s⟩⟩

theorem accdec_get {to : NodeId} {idx : Nat} {a : AcceptDecide E} (h : s.get_latest_accdec to = some (some (idx, a))) :
    ∃ x, s.outgoing[idx]? = some x ∧ x.msg.opens = none := by
  unfold get_latest_accdec at h
  split at h
  · cases h
  · cases h
  · split at h
    · split at h
      · cases h
      · rename_i m hm
        split at h
        · rename_i e
          cases h
          exact ⟨m, hm, by rw [e]; rfl⟩
        · cases h
    · cases h

theorem accepted_get {n : Ballot} {idx : Nat} {a : Accepted} (h : s.get_latest_accepted n = some (some (idx, a))) :
    ∃ x, s.outgoing[idx]? = some x ∧ x.msg.opens = none := by
  unfold get_latest_accepted at h
  split at h
  · cases h
  · split at h
    · split at h
      · cases h
      · rename_i m hm
        split at h
        · rename_i e
          cases h
          exact ⟨m, hm, by rw [e]; rfl⟩
        · cases h
    · cases h

theorem y_send_acceptdecide_to (es : List E) (pid : NodeId) : Stays (send_acceptdecide_to es pid) s := by
  refine y_get ?_
  unfold Stays
  rw [M.sat_bind, M.sat_ofPan]
  refine ⟨fun r hr => ?_, fun _ => trivial⟩
  match r with
  | some (idx, acc) =>
    obtain ⟨x, h1, h2⟩ := accdec_get hr
    exact Still.modified h1 h2 _ nofun
  | none =>
    exact y_bind (y_ls fun _ e => LeaderState.lead_meta e) fun _ _ => y_bind (y_ls' fun _ e => LeaderState.lead_next e) fun _ _ => y_send _ _ nofun

theorem y_send_acceptdecide (es : List E) : Stays (send_acceptdecide es) s := y_get (y_forEach fun x _ => y_send_acceptdecide_to es x)

theorem y_accepted_leader (md : Option (AcceptedMetaData E)) : Stays (accepted_leader md) s := by
  cases md with
  | none => exact .refl s
  | some md => exact y_get (y_bind (y_ls fun _ e => LeaderState.lead_acc e) fun _ _ => y_send_acceptdecide _)

theorem y_accept_entries_leader (es : List E) : Stays (accept_entries_leader es) s :=
  y_bind (y_pd (IStore.pd_append_entries es)) fun _ _ => y_accepted_leader _

theorem y_seq (to : NodeId) (r : Bool) : Stays (seqNumFor to r) s := by
  unfold seqNumFor
  unfold Stays; rw [M.sat_ite]
  refine ⟨fun _ => y_ls' fun r e => ?_, fun _ => y_ls' fun _ e => LeaderState.lead_next e⟩
  · obtain ⟨q, _, rfl⟩ := Option.map_eq_some_iff.1 e
    rfl

theorem y_send_accept_stopsign (to : NodeId) (ss : StopSign) (r : Bool) : Stays (send_accept_stopsign to ss r) s :=
  y_bind (y_seq to r) fun _ _ => y_get (y_send _ _ nofun)

theorem y_send_decide (to : NodeId) (d : Nat) (r : Bool) : Stays (send_decide to d r) s :=
  y_bind (y_seq to r) fun _ _ => y_get (y_send _ _ nofun)

theorem y_accept_stopsign_leader (ss : StopSign) : Stays (accept_stopsign_leader ss) s := by
  refine y_bind (y_pd (IStore.pd_append_ss ss)) fun md _ => y_bind ?_ fun _ _ => y_get (y_bind (y_ls fun _ e => LeaderState.lead_acc e) fun _ _ =>
    y_forEach fun x _ => y_send_accept_stopsign x ss false)
  cases md with
  | none => exact .refl _
  | some md => exact y_send_acceptdecide _

theorem y_send_accsync [SnapOps E S] (to : NodeId) : Stays (send_accsync to) s :=
  y_get (y_bind (y_pan _) fun _ _ => y_bind (y_pan _) fun _ _ => y_bind (y_ls fun _ e => LeaderState.lead_incr e) fun _ _ =>
    y_bind (y_ls' fun _ e => LeaderState.lead_next e) fun _ _ => y_send _ _ nofun)

theorem y_append_buffered (k : Nat) : Stays (append_buffered k) s := by
  refine y_get ?_
  unfold Stays; rw [M.sat_ite]
  refine ⟨fun _ => .refl s, fun _ => y_bind (y_get ?_) fun _ t => y_get ?_⟩
  · unfold Stays; rw [M.sat_ite]
    exact ⟨fun _ => .refl s, fun _ => y_bind (y_upd rfl rfl rfl rfl rfl rfl) fun _ _ => y_pd (IStore.pd_append_nb _)⟩
  · cases t.buffered_stopsign with
    | none => exact .refl t
    | some ss => exact y_bind (y_upd rfl rfl rfl rfl rfl rfl) fun _ _ => y_bind (y_pd (IStore.pd_append_ss ss)) fun _ t => .refl t

theorem y_majority [SnapOps E S] (_h : s.role = .leader) : Stays handle_majority_promises s :=
  y_get (y_bind (y_upd rfl rfl rfl rfl rfl rfl) fun _ _ => y_bind (y_sync _ _ _) fun _ _ => y_bind (y_append_buffered _) fun _ t =>
    y_bind (m := setState .leader .accept) ⟨rfl, rfl, rfl, rfl, fun _ _ => rfl, fun _ h _ _ => h, fun _ h _ _ => .inl h⟩ fun _ _ =>
      y_bind (y_ls fun _ e => LeaderState.lead_acc e) fun _ _ => y_get (y_forEach fun x _ => y_send_accsync x))

theorem y_handle_promise [SnapOps E S] (p : Promise E S) (f : NodeId) : Stays (handle_promise p f) s := by
  refine y_get ?_
  split
  · rename_i h1 _
    refine y_get ?_
    unfold Stays; rw [M.sat_ite, M.sat_bind, sat_onLS']
    refine ⟨fun _ => ⟨fun r hr => ?_, fun _ => trivial⟩, fun _ => .refl s⟩
    have h0 : Still s { s with ls := r.1 } :=
      ⟨rfl, rfl, rfl, LeaderState.set_promise_n hr, fun h _ => h, fun _ h _ _ => h, fun _ h _ _ => .inl h⟩
    rw [M.sat_ite]
    exact ⟨fun _ => M.sat_mono (y_majority (s := { s with ls := r.1 }) h1) (fun _ _ h => h0.trans h) fun _ h => h, fun _ => h0⟩
  · refine y_get ?_
    unfold Stays; rw [M.sat_ite]
    exact ⟨fun _ => y_bind (y_ls' fun _ e => LeaderState.set_promise_n e) fun _ _ => y_send_accsync f, fun _ => .refl s⟩
  · exact .refl s

theorem y_announce (d : Nat) (pid : NodeId) : Stays (announce_decided d pid) s := by
  refine y_get ?_
  unfold Stays
  rw [M.sat_bind, M.sat_ofPan]
  refine ⟨fun r hr => ?_, fun _ => trivial⟩
  match r with
  | some (idx, acc) =>
    obtain ⟨x, h1, h2⟩ := accdec_get hr
    exact Still.modified h1 h2 _ nofun
  | none => exact y_send_decide _ _ _

theorem y_handle_accepted (a : Accepted) (f : NodeId) : Stays (handle_accepted a f) s := by
  refine y_get ?_
  unfold Stays; rw [M.sat_ite]
  refine ⟨fun _ => y_bind (y_ls fun _ e => LeaderState.lead_acc e) fun _ t => y_get ?_, fun _ => .refl s⟩
  unfold Stays; rw [M.sat_ite]
  exact ⟨fun _ => y_bind (y_decided _) fun _ _ => y_forEach fun x _ => y_announce _ x, fun _ => .refl t⟩

theorem y_handle_notaccepted (n : Ballot) (f : NodeId) : Stays (handle_notaccepted n f) s := by
  refine y_get ?_
  unfold Stays; rw [M.sat_ite]
  exact ⟨fun _ => y_ls fun _ e => LeaderState.lead_lost e, fun _ => .refl s⟩

theorem y_handle_preparereq (n : Ballot) (f : NodeId) : Stays (handle_preparereq n f) s := by
  refine y_get ?_
  unfold Stays; rw [M.sat_ite]
  exact ⟨fun _ => y_bind (y_ls fun _ e => LeaderState.lead_reset e) fun _ _ => y_bind (y_ls fun _ e => LeaderState.lead_meta e) fun _ _ => y_send_prepare f, fun _ => .refl s⟩

theorem y_handle_forwarded_proposal (es : List E) : Stays (handle_forwarded_proposal es) s := by
  refine y_get ?_
  unfold Stays; rw [M.sat_ite]
  refine ⟨fun _ => .refl s, fun _ => ?_⟩
  split
  · exact y_upd rfl rfl rfl rfl rfl rfl
  · exact y_accept_entries_leader es
  · exact y_forward_proposals es

theorem y_handle_forwarded_stopsign (ss : StopSign) : Stays (handle_forwarded_stopsign ss) s := by
  refine y_get ?_
  unfold Stays; rw [M.sat_ite]
  refine ⟨fun _ => .refl s, fun _ => ?_⟩
  split
  · exact y_upd rfl rfl rfl rfl rfl rfl
  · exact y_accept_stopsign_leader ss
  · exact y_forward_stopsign ss

theorem y_check (b : Ballot) : Stays (check_valid_ballot b) s := by
  refine y_get ?_
  split
  · exact .refl s
  · exact y_bind (y_send _ _ nofun) fun _ t => .refl t
  · exact y_bind (y_reconnected _) fun _ t => .refl t

theorem y_handle_acceptsync [SnapOps E S] (a : AcceptSync E S) (f : NodeId) : Stays (handle_acceptsync a f) s := by
  refine y_bind (y_check _) fun ok t => y_get ?_
  unfold Stays; rw [M.sat_ite]
  refine ⟨fun h => ?_, fun _ => .refl t⟩
  have hr : t.role = .follower := h.2.1
  clear h
  -- the role is that of a follower throughout
  have key : M.Sat (do
    M.upd fun s => { s with cached_promise := none }
    let new_accepted_idx ← onStore (IStore.sync_log a.n a.decided_idx (some a.log_sync))
    let s ← M.get
    M.whenDo (s.ist.cache.stopsign.isNone = true) forward_buffered_proposals
    pure new_accepted_idx) t (fun _ u => Still t u ∧ u.role = .follower) (fun _ => True) := by
    simp only [M.sat_bind, M.sat_upd, sat_onStore, M.sat_get, M.sat_pure, M.sat_whenDo]
    refine M.sat_mono (IStore.pd_sync_log a.n a.decided_idx (some a.log_sync)) (fun k i hi => ?_) fun _ h => h
    have h0 : Still t { t with cached_promise := none, ist := i } := ⟨hi.1, rfl, rfl, rfl, fun h _ => h, fun _ h _ _ => h, fun _ h _ _ => .inl h⟩
    refine ⟨fun _ => ?_, fun _ => ⟨h0, hr⟩⟩
    simp only [forward_buffered_proposals, forward_proposals, M.sat_bind, M.sat_get, M.sat_upd, M.sat_ite, M.sat_pure, sat_send]
    have h1 : Still t { t with cached_promise := none, ist := i, buffered_proposals := [] } := ⟨hi.1, rfl, rfl, rfl, fun h _ => h, fun _ h _ _ => h, fun _ h _ _ => .inl h⟩
    refine ⟨fun _ => ⟨h1, hr⟩, fun _ => ⟨fun _ => ⟨h1.trans (.sent _ _ _ nofun), hr⟩, fun _ => ⟨⟨hi.1, rfl, rfl, rfl, fun h _ => h, fun _ h _ _ => h, fun _ h _ _ => .inl h⟩, hr⟩⟩⟩
  simp only [M.sat_bind, M.sat_upd, M.sat_pure, M.sat_get] at key ⊢
  refine M.sat_mono key (fun k u hu => ?_) fun _ h => h
  refine M.sat_mono hu (fun _ v hv => ?_) fun _ h => h
  rw [sat_setState, sat_send]
  have h0 : Still v { v with role := .follower, phase := .accept, current_seq_num := a.seq_num, latest_accepted_meta := some (a.n, v.outgoing.length) } :=
    ⟨rfl, rfl, rfl, rfl, fun h _ => (by rw [hv.2] at h; cases h), fun _ h _ _ => h, fun _ h _ _ => .inl h⟩
  exact (hv.1.trans h0).trans (.sent _ _ _ nofun)

theorem y_reply_accepted (n : Ballot) (i : Nat) : Stays (reply_accepted n i) s := by
  refine y_get ?_
  unfold Stays
  rw [M.sat_bind, M.sat_ofPan]
  refine ⟨fun r hr => ?_, fun _ => trivial⟩
  match r with
  | some (idx, acc) =>
    obtain ⟨x, h1, h2⟩ := accepted_get hr
    exact Still.modified h1 h2 _ nofun
  | none => exact y_bind (y_upd rfl rfl rfl rfl rfl rfl) fun _ _ => y_send _ _ nofun

theorem y_reply_opt (n : Ballot) (i : Option Nat) : Stays (reply_opt n i) s := by
  cases i with
  | none => exact .refl s
  | some i => exact y_reply_accepted n i

theorem y_update_decided (k : Nat) : Stays (update_decided_idx_and_get_accepted_idx k) s := by
  refine y_get ?_
  unfold Stays; rw [M.sat_ite, M.sat_ite]
  exact ⟨fun _ => .refl s, fun _ => ⟨fun _ => y_bind (y_pd IStore.pd_flush) fun _ _ => y_bind (y_decided _) fun _ t => .refl t,
    fun _ => y_bind (y_decided _) fun _ t => .refl t⟩⟩

theorem y_accept_guard (n : Ballot) (q : SeqNum) (any : Bool) : Stays (accept_guard n q any) s := by
  refine y_bind (y_check n) fun ok t => y_get ?_
  unfold Stays; rw [M.sat_ite]
  refine ⟨fun _ => y_bind (y_get ?_) fun _ t => .refl t, fun _ => .refl t⟩
  split
  · exact y_bind (y_upd rfl rfl rfl rfl rfl rfl) fun _ t => .refl t
  · exact y_bind (y_reconnected _) fun _ t => .refl t
  · exact .refl t

theorem y_handle_acceptdecide (a : AcceptDecide E) : Stays (handle_acceptdecide a) s := by
  refine y_bind (y_accept_guard _ _ _) fun ok t => ?_
  unfold Stays; rw [M.sat_ite]
  exact ⟨fun _ => y_bind (y_pd (IStore.pd_append_get _)) fun _ _ => y_bind (y_update_decided _) fun _ _ => y_reply_opt _ _, fun _ => .refl t⟩

theorem y_handle_accept_stopsign (a : AcceptStopSign) : Stays (handle_accept_stopsign a) s := by
  refine y_bind (y_accept_guard _ _ _) fun ok t => ?_
  unfold Stays; rw [M.sat_ite]
  exact ⟨fun _ => y_bind (y_pd IStore.pd_flush) fun _ _ => y_bind (y_pd (IStore.pd_set_stopsign _)) fun _ _ => y_reply_accepted _ _, fun _ => .refl t⟩

theorem y_handle_decide (d : Decide) : Stays (handle_decide d) s := by
  refine y_bind (y_accept_guard _ _ _) fun ok t => ?_
  unfold Stays; rw [M.sat_ite]
  exact ⟨fun _ => y_bind (y_update_decided _) fun _ _ => y_reply_opt _ _, fun _ => .refl t⟩

theorem y_handle_compaction [SnapOps E S] (c : Compaction) : Stays (handle_compaction c) s := by
  cases c with
  | trim k => exact y_bind (y_pd (IStore.pd_try_trim k)) fun _ t => .refl t
  | snapshot k =>
    refine y_bind (y_get (y_bind (y_pd (IStore.pd_try_snapshot k)) fun r t => ?_)) fun _ t => .refl t
    cases r with
    | error e => exact .refl t
    | ok _ => exact y_bind (m := M.whenDo _ _) (by unfold Stays; rw [M.sat_whenDo]; exact ⟨fun h => (by cases h), fun _ => .refl t⟩) fun _ t => .refl t

/-- All messages but Prepares. -/
theorem y_handle [SnapOps E S] {m : PaxosMessage E S} (h : ∀ p, m.msg ≠ .prepare p) : Stays (handle m) s := by
  unfold handle
  split <;> rename_i heq
  · exact y_handle_preparereq _ _
  · exact absurd heq (h _)
  · exact y_handle_promise _ _
  · exact y_handle_acceptsync _ _
  · exact y_handle_acceptdecide _
  · exact y_handle_notaccepted _ _
  · exact y_handle_accepted _ _
  · exact y_handle_decide _
  · exact y_handle_forwarded_proposal _
  · exact y_handle_compaction _
  · exact y_handle_accept_stopsign _
  · exact y_handle_forwarded_stopsign _

theorem y_resend : Stays resend_message_timeout s := by
  have hp : ∀ t : SP E S, Stays resend_prepare t := fun t => y_get (y_bind (y_pan _) fun _ _ => y_forEach fun x _ => y_send_prepare x)
  have hq : ∀ t : SP E S, Stays send_preparereq_to_all_peers t := fun t => y_get (y_forEach fun x _ => y_send _ _ nofun)
  have hs : ∀ t : SP E S, Stays resend_stopsigns t := fun t => y_get (by
    split
    · refine y_forEach fun f u => y_get ?_
      unfold Stays; rw [M.sat_ite]
      refine ⟨fun _ => y_send_decide _ _ _, fun _ => y_bind (y_pan _) fun _ v => ?_⟩
      unfold Stays; rw [M.sat_ite]
      exact ⟨fun _ => y_send_accept_stopsign _ _ _, fun _ => .refl v⟩
    · exact .refl t)
  refine y_get ?_
  split
  · refine y_get ?_
    split
    · exact hp s
    · exact y_bind (hs s) fun _ t => hp t
    · exact .refl s
    · exact .refl s
  · rename_i hr
    refine y_get ?_
    split
    · split
      · exact y_send _ _ nofun
      · exact y_bind (m := setState .follower .recover) ⟨rfl, rfl, rfl, rfl, fun h _ => (by rw [hr] at h; cases h), fun _ h _ _ => h, fun _ h _ _ => .inl h⟩ fun _ t => hq t
    · exact hq s
    · exact .refl s
    · exact .refl s

theorem y_flush : Stays flush_batch_timeout s := by
  refine y_get ?_
  split
  · exact y_bind (y_pd IStore.pd_flush_get) fun _ _ => y_accepted_leader _
  · refine y_get (y_bind (y_pd IStore.pd_flush) fun _ t => ?_)
    unfold Stays; rw [M.sat_ite]
    exact ⟨fun _ => y_reply_accepted _ _, fun _ => .refl t⟩
  · exact .refl s

theorem y_append (e : E) : Stays (append e) s := by
  refine y_get ?_
  unfold Stays; rw [M.sat_ite]
  refine ⟨fun _ => .refl s, fun _ => y_bind (y_get ?_) fun _ t => .refl t⟩
  split
  · exact y_upd rfl rfl rfl rfl rfl rfl
  · exact y_accept_entries_leader [e]
  · exact y_forward_proposals [e]

end SP
end Omni
