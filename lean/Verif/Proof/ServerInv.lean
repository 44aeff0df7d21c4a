import Verif.Proof.Life
import Verif.Proof.SendOnly
import Verif.Proof.Election
/-
`SInv` and `OInv`: the invariants of Proof/Life.lean for the whole server, under every API call and every message.
-/
namespace Omni

variable {E S : Type}

/-- Bounds for the ballot of the leader state: it is at least `lo`, and above `strict` while the server leads. -/
structure LeadBound where
  lo : Ballot
  strict : Ballot
  le : strict ≤ lo

def LeadBound.of (l : Ballot) : LeadBound := ⟨l, l, Ballot.le_refl l⟩

/-- `b`, `c`: lower bounds for promise and compacted index; `l`: bounds for the leader state. -/
structure SInv (b : Ballot) (c : Nat) (l : LeadBound) (s : SP E S) : Prop where
  ist : IInv b c s.ist
  lead : l.lo ≤ s.ls.n_leader
  role : s.role = .leader → l.strict < s.ls.n_leader ∧ s.ls.n_leader = s.ist.cache.promise ∧ s.ls.n_leader.pid = s.pid
  acc : s.phase = .accept → s.ist.cache.promise.cmp s.ist.cache.accepted_round = .eq
  below : s.ls.n_leader ≤ s.ist.cache.promise

def SBad (b : Ballot) (c : Nat) (s : SP E S) : Prop := IBad b c s.ist

variable {b : Ballot} {c : Nat} {l : LeadBound} {s : SP E S}

theorem SInv.bad (h : SInv b c l s) : SBad b c s := h.ist.bad

theorem SInv.send {s' : SP E S} (h : SInv b c l s) (hs : SendOnly s s') : SInv b c l s' := by
  rw [hs]; exact ⟨h.ist, h.lead, h.role, h.acc, h.below⟩

theorem SBad.send {s' : SP E S} (h : SInv b c l s) (hs : SendOnly s s') : SBad b c s' := (h.send hs).bad

theorem SInv.store {i : IStore E S} (h : SInv b c l s) (hi : IKeep b c s.ist i) : SInv b c l { s with ist := i } :=
  ⟨hi.inv, h.lead, fun hr => by simpa [hi.prom] using h.role hr, fun hp => by simpa [hi.prom, hi.acc] using h.acc hp,
    by simpa [hi.prom] using h.below⟩

/-- Changing the leader state without the leader's ballot. -/
theorem SInv.ls {ls : LeaderState E S} (h : SInv b c l s) (hn : ls.n_leader = s.ls.n_leader) :
    SInv b c l { s with ls := ls } :=
  ⟨h.ist, by simpa [hn] using h.lead, by simpa [hn] using h.role, h.acc, by simpa [hn] using h.below⟩

namespace LeaderState

theorem set_accepted_idx_eq {ls ls' : LeaderState E S} {pid : NodeId} {i : Nat}
    (h : ls.set_accepted_idx pid i = some ls') : ls' = { ls with accepted_indexes := ls'.accepted_indexes } := by
  unfold set_accepted_idx at h; split at h <;> simp at h; subst h; rfl

theorem reset_promise_eq {ls ls' : LeaderState E S} {pid : NodeId}
    (h : ls.reset_promise pid = some ls') : ls' = { ls with promises_meta := ls'.promises_meta } := by
  unfold reset_promise at h; split at h <;> simp at h; subst h; rfl

theorem lost_promise_eq {ls ls' : LeaderState E S} {pid : NodeId}
    (h : ls.lost_promise pid = some ls') : ls' = { ls with promises_meta := ls'.promises_meta } := by
  unfold lost_promise at h; split at h <;> simp at h; subst h; rfl

theorem set_promise_n {ls : LeaderState E S} {p : Promise E S} {f : NodeId} {ck : Bool} {r : LeaderState E S × Bool}
    (h : ls.set_promise p f ck = some r) : r.1.n_leader = ls.n_leader := by
  unfold set_promise update_max at h; simp only at h; split at h <;> simp at h; subst h; simp only; split <;> rfl

end LeaderState

namespace SP

theorem inv_onStore {α : Type} {m : M (IStore E S) α} (h : SInv b c l s)
    (hm : M.Sat m s.ist (fun _ i => IKeep b c s.ist i) (IBad b c)) :
    M.Sat (onStore m) s (fun _ s' => SInv b c l s') (SBad b c) := by
  rw [sat_onStore]
  exact M.sat_mono hm (fun _ _ hi => h.store hi) fun _ h => h

theorem inv_of_so {α : Type} {m : M (SP E S) α} (h : SInv b c l s)
    (hm : M.Sat m s (fun _ s' => SendOnly s s') (SendOnly s)) :
    M.Sat m s (fun _ s' => SInv b c l s') (SBad b c) :=
  M.sat_mono hm (fun _ _ hs => h.send hs) fun _ hs => (h.send hs).bad

/-- Sequencing for invariants. -/
theorem inv_bind {α β : Type} {m : M (SP E S) α} {f : α → M (SP E S) β}
    (hm : M.Sat m s (fun _ s' => SInv b c l s') (SBad b c))
    (hf : ∀ a t, SInv b c l t → M.Sat (f a) t (fun _ s' => SInv b c l s') (SBad b c)) :
    M.Sat (m >>= f) s (fun _ s' => SInv b c l s') (SBad b c) := by
  rw [M.sat_bind]
  exact M.sat_mono hm (fun a t h => hf a t h) fun _ h => h

theorem inv_forEach {α : Type} {xs : List α} {body : α → M (SP E S) Unit} (h : SInv b c l s)
    (hb : ∀ x t, SInv b c l t → M.Sat (body x) t (fun _ s' => SInv b c l s') (SBad b c)) :
    M.Sat (M.forEach xs body) s (fun _ s' => SInv b c l s') (SBad b c) :=
  M.sat_forEach (SInv b c l) h fun x _ t ht => hb x t ht

theorem inv_reconnected (h : SInv b c l s) (pid : NodeId) :
    M.Sat (reconnected pid) s (fun _ s' => SInv b c l s') (SBad b c) := by
  simp only [reconnected, M.sat_bind, M.sat_get, M.sat_ite, M.sat_pure, M.sat_whenDo, sat_setState, sat_send]
  exact ⟨fun _ => h, fun _ => ⟨fun _ => ⟨h.ist, h.lead, by simp, by simp, h.below⟩, fun _ => ⟨h.ist, h.lead, h.role, h.acc, h.below⟩⟩⟩

theorem inv_forward_proposals (h : SInv b c l s) (es : List E) :
    M.Sat (forward_proposals es) s (fun _ s' => SInv b c l s') (SBad b c) := by
  simp only [forward_proposals, M.sat_bind, M.sat_get, M.sat_ite, M.sat_upd, sat_send]
  exact ⟨fun _ => ⟨h.ist, h.lead, h.role, h.acc, h.below⟩, fun _ => ⟨h.ist, h.lead, h.role, h.acc, h.below⟩⟩

theorem inv_forward_stopsign (h : SInv b c l s) (ss : StopSign) :
    M.Sat (forward_stopsign ss) s (fun _ s' => SInv b c l s') (SBad b c) := by
  simp only [forward_stopsign, M.sat_bind, M.sat_get, M.sat_ite, M.sat_upd, sat_send, M.sat_pure]
  exact ⟨fun _ => ⟨h.ist, h.lead, h.role, h.acc, h.below⟩, fun _ => ⟨fun _ => ⟨h.ist, h.lead, h.role, h.acc, h.below⟩, fun _ => h⟩⟩

theorem inv_send_all (h : SInv b c l s) (ps : List NodeId) (m : NodeId → PaxosMsg E S) :
    M.Sat (M.forEach ps fun p => send p (m p)) s (fun _ s' => SInv b c l s') (SBad b c) :=
  inv_forEach h fun x t ht => by rw [sat_send]; exact ht.send (so_out _)

theorem inv_trim (h : SInv b c l s) (i : Option Nat) :
    M.Sat (trim i) s (fun _ s' => SInv b c l s') (SBad b c) := by
  unfold trim
  simp only [M.sat_bind, M.sat_get, M.sat_ite, M.sat_ofPan, M.sat_pure]
  refine ⟨fun _ => ⟨fun k _ => ⟨fun _ => ?_, fun _ => h⟩, fun _ => h.bad⟩, fun _ => h⟩
  refine M.sat_mono (inv_onStore h (IStore.inv_try_trim h.ist _)) (fun r t ht => ?_) fun _ h => h
  cases r with
  | error e => exact ht
  | ok u =>
    rw [M.sat_bind]
    exact inv_send_all ht _ _

theorem inv_snapshot [SnapOps E S] (h : SInv b c l s) (i : Option Nat) (lo : Bool) :
    M.Sat (snapshot i lo) s (fun _ s' => SInv b c l s') (SBad b c) := by
  unfold snapshot
  simp only [M.sat_bind, M.sat_get]
  refine M.sat_mono (inv_onStore h (IStore.inv_try_snapshot h.ist _)) (fun r t ht => ?_) fun _ h => h
  cases r with
  | error e => exact ht
  | ok u =>
    simp only [M.sat_bind, M.sat_whenDo, M.sat_pure]
    exact ⟨fun _ => inv_send_all ht _ _, fun _ => ht⟩

theorem inv_handle_compaction [SnapOps E S] (h : SInv b c l s) (x : Compaction) :
    M.Sat (handle_compaction x) s (fun _ s' => SInv b c l s') (SBad b c) := by
  cases x with
  | trim i => exact inv_bind (inv_onStore h (IStore.inv_try_trim h.ist _)) fun _ _ h => h
  | snapshot i => exact inv_bind (inv_snapshot h i true) fun _ _ h => h

theorem inv_handle_leader (h : SInv b c l s) (n : Ballot) :
    M.Sat (handle_leader n) s (fun _ s' => SInv b c l s') (SBad b c) := by
  unfold handle_leader
  simp only [M.sat_bind, M.sat_get, M.sat_ite, M.sat_pure, M.sat_upd, sat_onStore, sat_onLS', sat_setState]
  refine ⟨fun _ => h, fun hn => ⟨fun hp => ?_, fun _ => ⟨h.ist, h.lead, by simp, h.acc, h.below⟩⟩⟩
  have hn1 : s.ls.n_leader < n := (Ballot.not_le ..).1 fun h => hn (.inl h)
  have hn2 : s.ist.cache.promise < n := (Ballot.not_le ..).1 fun h => hn (.inr h)
  refine M.sat_mono (IStore.inv_flush_batch h.ist) (fun _ i hi => ?_) fun _ h => h
  have hbn : b ≤ n := Ballot.le_trans h.ist.prom (Ballot.le_trans (Ballot.le_of_eq h.ist.mir.prom.symm) (Ballot.le_of_lt hn2))
  refine M.sat_mono (IStore.inv_set_promise hi.inv n hbn) (fun _ j hj => ?_) fun _ h => h
  refine ⟨fun r hr => ?_, fun _ => hj.1.bad⟩
  have hrn := LeaderState.set_promise_n hr
  simp only [LeaderState.with] at hrn
  refine inv_send_all ?_ _ _
  exact ⟨hj.1, by simp only [hrn]; exact Ballot.le_trans h.lead (Ballot.le_of_lt hn1),
    fun _ => ⟨by simp only [hrn]; exact Ballot.lt_of_le_of_lt (Ballot.le_trans l.le h.lead) hn1, by simp only [hrn]; exact hj.2.1.symm,
      by simp only [hrn]; exact hp.symm⟩, by simp, by simp only [hrn, hj.2.1]; exact Ballot.le_refl n⟩

theorem inv_handle_preparereq (h : SInv b c l s) (n : Ballot) (f : NodeId) :
    M.Sat (handle_preparereq n f) s (fun _ s' => SInv b c l s') (SBad b c) := by
  unfold handle_preparereq
  simp only [M.sat_bind, M.sat_get, M.sat_ite, sat_onLS, M.sat_pure]
  refine ⟨fun _ => ⟨fun ls h1 => ⟨fun ls2 h2 => ?_, fun _ => ?_⟩, fun _ => h.bad⟩, fun _ => h⟩
  · have e1 := LeaderState.reset_promise_eq h1
    have e2 := LeaderState.set_latest_accept_meta_eq h2
    refine inv_of_so (h.ls ?_) (so_send_prepare f)
    rw [e2]; simp only; rw [e1]
  · exact h.bad

theorem inv_accepted_leader (h : SInv b c l s) (md : Option (AcceptedMetaData E)) :
    M.Sat (accepted_leader md) s (fun _ s' => SInv b c l s') (SBad b c) := by
  cases md with
  | none => exact h
  | some md =>
    simp only [accepted_leader, M.sat_bind, M.sat_get, sat_onLS]
    refine ⟨fun ls h1 => inv_of_so (h.ls ?_) (so_send_acceptdecide _), fun _ => h.bad⟩
    rw [LeaderState.set_accepted_idx_eq h1]

theorem inv_accept_entry_leader (h : SInv b c l s) (e : E) :
    M.Sat (accept_entry_leader e) s (fun _ s' => SInv b c l s') (SBad b c) :=
  inv_bind (inv_onStore h (IStore.inv_append_entry h.ist e)) fun _ _ h => inv_accepted_leader h _

theorem inv_accept_entries_leader (h : SInv b c l s) (es : List E) :
    M.Sat (accept_entries_leader es) s (fun _ s' => SInv b c l s') (SBad b c) :=
  inv_bind (inv_onStore h (IStore.inv_append_entries h.ist es)) fun _ _ h => inv_accepted_leader h _

theorem inv_accept_stopsign_leader (h : SInv b c l s) (ss : StopSign) :
    M.Sat (accept_stopsign_leader ss) s (fun _ s' => SInv b c l s') (SBad b c) := by
  unfold accept_stopsign_leader
  refine inv_bind (inv_onStore h (IStore.inv_append_ss h.ist ss)) fun md t ht => inv_bind ?_ fun _ u hu => ?_
  · cases md with
    | none => exact ht
    | some md => exact inv_of_so ht (so_send_acceptdecide _)
  · simp only [M.sat_bind, M.sat_get, sat_onLS]
    refine ⟨fun ls h1 => inv_of_so (hu.ls ?_) (so_forEach fun x t => so_send_accept_stopsign _ _ _), fun _ => hu.bad⟩
    rw [LeaderState.set_accepted_idx_eq h1]

theorem inv_append_buffered (h : SInv b c l s) (i : Nat) :
    M.Sat (append_buffered i) s (fun _ s' => SInv b c l s') (SBad b c) := by
  unfold append_buffered
  simp only [M.sat_bind, M.sat_get, M.sat_ite, M.sat_pure]
  refine ⟨fun _ => h, fun _ => ?_⟩
  have h1 : M.Sat (append_buffered_proposals i) s (fun _ s' => SInv b c l s') (SBad b c) := by
    simp only [append_buffered_proposals, M.sat_bind, M.sat_get, M.sat_ite, M.sat_pure, M.sat_upd]
    exact ⟨fun _ => h, fun _ => inv_onStore ⟨h.ist, h.lead, h.role, h.acc, h.below⟩ (IStore.inv_append_nb h.ist _)⟩
  refine M.sat_mono h1 (fun j t ht => ?_) fun _ h => h
  simp only [append_buffered_stopsign, M.sat_bind, M.sat_get]
  cases t.buffered_stopsign with
  | none => exact ht
  | some ss =>
    simp only [M.sat_bind, M.sat_upd, M.sat_get, M.sat_pure]
    exact inv_onStore ⟨ht.ist, ht.lead, ht.role, ht.acc, ht.below⟩ (IStore.inv_append_ss ht.ist ss)

variable [SnapOps E S]

theorem inv_handle_majority (h : SInv b c l s) (hr : s.role = .leader) :
    M.Sat handle_majority_promises s (fun _ s' => SInv b c l s') (SBad b c) := by
  unfold handle_majority_promises
  simp only [M.sat_bind, M.sat_get, M.sat_upd, sat_onStore, sat_setState, sat_onLS]
  refine M.sat_mono (IStore.inv_sync_log h.ist _ _ _) (fun a i hi => ?_) fun _ h => h
  have hl := h.role hr
  -- leader fields stay fixed while the buffered proposals are appended
  have hx : M.Sat (append_buffered a) { s with ist := i, ls := { s.ls with max_promise_sync := none } }
      (fun _ t => SInv b c l t ∧ t.ist.cache.promise.cmp t.ist.cache.accepted_round = .eq ∧
        (l.strict < t.ls.n_leader ∧ t.ls.n_leader = t.ist.cache.promise ∧ t.ls.n_leader.pid = t.pid)) (SBad b c) := by
    have hcmp : i.cache.promise.cmp i.cache.accepted_round = .eq := by
      rw [hi.2.1, hi.2.2, hl.2.1]; exact (Ballot.cmp_eq_iff _ _).2 ⟨rfl, rfl, rfl⟩
    have h0 : SInv b c l { s with ist := i, ls := { s.ls with max_promise_sync := none }, phase := .accept } :=
      ⟨hi.1, h.lead, fun hr => by simpa [hi.2.1] using h.role hr, fun _ => hcmp, by simpa [hi.2.1] using h.below⟩
    -- run with the phase set to accept: append_buffered does not look at it
    unfold append_buffered
    simp only [M.sat_bind, M.sat_get, M.sat_ite, M.sat_pure]
    have hfin : ∀ j : IStore E S, IKeep b c i j → ∀ bp bs,
        (fun t : SP E S => SInv b c l t ∧ t.ist.cache.promise.cmp t.ist.cache.accepted_round = .eq ∧
        (l.strict < t.ls.n_leader ∧ t.ls.n_leader = t.ist.cache.promise ∧ t.ls.n_leader.pid = t.pid))
        { s with ist := j, ls := { s.ls with max_promise_sync := none }, buffered_proposals := bp,
                 buffered_stopsign := bs } := by
      intro j hj bp bs
      have hc2 : j.cache.promise.cmp j.cache.accepted_round = .eq := by rw [hj.prom, hj.acc]; exact hcmp
      have hp2 : s.ls.n_leader = j.cache.promise := by rw [hj.prom, hi.2.1]; exact hl.2.1
      exact ⟨⟨hj.inv, h.lead, fun _ => ⟨hl.1, hp2, hl.2.2⟩, fun _ => hc2, Ballot.le_of_eq hp2⟩, hc2, hl.1, hp2, hl.2.2⟩
    refine ⟨fun _ => hfin i hi.1.keep _ _, fun _ => ?_⟩
    have hss : ∀ j : IStore E S, IKeep b c i j → ∀ bp k, M.Sat (append_buffered_stopsign k)
        { s with ist := j, ls := { s.ls with max_promise_sync := none }, buffered_proposals := bp }
        (fun _ t => SInv b c l t ∧ t.ist.cache.promise.cmp t.ist.cache.accepted_round = .eq ∧
        (l.strict < t.ls.n_leader ∧ t.ls.n_leader = t.ist.cache.promise ∧ t.ls.n_leader.pid = t.pid)) (SBad b c) := by
      intro j hj bp k
      simp only [append_buffered_stopsign, M.sat_bind, M.sat_get]
      cases hbs : s.buffered_stopsign with
      | none => simp only [M.sat_pure]; rw [← hbs]; exact hfin j hj bp _
      | some ss =>
        simp only [M.sat_bind, M.sat_upd, M.sat_get, M.sat_pure, sat_onStore]
        exact M.sat_mono (IStore.inv_append_ss hj.inv ss) (fun _ j' hj' => hfin j' (hj.trans hj') _ _) fun _ h => h
    simp only [append_buffered_proposals, M.sat_bind, M.sat_get, M.sat_ite, M.sat_pure, M.sat_upd, sat_onStore]
    refine ⟨fun _ => hss i hi.1.keep _ _, fun _ => ?_⟩
    exact M.sat_mono (IStore.inv_append_nb hi.1 _) (fun k j hj => hss j hj _ _) fun _ h => h
  refine M.sat_mono hx (fun a' t ht => ?_) fun _ h => h
  obtain ⟨ht, hc2, hl2⟩ := ht
  refine ⟨fun ls h1 => ?_, fun _ => ht.bad⟩
  refine inv_of_so (SInv.ls (s := { t with role := .leader, phase := .accept }) ?_ ?_)
    (so_forEach fun x t => so_send_accsync x)
  · exact ⟨ht.ist, ht.lead, fun _ => hl2, fun _ => hc2, ht.below⟩
  · rw [LeaderState.set_accepted_idx_eq h1]

theorem inv_handle_promise (h : SInv b c l s) (p : Promise E S) (f : NodeId) :
    M.Sat (handle_promise p f) s (fun _ s' => SInv b c l s') (SBad b c) := by
  simp only [handle_promise, M.sat_bind, M.sat_get]
  split
  · rename_i hr hp
    simp only [handle_promise_prepare, M.sat_bind, M.sat_get, M.sat_ite, sat_onLS', M.sat_pure]
    refine ⟨fun _ => ⟨fun r h1 => ?_, fun _ => h.bad⟩, fun _ => h⟩
    have h2 := h.ls (LeaderState.set_promise_n h1)
    exact ⟨fun _ => inv_handle_majority h2 hr, fun _ => h2⟩
  · simp only [handle_promise_accept, M.sat_bind, M.sat_get, M.sat_ite, sat_onLS', M.sat_pure]
    refine ⟨fun _ => ⟨fun r h1 => ?_, fun _ => h.bad⟩, fun _ => h⟩
    exact inv_of_so (h.ls (LeaderState.set_promise_n h1)) (so_send_accsync f)
  · exact h

omit [SnapOps E S] in
theorem inv_handle_accepted (h : SInv b c l s) (a : Accepted) (f : NodeId) :
    M.Sat (handle_accepted a f) s (fun _ s' => SInv b c l s') (SBad b c) := by
  simp only [handle_accepted, M.sat_bind, M.sat_get, M.sat_ite, sat_onLS, M.sat_pure]
  refine ⟨fun _ => ⟨fun ls h1 => ?_, fun _ => h.bad⟩, fun _ => h⟩
  have h2 := h.ls (ls := ls) (by rw [LeaderState.set_accepted_idx_eq h1])
  refine ⟨fun _ => ?_, fun _ => h2⟩
  exact M.sat_mono (inv_onStore h2 (IStore.inv_set_decided h2.ist _))
    (fun _ t ht => inv_of_so ht (so_forEach fun x t => so_announce_decided _ x)) fun _ h => h

omit [SnapOps E S] in
theorem inv_handle_notaccepted (h : SInv b c l s) (n : Ballot) (f : NodeId) :
    M.Sat (handle_notaccepted n f) s (fun _ s' => SInv b c l s') (SBad b c) := by
  simp only [handle_notaccepted, M.sat_bind, M.sat_get, M.sat_ite, sat_onLS, M.sat_pure]
  exact ⟨fun _ => ⟨fun ls h1 => h.ls (by rw [LeaderState.lost_promise_eq h1]), fun _ => h.bad⟩, fun _ => h⟩

omit [SnapOps E S] in
theorem inv_handle_forwarded_proposal (h : SInv b c l s) (es : List E) :
    M.Sat (handle_forwarded_proposal es) s (fun _ s' => SInv b c l s') (SBad b c) := by
  simp only [handle_forwarded_proposal, M.sat_bind, M.sat_get, M.sat_ite, M.sat_pure]
  refine ⟨fun _ => h, fun _ => ?_⟩
  split
  · exact ⟨h.ist, h.lead, h.role, h.acc, h.below⟩
  · exact inv_accept_entries_leader h es
  · exact inv_forward_proposals h es

omit [SnapOps E S] in
theorem inv_handle_forwarded_stopsign (h : SInv b c l s) (ss : StopSign) :
    M.Sat (handle_forwarded_stopsign ss) s (fun _ s' => SInv b c l s') (SBad b c) := by
  simp only [handle_forwarded_stopsign, M.sat_bind, M.sat_get, M.sat_ite, M.sat_pure]
  refine ⟨fun _ => h, fun _ => ?_⟩
  split
  · exact ⟨h.ist, h.lead, h.role, h.acc, h.below⟩
  · exact inv_accept_stopsign_leader h ss
  · exact inv_forward_stopsign h ss

theorem inv_handle_prepare (h : SInv b c l s) (p : Prepare) (f : NodeId) :
    M.Sat (handle_prepare p f) s (fun _ s' => SInv b c l s') (SBad b c) := by
  simp only [handle_prepare, M.sat_bind, M.sat_get, M.sat_ite, M.sat_pure, sat_onStore, M.sat_upd, M.sat_ofPan, sat_send]
  refine ⟨fun hg => ?_, fun _ => h⟩
  have hbn : b ≤ p.n := by
    refine Ballot.le_trans h.ist.prom (Ballot.le_trans (Ballot.le_of_eq h.ist.mir.prom.symm) ?_)
    rcases hg with h1 | h1
    · exact Ballot.le_of_lt h1
    · exact Ballot.le_of_eq h1.1
  refine M.sat_mono (IStore.inv_flush_batch h.ist) (fun _ i hi => ?_) fun _ h => h
  refine M.sat_mono (IStore.inv_set_promise hi.inv p.n hbn) (fun _ j hj => ?_) fun _ h => h
  exact ⟨fun _ _ => ⟨hj.1, h.lead, by simp, by simp, by
    simp only [hj.2.1]
    refine Ballot.le_trans h.below ?_
    rcases hg with h1 | h1
    · exact Ballot.le_of_lt h1
    · exact Ballot.le_of_eq h1.1⟩, fun _ => hj.1.bad⟩

omit [SnapOps E S] in
theorem inv_check_valid_ballot (h : SInv b c l s) (n : Ballot) :
    M.Sat (check_valid_ballot n) s
      (fun ok s' => SInv b c l s' ∧ (ok = true → s.get_promise.cmp n = .eq ∧ s' = s)) (SBad b c) := by
  simp only [check_valid_ballot, M.sat_bind, M.sat_get]
  split
  · rename_i hc; exact ⟨h, fun _ => ⟨hc, rfl⟩⟩
  · simp only [M.sat_bind, sat_send, M.sat_pure]; exact ⟨h.send (so_out _), by simp⟩
  · rw [M.sat_bind]
    exact M.sat_mono (inv_reconnected h _) (fun _ _ h => ⟨h, by simp⟩) fun _ h => h

omit [SnapOps E S] in
theorem inv_forward_buffered (h : SInv b c l s) :
    M.Sat forward_buffered_proposals s (fun _ s' => SInv b c l s') (SBad b c) := by
  simp only [forward_buffered_proposals, M.sat_bind, M.sat_get, M.sat_upd, M.sat_ite, M.sat_pure]
  have h1 : SInv b c l { s with buffered_proposals := [] } := ⟨h.ist, h.lead, h.role, h.acc, h.below⟩
  exact ⟨fun _ => h1, fun _ => inv_forward_proposals h1 _⟩

omit [SnapOps E S] in
/-- Forwarding keeps everything but the proposal buffer and the outgoing messages. -/
theorem forward_buffered_frame : M.Sat (forward_buffered_proposals : M (SP E S) Unit) s
    (fun _ s' => s'.ist = s.ist ∧ s'.ls = s.ls ∧ s'.pid = s.pid ∧ s'.role = s.role ∧ s'.phase = s.phase) (fun _ => False) := by
  simp only [forward_buffered_proposals, forward_proposals, M.sat_bind, M.sat_get, M.sat_upd, M.sat_ite, M.sat_pure, sat_send]
  refine ⟨fun _ => ⟨trivial, trivial, trivial, trivial, trivial⟩, fun _ => ⟨fun _ => ⟨trivial, trivial, trivial, trivial, trivial⟩, fun _ => ⟨trivial, trivial, trivial, trivial, trivial⟩⟩⟩

theorem inv_handle_acceptsync (h : SInv b c l s) (a : AcceptSync E S) (f : NodeId) :
    M.Sat (handle_acceptsync a f) s (fun _ s' => SInv b c l s') (SBad b c) := by
  simp only [handle_acceptsync, M.sat_bind]
  refine M.sat_mono (inv_check_valid_ballot h a.n) (fun ok t ht => ?_) fun _ h => h
  simp only [M.sat_get, M.sat_ite, M.sat_pure]
  refine ⟨fun hg => ?_, fun _ => ht.1⟩
  obtain ⟨hc, rfl⟩ := ht.2 hg.1
  simp only [M.sat_bind, M.sat_upd, sat_onStore, M.sat_get, M.sat_whenDo, sat_setState, sat_send]
  refine M.sat_mono (IStore.inv_sync_log h.ist _ _ _) (fun k i hi => ?_) fun _ h => h
  have hcmp : i.cache.promise.cmp i.cache.accepted_round = .eq := by rw [hi.2.1, hi.2.2]; exact hc
  refine ⟨fun _ => ?_, fun _ => ⟨hi.1, h.lead, by simp, fun _ => hcmp, by simpa [hi.2.1] using h.below⟩⟩
  refine M.sat_mono forward_buffered_frame (fun _ u hu => ?_) fun _ h => h.elim
  exact ⟨by simp only [hu.1]; exact hi.1, by simp only [hu.2.1]; exact h.lead, by simp,
    fun _ => by simp only [hu.1]; exact hcmp, by simp only [hu.1, hu.2.1, hi.2.1]; exact h.below⟩

omit [SnapOps E S] in
theorem inv_accept_guard (h : SInv b c l s) (n : Ballot) (q : SeqNum) (any : Bool) :
    M.Sat (accept_guard n q any) s (fun _ s' => SInv b c l s') (SBad b c) := by
  simp only [accept_guard, M.sat_bind]
  refine M.sat_mono (inv_check_valid_ballot h n) (fun ok t ht => ?_) fun _ h => h
  have ht := ht.1
  simp only [M.sat_get, M.sat_ite, M.sat_pure, M.sat_bind, handle_sequence_num]
  refine ⟨fun _ => ?_, fun _ => ht⟩
  split
  · exact ⟨ht.ist, ht.lead, ht.role, ht.acc, ht.below⟩
  · rw [M.sat_bind]; exact inv_reconnected ht _
  · exact ht

omit [SnapOps E S] in
theorem inv_reply_accepted (h : SInv b c l s) (n : Ballot) (i : Nat) :
    M.Sat (reply_accepted n i) s (fun _ s' => SInv b c l s') (SBad b c) := by
  simp only [reply_accepted, M.sat_bind, M.sat_get, M.sat_ofPan]
  refine ⟨fun r _ => ?_, fun _ => h.bad⟩
  match r with
  | some (idx, a) => exact h.send (so_out _)
  | none => exact ⟨h.ist, h.lead, h.role, h.acc, h.below⟩

omit [SnapOps E S] in
theorem inv_reply_opt (h : SInv b c l s) (n : Ballot) (i : Option Nat) :
    M.Sat (reply_opt n i) s (fun _ s' => SInv b c l s') (SBad b c) := by
  cases i with
  | none => exact h
  | some i => exact inv_reply_accepted h n i

omit [SnapOps E S] in
theorem inv_update_decided (h : SInv b c l s) (d : Nat) :
    M.Sat (update_decided_idx_and_get_accepted_idx d) s (fun _ s' => SInv b c l s') (SBad b c) := by
  simp only [update_decided_idx_and_get_accepted_idx, M.sat_bind, M.sat_get, M.sat_ite, M.sat_pure]
  refine ⟨fun _ => h, fun _ => ⟨fun _ => ?_, fun _ => inv_onStore h (IStore.inv_set_decided h.ist _)⟩⟩
  exact M.sat_mono (inv_onStore h (IStore.inv_flush_batch h.ist))
    (fun _ _ ht => inv_onStore ht (IStore.inv_set_decided ht.ist _)) fun _ h => h

omit [SnapOps E S] in
theorem inv_handle_acceptdecide (h : SInv b c l s) (a : AcceptDecide E) :
    M.Sat (handle_acceptdecide a) s (fun _ s' => SInv b c l s') (SBad b c) := by
  unfold handle_acceptdecide
  refine inv_bind (inv_accept_guard h _ _ _) fun ok t ht => ?_
  rw [M.sat_ite]
  refine ⟨fun _ => ?_, fun _ => ht⟩
  exact inv_bind (inv_onStore ht (IStore.inv_append_get ht.ist _)) fun _ _ ht =>
    inv_bind (inv_update_decided ht _) fun _ _ ht => inv_reply_opt ht _ _

omit [SnapOps E S] in
theorem inv_handle_accept_stopsign (h : SInv b c l s) (a : AcceptStopSign) :
    M.Sat (handle_accept_stopsign a) s (fun _ s' => SInv b c l s') (SBad b c) := by
  unfold handle_accept_stopsign
  refine inv_bind (inv_accept_guard h _ _ _) fun ok t ht => ?_
  rw [M.sat_ite]
  refine ⟨fun _ => ?_, fun _ => ht⟩
  exact inv_bind (inv_onStore ht (IStore.inv_flush_batch ht.ist)) fun _ _ ht =>
    inv_bind (inv_onStore ht (IStore.inv_set_stopsign ht.ist _)) fun _ _ ht => inv_reply_accepted ht _ _

omit [SnapOps E S] in
theorem inv_handle_decide (h : SInv b c l s) (d : Decide) :
    M.Sat (handle_decide d) s (fun _ s' => SInv b c l s') (SBad b c) := by
  unfold handle_decide
  refine inv_bind (inv_accept_guard h _ _ _) fun ok t ht => ?_
  rw [M.sat_ite]
  refine ⟨fun _ => ?_, fun _ => ht⟩
  exact inv_bind (inv_update_decided ht _) fun _ _ ht => inv_reply_opt ht _ _

omit [SnapOps E S] in
theorem inv_resend (h : SInv b c l s) :
    M.Sat resend_message_timeout s (fun _ s' => SInv b c l s') (SBad b c) := by
  simp only [resend_message_timeout, M.sat_bind, M.sat_get]
  split
  · exact inv_of_so h so_resend_messages_leader
  · have hall : ∀ t : SP E S, SInv b c l t →
        M.Sat send_preparereq_to_all_peers t (fun _ s' => SInv b c l s') (SBad b c) := by
      intro t ht
      simp only [send_preparereq_to_all_peers, M.sat_bind, M.sat_get]
      exact inv_send_all ht _ _
    simp only [resend_messages_follower, M.sat_bind, M.sat_get]
    split
    · split
      · exact h.send (so_out _)
      · simp only [M.sat_bind, sat_setState]
        exact hall _ ⟨h.ist, h.lead, by simp, by simp, h.below⟩
    · exact hall _ h
    · exact h
    · exact h

omit [SnapOps E S] in
theorem inv_flush_timeout (h : SInv b c l s) :
    M.Sat flush_batch_timeout s (fun _ s' => SInv b c l s') (SBad b c) := by
  simp only [flush_batch_timeout, M.sat_bind, M.sat_get]
  split
  · exact inv_bind (inv_onStore h (IStore.inv_flush_get h.ist)) fun _ _ h => inv_accepted_leader h _
  · simp only [flush_batch_follower, M.sat_bind, M.sat_get]
    refine M.sat_mono (inv_onStore h (IStore.inv_flush_batch h.ist)) (fun k t ht => ?_) fun _ h => h
    simp only [M.sat_ite, M.sat_pure]
    exact ⟨fun _ => inv_reply_accepted ht _ _, fun _ => ht⟩
  · exact h

theorem inv_handle (h : SInv b c l s) (m : PaxosMessage E S) :
    M.Sat (handle m) s (fun _ s' => SInv b c l s') (SBad b c) := by
  unfold handle
  split
  · exact inv_handle_preparereq h _ _
  · exact inv_handle_prepare h _ _
  · exact inv_handle_promise h _ _
  · exact inv_handle_acceptsync h _ _
  · exact inv_handle_acceptdecide h _
  · exact inv_handle_notaccepted h _ _
  · exact inv_handle_accepted h _ _
  · exact inv_handle_decide h _
  · exact inv_handle_forwarded_proposal h _
  · exact inv_handle_compaction h _
  · exact inv_handle_accept_stopsign h _
  · exact inv_handle_forwarded_stopsign h _

omit [SnapOps E S] in
theorem inv_append (h : SInv b c l s) (e : E) :
    M.Sat (append e) s (fun _ s' => SInv b c l s') (SBad b c) := by
  simp only [append, M.sat_bind, M.sat_get, M.sat_ite, M.sat_pure]
  refine ⟨fun _ => h, fun _ => ?_⟩
  simp only [propose_entry, M.sat_bind, M.sat_get]
  split
  · exact ⟨h.ist, h.lead, h.role, h.acc, h.below⟩
  · exact inv_accept_entry_leader h e
  · exact inv_forward_proposals h _

omit [SnapOps E S] in
theorem inv_reconfigure (h : SInv b c l s) (cc : ClusterConfig) (md : Option (List Nat)) :
    M.Sat (reconfigure cc md) s (fun _ s' => SInv b c l s') (SBad b c) := by
  simp only [reconfigure, M.sat_bind, M.sat_get, M.sat_ite, M.sat_pure]
  refine ⟨fun _ => h, fun _ => ?_⟩
  simp only [propose_stopsign, M.sat_bind, M.sat_get]
  split
  · exact ⟨h.ist, h.lead, h.role, h.acc, h.below⟩
  · exact inv_accept_stopsign_leader h _
  · exact inv_forward_stopsign h _

end SP

variable [SnapOps E S]

/-- Every API call and every message preserves the invariant of a server. -/
theorem Call.inv {op : OP E S} (call : Call E S) (h : SInv b c l op.sp) :
    M.Sat call.run op (fun _ op' => SInv b c l op'.sp) (fun op' => SBad b c op'.sp) := by
  cases call with
  | append e => simp only [Call.run, OP.append, M.sat_bind, OP.sat_onSP, M.sat_pure]; exact SP.inv_append h e
  | reconfigure cc md =>
    simp only [Call.run, OP.reconfigure, M.sat_bind, M.sat_pure]
    split
    · exact h
    · rw [OP.sat_onSP]; exact SP.inv_reconfigure h cc md
  | tick =>
    have hel : M.Sat OP.election_timeout { op with election_clock := op.election_clock.tick_and_check_timeout.2 }
        (fun _ op' => SInv b c l op'.sp) (fun op' => SBad b c op'.sp) := by
      simp only [OP.election_timeout, M.sat_bind, M.sat_get, M.sat_upd]
      split
      · rw [OP.sat_onSP]; exact SP.inv_handle_leader h _
      · exact h
    have hfl : ∀ t : OP E S, SInv b c l t.sp → M.Sat (M.whenDo (op.flush_batch_clock.tick_and_check_timeout.1 = true)
        (OP.onSP SP.flush_batch_timeout)) { t with flush_batch_clock := t.flush_batch_clock.tick_and_check_timeout.2 }
        (fun _ op' => SInv b c l op'.sp) (fun op' => SBad b c op'.sp) := by
      intro t ht
      rw [M.sat_whenDo, OP.sat_onSP]
      exact ⟨fun _ => SP.inv_flush_timeout ht, fun _ => ht⟩
    have hre : ∀ t : OP E S, SInv b c l t.sp → M.Sat (M.whenDo (op.resend_message_clock.tick_and_check_timeout.1 = true)
        (OP.onSP SP.resend_message_timeout)) { t with resend_message_clock := t.resend_message_clock.tick_and_check_timeout.2 }
        (fun _ op' => SInv b c l op'.sp) (fun op' => SBad b c op'.sp) := by
      intro t ht
      rw [M.sat_whenDo, OP.sat_onSP]
      exact ⟨fun _ => SP.inv_resend ht, fun _ => ht⟩
    simp only [Call.run, OP.tick, M.sat_bind, M.sat_get, M.sat_upd]
    have h1 : M.Sat (M.whenDo (op.election_clock.tick_and_check_timeout.1 = true) OP.election_timeout)
        { op with election_clock := op.election_clock.tick_and_check_timeout.2 }
        (fun _ op' => SInv b c l op'.sp) (fun op' => SBad b c op'.sp) := by
      rw [M.sat_whenDo]; exact ⟨fun _ => hel, fun _ => h⟩
    exact M.sat_mono h1 (fun _ t ht => M.sat_mono (hre t ht) (fun _ u hu => hfl u hu) fun _ h => h) fun _ h => h
  | tryBecomeLeader =>
    simp only [Call.run, OP.try_become_leader, M.sat_bind, M.sat_get, OP.sat_onSP]
    exact SP.inv_handle_leader h _
  | setPriority p => exact h
  | reconnected p => simp only [Call.run, OP.reconnected, OP.sat_onSP]; exact SP.inv_reconnected h p
  | trim i => simp only [Call.run, OP.trim, M.sat_bind, OP.sat_onSP, M.sat_pure]; exact SP.inv_trim h i
  | snapshot i lo => simp only [Call.run, OP.snapshot, M.sat_bind, OP.sat_onSP, M.sat_pure]; exact SP.inv_snapshot h i lo
  | handleIncoming m =>
    simp only [Call.run, OP.handle_incoming]
    cases m with
    | paxos p => rw [OP.sat_onSP]; exact SP.inv_handle h p
    | ble x => exact h

end Omni
