import Verif.Proof.Oust.Admit
/-
A leader that has not yet got enough promises.
-/
namespace Omni

variable {E S : Type}

/-- Leads in `W`, and waits for promises. -/
structure Bidding (W : Ballot) (s : SP E S) : Prop where
  promise : s.ist.cache.promise = W
  role : s.role = .leader
  phase : s.phase = .prepare
  lead : s.ls.n_leader = W
  noq : ∀ Q : List NodeId, Q.Nodup → (∀ x ∈ Q, Holds s x) → (∃ x ∈ Q, x ≠ W.pid) → s.ls.quorum.is_prepare_quorum Q.length = false

/-- Holds got them. -/
def Won (W : Ballot) (s : SP E S) : Prop := s.role = .leader ∧ s.phase = .accept ∧ s.ls.n_leader = W

variable {W : Ballot} {s t u : SP E S}

theorem Quorum.prepare_mono {q : Quorum} {a b : Nat} (h : q.is_prepare_quorum b = false) (hab : a ≤ b) : q.is_prepare_quorum a = false := by
  cases q <;> simp only [Quorum.is_prepare_quorum, decide_eq_false_iff_not] at h ⊢ <;> omega

/-- Nothing of this changes. -/
structure Alone (s t : SP E S) : Prop where
  promise : t.ist.cache.promise = s.ist.cache.promise
  role : t.role = s.role
  phase : t.phase = s.phase
  ls : t.ls = s.ls

theorem Alone.refl (s : SP E S) : Alone s s := ⟨rfl, rfl, rfl, rfl⟩

theorem Alone.trans (h : Alone s t) (h' : Alone t u) : Alone s u := ⟨h'.promise.trans h.promise, h'.role.trans h.role, h'.phase.trans h.phase, h'.ls.trans h.ls⟩

theorem Bidding.same (h : Bidding W s) (ht : Alone s t) : Bidding W t := by
  refine ⟨ht.promise.trans h.promise, ht.role.trans h.role, ht.phase.trans h.phase, by rw [ht.ls]; exact h.lead, ?_⟩
  unfold Holds
  rw [ht.ls]
  exact h.noq

namespace SP

/-- What a message does to the promises. -/
def Gains (W : Ballot) (m : PaxosMessage E S) (s t : SP E S) : Prop :=
  (Won W t ∧ ∀ j, j ≠ W.pid → Holds s j ∨ j = m.src → t.Admits W j) ∨ Bidding W t ∧ (∀ j, (j = m.src → m.msg.isReq = false) → Holds s j → Holds t j) ∧ ∀ p, m.msg = .promise p → p.n = W → Holds t m.src

theorem Gains.same {m : PaxosMessage E S} (h : Bidding W s) (ht : Alone s t) (hm : ∀ p, m.msg = .promise p → p.n ≠ W) : Gains W m s t :=
  .inr ⟨h.same ht, fun j _ hj => by unfold Holds at *; rw [ht.ls]; exact hj, fun p e e' => absurd e' (hm p e)⟩

theorem accsync_phase [SnapOps E S] (d : NodeId) : M.Sat (send_accsync d) s (fun _ t => t.role = s.role ∧ t.phase = s.phase ∧ t.ls.n_leader = s.ls.n_leader) (fun _ => True) := by
  simp only [send_accsync, M.sat_bind, M.sat_get, M.sat_ofPan, sat_onLS, sat_onLS', sat_send]
  exact ⟨fun _ _ => ⟨fun _ _ => ⟨fun _ h1 => ⟨fun r h2 => ⟨trivial, trivial, (LeaderState.lead_next h2).trans (LeaderState.lead_incr h1)⟩, fun _ => trivial⟩, fun _ => trivial⟩, fun _ => trivial⟩, fun _ => trivial⟩

theorem accsyncs_phase [SnapOps E S] : ∀ (l : List NodeId) {s : SP E S}, M.Sat (M.forEach l send_accsync) s (fun _ t => t.role = s.role ∧ t.phase = s.phase ∧ t.ls.n_leader = s.ls.n_leader) (fun _ => True)
  | [], _ => ⟨rfl, rfl, rfl⟩
  | x :: l, s => by
    rw [M.sat_forEach_cons]
    refine M.sat_mono (accsync_phase x) (fun _ t h => M.sat_mono (accsyncs_phase l) (fun _ u h' => ?_) fun _ h => h) fun _ h => h
    exact ⟨h'.1.trans h.1, h'.2.1.trans h.2.1, h'.2.2.trans h.2.2⟩

theorem majority_won [SnapOps E S] (h : s.role = .leader) (hn : s.ls.n_leader = W) : M.Sat handle_majority_promises s (fun _ t => Won W t) (fun _ => True) := by
  have key : M.Sat handle_majority_promises s (fun _ t => t.role = .leader ∧ t.phase = .accept) (fun _ => True) := by
    simp only [handle_majority_promises, M.sat_bind, M.sat_get, M.sat_upd, sat_onStore, sat_setState, sat_onLS]
    refine M.sat_mono (IStore.pd_sync_log _ _ _) (fun _ i _ => ?_) fun _ h => h
    refine M.sat_mono (y_append_buffered _) (fun k v _ => ?_) fun _ h => h
    refine ⟨fun _ _ => ?_, fun _ => trivial⟩
    exact M.sat_mono (accsyncs_phase _) (fun _ t ht => ⟨ht.1, ht.2.1⟩) fun _ h => h
  exact M.sat_mono (M.sat_and key (y_majority (s := s) h)) (fun _ t ht => ⟨ht.1.1, ht.1.2, ht.2.lead.trans hn⟩) fun _ h => h.1

theorem ahead_guard (h : Bidding W s) {b : Ballot} (hb : b < W) {q : SeqNum} {any : Bool} {f : Bool → M (SP E S) Unit} (hf : ∀ _ : SP E S, f false = pure ()) :
    M.Sat (accept_guard b q any >>= f) s (fun _ t => Alone s t) (fun _ => True) := by
  unfold accept_guard
  simp only [M.sat_bind]
  refine check_less h.promise hb ?_
  simp only [M.sat_get, M.sat_ite]
  refine ⟨fun e => absurd e.1 (by simp), fun _ => ?_⟩
  rw [M.sat_pure, hf s, M.sat_pure]
  exact ⟨rfl, rfl, rfl, rfl⟩

theorem ahead_handle [SnapOps E S] (h : Bidding W s) {m : PaxosMessage E S} (hm : Mild W m.msg) : M.Sat (handle m) s (fun _ t => Gains W m s t) (fun _ => True) := by
  have sm : (∀ p, m.msg = .promise p → p.n ≠ W) → ∀ {x : M (SP E S) Unit}, M.Sat x s (fun _ t => Alone s t) (fun _ => True) → M.Sat x s (fun _ t => Gains W m s t) (fun _ => True) :=
    fun hp x hx => M.sat_mono hx (fun _ t ht => .same h ht hp) fun _ h => h
  unfold handle
  cases e : m.msg with
  | prepareReq n =>
    simp only [handle_preparereq, M.sat_bind, M.sat_get, M.sat_ite, M.sat_pure, sat_onLS, send_prepare, sat_send]
    refine ⟨fun _ => ⟨fun l1 h1 => ⟨fun l2 h2 => ?_, fun _ => trivial⟩, fun _ => trivial⟩, fun _ => .same h (.refl s) fun p e' => by rw [e] at e'; cases e'⟩
    have e2 : l2.promises_meta = l1.promises_meta ∧ l2.quorum = l1.quorum := by
      unfold LeaderState.set_latest_accept_meta at h2; split at h2 <;> simp at h2; subst h2; exact ⟨rfl, rfl⟩
    have e1 : setSlot s.ls.promises_meta m.src .notPromised = some l1.promises_meta ∧ l1.quorum = s.ls.quorum := by
      unfold LeaderState.reset_promise at h1; split at h1 <;> simp at h1; rename_i hv; subst h1; exact ⟨hv, rfl⟩
    obtain ⟨_, _, _, s1, s2⟩ := setSlot_spec e1.1
    have back : ∀ j, (∃ x, slot l2.promises_meta j = some (.promised x)) → j ≠ m.src ∧ Holds s j := by
      rintro j ⟨x, hx⟩
      rw [e2.1] at hx
      by_cases ej : j = m.src
      · rw [ej, s1] at hx; cases hx
      · exact ⟨ej, x, by rw [← s2 j ej]; exact hx⟩
    refine .inr ⟨⟨h.promise, h.role, h.phase, ((LeaderState.lead_meta h2).trans (LeaderState.lead_reset h1)).trans h.lead, fun Q hQ hp hx => ?_⟩, fun j hj hh => ?_, fun p e' => by rw [e] at e'; cases e'⟩
    · have := h.noq Q hQ (fun x hx => (back x (hp x hx)).2) hx
      show l2.quorum.is_prepare_quorum _ = false
      rw [e2.2, e1.2]
      exact this
    · have ej : j ≠ m.src := fun ej => by have := hj ej; rw [e] at this; cases this
      obtain ⟨x, hx⟩ := hh
      exact ⟨x, by show slot l2.promises_meta j = _; rw [e2.1, s2 j ej]; exact hx⟩
  | prepare p =>
    simp only [handle_prepare, M.sat_bind, M.sat_get, M.sat_ite, M.sat_pure]
    refine ⟨fun hc => ?_, fun _ => .same h (.refl s) fun p e' => by rw [e] at e'; cases e'⟩
    exfalso
    rcases hc with hc | hc
    · have := hm.prep p e
      have hc : s.ist.cache.promise < p.n := hc
      rw [h.promise] at hc
      exact absurd (Ballot.lt_of_lt_of_le hc this) (Ballot.lt_irrefl W)
    · rw [h.phase] at hc
      cases hc.2
  | promise p =>
    simp only [handle_promise, M.sat_bind, M.sat_get, h.role, h.phase]
    simp only [handle_promise_prepare, M.sat_bind, M.sat_get, M.sat_ite, M.sat_pure, sat_onLS']
    refine ⟨fun hn => ⟨fun r hr => ?_, fun _ => trivial⟩, fun hn => .same h (.refl s) fun q e' => ?_⟩
    · obtain ⟨g1, g2, -, -, ⟨x, g3⟩, g4⟩ := set_promise_spec hr
      obtain ⟨_, _, _, s1, s2⟩ := setSlot_spec g3
      refine ⟨fun _ => ?_, fun hf => ?_⟩
      · have key := M.sat_forall (fun j : { j : NodeId // j ≠ W.pid ∧ (Holds s j ∨ j = m.src) } => majority_admits (s := { s with ls := r.1 }) (g1.trans h.lead) j.2.1 (by
          by_cases ej : j.1 = m.src
          · exact ⟨x, by rw [ej]; exact s1⟩
          · obtain ⟨y, hy⟩ := j.2.2.resolve_right ej
            exact ⟨y, by show slot r.1.promises_meta j.1 = _; rw [s2 j.1 ej]; exact hy⟩))
        exact M.sat_mono (M.sat_and (majority_won (s := { s with ls := r.1 }) h.role (g1.trans h.lead)) key) (fun _ _ h => .inl ⟨h.1, fun j h1 h2 => h.2 ⟨j, h1, h2⟩⟩) fun _ _ => trivial
      refine .inr ⟨⟨h.promise, h.role, h.phase, g1.trans h.lead, fun Q hQ hp hx => ?_⟩, fun j hj hh => ?_, fun _ _ _ => ⟨x, s1⟩⟩
      · have hle : Q.length ≤ r.1.num_promised := le_count_slots hQ fun y hy => by
          obtain ⟨z, hz⟩ := hp y hy
          exact ⟨_, hz, rfl⟩
        have hf : r.2 = false := by simpa using hf
        show r.1.quorum.is_prepare_quorum _ = false
        rw [g2]
        exact Quorum.prepare_mono (g4 ▸ hf) hle
      · by_cases ej : j = m.src
        · exact ⟨x, by rw [ej]; exact s1⟩
        · obtain ⟨y, hy⟩ := hh
          exact ⟨y, by show slot r.1.promises_meta j = _; rw [s2 j ej]; exact hy⟩
    · rw [e] at e'
      cases e'
      rw [h.lead] at hn
      exact hn
  | acceptSync a =>
    refine sm (fun p e' => by rw [e] at e'; cases e') ?_
    simp only [handle_acceptsync, M.sat_bind]
    refine check_less h.promise (hm.acc a.n a.seq_num (by rw [e]; rfl)) ?_
    simp only [M.sat_get, M.sat_ite]
    refine ⟨fun e => absurd e.1 (by simp), fun _ => ?_⟩
    rw [M.sat_pure]
    exact ⟨rfl, rfl, rfl, rfl⟩
  | acceptDecide a => exact sm (fun p e' => by rw [e] at e'; cases e') (ahead_guard h (hm.acc a.n a.seq_num (by rw [e]; rfl)) fun _ => rfl)
  | notAccepted b =>
    refine sm (fun p e' => by rw [e] at e'; cases e') ?_
    simp only [handle_notaccepted, M.sat_bind, M.sat_get, M.sat_ite, M.sat_pure]
    refine ⟨fun hc => ?_, fun _ => .refl s⟩
    have hc := hc.2
    rw [h.lead] at hc
    exact absurd (Ballot.lt_of_lt_of_le hc (hm.lost b e)) (Ballot.lt_irrefl W)
  | accepted a =>
    refine sm (fun p e' => by rw [e] at e'; cases e') ?_
    simp only [handle_accepted, M.sat_bind, M.sat_get, M.sat_ite, M.sat_pure]
    exact ⟨fun hc => absurd (h.phase.symm.trans hc.2.2) nofun, fun _ => .refl s⟩
  | decide d => exact sm (fun p e' => by rw [e] at e'; cases e') (ahead_guard h (hm.acc d.n d.seq_num (by rw [e]; rfl)) fun _ => rfl)
  | proposalForward es =>
    refine sm (fun p e' => by rw [e] at e'; cases e') ?_
    simp only [handle_forwarded_proposal, M.sat_bind, M.sat_get, M.sat_ite, M.sat_pure, h.role, h.phase, M.sat_upd]
    exact ⟨fun _ => .refl s, fun _ => ⟨rfl, h.role.symm, h.phase.symm, rfl⟩⟩
  | compaction c =>
    refine sm (fun p e' => by rw [e] at e'; cases e') ?_
    cases c with
    | trim k =>
      simp only [handle_compaction, M.sat_bind, sat_onStore, M.sat_pure]
      exact M.sat_mono (IStore.pd_try_trim k) (fun _ j hj => ⟨hj.1, rfl, rfl, rfl⟩) fun _ _ => trivial
    | snapshot k =>
      simp only [handle_compaction, snapshot, M.sat_bind, M.sat_get, sat_onStore, M.sat_pure]
      refine M.sat_mono (IStore.pd_try_snapshot k) (fun r j hj => ?_) fun _ _ => trivial
      cases r with
      | error e => exact ⟨hj.1, rfl, rfl, rfl⟩
      | ok _ =>
        simp only [M.sat_bind, M.sat_whenDo, M.sat_pure]
        exact ⟨fun h => (by cases h), fun _ => ⟨hj.1, rfl, rfl, rfl⟩⟩
  | acceptStopSign a => exact sm (fun p e' => by rw [e] at e'; cases e') (ahead_guard h (hm.acc a.n a.seq_num (by rw [e]; rfl)) fun _ => rfl)
  | forwardStopSign ss =>
    refine sm (fun p e' => by rw [e] at e'; cases e') ?_
    simp only [handle_forwarded_stopsign, M.sat_bind, M.sat_get, M.sat_ite, M.sat_pure, h.role, h.phase, M.sat_upd]
    exact ⟨fun _ => .refl s, fun _ => ⟨rfl, h.role.symm, h.phase.symm, rfl⟩⟩

theorem ahead_append (h : Bidding W s) (e : E) : M.Sat (append e) s (fun _ t => Alone s t) (fun _ => True) := by
  simp only [append, propose_entry, M.sat_bind, M.sat_get, M.sat_ite, M.sat_pure, h.role, h.phase, M.sat_upd]
  exact ⟨fun _ => .refl s, fun _ => ⟨rfl, h.role.symm, h.phase.symm, rfl⟩⟩

theorem sends_same : ∀ (l : List NodeId) {s : SP E S}, M.Sat (M.forEach l send_prepare) s (fun _ t => Alone s t) (fun _ => True)
  | [], s => .refl s
  | x :: l, s => by
    rw [M.sat_forEach_cons]
    simp only [send_prepare, M.sat_bind, M.sat_get, sat_send]
    exact M.sat_mono (sends_same l) (fun _ u h => ⟨h.promise, h.role, h.phase, h.ls⟩) fun _ h => h

theorem ahead_tail (h : Bidding W s) {r w : Prop} [Decidable r] [Decidable w] :
    M.Sat (do M.whenDo r resend_message_timeout; M.whenDo w flush_batch_timeout) s (fun _ t => Alone s t) (fun _ => True) := by
  have fl : ∀ v : SP E S, Alone s v → M.Sat (M.whenDo w flush_batch_timeout) v (fun _ t => Alone s t) (fun _ => True) := by
    intro v hv
    rw [M.sat_whenDo]
    refine ⟨fun _ => ?_, fun _ => hv⟩
    simp only [flush_batch_timeout, M.sat_bind, M.sat_get, hv.role, hv.phase, h.role, h.phase, M.sat_pure]
    exact hv
  rw [M.sat_bind, M.sat_whenDo]
  refine ⟨fun _ => ?_, fun _ => fl s (.refl s)⟩
  simp only [resend_message_timeout, resend_messages_leader, resend_prepare, M.sat_bind, M.sat_get, h.role, h.phase, M.sat_ofPan]
  exact ⟨fun _ _ => M.sat_mono (sends_same _) (fun _ v hv => fl v hv) fun _ h => h, fun _ => trivial⟩

/-- Taking over. -/
theorem leader_ahead (y : Ballot) :
    M.Sat (handle_leader y) s (fun _ t => t = s ∨ s.pid ≠ y.pid ∨ s.ist.cache.promise < y ∧ s.pid = y.pid ∧ Bidding y t) (fun _ => True) := by
  simp only [handle_leader, M.sat_bind, M.sat_get, M.sat_ite, M.sat_pure, M.sat_upd]
  refine ⟨fun _ => .inl trivial, fun hc => ⟨fun hp => ?_, fun hp => .inr (.inl hp)⟩⟩
  rw [sat_onStore]
  refine M.sat_mono IStore.pd_flush (fun _ i hi => ?_) fun _ _ => trivial
  rw [sat_onStore]
  refine M.sat_mono (IStore.pd_set_promise y) (fun _ j hj => ?_) fun _ _ => trivial
  rw [sat_onLS']
  refine ⟨fun r hr => ?_, fun _ => trivial⟩
  rw [sat_setState]
  unfold M.Sat
  rw [forEach_send]
  simp only
  refine .inr (.inr ⟨Ballot.not_le.1 fun e => hc (.inr e), hp, hj.1, rfl, rfl, LeaderState.set_promise_n hr, fun Q hQ hh hx => ?_⟩)
  exfalso
  obtain ⟨x, hxQ, hx⟩ := hx
  obtain ⟨-, -, -, -, ⟨z, g3⟩, -⟩ := set_promise_spec hr
  obtain ⟨_, _, _, s1, s2⟩ := setSlot_spec g3
  obtain ⟨m, hm⟩ := hh x hxQ
  have hm : slot r.1.promises_meta x = some (.promised m) := hm
  rw [s2 x (by rw [hp]; exact hx)] at hm
  have := slot_replicate hm
  cases this

theorem ahead_ticked (h : s.ist.cache.promise = W → Bidding W s) {x : Option Ballot} (hx : ∀ y, x = some y → y.pid = s.pid) {r w : Prop} [Decidable r] [Decidable w] :
    M.Sat (ticked x r w) s (fun _ t => t.ist.cache.promise = W → Bidding W t ∧ (s.ist.cache.promise = W → ∀ j, Holds s j → Holds t j)) (fun _ => True) := by
  have tail : ∀ u : SP E S, Alone s u → M.Sat (do M.whenDo r resend_message_timeout; M.whenDo w flush_batch_timeout) u
      (fun _ t => t.ist.cache.promise = W → Bidding W t ∧ (s.ist.cache.promise = W → ∀ j, Holds s j → Holds t j)) (fun _ => True) := by
    intro u hu
    by_cases e : s.ist.cache.promise = W
    · have hA := (h e).same hu
      exact M.sat_mono (ahead_tail hA) (fun _ t ht _ => ⟨hA.same ht, fun _ j hj => by unfold Holds at *; rw [ht.ls, hu.ls]; exact hj⟩) fun _ h => h
    · exact M.sat_mono (y_tail u) (fun _ t ht e' => absurd (hu.promise.symm.trans (ht.promise.symm.trans e')) e) fun _ h => h
  unfold ticked
  cases x with
  | none => exact tail s (.refl s)
  | some y =>
    rw [M.sat_bind]
    have hy := hx y rfl
    refine M.sat_mono (leader_ahead y) (fun _ u hu => ?_) fun _ h => h
    rcases hu with rfl | e | ⟨h1, _, h2⟩
    · exact tail _ (.refl _)
    · exact absurd hy.symm e
    · refine M.sat_mono (ahead_tail h2) (fun _ t ht e => ?_) fun _ h => h
      have : y = W := by rw [← e, ht.promise, h2.promise]
      subst this
      exact ⟨h2.same ht, fun e' => by rw [e'] at h1; exact absurd h1 (Ballot.lt_irrefl _)⟩

end SP
end Omni
