import Verif.Proof.Oust.Calls
import Verif.Proof.Progress.Steps
/-
A server that has promised `W` and waits for its AcceptSync; a leader that has not yet got enough promises.
-/
namespace Omni

variable {E S : Type}

/-- A PrepareReq. -/
def PaxosMsg.isReq : PaxosMsg E S → Bool
  | .prepareReq _ => true
  | _ => false

/-- Waits for an AcceptSync of `W`. -/
structure Firm (W : Ballot) (s : SP E S) : Prop where
  promise : s.ist.cache.promise = W
  role : s.role = .follower
  phase : s.phase = .prepare
  cached : s.cached_promise.isSome = true

/-- Nothing is taken from `outgoing`, and no PrepareReq put there. -/
def Adds (s t : SP E S) : Prop := ∃ new, t.outgoing = s.outgoing ++ new ∧ ∀ x ∈ new, x.msg.isReq = false

/-- What a message may say while `W` is the greatest ballot and nobody has accepted in it. -/
structure Mild (W : Ballot) (m : PaxosMsg E S) : Prop where
  acc : ∀ b q, m.accOf = some (b, q) → b < W
  prep : ∀ p, m = .prepare p → p.n ≤ W
  lost : ∀ b, m = .notAccepted b → b ≤ W

variable {W : Ballot} {s t u : SP E S}

theorem Adds.refl (s : SP E S) : Adds s s := ⟨[], by simp, nofun⟩

theorem Adds.trans (h : Adds s t) (h' : Adds t u) : Adds s u := by
  obtain ⟨x, e1, h1⟩ := h
  obtain ⟨y, e2, h2⟩ := h'
  exact ⟨x ++ y, by rw [e2, e1, List.append_assoc], fun z hz => (List.mem_append.1 hz).elim (h1 z) (h2 z)⟩

theorem Adds.one (d : NodeId) {msg : PaxosMsg E S} (h : msg.isReq = false) : Adds s { s with outgoing := s.outgoing ++ [{ src := s.pid, dst := d, msg }] } :=
  ⟨_, rfl, fun x hx => by simp only [List.mem_cons, List.not_mem_nil, or_false] at hx; subst hx; exact h⟩

theorem cmp_of_gt {a b : Ballot} (h : b < a) : a.cmp b = .gt := by
  rcases Ballot.cmp_cases a b with ⟨_, h1⟩ | ⟨_, h1, _⟩ | ⟨h1, _⟩
  · exact absurd (Ballot.lt_of_lt_of_le h (Ballot.le_of_lt h1)) (Ballot.lt_irrefl b)
  · exact absurd (Ballot.lt_of_lt_of_le h h1) (Ballot.lt_irrefl b)
  · exact h1

namespace SP

abbrev KeepsFirm {α : Type} (W : Ballot) (m : M (SP E S) α) (s : SP E S) : Prop := M.Sat m s (fun _ t => Firm W t ∧ Adds s t) (fun _ => True)

theorem check_less {b : Ballot} (hp : s.ist.cache.promise = W) (hb : b < W) {Q : Bool → SP E S → Prop} {P : SP E S → Prop}
    (h : Q false { s with outgoing := s.outgoing ++ [{ src := s.pid, dst := b.pid, msg := .notAccepted W }] }) : M.Sat (check_valid_ballot b) s Q P := by
  simp only [check_valid_ballot, M.sat_bind, M.sat_get]
  have : s.get_promise.cmp b = .gt := cmp_of_gt (by unfold get_promise; rw [hp]; exact hb)
  simp only [this, M.sat_bind, sat_send, M.sat_pure]
  unfold get_promise
  rw [hp]
  exact h

theorem firm_guard (h : Firm W s) {b : Ballot} (hb : b < W) {q : SeqNum} {any : Bool} {f : Bool → M (SP E S) Unit} (hf : ∀ t : SP E S, f false = pure ()) :
    KeepsFirm W (accept_guard b q any >>= f) s := by
  unfold KeepsFirm accept_guard
  simp only [M.sat_bind]
  refine check_less h.promise hb ?_
  simp only [M.sat_get, M.sat_ite]
  refine ⟨fun e => absurd e.1 (by simp), fun _ => ?_⟩
  rw [M.sat_pure, hf s, M.sat_pure]
  exact ⟨⟨h.promise, by first | exact h.role | rfl, by first | exact h.phase | rfl, by first | exact h.cached | rfl⟩, .one _ rfl⟩

theorem firm_handle [SnapOps E S] (h : Firm W s) {m : PaxosMessage E S} (hm : Mild W m.msg) : KeepsFirm W (handle m) s := by
  have triv : Firm W s ∧ Adds s s := ⟨h, .refl s⟩
  have hrole : s.role ≠ .leader := by rw [h.role]; exact nofun
  unfold handle
  cases e : m.msg with
  | prepareReq n =>
    simp only [KeepsFirm, handle_preparereq, M.sat_bind, M.sat_get, M.sat_ite, M.sat_pure]
    exact ⟨fun hc => absurd hc.1 hrole, fun _ => triv⟩
  | prepare p =>
    simp only [KeepsFirm, handle_prepare, M.sat_bind, M.sat_get, M.sat_ite, M.sat_pure]
    refine ⟨fun hc => ?_, fun _ => triv⟩
    exfalso
    rcases hc with hc | hc
    · have := hm.prep p e
      have hc : s.ist.cache.promise < p.n := hc
      rw [h.promise] at hc
      exact absurd (Ballot.lt_of_lt_of_le hc this) (Ballot.lt_irrefl W)
    · rw [h.phase] at hc
      cases hc.2
  | promise p =>
    simp only [KeepsFirm, handle_promise, M.sat_bind, M.sat_get, h.role]
    exact triv
  | acceptSync a =>
    simp only [KeepsFirm, handle_acceptsync, M.sat_bind]
    refine check_less h.promise (hm.acc a.n a.seq_num (by rw [e]; rfl)) ?_
    simp only [M.sat_get, M.sat_ite]
    refine ⟨fun e => absurd e.1 (by simp), fun _ => ?_⟩
    rw [M.sat_pure]
    exact ⟨⟨h.promise, by first | exact h.role | rfl, by first | exact h.phase | rfl, by first | exact h.cached | rfl⟩, .one _ rfl⟩
  | acceptDecide a => exact firm_guard h (hm.acc a.n a.seq_num (by rw [e]; rfl)) fun _ => rfl
  | notAccepted b =>
    simp only [KeepsFirm, handle_notaccepted, M.sat_bind, M.sat_get, M.sat_ite, M.sat_pure]
    exact ⟨fun hc => absurd hc.1 hrole, fun _ => triv⟩
  | accepted a =>
    simp only [KeepsFirm, handle_accepted, M.sat_bind, M.sat_get, M.sat_ite, M.sat_pure]
    exact ⟨fun hc => absurd hc.2.1 hrole, fun _ => triv⟩
  | decide d => exact firm_guard h (hm.acc d.n d.seq_num (by rw [e]; rfl)) fun _ => rfl
  | proposalForward es =>
    simp only [KeepsFirm, handle_forwarded_proposal, forward_proposals, M.sat_bind, M.sat_get, M.sat_ite, M.sat_pure, h.role, M.sat_upd, sat_send]
    exact ⟨fun _ => triv, fun _ => ⟨fun _ => ⟨⟨h.promise, by first | exact h.role | rfl, by first | exact h.phase | rfl, by first | exact h.cached | rfl⟩, .one _ rfl⟩, fun _ => ⟨⟨h.promise, by first | exact h.role | rfl, by first | exact h.phase | rfl, by first | exact h.cached | rfl⟩, .refl _⟩⟩⟩
  | compaction c =>
    cases c with
    | trim k =>
      simp only [KeepsFirm, handle_compaction, M.sat_bind, sat_onStore, M.sat_pure]
      exact M.sat_mono (IStore.pd_try_trim k) (fun _ j hj => ⟨⟨hj.1.trans h.promise, h.role, h.phase, h.cached⟩, .refl _⟩) fun _ _ => trivial
    | snapshot k =>
      simp only [KeepsFirm, handle_compaction, snapshot, M.sat_bind, M.sat_get, sat_onStore, M.sat_pure]
      refine M.sat_mono (IStore.pd_try_snapshot k) (fun r j hj => ?_) fun _ _ => trivial
      cases r with
      | error e => exact ⟨⟨hj.1.trans h.promise, h.role, h.phase, h.cached⟩, .refl _⟩
      | ok _ =>
        simp only [M.sat_bind, M.sat_whenDo, M.sat_pure]
        exact ⟨fun h => (by cases h), fun _ => ⟨⟨hj.1.trans h.promise, h.role, h.phase, h.cached⟩, .refl _⟩⟩
  | acceptStopSign a => exact firm_guard h (hm.acc a.n a.seq_num (by rw [e]; rfl)) fun _ => rfl
  | forwardStopSign ss =>
    simp only [KeepsFirm, handle_forwarded_stopsign, forward_stopsign, M.sat_bind, M.sat_get, M.sat_ite, M.sat_pure, h.role, M.sat_upd, sat_send]
    exact ⟨fun _ => triv, fun _ => ⟨fun _ => ⟨⟨h.promise, by first | exact h.role | rfl, by first | exact h.phase | rfl, by first | exact h.cached | rfl⟩, .one _ rfl⟩, fun _ => ⟨fun _ => ⟨⟨h.promise, by first | exact h.role | rfl, by first | exact h.phase | rfl, by first | exact h.cached | rfl⟩, .refl _⟩, fun _ => triv⟩⟩⟩

theorem firm_append (h : Firm W s) (e : E) : KeepsFirm W (append e) s := by
  simp only [KeepsFirm, append, propose_entry, forward_proposals, M.sat_bind, M.sat_get, M.sat_ite, M.sat_pure, h.role, M.sat_upd, sat_send]
  exact ⟨fun _ => ⟨h, .refl s⟩, fun _ => ⟨fun _ => ⟨⟨h.promise, by first | exact h.role | rfl, by first | exact h.phase | rfl, by first | exact h.cached | rfl⟩, .one _ rfl⟩, fun _ => ⟨⟨h.promise, by first | exact h.role | rfl, by first | exact h.phase | rfl, by first | exact h.cached | rfl⟩, .refl _⟩⟩⟩

theorem firm_resend (h : Firm W s) : KeepsFirm W resend_message_timeout s := by
  obtain ⟨p, hp⟩ := Option.isSome_iff_exists.1 h.cached
  simp only [KeepsFirm, resend_message_timeout, resend_messages_follower, M.sat_bind, M.sat_get, h.role, h.phase, hp, sat_send]
  exact ⟨⟨h.promise, by first | exact h.role | rfl, by first | exact h.phase | rfl, by first | exact h.cached | rfl⟩, .one _ rfl⟩

theorem firm_flush (h : Firm W s) : KeepsFirm W flush_batch_timeout s := by
  simp only [KeepsFirm, flush_batch_timeout, M.sat_bind, M.sat_get, h.role, h.phase, M.sat_pure]
  exact ⟨h, .refl s⟩

theorem leader_cases (y : Ballot) :
    M.Sat (handle_leader y) s (fun _ t => t = s ∨ t = { s with role := .follower } ∨ s.ist.cache.promise < y ∧ y.pid = s.pid ∧ t.ist.cache.promise = y) (fun _ => True) := by
  simp only [handle_leader, M.sat_bind, M.sat_get, M.sat_ite, M.sat_pure, M.sat_upd]
  refine ⟨fun _ => .inl trivial, fun hc => ⟨fun hp => ?_, fun _ => .inr (.inl trivial)⟩⟩
  rw [sat_onStore]
  refine M.sat_mono IStore.pd_flush (fun _ i hi => ?_) fun _ _ => trivial
  rw [sat_onStore]
  refine M.sat_mono (IStore.pd_set_promise y) (fun _ j hj => ?_) fun _ _ => trivial
  rw [sat_onLS']
  refine ⟨fun r hr => ?_, fun _ => trivial⟩
  rw [sat_setState]
  unfold M.Sat
  rw [forEach_send]
  simp only
  exact .inr (.inr ⟨Ballot.not_le.1 fun e => hc (.inr e), hp.symm, hj.1⟩)

theorem y_tail {r w : Prop} [Decidable r] [Decidable w] (u : SP E S) : Stays (do M.whenDo r resend_message_timeout; M.whenDo w flush_batch_timeout) u :=
  y_bind (by unfold Stays; rw [M.sat_whenDo]; exact ⟨fun _ => y_resend, fun _ => .refl u⟩) fun _ v => by
    unfold Stays; rw [M.sat_whenDo]; exact ⟨fun _ => y_flush, fun _ => .refl v⟩

theorem firm_ticked (h : Firm W s) {x : Option Ballot} {r w : Prop} [Decidable r] [Decidable w] :
    M.Sat (ticked x r w) s (fun _ t => t.ist.cache.promise ≤ W → Firm W t ∧ Adds s t) (fun _ => True) := by
  have tail : ∀ u : SP E S, Firm W u → Adds s u → M.Sat (do M.whenDo r resend_message_timeout; M.whenDo w flush_batch_timeout) u
      (fun _ t => t.ist.cache.promise ≤ W → Firm W t ∧ Adds s t) (fun _ => True) := by
    intro u hu ha
    have fl : ∀ v : SP E S, Firm W v → Adds s v → M.Sat (M.whenDo w flush_batch_timeout) v (fun _ t => t.ist.cache.promise ≤ W → Firm W t ∧ Adds s t) (fun _ => True) := by
      intro v hv hb
      rw [M.sat_whenDo]
      exact ⟨fun _ => M.sat_mono (firm_flush hv) (fun _ _ h _ => ⟨h.1, hb.trans h.2⟩) fun _ h => h, fun _ _ => ⟨hv, hb⟩⟩
    rw [M.sat_bind, M.sat_whenDo]
    exact ⟨fun _ => M.sat_mono (firm_resend hu) (fun _ v h => fl v h.1 (ha.trans h.2)) fun _ h => h, fun _ => fl u hu ha⟩
  unfold ticked
  cases x with
  | none => exact tail s h (.refl s)
  | some y =>
    rw [M.sat_bind]
    refine M.sat_mono (leader_cases y) (fun _ u hu => ?_) fun _ h => h
    rcases hu with rfl | rfl | ⟨h1, _, h2⟩
    · exact tail _ h (.refl _)
    · exact tail _ (Firm.mk (s := { s with role := .follower }) h.promise rfl h.phase h.cached) ⟨[], by simp, nofun⟩
    · refine M.sat_mono (y_tail u) (fun _ v hv hle => ?_) fun _ h => h
      rw [hv.promise, h2] at hle
      rw [h.promise] at h1
      exact absurd (Ballot.lt_of_lt_of_le h1 hle) (Ballot.lt_irrefl W)

/-- Promising `W`. -/
def Enters (W : Ballot) (s t : SP E S) : Prop :=
  Firm W t ∧ ∃ p, t.outgoing = s.outgoing ++ [{ src := s.pid, dst := W.pid, msg := .promise p }] ∧ p.n = W

theorem enter_handle [SnapOps E S] (h : s.ist.cache.promise ≠ W) {m : PaxosMessage E S} (hs : ∀ p, m.msg = .prepare p → p.n.pid = m.src) :
    M.Sat (handle m) s (fun _ t => t.ist.cache.promise = W → Enters W s t ∧ ∃ p, m.msg = .prepare p ∧ p.n = W) (fun _ => True) := by
  by_cases hp : ∃ p, m.msg = .prepare p
  · obtain ⟨p, e⟩ := hp
    have hs := hs p e
    unfold handle
    rw [e]
    simp only [handle_prepare, M.sat_bind, M.sat_get, M.sat_ite, M.sat_pure, M.sat_upd, M.sat_ofPan, sat_send]
    refine ⟨fun hc => ?_, fun _ e => absurd e h⟩
    rw [sat_onStore]
    refine M.sat_mono IStore.pd_flush (fun _ i hi => ?_) fun _ _ => trivial
    rw [sat_onStore]
    refine M.sat_mono (IStore.pd_set_promise p.n) (fun _ j hj => ?_) fun _ _ => trivial
    refine ⟨fun _ _ e => ?_, fun _ => trivial⟩
    have e3 : p.n = W := hj.1.symm.trans e
    refine ⟨⟨⟨e, rfl, rfl, rfl⟩, ?_⟩, p, rfl, e3⟩
    rw [← hs, e3]
    exact ⟨_, rfl, rfl⟩
  · exact M.sat_mono (y_handle fun p e => hp ⟨p, e⟩) (fun _ t ht e => absurd (ht.promise.symm.trans e) h) fun _ h => h

theorem enter_ticked (h : s.ist.cache.promise ≠ W) (hpid : s.pid ≠ W.pid) {x : Option Ballot} {r w : Prop} [Decidable r] [Decidable w] :
    M.Sat (ticked x r w) s (fun _ t => t.ist.cache.promise ≠ W) (fun _ => True) := by
  unfold ticked
  cases x with
  | none => exact M.sat_mono (y_tail s) (fun _ v hv => by rw [hv.promise]; exact h) fun _ h => h
  | some y =>
    rw [M.sat_bind]
    refine M.sat_mono (leader_cases y) (fun _ u hu => M.sat_mono (y_tail u) (fun _ v hv => ?_) fun _ h => h) fun _ h => h
    rw [hv.promise]
    rcases hu with rfl | rfl | ⟨_, h1, h2⟩
    · exact h
    · exact h
    · intro e
      rw [h2] at e
      subst e
      exact hpid h1.symm

end SP
end Omni
