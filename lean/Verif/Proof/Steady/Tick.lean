import Verif.Proof.Steady.Step
/-
Steady operation: ticks.
-/
namespace Omni

variable {E S : Type} {n : Ballot} {k : Nat} {cc : ClusterConfig}

/-- What a tick does to Sequence Paxos: `b` is the ballot elected, `r` and `w` say whether the other two timeouts fire. -/
def SP.ticked (b : Option Ballot) (r w : Prop) [Decidable r] [Decidable w] : M (SP E S) Unit := do
  match b with
  | some b => SP.handle_leader b
  | none => pure ()
  M.whenDo r SP.resend_message_timeout
  M.whenDo w SP.flush_batch_timeout

/-- omni_paxos.rs 376-386. -/
theorem OP.tick_sp {op : OP E S} {Q : SP E S → Prop} {P : SP E S → Prop}
    (h : ∀ b r w, ∀ [Decidable r] [Decidable w], (w ↔ op.flush_batch_clock.tick_and_check_timeout.1 = true) →
      M.Sat (SP.ticked b r w) op.sp (fun _ => Q) P) :
    M.Sat OP.tick op (fun _ o => Q o.sp) (fun o => P o.sp) := by
  simp only [OP.tick, M.sat_bind, M.sat_get, M.sat_upd, M.sat_whenDo, OP.sat_onSP, OP.election_timeout]
  by_cases he : op.election_clock.tick_and_check_timeout.1 = true
  · refine ⟨fun _ => ?_, fun hc => absurd he hc⟩
    cases hb : (op.ble.hb_timeout op.sp.role op.sp.phase op.sp.get_promise).1 with
    | none =>
      have := h none (op.resend_message_clock.tick_and_check_timeout.1 = true) (op.flush_batch_clock.tick_and_check_timeout.1 = true) Iff.rfl
      simp only [SP.ticked, M.sat_bind, M.sat_pure, M.sat_whenDo] at this ⊢
      exact this
    | some b =>
      have := h (some b) (op.resend_message_clock.tick_and_check_timeout.1 = true) (op.flush_batch_clock.tick_and_check_timeout.1 = true) Iff.rfl
      simp only [SP.ticked, M.sat_bind, M.sat_pure, M.sat_whenDo, OP.sat_onSP] at this ⊢
      exact this
  · refine ⟨fun hc => absurd hc he, fun _ => ?_⟩
    have := h none (op.resend_message_clock.tick_and_check_timeout.1 = true) (op.flush_batch_clock.tick_and_check_timeout.1 = true) Iff.rfl
    simp only [SP.ticked, M.sat_bind, M.sat_pure, M.sat_whenDo] at this ⊢
    exact this

/-- The flush clock advances. -/
theorem OP.tick_clock {op : OP E S} : M.Sat OP.tick op (fun _ o => o.flush_batch_clock = op.flush_batch_clock.tick_and_check_timeout.2) (fun _ => True) := by
  have keep : ∀ (v : LogicalClock) {α : Type} (m : M (SP E S) α) (o : OP E S), o.flush_batch_clock = v →
      M.Sat (OP.onSP m) o (fun _ o => o.flush_batch_clock = v) (fun _ => True) := fun v _ m o ho => by
    rw [OP.sat_onSP]
    exact M.sat_mono (M.sat_true m o.sp) (fun _ _ _ => ho) fun _ h => h
  have el : ∀ o : OP E S, o.flush_batch_clock = op.flush_batch_clock →
      M.Sat OP.election_timeout o (fun _ o => o.flush_batch_clock = op.flush_batch_clock) (fun _ => True) := fun o ho => by
    simp only [OP.election_timeout, M.sat_bind, M.sat_get, M.sat_upd]
    split
    · exact keep _ _ _ ho
    · exact ho
  have wh : ∀ (p : Prop) [Decidable p] (v : LogicalClock) (m : M (OP E S) Unit) (o : OP E S), o.flush_batch_clock = v →
      M.Sat m o (fun _ o => o.flush_batch_clock = v) (fun _ => True) → M.Sat (M.whenDo p m) o (fun _ o => o.flush_batch_clock = v) (fun _ => True) :=
    fun p _ v m o ho h => by rw [M.sat_whenDo]; exact ⟨fun _ => h, fun _ => ho⟩
  simp only [OP.tick, M.sat_bind, M.sat_get, M.sat_upd]
  refine M.sat_mono (wh _ op.flush_batch_clock _ _ rfl (el _ rfl)) (fun _ o ho => ?_) fun _ h => h
  refine M.sat_mono (wh _ op.flush_batch_clock _ _ ho (keep _ _ _ ho)) (fun _ o ho => ?_) fun _ h => h
  exact wh _ _ _ _ (by simp only [ho]) (keep _ _ _ (by simp only [ho]))

/-- A server that has just become candidate of `b`. -/
def Candidate (b : Ballot) (s : SP E S) : Prop := s.role = .leader ∧ s.phase = .prepare ∧ s.ist.storage.n_prom = some b

theorem Candidate.later {b : Ballot} {s : SP E S} (h : Candidate b s) (r w : Prop) [Decidable r] [Decidable w] :
    M.Sat (do M.whenDo r SP.resend_message_timeout; M.whenDo w SP.flush_batch_timeout) s
      (fun _ s' => s'.ist.storage.n_prom = some b) (fun s' => s'.ist.storage.n_prom = some b) := by
  have h1 : M.Sat (M.whenDo r SP.resend_message_timeout) s (fun _ => Candidate b) (Candidate b) := by
    simp only [M.sat_whenDo, SP.resend_message_timeout, M.sat_bind, M.sat_get, h.1, SP.resend_messages_leader, h.2.1, SP.resend_prepare, M.sat_ofPan]
    refine ⟨fun _ => ⟨fun ps _ => ?_, fun _ => h⟩, fun _ => h⟩
    refine M.sat_forEach (Candidate b) h fun p _ t ht => ?_
    simp only [SP.send_prepare, M.sat_bind, M.sat_get, SP.sat_send]
    exact ht
  rw [M.sat_bind]
  refine M.sat_mono h1 (fun _ t ht => ?_) fun t ht => ht.2.2
  simp only [M.sat_whenDo, SP.flush_batch_timeout, M.sat_bind, M.sat_get, ht.1, ht.2.1, M.sat_pure]
  exact ⟨fun _ => ht.2.2, fun _ => ht.2.2⟩

/-- A ballot of its own makes a server a candidate. -/
theorem candidate {b : Ballot} {s : SP E S} (h1 : ¬ (b ≤ s.ls.n_leader ∨ b ≤ s.get_promise)) (h2 : s.pid = b.pid) :
    M.Sat (SP.handle_leader b) s (fun _ => Candidate b) (fun s' => s'.ist.storage.n_prom = some b) := by
  simp only [SP.handle_leader, M.sat_bind, M.sat_get, if_neg h1, if_pos h2, M.sat_upd, SP.sat_onStore, IStore.sat_flush_batch,
    IStore.sat_set_promise, SP.sat_onLS', SP.sat_setState]
  refine ⟨fun r _ => ?_, fun _ => rfl⟩
  refine M.sat_forEach (Candidate b) ⟨rfl, rfl, rfl⟩ fun p _ t ht => ?_
  rw [SP.sat_send]
  exact ht

variable {lg : List E} {ci : Nat} {X B : List E} {d : Nat} {s : SP E S}

/-- A leader that has stepped down stays a follower. -/
theorem stepped_down (h1 : s.role = .follower) (h2 : s.phase = .accept) (h3 : s.latest_accepted_meta = none) (r w : Prop)
    [Decidable r] [Decidable w] : M.Sat (do M.whenDo r SP.resend_message_timeout; M.whenDo w SP.flush_batch_timeout) s
      (fun _ s' => s'.role = .follower) (fun _ => False) := by
  have hr : M.Sat (M.whenDo r SP.resend_message_timeout) s (fun _ s' => s' = s) (fun _ => False) := by
    simp only [M.sat_whenDo, SP.resend_message_timeout, M.sat_bind, M.sat_get, h1, SP.resend_messages_follower, h2, M.sat_pure]
    exact ⟨fun _ => trivial, fun _ => trivial⟩
  rw [M.sat_bind]
  refine M.sat_mono hr (fun _ t ht => ?_) fun _ h => h
  subst ht
  simp only [M.sat_whenDo, SP.flush_batch_timeout, M.sat_bind, M.sat_get, h1, h2, SP.flush_batch_follower, SP.sat_onStore,
    IStore.sat_flush_batch, M.sat_ite, SP.reply_accepted, M.sat_ofPan, SP.get_latest_accepted, h3, M.sat_pure]
  refine ⟨fun _ => ⟨fun _ => ⟨fun x hx => ?_, fun h => by cases h⟩, fun _ => trivial⟩, fun _ => trivial⟩
  cases hx
  simp only [M.sat_bind, M.sat_upd, SP.sat_send]

/-- The other two timeouts at the leader. -/
theorem Lead.calm (h : Lead cc n k lg ci X B d s) (hK : ∀ f ∈ cc.nodes, f ≠ n.pid → ∃ q a ms, Keeps n f q a ms s)
    (r w : Prop) [Decidable r] [Decidable w] :
    M.Sat (do M.whenDo r SP.resend_message_timeout; M.whenDo w SP.flush_batch_timeout) s
      (fun _ s' => (w ∧ Lead.Put True cc n k lg ci X B d [] s s') ∨ (¬ w ∧ s' = s)) (fun _ => False) := by
  rw [M.sat_bind]
  have h1 : M.Sat (M.whenDo r SP.resend_message_timeout) s (fun _ s' => s' = s) (fun _ => False) := by
    rw [M.sat_whenDo]
    exact ⟨fun _ => h.resend, fun _ => rfl⟩
  refine M.sat_mono h1 (fun _ t ht => ?_) fun _ h => h.elim
  subst ht
  rw [M.sat_whenDo]
  exact ⟨fun hw => M.sat_mono (h.flush hK) (fun _ t ht => .inl ⟨hw, ht⟩) fun _ h => h.elim, fun hw => .inr ⟨hw, rfl⟩⟩

/-- A tick at the leader that elects nobody else. -/
theorem Lead.ticked_calm (h : Lead cc n k lg ci X B d s) (hK : ∀ f ∈ cc.nodes, f ≠ n.pid → ∃ q a ms, Keeps n f q a ms s) {b : Option Ballot}
    (hb : ∀ x, b = some x → x = n) (r w : Prop) [Decidable r] [Decidable w] :
    M.Sat (SP.ticked b r w) s (fun _ s' => (w ∧ Lead.Put True cc n k lg ci X B d [] s s') ∨ (¬ w ∧ s' = s)) (fun _ => False) := by
  cases b with
  | none => simpa only [SP.ticked, M.sat_bind, M.sat_pure] using h.calm hK r w
  | some b =>
    have h1 : b ≤ s.ls.n_leader ∨ b ≤ s.get_promise := .inl (by rw [h.ballot, hb b rfl]; exact Ballot.le_refl n)
    have : M.Sat (SP.handle_leader b) s (fun _ s' => s' = s) (fun _ => False) := by
      simp only [SP.handle_leader, M.sat_bind, M.sat_get, if_pos h1, M.sat_pure]
    simp only [SP.ticked]
    rw [M.sat_bind]
    refine M.sat_mono this (fun _ t ht => ?_) fun _ h => h
    subst ht
    exact h.calm hK r w

/-- A tick at the leader. -/
theorem Lead.ticked (h : Lead cc n k lg ci X B d s) (hK : ∀ f ∈ cc.nodes, f ≠ n.pid → ∃ q a ms, Keeps n f q a ms s) (b : Option Ballot)
    (r w : Prop) [Decidable r] [Decidable w] :
    M.Sat (SP.ticked b r w) s (fun _ s' => s'.ist.storage.n_prom = some n → s'.role = .leader →
        (w ∧ Lead.Put True cc n k lg ci X B d [] s s') ∨ (¬ w ∧ s' = s))
      (fun s' => s'.ist.storage.n_prom ≠ some n) := by
  have calm : M.Sat (do M.whenDo r SP.resend_message_timeout; M.whenDo w SP.flush_batch_timeout) s
      (fun _ s' => s'.ist.storage.n_prom = some n → s'.role = .leader → (w ∧ Lead.Put True cc n k lg ci X B d [] s s') ∨ (¬ w ∧ s' = s))
      (fun s' => s'.ist.storage.n_prom ≠ some n) := M.sat_mono (h.calm hK r w) (fun _ _ hs _ _ => hs) fun _ h => h.elim
  cases b with
  | none => simpa only [SP.ticked, M.sat_bind, M.sat_pure] using calm
  | some b =>
    simp only [SP.ticked]
    by_cases h1 : b ≤ s.ls.n_leader ∨ b ≤ s.get_promise
    · have : M.Sat (SP.handle_leader b) s (fun _ s' => s' = s) (fun _ => False) := by
        simp only [SP.handle_leader, M.sat_bind, M.sat_get, if_pos h1, M.sat_pure]
      rw [M.sat_bind]
      refine M.sat_mono this (fun _ t ht => ?_) fun _ h => h.elim
      subst ht
      exact calm
    · have hbn : b ≠ n := by
        rintro rfl
        exact h1 (.inl (by rw [h.ballot]; exact Ballot.le_refl b))
      by_cases h2 : s.pid = b.pid
      · rw [M.sat_bind]
        refine M.sat_mono (candidate h1 h2) (fun _ t ht => ?_) fun t ht => by rw [ht]; simpa using hbn
        refine M.sat_mono (ht.later r w) (fun _ u hu hc => ?_) fun t ht => by rw [ht]; simpa using hbn
        rw [hu] at hc
        exact absurd (Option.some.inj hc) hbn
      · -- the leader steps down
        have h3 : M.Sat (SP.handle_leader b) s (fun _ s' => s' = { s with role := .follower }) (fun _ => False) := by
          simp only [SP.handle_leader, M.sat_bind, M.sat_get, if_neg h1, if_neg h2, M.sat_upd]
        rw [M.sat_bind]
        refine M.sat_mono h3 (fun _ t ht => ?_) fun _ h => h.elim
        refine M.sat_mono (stepped_down (s := t) (by rw [ht]) (by rw [ht]; exact h.phase) (by rw [ht]; exact h.lam) r w)
          (fun _ u hu _ hc => ?_) fun _ h => h.elim
        rw [hu] at hc
        cases hc

variable {f : NodeId} {σ : Fed E} {a : Nat} {out : List (PaxosMsg E S)}

/-- The other two timeouts at a follower. -/
theorem Fol.calm (h : Fol n k lg ci f X B σ a out s) (r w : Prop) [Decidable r] [Decidable w] :
    M.Sat (do M.whenDo r SP.resend_message_timeout; M.whenDo w SP.flush_batch_timeout) s (fun _ s' =>
        (w ∧ Fol.After n k lg ci f σ a out s' ∧ s'.ist.cache.batched_entries = [] ∧ (B = [] → s'.outgoing = s.outgoing)) ∨ (¬ w ∧ s' = s))
      (fun _ => False) := by
  rw [M.sat_bind]
  have h1 : M.Sat (M.whenDo r SP.resend_message_timeout) s (fun _ s' => s' = s) (fun _ => False) := by
    rw [M.sat_whenDo]
    exact ⟨fun _ => h.resend, fun _ => rfl⟩
  refine M.sat_mono h1 (fun _ t ht => ?_) fun _ h => h.elim
  subst ht
  rw [M.sat_whenDo]
  exact ⟨fun hw => M.sat_mono h.flush (fun _ t ht => .inl ⟨hw, ht⟩) fun _ h => h.elim, fun hw => .inr ⟨hw, rfl⟩⟩

/-- A tick at a follower that elects nobody else. -/
theorem Fol.ticked_calm (h : Fol n k lg ci f X B σ a out s) {b : Option Ballot} (hb : ∀ x, b = some x → x = n) (r w : Prop)
    [Decidable r] [Decidable w] : M.Sat (SP.ticked b r w) s (fun _ s' =>
        (w ∧ Fol.After n k lg ci f σ a out s' ∧ s'.ist.cache.batched_entries = [] ∧ (B = [] → s'.outgoing = s.outgoing)) ∨ (¬ w ∧ s' = s))
      (fun _ => False) := by
  cases b with
  | none => simpa only [SP.ticked, M.sat_bind, M.sat_pure] using h.calm r w
  | some b =>
    have h1 : b ≤ s.ls.n_leader ∨ b ≤ s.get_promise := .inr (by rw [SP.get_promise, h.ist.prom, hb b rfl]; exact Ballot.le_refl n)
    have : M.Sat (SP.handle_leader b) s (fun _ s' => s' = s) (fun _ => False) := by
      simp only [SP.handle_leader, M.sat_bind, M.sat_get, if_pos h1, M.sat_pure]
    simp only [SP.ticked]
    rw [M.sat_bind]
    refine M.sat_mono this (fun _ t ht => ?_) fun _ h => h
    subst ht
    exact h.calm r w

/-- A tick at a follower. -/
theorem Fol.ticked (h : Fol n k lg ci f X B σ a out s) (b : Option Ballot) (r w : Prop) [Decidable r] [Decidable w] :
    M.Sat (SP.ticked b r w) s (fun _ s' => s'.ist.storage.n_prom = some n →
        (w ∧ Fol.After n k lg ci f σ a out s' ∧ s'.ist.cache.batched_entries = [] ∧ (B = [] → s'.outgoing = s.outgoing)) ∨ (¬ w ∧ s' = s))
      (fun s' => s'.ist.storage.n_prom ≠ some n) := by
  have calm : M.Sat (do M.whenDo r SP.resend_message_timeout; M.whenDo w SP.flush_batch_timeout) s
      (fun _ s' => s'.ist.storage.n_prom = some n →
        (w ∧ Fol.After n k lg ci f σ a out s' ∧ s'.ist.cache.batched_entries = [] ∧ (B = [] → s'.outgoing = s.outgoing)) ∨ (¬ w ∧ s' = s)) (fun s' => s'.ist.storage.n_prom ≠ some n) :=
    M.sat_mono (h.calm r w) (fun _ _ hs _ => hs) fun _ h => h.elim
  cases b with
  | none => simpa only [SP.ticked, M.sat_bind, M.sat_pure] using calm
  | some b =>
    simp only [SP.ticked]
    by_cases h1 : b ≤ s.ls.n_leader ∨ b ≤ s.get_promise
    · have : M.Sat (SP.handle_leader b) s (fun _ s' => s' = s) (fun _ => False) := by
        simp only [SP.handle_leader, M.sat_bind, M.sat_get, if_pos h1, M.sat_pure]
      rw [M.sat_bind]
      refine M.sat_mono this (fun _ t ht => ?_) fun _ h => h.elim
      subst ht
      exact calm
    · have hbn : b ≠ n := by
        rintro rfl
        exact h1 (.inr (by rw [SP.get_promise, h.ist.prom]; exact Ballot.le_refl b))
      by_cases h2 : s.pid = b.pid
      · rw [M.sat_bind]
        refine M.sat_mono (candidate h1 h2) (fun _ t ht => ?_) fun t ht => by rw [ht]; simpa using hbn
        refine M.sat_mono (ht.later r w) (fun _ u hu hc => ?_) fun t ht => by rw [ht]; simpa using hbn
        rw [hu] at hc
        exact absurd (Option.some.inj hc) hbn
      · have : M.Sat (SP.handle_leader b) s (fun _ s' => s' = s) (fun _ => False) := by
          simp only [SP.handle_leader, M.sat_bind, M.sat_get, if_neg h1, if_neg h2, M.sat_upd]
          rw [← h.role]
        rw [M.sat_bind]
        refine M.sat_mono this (fun _ t ht => ?_) fun _ h => h.elim
        subst ht
        exact calm

end Omni
