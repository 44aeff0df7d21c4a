import Verif.Spec.Basic
import Verif.Proof.Sat
/-
Clocks: state after k ticks, and which calls touch them. Configuration validation.
-/
namespace Omni

variable {E S : Type}

theorem LogicalClock.fires_state (t k : Nat) (ht : 0 < t) :
    ((LogicalClock.with t).fires k).2 = { time := k % t, timeout := t } := by
  induction k with
  | zero => simp [fires, LogicalClock.with]
  | succ k ih =>
    simp only [fires, ih, tick_and_check_timeout]
    have hk := Nat.mod_lt k ht
    split
    · rename_i h
      simp only [LogicalClock.mk.injEq, and_true]
      rw [Nat.add_mod]
      rcases Nat.lt_or_ge 1 t with h1 | h1
      · rw [Nat.mod_eq_of_lt h1, h, Nat.mod_self]
      · have : t = 1 := by omega
        subst this; simp [Nat.mod_one]
    · rename_i h
      simp only [LogicalClock.mk.injEq, and_true]
      rw [Nat.add_mod]
      rcases Nat.lt_or_ge 1 t with h1 | h1
      · rw [Nat.mod_eq_of_lt h1, Nat.mod_eq_of_lt (by omega : k % t + 1 < t)]
      · have : t = 1 := by omega
        subst this; simp [Nat.mod_one] at h

/-- The clock part of one call. -/
theorem Call.run_clocks [SnapOps E S] (c : Call E S) (op : OP E S) :
    M.Sat c.run op (fun _ op' =>
      (c = .tick → op'.election_clock = op.election_clock.tick_and_check_timeout.2 ∧
        op'.resend_message_clock = op.resend_message_clock.tick_and_check_timeout.2 ∧
        op'.flush_batch_clock = op.flush_batch_clock.tick_and_check_timeout.2 ∧
        op'.ble.hb_round = op.ble.hb_round + (if op.election_clock.tick_and_check_timeout.1 then 1 else 0)) ∧
      (c ≠ .tick → op'.election_clock = op.election_clock ∧ op'.resend_message_clock = op.resend_message_clock ∧
        op'.flush_batch_clock = op.flush_batch_clock ∧ op'.ble.hb_round = op.ble.hb_round)) (fun _ => True) := by
  have key : ∀ {α : Type} (m : M (SP E S) α) (s : SP E S) (Q : α → SP E S → Prop),
      (∀ a p, Q a p) → M.Sat m s Q (fun _ => True) := fun m s Q h =>
    M.sat_mono (M.sat_true m s) (fun a p _ => h a p) (fun _ _ => trivial)
  have hround : ∀ (b : BLE) r p n, (b.hb_timeout r p n).2.hb_round = b.hb_round + 1 := by
    intro b r p n
    simp only [BLE.hb_timeout]
    have h1 : b.update_leader.hb_round = b.hb_round := by
      unfold BLE.update_leader; split <;> (try split) <;> rfl
    have h2 : ∀ b : BLE, b.check_takeover.hb_round = b.hb_round := by
      intro b; unfold BLE.check_takeover; split <;> (try split) <;> rfl
    have h3 : ∀ b : BLE, (b.sync_with_promise n).hb_round = b.hb_round := by
      intro b; unfold BLE.sync_with_promise; split <;> rfl
    rw [h3]; simp only [BLE.new_hb_round]; rw [h2]; simp only [BLE.update_happiness]; rw [h1]
  cases c <;>
    simp only [Call.run, OP.append, OP.reconfigure, OP.try_become_leader, OP.set_priority, OP.reconnected, OP.trim,
      OP.snapshot, OP.handle_incoming, M.sat_bind, OP.sat_onSP, M.sat_pure, M.sat_get, M.sat_upd, reduceCtorEq,
      not_false_eq_true, forall_const, ne_eq, true_and, false_implies]
  case tick =>
    simp only [OP.tick, M.sat_bind, M.sat_get, M.sat_upd, not_true_eq_false, false_implies, and_true,
      M.sat_whenDo, M.sat_pure, OP.sat_onSP]
    constructor
    · intro he
      simp only [OP.election_timeout, M.sat_bind, M.sat_get, M.sat_upd]
      split
      · simp only [OP.sat_onSP]
        apply key; intro _ _
        constructor
        · intro hr; apply key; intro _ _
          constructor
          · intro hf; apply key; intro _ _; simp [he, hround]
          · intro hf; simp [he, hround]
        · intro hr
          constructor
          · intro hf; apply key; intro _ _; simp [he, hround]
          · intro hf; simp [he, hround]
      · simp only [M.sat_pure]
        constructor
        · intro hr; apply key; intro _ _
          constructor
          · intro hf; apply key; intro _ _; simp [he, hround]
          · intro hf; simp [he, hround]
        · intro hr
          constructor
          · intro hf; apply key; intro _ _; simp [he, hround]
          · intro hf; simp [he, hround]
    · intro he
      constructor
      · intro hr; apply key; intro _ _
        constructor
        · intro hf; apply key; intro _ _; simp [he]
        · intro hf; simp [he]
      · intro hr
        constructor
        · intro hf; apply key; intro _ _; simp [he]
        · intro hf; simp [he]
  case reconfigure =>
    split
    · simp
    · simp only [OP.sat_onSP]; apply key; simp
  case handleIncoming m =>
    cases m
    · simp only [OP.sat_onSP]; apply key; simp
    · rename_i m
      simp only [M.sat_upd, true_and]
      unfold BLE.handle BLE.handle_request BLE.handle_reply
      split <;> (try split) <;> rfl
  all_goals first
    | (apply key; simp)
    | simp [BLE.set_priority]

theorem ServerConfig.validate_ok (c : ServerConfig) : c.validate = .ok () ↔
    c.pid ≠ 0 ∧ c.buffer_size ≠ 0 ∧ c.batch_size ≠ 0 ∧ c.election_tick_timeout ≠ 0 ∧
      c.resend_message_tick_timeout ≠ 0 := by
  unfold ServerConfig.validate
  repeat' split
  all_goals simp_all

theorem OmniPaxosConfig.validate_ok {c : OmniPaxosConfig} (h : c.validate = .ok ()) :
    c.cluster_config.validate = .ok () ∧ c.server_config.validate = .ok () ∧
      c.server_config.pid ∈ c.cluster_config.nodes := by
  unfold OmniPaxosConfig.validate at h
  split at h
  · simp at h
  · split at h
    · simp at h
    · split at h
      · simp at h
      · simp_all

theorem OP.build_ok {cfg : OmniPaxosConfig} {d : Mem E S} {op : OP E S} (hb : OP.build cfg d = some (.ok op)) :
    cfg.validate = .ok () := by
  unfold OP.build at hb
  split at hb
  · simp at hb
  · assumption

theorem OP.build_valid {cfg : OmniPaxosConfig} {d : Mem E S} {op : OP E S} (hb : OP.build cfg d = some (.ok op)) :
    cfg.server_config.validate = .ok () := (OmniPaxosConfig.validate_ok (OP.build_ok hb)).2.1

end Omni
