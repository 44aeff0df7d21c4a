import Verif.Spec.Sample
import Verif.Proof.Ballot
import Verif.Proof.Clock
import Mathlib.Data.List.Dedup
import Mathlib.Data.List.Perm.Subperm
/-
C21 (timeouts), C22 (quorum intersection), C23 (ballot order).
-/
namespace Omni

/-! ## C23 -/

/-- C23: among ballots of one configuration the comparison is a strict total order, lexicographic in
`(n, priority, pid)`. -/
theorem C23_ballot_total_order (a b c : Ballot) (hab : a.config_id = b.config_id) :
    ¬ a < a ∧ (a < b → b < c → a < c) ∧ (a < b → ¬ b < a) ∧ (a < b ∨ a = b ∨ b < a) ∧
    (a ≤ b ↔ a < b ∨ a = b) ∧
    (a < b ↔ a.n < b.n ∨ (a.n = b.n ∧ (a.priority < b.priority ∨ (a.priority = b.priority ∧ a.pid < b.pid)))) ∧
    (a.cmp b = .eq ↔ a = b) := by
  refine ⟨Ballot.lt_irrefl a, Ballot.lt_trans, ?_, ?_, ?_, Ballot.lt_iff a b, ?_⟩
  · simp only [Ballot.lt_iff]; omega
  all_goals
    obtain ⟨c, n, p, i⟩ := a
    obtain ⟨c', n', p', i'⟩ := b
    simp only [Ballot.le_iff, Ballot.lt_iff, Ballot.cmp_eq_iff, Ballot.mk.injEq] at *
    omega

/-- Two distinct ballots of one configuration, as in a tie broken by the pid. -/
example : ({ config_id := 1, n := 3, pid := 1 } : Ballot).config_id = ({ config_id := 1, n := 3, pid := 2 } : Ballot).config_id
    ∧ ({ config_id := 1, n := 3, pid := 1 } : Ballot) < { config_id := 1, n := 3, pid := 2 } := by decide

/-- Without the hypothesis the claim fails: ballots of different configurations can be neither equal nor ordered
(`Ord` ignores `config_id`, `Eq` does not). -/
theorem C23_false_across_configurations :
    ∃ a b : Ballot, ¬ a < b ∧ ¬ b < a ∧ a ≠ b :=
  ⟨{ config_id := 1, n := 1, pid := 1 }, { config_id := 2, n := 1, pid := 1 }, by decide⟩

/-! ## C22 -/

/-- C22: in a validated configuration every set of servers `P` that is a prepare quorum for some member `i` intersects every
set of servers `Q` that is an accept quorum for some member `j`. (Each server counts a set of distinct servers against a
quorum size computed from its own peer list, mod.rs 56-57.) -/
theorem C22_quorum_intersection (cc : ClusterConfig) (hv : cc.validate = .ok ()) (i j : NodeId)
    (P Q : List NodeId) (hPn : P.Nodup) (hQn : Q.Nodup) (hP : ∀ x ∈ P, x ∈ cc.nodes) (hQ : ∀ x ∈ Q, x ∈ cc.nodes)
    (hpq : (Quorum.with cc.flexible_quorum ((SP.peersOf cc.nodes i).length + 1)).is_prepare_quorum P.length = true)
    (haq : (Quorum.with cc.flexible_quorum ((SP.peersOf cc.nodes j).length + 1)).is_accept_quorum Q.length = true) :
    ∃ x, x ∈ P ∧ x ∈ Q := by
  apply Classical.byContradiction
  intro hno
  have hdisj : (P ++ Q).Nodup := by
    rw [List.nodup_append]
    exact ⟨hPn, hQn, fun a ha b hb hab => hno ⟨a, ha, hab ▸ hb⟩⟩
  have hlen : P.length + Q.length ≤ cc.nodes.dedup.length := by
    rw [← List.length_append]
    refine (List.Nodup.subperm hdisj fun x hx => ?_).length_le
    rw [List.mem_dedup]
    rcases List.mem_append.1 hx with h | h
    · exact hP x h
    · exact hQ x h
  have hpeers : ∀ k, cc.nodes.dedup.length ≤ (SP.peersOf cc.nodes k).length + 1 := by
    intro k
    rw [← List.length_cons (a := k)]
    refine (List.Nodup.subperm (List.nodup_dedup _) fun x hx => ?_).length_le
    rw [List.mem_dedup] at hx
    by_cases h : x = k
    · simp [h]
    · simp [SP.peersOf, h, hx]
  have hd := (List.dedup_sublist cc.nodes).length_le
  have h1 := hpeers i
  have h2 := hpeers j
  unfold ClusterConfig.validate at hv
  cases hq : cc.flexible_quorum with
  | none =>
    rw [hq] at hpq haq
    simp only [Quorum.with, Quorum.is_prepare_quorum, Quorum.is_accept_quorum, decide_eq_true_eq] at hpq haq
    omega
  | some q =>
    rw [hq] at hpq haq hv
    simp only [Quorum.with, Quorum.is_prepare_quorum, Quorum.is_accept_quorum, decide_eq_true_eq] at hpq haq
    simp only at hv
    repeat (split at hv; · simp at hv)
    omega

/-- A five-server configuration with flexible quorums and two quorums of it. -/
example : (⟨7, [1, 2, 3, 4, 5], some ⟨4, 2⟩⟩ : ClusterConfig).validate = .ok () ∧
    (Quorum.with (some ⟨4, 2⟩) ((SP.peersOf [1, 2, 3, 4, 5] 1).length + 1)).is_prepare_quorum [1, 2, 3, 4].length = true ∧
    (Quorum.with (some ⟨4, 2⟩) ((SP.peersOf [1, 2, 3, 4, 5] 5).length + 1)).is_accept_quorum [4, 5].length = true := by
  decide

/-- The intersection needs validation: without it two disjoint quorums exist. -/
example : ∃ (cc : ClusterConfig) (P Q : List NodeId),
    (Quorum.with cc.flexible_quorum ((SP.peersOf cc.nodes 1).length + 1)).is_prepare_quorum P.length = true ∧
    (Quorum.with cc.flexible_quorum ((SP.peersOf cc.nodes 1).length + 1)).is_accept_quorum Q.length = true ∧
    ¬ ∃ x, x ∈ P ∧ x ∈ Q :=
  ⟨⟨1, [1, 2, 3, 4], some ⟨2, 2⟩⟩, [1, 2], [3, 4], by decide, by decide, by simp⟩

/-! ## C21 -/

/-- C21 for one clock: after start, the `j`-th tick (counted from 1) fires exactly when `j` is a multiple of the timeout. -/
theorem C21_clock_period (t k : Nat) (ht : 0 < t) (j : Nat) (hj : j < k) :
    ((LogicalClock.with t).fires k).1[j]? = some (decide ((j + 1) % t = 0)) := by
  induction k with
  | zero => omega
  | succ k ih =>
    have hl : ∀ m, ((LogicalClock.with t).fires m).1.length = m := by
      intro m; induction m <;> simp_all [LogicalClock.fires]
    simp only [LogicalClock.fires]
    rcases Nat.lt_or_ge j k with h | h
    · rw [List.getElem?_append_left (by rw [hl]; exact h)]
      exact ih h
    · have : j = k := by omega
      subst this
      rw [List.getElem?_append_right (by rw [hl]; exact Nat.le_refl _), hl, Nat.sub_self]
      simp only [List.getElem?_cons_zero, Option.some.injEq, LogicalClock.fires_state t j ht,
        LogicalClock.tick_and_check_timeout]
      have hk := Nat.mod_lt j ht
      have hkey : j % t + 1 = t ↔ (j + 1) % t = 0 := by
        rw [Nat.add_mod]
        rcases Nat.lt_or_ge 1 t with h1 | h1
        · rw [Nat.mod_eq_of_lt h1]
          constructor
          · intro h; rw [h, Nat.mod_self]
          · intro h
            rcases Nat.lt_or_ge (j % t + 1) t with h2 | h2
            · rw [Nat.mod_eq_of_lt h2] at h; omega
            · omega
        · have : t = 1 := by omega
          subst this; simp [Nat.mod_one]
      split <;> simp_all

variable {E S : Type}

/-- C21 at the API: on a server built with positive timeouts, after any sequence of API calls containing `k` ticks, the
number of heartbeat rounds (started by election timeouts; the first one is started by `build`) is `1 + k / t`, and each of
the three clocks shows `k` modulo its timeout, so each timeout fires at exactly the multiples of its configured value. -/
theorem C21_timeouts [SnapOps E S] (cfg : OmniPaxosConfig) (d : Mem E S) (op op' : OP E S) (cs : List (Call E S))
    (hb : OP.build cfg d = some (.ok op)) (hr : op.runCalls cs = some op')
    (hf : 0 < cfg.server_config.flush_batch_tick_timeout) :
    op'.ble.hb_round = 1 + tickCount cs / cfg.server_config.election_tick_timeout ∧
    op'.election_clock.time = tickCount cs % cfg.server_config.election_tick_timeout ∧
    op'.resend_message_clock.time = tickCount cs % cfg.server_config.resend_message_tick_timeout ∧
    op'.flush_batch_clock.time = tickCount cs % cfg.server_config.flush_batch_tick_timeout := by
  have hval : 0 < cfg.server_config.election_tick_timeout ∧ 0 < cfg.server_config.resend_message_tick_timeout := by
    have := OP.build_valid hb
    rw [ServerConfig.validate_ok] at this
    omega
  have h0 : op.ble.hb_round = 1 ∧ op.election_clock = LogicalClock.with cfg.server_config.election_tick_timeout ∧
      op.resend_message_clock = LogicalClock.with cfg.server_config.resend_message_tick_timeout ∧
      op.flush_batch_clock = LogicalClock.with cfg.server_config.flush_batch_tick_timeout := by
    unfold OP.build at hb
    split at hb
    · simp at hb
    · dsimp only at hb
      split at hb
      · simp at hb
      · simp only [Option.some.injEq, Except.ok.injEq] at hb
        subst hb
        refine ⟨?_, rfl, rfl, rfl⟩
        simp only [BLE.with, BLE.new_hb_round]
  generalize cfg.server_config.election_tick_timeout = te at *
  generalize cfg.server_config.resend_message_tick_timeout = tr at *
  generalize cfg.server_config.flush_batch_tick_timeout = tf at *
  have gen : ∀ (cs : List (Call E S)) (op : OP E S) (k : Nat), op.ble.hb_round = 1 + k / te →
      op.election_clock = ⟨k % te, te⟩ → op.resend_message_clock = ⟨k % tr, tr⟩ →
      op.flush_batch_clock = ⟨k % tf, tf⟩ → op.runCalls cs = some op' →
      op'.ble.hb_round = 1 + (k + tickCount cs) / te ∧ op'.election_clock = ⟨(k + tickCount cs) % te, te⟩ ∧
      op'.resend_message_clock = ⟨(k + tickCount cs) % tr, tr⟩ ∧
      op'.flush_batch_clock = ⟨(k + tickCount cs) % tf, tf⟩ := by
    intro cs
    induction cs with
    | nil =>
      intro op k h1 h2 h3 h4 h5
      simp only [OP.runCalls, Option.some.injEq] at h5
      subst h5
      simp [tickCount, *]
    | cons c cs ih =>
      intro op k h1 h2 h3 h4 h5
      unfold OP.runCalls at h5
      split at h5
      · rename_i op1 hrun
        have hc := M.sat_ok (Call.run_clocks c op) hrun
        by_cases ht : c = .tick
        · obtain ⟨hc, -⟩ := hc
          obtain ⟨e1, e2, e3, e4⟩ := hc ht
          subst ht
          have st : ∀ t, 0 < t → LogicalClock.tick_and_check_timeout ⟨k % t, t⟩ =
              (decide ((k + 1) % t = 0), ⟨(k + 1) % t, t⟩) := by
            intro t ht
            have e := LogicalClock.fires_state t k ht
            have e' := LogicalClock.fires_state t (k + 1) ht
            have e'' := C21_clock_period t (k + 1) ht k (by omega)
            have hl : ∀ m, ((LogicalClock.with t).fires m).1.length = m := by
              intro m; induction m <;> simp_all [LogicalClock.fires]
            simp only [LogicalClock.fires] at e' e''
            rw [List.getElem?_append_right (by rw [hl]; exact Nat.le_refl _), hl, Nat.sub_self] at e''
            simp only [List.getElem?_cons_zero, Option.some.injEq] at e''
            rw [e] at e' e''
            ext <;> simp_all
          have := ih op1 (k + 1) ?_ ?_ ?_ ?_ h5
          · simp only [tickCount]
            rw [show k + (tickCount cs + 1) = k + 1 + tickCount cs by omega]
            exact this
          · rw [e4, h1, h2, st te hval.1]
            simp only [decide_eq_true_eq]
            have := Nat.succ_div (a := k) (b := te)
            rw [this]
            simp only [Nat.dvd_iff_mod_eq_zero]
            split <;> omega
          · rw [e1, h2, st te hval.1]
          · rw [e2, h3, st tr hval.2]
          · rw [e3, h4, st tf hf]
        · obtain ⟨-, hc⟩ := hc
          obtain ⟨e1, e2, e3, e4⟩ := hc ht
          have := ih op1 k (by rw [e4, h1]) (by rw [e1, h2]) (by rw [e2, h3]) (by rw [e3, h4]) h5
          have htc : tickCount (c :: cs) = tickCount cs := by cases c <;> simp_all [tickCount]
          rw [htc]; exact this
      · simp at h5
  obtain ⟨g1, g2, g3, g4⟩ := h0
  have := gen cs op 0 (by simp [g1]) (by simp [g2, LogicalClock.with]) (by simp [g3, LogicalClock.with])
    (by simp [g4, LogicalClock.with]) hr
  simp only [Nat.zero_add] at this
  obtain ⟨a, b, c, d⟩ := this
  exact ⟨a, by rw [b], by rw [c], by rw [d]⟩

/-- The flush timeout is the one `validate` does not check (omni_paxos.rs 189-202): with 0 it never fires. -/
theorem C21_false_flush_timeout_zero (k : Nat) (j : Nat) (hj : j < k) :
    ((LogicalClock.with 0).fires k).1[j]? = some false := by
  have hs : ∀ k, ((LogicalClock.with 0).fires k).2 = ⟨k, 0⟩ := by
    intro k; induction k <;> simp_all [LogicalClock.fires, LogicalClock.with, LogicalClock.tick_and_check_timeout]
  have hl : ∀ k, ((LogicalClock.with 0).fires k).1 = List.replicate k false := by
    intro k; induction k with
    | zero => rfl
    | succ k ih =>
      simp only [LogicalClock.fires, ih, hs, LogicalClock.tick_and_check_timeout]
      simp [List.replicate_succ']
  rw [hl]; simp [hj]

section Example
attribute [local instance] Sample.noSync
/-- A server with election timeout 2, and seven ticks. -/
example : ((OP.build (E := Nat) (S := List Nat) ⟨⟨1, [1, 2, 3], none⟩, { pid := 1, election_tick_timeout := 2 }⟩ {}).bind
    fun r => match r with
      | .ok op => (op.runCalls (List.replicate 7 .tick)).map (·.ble.hb_round)
      | .error _ => none) = some 4 := by
  decide +kernel
end Example

end Omni
