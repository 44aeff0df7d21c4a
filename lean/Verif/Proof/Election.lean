import Verif.Proof.Ballot
import Verif.Spec.Basic
/-
Lemmas about the election component.
-/
namespace Omni
namespace BLE

theorem foldl_max_ge (xs : List Ballot) (x : Ballot) :
    x ≤ xs.foldl (fun m y => if y < m then m else y) x ∧ ∀ y ∈ xs, y ≤ xs.foldl (fun m y => if y < m then m else y) x := by
  induction xs generalizing x with
  | nil => simp [Ballot.le_refl]
  | cons z xs ih =>
    simp only [List.foldl_cons, List.mem_cons, forall_eq_or_imp]
    have h := ih (if z < x then x else z)
    by_cases hz : z < x
    · rw [if_pos hz] at h ⊢
      exact ⟨h.1, Ballot.le_trans (Ballot.le_of_lt hz) h.1, h.2⟩
    · rw [if_neg hz] at h ⊢
      exact ⟨Ballot.le_trans (Ballot.not_lt.1 hz) h.1, h.1, h.2⟩

theorem foldl_max_mem (xs : List Ballot) (x : Ballot) :
    xs.foldl (fun m y => if y < m then m else y) x = x ∨ xs.foldl (fun m y => if y < m then m else y) x ∈ xs := by
  induction xs generalizing x with
  | nil => simp
  | cons z xs ih =>
    simp only [List.foldl_cons, List.mem_cons]
    rcases ih (if z < x then x else z) with h | h
    · rw [h]; split <;> simp
    · simp [h]

theorem maxBallot_ge {l : List Ballot} {m : Ballot} (h : maxBallot l = some m) : ∀ y ∈ l, y ≤ m := by
  cases l with
  | nil => simp
  | cons x xs =>
    simp only [maxBallot, Option.some.injEq] at h
    have := foldl_max_ge xs x
    rw [h] at this
    simpa using this

theorem maxBallot_mem {l : List Ballot} {m : Ballot} (h : maxBallot l = some m) : m ∈ l := by
  cases l with
  | nil => simp [maxBallot] at h
  | cons x xs =>
    simp only [maxBallot, Option.some.injEq] at h
    rw [← h]
    rcases foldl_max_mem xs x with h | h
    · rw [h]; simp
    · exact List.mem_cons_of_mem _ h

theorem update_leader_le (b : BLE) : b.leader ≤ b.update_leader.leader := by
  unfold update_leader
  split
  · split
    · rename_i h; exact Ballot.le_of_lt h
    · exact Ballot.le_refl _
  · exact Ballot.le_refl _

theorem update_leader_ge (b : BLE) : ∀ r ∈ b.heartbeat_replies, r.ballot ≤ b.update_leader.leader := by
  intro r hr
  unfold update_leader
  split
  · rename_i m hm
    have := maxBallot_ge hm r.ballot (List.mem_map_of_mem hr)
    split
    · exact this
    · rename_i h; exact Ballot.le_trans this (Ballot.not_lt.1 h)
  · rename_i h
    cases hb : b.heartbeat_replies with
    | nil => simp [hb] at hr
    | cons x xs => simp [hb, maxBallot] at h

@[simp] theorem update_leader_fields (b : BLE) :
    b.update_leader.heartbeat_replies = b.heartbeat_replies ∧ b.update_leader.current_ballot = b.current_ballot ∧
    b.update_leader.quorum = b.quorum ∧ b.update_leader.pid = b.pid ∧ b.update_leader.configuration_id = b.configuration_id := by
  unfold update_leader; split <;> (try split) <;> simp

theorem lt_raise (b c : Ballot) : b < { c with n := b.n + 1 } := by rw [Ballot.lt_iff]; simp

theorem check_takeover_le (b : BLE) : b.leader ≤ b.check_takeover.leader := by
  unfold check_takeover
  split
  · exact Ballot.le_refl _
  · split
    · exact Ballot.le_of_lt (lt_raise _ _)
    · exact Ballot.le_refl _

theorem sync_le (b : BLE) (n : Ballot) : b.leader ≤ (b.sync_with_promise n).leader := by
  unfold sync_with_promise
  split
  · rename_i h; exact Ballot.le_of_lt h
  · exact Ballot.le_refl _

theorem hb_timeout_le (b : BLE) (r : Role) (p : Phase) (n : Ballot) : b.leader ≤ (b.hb_timeout r p n).2.leader := by
  simp only [hb_timeout]
  refine Ballot.le_trans ?_ (sync_le _ _)
  exact Ballot.le_trans (update_leader_le b) (check_takeover_le (b.update_leader.update_happiness r p))

theorem handle_leader_eq (b : BLE) (m : BLEMessage) : (b.handle m).leader = b.leader := by
  unfold handle handle_request handle_reply
  split <;> (try split) <;> rfl

theorem handle_fields (b : BLE) (m : BLEMessage) : (b.handle m).current_ballot = b.current_ballot ∧
    (b.handle m).pid = b.pid ∧ (b.handle m).configuration_id = b.configuration_id := by
  unfold handle handle_request handle_reply
  split <;> (try split) <;> simp

/-- The server's own ballot carries its own pid and configuration. -/
def OwnBallot (b : BLE) : Prop := b.current_ballot.pid = b.pid ∧ b.current_ballot.config_id = b.configuration_id

theorem update_leader_own {b : BLE} (hb : b.OwnBallot) : b.update_leader.OwnBallot := by
  unfold OwnBallot at *; simp [hb]

theorem check_takeover_fields (b : BLE) : b.check_takeover.pid = b.pid ∧
    b.check_takeover.configuration_id = b.configuration_id := by
  unfold check_takeover; split <;> (try split) <;> simp

theorem check_takeover_own {b : BLE} (hb : b.OwnBallot) : b.check_takeover.OwnBallot := by
  unfold OwnBallot check_takeover at *; split <;> (try split) <;> simp [hb]

theorem sync_fields (b : BLE) (n : Ballot) : (b.sync_with_promise n).pid = b.pid ∧
    (b.sync_with_promise n).configuration_id = b.configuration_id := by
  unfold sync_with_promise; split <;> simp

theorem sync_own {b : BLE} {n : Ballot} (hb : b.OwnBallot)
    (hn : n.pid = b.pid → n.config_id = b.configuration_id) : (b.sync_with_promise n).OwnBallot := by
  unfold OwnBallot sync_with_promise at *
  split
  · simp only
    by_cases h : n.pid = b.pid
    · simp [h, hn h]
    · simp [h, hb]
  · exact hb

theorem hb_timeout_pid (b : BLE) (r : Role) (p : Phase) (n : Ballot) : (b.hb_timeout r p n).2.pid = b.pid ∧
    (b.hb_timeout r p n).2.configuration_id = b.configuration_id := by
  simp only [hb_timeout, sync_fields, new_hb_round, check_takeover_fields]
  simp [update_happiness]

theorem hb_timeout_own {b : BLE} {r : Role} {p : Phase} {n : Ballot} (hb : b.OwnBallot)
    (hn : n.pid = b.pid → n.config_id = b.configuration_id) : (b.hb_timeout r p n).2.OwnBallot := by
  simp only [hb_timeout]
  refine sync_own (check_takeover_own (b := b.update_leader.update_happiness r p) (update_leader_own hb)) ?_
  simp only [new_hb_round, check_takeover_fields]
  simpa [update_happiness] using hn

theorem hb_timeout_current (b : BLE) (r : Role) (p : Phase) (n : Ballot) :
    (b.hb_timeout r p n).2.current_ballot =
      if (b.update_leader.update_happiness r p).check_takeover.leader < n ∧ n.pid = b.pid then n
      else (b.update_leader.update_happiness r p).check_takeover.current_ballot := by
  have hp : (b.update_leader.update_happiness r p).check_takeover.pid = b.pid := by
    simp [check_takeover_fields, update_happiness, update_leader_fields]
  simp only [hb_timeout, sync_with_promise, new_hb_round]
  generalize (b.update_leader.update_happiness r p).check_takeover = c at *
  by_cases h : c.leader < n
  · by_cases h2 : n.pid = b.pid
    · simp [h, h2, hp]
    · simp [h, h2, hp]
  · simp [h]

/-- Whenever the own ballot changes at a timeout, so does the leader. -/
theorem hb_timeout_raise (b : BLE) (r : Role) (p : Phase) (n : Ballot)
    (h : (b.hb_timeout r p n).2.current_ballot ≠ b.current_ballot) : b.leader < (b.hb_timeout r p n).2.leader := by
  have h1 : b.leader ≤ (b.update_leader.update_happiness r p).leader := update_leader_le b
  have h2 : (b.update_leader.update_happiness r p).current_ballot = b.current_ballot := (update_leader_fields b).2.1
  generalize hc : b.update_leader.update_happiness r p = c at h1 h2
  have e : (b.hb_timeout r p n).2 = (c.check_takeover.new_hb_round).sync_with_promise n := by simp [hb_timeout, hc]
  rw [e] at h ⊢
  have h3 : c.leader ≤ c.check_takeover.leader := check_takeover_le c
  by_cases hs : c.check_takeover.leader < n
  · have : ((c.check_takeover.new_hb_round).sync_with_promise n).leader = n := by
      simp [sync_with_promise, new_hb_round, hs]
    rw [this]
    exact Ballot.lt_of_le_of_lt (Ballot.le_trans h1 h3) hs
  · have : (c.check_takeover.new_hb_round).sync_with_promise n = c.check_takeover.new_hb_round := by
      simp [sync_with_promise, new_hb_round, hs]
    rw [this] at h ⊢
    simp only [new_hb_round] at h ⊢
    unfold check_takeover at h ⊢
    split at h
    · exact absurd h2 h
    · rename_i hh
      rw [if_neg hh]
      split at h
      · rename_i hq
        rw [if_pos hq]
        exact Ballot.lt_of_le_of_lt h1 (lt_raise c.leader c.current_ballot)
      · exact absurd h2 h

/-- The leader changes only to a strictly larger ballot. -/
theorem hb_timeout_strict (b : BLE) (r : Role) (p : Phase) (n : Ballot) :
    (b.hb_timeout r p n).2.leader = b.leader ∨ b.leader < (b.hb_timeout r p n).2.leader := by
  have hu : b.update_leader.leader = b.leader ∨ b.leader < b.update_leader.leader := by
    unfold update_leader
    split
    · split
      · rename_i h; exact .inr h
      · exact .inl rfl
    · exact .inl rfl
  have ht : ∀ c : BLE, c.check_takeover.leader = c.leader ∨ c.leader < c.check_takeover.leader := by
    intro c
    unfold check_takeover
    split
    · exact .inl rfl
    · split
      · exact .inr (lt_raise c.leader c.current_ballot)
      · exact .inl rfl
  have hs : ∀ c : BLE, (c.sync_with_promise n).leader = c.leader ∨ c.leader < (c.sync_with_promise n).leader := by
    intro c
    unfold sync_with_promise
    split
    · rename_i h; exact .inr h
    · exact .inl rfl
  have tr : ∀ {x y z : Ballot}, y = x ∨ x < y → z = y ∨ y < z → z = x ∨ x < z := by
    rintro x y z (rfl | h) (rfl | h')
    · exact .inl rfl
    · exact .inr h'
    · exact .inr h
    · exact .inr (Ballot.lt_of_lt_of_le h (Ballot.le_of_lt h'))
  exact tr (tr (x := b.leader) (y := (b.update_leader.update_happiness r p).leader) hu (ht _))
    (hs (b.update_leader.update_happiness r p).check_takeover.new_hb_round)

end BLE
end Omni
