import Verif.Proof.Rounds
/-
A round of the election components is a round in the sense of `Rounds.Next`.
-/
namespace Omni
namespace BLE
open Rounds

/-- The reply of a component to a request of round `r`. -/
def rep (r : Nat) (b : BLE) : HeartbeatReply := { round := r, ballot := b.current_ballot, leader := b.leader, happy := b.happy }

theorem answers_eq (b : BLE) (i j : NodeId) (r : Nat) : b.answers ⟨i, j, .request r⟩ = [⟨b.pid, i, .reply (rep r b)⟩] := by
  simp [answers, handle, handle_request, rep]

theorem exchange_eq {cid : Nat} {N : List NodeId} {s : NodeId → BLE} (h : System cid none N s) {i : NodeId} (hi : i ∈ N) :
    exchange s i = { s i with outgoing := [], heartbeat_replies := (N.filter (· ≠ i)).map fun j => rep (s i).hb_round (s j) } := by
  have key : ∀ (L : List NodeId) (b : BLE), (∀ j ∈ L, j ∈ N) → b.hb_round = (s i).hb_round → b.configuration_id = cid →
      (L.map fun j => (⟨i, j, .request (s i).hb_round⟩ : BLEMessage)).foldl (fun b m => ((s m.dst).answers m).foldl BLE.handle b) b
        = { b with heartbeat_replies := b.heartbeat_replies ++ L.map fun j => rep (s i).hb_round (s j) } := by
    intro L
    induction L with
    | nil => intro b _ _ _; simp
    | cons x L ih =>
      intro b hL hr hc
      rw [List.map_cons, List.foldl_cons]
      show (L.map _).foldl _ (((s x).answers ⟨i, x, .request (s i).hb_round⟩).foldl BLE.handle b) = _
      rw [answers_eq]
      have e : [(⟨(s x).pid, i, .reply (rep (s i).hb_round (s x))⟩ : BLEMessage)].foldl BLE.handle b
          = { b with heartbeat_replies := b.heartbeat_replies ++ [rep (s i).hb_round (s x)] } := by
        show b.handle_reply _ = _
        unfold handle_reply
        rw [if_pos]
        exact ⟨hr.symm, ((h.own x (hL x (List.mem_cons_self ..))).2).trans hc.symm⟩
      rw [e]
      refine (ih { b with heartbeat_replies := b.heartbeat_replies ++ [rep (s i).hb_round (s x)] }
        (fun j hj => hL j (List.mem_cons_of_mem _ hj)) hr hc).trans ?_
      simp
  unfold exchange
  rw [h.asks i hi, key _ { s i with outgoing := [] } (fun j hj => (List.mem_filter.1 hj).1) rfl (h.cfg i hi)]
  rw [show ({ s i with outgoing := [] } : BLE).heartbeat_replies = [] from h.replies i hi]
  simp

theorem quorum_majority (n x : Nat) : (Quorum.with none n).is_prepare_quorum x = decide (n / 2 + 1 ≤ x) ∧
    (Quorum.with none n).is_accept_quorum x = decide (n / 2 + 1 ≤ x) := by
  simp [Quorum.with, Quorum.is_prepare_quorum, Quorum.is_accept_quorum, ge_iff_le]

theorem update_leader_from (b : BLE) : b.update_leader.leader = b.leader ∨
    ∃ r ∈ b.heartbeat_replies, b.update_leader.leader = r.ballot := by
  unfold update_leader
  split
  · rename_i m hm
    split
    · obtain ⟨r, hr, e⟩ := List.mem_map.1 (maxBallot_mem hm)
      exact .inr ⟨r, hr, e.symm⟩
    · exact .inl rfl
  · exact .inl rfl

/-- One round, seen from server `i`. -/
theorem nextRound_view {cid : Nat} {N : List NodeId} {s : NodeId → BLE} (h : System cid none N s) {inp : NodeId → Input}
    (hp : ∀ i ∈ N, KnownPromise N s i (inp i).promise) {i : NodeId} (hi : i ∈ N) :
    ∃ x, Next1 N (view s) (view (nextRound inp s)) i x := by
  have hex := exchange_eq h hi
  have hmem : ∀ r, r ∈ (exchange s i).heartbeat_replies ↔ ∃ j ∈ N, j ≠ i ∧ r = rep (s i).hb_round (s j) := by
    intro r
    rw [hex]
    simp only [List.mem_map, List.mem_filter, ne_eq, decide_not, Bool.not_eq_eq_eq_not, Bool.not_true,
      decide_eq_false_iff_not]
    constructor
    · rintro ⟨j, ⟨h1, h2⟩, e⟩; exact ⟨j, h1, h2, e.symm⟩
    · rintro ⟨j, h1, h2, e⟩; exact ⟨j, ⟨h1, h2⟩, e.symm⟩
  have hlen : (exchange s i).heartbeat_replies.length + 1 = N.length := by
    rw [hex]
    show (List.map _ _).length + 1 = _
    rw [List.length_map]
    exact length_filter_ne h.nodup hi
  have hcur : (exchange s i).current_ballot = (s i).current_ballot := by rw [hex]
  have hlead : (exchange s i).leader = (s i).leader := by rw [hex]
  have hq : (exchange s i).quorum = Quorum.with none N.length := by rw [hex]; exact h.quorum i hi
  have hf := update_leader_fields (exchange s i)
  let x := (exchange s i).update_leader.leader
  have hold : (s i).leader ≤ x := by rw [← hlead]; exact update_leader_le _
  have hall : ∀ j ∈ N, (s j).current_ballot ≤ x := by
    intro j hj
    by_cases hji : j = i
    · subst hji; exact Ballot.le_trans (h.le j hj) hold
    · exact update_leader_ge (exchange s i) (rep (s i).hb_round (s j)) ((hmem _).2 ⟨j, hj, hji, rfl⟩)
  have hfrom : x = (s i).leader ∨ ∃ j ∈ N, j ≠ i ∧ x = (s j).current_ballot := by
    rcases update_leader_from (exchange s i) with e | ⟨r, hr, e⟩
    · exact .inl (by rw [← hlead]; exact e)
    · obtain ⟨j, hj, hji, er⟩ := (hmem r).1 hr
      exact .inr ⟨j, hj, hji, by show _ = (rep (s i).hb_round (s j)).ballot; rw [← er]; exact e⟩
  have hprom : (inp i).promise ≤ x := by
    rcases hp i hi with h' | ⟨j, hj, h'⟩
    · exact Ballot.le_trans h' hold
    · exact Ballot.le_trans h' (hall j hj)
  -- happiness
  let u := (exchange s i).update_leader.update_happiness (inp i).role (inp i).phase
  have hhap : u.happy = true ↔ Glad N (view s) i x := by
    show (if (exchange s i).update_leader.leader = (exchange s i).update_leader.current_ballot then _ else _) = true ↔ _
    rw [hf.2.1, hf.1, hcur]
    have henough : (N.length / 2 + 1 ≤
        ((exchange s i).heartbeat_replies.filter fun r : HeartbeatReply => decide (r.leader ≤ (s i).current_ballot)).length + 1)
        ↔ Enough N (view s) i := by
      unfold Enough
      rw [hex]
      show _ ≤ (List.filter _ (List.map _ _)).length + 1 ↔ _
      rw [List.filter_map, List.length_map]
      rfl
    have hcan : (match (inp i).role, (inp i).phase with
        | .leader, .accept => (exchange s i).update_leader.quorum.is_accept_quorum
            (((exchange s i).heartbeat_replies.filter fun r : HeartbeatReply => decide (r.leader ≤ (s i).current_ballot)).length + 1)
        | _, _ => (exchange s i).update_leader.quorum.is_prepare_quorum
            (((exchange s i).heartbeat_replies.filter fun r : HeartbeatReply => decide (r.leader ≤ (s i).current_ballot)).length + 1))
        = true ↔ Enough N (view s) i := by
      rw [hf.2.2.1, hq, ← henough]
      split <;> simp only [quorum_majority, decide_eq_true_eq]
    by_cases hx : x = (s i).current_ballot
    · rw [if_pos hx]
      have h1 : ((exchange s i).heartbeat_replies.any fun r => decide ((s i).current_ballot < r.leader) && r.happy) = true ↔
          ∃ j ∈ N, j ≠ i ∧ (view s).c i < (view s).l j ∧ (view s).h j = true := by
        simp only [List.any_eq_true, Bool.and_eq_true, decide_eq_true_eq]
        constructor
        · rintro ⟨r, hr, h1, h2⟩
          obtain ⟨j, hj, hji, e⟩ := (hmem r).1 hr
          subst e
          exact ⟨j, hj, hji, h1, h2⟩
        · rintro ⟨j, hj, hji, h1, h2⟩
          exact ⟨_, (hmem _).2 ⟨j, hj, hji, rfl⟩, h1, h2⟩
      by_cases he : Enough N (view s) i
      · refine (iff_of_eq (congrArg (· = true) (if_pos (hcan.2 he)))).trans ?_
        exact ⟨fun _ => .inl ⟨hx, .inl he⟩, fun _ => rfl⟩
      · refine (iff_of_eq (congrArg (· = true) (if_neg (fun h' => he (hcan.1 h'))))).trans ?_
        rw [h1]
        constructor
        · intro h'; exact .inl ⟨hx, .inr h'⟩
        · rintro (⟨-, h' | h'⟩ | ⟨hne, -⟩)
          · exact absurd h' he
          · exact h'
          · exact absurd hx hne
    · rw [if_neg hx]
      simp only [List.any_eq_true, Bool.and_eq_true, decide_eq_true_eq]
      constructor
      · rintro ⟨r, hr, h1, h2⟩
        obtain ⟨j, hj, hji, e⟩ := (hmem r).1 hr
        subst e
        exact .inr ⟨hx, j, hj, hji, h1, h2⟩
      · rintro (⟨h', -⟩ | ⟨-, j, hj, hji, h1, h2⟩)
        · exact absurd h' hx
        · exact ⟨_, (hmem _).2 ⟨j, hj, hji, rfl⟩, h1, h2⟩
  have hun : ((u.heartbeat_replies.all fun r => !r.happy) && u.quorum.is_prepare_quorum (u.heartbeat_replies.length + 1)) = true
      ↔ ∀ j ∈ N, j ≠ i → (s j).happy = false := by
    have e1 : u.heartbeat_replies = (exchange s i).heartbeat_replies := hf.1
    have e2 : u.quorum = Quorum.with none N.length := hf.2.2.1.trans hq
    rw [e1, e2, hlen, (quorum_majority _ _).1]
    have : N.length / 2 + 1 ≤ N.length := by have := h.two; omega
    simp only [this, decide_true, Bool.and_true, List.all_eq_true]
    constructor
    · intro h' j hj hji
      have := h' _ ((hmem _).2 ⟨j, hj, hji, rfl⟩)
      simpa [rep] using this
    · intro h' r hr
      obtain ⟨j, hj, hji, e⟩ := (hmem r).1 hr
      subst e
      simpa [rep] using h' j hj hji
  -- the outcome
  have hsync : ∀ b : BLE, x ≤ b.leader → b.new_hb_round.sync_with_promise (inp i).promise = b.new_hb_round := by
    intro b hb
    unfold sync_with_promise
    rw [if_neg]
    show ¬ b.leader < _
    rw [Ballot.not_lt]
    exact Ballot.le_trans hprom hb
  have hout : nextRound inp s i = u.check_takeover.new_hb_round := by
    show (u.check_takeover.new_hb_round).sync_with_promise _ = _
    exact hsync _ (check_takeover_le u)
  have hc : (view (nextRound inp s)).c i = u.check_takeover.current_ballot := by
    show (nextRound inp s i).current_ballot = _
    rw [hout]; rfl
  have hl : (view (nextRound inp s)).l i = u.check_takeover.leader := by
    show (nextRound inp s i).leader = _
    rw [hout]; rfl
  have hh : (view (nextRound inp s)).h i = u.check_takeover.happy := by
    show (nextRound inp s i).happy = _
    rw [hout]; rfl
  have huc : u.current_ballot = (s i).current_ballot := hf.2.1.trans hcur
  refine ⟨x, hold, hall, hfrom, ?_⟩
  rw [hc, hl, hh]
  by_cases hg : Glad N (view s) i x
  · refine .inl ⟨hg, ?_⟩
    have : u.check_takeover = u := by unfold check_takeover; rw [if_pos (hhap.2 hg)]
    rw [this]
    exact ⟨huc, rfl, hhap.2 hg⟩
  · have hu : u.happy ≠ true := fun h' => hg (hhap.1 h')
    by_cases ha : ∀ j ∈ N, j ≠ i → (s j).happy = false
    · refine .inr (.inl ⟨hg, ha, ?_⟩)
      have : u.check_takeover = { u with
          current_ballot := { u.current_ballot with n := u.leader.n + 1 }
          leader := { u.current_ballot with n := u.leader.n + 1 }
          happy := true } := by
        unfold check_takeover
        rw [if_neg hu, if_pos (hun.2 ha)]
      rw [this]
      exact ⟨by show ({ u.current_ballot with n := u.leader.n + 1 } : Ballot) = _; rw [huc]; rfl, rfl, rfl⟩
    · refine .inr (.inr ⟨hg, ?_, ?_⟩)
      · apply Decidable.byContradiction
        intro hne
        apply ha
        intro j hj hji
        cases hh : (s j).happy with
        | false => rfl
        | true => exact absurd ⟨j, hj, hji, hh⟩ hne
      · have : u.check_takeover = u := by
          unfold check_takeover
          rw [if_neg hu, if_neg (fun h' => ha (hun.1 h'))]
        rw [this]
        exact ⟨huc, rfl, by simpa using hu⟩

theorem nextRound_system {cid : Nat} {N : List NodeId} {s : NodeId → BLE} (h : System cid none N s) {inp : NodeId → Input}
    (hp : ∀ i ∈ N, KnownPromise N s i (inp i).promise) :
    Next N (view s) (view (nextRound inp s)) ∧ System cid none N (nextRound inp s) := by
  have hn : Next N (view s) (view (nextRound inp s)) := fun i hi => nextRound_view h hp hi
  have hwf : WF cid N (view s) := ⟨h.nodup, h.two, h.own, h.leader, h.le⟩
  have hwf' := hn.wf hwf
  have hst : ∀ i ∈ N, (nextRound inp s i).configuration_id = (s i).configuration_id ∧ (nextRound inp s i).pid = (s i).pid ∧
      (nextRound inp s i).peers = (s i).peers ∧ (nextRound inp s i).quorum = (s i).quorum ∧
      (nextRound inp s i).heartbeat_replies = [] ∧
      (nextRound inp s i).outgoing = (s i).peers.map fun j => ⟨(s i).pid, j, .request (nextRound inp s i).hb_round⟩ := by
    intro i hi
    have hex := exchange_eq h hi
    have step : ∀ b : BLE, ((b.hb_timeout (inp i).role (inp i).phase (inp i).promise).2.configuration_id = b.configuration_id ∧
        (b.hb_timeout (inp i).role (inp i).phase (inp i).promise).2.pid = b.pid ∧
        (b.hb_timeout (inp i).role (inp i).phase (inp i).promise).2.peers = b.peers ∧
        (b.hb_timeout (inp i).role (inp i).phase (inp i).promise).2.quorum = b.quorum ∧
        (b.hb_timeout (inp i).role (inp i).phase (inp i).promise).2.heartbeat_replies = [] ∧
        (b.hb_timeout (inp i).role (inp i).phase (inp i).promise).2.outgoing = b.outgoing ++ b.peers.map fun j => ⟨b.pid, j, .request (b.hb_timeout (inp i).role (inp i).phase (inp i).promise).2.hb_round⟩) := by
      intro b
      have e1 : b.update_leader.peers = b.peers := by unfold update_leader; split <;> (try split) <;> rfl
      have e2 : b.update_leader.outgoing = b.outgoing := by unfold update_leader; split <;> (try split) <;> rfl
      have hf := update_leader_fields b
      simp only [hb_timeout, sync_with_promise]
      unfold check_takeover
      split <;> split <;> (try split) <;>
        simp [new_hb_round, update_happiness, e1, e2, hf]
    have := step (exchange s i)
    have e2 : (exchange s i).configuration_id = (s i).configuration_id ∧ (exchange s i).pid = (s i).pid ∧
      (exchange s i).peers = (s i).peers ∧ (exchange s i).quorum = (s i).quorum ∧
      (exchange s i).outgoing = [] := by rw [hex]; exact ⟨rfl, rfl, rfl, rfl, rfl⟩
    exact ⟨this.1.trans e2.1, this.2.1.trans e2.2.1, this.2.2.1.trans e2.2.2.1, this.2.2.2.1.trans e2.2.2.2.1, this.2.2.2.2.1,
      this.2.2.2.2.2.trans (by rw [e2.2.2.2.2, e2.2.2.1, e2.2.1]; rfl)⟩
  exact ⟨hn, h.nodup, h.two, fun i hi => (hst i hi).1.trans (h.cfg i hi), fun i hi => (hst i hi).2.1.trans (h.pid i hi),
    fun i hi => (hst i hi).2.2.1.trans (h.peers i hi), fun i hi => (hst i hi).2.2.2.1.trans (h.quorum i hi),
    fun i hi => (hst i hi).2.2.2.2.1,
    fun i hi => (hst i hi).2.2.2.2.2.trans (by rw [h.peers i hi, h.pid i hi]), hwf'.own, hwf'.leader, hwf'.le⟩

end BLE
end Omni
