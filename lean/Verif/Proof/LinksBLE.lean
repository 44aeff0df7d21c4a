import Verif.Proof.RoundsBLE
import Verif.Proof.Links
/-
A round of the election components over some links is a round in the sense of `Links.Next`.
-/
namespace Omni
namespace BLE
open Rounds Links

/-- Size of the prepare quorums and of the accept quorums. -/
def prepSize (fq : Option FlexibleQuorum) (n : Nat) : Nat := match fq with | some q => q.read_quorum_size | none => n / 2 + 1
def accSize (fq : Option FlexibleQuorum) (n : Nat) : Nat := match fq with | some q => q.write_quorum_size | none => n / 2 + 1

theorem quorum_size (fq : Option FlexibleQuorum) (n x : Nat) :
    (Quorum.with fq n).is_prepare_quorum x = decide (prepSize fq n ≤ x) ∧
    (Quorum.with fq n).is_accept_quorum x = decide (accSize fq n ≤ x) := by
  cases fq <;> exact ⟨rfl, rfl⟩

/-- The replication component is a leader that has finished its prepare phase: accept quorums count. -/
def Input.accepts (x : Input) : Bool := decide (x.role = .leader) && decide (x.phase = .accept)

theorem exchangeOn_eq {cid : Nat} {fq : Option FlexibleQuorum} {link : NodeId → NodeId → Bool} {N : List NodeId} {s : NodeId → BLE}
    (h : System cid fq N s) {i : NodeId} (hi : i ∈ N) :
    exchangeOn link s i = { s i with outgoing := [], heartbeat_replies := (nb link N i).map fun j => rep (s i).hb_round (s j) } := by
  have key : ∀ (L : List NodeId) (b : BLE), (∀ j ∈ L, j ∈ N) → b.hb_round = (s i).hb_round → b.configuration_id = cid →
      (L.map fun j => (⟨i, j, .request (s i).hb_round⟩ : BLEMessage)).foldl (fun b m => ((s m.dst).answers m).foldl BLE.handle b) b
        = { b with heartbeat_replies := b.heartbeat_replies ++ L.map fun j => rep (s i).hb_round (s j) } := by
    intro L
    induction L with
    | nil => intro b _ _ _; simp
    | cons x L ih =>
      intro b hL hr hc
      rw [List.map_cons, List.foldl_cons]
      show (L.map _).foldl _ (((s x).answers ⟨i, x, .request (s i).hb_round⟩).foldl BLE.handle b) = _
      rw [answers_eq]
      have e : [(⟨(s x).pid, i, .reply (rep (s i).hb_round (s x))⟩ : BLEMessage)].foldl BLE.handle b
          = { b with heartbeat_replies := b.heartbeat_replies ++ [rep (s i).hb_round (s x)] } := by
        show b.handle_reply _ = _
        unfold handle_reply
        rw [if_pos]
        exact ⟨hr.symm, ((h.own x (hL x (List.mem_cons_self ..))).2).trans hc.symm⟩
      rw [e]
      refine (ih { b with heartbeat_replies := b.heartbeat_replies ++ [rep (s i).hb_round (s x)] }
        (fun j hj => hL j (List.mem_cons_of_mem _ hj)) hr hc).trans ?_
      simp
  unfold exchangeOn
  rw [h.asks i hi, List.filter_map, key _ { s i with outgoing := [] } (fun j hj => (List.mem_filter.1 (List.mem_filter.1 hj).1).1) rfl (h.cfg i hi)]
  rw [show ({ s i with outgoing := [] } : BLE).heartbeat_replies = [] from h.replies i hi]
  simp [nb]

/-- One round, seen from server `i`. -/
theorem nextRoundOn_view {cid : Nat} {fq : Option FlexibleQuorum} {link : NodeId → NodeId → Bool} {N : List NodeId} {s : NodeId → BLE} (h : System cid fq N s) {inp : NodeId → Input}
    (hp : ∀ i ∈ N, KnownPromiseOn link N s i (inp i).promise) {i : NodeId} (hi : i ∈ N) :
    ∃ x, Links.Next1 link N (prepSize fq N.length)
      (if (inp i).accepts then accSize fq N.length else prepSize fq N.length) (view s) (view (nextRoundOn link inp s)) i x := by
  have hex := exchangeOn_eq (link := link) h hi
  have hmem : ∀ r, r ∈ (exchangeOn link s i).heartbeat_replies ↔ ∃ j ∈ nb link N i, r = rep (s i).hb_round (s j) := by
    intro r
    rw [hex]
    simp only [List.mem_map]
    constructor
    · rintro ⟨j, h1, e⟩; exact ⟨j, h1, e.symm⟩
    · rintro ⟨j, h1, e⟩; exact ⟨j, h1, e.symm⟩
  have hlen : (exchangeOn link s i).heartbeat_replies.length = (nb link N i).length := by
    rw [hex]
    show (List.map _ _).length = _
    rw [List.length_map]
  have hcur : (exchangeOn link s i).current_ballot = (s i).current_ballot := by rw [hex]
  have hlead : (exchangeOn link s i).leader = (s i).leader := by rw [hex]
  have hq : (exchangeOn link s i).quorum = Quorum.with fq N.length := by rw [hex]; exact h.quorum i hi
  have hf := update_leader_fields (exchangeOn link s i)
  let x := (exchangeOn link s i).update_leader.leader
  have hold : (s i).leader ≤ x := by rw [← hlead]; exact update_leader_le _
  have hall : ∀ j ∈ nb link N i, (s j).current_ballot ≤ x := fun j hj =>
    update_leader_ge (exchangeOn link s i) (rep (s i).hb_round (s j)) ((hmem _).2 ⟨j, hj, rfl⟩)
  have hfrom : x = (s i).leader ∨ ∃ j ∈ nb link N i, x = (s j).current_ballot := by
    rcases update_leader_from (exchangeOn link s i) with e | ⟨r, hr, e⟩
    · exact .inl (by rw [← hlead]; exact e)
    · obtain ⟨j, hj, er⟩ := (hmem r).1 hr
      exact .inr ⟨j, hj, by show _ = (rep (s i).hb_round (s j)).ballot; rw [← er]; exact e⟩
  have hprom : (inp i).promise ≤ x := by
    rcases hp i hi with h' | ⟨j, hj, hji, hlk, h'⟩
    · exact Ballot.le_trans h' hold
    · exact Ballot.le_trans h' (hall j (mem_nb.2 ⟨hj, hji, hlk⟩))
  -- happiness
  let u := (exchangeOn link s i).update_leader.update_happiness (inp i).role (inp i).phase
  have hhap : u.happy = true ↔ Glad link N (if (inp i).accepts then accSize fq N.length else prepSize fq N.length) (view s) i x := by
    show (if (exchangeOn link s i).update_leader.leader = (exchangeOn link s i).update_leader.current_ballot then _ else _) = true ↔ _
    rw [hf.2.1, hf.1, hcur]
    have henough : ∀ k, (k ≤
        ((exchangeOn link s i).heartbeat_replies.filter fun r : HeartbeatReply => decide (r.leader ≤ (s i).current_ballot)).length + 1)
        ↔ Links.Enough link N k (view s) i := by
      intro k
      unfold Links.Enough
      rw [hex]
      show _ ≤ (List.filter _ (List.map _ _)).length + 1 ↔ _
      rw [List.filter_map, List.length_map]
      rfl
    have hcan : (match (inp i).role, (inp i).phase with
        | .leader, .accept => (exchangeOn link s i).update_leader.quorum.is_accept_quorum
            (((exchangeOn link s i).heartbeat_replies.filter fun r : HeartbeatReply => decide (r.leader ≤ (s i).current_ballot)).length + 1)
        | _, _ => (exchangeOn link s i).update_leader.quorum.is_prepare_quorum
            (((exchangeOn link s i).heartbeat_replies.filter fun r : HeartbeatReply => decide (r.leader ≤ (s i).current_ballot)).length + 1))
        = true ↔ Links.Enough link N (if (inp i).accepts then accSize fq N.length else prepSize fq N.length) (view s) i := by
      rw [hf.2.2.1, hq, ← henough]
      unfold Input.accepts
      cases (inp i).role <;> cases (inp i).phase <;> simp [quorum_size]
    by_cases hx : x = (s i).current_ballot
    · rw [if_pos hx]
      have h1 : ((exchangeOn link s i).heartbeat_replies.any fun r => decide ((s i).current_ballot < r.leader) && r.happy) = true ↔
          ∃ j ∈ nb link N i, (view s).c i < (view s).l j ∧ (view s).h j = true := by
        simp only [List.any_eq_true, Bool.and_eq_true, decide_eq_true_eq]
        constructor
        · rintro ⟨r, hr, h1, h2⟩
          obtain ⟨j, hj, e⟩ := (hmem r).1 hr
          subst e
          exact ⟨j, hj, h1, h2⟩
        · rintro ⟨j, hj, h1, h2⟩
          exact ⟨_, (hmem _).2 ⟨j, hj, rfl⟩, h1, h2⟩
      by_cases he : Links.Enough link N (if (inp i).accepts then accSize fq N.length else prepSize fq N.length) (view s) i
      · refine (iff_of_eq (congrArg (· = true) (if_pos (hcan.2 he)))).trans ?_
        exact ⟨fun _ => .inl ⟨hx, .inl he⟩, fun _ => rfl⟩
      · refine (iff_of_eq (congrArg (· = true) (if_neg (fun h' => he (hcan.1 h'))))).trans ?_
        rw [h1]
        constructor
        · intro h'; exact .inl ⟨hx, .inr h'⟩
        · rintro (⟨-, h' | h'⟩ | ⟨hne, -⟩)
          · exact absurd h' he
          · exact h'
          · exact absurd hx hne
    · rw [if_neg hx]
      simp only [List.any_eq_true, Bool.and_eq_true, decide_eq_true_eq]
      constructor
      · rintro ⟨r, hr, h1, h2⟩
        obtain ⟨j, hj, e⟩ := (hmem r).1 hr
        subst e
        exact .inr ⟨hx, j, hj, h1, h2⟩
      · rintro (⟨h', -⟩ | ⟨-, j, hj, h1, h2⟩)
        · exact absurd h' hx
        · exact ⟨_, (hmem _).2 ⟨j, hj, rfl⟩, h1, h2⟩
  have hun : ((u.heartbeat_replies.all fun r => !r.happy) && u.quorum.is_prepare_quorum (u.heartbeat_replies.length + 1)) = true
      ↔ (∀ j ∈ nb link N i, (s j).happy = false) ∧ prepSize fq N.length ≤ (nb link N i).length + 1 := by
    have e1 : u.heartbeat_replies = (exchangeOn link s i).heartbeat_replies := hf.1
    have e2 : u.quorum = Quorum.with fq N.length := hf.2.2.1.trans hq
    rw [e1, e2, hlen, (quorum_size _ _ _).1, Bool.and_eq_true, decide_eq_true_eq, List.all_eq_true]
    refine and_congr_left fun _ => ?_
    constructor
    · intro h' j hj
      have := h' _ ((hmem _).2 ⟨j, hj, rfl⟩)
      simpa [rep] using this
    · intro h' r hr
      obtain ⟨j, hj, e⟩ := (hmem r).1 hr
      subst e
      simpa [rep] using h' j hj
  -- the outcome
  have hsync : ∀ b : BLE, x ≤ b.leader → b.new_hb_round.sync_with_promise (inp i).promise = b.new_hb_round := by
    intro b hb
    unfold sync_with_promise
    rw [if_neg]
    show ¬ b.leader < _
    rw [Ballot.not_lt]
    exact Ballot.le_trans hprom hb
  have hout : nextRoundOn link inp s i = u.check_takeover.new_hb_round := by
    show (u.check_takeover.new_hb_round).sync_with_promise _ = _
    exact hsync _ (check_takeover_le u)
  have hc : (view (nextRoundOn link inp s)).c i = u.check_takeover.current_ballot := by
    show (nextRoundOn link inp s i).current_ballot = _
    rw [hout]; rfl
  have hl : (view (nextRoundOn link inp s)).l i = u.check_takeover.leader := by
    show (nextRoundOn link inp s i).leader = _
    rw [hout]; rfl
  have hh : (view (nextRoundOn link inp s)).h i = u.check_takeover.happy := by
    show (nextRoundOn link inp s i).happy = _
    rw [hout]; rfl
  have huc : u.current_ballot = (s i).current_ballot := hf.2.1.trans hcur
  refine ⟨x, hold, hall, hfrom, ?_⟩
  rw [hc, hl, hh]
  by_cases hg : Glad link N (if (inp i).accepts then accSize fq N.length else prepSize fq N.length) (view s) i x
  · refine .inl ⟨hg, ?_⟩
    have : u.check_takeover = u := by unfold check_takeover; rw [if_pos (hhap.2 hg)]
    rw [this]
    exact ⟨huc, rfl, hhap.2 hg⟩
  · have hu : u.happy ≠ true := fun h' => hg (hhap.1 h')
    by_cases ha : (∀ j ∈ nb link N i, (s j).happy = false) ∧ prepSize fq N.length ≤ (nb link N i).length + 1
    · refine .inr (.inl ⟨hg, ha, ?_⟩)
      have : u.check_takeover = { u with
          current_ballot := { u.current_ballot with n := u.leader.n + 1 }
          leader := { u.current_ballot with n := u.leader.n + 1 }
          happy := true } := by
        unfold check_takeover
        rw [if_neg hu, if_pos (hun.2 ha)]
      rw [this]
      exact ⟨by show ({ u.current_ballot with n := u.leader.n + 1 } : Ballot) = _; rw [huc]; rfl, rfl, rfl⟩
    · refine .inr (.inr ⟨hg, ha, ?_⟩)
      · have : u.check_takeover = u := by
          unfold check_takeover
          rw [if_neg hu, if_neg (fun h' => ha (hun.1 h'))]
        rw [this]
        exact ⟨huc, rfl, by simpa using hu⟩

theorem nextRoundOn_system {cid : Nat} {fq : Option FlexibleQuorum} {link : NodeId → NodeId → Bool} {N : List NodeId} {s : NodeId → BLE} (h : System cid fq N s) {inp : NodeId → Input}
    (hp : ∀ i ∈ N, KnownPromiseOn link N s i (inp i).promise) :
    Links.Next link N (prepSize fq N.length) (accSize fq N.length) (fun i => (inp i).accepts) (view s) (view (nextRoundOn link inp s)) ∧ System cid fq N (nextRoundOn link inp s) := by
  have hn : Links.Next link N (prepSize fq N.length) (accSize fq N.length) (fun i => (inp i).accepts) (view s) (view (nextRoundOn link inp s)) := fun i hi => nextRoundOn_view h hp hi
  have hwf : WF cid N (view s) := ⟨h.nodup, h.two, h.own, h.leader, h.le⟩
  have hwf' := hn.wf hwf
  have hst : ∀ i ∈ N, (nextRoundOn link inp s i).configuration_id = (s i).configuration_id ∧ (nextRoundOn link inp s i).pid = (s i).pid ∧
      (nextRoundOn link inp s i).peers = (s i).peers ∧ (nextRoundOn link inp s i).quorum = (s i).quorum ∧
      (nextRoundOn link inp s i).heartbeat_replies = [] ∧
      (nextRoundOn link inp s i).outgoing = (s i).peers.map fun j => ⟨(s i).pid, j, .request (nextRoundOn link inp s i).hb_round⟩ := by
    intro i hi
    have hex := exchangeOn_eq (link := link) h hi
    have step : ∀ b : BLE, ((b.hb_timeout (inp i).role (inp i).phase (inp i).promise).2.configuration_id = b.configuration_id ∧
        (b.hb_timeout (inp i).role (inp i).phase (inp i).promise).2.pid = b.pid ∧
        (b.hb_timeout (inp i).role (inp i).phase (inp i).promise).2.peers = b.peers ∧
        (b.hb_timeout (inp i).role (inp i).phase (inp i).promise).2.quorum = b.quorum ∧
        (b.hb_timeout (inp i).role (inp i).phase (inp i).promise).2.heartbeat_replies = [] ∧
        (b.hb_timeout (inp i).role (inp i).phase (inp i).promise).2.outgoing = b.outgoing ++ b.peers.map fun j => ⟨b.pid, j, .request (b.hb_timeout (inp i).role (inp i).phase (inp i).promise).2.hb_round⟩) := by
      intro b
      have e1 : b.update_leader.peers = b.peers := by unfold update_leader; split <;> (try split) <;> rfl
      have e2 : b.update_leader.outgoing = b.outgoing := by unfold update_leader; split <;> (try split) <;> rfl
      have hf := update_leader_fields b
      simp only [hb_timeout, sync_with_promise]
      unfold check_takeover
      split <;> split <;> (try split) <;>
        simp [new_hb_round, update_happiness, e1, e2, hf]
    have := step (exchangeOn link s i)
    have e2 : (exchangeOn link s i).configuration_id = (s i).configuration_id ∧ (exchangeOn link s i).pid = (s i).pid ∧
      (exchangeOn link s i).peers = (s i).peers ∧ (exchangeOn link s i).quorum = (s i).quorum ∧
      (exchangeOn link s i).outgoing = [] := by rw [hex]; exact ⟨rfl, rfl, rfl, rfl, rfl⟩
    exact ⟨this.1.trans e2.1, this.2.1.trans e2.2.1, this.2.2.1.trans e2.2.2.1, this.2.2.2.1.trans e2.2.2.2.1, this.2.2.2.2.1,
      this.2.2.2.2.2.trans (by rw [e2.2.2.2.2, e2.2.2.1, e2.2.1]; rfl)⟩
  exact ⟨hn, h.nodup, h.two, fun i hi => (hst i hi).1.trans (h.cfg i hi), fun i hi => (hst i hi).2.1.trans (h.pid i hi),
    fun i hi => (hst i hi).2.2.1.trans (h.peers i hi), fun i hi => (hst i hi).2.2.2.1.trans (h.quorum i hi),
    fun i hi => (hst i hi).2.2.2.2.1,
    fun i hi => (hst i hi).2.2.2.2.2.trans (by rw [h.peers i hi, h.pid i hi]), hwf'.own, hwf'.leader, hwf'.le⟩

end BLE

open BLE

/-- The servers that `i` hears, and `i` itself. -/
theorem nb_length {link : NodeId → NodeId → Bool} {N : List NodeId} (hN : N.Nodup) {i : NodeId} (hi : i ∈ N) :
    (N.filter fun j => decide (j = i) || link i j).length = (Links.nb link N i).length + 1 := by
  rw [← length_filter_ne (N := N.filter fun j => decide (j = i) || link i j) (hN.filter _) (i := i)
    (List.mem_filter.2 ⟨hi, by simp⟩)]
  unfold Links.nb
  rw [List.filter_filter, List.filter_filter]
  congr 2
  apply List.filter_congr
  intro j _
  by_cases h : j = i <;> simp [h]

/-- Of the servers that `i` hears, and `i`, those for which `P` holds. -/
theorem nb_length_filter {link : NodeId → NodeId → Bool} {N : List NodeId} (hN : N.Nodup) {i : NodeId} (hi : i ∈ N)
    {P Q : NodeId → Bool} (hP : P i = true) (hQ : ∀ j ∈ Links.nb link N i, Q j = true → P j = true) :
    ((Links.nb link N i).filter Q).length + 1 ≤ (N.filter fun j => (decide (j = i) || link i j) && P j).length := by
  rw [← length_filter_ne (N := N.filter fun j => (decide (j = i) || link i j) && P j) (hN.filter _) (i := i)
    (List.mem_filter.2 ⟨hi, by simp [hP]⟩), Nat.add_le_add_iff_right]
  have hs : ∀ L : List NodeId, (∀ j ∈ L, j ∈ N) → (((L.filter (· ≠ i)).filter (link i)).filter Q).length
      ≤ ((L.filter fun j => (decide (j = i) || link i j) && P j).filter (· ≠ i)).length := by
    intro L hL
    rw [List.filter_filter, List.filter_filter, List.filter_filter, ← List.countP_eq_length_filter,
      ← List.countP_eq_length_filter]
    apply List.countP_mono_left
    intro j hj hq
    simp only [ne_eq, decide_not, Bool.and_eq_true, Bool.not_eq_eq_eq_not, Bool.not_true, decide_eq_false_iff_not] at hq
    obtain ⟨⟨h1, h2⟩, h3⟩ := hq
    have := hQ j (Links.mem_nb.2 ⟨hL j hj, h3, h2⟩) h1
    simp [h2, h3, this]
  exact hs N fun _ hj => hj

section
variable {cid : Nat} {fq : Option FlexibleQuorum} {N : List NodeId} {s : NodeId → BLE} {link : NodeId → NodeId → Bool}
  {inp : Nat → NodeId → Input}

theorem roundsOn_system (h : System cid fq N s)
    (hp : ∀ t, ∀ i ∈ N, KnownPromiseOn link N (roundsOn link inp s t) i (inp t i).promise) (t : Nat) :
    System cid fq N (roundsOn link inp s t) := by
  induction t with
  | zero => exact h
  | succ t ih => exact (nextRoundOn_system ih (hp t)).2

theorem acc_le_prep (hfq : ∀ q, fq = some q → q.write_quorum_size ≤ q.read_quorum_size) (n : Nat) :
    accSize fq n ≤ prepSize fq n := by
  cases fq with
  | none => exact Nat.le_refl _
  | some q => exact hfq q rfl

end

end Omni
