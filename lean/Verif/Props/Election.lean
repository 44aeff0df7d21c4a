import Verif.Proof.Election
/-
C25, C26: leader election.
-/
namespace Omni

/-! ## C25 -/

/-- C25, first claim: the leader ballot an election component knows never decreases, over any sequence of messages,
timeouts and priority changes. -/
theorem C25_leader_monotone (b : BLE) (evs : List BLEEvent) : b.leader ≤ (evs.foldl BLE.event b).leader := by
  induction evs generalizing b with
  | nil => exact Ballot.le_refl _
  | cons e evs ih =>
    refine Ballot.le_trans ?_ (ih (b.event e))
    cases e with
    | msg m => exact Ballot.le_of_eq (BLE.handle_leader_eq b m).symm
    | timeout r p n => exact BLE.hb_timeout_le b r p n
    | priority p => exact Ballot.le_refl _

/-- C25, second claim: a component created by `with` for server `pid`, after any history, announces at a timeout only a
ballot carrying its own pid, namely its own current ballot. -/
theorem C25_announces_own (cid pid : Nat) (peers : List NodeId) (prio : Nat) (fq : Option FlexibleQuorum)
    (rec : Option Ballot) (evs : List BLEEvent) (r : Role) (p : Phase) (n x : Ballot)
    (h : ((evs.foldl BLE.event (BLE.with cid pid peers prio fq rec)).hb_timeout r p n).1 = some x) :
    x.pid = pid ∧
      x = ((evs.foldl BLE.event (BLE.with cid pid peers prio fq rec)).hb_timeout r p n).2.current_ballot ∧
      x = ((evs.foldl BLE.event (BLE.with cid pid peers prio fq rec)).hb_timeout r p n).2.leader := by
  have hstep : ∀ (b : BLE) (e : BLEEvent), b.current_ballot.pid = b.pid →
      (b.event e).current_ballot.pid = (b.event e).pid ∧ (b.event e).pid = b.pid := by
    intro b e hb
    cases e with
    | msg m => simp [BLE.event, BLE.handle_fields, hb]
    | timeout r p n =>
      refine ⟨?_, (BLE.hb_timeout_pid b r p n).1⟩
      show (b.hb_timeout r p n).2.current_ballot.pid = (b.hb_timeout r p n).2.pid
      rw [(BLE.hb_timeout_pid b r p n).1]
      have hc : (b.update_leader.update_happiness r p).check_takeover.current_ballot.pid = b.pid := by
        unfold BLE.check_takeover; split <;> (try split) <;> simp [BLE.update_happiness, hb]
      rw [BLE.hb_timeout_current]
      split
      · rename_i h; exact h.2
      · exact hc
    | priority p => simp [BLE.event, BLE.set_priority, hb]
  have h0 : (BLE.with cid pid peers prio fq rec).current_ballot.pid = (BLE.with cid pid peers prio fq rec).pid ∧
      (BLE.with cid pid peers prio fq rec).pid = pid := by
    unfold BLE.with
    cases rec with
    | none => simp [BLE.new_hb_round]
    | some b => simp only; split <;> simp_all [BLE.new_hb_round]
  have hall : ∀ (evs : List BLEEvent) (b : BLE), b.current_ballot.pid = b.pid → b.pid = pid →
      (evs.foldl BLE.event b).current_ballot.pid = (evs.foldl BLE.event b).pid ∧ (evs.foldl BLE.event b).pid = pid := by
    intro evs
    induction evs with
    | nil => intro b h1 h2; exact ⟨h1, h2⟩
    | cons e evs ih =>
      intro b h1 h2
      have := hstep b e h1
      exact ih (b.event e) this.1 (this.2.trans h2)
  have hb := hall evs _ h0.1 h0.2
  generalize evs.foldl BLE.event (BLE.with cid pid peers prio fq rec) = b at *
  have hs := hstep b (.timeout r p n) hb.1
  simp only [BLE.event] at hs
  have hx : x = (b.hb_timeout r p n).2.current_ballot ∧
      (b.hb_timeout r p n).2.leader = (b.hb_timeout r p n).2.current_ballot := by
    simp only [BLE.hb_timeout] at h ⊢
    split at h
    · rename_i he; simp at h; exact ⟨h.symm, he⟩
    · simp at h
  refine ⟨?_, hx.1, hx.1.trans hx.2.symm⟩
  rw [hx.1, hs.1, hs.2, hb.2]

/-- C25, third claim: a reply of another round or of another configuration changes nothing. -/
theorem C25_foreign_replies_ignored (b : BLE) (src dst : NodeId) (rep : HeartbeatReply)
    (h : rep.round ≠ b.hb_round ∨ rep.ballot.config_id ≠ b.configuration_id) :
    b.handle ⟨src, dst, .reply rep⟩ = b := by
  simp only [BLE.handle, BLE.handle_reply]
  rw [if_neg]
  omega

/-- A fresh server 2 of configuration 1 does announce its own ballot at its first timeout, when everybody answered with
smaller ballots; and the leader it knows then is that ballot. -/
example : ((([.msg ⟨1, 2, .reply ⟨1, ⟨1, 1, 0, 1⟩, ⟨1, 1, 0, 1⟩, true⟩⟩] : List BLEEvent).foldl BLE.event
    (BLE.with 1 2 [1, 3] 0 none none)).hb_timeout .follower .none {}).1 = some ⟨1, 1, 0, 2⟩ := by decide

/-! ## C34, election -/

/-- C34, for the election component: created on a storage with the promise `b` (of a round that servers are elected in), after
any history, it announces at a timeout only ballots strictly larger than `b`. In particular it does not announce its own
ballot of before the crash. -/
theorem C34_elected_anew (cid pid : Nat) (peers : List NodeId) (prio : Nat) (fq : Option FlexibleQuorum) (b : Ballot)
    (hb : 1 ≤ b.n) (evs : List BLEEvent) (r : Role) (p : Phase) (n x : Ballot)
    (h : ((evs.foldl BLE.event (BLE.with cid pid peers prio fq (some b))).hb_timeout r p n).1 = some x) : b < x := by
  have htime : ∀ (c : BLE) r p n, (b < c.leader ∨ c.leader = b ∧ c.current_ballot.n = 0) →
      (b < (c.hb_timeout r p n).2.leader ∨ (c.hb_timeout r p n).2.leader = b ∧ (c.hb_timeout r p n).2.current_ballot.n = 0) := by
    intro c r p n hc
    have hle := BLE.hb_timeout_le c r p n
    rcases hc with hc | ⟨hc, h0⟩
    · exact .inl (Ballot.lt_of_lt_of_le hc hle)
    · by_cases e : (c.hb_timeout r p n).2.leader = b
      · refine .inr ⟨e, ?_⟩
        by_cases e' : (c.hb_timeout r p n).2.current_ballot = c.current_ballot
        · rw [e']; exact h0
        · exfalso
          have := BLE.hb_timeout_raise c r p n e'
          rw [e, hc] at this
          exact Ballot.lt_irrefl _ this
      · rw [hc] at hle
        rcases BLE.hb_timeout_strict c r p n with h1 | h1
        · exact absurd (h1.trans hc) e
        · exact .inl (hc ▸ h1)
  have hstep : ∀ (c : BLE) (e : BLEEvent), (b < c.leader ∨ c.leader = b ∧ c.current_ballot.n = 0) →
      (b < (c.event e).leader ∨ (c.event e).leader = b ∧ (c.event e).current_ballot.n = 0) := by
    intro c e hc
    cases e with
    | msg m => simpa [BLE.event, BLE.handle_fields, BLE.handle_leader_eq] using hc
    | timeout r p n => exact htime c r p n hc
    | priority q => exact hc
  have hall : ∀ (evs : List BLEEvent) (c : BLE), (b < c.leader ∨ c.leader = b ∧ c.current_ballot.n = 0) →
      (b < (evs.foldl BLE.event c).leader ∨ (evs.foldl BLE.event c).leader = b ∧ (evs.foldl BLE.event c).current_ballot.n = 0) := by
    intro evs
    induction evs with
    | nil => intro c hc; exact hc
    | cons e evs ih => intro c hc; exact ih _ (hstep c e hc)
  have h0 : b ≠ ({} : Ballot) := by rintro rfl; simp at hb
  have hi : b < (BLE.with cid pid peers prio fq (some b)).leader ∨ (BLE.with cid pid peers prio fq (some b)).leader = b ∧
      (BLE.with cid pid peers prio fq (some b)).current_ballot.n = 0 := by
    simp [BLE.with, BLE.new_hb_round, h0]
  obtain ⟨-, h1, h2⟩ := C25_announces_own cid pid peers prio fq (some b) evs r p n x h
  rcases htime _ r p n (hall evs _ hi) with h3 | ⟨h3, h4⟩
  · rw [h2]; exact h3
  · exfalso
    rw [← h1, h2, h3] at h4
    omega

/-- Server 1 led ballot 4; restarted, it announces ballot 5 when both others answered and are unhappy. -/
example : ((([.msg ⟨2, 1, .reply ⟨1, ⟨1, 1, 0, 2⟩, ⟨1, 4, 0, 1⟩, false⟩⟩, .msg ⟨3, 1, .reply ⟨1, ⟨1, 1, 0, 3⟩, ⟨1, 4, 0, 1⟩, false⟩⟩]
    : List BLEEvent).foldl BLE.event (BLE.with 1 1 [2, 3] 0 none (some ⟨1, 4, 0, 1⟩))).hb_timeout .follower .recover ⟨1, 4, 0, 1⟩).1 =
    some ⟨1, 5, 0, 1⟩ := by decide

/-! ## C26 -/

/-- C26 (full claim: "a server raises its own ballot at an election timeout only if it is unhappy, every reply of the round
was unhappy, and the repliers and the server form a prepare quorum". Partial because the code has a second way to raise it,
see `C26_false_after_try_become_leader`, and because replies are counted as messages, see `C26_false_duplicated_reply`.)

At an election timeout a server's own ballot changes in exactly two cases. Either it takes over: every reply of the
round is unhappy, the repliers and the server form a prepare quorum, and it is not itself a leader that can still form a
quorum; the new ballot is strictly larger than the previously known leader ballot and every ballot seen in the round. Or the
replication component already promised a larger ballot of this same server, which is then adopted. -/
theorem C26_takeover_partial (b : BLE) (role : Role) (phase : Phase) (promise : Ballot)
    (h : (b.hb_timeout role phase promise).2.current_ballot ≠ b.current_ballot) :
    ((∀ r ∈ b.heartbeat_replies, r.happy = false) ∧
      b.quorum.is_prepare_quorum (b.heartbeat_replies.length + 1) = true ∧
      ¬ (b.leader = b.current_ballot ∧ (∀ r ∈ b.heartbeat_replies, ¬ b.leader < r.ballot) ∧
          (if role = .leader ∧ phase = .accept then b.quorum.is_accept_quorum else b.quorum.is_prepare_quorum)
            ((b.heartbeat_replies.filter fun r => decide (r.leader ≤ b.current_ballot)).length + 1) = true) ∧
      b.leader < (b.hb_timeout role phase promise).2.current_ballot ∧
      (∀ r ∈ b.heartbeat_replies, r.ballot < (b.hb_timeout role phase promise).2.current_ballot)) ∨
    (promise.pid = b.pid ∧ b.leader < promise ∧ (∀ r ∈ b.heartbeat_replies, r.ballot < promise) ∧
      (b.hb_timeout role phase promise).2.current_ballot = promise) := by
  have hf := BLE.update_leader_fields b
  have hle := BLE.update_leader_le b
  have hge := BLE.update_leader_ge b
  have hnb : (b.update_leader.update_happiness role phase).current_ballot = b.current_ballot := hf.2.1
  have hnl : (b.update_leader.update_happiness role phase).leader = b.update_leader.leader := rfl
  have hnr : (b.update_leader.update_happiness role phase).heartbeat_replies = b.heartbeat_replies := hf.1
  have hnq : (b.update_leader.update_happiness role phase).quorum = b.quorum := hf.2.2.1
  have hnp : (b.update_leader.update_happiness role phase).pid = b.pid := hf.2.2.2.1
  simp only [BLE.hb_timeout_current] at h ⊢
  -- the promise of the own pid is adopted
  by_cases hsync : (b.update_leader.update_happiness role phase).check_takeover.leader < promise ∧ promise.pid = b.pid
  · right
    have h1 := BLE.check_takeover_le (b.update_leader.update_happiness role phase)
    rw [hnl] at h1
    have h2 := Ballot.lt_of_le_of_lt h1 hsync.1
    refine ⟨hsync.2, Ballot.lt_of_le_of_lt hle h2, fun r hr => Ballot.lt_of_le_of_lt (hge r hr) h2, ?_⟩
    rw [if_pos hsync]
  · left
    rw [if_neg hsync] at h ⊢
    revert h
    unfold BLE.check_takeover
    split
    · intro h; exact absurd hnb h
    · rename_i hunhappy
      split
      · rename_i hcond
        intro _
        rw [Bool.and_eq_true, hnr, hnq] at hcond
        obtain ⟨hall, hq⟩ := hcond
        have hall' : ∀ r ∈ b.heartbeat_replies, r.happy = false := by
          intro r hr
          have := List.all_eq_true.1 hall r hr
          simpa using this
        have hlt : b.update_leader.leader < { b.current_ballot with n := b.update_leader.leader.n + 1 } :=
          BLE.lt_raise _ _
        refine ⟨hall', hq, ?_, ?_, ?_⟩
        · rintro ⟨h1, h2, h3⟩
          apply hunhappy
          have hl : b.update_leader.leader = b.current_ballot := by
            rw [← h1]
            unfold BLE.update_leader
            split
            · rename_i m hm
              split
              · rename_i hlt
                have hmem := BLE.maxBallot_mem hm
                rw [List.mem_map] at hmem
                obtain ⟨r, hr, rfl⟩ := hmem
                exact absurd hlt (h2 r hr)
              · rfl
            · rfl
          simp only [BLE.update_happiness, hl, hf, if_true]
          cases role <;> cases phase <;> simp_all
        · rw [hnb, hnl]; exact Ballot.lt_of_le_of_lt hle hlt
        · intro r hr; rw [hnb, hnl]; exact Ballot.lt_of_le_of_lt (hge r hr) hlt
      · intro h; exact absurd hnb h

/-- The replies among `ms` that belong to round `r` of configuration `cid`. -/
def BLEMessage.repliesOf (cid r : Nat) (ms : List BLEMessage) : List HeartbeatReply :=
  ms.filterMap fun m => match m.msg with
    | .reply x => if x.round = r ∧ x.ballot.config_id = cid then some x else none
    | .request _ => none

/-- C26 over a whole round: between two election timeouts the component handles any messages `ms`. None of them changes its own
ballot, and at the timeout it changes it only if all the replies to the requests of this round, from this configuration, were
unhappy and with the server itself make up a prepare quorum (or to adopt a promise of its own, as before). -/
theorem C26_round_partial (b : BLE) (hb : b.heartbeat_replies = []) (ms : List BLEMessage) (role : Role) (phase : Phase)
    (promise : Ballot) :
    (ms.foldl BLE.handle b).current_ballot = b.current_ballot ∧
    (((ms.foldl BLE.handle b).hb_timeout role phase promise).2.current_ballot ≠ b.current_ballot →
      ((∀ r ∈ BLEMessage.repliesOf b.configuration_id b.hb_round ms, r.happy = false) ∧
        b.quorum.is_prepare_quorum ((BLEMessage.repliesOf b.configuration_id b.hb_round ms).length + 1) = true) ∨
      (promise.pid = b.pid ∧ b.leader < promise)) := by
  have key : ∀ (ms : List BLEMessage) (c : BLE), let c' := ms.foldl BLE.handle c
      c'.heartbeat_replies = c.heartbeat_replies ++ BLEMessage.repliesOf c.configuration_id c.hb_round ms ∧
      c'.current_ballot = c.current_ballot ∧ c'.quorum = c.quorum ∧ c'.pid = c.pid ∧ c'.leader = c.leader := by
    intro ms
    induction ms with
    | nil => intro c; simp [BLEMessage.repliesOf]
    | cons m ms ih =>
      intro c
      rw [List.foldl_cons]
      have h := ih (c.handle m)
      have hm : (c.handle m).configuration_id = c.configuration_id ∧ (c.handle m).hb_round = c.hb_round ∧
          (c.handle m).current_ballot = c.current_ballot ∧ (c.handle m).quorum = c.quorum ∧ (c.handle m).pid = c.pid ∧
          (c.handle m).leader = c.leader ∧
          (c.handle m).heartbeat_replies = c.heartbeat_replies ++ BLEMessage.repliesOf c.configuration_id c.hb_round [m] := by
        obtain ⟨src, dst, msg⟩ := m
        cases msg with
        | request r => simp [BLE.handle, BLE.handle_request, BLEMessage.repliesOf]
        | reply x =>
          simp only [BLE.handle, BLE.handle_reply, BLEMessage.repliesOf, List.filterMap_cons, List.filterMap_nil]
          split <;> simp
      obtain ⟨m1, m2, m3, m4, m5, m6, m7⟩ := hm
      rw [m1, m2, m3, m4, m5, m6, m7] at h
      refine ⟨h.1.trans ?_, h.2⟩
      rw [List.append_assoc]
      congr 1
      unfold BLEMessage.repliesOf
      rw [← List.filterMap_append]
      rfl
  obtain ⟨k1, k2, k3, k4, k5⟩ := key ms b
  refine ⟨k2, fun h => ?_⟩
  rw [← k2] at h
  rw [hb, List.nil_append] at k1
  rcases C26_takeover_partial _ _ _ _ h with ⟨h1, h2, -⟩ | ⟨h1, h2, -⟩
  · left; rw [← k1, ← k3]; exact ⟨h1, h2⟩
  · right; rw [← k4, ← k5]; exact ⟨h1, h2⟩

/-- C26, the remaining call that touches the own ballot: a new priority leaves its number, pid and configuration alone. -/
theorem C26_set_priority (b : BLE) (p : Nat) : (b.set_priority p).current_ballot = { b.current_ballot with priority := p } ∧
    (b.set_priority p).leader = b.leader ∧ (b.set_priority p).happy = b.happy ∧
    (b.set_priority p).heartbeat_replies = b.heartbeat_replies := ⟨rfl, rfl, rfl, rfl⟩

/-- A reply of an old round does not count, an unhappy one of this round does. -/
example : BLEMessage.repliesOf 1 7 [⟨2, 1, .reply ⟨6, ⟨1, 1, 0, 2⟩, ⟨1, 1, 0, 3⟩, false⟩⟩, ⟨3, 1, .request 9⟩,
    ⟨3, 1, .reply ⟨7, ⟨1, 1, 0, 3⟩, ⟨1, 1, 0, 3⟩, false⟩⟩] = [⟨7, ⟨1, 1, 0, 3⟩, ⟨1, 1, 0, 3⟩, false⟩] := by decide

/-- A server that hears an unhappy peer only and whose leader is silent does take over. -/
example : (({ BLE.with 1 2 [1, 3] 0 none none with
      leader := ⟨1, 4, 0, 3⟩,
      heartbeat_replies := [⟨1, ⟨1, 1, 0, 1⟩, ⟨1, 4, 0, 3⟩, false⟩] } : BLE).hb_timeout .follower .accept {}).2.current_ballot
    = ⟨1, 5, 0, 2⟩ := by decide

/-- After `try_become_leader` the next timeout raises the own ballot although the server is happy and nobody replied. -/
theorem C26_false_after_try_become_leader :
    ∃ (b : BLE) (promise : Ballot), b.leader = b.current_ballot ∧ b.happy = true ∧ b.heartbeat_replies = [] ∧
      promise.pid = b.pid ∧ b.current_ballot < (b.hb_timeout .leader .prepare promise).2.current_ballot :=
  ⟨BLE.with 1 2 [1, 3] 0 none none, ⟨1, 2, 0, 2⟩, by decide, by decide, by decide, by decide, by decide⟩

/-- The repliers are counted per message: if the network duplicates a reply, one replier can make up a quorum of three
by itself (five servers, one distinct replier). -/
theorem C26_false_duplicated_reply :
    ∃ (b : BLE) (m : BLEMessage), (∀ r ∈ b.heartbeat_replies, False) ∧ b.quorum = Quorum.with none 5 ∧
      ((b.handle m).handle m |>.hb_timeout .follower .accept {}).2.current_ballot ≠ b.current_ballot :=
  ⟨{ BLE.with 1 2 [1, 3, 4, 5] 0 none none with leader := ⟨1, 4, 0, 3⟩ },
   ⟨1, 2, .reply ⟨1, ⟨1, 1, 0, 1⟩, ⟨1, 4, 0, 3⟩, false⟩⟩, by decide, by decide, by decide⟩

end Omni
