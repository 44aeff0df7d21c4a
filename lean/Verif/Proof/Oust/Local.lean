import Verif.Proof.Silent.Beats
/-
A leader that falls silent: the election timeouts of the others.
-/
namespace Omni

variable {cc : ClusterConfig} {n : Ballot} {L : List NodeId} {pr : NodeId → Nat} {k : NodeId}

/-- The ballot with which server `j` takes over from `n`. -/
def cand (cc : ClusterConfig) (n : Ballot) (pr : NodeId → Nat) (j : NodeId) : Ballot :=
  { config_id := cc.configuration_id, n := n.n + 1, priority := pr j, pid := j }

theorem lt_cand (j : NodeId) : n < cand cc n pr j := by
  rw [Ballot.lt_iff]
  exact .inl (Nat.lt_succ_self _)

theorem cand_ne (j : NodeId) : cand cc n pr j ≠ n := fun e => by
  have := lt_cand (cc := cc) (n := n) (pr := pr) j
  rw [e] at this
  exact Ballot.lt_irrefl n this

theorem cand_inj {i j : NodeId} (h : cand cc n pr i = cand cc n pr j) : i = j := congrArg Ballot.pid h

/-- What server `j` says while the servers `L` look for somebody in the place of `n`. -/
structure Word (cc : ClusterConfig) (n : Ballot) (L : List NodeId) (pr : NodeId → Nat) (j : NodeId) (r : HeartbeatReply) : Prop where
  config : r.ballot.config_id = cc.configuration_id
  sender : r.ballot.pid = j
  ballot : r.ballot ≤ n ∨ (j ∈ L ∧ r.ballot = cand cc n pr j)
  lead : r.leader = n ∨ ∃ i ∈ L, r.leader = cand cc n pr i
  happy : r.leader ≠ n → r.happy = true
  above : ¬ r.ballot ≤ n → r.ballot ≤ r.leader

theorem word_signed : Signed cc (Word cc n L pr) :=
  ⟨fun h => h.config, fun h => h.sender, fun _ h => ⟨h.config, h.sender, h.ballot, h.lead, h.happy, h.above⟩⟩

theorem Word.of_loyal {j : NodeId} {r : HeartbeatReply} (h : r.Loyal cc.configuration_id n j) : Word cc n L pr j r :=
  ⟨h.config, h.sender, .inl h.ballot, .inl h.leader, fun _ => h.happy, fun hc => absurd h.ballot hc⟩

theorem BLE.sync_new (b : BLE) (p : Ballot) : b.new_hb_round.sync_with_promise p = (b.sync_with_promise p).new_hb_round := by
  unfold BLE.sync_with_promise
  by_cases h : b.leader < p
  · rw [if_pos (show b.new_hb_round.leader < p from h), if_pos h]; rfl
  · rw [if_neg (show ¬ b.new_hb_round.leader < p from h), if_neg h]

theorem PrepareQuorum.is_quorum {W : List NodeId} (h : PrepareQuorum cc W) {k : Nat} (hk : W.length ≤ k) :
    (Quorum.with cc.flexible_quorum cc.nodes.length).is_prepare_quorum k = true := by
  have := h.size
  cases hf : cc.flexible_quorum with
  | none => rw [hf] at this; simp only [Quorum.with, Quorum.is_prepare_quorum, decide_eq_true_eq]; omega
  | some q => rw [hf] at this; simp only [Quorum.with, Quorum.is_prepare_quorum, decide_eq_true_eq]; omega

/-- What an election timeout makes of `b`. -/
structure Outcome (cc : ClusterConfig) (n : Ballot) (pr : NodeId → Nat) (k : NodeId) (p : Ballot) (b b' : BLE) : Prop where
  prio : b'.current_ballot.priority = pr k
  rises : b.leader ≤ b'.leader
  own : b'.current_ballot = b.current_ballot ∨ (b'.current_ballot = cand cc n pr k ∧ b.leader = n)
  ge : ∀ r ∈ b.heartbeat_replies, r.ballot ≤ b'.leader
  source : b'.leader = b.leader ∨ (∃ r ∈ b.heartbeat_replies, b'.leader = r.ballot) ∨ b'.leader = p ∨
    (b'.leader = cand cc n pr k ∧ b'.current_ballot = cand cc n pr k)
  sad : b'.leader = n → (∀ r ∈ b.heartbeat_replies, r.ballot ≠ n) → b'.happy = false
  missed : b'.leader = n → (∀ r ∈ b.heartbeat_replies, r.ballot ≠ n) → ∃ r ∈ b.heartbeat_replies, r.happy = true

/-- The election timeout of a server that has heard from all of `L`. -/
theorem BLE.Tied.ousted {b : BLE} (h : b.Tied (Word cc n L pr) cc k) (hk : k ∈ L) (hn : n.pid ∉ L) (hpr : b.current_ballot.priority = pr k)
    (hqa : AcceptQuorum cc L) (hqp : PrepareQuorum cc L) (got : ∀ i ∈ L, i ≠ k → ∃ r ∈ b.heartbeat_replies, r.ballot.pid = i)
    (mine : b.leader = cand cc n pr k → b.current_ballot = cand cc n pr k)
    (seen : ∀ i ∈ L, i ≠ k → b.leader = cand cc n pr i → ∀ r ∈ b.heartbeat_replies, r.ballot.pid = i → r.ballot = cand cc n pr i)
    {p : Ballot} (hp : p ≤ n ∨ ∃ i ∈ L, p = cand cc n pr i ∧ (i = k → b.current_ballot = cand cc n pr k)) (role : Role) (phase : Phase) :
    ∃ b' : BLE, b'.Alike b ∧ Word cc n L pr k { round := b'.hb_round, ballot := b'.current_ballot, leader := b'.leader, happy := b'.happy } ∧
      (b.hb_timeout role phase p).2 = b'.new_hb_round ∧ Outcome cc n pr k p b b' := by
  have hs := h.tells
  have hcp : b.current_ballot.pid = k := hs.sender
  have hr : ∀ r ∈ b.heartbeat_replies, ∃ j, Word cc n L pr j r := fun r hr => by
    obtain ⟨j, _, h1⟩ := h.replies r hr
    exact ⟨j, h1⟩
  have hle : n ≤ b.leader := by
    rcases hs.lead with e | ⟨i, _, e⟩
    · exact Ballot.le_of_eq e.symm
    · exact Ballot.le_of_lt (by rw [show b.leader = _ from e]; exact lt_cand i)
  -- the greatest ballot heard of
  obtain ⟨u, hu⟩ : ∃ u, u = b.update_leader.leader := ⟨_, rfl⟩
  have e1 : b.update_leader = { b with leader := u } := by
    subst hu
    unfold BLE.update_leader
    split
    · split <;> rfl
    · rfl
  have ru : b.leader ≤ u := by rw [hu]; exact BLE.update_leader_le b
  have gu : ∀ r ∈ b.heartbeat_replies, r.ballot ≤ u := by rw [hu]; exact BLE.update_leader_ge b
  have su : u = b.leader ∨ ∃ r ∈ b.heartbeat_replies, u = r.ballot ∧ n < r.ballot := by
    rw [hu]
    unfold BLE.update_leader
    split
    · rename_i m hm
      split
      · rename_i hlt
        obtain ⟨r, hrm, e⟩ := List.mem_map.1 (BLE.maxBallot_mem hm)
        exact .inr ⟨r, hrm, e.symm, by rw [e]; exact Ballot.lt_of_le_of_lt hle hlt⟩
      · exact .inl rfl
    · exact .inl rfl
  have cu : u = n ∨ ∃ i ∈ L, u = cand cc n pr i := by
    rcases su with e | ⟨r, hrm, e, hlt⟩
    · rw [e]; exact hs.lead
    · obtain ⟨j, hj⟩ := hr r hrm
      rcases hj.ballot with h1 | ⟨h1, h2⟩
      · exact absurd h1 (Ballot.not_le.2 hlt)
      · exact .inr ⟨j, h1, e.trans h2⟩
  -- contentment
  obtain ⟨x, hx⟩ : ∃ x, x = (({ b with leader := u } : BLE).update_happiness role phase).happy := ⟨_, rfl⟩
  have e2 : ({ b with leader := u } : BLE).update_happiness role phase = { b with leader := u, happy := x } := by subst hx; rfl
  have xT : u ≠ n → x = true := by
    intro hun
    rw [hx]
    simp only [BLE.update_happiness]
    by_cases hc : u = b.current_ballot
    · rw [if_pos hc]
      by_cases hbig : ∃ r ∈ b.heartbeat_replies, b.current_ballot < r.leader
      · obtain ⟨r, hrm, hlt⟩ := hbig
        obtain ⟨j, hj⟩ := hr r hrm
        have hh : r.happy = true := hj.happy fun e => by
          rw [e, ← hc] at hlt
          exact Ballot.lt_irrefl _ (Ballot.lt_of_le_of_lt (Ballot.le_trans hle ru) hlt)
        have : (b.heartbeat_replies.any fun r => decide (b.current_ballot < r.leader) && r.happy) = true :=
          List.any_eq_true.2 ⟨r, hrm, by rw [hh, decide_eq_true hlt]; rfl⟩
        rw [this]
        split
        · exact ite_self _
        · exact ite_self _
      · have hf : (b.heartbeat_replies.filter fun r => decide (r.leader ≤ b.current_ballot)) = b.heartbeat_replies := by
          rw [List.filter_eq_self]
          intro r hrm
          exact decide_eq_true (Ballot.not_lt.1 fun hlt => hbig ⟨r, hrm, hlt⟩)
        have hl : L.length ≤ b.heartbeat_replies.length + 1 := by
          have hL := count_heard (Q := L.erase k) (List.Nodup.sublist List.erase_sublist hqa.distinct) (rs := b.heartbeat_replies) fun j hj => got j (List.mem_of_mem_erase hj)
            fun e => by
              subst e
              exact (List.Nodup.not_mem_erase hqa.distinct) hj
          have := List.length_erase_of_mem hk
          have := List.length_pos_of_mem hk
          omega
        simp only [hf, h.quorum]
        refine if_pos ?_
        split
        · exact hqa.is_quorum hl
        · exact hqp.is_quorum hl
    · rw [if_neg hc]
      obtain ⟨r, hrm, e, hn⟩ : ∃ r ∈ b.heartbeat_replies, r.ballot = u ∧ n < r.ballot := by
        rcases su with e | ⟨r, hrm, e, hlt⟩
        · rcases hs.lead with e' | ⟨i, hi, e'⟩
          · exact absurd (e.trans e') hun
          · by_cases hik : i = k
            · subst hik
              exact absurd ((e.trans e').trans (mine e').symm) hc
            · obtain ⟨r, hrm, hp⟩ := got i hi hik
              have := seen i hi hik e' r hrm hp
              exact ⟨r, hrm, this.trans (e.trans e').symm, by rw [this]; exact lt_cand i⟩
        · exact ⟨r, hrm, e.symm, hlt⟩
      obtain ⟨j, hj⟩ := hr r hrm
      have hh : r.happy = true := hj.happy fun e => by
        have := hj.above (Ballot.not_le.2 hn)
        rw [e] at this
        exact Ballot.lt_irrefl _ (Ballot.lt_of_lt_of_le hn this)
      exact List.any_eq_true.2 ⟨r, hrm, by rw [hh, decide_eq_true e]; rfl⟩
  have xF : u = n → (∀ r ∈ b.heartbeat_replies, r.ballot ≠ n) → x = false := by
    intro hun hno
    rw [hx]
    simp only [BLE.update_happiness]
    rw [if_neg fun e => hn (by rw [← hun, show u = b.current_ballot from e, hcp]; exact hk), hun, List.any_eq_false]
    intro r hrm
    rw [decide_eq_false (hno r hrm)]
    simp
  have hcand : ({ b.current_ballot with n := n.n + 1 } : Ballot) = cand cc n pr k := by
    unfold cand
    rw [← hpr]
    have h1 : b.current_ballot.config_id = cc.configuration_id := hs.config
    rw [← h1, ← hcp]
  -- taking over
  obtain ⟨b3, hb3⟩ : ∃ b3, b3 = ({ b with leader := u, happy := x } : BLE).check_takeover := ⟨_, rfl⟩
  have t3 : b3 = { b with leader := u, happy := x } ∧ (x = false → ∃ r ∈ b.heartbeat_replies, r.happy = true) ∨
      u = n ∧ b3 = { b with current_ballot := cand cc n pr k, leader := cand cc n pr k, happy := true } := by
    rw [hb3]
    unfold BLE.check_takeover
    by_cases hxt : x = true
    · rw [if_pos hxt]
      exact .inl ⟨rfl, fun e => by rw [hxt] at e; cases e⟩
    · rw [if_neg hxt]
      have hun : u = n := Decidable.byContradiction fun hc => hxt (xT hc)
      split
      · right
        refine ⟨hun, ?_⟩
        simp only [hun, hcand]
      · rename_i hq
        refine .inl ⟨rfl, fun _ => ?_⟩
        have hl : L.length ≤ b.heartbeat_replies.length + 1 := by
          have hL := count_heard (Q := L.erase k) (List.Nodup.sublist List.erase_sublist hqa.distinct) (rs := b.heartbeat_replies) fun j hj => got j (List.mem_of_mem_erase hj)
            fun e => by
              subst e
              exact (List.Nodup.not_mem_erase hqa.distinct) hj
          have := List.length_erase_of_mem hk
          have := List.length_pos_of_mem hk
          omega
        rw [h.quorum, hqp.is_quorum hl, Bool.and_true, List.all_eq_true] at hq
        simpa using hq
  have w3 : Word cc n L pr k { round := b3.hb_round, ballot := b3.current_ballot, leader := b3.leader, happy := b3.happy } ∧ b3.Alike b ∧
      Outcome cc n pr k p b b3 := by
    rcases t3 with ⟨rfl, hm⟩ | ⟨hun, rfl⟩
    · refine ⟨⟨hs.config, hs.sender, hs.ballot, cu, xT, fun hc => Ballot.le_trans (hs.above hc) ru⟩, ⟨rfl, rfl, rfl, rfl, rfl, rfl⟩, hpr, ru, .inl rfl, gu, ?_, xF,
        fun e hno => hm (xF e hno)⟩
      rcases su with e | ⟨r, hrm, e, _⟩
      · exact .inl e
      · exact .inr (.inl ⟨r, hrm, e⟩)
    · have hbn : b.leader = n := by
        rcases hs.lead with e | ⟨i, _, e⟩
        · exact e
        · exact absurd (show n < n by
            refine Ballot.lt_of_lt_of_le (lt_cand (cc := cc) (pr := pr) i) ?_
            rw [← show b.leader = _ from e, ← hun]
            exact ru) (Ballot.lt_irrefl n)
      refine ⟨⟨rfl, rfl, .inr ⟨hk, rfl⟩, .inr ⟨k, hk, rfl⟩, fun _ => rfl, fun _ => Ballot.le_refl _⟩, ⟨rfl, rfl, rfl, rfl, rfl, rfl⟩, rfl, ?_, .inr ⟨rfl, hbn⟩, ?_,
        .inr (.inr (.inr ⟨rfl, rfl⟩)), fun e => absurd e (cand_ne k), fun e => absurd e (cand_ne k)⟩
      · rw [hbn]; exact Ballot.le_of_lt (lt_cand k)
      · intro r hrm
        exact Ballot.le_trans (gu r hrm) (by rw [hun]; exact Ballot.le_of_lt (lt_cand k))
  obtain ⟨w, al, o⟩ := w3
  have hto : (b.hb_timeout role phase p).2 = (b3.sync_with_promise p).new_hb_round := by
    unfold BLE.hb_timeout
    simp only [e1, e2, ← hb3, BLE.sync_new]
  rw [hto]
  -- the promise
  by_cases hlt : b3.leader < p
  · have hle3 : n ≤ b3.leader := Ballot.le_trans hle o.rises
    obtain ⟨i, hi, ep, hik⟩ : ∃ i ∈ L, p = cand cc n pr i ∧ (i = k → b.current_ballot = cand cc n pr k) := by
      rcases hp with h1 | h1
      · exact absurd (Ballot.lt_of_lt_of_le hlt h1) (Ballot.not_lt.2 hle3)
      · exact h1
    have hne : i ≠ k := by
      rintro rfl
      have h1 := hs.above (by rw [show b.current_ballot = _ from hik rfl]; exact Ballot.not_le.2 (lt_cand i))
      rw [show b.current_ballot = _ from hik rfl] at h1
      exact Ballot.lt_irrefl _ (Ballot.lt_of_le_of_lt (Ballot.le_trans h1 o.rises) (ep ▸ hlt))
    have es : b3.sync_with_promise p = { b3 with leader := p, happy := true } := by
      unfold BLE.sync_with_promise
      rw [if_pos hlt, if_neg]
      rw [ep, al.pid, h.pid]
      exact hne
    rw [es]
    have hpn : p ≠ n := by rw [ep]; exact cand_ne i
    refine ⟨{ b3 with leader := p, happy := true }, ⟨al.config, al.pid, al.peers, al.quorum, al.round, al.outgoing⟩, ⟨w.config, w.sender, w.ballot, .inr ⟨i, hi, ep⟩, fun _ => rfl,
      fun hc => Ballot.le_trans (w.above hc) (Ballot.le_of_lt hlt)⟩, rfl, o.prio, Ballot.le_trans o.rises (Ballot.le_of_lt hlt), o.own,
      fun r hrm => Ballot.le_trans (o.ge r hrm) (Ballot.le_of_lt hlt), .inr (.inr (.inl rfl)), fun e => absurd e hpn, fun e => absurd e hpn⟩
  · have es : b3.sync_with_promise p = b3 := by
      unfold BLE.sync_with_promise
      rw [if_neg hlt]
    rw [es]
    exact ⟨b3, al, w, rfl, o⟩

end Omni
