import Verif.Proof.Steady.End
import Verif.Proof.Election
import Verif.Proof.Rounds
import Verif.Spec.Beats
/-
Heartbeats in steady operation: the election component, and the tick of a server.
-/
namespace Omni

variable {E S : Type} {n : Ballot} {cc : ClusterConfig} {i : NodeId}

/-- What server `j` says in a heartbeat when ballot `n` is the greatest: that its own is no greater, that it follows no greater, and that it is content;
`n.pid` says that `n` is its own. -/
structure HeartbeatReply.Weak (cid : Nat) (n : Ballot) (j : NodeId) (r : HeartbeatReply) : Prop where
  config : r.ballot.config_id = cid
  sender : r.ballot.pid = j
  ballot : r.ballot ≤ n
  own : j = n.pid → r.ballot = n
  leader : r.leader ≤ n
  lconfig : r.leader.config_id = n.config_id
  lead : j = n.pid → r.leader = n
  happy : r.happy = true

/-- The election component of server `i`, of which everybody says `R`. -/
structure BLE.Tied (R : NodeId → HeartbeatReply → Prop) (cc : ClusterConfig) (i : NodeId) (b : BLE) : Prop where
  config : b.configuration_id = cc.configuration_id
  pid : b.pid = i
  peers : b.peers = SP.peersOf cc.nodes i
  quorum : b.quorum = Quorum.with cc.flexible_quorum cc.nodes.length
  tells : R i { round := b.hb_round, ballot := b.current_ballot, leader := b.leader, happy := b.happy }
  replies : ∀ r ∈ b.heartbeat_replies, ∃ j ∈ cc.nodes, R j r
  outgoing : ∀ m ∈ b.outgoing, m.src = i ∧ ∀ r, m.msg = .reply r → R i r

/-- The same but for ballots, contentment and replies. -/
structure BLE.Alike (b' b : BLE) : Prop where
  config : b'.configuration_id = b.configuration_id
  pid : b'.pid = b.pid
  peers : b'.peers = b.peers
  quorum : b'.quorum = b.quorum
  round : b'.hb_round = b.hb_round
  outgoing : b'.outgoing = b.outgoing

/-- Heartbeats name their sender and the configuration. -/
structure Signed (cc : ClusterConfig) (R : NodeId → HeartbeatReply → Prop) : Prop where
  config : ∀ {j r}, R j r → r.ballot.config_id = cc.configuration_id
  sender : ∀ {j r}, R j r → r.ballot.pid = j
  round : ∀ {j r} x, R j r → R j { r with round := x }

/-- What heartbeats may say in runs in which nobody but `n.pid` is elected. -/
structure Vow (cc : ClusterConfig) (n : Ballot) (R : NodeId → HeartbeatReply → Prop) : Prop where
  weak : ∀ {j r}, R j r → r.Weak cc.configuration_id n j
  round : ∀ {j r} x, R j r → R j { r with round := x }
  next : ∀ {j r} x, R j r → R j { round := x, ballot := r.ballot, leader := n, happy := true }

theorem Vow.signed {R : NodeId → HeartbeatReply → Prop} (v : Vow cc n R) : Signed cc R :=
  ⟨fun h => (v.weak h).config, fun h => (v.weak h).sender, v.round⟩

theorem vow_weak (cc : ClusterConfig) (n : Ballot) : Vow cc n (fun j r => r.Weak cc.configuration_id n j) :=
  ⟨id, fun _ h => ⟨h.config, h.sender, h.ballot, h.own, h.leader, h.lconfig, h.lead, h.happy⟩,
    fun _ h => ⟨h.config, h.sender, h.ballot, h.own, Ballot.le_refl n, rfl, fun _ => rfl, rfl⟩⟩

theorem vow_loyal (cc : ClusterConfig) (n : Ballot) : Vow cc n (fun j r => r.Loyal cc.configuration_id n j) :=
  ⟨fun h => ⟨h.config, h.sender, h.ballot, h.own, by rw [h.leader]; exact Ballot.le_refl n, by rw [h.leader], fun _ => h.leader, h.happy⟩,
    fun _ h => ⟨h.config, h.sender, h.ballot, h.own, h.leader, h.happy⟩,
    fun _ h => ⟨h.config, h.sender, h.ballot, h.own, rfl, rfl⟩⟩

/-- An election timeout at a server that has heard from enough others: it follows `n` afterwards, and elects nobody else. -/
theorem BLE.Tied.timeout {R : NodeId → HeartbeatReply → Prop} {b : BLE} (h : b.Tied R cc i) (v : Vow cc n R) {role : Role} {phase : Phase} {p : Ballot} (hp : p ≤ n)
    (hF : i ≠ n.pid → ∃ r ∈ b.heartbeat_replies, r.ballot.pid = n.pid)
    (hL : i = n.pid → (match role, phase with
        | .leader, .accept => b.quorum.is_accept_quorum (b.heartbeat_replies.length + 1)
        | _, _ => b.quorum.is_prepare_quorum (b.heartbeat_replies.length + 1)) = true) :
    ∃ b' : BLE, b'.Alike b ∧ R i { round := b'.hb_round, ballot := b'.current_ballot, leader := b'.leader, happy := b'.happy } ∧
      (b.hb_timeout role phase p).2 = b'.new_hb_round ∧ (b.hb_timeout role phase p).1 = if i = n.pid then some n else none := by
  have hs := v.weak h.tells
  have hr : ∀ r ∈ b.heartbeat_replies, ∃ j ∈ cc.nodes, r.Weak cc.configuration_id n j := fun r hr => by
    obtain ⟨j, hj, h1⟩ := h.replies r hr
    exact ⟨j, hj, v.weak h1⟩
  have h1 : b.update_leader = { b with leader := n } := by
    unfold BLE.update_leader
    split
    · rename_i m hm
      obtain ⟨r, hrm, e⟩ := List.mem_map.1 (BLE.maxBallot_mem hm)
      obtain ⟨j, _, hj⟩ := hr r hrm
      have hmn : m ≤ n := e ▸ hj.ballot
      by_cases hi : i = n.pid
      · have := hs.lead hi
        simp only at this
        rw [if_neg (by rw [this]; exact Ballot.not_lt.2 hmn), ← this]
      · obtain ⟨r', hr', hp'⟩ := hF hi
        obtain ⟨j', _, hj'⟩ := hr r' hr'
        have e' := hj'.own (hj'.sender.symm.trans hp')
        have h2 := BLE.maxBallot_ge hm _ (List.mem_map_of_mem hr')
        rw [e'] at h2
        have hcn : n.config_id = cc.configuration_id := e' ▸ hj'.config
        have hmn : m = n := Ballot.le_antisymm (by rw [← e, hj.config, hcn]) hmn h2
        subst hmn
        split
        · rfl
        · rename_i hlt
          have : b.leader = m := Ballot.le_antisymm hs.lconfig hs.leader (Ballot.not_lt.1 hlt)
          rw [← this]
    · rename_i hm
      by_cases hi : i = n.pid
      · have := hs.lead hi
        simp only at this
        rw [← this]
      · obtain ⟨r', hr', hp'⟩ := hF hi
        cases hb : b.heartbeat_replies with
        | nil => rw [hb] at hr'; cases hr'
        | cons x xs => rw [hb] at hm; cases hm
  have h2 : ({ b with leader := n } : BLE).update_happiness role phase = { b with leader := n, happy := true } := by
    unfold BLE.update_happiness
    have : ∀ v, v = true → ({ { b with leader := n } with happy := v } : BLE) = { b with leader := n, happy := true } := by
      rintro _ rfl
      rfl
    refine this _ ?_
    by_cases hi : i = n.pid
    · have hc : b.current_ballot = n := hs.own hi
      rw [if_pos (show n = b.current_ballot from hc.symm)]
      have hf : (b.heartbeat_replies.filter fun r => decide (r.leader ≤ b.current_ballot)) = b.heartbeat_replies := by
        rw [List.filter_eq_self]
        intro r hrm
        obtain ⟨j, _, hj⟩ := hr r hrm
        rw [hc]
        exact decide_eq_true hj.leader
      have hq := hL hi
      simp only [hf]
      exact if_pos hq
    · obtain ⟨r, hrm, hp⟩ := hF hi
      obtain ⟨j, _, hj⟩ := hr r hrm
      have hc : b.current_ballot.pid = i := hs.sender
      rw [if_neg]
      · rw [List.any_eq_true]
        refine ⟨r, hrm, ?_⟩
        rw [hj.own (hj.sender.symm.trans hp), hj.happy]
        simp
      · show ¬ n = b.current_ballot
        intro e
        exact hi (by rw [e]; exact hc.symm)
  have h3 : ({ b with leader := n, happy := true } : BLE).check_takeover = { b with leader := n, happy := true } := by rw [BLE.check_takeover, if_pos rfl]
  have h4 : ({ b with leader := n, happy := true } : BLE).new_hb_round.sync_with_promise p = ({ b with leader := n, happy := true } : BLE).new_hb_round := by
    rw [BLE.sync_with_promise, if_neg]
    show ¬ n < p
    exact Ballot.not_lt.2 hp
  refine ⟨{ b with leader := n, happy := true }, ⟨rfl, rfl, rfl, rfl, rfl, rfl⟩, v.next _ h.tells, ?_, ?_⟩
  · unfold BLE.hb_timeout
    simp only [h1, h2, h3, h4]
  · unfold BLE.hb_timeout
    simp only [h1, h2, h3, h4]
    show (if n = b.current_ballot then some b.current_ballot else none) = _
    by_cases hi : i = n.pid
    · have hc : b.current_ballot = n := hs.own hi
      rw [if_pos hi, if_pos hc.symm, hc]
    · rw [if_neg hi, if_neg]
      intro e
      exact hi (by rw [e]; exact hs.sender.symm)

theorem AcceptQuorum.is_quorum {W : List NodeId} (h : AcceptQuorum cc W) {k : Nat} (hk : W.length ≤ k) :
    (Quorum.with cc.flexible_quorum cc.nodes.length).is_accept_quorum k = true := by
  have := h.size
  cases hf : cc.flexible_quorum with
  | none => rw [hf] at this; simp only [Quorum.with, Quorum.is_accept_quorum, decide_eq_true_eq]; omega
  | some q => rw [hf] at this; simp only [Quorum.with, Quorum.is_accept_quorum, decide_eq_true_eq]; omega

/-- Replies of different servers are different replies. -/
theorem count_heard {Q : List NodeId} (hQ : Q.Nodup) : ∀ {rs : List HeartbeatReply}, (∀ j ∈ Q, ∃ r ∈ rs, r.ballot.pid = j) → Q.length ≤ rs.length := by
  induction Q with
  | nil => intro rs _; exact Nat.zero_le _
  | cons q Q ih =>
    intro rs h
    obtain ⟨h1, h2⟩ := List.nodup_cons.1 hQ
    obtain ⟨r, hr, hp⟩ := h q List.mem_cons_self
    have := ih h2 (rs := rs.erase r) fun j hj => by
      obtain ⟨r', hr', hp'⟩ := h j (List.mem_cons_of_mem _ hj)
      refine ⟨r', (List.mem_erase_of_ne ?_).2 hr', hp'⟩
      rintro rfl
      exact h1 (hp.symm.trans hp' ▸ hj)
    have h3 := List.length_erase_of_mem hr
    have h4 := List.length_pos_of_mem hr
    simp only [List.length_cons]
    omega

/-- What a tick makes of the election component. -/
def OP.elects (op : OP E S) : Option Ballot × BLE :=
  if op.election_clock.tick_and_check_timeout.1 = true then op.ble.hb_timeout op.sp.role op.sp.phase op.sp.get_promise else (none, op.ble)

/-- omni_paxos.rs 376-386. -/
theorem OP.tick_parts {op : OP E S} {Q : SP E S → Prop} {P : SP E S → Prop}
    (h : ∀ r w, ∀ [Decidable r] [Decidable w], M.Sat (SP.ticked op.elects.1 r w) op.sp (fun _ => Q) P) :
    M.Sat OP.tick op (fun _ o => Q o.sp ∧ o.ble = op.elects.2) (fun o => P o.sp) := by
  have h := h (op.resend_message_clock.tick_and_check_timeout.1 = true) (op.flush_batch_clock.tick_and_check_timeout.1 = true)
  have hkeep : ∀ {α : Type} (m : M (SP E S) α) (s : SP E S) (R : α → SP E S → Prop) (P : SP E S → Prop) (q : Prop), q → M.Sat m s R P →
      M.Sat m s (fun a s' => R a s' ∧ q) P := fun m s R P q hq hm => M.sat_mono hm (fun _ _ h => ⟨h, hq⟩) fun _ h => h
  simp only [OP.tick, M.sat_bind, M.sat_get, M.sat_upd, M.sat_whenDo, OP.sat_onSP, OP.election_timeout]
  unfold OP.elects at h ⊢
  by_cases he : op.election_clock.tick_and_check_timeout.1 = true
  · rw [if_pos he] at h ⊢
    refine ⟨fun _ => ?_, fun hc => absurd he hc⟩
    cases hb : (op.ble.hb_timeout op.sp.role op.sp.phase op.sp.get_promise).1 with
    | none =>
      rw [hb] at h
      have h := hkeep _ _ _ _ _ (rfl : (op.ble.hb_timeout op.sp.role op.sp.phase op.sp.get_promise).2 = _) h
      simp only [SP.ticked, M.sat_bind, M.sat_pure, M.sat_whenDo] at h ⊢
      exact h
    | some b =>
      rw [hb] at h
      have h := hkeep _ _ _ _ _ (rfl : (op.ble.hb_timeout op.sp.role op.sp.phase op.sp.get_promise).2 = _) h
      simp only [SP.ticked, M.sat_bind, M.sat_pure, M.sat_whenDo, OP.sat_onSP] at h ⊢
      exact h
  · rw [if_neg he] at h ⊢
    refine ⟨fun hc => absurd hc he, fun _ => ?_⟩
    have h := hkeep _ _ _ _ _ (rfl : op.ble = _) h
    simp only [SP.ticked, M.sat_bind, M.sat_pure, M.sat_whenDo] at h ⊢
    exact h

end Omni
