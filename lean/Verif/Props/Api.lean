import Verif.Proof.Sat
import Verif.Spec.Messages
import Verif.Proof.Ballot
import Verif.Proof.Batch
import Verif.Spec.Sample
/-
Properties of a single call on one server, for every state of the server: C09 (local part), C24, C28, C29, C30, C33.
-/
namespace Omni

variable {E S : Type} [SnapOps E S]

/-! ## C45 -/

/-- C45, cluster: `validate` accepts exactly the configurations with at least two nodes, a non-zero id, and, if quorum sizes are
given, sizes that overlap, lie between 2 and the number of nodes, and where reading needs at least as many as writing. -/
theorem C45_cluster_config (c : ClusterConfig) :
    c.validate = .ok () ↔ 2 ≤ c.nodes.length ∧ c.configuration_id ≠ 0 ∧
      ∀ q, c.flexible_quorum = some q → c.nodes.length < q.read_quorum_size + q.write_quorum_size ∧
        q.read_quorum_size ≤ c.nodes.length ∧ 2 ≤ q.write_quorum_size ∧ q.write_quorum_size ≤ q.read_quorum_size := by
  unfold ClusterConfig.validate
  cases hq : c.flexible_quorum with
  | none =>
    simp only [reduceCtorEq, false_implies, implies_true, and_true]
    (repeat' split) <;> simp <;> omega
  | some q =>
    simp only [Option.some.injEq, forall_eq']
    (repeat' split) <;> simp <;> omega

/-- C45, server. (A flush timeout of 0 is accepted, see C21_false_flush_timeout_zero.) -/
theorem C45_server_config (c : ServerConfig) :
    c.validate = .ok () ↔ c.pid ≠ 0 ∧ c.buffer_size ≠ 0 ∧ c.batch_size ≠ 0 ∧ c.election_tick_timeout ≠ 0 ∧
      c.resend_message_tick_timeout ≠ 0 := by
  unfold ServerConfig.validate
  (repeat' split) <;> simp <;> omega

/-- C45, build: a server is built exactly if both configurations are valid, its pid is one of the nodes, and there is a node
other than it (two nodes with the same id pass validation, and then `build` panics). If one of the
first three fails, `build` returns an error. -/
theorem C45_build (cfg : OmniPaxosConfig) (d : Mem E S) :
    ((∃ op, OP.build cfg d = some (.ok op)) ↔ cfg.cluster_config.validate = .ok () ∧ cfg.server_config.validate = .ok () ∧
      cfg.server_config.pid ∈ cfg.cluster_config.nodes ∧ ∃ p ∈ cfg.cluster_config.nodes, p ≠ cfg.server_config.pid) ∧
    ((∃ e, OP.build cfg d = some (.error e)) ↔ ¬ (cfg.cluster_config.validate = .ok () ∧ cfg.server_config.validate = .ok () ∧
      cfg.server_config.pid ∈ cfg.cluster_config.nodes)) := by
  have hp : (∃ p ∈ cfg.cluster_config.nodes, p ≠ cfg.server_config.pid) ↔
      SP.peersOf cfg.cluster_config.nodes cfg.server_config.pid ≠ [] := by
    simp [SP.peersOf, List.filter_eq_nil_iff]
  rw [hp]
  unfold OP.build OmniPaxosConfig.validate
  cases hc : cfg.cluster_config.validate with
  | error e => simp
  | ok u =>
    cases hs : cfg.server_config.validate with
    | error e => simp
    | ok u =>
      by_cases hm : cfg.server_config.pid ∈ cfg.cluster_config.nodes
      · simp only [List.contains_iff_mem, hm]
        cases hl : SP.peersOf cfg.cluster_config.nodes cfg.server_config.pid with
        | nil => simp [SP.with, SP.maxPid]
        | cons p ps => simp [SP.with, SP.maxPid]
      · simp [hm]

example : ClusterConfig.validate { configuration_id := 1, nodes := [1, 2, 3, 4], flexible_quorum := some ⟨3, 2⟩ } = .ok () := rfl
example : ClusterConfig.validate { configuration_id := 1, nodes := [1, 2, 3, 4], flexible_quorum := some ⟨2, 2⟩ } =
    .error .quorumsMustOverlap := rfl

/-! ## C33 -/

/-- C33: a configuration that `validate` rejects is handed back with the reason, and the server is unchanged. -/
theorem C33_reconfigure_validates (s : OP E S) (c : ClusterConfig) (md : Option (List Nat)) (e : ConfigError)
    (h : c.validate = .error e) : OP.reconfigure c md s = .ok (.error (.configError e c md)) s := by
  unfold OP.reconfigure; rw [h]; rfl

example : ClusterConfig.validate { configuration_id := 2, nodes := [1] } = .error .needMoreThanOneNode := rfl

/-- C33, all answers: a rejected configuration gives ConfigError; a valid one gives PendingReconfigConfig, again with the argument handed
back and the server unchanged, if the server holds a StopSign; and Ok in all other cases. -/
theorem C33_outcome (s s' : OP E S) (c : ClusterConfig) (md : Option (List Nat)) (r : Except (ProposeErr E) Unit)
    (h : OP.reconfigure c md s = .ok r s') :
    (∀ e, c.validate = .error e → r = .error (.configError e c md) ∧ s' = s) ∧
    (c.validate = .ok () → s.sp.ist.cache.stopsign ≠ none → r = .error (.pendingReconfigConfig c md) ∧ s' = s) ∧
    (c.validate = .ok () → s.sp.ist.cache.stopsign = none → r = .ok ()) := by
  refine ⟨fun e he => ?_, fun hv hs => ?_, fun hv hs => ?_⟩
  · rw [C33_reconfigure_validates s c md e he] at h
    cases h
    exact ⟨rfl, rfl⟩
  · have : M.Sat (OP.reconfigure c md) s (fun r t => r = .error (.pendingReconfigConfig c md) ∧ t = s) (fun _ => True) := by
      have hs' : s.sp.ist.cache.stopsign.isSome = true := Option.isSome_iff_ne_none.2 hs
      simp [OP.reconfigure, hv, OP.sat_onSP, SP.reconfigure, SP.accepted_reconfiguration, hs']
    have h1 := M.sat_ok this h
    exact h1
  · have : M.Sat (OP.reconfigure c md) s (fun r _ => r = .ok ()) (fun _ => True) := by
      simp only [OP.reconfigure, hv, OP.sat_onSP, SP.reconfigure, SP.accepted_reconfiguration, hs, Option.isSome_none, M.sat_bind, M.sat_get, M.sat_ite,
        M.sat_pure]
      exact ⟨nofun, fun _ => M.sat_true _ _⟩
    have h1 := M.sat_ok this h
    exact h1

/-- Concrete case: a fresh server takes a valid configuration. -/
example : ∃ (op op' : OP Nat (List Nat)), OP.build { cluster_config := { configuration_id := 1, nodes := [1, 2, 3] }, server_config := { pid := 1 } } {} = some (.ok op) ∧
    OP.reconfigure { configuration_id := 2, nodes := [2, 3] } none op = .ok (.ok ()) op' ∧ op'.sp.buffered_stopsign.isSome = true := by
  exact ⟨_, _, rfl, rfl, rfl⟩

/-! ## C09, the server that holds a StopSign -/

/-- C09 (append part): once a server holds a StopSign, `append` hands the entry back and changes nothing. -/
theorem C09_append_after_stopsign (s : OP E S) (e : E) (h : s.sp.ist.cache.stopsign.isSome = true) :
    OP.append e s = .ok (.error (.pendingReconfigEntry e)) s := by
  refine M.eq_ok_of_sat ?_
  simp [OP.append, SP.append, SP.accepted_reconfiguration, h]

/-- C09, all answers of `append`: PendingReconfigEntry with the entry, and the server unchanged, if the server holds a StopSign; Ok in
all other cases. Neither a missing leader nor a StopSign that is only buffered makes a difference. -/
theorem C09_append_outcome (s s' : OP E S) (e : E) (r : Except (ProposeErr E) Unit) (h : OP.append e s = .ok r s') :
    (s.sp.ist.cache.stopsign ≠ none → r = .error (.pendingReconfigEntry e) ∧ s' = s) ∧
    (s.sp.ist.cache.stopsign = none → r = .ok ()) := by
  refine ⟨fun hs => ?_, fun hs => ?_⟩
  · rw [C09_append_after_stopsign s e (Option.isSome_iff_ne_none.2 hs)] at h
    cases h
    exact ⟨rfl, rfl⟩
  · have : M.Sat (OP.append e) s (fun r _ => r = .ok ()) (fun _ => True) := by
      simp only [OP.append, OP.sat_onSP, SP.append, SP.accepted_reconfiguration, hs, Option.isSome_none, M.sat_bind, M.sat_get, M.sat_ite,
        M.sat_pure]
      exact ⟨nofun, fun _ => M.sat_true _ _⟩
    have h1 := M.sat_ok this h
    exact h1

/-- Concrete case: a fresh server that has buffered a StopSign still takes an entry. -/
example : ∃ (op op1 op2 : OP Nat (List Nat)), OP.build { cluster_config := { configuration_id := 1, nodes := [1, 2, 3] }, server_config := { pid := 1 } } {} = some (.ok op) ∧
    OP.reconfigure { configuration_id := 2, nodes := [2, 3] } none op = .ok (.ok ()) op1 ∧ OP.append 7 op1 = .ok (.ok ()) op2 ∧
    op2.sp.buffered_proposals = [7] := by
  exact ⟨_, _, _, rfl, rfl, rfl, rfl⟩

/-- C09 (reconfigure part). -/
theorem C09_reconfigure_after_stopsign (s : OP E S) (c : ClusterConfig) (md : Option (List Nat))
    (hc : c.validate = .ok ()) (h : s.sp.ist.cache.stopsign.isSome = true) :
    OP.reconfigure c md s = .ok (.error (.pendingReconfigConfig c md)) s := by
  refine M.eq_ok_of_sat ?_
  simp [OP.reconfigure, hc, SP.reconfigure, SP.accepted_reconfiguration, h]

/-! ## C28 -/

/-- C28: the caller's messages stay in front, then every pending protocol message, then every pending heartbeat, each once
and in order; nothing is pending afterwards. Of the rest of the server only the two caches of positions in the
outgoing buffer are forgotten. -/
theorem C28_take_outgoing (s : OP E S) (buffer : List (Message E S)) :
    (s.take_outgoing_messages buffer).1 = buffer ++ s.sp.outgoing.map .paxos ++ s.ble.outgoing.map .ble ∧
    (s.take_outgoing_messages buffer).2 =
      { s with
        sp := { s.sp with
          outgoing := []
          ls := { s.sp.ls with latest_accept_meta := List.replicate s.sp.ls.max_pid none }
          latest_accepted_meta := none }
        ble := { s.ble with outgoing := [] } } ∧
    ∀ b, ((s.take_outgoing_messages buffer).2.take_outgoing_messages b).1 = b := by
  refine ⟨?_, rfl, ?_⟩
  · simp only [OP.take_outgoing_messages, SP.take_outgoing_msgs]
    cases buffer <;> simp
  · intro b
    simp only [OP.take_outgoing_messages, SP.take_outgoing_msgs]
    cases b <;> simp

/-! ## C24 -/

/-- C24, old numbers: a follower in accept phase ignores a message of its ballot whose number is not larger than the last
one applied. -/
theorem C24_old_ignored (s : SP E S) (m : PaxosMessage E S) (n : Ballot) (q : SeqNum)
    (hm : m.msg.acceptSeq = some (n, q)) (hrole : s.role = .follower) (hphase : s.phase = .accept)
    (hn : s.get_promise.cmp n = .eq)
    (hq : q.session < s.current_seq_num.session ∨
      (q.session = s.current_seq_num.session ∧ q.counter ≤ s.current_seq_num.counter)) :
    SP.handle m s = .ok () s := by
  refine M.eq_ok_of_sat ?_
  have h1 : ¬ (q.session = s.current_seq_num.session ∧ q.counter = s.current_seq_num.counter + 1) := by omega
  unfold SP.handle
  cases hmm : m.msg <;> rw [hmm] at hm <;> simp [PaxosMsg.acceptSeq] at hm <;> obtain ⟨rfl, rfl⟩ := hm <;>
    simp [SP.handle_acceptdecide, SP.handle_accept_stopsign, SP.handle_decide, SP.accept_guard, SP.check_valid_ballot, hn,
      hrole, hphase, SP.handle_sequence_num, SeqNum.check_msg_status, h1, SeqNum.leb, hq]

/-- C24, gaps: if the number is neither the successor of the last one applied nor an old one, nothing is applied: storage
and cache are unchanged and the server asks the leader for a Prepare and goes into recovery. -/
theorem C24_gap_detected (s : SP E S) (m : PaxosMessage E S) (n : Ballot) (q : SeqNum)
    (hm : m.msg.acceptSeq = some (n, q)) (hrole : s.role = .follower) (hphase : s.phase = .accept)
    (hn : s.get_promise.cmp n = .eq) (hpid : n.pid ≠ s.pid)
    (hnext : ¬ (q.session = s.current_seq_num.session ∧ q.counter = s.current_seq_num.counter + 1))
    (hq : ¬ (q.session < s.current_seq_num.session ∨
      (q.session = s.current_seq_num.session ∧ q.counter ≤ s.current_seq_num.counter))) :
    SP.handle m s = .ok () { s with
      phase := .recover
      outgoing := s.outgoing ++ [{ src := s.pid, dst := n.pid, msg := .prepareReq s.get_promise }] } := by
  refine M.eq_ok_of_sat ?_
  have hp : n.pid = s.get_current_leader := ((Ballot.cmp_eq_iff _ _).1 hn).2.2.symm
  unfold SP.handle
  cases hmm : m.msg <;> rw [hmm] at hm <;> simp [PaxosMsg.acceptSeq] at hm <;> obtain ⟨rfl, rfl⟩ := hm <;>
    simp [SP.handle_acceptdecide, SP.handle_accept_stopsign, SP.handle_decide, SP.accept_guard, SP.check_valid_ballot, hn,
      hrole, hphase, SP.handle_sequence_num, SeqNum.check_msg_status, hnext, SeqNum.leb, hq, SP.reconnected, hpid,
      ← hp]

/-- C24, the successor: the message is applied and its number recorded. Its entries are added behind stored log and pending
batch (nothing else of those changes), and its StopSign, if it carries one, is stored. -/
theorem C24_successor_applied (s s' : SP E S) (m : PaxosMessage E S) (n : Ballot) (q : SeqNum)
    (hm : m.msg.acceptSeq = some (n, q)) (hrole : s.role = .follower) (hphase : s.phase = .accept)
    (hn : s.get_promise.cmp n = .eq)
    (hnext : q.session = s.current_seq_num.session ∧ q.counter = s.current_seq_num.counter + 1)
    (hrun : SP.handle m s = .ok () s') :
    s'.current_seq_num = q ∧
    s'.ist.storage.log ++ s'.ist.cache.batched_entries =
      s.ist.storage.log ++ s.ist.cache.batched_entries ++ m.msg.addedEntries ∧
    s'.ist.storage.stopsign = m.msg.addedStopSign.or s.ist.storage.stopsign ∧
    s'.role = .follower ∧ s'.phase = .accept := by
  have hguard : ∀ r, M.Sat (SP.accept_guard n q r) s (fun b t => b = true ∧ t = { s with current_seq_num := q })
      (fun _ => False) := by
    intro r
    cases r <;> simp [SP.accept_guard, SP.check_valid_ballot, hn, hrole, hphase, SP.handle_sequence_num,
      SeqNum.check_msg_status, hnext]
  suffices key : M.Sat (SP.handle m) s (fun _ t => Applied m.msg.addedEntries s q t ∧
      t.ist.storage.stopsign = m.msg.addedStopSign.or s.ist.storage.stopsign) (fun _ => True) by
    obtain ⟨h1, h2⟩ := M.sat_ok key hrun
    exact ⟨h1.1, h1.2, h2, by rw [h1.3, hrole], by rw [h1.4, hphase]⟩
  unfold SP.handle
  cases hmm : m.msg <;> rw [hmm] at hm <;> simp [PaxosMsg.acceptSeq] at hm <;> obtain ⟨rfl, rfl⟩ := hm
  · simp only [SP.handle_acceptdecide, M.sat_bind]
    refine M.sat_mono (hguard _) (fun b t h => ?_) fun _ h => h.elim
    obtain ⟨rfl, rfl⟩ := h
    simp only [if_true, M.sat_bind, SP.sat_onStore]
    refine M.sat_mono (IStore.append_get_spec _ _) (fun o i h => ?_) fun _ h => h.elim
    refine M.sat_mono (SP.update_decided_spec _ _) (fun o i' h' => ?_) fun _ h => h.elim
    refine M.sat_mono (SP.reply_opt_spec _ _ _) (fun o i'' h'' => ?_) fun _ _ => trivial
    refine ⟨(Applied.start h).trans h' h'', ?_⟩
    rw [h''.1, h'.2.1]
    show i.storage.stopsign = _
    rw [h.storage]
    rfl
  · simp only [SP.handle_decide, M.sat_bind]
    refine M.sat_mono (hguard _) (fun b t h => ?_) fun _ h => h.elim
    obtain ⟨rfl, rfl⟩ := h
    simp only [if_true, M.sat_bind]
    refine M.sat_mono (SP.update_decided_spec _ _) (fun o i' h' => ?_) fun _ h => h.elim
    refine M.sat_mono (SP.reply_opt_spec _ _ _) (fun o i'' h'' => ?_) fun _ _ => trivial
    refine ⟨(Applied.refl s _).trans h' h'', ?_⟩
    simp only [h''.1, h'.2.1, PaxosMsg.addedStopSign]
    rfl
  · simp only [SP.handle_accept_stopsign, M.sat_bind]
    refine M.sat_mono (hguard _) (fun b t h => ?_) fun _ h => h.elim
    obtain ⟨rfl, rfl⟩ := h
    simp only [if_true, M.sat_bind, SP.sat_onStore]
    refine M.sat_mono (IStore.flush_batch_spec _) (fun o i h => ?_) fun _ h => h.elim
    refine M.sat_mono (IStore.set_stopsign_spec _ _) (fun o i' h' => ?_) fun _ _ => trivial
    refine M.sat_mono (SP.reply_opt_spec _ (some _) _) (fun o i'' h'' => ?_) fun _ _ => trivial
    refine ⟨⟨by rw [h''.2.1], ?_, by rw [h''.2.2.1], by rw [h''.2.2.2]⟩, ?_⟩
    · rw [h''.1]
      simp only [h'.1, h'.2.1, PaxosMsg.addedEntries]
      simpa using h.1.log
    · simp only [h''.1, h'.2.2, PaxosMsg.addedStopSign]
      rfl

/-! ## C30 -/

/-- C30: a Prepare or accept-phase message of a ballot below the receiver's promise changes nothing but the outgoing
buffer, which may get one NotAccepted. In particular log, decided index, promise and accepted round stay. -/
theorem C30_stale_leader (s : SP E S) (m : PaxosMessage E S) (n : Ballot)
    (hm : m.msg.leaderBallot = some n) (hn : n < s.get_promise) :
    ∃ out, SP.handle m s = .ok () { s with outgoing := s.outgoing ++ out } ∧
      (out = [] ∨ out = [{ src := s.pid, dst := n.pid, msg := .notAccepted s.get_promise }]) := by
  have hgt : s.get_promise.cmp n = .gt := by
    rw [Ballot.cmp_gt_iff]
    exact (Ballot.lt_iff _ _).1 hn
  have h1 : ¬ s.get_promise < n := fun h => Ballot.lt_irrefl _ (Ballot.lt_trans h hn)
  have h2 : ¬ s.get_promise = n := by rintro rfl; exact Ballot.lt_irrefl _ hn
  by_cases hp : ∃ p, m.msg = .prepare p
  · obtain ⟨p, hp⟩ := hp
    rw [hp] at hm
    simp [PaxosMsg.leaderBallot] at hm
    subst hm
    refine ⟨[], M.eq_ok_of_sat ?_, .inl rfl⟩
    unfold SP.handle
    rw [hp]
    simp [SP.handle_prepare, h1, h2]
  · refine ⟨_, M.eq_ok_of_sat ?_, .inr rfl⟩
    unfold SP.handle
    cases hmm : m.msg <;> rw [hmm] at hm <;> simp [PaxosMsg.leaderBallot] at hm
    · exact absurd ⟨_, hmm⟩ hp
    all_goals
      subst hm
      simp [SP.handle_acceptsync, SP.handle_acceptdecide, SP.handle_accept_stopsign, SP.handle_decide, SP.accept_guard,
        SP.check_valid_ballot, hgt]

/-! ## Concrete cases -/

section Example
attribute [local instance] Sample.noSync

/-- C09: the sample storage holds a StopSign; append is refused. -/
example : (Sample.start 1 Sample.disk).map (fun op => op.sp.ist.cache.stopsign.isSome) = some true := by decide +kernel
example : Sample.cc.validate = .ok () := rfl

/-- C28: a restarted server has two PrepareReq and two heartbeat requests pending. -/
example : (Sample.start 1 Sample.disk).map (fun op => (op.take_outgoing_messages []).1.length) = some 4 := by
  decide +kernel

/-- A follower in accept phase that applied number (1, 2) of its leader's ballot. -/
def Api.follower : Option (SP Nat (List Nat)) :=
  (Sample.start 2 { n_prom := some ⟨1, 4, 0, 3⟩, acc_round := some ⟨1, 4, 0, 3⟩, log := [1, 2] }).map fun op =>
    { op.sp with phase := .accept, current_seq_num := ⟨1, 2⟩, outgoing := [] }

/-- What that follower does with AcceptDecide number `q`: recorded number, log, number of messages sent, recovering? -/
def Api.reaction (b : Ballot) (q : SeqNum) : Option (SeqNum × List Nat × Nat × Bool) :=
  Api.follower.bind fun s =>
    match SP.handle ⟨3, 2, .acceptDecide ⟨b, q, 0, [7]⟩⟩ s with
    | .ok () t => some (t.current_seq_num, t.ist.storage.log, t.outgoing.length, decide (t.phase = .recover))
    | .panic _ => none

example : Api.reaction ⟨1, 4, 0, 3⟩ ⟨1, 2⟩ = some (⟨1, 2⟩, [1, 2], 0, false) := by decide +kernel
example : Api.reaction ⟨1, 4, 0, 3⟩ ⟨1, 3⟩ = some (⟨1, 3⟩, [1, 2, 7], 1, false) := by decide +kernel
example : Api.reaction ⟨1, 4, 0, 3⟩ ⟨1, 4⟩ = some (⟨1, 2⟩, [1, 2], 1, true) := by decide +kernel
example : Api.reaction ⟨1, 4, 0, 3⟩ ⟨2, 1⟩ = some (⟨1, 2⟩, [1, 2], 1, true) := by decide +kernel
/-- C30: a ballot below the promise. -/
example : Api.reaction ⟨1, 3, 0, 3⟩ ⟨1, 3⟩ = some (⟨1, 2⟩, [1, 2], 1, false) := by decide +kernel
end Example

end Omni
