import Verif.Props.Resend
import Verif.Props.CatchUp
import Verif.Proof.SendOnly
import Verif.Proof.Batch
import Verif.Proof.Ballot
/-
C65: a reconfiguration that the servers have accepted completes once messages get through. The code violates this (finding F23).

A leader whose StopSign is not decided repeats its AcceptStopSign at every resend timeout, to the followers from which it has no
Accepted for it (leader.rs 371-390). The repetition has the number of the first AcceptStopSign (leader.rs 223-238). If that one was
lost, the follower takes the repetition (`C65_accepts_partial`), and its answer lets the leader decide (`C65_decides_partial`).
If instead the Accepted was lost, the follower has seen the number, takes the repetition for an old message (util.rs 382-390,
follower.rs 229-238) and does not answer it. Nothing else makes it answer: nothing can be appended behind a StopSign, so there
are no further messages with numbers, and no change of leader as long as the heartbeats get through.
-/
namespace Omni

variable {E S : Type} [SnapOps E S]

/-- C65, when the AcceptStopSign was lost: its repetition (which C52_resend_timeout has the leader send) is accepted by a follower
of the leader's ballot that has got all messages before it. The follower stores its pending batch and the StopSign and answers
with the length of its log, which now counts both. Missing for C65: see `C65_false_lost_accepted`. -/
theorem C65_accepts_partial (l f : SP E S) (n : Ballot) (q : SeqNum) (ss : StopSign)
    (_due : l.Due ⟨l.pid, f.pid, .acceptStopSign { n, seq_num := q, ss }⟩)
    (hrole : f.role = .follower) (hphase : f.phase = .accept) (hn : f.get_promise = n) (hss : f.ist.cache.stopsign = none)
    (hq : q.session = f.current_seq_num.session ∧ q.counter = f.current_seq_num.counter + 1) (hout : f.latest_accepted_meta = none) :
    ∃ f' k, SP.handle ⟨l.pid, f.pid, .acceptStopSign { n, seq_num := q, ss }⟩ f = .ok () f' ∧
      k = f.ist.cache.accepted_idx + f.ist.cache.batched_entries.length + 1 ∧
      f'.ist.storage.log = f.ist.storage.log ++ f.ist.cache.batched_entries ∧ f'.ist.storage.stopsign = some ss ∧
      f'.ist.cache.stopsign = some ss ∧ f'.ist.cache.accepted_idx = k ∧ f'.ist.cache.batched_entries = [] ∧
      f'.current_seq_num = q ∧ f'.outgoing = f.outgoing ++ [⟨f.pid, n.pid, .accepted { n, accepted_idx := k }⟩] := by
  subst hn
  have hc : f.get_promise.cmp f.get_promise = .eq := (Ballot.cmp_eq_iff _ _).2 ⟨rfl, rfl, rfl⟩
  have hs : ∀ k, k = f.ist.cache.accepted_idx + f.ist.cache.batched_entries.length + 1 →
      M.Sat (SP.handle ⟨l.pid, f.pid, .acceptStopSign { n := f.get_promise, seq_num := q, ss }⟩) f (fun _ f' =>
      f'.ist.storage.log = f.ist.storage.log ++ f.ist.cache.batched_entries ∧ f'.ist.storage.stopsign = some ss ∧
      f'.ist.cache.stopsign = some ss ∧ f'.ist.cache.accepted_idx = k ∧ f'.ist.cache.batched_entries = [] ∧ f'.current_seq_num = q ∧
      f'.outgoing = f.outgoing ++ [⟨f.pid, f.get_promise.pid, .accepted ⟨f.get_promise, k⟩⟩]) (fun _ => False) := by
    rintro k rfl
    unfold SP.handle
    simp [SP.handle_accept_stopsign, SP.accept_guard, SP.check_valid_ballot, hc, hrole, hphase, SP.handle_sequence_num,
      SeqNum.check_msg_status, hq, SP.sat_onStore, IStore.flush_batch, IStore.append_entries_without_batching, IStore.sat_setCache,
      IStore.sat_write_append, IStore.set_stopsign, hss, SP.reply_accepted, SP.get_latest_accepted, hout, IStore.sat_write_stopsign,
      Mem.append_entries, Mem.set_stopsign]
  cases he : SP.handle ⟨l.pid, f.pid, .acceptStopSign { n := f.get_promise, seq_num := q, ss }⟩ f with
  | ok u f' =>
    have hs := hs _ rfl
    rw [M.Sat, he] at hs
    exact ⟨f', _, rfl, rfl, hs⟩
  | panic t =>
    have hs := hs _ rfl
    rw [M.Sat, he] at hs
    exact hs.elim

/-- C65, the answer: when the Accepted for its whole log arrives and with it enough servers have accepted, the leader has decided
its StopSign. -/
theorem C65_decides_partial (l l' : SP E S) (p : NodeId) (ss : StopSign) (v : List Nat)
    (hrole : l.role = .leader) (hphase : l.phase = .accept) (hss : l.ist.cache.stopsign = some ss)
    (hd : l.ist.cache.decided_idx < l.ist.cache.accepted_idx)
    (hv : setSlot l.ls.accepted_indexes p l.ist.cache.accepted_idx = some v)
    (hquo : l.ls.quorum.is_accept_quorum (v.filter fun a => decide (a ≥ l.ist.cache.accepted_idx)).length = true)
    (hrun : SP.handle ⟨p, l.pid, .accepted { n := l.ls.n_leader, accepted_idx := l.ist.cache.accepted_idx }⟩ l = .ok () l') :
    l'.is_reconfigured = some ss := by
  have hs : M.Sat (SP.handle ⟨p, l.pid, .accepted { n := l.ls.n_leader, accepted_idx := l.ist.cache.accepted_idx }⟩) l
      (fun _ t => t.is_reconfigured = some ss) (fun _ => True) := by
    unfold SP.handle
    simp only [SP.handle_accepted, M.sat_bind, M.sat_get, M.sat_ite, SP.sat_onLS, M.sat_pure, hrole, hphase]
    refine ⟨fun _ => ⟨fun ls h1 => ?_, fun _ => trivial⟩, fun h => absurd (by simp) h⟩
    simp only [LeaderState.set_accepted_idx, hv, Option.some.injEq] at h1
    subst h1
    refine ⟨fun _ => ?_, fun h => absurd ⟨hd, hquo⟩ h⟩
    simp only [SP.sat_onStore, IStore.set_decided_idx, M.sat_bind, IStore.sat_setCache, IStore.sat_write_decided]
    refine M.sat_mono (SP.so_forEach fun x t => SP.so_announce_decided _ x) (fun _ t ht => ?_) fun _ _ => trivial
    have : t.ist = _ := congrArg SP.ist ht
    rw [SP.is_reconfigured, this]
    simp [hss, StateCache.stopsign_is_decided]
  rw [M.Sat, hrun] at hs
  exact hs

section sample
attribute [local instance] Sample.noSync
open Sample

/-- The configuration after `cc`. -/
def ccNext : ClusterConfig := { configuration_id := 2, nodes := [1, 2, 3] }

/-- Server 2 is elected and reconfigures; the others accept the StopSign, and their Accepted messages are lost. -/
def lostAccepted : List A :=
  lostRun.take (lostRun.length - 13) ++ [.call 2 (.reconfigure ccNext none), .take 2] ++ dt 2 1 ++ dt 2 3 ++ [.lose 1 2 0, .lose 3 2 0]

/-- Server 2 is elected and reconfigures, and the AcceptStopSign messages are lost. -/
def lostStop : List A :=
  lostRun.take (lostRun.length - 13) ++ [.call 2 (.reconfigure ccNext none), .take 2, .lose 2 1 0, .lose 2 3 0]

/-- Then `C65_accepts_partial` applies to the leader 2 and the follower 1, and what that one answers is the Accepted of
`C65_decides_partial`. -/
example : ∃ (c : C) (opL opF : OP Nat (List Nat)) (q : SeqNum) (ss : StopSign) (v : List Nat), c.Reachable cc ∧
    c.servers 2 = .up opL ∧ c.servers 1 = .up opF ∧ opF.sp.pid = 1 ∧
    opL.sp.Due ⟨opL.sp.pid, opF.sp.pid, .acceptStopSign { n := opL.sp.ls.n_leader, seq_num := q, ss }⟩ ∧
    opF.sp.role = .follower ∧ opF.sp.phase = .accept ∧ opF.sp.get_promise = opL.sp.ls.n_leader ∧ opF.sp.ist.cache.stopsign = none ∧
    (q.session = opF.sp.current_seq_num.session ∧ q.counter = opF.sp.current_seq_num.counter + 1) ∧
    opF.sp.latest_accepted_meta = none ∧
    opF.sp.ist.cache.accepted_idx + opF.sp.ist.cache.batched_entries.length + 1 = opL.sp.ist.cache.accepted_idx ∧
    opL.sp.role = .leader ∧ opL.sp.phase = .accept ∧ opL.sp.ist.cache.stopsign = some ss ∧
    opL.sp.ist.cache.decided_idx < opL.sp.ist.cache.accepted_idx ∧
    setSlot opL.sp.ls.accepted_indexes 1 opL.sp.ist.cache.accepted_idx = some v ∧
    opL.sp.ls.quorum.is_accept_quorum (v.filter fun a => decide (a ≥ opL.sp.ist.cache.accepted_idx)).length = true ∧
    ∃ l', SP.handle ⟨1, opL.sp.pid, .accepted { n := opL.sp.ls.n_leader, accepted_idx := opL.sp.ist.cache.accepted_idx }⟩ opL.sp =
      .ok () l' := by
  obtain ⟨c, h, hP⟩ := check_one (as := lostStop) (P := fun c => onUp c 2 fun opL => onUp c 1 fun opF =>
    decide (opF.sp.pid = 1 ∧ opF.sp.role = .follower ∧ opF.sp.phase = .accept ∧ opF.sp.get_promise = opL.sp.ls.n_leader ∧
      opF.sp.ist.cache.stopsign = none ∧ slot opL.sp.ls.follower_seq_nums 1 =
        some { session := opF.sp.current_seq_num.session, counter := opF.sp.current_seq_num.counter + 1 } ∧
      opF.sp.latest_accepted_meta = none ∧
      opF.sp.ist.cache.accepted_idx + opF.sp.ist.cache.batched_entries.length + 1 = opL.sp.ist.cache.accepted_idx ∧
      opL.sp.role = .leader ∧ opL.sp.phase = .accept ∧ opL.sp.ist.cache.stopsign.isSome ∧
      opL.sp.ist.cache.decided_idx < opL.sp.ist.cache.accepted_idx ∧ opL.sp.ls.n_leader.pid = 2 ∧
      slot opL.sp.ls.accepted_indexes 1 = some 0 ∧ opL.sp.ist.cache.accepted_idx = 1) &&
    (match slot opL.sp.ls.promises_meta 1 with | some (.promised _) => true | _ => false) &&
    (match setSlot opL.sp.ls.accepted_indexes 1 opL.sp.ist.cache.accepted_idx with
      | some v => opL.sp.ls.quorum.is_accept_quorum (v.filter fun a => decide (a ≥ opL.sp.ist.cache.accepted_idx)).length
      | none => false) &&
    match SP.handle ⟨1, opL.sp.pid, .accepted ⟨opL.sp.ls.n_leader, opL.sp.ist.cache.accepted_idx⟩⟩ opL.sp with
      | .ok _ _ => true
      | _ => false) (by decide +kernel)
  obtain ⟨opL, hL, hP⟩ := onUp_elim hP
  obtain ⟨opF, hF, hP⟩ := onUp_elim hP
  simp only [Bool.and_eq_true, decide_eq_true_eq, Option.isSome_iff_exists] at hP
  obtain ⟨⟨⟨⟨h1, h2, h3, h4, h5, h6, h7, h8, h9, h10, ⟨ss, h11⟩, h12, h13, h14, h15⟩, h16⟩, h17⟩, h18⟩ := hP
  split at h16
  case h_2 => cases h16
  rename_i pm hpm
  split at h17
  case h_2 => cases h17
  rename_i v hv
  split at h18
  case h_2 => cases h18
  rename_i l' hl
  refine ⟨c, opL, opF, ⟨opF.sp.current_seq_num.session, opF.sp.current_seq_num.counter + 1⟩, ss, v, h, hL, hF, h1, ?_, h2, h3, h4, h5, ⟨rfl, rfl⟩, h7, h8, h9, h10, h11, h12, hv, h17, l', hl⟩
  rw [h1]
  exact .stopsign 1 pm ss _ 0 h9 h10 hpm (by rw [h13]; decide) h11 (by omega) h14 (by omega) h6

/-- A round: heartbeats, and the two repetitions of AcceptStopSign. -/
def stopRound : List A :=
  ticksThen [(1, 2), (1, 3), (2, 1), (2, 1), (1, 2), (2, 1), (2, 3), (2, 3), (3, 1), (1, 3), (3, 1), (3, 2), (2, 3), (3, 2)]

/-- C65 is false of the code: it is not so that in every execution without crashes which from some moment on consists of full
rounds without failures, a StopSign that all servers have accepted at that moment is some time decided somewhere. -/
theorem C65_false_lost_accepted : ¬ ∀ (cc : ClusterConfig) (as₀ : List A) (c : C) (ss : StopSign), (∀ i, .crash i ∉ as₀) →
    Cluster.init.DrainedRun cc as₀ → Cluster.init.run cc as₀ = some c →
    (∀ i ∈ cc.nodes, ∃ op, c.servers i = .up op ∧ op.sp.ist.storage.stopsign = some ss) →
    ∀ σ : Nat → C, σ 0 = c → (∀ k, ∃ as, (σ k).FullRound cc (σ (k + 1)) as) →
    ∃ k, ∃ i ∈ cc.nodes, ∃ op, (σ k).servers i = .up op ∧ op.is_reconfigured = some ss := by
  intro hall
  obtain ⟨c, hc, hP, σ, h0, hf, hsh⟩ := repeat_forever (start := lostAccepted ++ stopRound ++ stopRound) (round := stopRound)
    (P := fun c => cc.nodes.all fun i => onUp c i fun op =>
      decide (op.sp.ist.storage.stopsign = some { next_config := ccNext, metadata := none } ∧ op.is_reconfigured = none))
    (by decide +kernel) (by simp [stopRound, ticksThen, dt, Action.Routine, cc]) (by simp [stopRound, ticksThen, dt, cc])
  have hcr : ((lostAccepted ++ stopRound ++ stopRound).all fun a => match a with | .crash _ => false | _ => true) = true := by
    decide +kernel
  simp only [List.all_eq_true] at hP
  obtain ⟨k, i, hi, op, hop, hr⟩ := hall cc _ c { next_config := ccNext, metadata := none }
    (fun i hi => by simpa using List.all_eq_true.1 hcr _ hi)
    (Cluster.drainedB_sound (by decide +kernel)) hc
    (fun i hi => by
      obtain ⟨op, h, h'⟩ := onUp_elim (hP i hi)
      exact ⟨op, h, (of_decide_eq_true h').1⟩) σ h0 hf
  obtain ⟨op0, h, h'⟩ := onUp_elim (hP i hi)
  obtain ⟨op1, ps, h1, e⟩ := hsh k i hi op hop
  rw [h] at h1
  cases h1
  rw [e] at hr
  have h2 := (of_decide_eq_true h').2
  have : (op0.shift k ps).is_reconfigured = op0.is_reconfigured := rfl
  rw [this, h2] at hr
  cases hr

end sample
end Omni
