import Verif.Spec.Runs
import Verif.Proof.Resend
import Verif.Proof.Batch
/-
Retransmission (C52).
-/
namespace Omni
open Sample

variable {E S : Type}

/-- C52. A tick at which the resend clock runs out, and neither of the other two clocks, sends exactly the messages that are due,
each once (if the list of peers has no duplicates), and changes nothing else of the protocol state: the log, the leader state and
the buffers stay. Only a follower that waits in the prepare phase without a promise to repeat moves to the recover phase.
(`clearTrail` empties the record of storage writes, which is bookkeeping of the model.) -/
theorem C52_resend_timeout [SnapOps E S] (op op' : OP E S) (h : op.callResult .tick = .up op')
    (he : op.election_clock.time + 1 ≠ op.election_clock.timeout) (hr : op.resend_message_clock.time + 1 = op.resend_message_clock.timeout)
    (hf : op.flush_batch_clock.time + 1 ≠ op.flush_batch_clock.timeout) :
    ∃ l, (∀ m, m ∈ l ↔ op.sp.Due m) ∧ (op.sp.peers.Nodup → l.Nodup) ∧
      op'.sp = { op.clearTrail.sp with
        outgoing := op.sp.outgoing ++ l
        phase := if op.sp.role = .follower ∧ op.sp.phase = .prepare ∧ op.sp.cached_promise = none then .recover else op.sp.phase } ∧
      op'.ble = op.ble := by
  have hs : M.Sat (Call.tick (E := E) (S := S)).run op.clearTrail (fun _ t => op.clearTrail.sp.Resends t.sp ∧ t.ble = op.ble) (fun _ => True) := by
    have e1 : op.clearTrail.election_clock.tick_and_check_timeout.1 = false := by
      simp [OP.clearTrail, LogicalClock.tick_and_check_timeout, he]
    have e2 : op.clearTrail.resend_message_clock.tick_and_check_timeout.1 = true := by
      simp [OP.clearTrail, LogicalClock.tick_and_check_timeout, hr]
    have e3 : op.clearTrail.flush_batch_clock.tick_and_check_timeout.1 = false := by
      simp [OP.clearTrail, LogicalClock.tick_and_check_timeout, hf]
    simp only [Call.run, OP.tick, M.sat_bind, M.sat_get, M.sat_upd, e1, e2, e3, M.sat_whenDo, reduceCtorEq, false_implies, true_and,
      OP.sat_onSP, forall_const, not_false_eq_true, not_true_eq_false, and_true]
    exact M.sat_mono SP.resend_due (fun _ t ht => ⟨ht, rfl⟩) fun _ h => h
  unfold OP.callResult at h
  unfold M.Sat at hs
  split at hs <;> rename_i e <;> rw [e] at h
  · cases h
    obtain ⟨⟨l, h1, h2, h3, h4⟩, h5⟩ := hs
    have hdue : ∀ m, op.clearTrail.sp.Due m ↔ op.sp.Due m := by
      intro m
      constructor
      · intro h; cases h <;> constructor <;> assumption
      · intro h; cases h <;> constructor <;> assumption
    refine ⟨l, fun m => (h2 m).trans (hdue m), h3, ?_, h5⟩
    rw [h1, h4]; rfl
  · cases h

/-- C52. A tick at which none of the three clocks runs out sends nothing and changes nothing but the clocks. -/
theorem C52_quiet_tick [SnapOps E S] (op : OP E S)
    (he : op.election_clock.time + 1 ≠ op.election_clock.timeout) (hr : op.resend_message_clock.time + 1 ≠ op.resend_message_clock.timeout)
    (hf : op.flush_batch_clock.time + 1 ≠ op.flush_batch_clock.timeout) :
    op.callResult .tick = .up { op.clearTrail with
      election_clock := { op.election_clock with time := op.election_clock.time + 1 }
      resend_message_clock := { op.resend_message_clock with time := op.resend_message_clock.time + 1 }
      flush_batch_clock := { op.flush_batch_clock with time := op.flush_batch_clock.time + 1 } } := by
  have e1 : op.election_clock.tick_and_check_timeout = (false, { op.election_clock with time := op.election_clock.time + 1 }) := by
    simp [LogicalClock.tick_and_check_timeout, he]
  have e2 : op.resend_message_clock.tick_and_check_timeout =
      (false, { op.resend_message_clock with time := op.resend_message_clock.time + 1 }) := by
    simp [LogicalClock.tick_and_check_timeout, hr]
  have e3 : op.flush_batch_clock.tick_and_check_timeout = (false, { op.flush_batch_clock with time := op.flush_batch_clock.time + 1 }) := by
    simp [LogicalClock.tick_and_check_timeout, hf]
  have hs : M.Sat (Call.tick (E := E) (S := S)).run op.clearTrail (fun _ t => t = { op.clearTrail with
      election_clock := { op.election_clock with time := op.election_clock.time + 1 }
      resend_message_clock := { op.resend_message_clock with time := op.resend_message_clock.time + 1 }
      flush_batch_clock := { op.flush_batch_clock with time := op.flush_batch_clock.time + 1 } }) (fun _ => False) := by
    simp only [Call.run, OP.tick, M.sat_bind, M.sat_get, M.sat_upd, OP.clearTrail, e1, e2, e3, M.sat_whenDo, reduceCtorEq,
      false_implies, true_and, not_false_eq_true, forall_const]
  unfold OP.callResult
  unfold M.Sat at hs
  split at hs <;> rename_i e <;> rw [e]
  · rw [hs]
  · cases hs

/-- C21, what the flush timeout does. A tick at which the flush clock runs out, and neither of the other two clocks, moves all batched entries to
the end of the log if the server is in the Accept phase, and changes nothing but the clocks otherwise. -/
theorem C21_flush [SnapOps E S] (op op' : OP E S) (h : op.callResult .tick = .up op')
    (he : op.election_clock.time + 1 ≠ op.election_clock.timeout) (hr : op.resend_message_clock.time + 1 ≠ op.resend_message_clock.timeout)
    (hf : op.flush_batch_clock.time + 1 = op.flush_batch_clock.timeout) :
    (op.sp.phase = .accept → op'.sp.ist.cache.batched_entries = [] ∧
      op'.sp.ist.storage = { op.sp.ist.storage with log := op.sp.ist.storage.log ++ op.sp.ist.cache.batched_entries } ∧
      op'.sp.ist.cache.accepted_idx = op.sp.ist.cache.accepted_idx + op.sp.ist.cache.batched_entries.length) ∧
    (op.sp.phase ≠ .accept → op'.sp = op.clearTrail.sp) := by
  have hap : ∀ i : IStore E S, Appended [] op.clearTrail.sp.ist i → i.cache.batched_entries = [] →
      i.storage = { op.sp.ist.storage with log := op.sp.ist.storage.log ++ op.sp.ist.cache.batched_entries } ∧
      i.cache.accepted_idx = op.sp.ist.cache.accepted_idx + op.sp.ist.cache.batched_entries.length := by
    intro i h1 h2
    have h3 := h1.log
    have h4 := h1.idx
    rw [h2, List.append_nil, List.append_nil] at h3
    rw [h3] at h4
    refine ⟨?_, ?_⟩
    · rw [h1.storage, h3]; rfl
    · simp only [OP.clearTrail, List.length_append] at h4
      omega
  have hs : M.Sat (Call.tick (E := E) (S := S)).run op.clearTrail (fun _ t =>
      (op.sp.phase = .accept → Appended [] op.clearTrail.sp.ist t.sp.ist ∧ t.sp.ist.cache.batched_entries = []) ∧
      (op.sp.phase ≠ .accept → t.sp = op.clearTrail.sp)) (fun _ => True) := by
    have e1 : op.clearTrail.election_clock.tick_and_check_timeout.1 = false := by
      simp [OP.clearTrail, LogicalClock.tick_and_check_timeout, he]
    have e2 : op.clearTrail.resend_message_clock.tick_and_check_timeout.1 = false := by
      simp [OP.clearTrail, LogicalClock.tick_and_check_timeout, hr]
    have e3 : op.clearTrail.flush_batch_clock.tick_and_check_timeout.1 = true := by
      simp [OP.clearTrail, LogicalClock.tick_and_check_timeout, hf]
    simp only [Call.run, OP.tick, M.sat_bind, M.sat_get, M.sat_upd, e1, e2, e3, M.sat_whenDo, reduceCtorEq, false_implies, true_and,
      OP.sat_onSP, forall_const, not_false_eq_true, not_true_eq_false, and_true]
    show M.Sat SP.flush_batch_timeout op.clearTrail.sp _ _
    have hp : op.clearTrail.sp.phase = op.sp.phase := rfl
    simp only [SP.flush_batch_timeout, M.sat_bind, M.sat_get]
    split
    · rename_i h1 h2
      simp only [← hp, h2, forall_const, ne_eq, not_true_eq_false, false_implies, and_true]
      refine M.sat_mono (SP.accept_frame (IStore.flush_get_spec op.clearTrail.sp.ist)) (fun _ t ht => ht.1) fun _ h => h
    · rename_i h1 h2
      simp only [← hp, h2, forall_const, ne_eq, not_true_eq_false, false_implies, and_true, SP.flush_batch_follower, M.sat_bind, M.sat_get, SP.sat_onStore, M.sat_ite, M.sat_pure]
      refine M.sat_mono (IStore.flush_batch_spec op.clearTrail.sp.ist) (fun r i hi => ⟨fun _ => ?_, fun _ => ⟨hi.1, hi.2.1⟩⟩) fun _ h => h.elim
      refine M.sat_mono (SP.reply_opt_spec _ (some r) _) (fun _ t ht => ?_) fun _ h => h
      rw [ht.1]
      exact ⟨hi.1, hi.2.1⟩
    · rename_i h1 h2
      rw [M.sat_pure]
      refine ⟨fun h => ?_, fun _ => rfl⟩
      cases hr : op.clearTrail.sp.role
      · exact absurd (hp.trans h) (fun e => h2 hr e)
      · exact absurd (hp.trans h) (fun e => h1 hr e)
  unfold OP.callResult at h
  unfold M.Sat at hs
  split at hs <;> rename_i e <;> rw [e] at h
  · cases h
    refine ⟨fun h => ?_, hs.2⟩
    obtain ⟨h1, h2⟩ := hs.1 h
    obtain ⟨h3, h4⟩ := hap _ h1 h2
    exact ⟨h2, h3, h4⟩
  · cases h

section
attribute [local instance] Sample.noSync

/-- Server 1 leads, all entries are decided, and it has sent a StopSign that server 2 has not accepted; server 3 has not promised.
The resend clock of server 1 fires at the next tick, the other two do not: the StopSign to server 2 and a Prepare to server 3 are due. -/
example : ∃ (c : C) (op : OP Nat (List Nat)), c.Reachable cc ∧ c.servers 1 = .up op ∧
    op.election_clock.time + 1 ≠ op.election_clock.timeout ∧ op.resend_message_clock.time + 1 = op.resend_message_clock.timeout ∧
    op.flush_batch_clock.time + 1 ≠ op.flush_batch_clock.timeout ∧ op.sp.peers.Nodup ∧ (∃ op', op.callResult .tick = .up op') ∧
    (∃ q ss, op.sp.Due ⟨1, 2, .acceptStopSign { n := op.sp.ls.n_leader, seq_num := q, ss }⟩) ∧
    ∃ p, op.sp.Due ⟨1, 3, .prepare p⟩ := by
  obtain ⟨c, h, hP⟩ := check_one (as := decide12 ++ reconf.take 2) (P := fun c => onUp c 1 fun op =>
    decide (op.sp.role = .leader ∧ op.sp.phase = .accept ∧ op.sp.pid = 1 ∧ (op.sp.peers = [2, 3]) ∧
      op.sp.ist.cache.stopsign.isSome ∧ op.sp.ist.cache.decided_idx ≠ op.sp.ist.cache.accepted_idx ∧
      (slot op.sp.ls.accepted_indexes 2).isSome ∧ slot op.sp.ls.accepted_indexes 2 ≠ some op.sp.ist.cache.accepted_idx ∧
      (slot op.sp.ls.follower_seq_nums 2).isSome ∧ slot op.sp.ls.promises_meta 3 = some .notPromised ∧ op.sp.ls.n_leader.pid = 1 ∧
      op.election_clock.time + 1 ≠ op.election_clock.timeout ∧ op.resend_message_clock.time + 1 = op.resend_message_clock.timeout ∧
      op.flush_batch_clock.time + 1 ≠ op.flush_batch_clock.timeout) &&
    (match slot op.sp.ls.promises_meta 2 with | some (.promised _) => true | _ => false) &&
    (match op.callResult .tick with | .up _ => true | _ => false)) (by decide +kernel)
  obtain ⟨op, hop, hp⟩ := onUp_elim hP
  simp only [Bool.and_eq_true, decide_eq_true_eq, Option.isSome_iff_exists] at hp
  obtain ⟨⟨⟨h1, h2, h3, h4, ⟨ss, h5⟩, h6, ⟨a, h7⟩, h8, ⟨q, h9⟩, h10, h11, h12, h13, h14⟩, h15⟩, h16⟩ := hp
  split at h15
  · rename_i pm hpm
    have d1 := SP.Due.stopsign 2 pm ss q a h1 h2 hpm (by rw [h11]; decide) h5 h6 h7 (fun e => h8 (by rw [h7, e])) h9
    have d2 := SP.Due.prepare 3 h1 (.inr h2) (by rw [h4]; decide) h10
    rw [h3] at d1 d2
    refine ⟨c, op, h, hop, h12, h13, h14, by rw [h4]; decide, ?_, ⟨q, ss, d1⟩, ⟨_, d2⟩⟩
    split at h16
    · exact ⟨_, by assumption⟩
    · cases h16
  · cases h15

/-- A server that has just started: none of its clocks fires at the next tick if its timeouts are larger than one. -/
example : ∃ op : OP Nat (List Nat), OP.build
    { cluster_config := cc, server_config :=
      { pid := 1, election_tick_timeout := 5, resend_message_tick_timeout := 5, flush_batch_tick_timeout := 5 } }
    ({} : Mem Nat (List Nat)) = some (.ok op) ∧ op.election_clock.time + 1 ≠ op.election_clock.timeout ∧
    op.resend_message_clock.time + 1 ≠ op.resend_message_clock.timeout ∧ op.flush_batch_clock.time + 1 ≠ op.flush_batch_clock.timeout :=
  ⟨_, rfl, by decide, by decide, by decide⟩

/-- A leader with batches of four that has batched two entries; its flush clock fires at the next tick, the other two do not. -/
example : ∃ (c : C) (op : OP Nat (List Nat)), c.Reachable cc ∧ c.servers 1 = .up op ∧
    op.election_clock.time + 1 ≠ op.election_clock.timeout ∧ op.resend_message_clock.time + 1 ≠ op.resend_message_clock.timeout ∧
    op.flush_batch_clock.time + 1 = op.flush_batch_clock.timeout ∧ (∃ op', op.callResult .tick = .up op') ∧ op.sp.phase = .accept ∧
    op.sp.ist.cache.batched_entries = [7, 8] := by
  obtain ⟨c, h, hP⟩ := check_one (as := .start 1 { sc 1 with resend_message_tick_timeout := 9, flush_batch_tick_timeout := 1, batch_size := 4 } ::
      (decide12.drop 1).take 19) (P := fun c => onUp c 1 fun op =>
    decide (op.sp.phase = .accept ∧ op.sp.ist.cache.batched_entries = [7, 8] ∧
      op.election_clock.time + 1 ≠ op.election_clock.timeout ∧ op.resend_message_clock.time + 1 ≠ op.resend_message_clock.timeout ∧
      op.flush_batch_clock.time + 1 = op.flush_batch_clock.timeout) &&
    (match op.callResult .tick with | .up _ => true | _ => false)) (by decide +kernel)
  obtain ⟨op, hop, hp⟩ := onUp_elim hP
  simp only [Bool.and_eq_true, decide_eq_true_eq] at hp
  obtain ⟨⟨h1, h2, h3, h4, h5⟩, h6⟩ := hp
  refine ⟨c, op, h, hop, h3, h4, h5, ?_, h1, h2⟩
  split at h6
  · exact ⟨_, by assumption⟩
  · cases h6

end
end Omni
