import Verif.Proof.Keep
import Verif.Spec.Sample
/-
Properties of proposals at one server: C20, C29, C43.
-/
namespace Omni

variable {E S : Type} [SnapOps E S]

/-! ## C20 -/

theorem BatchOp.run_spec (o : BatchOp E) (s : SP E S) (hr : s.role = .leader) (hp : s.phase = .accept)
    (hs : s.ist.cache.stopsign = none) :
    M.Sat o.run s (fun _ s' => Appended o.entries s.ist s'.ist ∧
      (0 < s.ist.cache.batch_size → s'.ist.cache.batched_entries.length < s.ist.cache.batch_size) ∧
      s' = { s with ist := s'.ist, outgoing := s'.outgoing, ls := s'.ls }) (fun _ => True) := by
  cases o with
  | append e =>
    simp only [BatchOp.run, SP.append, SP.propose_entry, SP.accepted_reconfiguration, hs, M.sat_bind, M.sat_get, hr, hp,
      Option.isSome_none, Bool.false_eq_true, if_false, M.sat_pure, SP.accept_entry_leader]
    have := SP.accept_frame (s := s) (IStore.append_entry_spec e s.ist |> fun h =>
      M.sat_mono h (Q' := fun _ i => Appended [e] s.ist i ∧
        (0 < s.ist.cache.batch_size → i.cache.batched_entries.length < s.ist.cache.batch_size))
        (fun _ _ h => ⟨h.1, h.2.1⟩) fun _ h => h)
    rw [M.sat_bind] at this
    exact M.sat_mono this (fun _ _ h => M.sat_mono h (fun _ _ h => ⟨h.1.1, h.1.2, by have := h.2; rw [hr, hp] at this; exact this⟩) fun _ _ => trivial) fun _ _ => trivial
  | forward src dst es =>
    simp only [BatchOp.run, SP.handle, SP.handle_forwarded_proposal, SP.accepted_reconfiguration, hs, M.sat_bind, M.sat_get,
      hr, hp, Option.isSome_none, Bool.false_eq_true, if_false, SP.accept_entries_leader]
    have := SP.accept_frame (s := s) (IStore.append_entries_spec es s.ist |> fun h =>
      M.sat_mono h (Q' := fun _ i => Appended es s.ist i ∧
        (0 < s.ist.cache.batch_size → i.cache.batched_entries.length < s.ist.cache.batch_size))
        (fun _ _ h => ⟨h.1, h.2.1⟩) fun _ h => h)
    rw [M.sat_bind] at this
    exact M.sat_mono this (fun _ _ h => M.sat_mono h (fun _ _ h => ⟨h.1.1, h.1.2, by have := h.2; rw [hr, hp] at this; exact this⟩) fun _ _ => trivial) fun _ _ => trivial
  | flush =>
    simp only [BatchOp.run, SP.flush_batch_timeout, M.sat_bind, M.sat_get, hr, hp, SP.flush_batch_leader]
    have := SP.accept_frame (s := s) (IStore.flush_get_spec s.ist)
    rw [M.sat_bind] at this
    exact M.sat_mono this (fun _ _ h => M.sat_mono h (fun _ _ h => ⟨h.1.1, fun h0 => by rw [h.1.2]; exact h0,
      by have := h.2; rw [hr, hp] at this; exact this⟩)
      fun _ _ => trivial) fun _ _ => trivial

/-- C20: at a leader in accept phase (holding no StopSign), after any sequence of appends, forwarded appends and flushes, the
stored log followed by the pending batch is the stored log and batch from before followed by everything appended, in order.
The stored log only grew, by as much as the accepted index did. With a positive batch size, after at least one operation fewer than
`batch_size` entries are pending; so with batch size 1 none are. -/
theorem C20_batching (s s' : SP E S) (ops : List (BatchOp E)) (hr : s.role = .leader) (hp : s.phase = .accept)
    (hs : s.ist.cache.stopsign = none) (hrun : s.runBatch ops = some s') :
    s'.ist.storage.log ++ s'.ist.cache.batched_entries =
      s.ist.storage.log ++ s.ist.cache.batched_entries ++ ops.flatMap BatchOp.entries ∧
    s.ist.storage.log <+: s'.ist.storage.log ∧
    s'.ist.cache.accepted_idx + s.ist.storage.log.length = s.ist.cache.accepted_idx + s'.ist.storage.log.length ∧
    (0 < s.ist.cache.batch_size → ops ≠ [] → s'.ist.cache.batched_entries.length < s.ist.cache.batch_size) ∧
    s'.role = .leader ∧ s'.phase = .accept ∧ s'.buffered_proposals = s.buffered_proposals := by
  induction ops generalizing s with
  | nil => simp [SP.runBatch] at hrun; subst hrun; simp [hr, hp]
  | cons o os ih =>
    simp only [SP.runBatch] at hrun
    cases ho : (o.run : M (SP E S) Unit) s with
    | panic t => rw [ho] at hrun; simp at hrun
    | ok u t =>
      rw [ho] at hrun
      obtain ⟨ha, hb, hf⟩ := M.sat_ok (BatchOp.run_spec o s hr hp hs) ho
      have hbs : t.ist.cache.batch_size = s.ist.cache.batch_size := by rw [ha.cache]
      obtain ⟨i1, i2, i3, i4, i5, i6, i7⟩ := ih t (by rw [hf]; exact hr) (by rw [hf]; exact hp)
        (by rw [ha.cache]; exact hs) hrun
      refine ⟨?_, ha.pre.trans i2, ?_, fun h0 _ => ?_, i5, i6, by rw [i7, hf]⟩
      · rw [i1, ha.log]; simp [List.append_assoc]
      · have := ha.idx; omega
      · by_cases hos : os = []
        · subst hos
          simp [SP.runBatch] at hrun
          subst hrun
          exact hb h0
        · have := i4 (by omega) hos; omega

section Example
attribute [local instance] Sample.noSync
/-- Batch size 3: of five entries three are in the log, two pending. -/
example : ((Sample.start 1 {}).bind fun op =>
      ((({ op.sp with
          role := .leader
          phase := .accept
          ist := { op.sp.ist with cache := { op.sp.ist.cache with batch_size := 3 } } } : SP Nat (List Nat)).runBatch
        [.append 1, .forward 2 1 [2, 3], .append 4, .append 5]).map fun s =>
          (s.ist.storage.log, s.ist.cache.batched_entries))) = some ([1, 2, 3], [4, 5]) := by decide +kernel
end Example

/-! ## C29 -/

/-- C29 for `append`: when it returns Ok the entry is, as the last one, in the log or the pending batch (leader in accept
phase), or in the buffer of proposals (leader that is preparing; or no other server to forward to), or in a ProposalForward
message to the server promised to, which is another one. -/
theorem C29_append (op op' : OP E S) (e : E) (h : OP.append e op = .ok (.ok ()) op') :
    op'.sp.ist.storage.log ++ op'.sp.ist.cache.batched_entries =
      op.sp.ist.storage.log ++ op.sp.ist.cache.batched_entries ++ [e] ∨
    op'.sp.buffered_proposals = op.sp.buffered_proposals ++ [e] ∨
    (op'.sp.outgoing = op.sp.outgoing ++ [{ src := op.sp.pid, dst := op.get_promise.pid, msg := .proposalForward [e] }] ∧
      op.get_promise.pid ≠ 0 ∧ op.get_promise.pid ≠ op.sp.pid) := by
  suffices key : M.Sat (OP.append e) op (fun r op' => r = .ok () →
      op'.sp.ist.storage.log ++ op'.sp.ist.cache.batched_entries =
        op.sp.ist.storage.log ++ op.sp.ist.cache.batched_entries ++ [e] ∨
      op'.sp.buffered_proposals = op.sp.buffered_proposals ++ [e] ∨
      (op'.sp.outgoing = op.sp.outgoing ++ [{ src := op.sp.pid, dst := op.get_promise.pid, msg := .proposalForward [e] }] ∧
        op.get_promise.pid ≠ 0 ∧ op.get_promise.pid ≠ op.sp.pid)) (fun _ => True) from M.sat_ok key h rfl
  simp only [OP.append, OP.sat_onSP, SP.append, SP.propose_entry, M.sat_bind, M.sat_get, M.sat_ite, M.sat_pure]
  refine ⟨fun _ h => by simp at h, fun hs => ?_⟩
  have hfwd : M.Sat (SP.forward_proposals [e]) op.sp (fun _ s' => True →
      s'.ist.storage.log ++ s'.ist.cache.batched_entries = op.sp.ist.storage.log ++ op.sp.ist.cache.batched_entries ++ [e] ∨
      s'.buffered_proposals = op.sp.buffered_proposals ++ [e] ∨
      (s'.outgoing = op.sp.outgoing ++ [{ src := op.sp.pid, dst := op.get_promise.pid, msg := .proposalForward [e] }] ∧
        op.get_promise.pid ≠ 0 ∧ op.get_promise.pid ≠ op.sp.pid)) (fun _ => True) := by
    simp only [SP.forward_proposals, M.sat_bind, M.sat_get, M.sat_ite, SP.sat_send, M.sat_upd]
    refine ⟨fun hc _ => .inr (.inr ⟨rfl, ?_, ?_⟩), fun _ _ => .inr (.inl trivial)⟩
    · exact Nat.ne_of_gt hc.1
    · exact fun h => hc.2 h.symm
  split
  · simp only [M.sat_upd]; intro _; exact .inr (.inl trivial)
  · simp only [SP.accept_entry_leader]
    have := SP.accept_frame (s := op.sp) (M.sat_mono (IStore.append_entry_spec e op.sp.ist)
      (Q' := fun _ i => Appended [e] op.sp.ist i) (fun _ _ h => h.1) fun _ h => h)
    refine M.sat_mono this (fun _ t ht _ => .inl ht.1.log) fun _ _ => trivial
  · exact hfwd

/-- C29 for `reconfigure`: when it returns Ok the StopSign is in the log, or buffered, or in a ForwardStopSign message to
the server promised to, which is another one; unless another StopSign was already buffered. -/
theorem C29_reconfigure (op op' : OP E S) (c : ClusterConfig) (md : Option (List Nat))
    (h : OP.reconfigure c md op = .ok (.ok ()) op') :
    op'.sp.ist.storage.stopsign = some ⟨c, md⟩ ∨
    op'.sp.buffered_stopsign = some ⟨c, md⟩ ∨
    (op'.sp.outgoing = op.sp.outgoing ++ [{ src := op.sp.pid, dst := op.get_promise.pid, msg := .forwardStopSign ⟨c, md⟩ }] ∧
      op.get_promise.pid ≠ 0 ∧ op.get_promise.pid ≠ op.sp.pid) ∨
    (op.sp.buffered_stopsign.isSome = true ∧ op' = op) := by
  suffices key : M.Sat (OP.reconfigure c md) op (fun r op' => r = .ok () →
      op'.sp.ist.storage.stopsign = some ⟨c, md⟩ ∨
      op'.sp.buffered_stopsign = some ⟨c, md⟩ ∨
      (op'.sp.outgoing = op.sp.outgoing ++
          [{ src := op.sp.pid, dst := op.get_promise.pid, msg := .forwardStopSign ⟨c, md⟩ }] ∧
        op.get_promise.pid ≠ 0 ∧ op.get_promise.pid ≠ op.sp.pid) ∨
      (op.sp.buffered_stopsign.isSome = true ∧ op' = op)) (fun _ => True) from M.sat_ok key h rfl
  unfold OP.reconfigure
  split
  · simp
  simp only [OP.sat_onSP, SP.reconfigure, SP.propose_stopsign, M.sat_bind, M.sat_get, M.sat_ite, M.sat_pure]
  refine ⟨fun _ h => by simp at h, fun hs => ?_⟩
  split
  · simp only [M.sat_upd]; intro _; exact .inr (.inl trivial)
  · simp only [SP.accept_stopsign_leader, M.sat_bind, SP.sat_onStore]
    have h1 : M.Sat (IStore.append_stopsign ⟨c, md⟩) op.sp.ist (fun _ i => i.storage.stopsign = some ⟨c, md⟩)
        (fun _ => True) := by
      simp only [IStore.append_stopsign, IStore.cache_append_stopsign, M.sat_bind, M.sat_get, IStore.sat_setCache, M.sat_ite,
        M.sat_pure, IStore.flush_if_full_batch, IStore.append_entries_without_batching, IStore.sat_write_append, IStore.sat_write_stopsign, IStore.sat_write_promise, IStore.sat_write_decided, Mem.set_stopsign]
      exact ⟨fun _ => trivial, fun _ => trivial⟩
    refine M.sat_mono h1 (fun md' i hi => ?_) fun _ _ => trivial
    have h2 : M.Sat (SP.send_flushed md') { op.sp with ist := i } (fun _ s' => SendOnly { op.sp with ist := i } s')
        (fun _ => True) := by
      cases md' with
      | none => exact SendOnly.refl _
      | some m => exact M.sat_mono (SP.so_send_acceptdecide m.entries) (fun _ _ h => h) fun _ _ => trivial
    refine M.sat_mono h2 (fun _ t ht => ?_) fun _ _ => trivial
    simp only [M.sat_get, SP.sat_onLS]
    refine ⟨fun ls _ => ?_, fun _ => trivial⟩
    refine M.sat_mono (SP.so_forEach fun p t => SP.so_send_accept_stopsign p ⟨c, md⟩ false) (fun _ u hu _ => ?_)
      fun _ _ => trivial
    left
    show u.ist.storage.stopsign = _
    rw [hu, ht]
    exact hi
  · simp only [SP.forward_stopsign, M.sat_bind, M.sat_get, M.sat_ite, SP.sat_send, M.sat_upd, M.sat_pure]
    refine ⟨fun hc _ => .inr (.inr (.inl ⟨rfl, Nat.ne_of_gt hc.1, fun h => hc.2 h.symm⟩)), fun _ => ⟨fun _ _ => .inr (.inl trivial), fun hn _ => .inr (.inr (.inr ⟨?_, trivial⟩))⟩⟩
    cases hb : op.sp.buffered_stopsign <;> simp [hb] at hn ⊢

section Example
attribute [local instance] Sample.noSync
/-- A follower of server 3 forwards; a fresh server buffers. -/
example : (Sample.start 2 { n_prom := some ⟨1, 4, 0, 3⟩ }).map (fun op =>
      match OP.append 7 op with
      | .ok (.ok ()) op' => op'.sp.outgoing.getLast?
      | _ => none) = some (some ⟨2, 3, .proposalForward [7]⟩) := by decide +kernel
example : (Sample.start 2 {}).map (fun op =>
      match OP.append 7 op with
      | .ok (.ok ()) op' => op'.sp.buffered_proposals
      | _ => []) = some [7] := by decide +kernel
example : (Sample.start 2 { n_prom := some ⟨1, 4, 0, 3⟩ }).map (fun op =>
      match OP.reconfigure { configuration_id := 2, nodes := [1, 2] } none op with
      | .ok (.ok ()) op' => op'.sp.outgoing.length
      | _ => 0) = some 3 := by decide +kernel
end Example

/-! ## C43 -/

/-- Calls that replace or compact the log: the compaction calls and messages, an AcceptSync, a Promise handled while preparing. -/
def OP.Rewrites (op : OP E S) : Call E S → Prop
  | .trim _ | .snapshot .. => True
  | .handleIncoming (.paxos m) => match m.msg with
    | .acceptSync _ | .compaction _ => True
    | .promise _ => op.sp.phase = .prepare
    | _ => False
  | _ => False

/-- C43: every other call leaves everything in the log, the pending batch and the proposal buffer where it is; it can only add
behind it. -/
theorem C43_kept (op op' : OP E S) (call : Call E S) (hc : ¬ op.Rewrites call) (h : call.run op = .ok () op') :
    op.sp.ist.storage.log ++ op.sp.ist.cache.batched_entries <+: op'.sp.ist.storage.log ++ op'.sp.ist.cache.batched_entries ∧
    op.sp.buffered_proposals <+: op'.sp.buffered_proposals := by
  have h0 : LB (op.sp.ist.storage.log ++ op.sp.ist.cache.batched_entries) op.sp.buffered_proposals op.sp :=
    ⟨List.prefix_rfl, List.prefix_rfl⟩
  have := M.sat_ok (OP.run_closed0 SP.closed_b h0 call
    (fun m e => by
      subst e
      refine SP.b_handle h0 (fun a e => hc ?_) (fun p e hp => hc ?_) fun c e => hc ?_
      · simp [OP.Rewrites, e]
      · simpa [OP.Rewrites, e] using hp
      · simp [OP.Rewrites, e])
    (fun i e => by subst e; exact absurd trivial hc) fun i l e => by subst e; exact absurd trivial hc) h
  exact ⟨this.log, this.buf⟩

/-- C43, the proposal buffer in every call: what was waiting is still waiting, or is in the log, or is in a ProposalForward to
the server promised to. -/
theorem C43_proposals_wait (op op' : OP E S) (call : Call E S) (h : call.run op = .ok () op') :
    op.sp.buffered_proposals <+: op'.sp.buffered_proposals ∨ op.sp.buffered_proposals <:+: op'.sp.ist.storage.log ∨
    { src := op'.sp.pid, dst := op'.get_promise.pid, msg := .proposalForward op.sp.buffered_proposals } ∈ op'.sp.outgoing := by
  have h0 : LB [] op.sp.buffered_proposals op.sp := ⟨List.nil_prefix, List.prefix_rfl⟩
  by_cases hm : ∃ m, call = .handleIncoming (.paxos m)
  · obtain ⟨m, rfl⟩ := hm
    have := M.sat_ok (Q := fun _ t => SP.Waiting op.sp.buffered_proposals t.sp) (P := fun _ => True)
      (m := (Call.handleIncoming (.paxos m)).run) (by
        simp only [Call.run, OP.handle_incoming, OP.sat_onSP]
        exact SP.waiting_handle m) h
    exact this
  · have := M.sat_ok (OP.run_closed0 SP.closed_b h0 call (fun m e => absurd ⟨m, e⟩ hm) (fun i _ => SP.b_trim h0 i)
      fun i l _ => SP.b_snapshot h0 i l) h
    exact .inl this.buf

section Example
attribute [local instance] Sample.noSync
open Sample
/-- A leader in accept phase with a batch: a reconfiguration flushes the batch. -/
example : ((start 1 {}).bind fun op =>
      calls { op with sp := { op.sp with
        role := .leader
        phase := .accept
        ist := { op.sp.ist with cache := { op.sp.ist.cache with batch_size := 3 } } } }
        [.append 1, .append 2, .append 3, .append 4, .reconfigure { configuration_id := 2, nodes := [1, 2] } none]).map
      (fun op => (op.sp.ist.storage.log, op.sp.ist.cache.batched_entries, op.sp.ist.storage.stopsign.isSome)) =
    some ([1, 2, 3, 4], [], true) := by decide +kernel
/-- Proposals made while preparing wait in the buffer, and are in the log once the Promise of server 2 completes the quorum. -/
example : ((start 1 {}).bind fun op =>
      calls op [.tryBecomeLeader, .append 7, .append 8]).map (fun op => (op.sp.buffered_proposals, op.sp.ist.storage.log)) =
    some ([7, 8], []) := by decide +kernel
example : ((start 1 {}).bind fun op =>
      calls op [.tryBecomeLeader, .append 7, .append 8,
        .handleIncoming (.paxos ⟨2, 1, .promise ⟨op.ble.current_ballot, {}, 0, 0, none⟩⟩)]).map
      (fun op => (op.sp.buffered_proposals, op.sp.ist.storage.log)) = some ([], [7, 8]) := by decide +kernel
end Example

end Omni
