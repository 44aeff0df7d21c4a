import Verif.Proof.AnyRun
/-
The ballot a server's election part holds as its own carries the server's pid.
-/
namespace Omni

variable {E S : Type}

/-- What a call does to the election part. -/
theorem OP.call_ble [SnapOps E S] {C : BLE → Prop} {op op' : OP E S} {c : Call E S} (h : op.callResult c = .up op') (h0 : C op.ble)
    (hto : c = .tick → C (op.ble.hb_timeout op.sp.role op.sp.phase op.sp.get_promise).2)
    (hpr : ∀ p, c = .setPriority p → C (op.ble.set_priority p))
    (hm : ∀ m, c = .handleIncoming (.ble m) → C (op.ble.handle m)) : C op'.ble := by
  have key : ∀ {α : Type} (m : M (SP E S) α) (s : SP E S) (Q : α → SP E S → Prop),
      (∀ a p, Q a p) → M.Sat m s Q (fun _ => True) := fun m s Q h =>
    M.sat_mono (M.sat_true m s) (fun a p _ => h a p) (fun _ _ => trivial)
  have h0' : C op.clearTrail.ble := h0
  have hpm : op.clearTrail.sp.get_promise = op.sp.get_promise ∧ op.clearTrail.ble = op.ble ∧ op.clearTrail.sp.role = op.sp.role ∧
    op.clearTrail.sp.phase = op.sp.phase := ⟨rfl, rfl, rfl, rfl⟩
  have hs : M.Sat c.run op.clearTrail (fun _ t => C t.ble) (fun _ => True) := by
    generalize op.clearTrail = o at h0' hpm
    cases c <;>
      simp only [Call.run, OP.append, OP.reconfigure, OP.try_become_leader, OP.set_priority, OP.reconnected, OP.trim,
        OP.snapshot, OP.handle_incoming, M.sat_bind, OP.sat_onSP, M.sat_pure, M.sat_get, M.sat_upd]
    case tick =>
      simp only [OP.tick, M.sat_bind, M.sat_get, M.sat_upd]
      have w : ∀ (p : Prop) [Decidable p] (m : M (OP E S) Unit) (t : OP E S) (Q : Unit → OP E S → Prop),
          (p → M.Sat m t Q (fun _ => True)) → (¬ p → Q () t) → M.Sat (M.whenDo p m) t Q (fun _ => True) := by
        intro p _ m t Q h1 h2
        by_cases hp : p
        · simp only [M.whenDo, hp, if_true]; exact h1 hp
        · simp only [M.whenDo, hp, if_false]; simpa using h2 hp
      have s3 : ∀ (q : Bool) (t : OP E S), C t.ble →
          M.Sat (M.whenDo (q = true) (OP.onSP SP.flush_batch_timeout)) t (fun _ t => C t.ble) (fun _ => True) := fun q t ht =>
        w _ _ _ _ (fun _ => by rw [OP.sat_onSP]; exact key _ _ _ fun _ _ => ht) fun _ => ht
      have s2 : ∀ (q : Bool) (t : OP E S), C t.ble →
          M.Sat (M.whenDo (q = true) (OP.onSP SP.resend_message_timeout)) t (fun _ t => C t.ble) (fun _ => True) := fun q t ht =>
        w _ _ _ _ (fun _ => by rw [OP.sat_onSP]; exact key _ _ _ fun _ _ => ht) fun _ => ht
      have s1 : ∀ (q : Bool) (t : OP E S), C t.ble → t.sp.get_promise = op.sp.get_promise ∧ t.ble = op.ble ∧
          t.sp.role = op.sp.role ∧ t.sp.phase = op.sp.phase →
          M.Sat (M.whenDo (q = true) OP.election_timeout) t (fun _ t => C t.ble) (fun _ => True) := fun q t ht htp =>
        w _ _ _ _ (fun _ => by
          simp only [OP.election_timeout, M.sat_bind, M.sat_get, M.sat_upd, htp.1, htp.2.1, htp.2.2.1, htp.2.2.2]
          split
          · rw [OP.sat_onSP]; exact key _ _ _ fun _ _ => hto rfl
          · simp only [M.sat_pure]; exact hto rfl) fun _ => ht
      exact M.sat_mono (s1 _ _ h0' hpm) (fun _ t ht => M.sat_mono (s2 _ _ ht) (fun _ t ht => s3 _ _ ht) fun _ _ => trivial)
        fun _ _ => trivial
    case reconfigure =>
      split
      · simpa using h0'
      · simp only [OP.sat_onSP]; exact key _ _ _ fun _ _ => h0'
    case handleIncoming m =>
      cases m
      · simp only [OP.sat_onSP]; exact key _ _ _ fun _ _ => h0'
      · simp only [M.sat_upd]; rw [hpm.2.1]; exact hm _ rfl
    case setPriority => rw [hpm.2.1]; exact hpr _ rfl
    all_goals exact key _ _ _ fun _ _ => h0'
  unfold OP.callResult at h
  unfold M.Sat at hs
  split at hs <;> rename_i e <;> rw [e] at h <;> cases h
  exact hs

/-- The same for a predicate that is kept. -/
theorem OP.run_ble [SnapOps E S] {C : BLE → Prop} {op op' : OP E S} {c : Call E S} (h : op.callResult c = .up op') (h0 : C op.ble)
    (hto : ∀ b r p, C b → C (b.hb_timeout r p op.sp.get_promise).2) (hpr : ∀ b p, C b → C (b.set_priority p))
    (hm : ∀ m, c = .handleIncoming (.ble m) → ∀ b, C b → C (b.handle m)) : C op'.ble :=
  OP.call_ble h h0 (fun _ => hto _ _ _ h0) (fun _ _ => hpr _ _ h0) fun m e => hm m e _ h0

/-- The election part of server `i`. -/
def BLE.OwnPid (i : NodeId) (b : BLE) : Prop := b.pid = i ∧ b.current_ballot.pid = i

namespace BLE

variable {i : NodeId} {b : BLE}

theorem op_hb_timeout (h : b.OwnPid i) (r : Role) (p : Phase) (n : Ballot) : (b.hb_timeout r p n).2.OwnPid i := by
  have h1 : ∀ c : BLE, c.OwnPid i → c.check_takeover.OwnPid i := by
    intro c hc; unfold check_takeover; split <;> (try split) <;> exact hc
  have h2 : ∀ c : BLE, c.OwnPid i → c.update_leader.OwnPid i := by
    intro c hc; unfold update_leader; split <;> (try split) <;> exact hc
  have h3 : ∀ c : BLE, c.OwnPid i → (c.sync_with_promise n).OwnPid i := by
    intro c hc; unfold sync_with_promise
    split
    · refine ⟨hc.1, ?_⟩
      simp only
      split
      · rename_i e; exact e.trans hc.1
      · exact hc.2
    · exact hc
  exact h3 _ (h1 (b.update_leader.update_happiness r p) (h2 b h))

theorem op_handle (h : b.OwnPid i) (m : BLEMessage) : (b.handle m).OwnPid i := by
  unfold handle
  split
  · exact h
  · unfold handle_reply; split <;> exact h

theorem op_with (cid : Nat) (i : NodeId) (peers : List NodeId) (prio : Nat) (fq : Option FlexibleQuorum) (rl : Option Ballot) :
    (BLE.with cid i peers prio fq rl).OwnPid i := by
  unfold BLE.with
  split <;> (try split) <;> exact ⟨rfl, rfl⟩

end BLE

theorem OwnPid.runs [SnapOps E S] {cc : ClusterConfig} {acts : List (LAction E S)} {c : Loose E S}
    (hr : Loose.init.run cc acts = some c) {i : NodeId} {op : OP E S} (h : c.servers i = .up op) : op.ble.OwnPid i := by
  have hc : LClosed (E := E) (S := S) cc (fun _ => True) (fun i op => op.ble.OwnPid i) (fun _ _ => True) (fun _ => True) := by
    refine ⟨fun _ => trivial, fun cfg d op _ hb => ?_, fun _ _ _ => trivial, fun i op call hu _ _ => ⟨fun op' e => ?_, fun _ _ => trivial,
      fun _ _ => trivial⟩, fun i op hu => ⟨hu, fun _ _ => trivial⟩⟩
    · obtain ⟨mp, hmp, rfl⟩ := OP.build_eq hb
      exact BLE.op_with _ _ _ _ _ _
    · exact OP.run_ble e hu (fun b r p hb => BLE.op_hb_timeout hb r p _) (fun b p hb => hb) fun m _ b hb => BLE.op_handle hb m
  exact (LInv.runs hc (fun a _ => by cases a <;> trivial) hr).up i op h

end Omni
