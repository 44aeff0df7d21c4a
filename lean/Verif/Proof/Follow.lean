import Verif.Spec.Follow
import Verif.Proof.LeaderKeep
import Verif.Proof.Safety.Slot
/-
The slots of the leader state that belong to another server.
-/
namespace Omni

variable {E S : Type}

/-- The promise of `j` in ballot `n0` is `v`; in a higher ballot, nothing is known yet. -/
def PromSlot (n0 : Ballot) (j : NodeId) (v : Pan PromiseState) (ls : LeaderState E S) : Prop :=
  ls.n_leader = n0 ∧ slot ls.promises_meta j = v ∨ n0 < ls.n_leader ∧ ∀ x, slot ls.promises_meta j = some x → x = .notPromised

/-- The accepted index of `j` in ballot `n0` is `v`; in a higher ballot, nothing is known yet. -/
def AccSlot (n0 : Ballot) (j : NodeId) (v : Pan Nat) (ls : LeaderState E S) : Prop :=
  ls.n_leader = n0 ∧ slot ls.accepted_indexes j = v ∨ n0 < ls.n_leader ∧ ∀ x, slot ls.accepted_indexes j = some x → x = 0

theorem promSlot_closed (n0 : Ballot) (j : NodeId) (v : Pan PromiseState) :
    LSClosed (E := E) (S := S) (fun p => p ≠ j) (fun _ => True) (PromSlot n0 j v) := by
  have hset : ∀ (ls : LeaderState E S) (p : NodeId) (x : PromiseState) (w : List PromiseState) (ls' : LeaderState E S), PromSlot n0 j v ls →
      p ≠ j → setSlot ls.promises_meta p x = some w → ls'.n_leader = ls.n_leader → ls'.promises_meta = w → PromSlot n0 j v ls' := by
    intro ls p x w ls' h hp hs e1 e2
    have := (setSlot_spec hs).2.2.2.2 j (fun e => hp e.symm)
    unfold PromSlot
    rw [e1, e2, this]; exact h
  refine ⟨fun ls n h hn => ?_, ?_, ?_, ?_, ?_, ?_, ?_, ?_, fun _ h => h, fun _ h => h⟩
  · refine .inr ⟨?_, fun x hx => slot_replicate hx⟩
    rcases h with ⟨h, -⟩ | ⟨h, -⟩
    · rw [← h]; exact hn
    · exact Ballot.lt_trans h hn
  · intro ls p ls' h hp e
    unfold LeaderState.reset_promise at e; split at e <;> cases e
    rename_i w hw; exact hset ls p _ w _ h hp hw rfl rfl
  · intro ls p ls' h hp e
    unfold LeaderState.lost_promise at e; split at e <;> cases e
    rename_i w hw; exact hset ls p _ w _ h hp hw rfl rfl
  · intro ls x f b r h hf e
    unfold LeaderState.set_promise LeaderState.update_max at e
    simp only at e
    split at e <;> cases e
    rename_i w hw
    dsimp only
    split at hw
    · rename_i hb; exact hset ls f _ w _ h hf hw (by simp [hb]) rfl
    · rename_i hb; exact hset ls f _ w _ h hf hw (by simp [hb]) rfl
  · intro ls p i ls' h e
    unfold LeaderState.set_latest_accept_meta at e; split at e <;> cases e; exact h
  · intro ls p r h e
    unfold LeaderState.next_seq_num at e; split at e
    · cases e
    · simp only at e; split at e <;> cases e; exact h
  · intro ls p r h e
    unfold LeaderState.increment_seq_num_session at e; split at e
    · cases e
    · split at e <;> cases e; exact h
  · intro ls p i ls' h _ e
    unfold LeaderState.set_accepted_idx at e; split at e <;> cases e; exact h

theorem accSlot_closed (n0 : Ballot) (j : NodeId) (v : Pan Nat) :
    LSClosed (E := E) (S := S) (fun _ => True) (fun p => p ≠ j) (AccSlot n0 j v) := by
  refine ⟨fun ls n h hn => ?_, ?_, ?_, ?_, ?_, ?_, ?_, ?_, fun _ h => h, fun _ h => h⟩
  · refine .inr ⟨?_, fun x hx => slot_replicate hx⟩
    rcases h with ⟨h, -⟩ | ⟨h, -⟩
    · rw [← h]; exact hn
    · exact Ballot.lt_trans h hn
  · intro ls p ls' h hp e
    unfold LeaderState.reset_promise at e; split at e <;> cases e; exact h
  · intro ls p ls' h hp e
    unfold LeaderState.lost_promise at e; split at e <;> cases e; exact h
  · intro ls x f b r h hf e
    unfold LeaderState.set_promise LeaderState.update_max at e
    simp only at e
    split at e <;> cases e
    dsimp only
    split <;> exact h
  · intro ls p i ls' h e
    unfold LeaderState.set_latest_accept_meta at e; split at e <;> cases e; exact h
  · intro ls p r h e
    unfold LeaderState.next_seq_num at e; split at e
    · cases e
    · simp only at e; split at e <;> cases e; exact h
  · intro ls p r h e
    unfold LeaderState.increment_seq_num_session at e; split at e
    · cases e
    · split at e <;> cases e; exact h
  · intro ls p i ls' h hp e
    unfold LeaderState.set_accepted_idx at e; split at e <;> cases e
    rename_i w hw
    have := (setSlot_spec hw).2.2.2.2 j (fun e => hp e.symm)
    unfold AccSlot
    simp only
    rw [this]; exact h

namespace SP

variable {s : SP E S} {j : NodeId}

theorem promSlot_now (ls : LeaderState E S) (j : NodeId) : PromSlot ls.n_leader j (slot ls.promises_meta j) ls :=
  .inl ⟨rfl, rfl⟩

theorem accSlot_now (ls : LeaderState E S) (j : NodeId) : AccSlot ls.n_leader j (slot ls.accepted_indexes j) ls :=
  .inl ⟨rfl, rfl⟩

/-- A message of `j`. -/
theorem heard_promise [SnapOps E S] (hj : s.pid ≠ j) (m : PaxosMessage E S) (hm : m.src = j) : M.Sat (handle m) s
    (fun _ t => PromSlot s.ls.n_leader j ((slot s.ls.promises_meta j).map (s.heardPromise j m.msg)) t.ls) (fun _ => True) := by
  have hcl := fun v => promSlot_closed (E := E) (S := S) s.ls.n_leader j v
  have hnow : ∀ v, slot s.ls.promises_meta j = v → LJ (fun p => p ≠ j) (fun _ => True) (PromSlot s.ls.n_leader j v) s :=
    fun v hv => ⟨hv ▸ promSlot_now s.ls j, hj, trivial⟩
  have hset : ∀ (ls : LeaderState E S) (x : PromiseState) (w : List PromiseState), setSlot s.ls.promises_meta j x = some w →
      ls.n_leader = s.ls.n_leader → ls.promises_meta = w → ∀ f : PromiseState → PromiseState, (∀ o, f o = x) →
      PromSlot s.ls.n_leader j ((slot s.ls.promises_meta j).map f) ls := by
    intro ls x w hw e1 e2 f hf
    obtain ⟨_, _, h3, h4, _⟩ := setSlot_spec hw
    obtain ⟨o, ho⟩ := Option.isSome_iff_exists.1 h3
    unfold PromSlot
    rw [e1, e2, h4, ho]
    exact .inl ⟨rfl, by simp [hf]⟩
  have hno : ∀ f : PromiseState → PromiseState, (∀ o, f o = o) → (slot s.ls.promises_meta j).map f = slot s.ls.promises_meta j := by
    intro f hf
    have : f = id := funext hf
    rw [this]; simp
  by_cases hq : (∃ n, m.msg = .prepareReq n) ∨ (∃ p, m.msg = .promise p) ∨ ∃ n, m.msg = .notAccepted n
  · rcases hq with ⟨n, hn⟩ | ⟨p, hp⟩ | ⟨n, hn⟩
    · simp only [handle, hn, hm, handle_preparereq, M.sat_bind, M.sat_get, M.sat_ite, M.sat_pure, sat_onLS]
      refine ⟨fun hc => ⟨fun ls hls => ⟨fun ls2 h2 => ?_, fun _ => trivial⟩, fun _ => trivial⟩, fun hc => ?_⟩
      · unfold LeaderState.reset_promise at hls; split at hls <;> cases hls
        rename_i w hw
        unfold LeaderState.set_latest_accept_meta at h2; split at h2 <;> cases h2
        refine hset _ _ w hw ?_ ?_ _ fun o => by simp only [heardPromise]; rw [if_pos hc]
        · rfl
        · rfl
      · rw [hno _ fun o => by simp only [heardPromise, if_neg hc]]; exact promSlot_now _ _
    · simp only [handle, hp, hm, handle_promise, M.sat_bind, M.sat_get]
      have hafter : ∀ (b : Bool) (r : LeaderState E S × Bool), s.ls.set_promise p j b = some r → p.n = s.ls.n_leader → s.role = .leader →
          s.phase = .prepare ∨ s.phase = .accept →
          LJ (fun p => p ≠ j) (fun _ => True) (PromSlot s.ls.n_leader j ((slot s.ls.promises_meta j).map (s.heardPromise j (.promise p))))
            { s with ls := r.1 } := by
        intro b r hr hn h1 h2
        refine ⟨?_, hj, trivial⟩
        unfold LeaderState.set_promise LeaderState.update_max at hr
        simp only at hr
        split at hr <;> cases hr
        rename_i w hw
        dsimp only
        have hf : ∀ o, s.heardPromise j (.promise p) o =
            .promised { n_accepted := p.n_accepted, accepted_idx := p.accepted_idx, decided_idx := p.decided_idx, pid := j } := by
          intro o; simp only [heardPromise]; rw [if_pos ⟨h1, h2, hn⟩]
        split at hw
        · rename_i hb; exact hset _ _ w hw (by simp [hb]) rfl _ hf
        · rename_i hb; exact hset _ _ w hw (by simp [hb]) rfl _ hf
      split
      · rename_i hrole hph
        simp only [handle_promise_prepare, M.sat_bind, M.sat_get, M.sat_ite, M.sat_pure]
        refine ⟨fun hn => ?_, fun hn => ?_⟩
        · rw [sat_onLS']
          refine ⟨fun r hr => ?_, fun _ => trivial⟩
          have ha := hafter true r hr hn hrole (.inl hph)
          exact ⟨fun _ => M.sat_mono (l_handle_majority (hcl _) ha) (fun _ _ h => h.1) fun _ h => h, fun _ => ha.1⟩
        · rw [hno _ fun o => by simp only [heardPromise]; rw [if_neg fun h => hn h.2.2]]; exact promSlot_now _ _
      · rename_i hrole hph
        simp only [handle_promise_accept, M.sat_bind, M.sat_get, M.sat_ite, M.sat_pure]
        refine ⟨fun hn => ?_, fun hn => ?_⟩
        · rw [sat_onLS']
          refine ⟨fun r hr => ?_, fun _ => trivial⟩
          have ha := hafter false r hr hn hrole (.inr hph)
          exact M.sat_mono (l_send_accsync (hcl _) ha j) (fun _ _ h => h.1) fun _ h => h
        · rw [hno _ fun o => by simp only [heardPromise]; rw [if_neg fun h => hn h.2.2]]; exact promSlot_now _ _
      · rename_i h1 h2
        rw [M.sat_pure, hno]
        · exact promSlot_now _ _
        · intro o
          simp only [heardPromise]
          rw [if_neg]
          rintro ⟨hr, hp | hp, _⟩
          · exact h1 hr hp
          · exact h2 hr hp
    · simp only [handle, hn, hm, handle_notaccepted, M.sat_bind, M.sat_get, M.sat_ite, M.sat_pure, sat_onLS]
      refine ⟨fun hc => ⟨fun ls hls => ?_, fun _ => trivial⟩, fun hc => ?_⟩
      · unfold LeaderState.lost_promise at hls; split at hls <;> cases hls
        rename_i w hw
        refine hset _ _ w hw ?_ ?_ _ fun o => by simp only [heardPromise]; rw [if_pos hc]
        · rfl
        · rfl
      · rw [hno _ fun o => by simp only [heardPromise, if_neg hc]]; exact promSlot_now _ _
  · rw [hno _ fun o => ?_]
    · exact M.sat_mono (l_handle (hcl _) (hnow _ rfl) m (fun h => absurd h hq) fun _ => trivial) (fun _ _ h => h.1) fun _ h => h
    · cases hmm : m.msg <;> simp only [heardPromise]
      · exact absurd (.inl ⟨_, hmm⟩) hq
      · exact absurd (.inr (.inl ⟨_, hmm⟩)) hq
      · exact absurd (.inr (.inr ⟨_, hmm⟩)) hq

theorem heard_accepted [SnapOps E S] (hj : s.pid ≠ j) (m : PaxosMessage E S) (hm : m.src = j) : M.Sat (handle m) s
    (fun _ t => AccSlot s.ls.n_leader j ((slot s.ls.accepted_indexes j).map (s.heardAccepted m.msg)) t.ls) (fun _ => True) := by
  have hcl := fun v => accSlot_closed (E := E) (S := S) s.ls.n_leader j v
  have hno : ∀ f : Nat → Nat, (∀ o, f o = o) → (slot s.ls.accepted_indexes j).map f = slot s.ls.accepted_indexes j := by
    intro f hf
    have : f = id := funext hf
    rw [this]; simp
  by_cases hq : ∃ a, m.msg = .accepted a
  · obtain ⟨a, ha⟩ := hq
    simp only [handle, ha, hm, handle_accepted, M.sat_bind, M.sat_get, M.sat_ite, M.sat_pure]
    refine ⟨fun hc => ?_, fun hc => ?_⟩
    · rw [sat_onLS]
      refine ⟨fun ls hls => ?_, fun _ => trivial⟩
      unfold LeaderState.set_accepted_idx at hls; split at hls <;> cases hls
      rename_i w hw
      obtain ⟨_, _, h3, h4, _⟩ := setSlot_spec hw
      obtain ⟨o, ho⟩ := Option.isSome_iff_exists.1 h3
      have hA : LJ (fun _ => True) (fun p => p ≠ j) (AccSlot s.ls.n_leader j ((slot s.ls.accepted_indexes j).map (s.heardAccepted (.accepted a))))
          { s with ls := { s.ls with accepted_indexes := w } } := by
        refine ⟨.inl ⟨rfl, ?_⟩, trivial, hj⟩
        simp [h4, ho, heardAccepted, hc.1, hc.2.1, hc.2.2]
      refine ⟨fun _ => ?_, fun _ => hA.1⟩
      refine M.sat_mono (l_store hA _) (fun _ u hu => ?_) fun _ h => h
      exact M.sat_mono (l_forEach hu fun x _ hv => l_announce (hcl _) hv _ x) (fun _ _ h => h.1) fun _ h => h
    · rw [hno]
      · exact accSlot_now _ _
      · intro o
        simp only [heardAccepted]
        rw [if_neg fun h => hc ⟨h.2.2, h.1, h.2.1⟩]
  · rw [hno _ fun o => ?_]
    · exact M.sat_mono (l_handle (hcl _) ⟨accSlot_now _ _, trivial, hj⟩ m (fun _ => trivial) fun h => absurd h hq) (fun _ _ h => h.1) fun _ h => h
    · cases hmm : m.msg <;> simp only [heardAccepted]
      exact absurd ⟨_, hmm⟩ hq

end SP

theorem OP.run_sp [SnapOps E S] {op op' : OP E S} {m : PaxosMessage E S} {P : SP E S → Prop}
    (h : op.callResult (.handleIncoming (.paxos m)) = .up op') (hs : M.Sat (SP.handle m) op.clearTrail.sp (fun _ => P) (fun _ => True)) :
    P op'.sp := by
  have : M.Sat (Call.handleIncoming (Message.paxos m)).run op.clearTrail (fun _ t => P t.sp) (fun _ => True) := by
    simp only [Call.run, OP.handle_incoming, OP.sat_onSP]; exact hs
  unfold OP.callResult at h
  unfold M.Sat at this
  split at this <;> rename_i e <;> rw [e] at h <;> cases h
  exact this

/-- A call that brings no message of `j`. -/
theorem OP.run_ls [SnapOps E S] {J K : NodeId → Prop} {P : LeaderState E S → Prop} (hP : LSClosed J K P) {op op' : OP E S} {c : Call E S}
    (h : op.callResult c = .up op') (h0 : P op.sp.ls) (hJ : J op.sp.pid) (hK : K op.sp.pid)
    (hm : ∀ m, c = .handleIncoming (.paxos m) → J m.src ∧ K m.src) : P op'.sp.ls := by
  have hs := OP.run_closed (op := op.clearTrail) (SP.closed_l hP) ⟨h0, hJ, hK⟩ c fun m e =>
    SP.l_handle (s := op.clearTrail.sp) hP ⟨h0, hJ, hK⟩ m (fun _ => (hm m e).1) (fun _ => (hm m e).2)
  unfold OP.callResult at h
  unfold M.Sat at hs
  split at hs <;> rename_i e <;> rw [e] at h <;> cases h
  exact hs.1

theorem OP.promSlot [SnapOps E S] {op op' : OP E S} {c : Call E S} (h : op.callResult c = .up op') {j : NodeId} (hj : op.sp.pid ≠ j) :
    PromSlot op.sp.ls.n_leader j (match c.heard j with
      | some msg => (slot op.sp.ls.promises_meta j).map (op.sp.heardPromise j msg)
      | none => slot op.sp.ls.promises_meta j) op'.sp.ls := by
  by_cases hc : ∃ m : PaxosMessage E S, c = .handleIncoming (.paxos m) ∧ m.src = j
  · obtain ⟨m, rfl, hm⟩ := hc
    simp only [Call.heard, hm, if_true]
    exact OP.run_sp h (SP.heard_promise (s := op.clearTrail.sp) hj m hm)
  · have hn : c.heard j = none := by
      unfold Call.heard
      split
      · rename_i m
        rw [if_neg fun e => hc ⟨m, rfl, e⟩]
      · rfl
    rw [hn]
    exact OP.run_ls (promSlot_closed _ _ _) h (SP.promSlot_now _ _) hj trivial fun m e => ⟨fun hx => hc ⟨m, e, hx⟩, trivial⟩

theorem OP.accSlot [SnapOps E S] {op op' : OP E S} {c : Call E S} (h : op.callResult c = .up op') {j : NodeId} (hj : op.sp.pid ≠ j) :
    AccSlot op.sp.ls.n_leader j (match c.heard j with
      | some msg => (slot op.sp.ls.accepted_indexes j).map (op.sp.heardAccepted msg)
      | none => slot op.sp.ls.accepted_indexes j) op'.sp.ls := by
  by_cases hc : ∃ m : PaxosMessage E S, c = .handleIncoming (.paxos m) ∧ m.src = j
  · obtain ⟨m, rfl, hm⟩ := hc
    simp only [Call.heard, hm, if_true]
    exact OP.run_sp h (SP.heard_accepted (s := op.clearTrail.sp) hj m hm)
  · have hn : c.heard j = none := by
      unfold Call.heard
      split
      · rename_i m
        rw [if_neg fun e => hc ⟨m, rfl, e⟩]
      · rfl
    rw [hn]
    exact OP.run_ls (accSlot_closed _ _ _) h (SP.accSlot_now _ _) trivial hj fun m e => ⟨trivial, fun hx => hc ⟨m, e, hx⟩⟩

end Omni
