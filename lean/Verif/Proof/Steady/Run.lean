import Verif.Proof.Steady.Sys
import Verif.Proof.Progress.Go
import Verif.Spec.Steady
/-
Steady operation: runs.
-/
namespace Omni

variable {E S : Type} {n : Ballot} {k : Nat} {cc : ClusterConfig} {lg : NodeId → List E} {ci : NodeId → Nat} {A : List E}

def Message.paxos? : Message E S → Option (PaxosMessage E S)
  | .paxos m => some m
  | .ble _ => none

/-- The Paxos messages on the way. -/
def Cluster.px (c : Cluster E S) : NodeId → NodeId → List (PaxosMessage E S) := fun i j => (c.net i j).filterMap Message.paxos?

/-- The invariant, of a cluster. -/
def Cluster.Flows (cc : ClusterConfig) (n : Ballot) (k : Nat) (lg : NodeId → List E) (ci : NodeId → Nat) (A : List E) (c : Cluster E S) : Prop :=
  ∃ sv : NodeId → SP E S, (∀ i ∈ cc.nodes, ∃ op, c.servers i = .up op ∧ op.sp = sv i) ∧ Sys cc n k lg ci A sv c.px

theorem Cluster.px_setNet {c : Cluster E S} {i j : NodeId} {l : List (Message E S)} :
    (c.setNet i j l).px = updL c.px i j (l.filterMap Message.paxos?) := by
  funext a b
  simp only [Cluster.px, Cluster.setNet, updL]
  split <;> rfl

theorem Cluster.px_taken {c : Cluster E S} {i : NodeId} {op : OP E S} {sv : NodeId → SP E S} (h : op.sp = sv i) :
    (c.taken i op).px = SteadyInv.handed sv c.px i := by
  funext a b
  simp only [Cluster.px, Cluster.taken, SteadyInv.handed]
  by_cases e : a = i
  · rw [if_pos e, if_pos e]
    simp only [OP.take_outgoing_messages, SP.take_outgoing_msgs, List.isEmpty_nil, if_true, List.filterMap_append, List.append_cancel_left_eq,
      List.filter_append, ← h]
    have h1 : ((op.ble.outgoing.map Message.ble).filter (fun m => decide (m.dst = b))).filterMap (Message.paxos? (E := E) (S := S)) = [] := by
      rw [List.filterMap_eq_nil_iff]
      intro m hm
      obtain ⟨x, _, rfl⟩ := List.mem_map.1 (List.mem_filter.1 hm).1
      rfl
    rw [h1, List.append_nil]
    induction op.sp.outgoing with
    | nil => rfl
    | cons m ms ih =>
      simp only [List.map_cons, List.filter_cons]
      have : (Message.paxos m : Message E S).dst = m.dst := rfl
      rw [this]
      split
      · simp only [List.filterMap_cons, Message.paxos?, ih]
      · exact ih
  · rw [if_neg e, if_neg e]

theorem servers_upd {c : Cluster E S} {sv : NodeId → SP E S} (h : ∀ i ∈ cc.nodes, ∃ op, c.servers i = .up op ∧ op.sp = sv i) {j : NodeId}
    {op : OP E S} : ∀ i ∈ cc.nodes, ∃ o, (c.setServer j (.up op)).servers i = .up o ∧ o.sp = upd sv j op.sp i := by
  intro i hi
  by_cases e : i = j
  · subst e
    exact ⟨op, Cluster.setServer_self .., by rw [upd_self]⟩
  · rw [Cluster.setServer_other e, upd_other e]
    exact h i hi

theorem callResult_sat [SnapOps E S] {op : OP E S} {call : Call E S} {Q : OP E S → Prop} {P : OP E S → Prop}
    (h : M.Sat call.run op.clearTrail (fun _ => Q) P) :
    (∃ o, op.callResult call = .up o ∧ Q o) ∨ ∃ o, op.callResult call = .down o.sp.ist.storage ∧ P o := by
  unfold OP.callResult
  unfold M.Sat at h
  cases hr : call.run op.clearTrail with
  | ok a o => rw [hr] at h; exact .inl ⟨o, rfl, h⟩
  | panic o => rw [hr] at h; exact .inr ⟨o, rfl, h⟩

theorem OP.clearTrail_sp {op : OP E S} : op.clearTrail.sp = { op.sp with ist := { op.sp.ist with trail := [], calls := [] } } := rfl

/-- One action. -/
theorem Cluster.Flows.step [SnapOps E S] {c c' : Cluster E S} (h : c.Flows cc n k lg ci A) (hv : cc.validate = .ok ()) (hnd : cc.nodes.Nodup)
    {a : Action E S} (ha : a.Calm cc) (hs : c.step cc a = some c') (ht : ∀ i, a = .call i .tick → c'.LedBy cc n) :
    c'.Flows cc n k lg ci (A ++ a.entry?.toList) := by
  obtain ⟨sv, h1, h2⟩ := h
  cases a with
  | call i call =>
    have hi : i ∈ cc.nodes := by cases call <;> first | exact ha | exact ha.elim
    obtain ⟨op, e1, e2⟩ := h1 i hi
    have h3 := h2.clear hi
    rw [← e2, ← OP.clearTrail_sp] at h3
    simp only [Cluster.step, e1] at hs
    cases call with
    | append e =>
      simp only [Call.isIncoming, Bool.false_eq_true, if_false, Option.some.injEq] at hs
      subst hs
      have h4 := h3.append hv hnd hi e
      rw [upd_self] at h4
      rcases callResult_sat (op := op) (call := .append e) (Q := fun o => Sys cc n k lg ci (A ++ [e]) (upd sv i o.sp) c.px) (P := fun _ => False)
        (by
          simp only [Call.run, OP.append, M.sat_bind, OP.sat_onSP, M.sat_pure]
          refine M.sat_mono h4 (fun _ s' hs => ?_) fun _ h => h
          rwa [upd_upd] at hs) with ⟨o, e3, e4⟩ | ⟨o, _, e4⟩
      · rw [e3]
        exact ⟨_, servers_upd h1, e4⟩
      · exact e4.elim
    | tick =>
      simp only [Call.isIncoming, Bool.false_eq_true, if_false, Option.some.injEq] at hs
      subst hs
      have hled := ht i rfl i hi
      rw [Cluster.setServer_self] at hled
      rcases callResult_sat (op := op) (call := .tick)
        (Q := fun o => o.sp.ist.storage.n_prom = some n → (i = n.pid → o.sp.role = .leader) → Sys cc n k lg ci A (upd sv i o.sp) c.px)
        (P := fun o => o.sp.ist.storage.n_prom ≠ some n)
        (by
          refine OP.tick_sp (Q := fun s => s.ist.storage.n_prom = some n → (i = n.pid → s.role = .leader) → Sys cc n k lg ci A (upd sv i s) c.px)
            (P := fun s => s.ist.storage.n_prom ≠ some n) fun b r w _ _ _ => ?_
          have h4 := h3.ticked hv hnd hi b r w
          rw [upd_self] at h4
          refine M.sat_mono h4 (fun _ s' hs e1 e2 => ?_) fun _ h => h
          have := hs e1 e2
          rwa [upd_upd] at this) with ⟨o, e3, e4⟩ | ⟨o, e3, e4⟩
      · rw [e3] at hled ⊢
        refine ⟨_, servers_upd h1, ?_⟩
        simp only [Action.entry?, Option.toList_none, List.append_nil]
        exact e4 hled.1 (hled.2 o rfl)
      · rw [e3] at hled
        exact absurd hled.1 e4
    | setPriority p =>
      simp only [Call.isIncoming, Bool.false_eq_true, if_false, Option.some.injEq] at hs
      subst hs
      simp only [Action.entry?, Option.toList_none, List.append_nil]
      refine ⟨upd sv i op.clearTrail.sp, ?_, h3⟩
      exact servers_upd (op := { op.clearTrail with ble := op.clearTrail.ble.set_priority p }) h1
    | _ => exact ha.elim
  | take i =>
    obtain ⟨op, e1, e2⟩ := h1 i ha
    simp only [Cluster.step, e1, Option.some.injEq] at hs
    have hc : c' = c.taken i op := hs.symm
    subst hc
    have h3 := h2.take ha ([] : List (Message E S))
    refine ⟨upd sv i ((sv i).take_outgoing_msgs []).2, fun j hj => ?_, ?_⟩
    · by_cases e : j = i
      · subst e
        exact ⟨_, Cluster.taken_self .., by rw [upd_self, ← e2]; rfl⟩
      · rw [Cluster.taken_other e, upd_other e]
        exact h1 j hj
    · rw [Cluster.px_taken e2]
      simpa only [Action.entry?, Option.toList_none, List.append_nil] using h3
  | deliver i j =>
    obtain ⟨hi, hj⟩ := ha
    simp only [Cluster.step] at hs
    cases hl : c.net i j with
    | nil => rw [hl] at hs; cases hs
    | cons m rest =>
      obtain ⟨op, e1, e2⟩ := h1 j hj
      rw [hl] at hs
      simp only [e1, Option.some.injEq] at hs
      subst hs
      have h3 := h2.clear hj
      rw [← e2, ← OP.clearTrail_sp] at h3
      simp only [Action.entry?, Option.toList_none, List.append_nil]
      cases m with
      | ble b =>
        refine ⟨upd sv j op.clearTrail.sp, servers_upd (c := c.setNet i j rest) (op := { op.clearTrail with ble := op.clearTrail.ble.handle b }) h1, ?_⟩
        show Sys _ _ _ _ _ _ _ (c.setNet i j rest).px
        have hx : rest.filterMap Message.paxos? = c.px i j := by simp only [Cluster.px, hl, List.filterMap_cons, Message.paxos?]
        rw [Cluster.px_setNet, hx, updL_same]
        exact h3
      | paxos m =>
        have hx : c.px i j = m :: rest.filterMap Message.paxos? := by simp only [Cluster.px, hl, List.filterMap_cons, Message.paxos?]
        have h4 := h3.deliver hv hnd hi hj hx
        rw [upd_self] at h4
        rcases callResult_sat (op := op) (call := .handleIncoming (.paxos m)) (Q := fun o => Sys cc n k lg ci A (upd sv j o.sp) (c.setNet i j rest).px) (P := fun _ => False)
          (by
            simp only [Call.run, OP.handle_incoming, OP.sat_onSP]
            refine M.sat_mono h4 (fun _ s' hs => ?_) fun _ h => h
            rw [upd_upd] at hs
            rw [Cluster.px_setNet]
            exact hs) with ⟨o, e3, e4⟩ | ⟨o, _, e4⟩
        · rw [e3]
          exact ⟨_, servers_upd (c := c.setNet i j rest) h1, e4⟩
        · exact e4.elim
  | _ => exact ha.elim

theorem Cluster.Flows.run [SnapOps E S] {c c' : Cluster E S} {as : List (Action E S)} (h : c.Flows cc n k lg ci A) (hv : cc.validate = .ok ())
    (hnd : cc.nodes.Nodup) (hst : c.Steady cc n as) (hr : c.run cc as = some c') : c'.Flows cc n k lg ci (A ++ as.filterMap Action.entry?) := by
  induction as generalizing c A with
  | nil =>
    simp only [Cluster.run, Option.some.injEq] at hr
    subst hr
    simpa using h
  | cons a as ih =>
    simp only [Cluster.run] at hr
    cases hs : c.step cc a with
    | none => rw [hs] at hr; cases hr
    | some c1 =>
      rw [hs] at hr
      have h1 := h.step hv hnd (hst.calm a List.mem_cons_self) hs fun i hi =>
        hst.elected i 0 c1 (by rw [hi]; rfl) (by simp [Cluster.run, hs])
      have h2 := ih h1 ⟨fun b hb => hst.calm b (List.mem_cons_of_mem _ hb), fun i j c2 hj hr2 =>
        hst.elected i (j + 1) c2 (by simpa using hj) (by simpa [Cluster.run, hs] using hr2)⟩ hr
      have : A ++ (a :: as).filterMap Action.entry? = A ++ a.entry?.toList ++ as.filterMap Action.entry? := by
        cases ha : a.entry? <;> simp [List.filterMap_cons, ha]
      rw [this]
      exact h2

end Omni
