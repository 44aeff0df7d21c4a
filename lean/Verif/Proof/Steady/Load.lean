import Verif.Proof.Steady.Moves
/-
Steady operation under load: an action of the cluster.
-/
namespace Omni

variable {E S : Type} {n : Ballot} {k : Nat} {cc : ClusterConfig} {lg : NodeId → List E} {ci : NodeId → Nat} {A : List E}

def Cluster.obs (c : Cluster E S) (i : NodeId) : Obs E S := match c.servers i with
  | .up op => op.sp.obs
  | .down _ => ⟨0, [], 0, [], [], []⟩

/-- The Paxos message an action delivers. -/
def Cluster.dv (c : Cluster E S) : Action E S → Option (NodeId × NodeId × PaxosMsg E S)
  | .deliver i j => match c.net i j with
    | .paxos m :: _ => some (i, j, m.msg)
    | _ => none
  | _ => none

theorem Moves.congr {o o1 o' o1' : NodeId → Obs E S} {lk lk' : NodeId → NodeId → List (PaxosMessage E S)} {dv : Option (NodeId × NodeId × PaxosMsg E S)}
    (h : Moves cc n o lk dv o' lk') (hn : n.pid ∈ cc.nodes) (h1 : ∀ i ∈ cc.nodes, o1 i = o i) (h2 : ∀ i ∈ cc.nodes, o1' i = o' i) :
    Moves cc n o1 lk dv o1' lk' := by
  have w1 : ∀ f ∈ cc.nodes, waiting n o1 lk f = waiting n o lk f := fun f hf => by simp only [waiting, h1 f hf]
  have w2 : ∀ f ∈ cc.nodes, waiting n o1' lk' f = waiting n o' lk' f := fun f hf => by simp only [waiting, h2 f hf]
  refine ⟨fun i hi => ?_, fun i hi => ?_, fun i hi => ?_, ?_, ?_, fun f m e => ?_, fun f hf hfn m e => ?_, fun f hf hfn m e => ?_, fun f hf hfn e => ?_,
    fun f hf hfn x e => ?_, fun f hf hfn e => ?_, fun f hf hfn x e => ?_⟩
  · rw [h1 i hi, h2 i hi]; exact h.acc i hi
  · rw [h1 i hi, h2 i hi]; exact h.rcv i hi
  · rw [h1 i hi, h2 i hi]; exact h.dec i hi
  · rw [h1 _ hn, h2 _ hn]; exact h.log
  · rw [h1 _ hn, h2 _ hn]; exact h.all
  · rw [h1 _ hn, h2 _ hn]; exact h.came f m e
  · rw [h1 _ hf, h2 _ hf]; exact h.got f hf hfn m e
  · rw [w1 f hf, w2 f hf]; exact h.less f hf hfn m e
  · rw [w1 f hf, w2 f hf]; exact h.more f hf hfn e
  · rw [h2 _ hn]; exact h.noted f hf hfn x e
  · rw [h1 _ hn, h2 _ hn]; exact h.kept f hf hfn e
  · rw [h2 f hf] at e ⊢
    rw [h1 f hf]
    exact h.replied f hf hfn x e

/-- One action. -/
theorem Cluster.Flows.moves [SnapOps E S] {c c' : Cluster E S} (h : c.Flows cc n k lg ci A) (hv : cc.validate = .ok ()) (hnd : cc.nodes.Nodup)
    (hn : n.pid ∈ cc.nodes) {a : Action E S} (ha : a.Calm cc) (hs : c.step cc a = some c') (ht : ∀ i, a = .call i .tick → c'.LedBy cc n) :
    Moves cc n c.obs c.px (c.dv a) c'.obs c'.px := by
  obtain ⟨sv, h1, h2⟩ := h
  have hcl : ∀ {i : NodeId} {op : OP E S}, op.sp = sv i → ∀ j, (upd sv i op.clearTrail.sp j).obs = (sv j).obs := by
    intro i op e j
    by_cases hj : j = i
    · subst hj; rw [upd_self, OP.clearTrail_sp, e]; rfl
    · rw [upd_other hj]
  have ho1 : ∀ i ∈ cc.nodes, c.obs i = (sv i).obs := fun i hi => by
    obtain ⟨op, e1, e2⟩ := h1 i hi
    simp only [Cluster.obs, e1, e2]
  suffices hx : ∃ sv' : NodeId → SP E S, (∀ i ∈ cc.nodes, ∃ op, c'.servers i = .up op ∧ op.sp = sv' i) ∧
      Moves cc n (fun i => (sv i).obs) c.px (c.dv a) (fun i => (sv' i).obs) c'.px by
    obtain ⟨sv', h5, h6⟩ := hx
    exact h6.congr hn ho1 fun i hi => by
      obtain ⟨op, e1, e2⟩ := h5 i hi
      simp only [Cluster.obs, e1, e2]
  cases a with
  | call i call =>
    have hi : i ∈ cc.nodes := by cases call <;> first | exact ha | exact ha.elim
    obtain ⟨op, e1, e2⟩ := h1 i hi
    have h3 := h2.clear hi
    rw [← e2, ← OP.clearTrail_sp] at h3
    simp only [Cluster.step, e1] at hs
    have fin : ∀ {sv' : NodeId → SP E S} {lk' : NodeId → NodeId → List (PaxosMessage E S)},
        Moves cc n (fun j => (upd sv i op.clearTrail.sp j).obs) c.px none (fun j => (sv' j).obs) lk' →
        Moves cc n (fun j => (sv j).obs) c.px none (fun j => (sv' j).obs) lk' := fun hm => by
      simp only [hcl e2] at hm
      exact hm
    cases call with
    | append e =>
      simp only [Call.isIncoming, Bool.false_eq_true, if_false, Option.some.injEq] at hs
      subst hs
      obtain ⟨X, B, d, h4, _⟩ := h3
      have h5 : M.Sat (SP.append e) op.clearTrail.sp (fun _ s' => Moves cc n (fun j => (sv j).obs) c.px none (fun j => (upd sv i s' j).obs) c.px) (fun _ => False) := by
        by_cases hin : i = n.pid
        · subst hin
          have h5 := h4.lead.append h4.keeps e
          rw [upd_self] at h5
          refine M.sat_mono h5 (fun _ s' hs => ?_) fun _ h => h
          rw [← upd_self sv n.pid op.clearTrail.sp] at hs
          have := h4.moves_put hn hs (dv := none) (lk' := c.px) (.inl ⟨rfl, rfl⟩)
          rw [upd_upd] at this
          exact fin this
        · obtain ⟨_, _, _, _, _, q, al, ms, hl⟩ := h4.fol i hi hin
          have hl1 := hl.fol.append e
          rw [upd_self] at hl1
          refine M.sat_mono hl1 (fun _ s' hs => ?_) fun _ h => h
          have := SteadyInv.moves_fol (sv := upd sv i op.clearTrail.sp) (lk := c.px) (lk' := c.px) (dv := none) hi hin hl.fol hs (Nat.le_refl _)
            ⟨[e], by simp [PaxosMsg.forwards]⟩ (fun x hx => by
              rcases List.mem_append.1 hx with hx | hx
              · exact .inl hx
              · exact absurd (List.mem_singleton.1 hx) (by simp)) (.inl ⟨rfl, rfl, rfl⟩)
          rw [upd_upd] at this
          exact fin this
      rcases callResult_sat (op := op) (call := .append e) (Q := fun o => Moves cc n (fun j => (sv j).obs) c.px none (fun j => (upd sv i o.sp j).obs) c.px)
        (P := fun _ => False)
        (by
          simp only [Call.run, OP.append, M.sat_bind, OP.sat_onSP, M.sat_pure]
          exact M.sat_mono h5 (fun _ s' hs => hs) fun _ h => h) with ⟨o, e3, e4⟩ | ⟨o, _, e4⟩
      · rw [e3]
        exact ⟨_, servers_upd h1, e4⟩
      · exact e4.elim
    | tick =>
      simp only [Call.isIncoming, Bool.false_eq_true, if_false, Option.some.injEq] at hs
      subst hs
      have hled := ht i rfl i hi
      rw [Cluster.setServer_self] at hled
      obtain ⟨X, B, d, h4, _⟩ := h3
      rcases callResult_sat (op := op) (call := .tick)
        (Q := fun o => o.sp.ist.storage.n_prom = some n → (i = n.pid → o.sp.role = .leader) →
          Moves cc n (fun j => (sv j).obs) c.px none (fun j => (upd sv i o.sp j).obs) c.px)
        (P := fun o => o.sp.ist.storage.n_prom ≠ some n)
        (by
          refine OP.tick_sp (Q := fun s => s.ist.storage.n_prom = some n → (i = n.pid → s.role = .leader) →
              Moves cc n (fun j => (sv j).obs) c.px none (fun j => (upd sv i s j).obs) c.px)
            (P := fun s => s.ist.storage.n_prom ≠ some n) fun b r w _ _ _ => ?_
          by_cases hin : i = n.pid
          · subst hin
            have h5 := h4.lead.ticked h4.keeps b r w
            rw [upd_self] at h5
            refine M.sat_mono h5 (fun _ s' hs e1 e3 => ?_) fun _ h => h
            rcases hs e1 (e3 rfl) with ⟨_, hs⟩ | ⟨_, rfl⟩
            · rw [← upd_self sv n.pid op.clearTrail.sp] at hs
              have := h4.moves_put hn hs (dv := none) (lk' := c.px) (.inl ⟨rfl, rfl⟩)
              rw [upd_upd] at this
              exact fin this
            · exact fin Moves.refl
          · obtain ⟨_, _, _, _, _, q, al, ms, hl⟩ := h4.fol i hi hin
            have hl1 := hl.fol.ticked b r w
            rw [upd_self] at hl1
            refine M.sat_mono hl1 (fun _ s' hs e1 _ => ?_) fun _ h => h
            rcases hs e1 with ⟨_, hs, _⟩ | ⟨_, rfl⟩
            · have := SteadyInv.moves_after (sv := upd sv i op.clearTrail.sp) (lk := c.px) (lk' := c.px) (dv := none) hi hin hl.fol hs (.inl ⟨rfl, rfl, rfl⟩)
              rw [upd_upd] at this
              exact fin this
            · exact fin Moves.refl) with ⟨o, e3, e4⟩ | ⟨o, e3, e4⟩
      · rw [e3] at hled ⊢
        exact ⟨_, servers_upd h1, e4 hled.1 (hled.2 o rfl)⟩
      · rw [e3] at hled
        exact absurd hled.1 e4
    | setPriority p =>
      simp only [Call.isIncoming, Bool.false_eq_true, if_false, Option.some.injEq] at hs
      subst hs
      refine ⟨upd sv i op.clearTrail.sp, ?_, fin Moves.refl⟩
      exact servers_upd (op := { op.clearTrail with ble := op.clearTrail.ble.set_priority p }) h1
    | _ => exact ha.elim
  | take i =>
    obtain ⟨op, e1, e2⟩ := h1 i ha
    simp only [Cluster.step, e1, Option.some.injEq] at hs
    have hc : c' = c.taken i op := hs.symm
    subst hc
    obtain ⟨X, B, d, h4, _⟩ := h2
    refine ⟨upd sv i ((sv i).take_outgoing_msgs []).2, fun j hj => ?_, ?_⟩
    · by_cases e : j = i
      · subst e
        exact ⟨_, Cluster.taken_self .., by rw [upd_self, ← e2]; rfl⟩
      · rw [Cluster.taken_other e, upd_other e]
        exact h1 j hj
    · rw [Cluster.px_taken e2]
      exact h4.moves_take []
  | deliver i j =>
    obtain ⟨hi, hj⟩ := ha
    simp only [Cluster.step] at hs
    cases hl : c.net i j with
    | nil => rw [hl] at hs; cases hs
    | cons m rest =>
      obtain ⟨op, e1, e2⟩ := h1 j hj
      rw [hl] at hs
      simp only [e1, Option.some.injEq] at hs
      subst hs
      have h3 := h2.clear hj
      rw [← e2, ← OP.clearTrail_sp] at h3
      have fin : ∀ {sv' : NodeId → SP E S} {lk' : NodeId → NodeId → List (PaxosMessage E S)} {dv : Option (NodeId × NodeId × PaxosMsg E S)},
          Moves cc n (fun x => (upd sv j op.clearTrail.sp x).obs) c.px dv (fun x => (sv' x).obs) lk' →
          Moves cc n (fun x => (sv x).obs) c.px dv (fun x => (sv' x).obs) lk' := fun hm => by
        simp only [hcl e2] at hm
        exact hm
      cases m with
      | ble b =>
        refine ⟨upd sv j op.clearTrail.sp, servers_upd (c := c.setNet i j rest) (op := { op.clearTrail with ble := op.clearTrail.ble.handle b }) h1, ?_⟩
        show Moves _ _ _ _ _ _ (c.setNet i j rest).px
        have hx : rest.filterMap Message.paxos? = c.px i j := by simp only [Cluster.px, hl, List.filterMap_cons, Message.paxos?]
        rw [Cluster.px_setNet, hx, updL_same]
        simp only [Cluster.dv, hl]
        exact fin Moves.refl
      | paxos m =>
        have hx : c.px i j = m :: rest.filterMap Message.paxos? := by simp only [Cluster.px, hl, List.filterMap_cons, Message.paxos?]
        obtain ⟨X, B, d, h4, _⟩ := h3
        have h5 : M.Sat (SP.handle m) op.clearTrail.sp (fun _ s' => Moves cc n (fun x => (sv x).obs) c.px (some (i, j, m.msg))
            (fun x => (upd sv j s' x).obs) (updL c.px i j (rest.filterMap Message.paxos?))) (fun _ => False) := by
          by_cases hin : i = n.pid
          · by_cases hjn : j = n.pid
            · rw [h4.unused i hi j hj ⟨fun _ => hjn, fun _ => hin⟩] at hx
              cases hx
            · subst hin
              have := h4.moves_handleF hj hjn hx
              rw [upd_self] at this
              refine M.sat_mono this (fun _ s' hs => ?_) fun _ h => h
              rw [upd_upd] at hs
              exact fin hs
          · by_cases hjn : j = n.pid
            · subst hjn
              obtain ⟨_, _, _, _, _, q, al, ms, hlk⟩ := h4.fol i hi hin
              rw [hx] at hlk
              have hR := (hlk.src m List.mem_cons_self).2
              cases hm : m.msg with
              | accepted x =>
                have := h4.moves_accepted hv hnd hi hin hx hm
                rw [upd_self, hm] at this
                unfold SP.handle
                simp only [hm]
                refine M.sat_mono this (fun _ s' hs => ?_) fun _ h => h
                rw [upd_upd] at hs
                exact fin hs
              | proposalForward es =>
                have := h4.lead.forwarded h4.keeps es
                rw [upd_self] at this
                unfold SP.handle
                simp only [hm]
                refine M.sat_mono this (fun _ s' hs => ?_) fun _ h => h
                rw [← upd_self sv n.pid op.clearTrail.sp] at hs
                have := h4.moves_put hn hs (dv := some (i, n.pid, m.msg)) (.inr ⟨i, hi, hin, m, _, hx, hm, rfl, rfl⟩)
                rw [upd_upd, hm] at this
                exact fin this
              | _ => rw [hm] at hR; exact hR.elim
            · rw [h4.unused i hi j hj ⟨fun h => absurd h hin, fun h => absurd h hjn⟩] at hx
              cases hx
        rcases callResult_sat (op := op) (call := .handleIncoming (.paxos m))
          (Q := fun o => Moves cc n (fun x => (sv x).obs) c.px (some (i, j, m.msg)) (fun x => (upd sv j o.sp x).obs) (c.setNet i j rest).px) (P := fun _ => False)
          (by
            simp only [Call.run, OP.handle_incoming, OP.sat_onSP]
            refine M.sat_mono h5 (fun _ s' hs => ?_) fun _ h => h
            rw [Cluster.px_setNet]
            exact hs) with ⟨o, e3, e4⟩ | ⟨o, _, e4⟩
        · rw [e3]
          simp only [Cluster.dv, hl]
          exact ⟨_, servers_upd (c := c.setNet i j rest) h1, e4⟩
        · exact e4.elim
  | _ => exact ha.elim

end Omni
