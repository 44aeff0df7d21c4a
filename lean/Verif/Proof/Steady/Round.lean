import Verif.Proof.Steady.Stage
/-
Steady operation: rounds.
-/
namespace Omni

variable {E S : Type} {n : Ballot} {k : Nat} {cc : ClusterConfig} {lg : NodeId → List E} {ci : NodeId → Nat} {A : List E}

def Cluster.out (c : Cluster E S) (i : NodeId) : List (PaxosMessage E S) := match c.servers i with
  | .up op => op.sp.outgoing
  | .down _ => []

def Cluster.bat (c : Cluster E S) (i : NodeId) : List E := match c.servers i with
  | .up op => op.sp.ist.cache.batched_entries
  | .down _ => []

/-- Something is at stage `j`. -/
def Cluster.At (n : Ballot) (c : Cluster E S) (f : NodeId) (j : Nat) : Prop := Omni.At n c.out c.bat c.px f j

/-- Nothing is at the first `s` stages. -/
def Cluster.Past (cc : ClusterConfig) (n : Ballot) (s : Nat) (c : Cluster E S) : Prop :=
  ∀ j < s, ∀ f ∈ cc.nodes, f ≠ n.pid → ¬ c.At n f j

theorem Cluster.at_iff {c : Cluster E S} {sv : NodeId → SP E S} (h : ∀ i ∈ cc.nodes, ∃ op, c.servers i = .up op ∧ op.sp = sv i)
    (hn : n.pid ∈ cc.nodes) {f : NodeId} (hf : f ∈ cc.nodes) {j : Nat} : c.At n f j ↔ AtS n sv c.px f j := by
  have h1 : ∀ i ∈ cc.nodes, c.out i = (sv i).outgoing ∧ c.bat i = (sv i).ist.cache.batched_entries := by
    intro i hi
    obtain ⟨op, e1, e2⟩ := h i hi
    simp only [Cluster.out, Cluster.bat, e1, e2, and_self]
  match j with
  | 0 | 1 | 2 | 3 | 4 | 5 | 6 | 7 | 8 | 9 => simp only [Cluster.At, Omni.At, AtS, (h1 f hf).1, (h1 f hf).2, (h1 _ hn).1, (h1 _ hn).2]
  | _ + 10 => exact Iff.rfl

theorem Next.congr {sv sv1 sv' : NodeId → SP E S} {lk lk' : NodeId → NodeId → List (PaxosMessage E S)} (h : Next cc n sv1 lk sv' lk')
    (h1 : ∀ i, (sv1 i).outgoing = (sv i).outgoing) (h2 : ∀ i, (sv1 i).ist.cache.batched_entries = (sv i).ist.cache.batched_entries) :
    Next cc n sv lk sv' lk' := by
  intro j f hf hfn hat
  have := h j f hf hfn hat
  simpa only [AtS, h1, h2] using this

/-- The stages after an action that appends nothing. -/
theorem Cluster.Flows.next [SnapOps E S] {c c' : Cluster E S} (h : c.Flows cc n k lg ci A) (hv : cc.validate = .ok ()) (hnd : cc.nodes.Nodup)
    (hn : n.pid ∈ cc.nodes) {a : Action E S} (ha : a.Calm cc) (hs : c.step cc a = some c') (ht : ∀ i, a = .call i .tick → c'.LedBy cc n)
    (he : a.entry? = none) : ∃ sv sv', (∀ i ∈ cc.nodes, ∃ op, c.servers i = .up op ∧ op.sp = sv i) ∧
      (∀ i ∈ cc.nodes, ∃ op, c'.servers i = .up op ∧ op.sp = sv' i) ∧ Next cc n sv c.px sv' c'.px := by
  obtain ⟨sv, h1, h2⟩ := h
  have hcl : ∀ {i : NodeId} {op : OP E S}, op.sp = sv i → (∀ j, (upd sv i op.clearTrail.sp j).outgoing = (sv j).outgoing) ∧
      ∀ j, (upd sv i op.clearTrail.sp j).ist.cache.batched_entries = (sv j).ist.cache.batched_entries := by
    intro i op e
    refine ⟨fun j => ?_, fun j => ?_⟩ <;> by_cases hj : j = i
    · subst hj; rw [upd_self, OP.clearTrail_sp, e]
    · rw [upd_other hj]
    · subst hj; rw [upd_self, OP.clearTrail_sp, e]
    · rw [upd_other hj]
  suffices hx : ∃ sv', (∀ i ∈ cc.nodes, ∃ op, c'.servers i = .up op ∧ op.sp = sv' i) ∧ Next cc n sv c.px sv' c'.px by
    obtain ⟨sv', h5, h6⟩ := hx
    exact ⟨sv, sv', h1, h5, h6⟩
  cases a with
  | call i call =>
    have hi : i ∈ cc.nodes := by cases call <;> first | exact ha | exact ha.elim
    obtain ⟨op, e1, e2⟩ := h1 i hi
    have h3 := h2.clear hi
    rw [← e2, ← OP.clearTrail_sp] at h3
    simp only [Cluster.step, e1] at hs
    cases call with
    | append e => cases he
    | tick =>
      simp only [Call.isIncoming, Bool.false_eq_true, if_false, Option.some.injEq] at hs
      subst hs
      have hled := ht i rfl i hi
      rw [Cluster.setServer_self] at hled
      obtain ⟨X, B, d, h4, _⟩ := h3
      rcases callResult_sat (op := op) (call := .tick)
        (Q := fun o => o.sp.ist.storage.n_prom = some n → (i = n.pid → o.sp.role = .leader) → Next cc n sv c.px (upd sv i o.sp) c.px)
        (P := fun o => o.sp.ist.storage.n_prom ≠ some n)
        (by
          refine OP.tick_sp (Q := fun s => s.ist.storage.n_prom = some n → (i = n.pid → s.role = .leader) → Next cc n sv c.px (upd sv i s) c.px)
            (P := fun s => s.ist.storage.n_prom ≠ some n) fun b r w _ _ _ => ?_
          by_cases hin : i = n.pid
          · subst hin
            have h5 := h4.lead.ticked h4.keeps b r w
            rw [upd_self] at h5
            refine M.sat_mono h5 (fun _ s' hs e1 e3 => ?_) fun _ h => h
            rcases hs e1 (e3 rfl) with ⟨_, hs⟩ | ⟨_, rfl⟩
            · rw [← upd_self sv n.pid op.clearTrail.sp] at hs
              have := h4.next_put (another hv hnd _) hs (.inl ⟨trivial, rfl⟩)
              rw [upd_upd] at this
              exact this.congr (hcl e2).1 (hcl e2).2
            · exact Next.refl.congr (hcl e2).1 (hcl e2).2
          · obtain ⟨_, _, _, _, _, q, al, ms, hl⟩ := h4.fol i hi hin
            rw [upd_self] at hl
            refine M.sat_mono (hl.fol.ticked b r w) (fun _ s' hs e1 _ => ?_) fun _ h => h
            rcases hs e1 with ⟨_, hs, hb, ho⟩ | ⟨_, rfl⟩
            · have hB := hl.fol.ist.batch
              have := SteadyInv.next_fol (sv := upd sv i op.clearTrail.sp) (lk := c.px) hi hin (s' := s') (l := c.px n.pid i) (fun m hm => hm)
                (by rw [upd_self]; exact (hs.has hl.fol).1) (fun hc => absurd hb hc) (fun hh => by
                  rw [upd_self, hB]
                  by_cases hBe : ∀ x, x ∉ (upd sv i op.clearTrail.sp i).ist.cache.batched_entries
                  · rw [upd_self, hB] at hBe
                    have hBe := List.eq_nil_iff_forall_not_mem.2 hBe
                    rw [ho hBe] at hh
                    exact .inl hh
                  · refine .inr (.inl fun hc => hBe ?_)
                    rw [upd_self, hB, hc]
                    exact fun _ => List.not_mem_nil)
              rw [upd_upd, updL_same] at this
              exact this.congr (hcl e2).1 (hcl e2).2
            · exact Next.refl.congr (hcl e2).1 (hcl e2).2) with ⟨o, e3, e4⟩ | ⟨o, e3, e4⟩
      · rw [e3] at hled ⊢
        exact ⟨_, servers_upd h1, e4 hled.1 (hled.2 o rfl)⟩
      · rw [e3] at hled
        exact absurd hled.1 e4
    | setPriority p =>
      simp only [Call.isIncoming, Bool.false_eq_true, if_false, Option.some.injEq] at hs
      subst hs
      refine ⟨upd sv i op.clearTrail.sp, ?_, Next.refl.congr (hcl e2).1 (hcl e2).2⟩
      exact servers_upd (op := { op.clearTrail with ble := op.clearTrail.ble.set_priority p }) h1
    | _ => exact ha.elim
  | take i =>
    obtain ⟨op, e1, e2⟩ := h1 i ha
    simp only [Cluster.step, e1, Option.some.injEq] at hs
    have hc : c' = c.taken i op := hs.symm
    subst hc
    obtain ⟨X, B, d, h4, _⟩ := h2
    refine ⟨upd sv i ((sv i).take_outgoing_msgs []).2, fun j hj => ?_, ?_⟩
    · by_cases e : j = i
      · subst e
        exact ⟨_, Cluster.taken_self .., by rw [upd_self, ← e2]; rfl⟩
      · rw [Cluster.taken_other e, upd_other e]
        exact h1 j hj
    · rw [Cluster.px_taken e2]
      exact h4.next_take ha []
  | deliver i j =>
    obtain ⟨hi, hj⟩ := ha
    simp only [Cluster.step] at hs
    cases hl : c.net i j with
    | nil => rw [hl] at hs; cases hs
    | cons m rest =>
      obtain ⟨op, e1, e2⟩ := h1 j hj
      rw [hl] at hs
      simp only [e1, Option.some.injEq] at hs
      subst hs
      have h3 := h2.clear hj
      rw [← e2, ← OP.clearTrail_sp] at h3
      cases m with
      | ble b =>
        refine ⟨upd sv j op.clearTrail.sp, servers_upd (c := c.setNet i j rest) (op := { op.clearTrail with ble := op.clearTrail.ble.handle b }) h1, ?_⟩
        show Next _ _ _ _ _ (c.setNet i j rest).px
        have hx : rest.filterMap Message.paxos? = c.px i j := by simp only [Cluster.px, hl, List.filterMap_cons, Message.paxos?]
        rw [Cluster.px_setNet, hx, updL_same]
        exact Next.refl.congr (hcl e2).1 (hcl e2).2
      | paxos m =>
        have hx : c.px i j = m :: rest.filterMap Message.paxos? := by simp only [Cluster.px, hl, List.filterMap_cons, Message.paxos?]
        obtain ⟨X, B, d, h4, _⟩ := h3
        have h5 : M.Sat (SP.handle m) op.clearTrail.sp (fun _ s' => Next cc n sv c.px (upd sv j s') (updL c.px i j (rest.filterMap Message.paxos?))) (fun _ => False) := by
          by_cases hin : i = n.pid
          · by_cases hjn : j = n.pid
            · rw [h4.unused i hi j hj ⟨fun _ => hjn, fun _ => hin⟩] at hx
              cases hx
            · subst hin
              have := h4.next_handleF hj hjn hx
              rw [upd_self] at this
              refine M.sat_mono this (fun _ s' hs => ?_) fun _ h => h
              rw [upd_upd] at hs
              exact hs.congr (hcl e2).1 (hcl e2).2
          · by_cases hjn : j = n.pid
            · subst hjn
              obtain ⟨_, _, _, _, _, q, al, ms, hlk⟩ := h4.fol i hi hin
              rw [hx] at hlk
              have hR := (hlk.src m List.mem_cons_self).2
              unfold SP.handle
              cases hm : m.msg with
              | accepted x =>
                simp only
                have := h4.next_accepted hv hnd hi hin hx hm
                rw [upd_self] at this
                refine M.sat_mono this (fun _ s' hs => ?_) fun _ h => h
                rw [upd_upd] at hs
                exact (hs.congr (hcl e2).1 (hcl e2).2).pop hx
              | proposalForward es =>
                simp only
                have := h4.lead.forwarded h4.keeps es
                rw [upd_self] at this
                refine M.sat_mono this (fun _ s' hs => ?_) fun _ h => h
                rw [← upd_self sv n.pid op.clearTrail.sp] at hs
                have := h4.next_put (another hv hnd _) hs (.inr ⟨i, hi, hin, m, by rw [hx]; exact List.mem_cons_self, by rw [hm]; rfl⟩)
                rw [upd_upd] at this
                exact (this.congr (hcl e2).1 (hcl e2).2).pop hx
              | _ => rw [hm] at hR; exact hR.elim
            · rw [h4.unused i hi j hj ⟨fun h => absurd h hin, fun h => absurd h hjn⟩] at hx
              cases hx
        rcases callResult_sat (op := op) (call := .handleIncoming (.paxos m))
          (Q := fun o => Next cc n sv c.px (upd sv j o.sp) (c.setNet i j rest).px) (P := fun _ => False)
          (by
            simp only [Call.run, OP.handle_incoming, OP.sat_onSP]
            refine M.sat_mono h5 (fun _ s' hs => ?_) fun _ h => h
            rw [Cluster.px_setNet]
            exact hs) with ⟨o, e3, e4⟩ | ⟨o, _, e4⟩
        · rw [e3]
          exact ⟨_, servers_upd (c := c.setNet i j rest) h1, e4⟩
        · exact e4.elim
  | _ => exact ha.elim

theorem Cluster.Flows.past [SnapOps E S] {c c' : Cluster E S} (h : c.Flows cc n k lg ci A) (hv : cc.validate = .ok ()) (hnd : cc.nodes.Nodup)
    (hn : n.pid ∈ cc.nodes) {a : Action E S} (ha : a.Calm cc) (hs : c.step cc a = some c') (ht : ∀ i, a = .call i .tick → c'.LedBy cc n)
    (he : a.entry? = none) {s : Nat} (hp : c.Past cc n s) :
    c'.Past cc n s ∧ ∀ f ∈ cc.nodes, f ≠ n.pid → c'.At n f s → c.At n f s := by
  obtain ⟨sv, sv', h1, h2, h3⟩ := h.next hv hnd hn ha hs ht he
  have key : ∀ j ≤ s, ∀ f ∈ cc.nodes, f ≠ n.pid → c'.At n f j → c.At n f j := by
    intro j hj f hf hfn hat
    rw [Cluster.at_iff h2 hn hf] at hat
    rcases h3 j f hf hfn hat with h4 | ⟨i, h4, g, h5, h6, h7, _⟩
    · exact (Cluster.at_iff h1 hn hf).2 h4
    · exact absurd ((Cluster.at_iff h1 hn h5).2 h7) (hp i (by omega) g h5 h6)
  exact ⟨fun j hj f hf hfn hat => hp j hj f hf hfn (key j (by omega) f hf hfn hat), key s (Nat.le_refl _)⟩

/-- The flush clocks. -/
theorem Cluster.clock_step [SnapOps E S] {c c' : Cluster E S} {a : Action E S} (ha : a.Calm cc) (hs : c.step cc a = some c') {i : NodeId}
    {op op' : OP E S} (h : c.servers i = .up op) (h' : c'.servers i = .up op') :
    op'.flush_batch_clock = if a.isTick i then op.flush_batch_clock.tick_and_check_timeout.2 else op.flush_batch_clock := by
  have keep : ∀ {α : Type} (m : M (SP E S) α) (o : OP E S),
      M.Sat (OP.onSP m) o (fun _ o' => o'.flush_batch_clock = o.flush_batch_clock) (fun _ => True) := fun m o => by
    rw [OP.sat_onSP]
    exact M.sat_mono (M.sat_true m o.sp) (fun _ _ _ => rfl) fun _ h => h
  have call : ∀ (o : OP E S) (call : Call E S) (v : LogicalClock), M.Sat call.run o.clearTrail (fun _ o' => o'.flush_batch_clock = v) (fun _ => True) →
      ∀ o', o.callResult call = .up o' → o'.flush_batch_clock = v := by
    intro o call v hc o' ho
    rcases callResult_sat hc with ⟨o2, e1, e2⟩ | ⟨o2, e1, _⟩
    · rw [e1] at ho; cases ho; exact e2
    · rw [e1] at ho; cases ho
  cases a with
  | call j cl =>
    simp only [Cluster.step] at hs
    by_cases hij : i = j
    · subst hij
      rw [h] at hs
      cases cl with
      | append e =>
        simp only [Call.isIncoming, Bool.false_eq_true, if_false, Option.some.injEq] at hs
        subst hs
        rw [Cluster.setServer_self] at h'
        simp only [Action.isTick, Bool.false_eq_true, if_false]
        refine call op (.append e) op.flush_batch_clock ?_ op' h'
        simp only [Call.run, OP.append, M.sat_bind, M.sat_pure]
        exact keep _ _
      | tick =>
        simp only [Call.isIncoming, Bool.false_eq_true, if_false, Option.some.injEq] at hs
        subst hs
        rw [Cluster.setServer_self] at h'
        simp only [Action.isTick, beq_self_eq_true, if_true]
        refine call op .tick _ ?_ op' h'
        exact OP.tick_clock
      | setPriority p =>
        simp only [Call.isIncoming, Bool.false_eq_true, if_false, Option.some.injEq] at hs
        subst hs
        rw [Cluster.setServer_self] at h'
        simp only [Action.isTick, Bool.false_eq_true, if_false]
        refine call op (.setPriority p) op.flush_batch_clock ?_ op' h'
        simp only [Call.run, OP.set_priority, M.sat_bind, M.sat_upd, M.sat_pure]
        rfl
      | _ => exact ha.elim
    · have ht : (Action.call j cl : Action E S).isTick i = false := by cases cl <;> simp [Action.isTick, hij]
      rw [ht]
      cases hj : c.servers j with
      | down d => rw [hj] at hs; cases hs
      | up o =>
        rw [hj] at hs
        simp only at hs
        split at hs
        · cases hs
        · simp only [Option.some.injEq] at hs
          subst hs
          rw [Cluster.setServer_other hij, h] at h'
          cases h'
          rfl
  | take j =>
    simp only [Cluster.step] at hs
    cases hj : c.servers j with
    | down d => rw [hj] at hs; cases hs
    | up o =>
      rw [hj] at hs
      simp only [Option.some.injEq] at hs
      have hc : c' = c.taken j o := hs.symm
      subst hc
      simp only [Action.isTick, Bool.false_eq_true, if_false]
      by_cases hij : i = j
      · subst hij
        rw [Cluster.taken_self] at h'
        rw [h] at hj
        cases hj
        cases h'
        rfl
      · rw [Cluster.taken_other hij, h] at h'
        cases h'
        rfl
  | deliver a b =>
    simp only [Cluster.step] at hs
    simp only [Action.isTick, Bool.false_eq_true, if_false]
    cases hl : c.net a b with
    | nil => rw [hl] at hs; cases hs
    | cons m rest =>
      rw [hl] at hs
      cases hb : c.servers b with
      | down d =>
        rw [hb] at hs
        simp only [Option.some.injEq] at hs
        subst hs
        simp only [Cluster.setNet, h] at h'
        cases h'
        rfl
      | up o =>
        rw [hb] at hs
        simp only [Option.some.injEq] at hs
        subst hs
        by_cases hib : i = b
        · subst hib
          rw [Cluster.setServer_self] at h'
          rw [h] at hb
          cases hb
          refine call op _ op.flush_batch_clock ?_ op' h'
          cases m with
          | ble x =>
            simp only [Call.run, OP.handle_incoming, M.sat_bind, M.sat_upd, M.sat_pure]
            rfl
          | paxos x =>
            simp only [Call.run, OP.handle_incoming]
            exact keep _ _
        · rw [Cluster.setServer_other hib] at h'
          simp only [Cluster.setNet, h] at h'
          cases h'
          rfl
  | _ => exact ha.elim

/-- The links. -/
theorem Cluster.net_step [SnapOps E S] {c c' : Cluster E S} {a : Action E S} (ha : a.Calm cc) (hs : c.step cc a = some c') (i j : NodeId) :
    (a.isDelivery i j = true ∧ ∃ m, c.net i j = m :: c'.net i j) ∨
    (a.isDelivery i j = false ∧ ∃ l, c'.net i j = c.net i j ++ l ∧ ∀ m, .paxos m ∈ l → m ∈ c.out i) := by
  cases a with
  | call x cl =>
    right
    refine ⟨rfl, [], ?_, nofun⟩
    simp only [Cluster.step] at hs
    cases hx : c.servers x with
    | down d => rw [hx] at hs; cases hs
    | up o =>
      rw [hx] at hs
      simp only at hs
      split at hs
      · cases hs
      · simp only [Option.some.injEq] at hs
        subst hs
        simp [Cluster.setServer]
  | take x =>
    right
    refine ⟨rfl, ?_⟩
    simp only [Cluster.step] at hs
    cases hx : c.servers x with
    | down d => rw [hx] at hs; cases hs
    | up o =>
      rw [hx] at hs
      simp only [Option.some.injEq] at hs
      subst hs
      by_cases hix : i = x
      · subst hix
        refine ⟨_, if_pos rfl, fun m hm => ?_⟩
        have hm := (List.mem_filter.1 hm).1
        simp only [OP.take_outgoing_messages, SP.take_outgoing_msgs, List.isEmpty_nil, if_true, List.mem_append, List.mem_map, Message.paxos.injEq,
          exists_eq_right, reduceCtorEq, and_false, exists_false, or_false] at hm
        simpa only [Cluster.out, hx] using hm
      · exact ⟨[], by simp [hix], nofun⟩
  | deliver x y =>
    simp only [Cluster.step] at hs
    cases hl : c.net x y with
    | nil => rw [hl] at hs; cases hs
    | cons m rest =>
      rw [hl] at hs
      have hn : ∀ (s : Option (Server E S)), (match s with | some s => (c.setNet x y rest).setServer y s | none => c.setNet x y rest).net = (c.setNet x y rest).net := by
        intro s; cases s <;> rfl
      have hc : c'.net = (c.setNet x y rest).net := by
        cases hb : c.servers y with
        | down d => rw [hb] at hs; simp only [Option.some.injEq] at hs; subst hs; rfl
        | up o => rw [hb] at hs; simp only [Option.some.injEq] at hs; subst hs; rfl
      by_cases hxy : i = x ∧ j = y
      · obtain ⟨rfl, rfl⟩ := hxy
        exact .inl ⟨by simp [Action.isDelivery], m, by rw [hc, hl]; simp [Cluster.setNet]⟩
      · refine .inr ⟨?_, [], ?_, nofun⟩
        · simp only [Action.isDelivery, Bool.and_eq_false_iff, beq_eq_false_iff_ne]
          by_cases e : i = x
          · exact .inr fun e2 => hxy ⟨e, e2⟩
          · exact .inl e
        · rw [hc]
          simp [Cluster.setNet, hxy]
  | _ => exact ha.elim

/-- A flush. -/
theorem Cluster.Flows.flushed [SnapOps E S] {c c' : Cluster E S} (h : c.Flows cc n k lg ci A) {i : NodeId} (hi : i ∈ cc.nodes)
    (hs : c.step cc (.call i .tick) = some c') (ht : c'.LedBy cc n) {op : OP E S} (ho : c.servers i = .up op)
    (hw : op.flush_batch_clock.tick_and_check_timeout.1 = true) : c'.bat i = [] := by
  obtain ⟨sv, h1, h2⟩ := h
  obtain ⟨op', e1, e2⟩ := h1 i hi
  rw [ho] at e1
  cases e1
  have h3 := h2.clear hi
  rw [← e2, ← OP.clearTrail_sp] at h3
  simp only [Cluster.step, ho, Call.isIncoming, Bool.false_eq_true, if_false, Option.some.injEq] at hs
  subst hs
  have hled := ht i hi
  rw [Cluster.setServer_self] at hled
  obtain ⟨X, B, d, h4, _⟩ := h3
  rcases callResult_sat (op := op) (call := .tick)
    (Q := fun o => o.sp.ist.storage.n_prom = some n → (i = n.pid → o.sp.role = .leader) → o.sp.ist.cache.batched_entries = [])
    (P := fun o => o.sp.ist.storage.n_prom ≠ some n)
    (by
      refine OP.tick_sp (Q := fun s => s.ist.storage.n_prom = some n → (i = n.pid → s.role = .leader) → s.ist.cache.batched_entries = [])
        (P := fun s => s.ist.storage.n_prom ≠ some n) fun b r w _ _ hw' => ?_
      have hw' := hw'.2 hw
      by_cases hin : i = n.pid
      · subst hin
        have h5 := h4.lead.ticked h4.keeps b r w
        rw [upd_self] at h5
        refine M.sat_mono h5 (fun _ s' hs e1 e3 => ?_) fun _ h => h
        rcases hs e1 (e3 rfl) with ⟨_, hs⟩ | ⟨hc, _⟩
        · rcases hs with ⟨hL, _, hB⟩ | ⟨hL, _⟩
          · rw [hL.ist.batch, hB trivial]; rfl
          · exact hL.ist.batch
        · exact absurd hw' hc
      · obtain ⟨_, _, _, _, _, q, al, ms, hl⟩ := h4.fol i hi hin
        rw [upd_self] at hl
        refine M.sat_mono (hl.fol.ticked b r w) (fun _ s' hs e1 _ => ?_) fun _ h => h
        rcases hs e1 with ⟨_, _, hb, _⟩ | ⟨hc, _⟩
        · exact hb
        · exact absurd hw' hc) with ⟨o, e3, e4⟩ | ⟨o, e3, e4⟩
  · rw [e3] at hled ⊢
    simp only [Cluster.bat, Cluster.setServer_self]
    exact e4 hled.1 (hled.2 o rfl)
  · rw [e3] at hled
    exact absurd hled.1 e4

end Omni
