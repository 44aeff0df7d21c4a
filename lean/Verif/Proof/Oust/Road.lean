import Verif.Proof.Oust.Prepared
/-
Once the new leader has its promises, the others accept in its ballot: the promise of a server gets an AcceptSync as its answer.
-/
namespace Omni

variable {E S : Type} [SnapOps E S] {cc : ClusterConfig} {W : Ballot}
variable {c c' : Cluster E S} {a : Action E S} {as : List (Action E S)} {i j k s t : NodeId}

/-- `k` has accepted in `W`. -/
def LedAt (W : Ballot) (k : NodeId) (c : Cluster E S) : Prop := W ≤ ((c.servers k).disk.acc_round.getD {})

theorem LedAt.step (h : LedAt W k c) (hr : c.Reachable cc Links.all) (ha : a.Calm cc) (hs : c.step cc a = some c') : LedAt W k c' := by
  obtain ⟨G, h1⟩ := hr.inv
  obtain ⟨G', hM, h2⟩ := h1.step ha.tidy hs
  obtain ⟨lg, d1⟩ := (h1.srv k).disk
  obtain ⟨lg', d2⟩ := (h2.srv k).disk
  exact Ballot.le_trans h (d2.accMax _ (hM.acc_ne (by rw [d1.acc]; simp)))

theorem LedAt.of_up (hr : c.Reachable cc Links.all) {op : OP E S} (hop : c.servers k = .up op) (h : W ≤ op.sp.ist.cache.accepted_round) : LedAt W k c := by
  obtain ⟨G, h1⟩ := hr.inv
  obtain ⟨lg, hC, -⟩ := h1.toCInv.up hop
  unfold LedAt
  rw [hop]
  show W ≤ op.sp.ist.storage.acc_round.getD {}
  rw [← hC.mir.acc]
  exact h

theorem LedAt.up (h : LedAt W k c) (hr : c.Reachable cc Links.all) {op : OP E S} (hop : c.servers k = .up op) : W ≤ op.sp.ist.cache.accepted_round := by
  obtain ⟨G, h1⟩ := hr.inv
  obtain ⟨lg, hC, -⟩ := h1.toCInv.up hop
  unfold LedAt at h
  rw [hop] at h
  rw [hC.mir.acc]
  exact h

/-- No message is of a greater ballot. -/
theorem Capped.below (h : Capped cc W c) {m : PaxosMessage E S} (hm : .paxos m ∈ c.net s t) :
    (∀ b q, m.msg.accOf = some (b, q) → b ≤ W) ∧ (∀ p, m.msg = .prepare p → p.n ≤ W) ∧ ∀ b, m.msg = .notAccepted b → b ≤ W := by
  obtain ⟨G, h1⟩ := h.reach.inv
  have hm : m ∈ c.pre s t := by simp only [Cluster.pre, paxOf, List.mem_filterMap]; exact ⟨_, hm, rfl⟩
  have hsrc := ((h1.srv s).src t m hm).1
  have hok := ((h1.srv s).link t).msg m (List.mem_append_left _ hm)
  have hnode := hok.node.1
  rw [hsrc] at hnode
  obtain ⟨op, u, hcap⟩ := h.cap s hnode
  obtain ⟨lg, hC, -⟩ := h1.toCInv.up u
  rw [hC.mir.prom] at hcap
  refine ⟨fun b q hq => ?_, fun p e => ?_, fun b e => ?_⟩
  · obtain ⟨h2, h3⟩ := hok.lead b q hq
    rw [hsrc] at h3
    exact Ballot.le_trans (hC.disk.accMax b h3) (Ballot.le_trans hC.disk.le hcap)
  · have hb := hok.body fun b q hq => by rw [e] at hq; cases hq
    rw [e, hsrc] at hb
    exact Ballot.le_trans (hC.disk.precMax _ hb.2.1) hcap
  · have hb := hok.body fun b q hq => by rw [e] at hq; cases hq
    rw [e, hsrc] at hb
    rcases hb with rfl | hb
    · exact Ballot.default_le W
    · exact Ballot.le_trans (hC.disk.precMax _ hb) hcap

theorem Won.promise (hT : Capped cc W c) {op : OP E S} (hop : c.servers W.pid = .up op) (h : Won W op.sp) : op.sp.ist.cache.promise = W := by
  have h0 : LedAt W W.pid c := h.led hT.reach hop
  obtain ⟨G, h1⟩ := hT.reach.inv
  obtain ⟨lg, hC, -⟩ := h1.toCInv.up hop
  refine hT.top _ hT.node op hop ?_
  unfold LedAt at h0
  rw [hop] at h0
  rw [hC.mir.prom]
  exact Ballot.le_trans h0 hC.disk.le

/-! ### One step -/

/-- What a step is. -/
theorem Capped.acts (hT : Capped cc W c) (hT' : Capped cc W c') (ha : a.Calm cc) (hs : c.step cc a = some c') :
    (∃ i op, a = .take i ∧ c.servers i = .up op ∧ c' = c.taken i op) ∨
    ∃ i cl op o, i ∈ cc.nodes ∧ c.servers i = .up op ∧ (∀ k, c'.servers k = if k = i then .up o else c.servers k) ∧ op.callResult cl = .up o ∧ o.sp.ist.cache.promise ≤ W ∧
      ((a = .call i cl ∧ c'.net = c.net) ∨
        ∃ x m rest, a = .deliver x i ∧ x ∈ cc.nodes ∧ cl = .handleIncoming m ∧ c.net x i = m :: rest ∧ c'.net x i = rest ∧ ∀ u v, u ≠ x ∨ v ≠ i → c'.net u v = c.net u v) := by
  cases a with
  | take i =>
    obtain ⟨op, hop, -⟩ := hT.cap i ha
    simp only [Cluster.step, hop, Option.some.injEq] at hs
    exact .inl ⟨i, op, rfl, hop, hs.symm⟩
  | call i cl =>
    have hi : i ∈ cc.nodes := by cases cl <;> first | exact ha | exact ha.elim
    obtain ⟨op, hop, -⟩ := hT.cap i hi
    obtain ⟨o, ho, hcap⟩ := hT'.cap i hi
    have hcl : cl.isIncoming = false := by cases cl <;> first | rfl | exact ha.elim
    simp only [Cluster.step, hop, hcl, Bool.false_eq_true, if_false, Option.some.injEq] at hs
    subst hs
    have ho' := ho
    rw [Cluster.setServer_self] at ho'
    refine .inr ⟨i, cl, op, o, hi, hop, fun k => ?_, ho', hcap, .inl ⟨rfl, rfl⟩⟩
    by_cases e : k = i
    · subst e; rw [if_pos rfl]; exact ho
    · rw [if_neg e, Cluster.setServer_other e]
  | deliver x y =>
    obtain ⟨op, hop, -⟩ := hT.cap y ha.2
    obtain ⟨o, ho, hcap⟩ := hT'.cap y ha.2
    simp only [Cluster.step] at hs
    cases hl : c.net x y with
    | nil => rw [hl] at hs; cases hs
    | cons m rest =>
      rw [hl] at hs
      simp only [hop, Option.some.injEq] at hs
      have ho' := ho
      rw [← hs, Cluster.setServer_self] at ho'
      refine .inr ⟨y, _, op, o, ha.2, hop, fun k => ?_, ho', hcap, .inr ⟨x, m, rest, rfl, ha.1, rfl, hl, ?_, fun u v e => ?_⟩⟩
      · by_cases e : k = y
        · subst e; rw [if_pos rfl]; exact ho
        · rw [if_neg e, ← hs, Cluster.setServer_other e]; rfl
      · rw [← hs]; exact Cluster.setNet_self x y rest
      · rw [← hs]; exact Cluster.setNet_other e rest
  | _ => exact ha.elim

/-- The leader in the Accept phase takes a step. -/
theorem Won.acts (hT : Capped cc W c) {cl : Call E S} {op o : OP E S} (hop : c.servers W.pid = .up op) (h : Won W op.sp) (ho : op.callResult cl = .up o)
    (hcap : o.sp.ist.cache.promise ≤ W) (hcl : (Action.call W.pid cl).Calm cc ∨ ∃ x m rest, cl = .handleIncoming m ∧ c.net x W.pid = m :: rest) :
    SP.KeepsSync W op.sp o.sp ∧ ∀ z, cl = .handleIncoming (.paxos z) → IsProm W z → o.sp.Admits W z.src := by
  have hp := h.promise hT hop
  rcases hcl with hcl | ⟨x, m, rest, rfl, hl⟩
  · have key : o.sp.ist.cache.promise ≤ W → SP.KeepsSync W op.sp o.sp := by
      cases cl with
      | append x =>
        refine call_up (Q := fun t => t.ist.cache.promise ≤ W → SP.KeepsSync W op.sp t) ?_ ho
        simp only [Call.run, OP.append, M.sat_bind, OP.sat_onSP, M.sat_pure]
        exact M.sat_mono (SP.y_append x) (fun _ t ht _ => ht.syncs) fun _ h => h
      | tick =>
        refine call_up (Q := fun t => t.ist.cache.promise ≤ W → SP.KeepsSync W op.sp t) ?_ ho
        refine M.sat_mono (OP.tick_parts (Q := fun t => t.ist.cache.promise ≤ W → SP.KeepsSync W op.sp t) (P := fun _ => True) fun r w _ _ => ?_) (fun _ _ h => h.1) fun _ h => h
        exact SP.won_ticked (s := op.clearTrail.sp) hp
      | setPriority p =>
        refine call_up (Q := fun t => t.ist.cache.promise ≤ W → SP.KeepsSync W op.sp t) ?_ ho
        exact fun _ _ hx _ => hx
      | _ => exact hcl.elim
    refine ⟨key hcap, fun z e => ?_⟩
    subst e
    exact hcl.elim
  · cases m with
    | ble b =>
      have key : o.sp = op.clearTrail.sp := call_up (Q := fun t => t = op.clearTrail.sp) (cl := .handleIncoming (.ble b)) (op := op) (show op.clearTrail.sp = op.clearTrail.sp from rfl) ho
      rw [key]
      exact ⟨fun _ hx _ => hx, nofun⟩
    | paxos m =>
      obtain ⟨-, h2, -⟩ := hT.below (s := x) (t := W.pid) (m := m) (by rw [hl]; exact List.mem_cons_self ..)
      have key : SP.KeepsSync W op.sp o.sp ∧ ∀ p, m.msg = .promise p → p.n = W → o.sp.Admits W m.src := by
        refine call_up (Q := fun t => SP.KeepsSync W op.sp t ∧ ∀ p, m.msg = .promise p → p.n = W → t.Admits W m.src) ?_ ho
        simp only [Call.run, OP.handle_incoming, OP.sat_onSP]
        exact SP.won_handle (s := op.clearTrail.sp) h.1 h.2.1 h.2.2 hp h2
      refine ⟨key.1, ?_⟩
      rintro z e ⟨p, e1, e2⟩
      cases e
      exact key.2 p e1 e2

/-- A server which waits for its AcceptSync takes a step. -/
theorem Firm.acts (hT : Capped cc W c) {cl : Call E S} {op o : OP E S} (hF : Firm W op.sp) (ho : op.callResult cl = .up o)
    (hcap : o.sp.ist.cache.promise ≤ W) (hcl : (Action.call i cl).Calm cc ∨ ∃ x m rest, cl = .handleIncoming m ∧ c.net x i = m :: rest) :
    W ≤ o.sp.ist.cache.accepted_round ∨ (∀ z, cl = .handleIncoming (.paxos z) → ¬ IsSync W z) ∧ Firm W o.sp ∧ Adds op.sp o.sp := by
  rcases hcl with hcl | ⟨x, m, rest, rfl, hl⟩
  · have key : o.sp.ist.cache.promise ≤ W → Firm W o.sp ∧ Adds op.sp o.sp := by
      cases cl with
      | append x =>
        refine call_up (Q := fun t => t.ist.cache.promise ≤ W → Firm W t ∧ Adds op.sp t) ?_ ho
        simp only [Call.run, OP.append, M.sat_bind, OP.sat_onSP, M.sat_pure]
        exact M.sat_mono (SP.firm_append hF.clear x) (fun _ t ht _ => ht) fun _ h => h
      | tick =>
        refine call_up (Q := fun t => t.ist.cache.promise ≤ W → Firm W t ∧ Adds op.sp t) ?_ ho
        refine M.sat_mono (OP.tick_parts (Q := fun t => t.ist.cache.promise ≤ W → Firm W t ∧ Adds op.sp t) (P := fun _ => True) fun r w _ _ => ?_) (fun _ _ h => h.1) fun _ h => h
        exact SP.firm_ticked hF.clear
      | setPriority p =>
        refine call_up (Q := fun t => t.ist.cache.promise ≤ W → Firm W t ∧ Adds op.sp t) ?_ ho
        exact fun _ => ⟨hF.clear, .refl _⟩
      | _ => exact hcl.elim
    refine .inr ⟨fun z e => ?_, key hcap⟩
    subst e
    exact hcl.elim
  · cases m with
    | ble b =>
      have key : o.sp = op.clearTrail.sp := call_up (Q := fun t => t = op.clearTrail.sp) (cl := .handleIncoming (.ble b)) (op := op) (show op.clearTrail.sp = op.clearTrail.sp from rfl) ho
      rw [key]
      exact .inr ⟨nofun, hF.clear, .refl _⟩
    | paxos m =>
      obtain ⟨h1, h2, h3⟩ := hT.below (s := x) (t := i) (m := m) (by rw [hl]; exact List.mem_cons_self ..)
      have key : W ≤ o.sp.ist.cache.accepted_round ∨ ¬ IsSync W m ∧ Firm W o.sp ∧ Adds op.sp o.sp := by
        refine call_up (Q := fun t => W ≤ t.ist.cache.accepted_round ∨ ¬ IsSync W m ∧ Firm W t ∧ Adds op.sp t) ?_ ho
        simp only [Call.run, OP.handle_incoming, OP.sat_onSP]
        exact SP.firm_meets hF.clear h1 h2 h3
      exact key.imp id fun h => ⟨fun z e => by cases e; exact h.1, h.2⟩

/-- A server promises. -/
theorem Capped.enters (hT : Capped cc W c) (hi : i ≠ W.pid) {cl : Call E S} {op o : OP E S} (hop : c.servers i = .up op) (hq : op.sp.ist.cache.promise ≠ W) (ho : op.callResult cl = .up o)
    (hp : o.sp.ist.cache.promise = W) (hcl : (Action.call i cl).Calm cc ∨ ∃ x m rest, cl = .handleIncoming m ∧ c.net x i = m :: rest) :
    Firm W o.sp ∧ ∃ x ∈ o.out W.pid, IsProm W x := by
  have hpid : op.sp.pid = i := by
    obtain ⟨G, h1⟩ := hT.reach.inv
    obtain ⟨lg, hC, -⟩ := h1.toCInv.up hop
    exact hC.pid
  rcases hcl with hcl | ⟨x, m, rest, rfl, hl⟩
  · refine absurd hp ?_
    cases cl with
    | append x =>
      refine call_up (Q := fun t => t.ist.cache.promise ≠ W) ?_ ho
      simp only [Call.run, OP.append, M.sat_bind, OP.sat_onSP, M.sat_pure]
      exact M.sat_mono (SP.y_append x) (fun _ t ht e' => absurd (ht.promise.symm.trans e') hq) fun _ h => h
    | tick =>
      refine call_up (Q := fun t => t.ist.cache.promise ≠ W) ?_ ho
      refine M.sat_mono (OP.tick_parts (Q := fun t => t.ist.cache.promise ≠ W) (P := fun _ => True) fun r w _ _ => ?_) (fun _ _ h => h.1) fun _ h => h
      exact SP.enter_ticked (s := op.clearTrail.sp) hq (by show op.sp.pid ≠ W.pid; rw [hpid]; exact hi)
    | setPriority p =>
      refine call_up (Q := fun t => t.ist.cache.promise ≠ W) ?_ ho
      exact hq
    | _ => exact hcl.elim
  · cases m with
    | ble b =>
      have key : o.sp = op.clearTrail.sp := call_up (Q := fun t => t = op.clearTrail.sp) (cl := .handleIncoming (.ble b)) (op := op) (show op.clearTrail.sp = op.clearTrail.sp from rfl) ho
      rw [key] at hp
      exact absurd hp hq
    | paxos m =>
      obtain ⟨hsrc, -, hpr⟩ := hT.msg (s := x) (t := i) (m := m) (by rw [hl]; exact List.mem_cons_self ..)
      have key : SP.Enters W op.sp o.sp ∧ ∃ p, m.msg = .prepare p ∧ p.n = W := by
        refine call_up (Q := fun t => t.ist.cache.promise = W → SP.Enters W op.sp t ∧ ∃ p, m.msg = .prepare p ∧ p.n = W) ?_ ho hp
        simp only [Call.run, OP.handle_incoming, OP.sat_onSP]
        exact SP.enter_handle (s := op.clearTrail.sp) hq fun p e => ((hpr p e).1).trans hsrc.symm
      obtain ⟨⟨k1, p, k2, k3⟩, -⟩ := key
      obtain ⟨z, e1, e2⟩ := out_enters k2 k3
      exact ⟨k1, z, by rw [e1]; exact List.mem_append_right _ (List.mem_cons_self ..), e2⟩

/-! ### From the promise to the AcceptSync -/

/-- What is known of a link and of the messages about to enter it. -/
abbrev Lane (E S : Type) := List (Message E S) → List (PaxosMessage E S) → Prop

/-- How that changes with a step, which is a delivery of the link or is not. -/
structure Tide (p : PaxosMessage E S → Prop) (R R' : Lane E S) (b : Bool) : Prop where
  keep : b = false → ∀ {net out out'}, R net out → (∀ x ∈ out, p x → x ∈ out') → R' net out'
  take : b = false → ∀ {net new out}, R net out → paxOf new = out → R' (net ++ new) []
  tail : b = true → ∀ {m net out}, R (m :: net) out → (∃ x, m = .paxos x ∧ p x) ∨ R' net out

/-- `j` has accepted in `W`, or waits for its AcceptSync while its promise or that AcceptSync is on its way. -/
def Road (W : Ballot) (j : NodeId) (RA RB : Lane E S) (c : Cluster E S) : Prop :=
  ∀ op oi, c.servers j = .up op → c.servers W.pid = .up oi → Won W oi.sp → op.sp.ist.cache.promise = W →
    LedAt W j c ∨ Firm W op.sp ∧ (RA (c.net j W.pid) (op.out W.pid) ∨ RB (c.net W.pid j) (oi.out j))

variable {RA RB RA' RB' : Lane E S}

omit [SnapOps E S] in
theorem out_keeps {op o : OP E S} (h : SP.KeepsSync W op.sp o.sp) : ∀ x ∈ op.out i, IsSync W x → x ∈ o.out i := by
  intro x hx hs
  obtain ⟨h1, h2⟩ := List.mem_filter.1 hx
  exact List.mem_filter.2 ⟨h x h1 hs, h2⟩

omit [SnapOps E S] in
theorem out_admits {o : OP E S} (h : o.sp.Admits W i) : ∃ x ∈ o.out i, IsSync W x := by
  obtain ⟨x, h1, h2, h3⟩ := h
  exact ⟨x, List.mem_filter.2 ⟨h1, by simp [h2]⟩, h3⟩

/-- The leader is in the Accept phase before the step. -/
theorem Road.later (h : Road W j RA RB c) (hj : j ∈ cc.nodes) (hne : j ≠ W.pid) (hA : Tide (IsProm W) RA RA' (a.isDelivery j W.pid)) (hB : Tide (IsSync W) RB RB' (a.isDelivery W.pid j))
    (hT : Capped cc W c) (hT' : Capped cc W c')
    (f1 : (∀ net out, (∃ x ∈ paxOf net ++ out, IsProm W x) → RA' net out) ∨ Low W j c)
    (f2 : (∀ net out, (∃ x ∈ out, IsSync W x) → RB' net out) ∨ ∀ net out, ¬ RA net out)
    (hw : ∀ oi, c.servers W.pid = .up oi → Won W oi.sp) (ha : a.Calm cc) (hs : c.step cc a = some c') : Road W j RA' RB' c' := by
  intro op' oi' hop' hoi' hw' hp'
  obtain ⟨op, hop, -⟩ := hT.cap j hj
  obtain ⟨oi, hoi, -⟩ := hT.cap W.pid hT.node
  have hw := hw oi hoi
  rcases hT.acts hT' ha hs with ⟨k, o, rfl, ho, rfl⟩ | ⟨k, cl, o, o', hk, ho, hsv, hcall, hcap, hkind⟩
  · -- taking messages
    have b1 : Action.isDelivery j W.pid (.take k : Action E S) = false := rfl
    have b2 : Action.isDelivery W.pid j (.take k : Action E S) = false := rfl
    rw [b1] at hA
    rw [b2] at hB
    have base : op.sp.ist.cache.promise = W := by
      by_cases e : j = k
      · subst e
        rw [hop] at ho; cases ho
        rw [Cluster.taken_self] at hop'; cases hop'
        exact hp'
      · rw [Cluster.taken_other e, hop] at hop'; cases hop'
        exact hp'
    rcases h op oi hop hoi hw base with hl | ⟨hF, hR⟩
    · exact .inl (hl.step hT.reach ha hs)
    · refine .inr ?_
      have hF' : Firm W op'.sp := by
        by_cases e : j = k
        · subst e
          rw [hop] at ho; cases ho
          rw [Cluster.taken_self] at hop'; cases hop'
          exact ⟨hF.promise, hF.role, hF.phase, hF.cached⟩
        · rw [Cluster.taken_other e, hop] at hop'; cases hop'
          exact hF
      refine ⟨hF', hR.imp (fun hR => ?_) fun hR => ?_⟩
      · by_cases e : j = k
        · subst e
          rw [hop] at ho; cases ho
          rw [Cluster.taken_self] at hop'; cases hop'
          have h1 := RInv.take_pre c op j W.pid
          rw [paxOf_append] at h1
          have h2 := hA.take rfl hR (List.append_cancel_left h1)
          simp only [Cluster.taken, if_true]
          exact h2
        · rw [Cluster.taken_other e, hop] at hop'; cases hop'
          rw [Cluster.taken_net_other e]
          exact hA.keep rfl hR fun x hx _ => hx
      · by_cases e : W.pid = k
        · rw [← e, hoi] at ho; cases ho
          rw [← e, Cluster.taken_self] at hoi'; cases hoi'
          have h1 := RInv.take_pre c oi W.pid j
          rw [paxOf_append] at h1
          have h2 := hB.take rfl hR (List.append_cancel_left h1)
          rw [← e]
          simp only [Cluster.taken, if_true]
          exact h2
        · rw [Cluster.taken_other e, hoi] at hoi'; cases hoi'
          rw [Cluster.taken_net_other e]
          exact hB.keep rfl hR fun x hx _ => hx
  · have hcl : (Action.call k cl).Calm cc ∨ ∃ x m rest, cl = .handleIncoming m ∧ c.net x k = m :: rest := by
      rcases hkind with ⟨rfl, -⟩ | ⟨x, m, rest, -, -, h1, h2, -⟩
      · exact .inl ha
      · exact .inr ⟨x, m, rest, h1, h2⟩
    by_cases hq : op.sp.ist.cache.promise = W
    · rcases h op oi hop hoi hw hq with hl | ⟨hF, hR⟩
      · exact .inl (hl.step hT.reach ha hs)
      · by_cases ek : k = W.pid
        · -- the leader
          subst ek
          rw [hoi] at ho; cases ho
          rw [hsv, if_pos rfl] at hoi'; cases hoi'
          rw [hsv, if_neg hne, hop] at hop'; cases hop'
          obtain ⟨k1, k2⟩ := hw.acts hT hoi hcall hcap hcl
          refine .inr ⟨hF, ?_⟩
          have hB' : RB (c.net W.pid j) (oi.out j) → RB' (c'.net W.pid j) (oi'.out j) := by
            intro hR
            have b2 : a.isDelivery W.pid j = false := by
              rcases hkind with ⟨rfl, -⟩ | ⟨x, m, rest, rfl, -⟩
              · rfl
              · simp [Action.isDelivery, hne]
            have hn : c'.net W.pid j = c.net W.pid j := by
              rcases hkind with ⟨-, h1⟩ | ⟨x, m, rest, -, -, -, -, -, h1⟩
              · rw [h1]
              · exact h1 _ _ (.inr hne)
            rw [b2] at hB
            rw [hn]
            exact hB.keep rfl hR (out_keeps k1)
          rcases hR with hR | hR
          · rcases hkind with ⟨rfl, h1⟩ | ⟨x, m, rest, rfl, -, e1, e2, e3, e4⟩
            · have b1 : Action.isDelivery j W.pid (.call W.pid cl : Action E S) = false := rfl
              rw [b1] at hA
              rw [h1]
              exact .inl (hA.keep rfl hR fun x hx _ => hx)
            · by_cases ex : x = j
              · subst ex
                have b1 : Action.isDelivery x W.pid (.deliver x W.pid : Action E S) = true := by simp [Action.isDelivery]
                rw [b1] at hA
                rw [e2] at hR
                rw [e3]
                rcases hA.tail rfl hR with ⟨z, rfl, hz⟩ | h2
                · have hsrc := (hT.msg (s := x) (t := W.pid) (m := z) (by rw [e2]; exact List.mem_cons_self ..)).1
                  have h3 := k2 z e1 hz
                  rw [hsrc] at h3
                  rcases f2 with f2 | f2
                  · exact .inr (f2 _ _ (out_admits h3))
                  · exact absurd hR (f2 _ _)
                · exact .inl h2
              · have b1 : Action.isDelivery j W.pid (.deliver x W.pid : Action E S) = false := by simp [Action.isDelivery, Ne.symm ex]
                rw [b1] at hA
                rw [e4 _ _ (.inl (Ne.symm ex))]
                exact .inl (hA.keep rfl hR fun x hx _ => hx)
          · exact .inr (hB' hR)
        · have hoi2 : oi' = oi := by
            rw [hsv, if_neg (Ne.symm ek), hoi] at hoi'; cases hoi'; rfl
          subst hoi2
          have hAk : ∀ {o2 : OP E S}, (∀ x ∈ op.out W.pid, IsProm W x → x ∈ o2.out W.pid) → RA (c.net j W.pid) (op.out W.pid) → RA' (c'.net j W.pid) (o2.out W.pid) := by
            intro o2 h1 hR
            have b1 : a.isDelivery j W.pid = false := by
              rcases hkind with ⟨rfl, -⟩ | ⟨x, m, rest, rfl, -⟩
              · rfl
              · simp [Action.isDelivery, Ne.symm ek]
            have hn : c'.net j W.pid = c.net j W.pid := by
              rcases hkind with ⟨-, h1⟩ | ⟨x, m, rest, -, -, -, -, -, h1⟩
              · rw [h1]
              · exact h1 _ _ (.inr (Ne.symm ek))
            rw [b1] at hA
            rw [hn]
            exact hA.keep rfl hR h1
          by_cases ej : k = j
          · -- the server itself
            subst ej
            rw [hop] at ho; cases ho
            rw [hsv, if_pos rfl] at hop'; cases hop'
            rcases hF.acts hT hcall hcap hcl with k1 | ⟨k1, k2, k3⟩
            · exact .inl (.of_up hT'.reach (by rw [hsv, if_pos rfl]) k1)
            · refine .inr ⟨k2, hR.imp (hAk ?_) fun hR => ?_⟩
              · obtain ⟨new, h1, -⟩ := out_adds (i := W.pid) k3
                rw [h1]
                exact fun x hx _ => List.mem_append_left _ hx
              · rcases hkind with ⟨rfl, h1⟩ | ⟨x, m, rest, rfl, -, e1, e2, e3, e4⟩
                · have b2 : Action.isDelivery W.pid k (.call k cl : Action E S) = false := rfl
                  rw [b2] at hB
                  rw [h1]
                  exact hB.keep rfl hR fun x hx _ => hx
                · by_cases ex : x = W.pid
                  · subst ex
                    have b2 : Action.isDelivery W.pid k (.deliver W.pid k : Action E S) = true := by simp [Action.isDelivery]
                    rw [b2] at hB
                    rw [e2] at hR
                    rw [e3]
                    rcases hB.tail rfl hR with ⟨z, rfl, hz⟩ | h2
                    · exact absurd hz (k1 z e1)
                    · exact h2
                  · have b2 : Action.isDelivery W.pid k (.deliver x k : Action E S) = false := by simp [Action.isDelivery, Ne.symm ex]
                    rw [b2] at hB
                    rw [e4 _ _ (.inl (Ne.symm ex))]
                    exact hB.keep rfl hR fun x hx _ => hx
          · -- somebody else
            rw [hsv, if_neg (Ne.symm ej), hop] at hop'; cases hop'
            refine .inr ⟨hF, hR.imp (hAk fun x hx _ => hx) fun hR => ?_⟩
            have b2 : a.isDelivery W.pid j = false := by
              rcases hkind with ⟨rfl, -⟩ | ⟨x, m, rest, rfl, -⟩
              · rfl
              · simp [Action.isDelivery, Ne.symm ej]
            have hn : c'.net W.pid j = c.net W.pid j := by
              rcases hkind with ⟨-, h1⟩ | ⟨x, m, rest, -, -, -, -, -, h1⟩
              · rw [h1]
              · exact h1 _ _ (.inr (Ne.symm ej))
            rw [b2] at hB
            rw [hn]
            exact hB.keep rfl hR fun x hx _ => hx
    · rcases f1 with f1 | f1
      · by_cases ej : k = j
        · subst ej
          rw [hop] at ho; cases ho
          rw [hsv, if_pos rfl] at hop'; cases hop'
          obtain ⟨k1, z, k2, k3⟩ := hT.enters hne hop hq hcall hp' hcl
          exact .inr ⟨k1, .inl (f1 _ _ ⟨z, List.mem_append_right _ k2, k3⟩)⟩
        · rw [hsv, if_neg (Ne.symm ej), hop] at hop'; cases hop'
          exact absurd hp' hq
      · exact absurd (hT.top j hj op hop (f1 op hop)) hq

/-- The leader enters the Accept phase with the step. -/
theorem Bids.road (h : Bids W j (Somewhere W) c) (hj : j ∈ cc.nodes) (hne : j ≠ W.pid)
    (hT : Capped cc W c) (hT' : Capped cc W c')
    (f1 : ∀ net out, (∃ x ∈ paxOf net ++ out, IsProm W x) → RA' net out) (f2 : ∀ net out, (∃ x ∈ out, IsSync W x) → RB' net out)
    (ha : a.Calm cc) (hs : c.step cc a = some c') : Road W j RA' RB' c' := by
  intro op' oi' hop' hoi' hw' hp'
  obtain ⟨op, hop, -⟩ := hT.cap j hj
  obtain ⟨oi, hoi, -⟩ := hT.cap W.pid hT.node
  have hpi := hw'.promise hT' hoi'
  have notwon : ∀ {o : OP E S}, Bidding W o.sp → Won W o.sp → False := fun h1 h2 => by have := h1.phase.symm.trans h2.2.1; cases this
  have stuck : oi'.sp = oi.sp → False := fun e => notwon (h.lead oi hoi (by rw [← e]; exact hpi)) (by rw [← e]; exact hw')
  rcases hT.acts hT' ha hs with ⟨k, o, rfl, ho, rfl⟩ | ⟨k, cl, o, o', hk, ho, hsv, hcall, hcap, hkind⟩
  · exfalso
    have := (h.take hj hne (Somewhere.flow false) hT ho).lead oi' hoi' hpi
    exact notwon this hw'
  · rcases hkind with ⟨rfl, h1⟩ | ⟨x, m, rest, rfl, -, e1, e2, e3, e4⟩
    · exfalso
      have := (h.call hj hne (Somewhere.flow false) hT hT' ha hs).lead oi' hoi' hpi
      exact notwon this hw'
    · by_cases ek : k = W.pid
      · subst ek
        rw [hoi] at ho; cases ho
        rw [hsv, if_pos rfl] at hoi'; cases hoi'
        rw [hsv, if_neg hne, hop] at hop'; cases hop'
        obtain ⟨hF, hpo, hR⟩ := h.fol _ _ hop hoi hp'
        have hB := clear_ahead (h.lead oi hoi)
        subst e1
        cases m with
        | ble b =>
          have key : oi'.sp = oi.clearTrail.sp := call_up (Q := fun t => t = oi.clearTrail.sp) (cl := .handleIncoming (.ble b)) (op := oi) (show oi.clearTrail.sp = oi.clearTrail.sp from rfl) hcall
          have := hB hpo
          rw [← key] at this
          exact (notwon this hw').elim
        | paxos m =>
          obtain ⟨hsrc, hm, -⟩ := hT.msg (s := x) (t := W.pid) (m := m) (by rw [e2]; exact List.mem_cons_self ..)
          have hm : Mild W m.msg := by
            refine hm.resolve_left fun hL => ?_
            have h1 := h.lead oi hoi hpo
            have := hL.won hT hoi h1.role h1.lead
            rw [h1.phase] at this
            cases this
          have key : SP.Gains W m oi.sp oi'.sp := by
            refine call_up (Q := fun t => SP.Gains W m oi.sp t) ?_ hcall
            simp only [Call.run, OP.handle_incoming, OP.sat_onSP]
            exact SP.ahead_handle (hB hpo) hm
          rcases key with ⟨-, key⟩ | key
          · refine .inr ⟨hF, ?_⟩
            have fin : Holds oi.sp j ∨ j = m.src → RB' (c'.net W.pid j) (oi'.out j) := fun h1 => f2 _ _ (out_admits (key j hne h1))
            rcases hR with ⟨p, z, q, e, hz, -⟩ | ⟨-, hR⟩
            · by_cases ex : x = j
              · exact .inr (fin (.inr (hsrc.trans ex).symm))
              · refine .inl (f1 _ _ ⟨z, ?_, hz⟩)
                rw [e4 _ _ (.inl (Ne.symm ex)), e]
                simp
            · exact .inr (fin (.inl hR))
          · exact (notwon key.1 hw').elim
      · exfalso
        rw [hsv, if_neg (Ne.symm ek), hoi] at hoi'
        cases hoi'
        exact stuck rfl

end Omni
