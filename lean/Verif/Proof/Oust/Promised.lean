import Verif.Proof.Oust.Herald
import Verif.Proof.Silent.Ghost
/-
The new leader leads, and the others have promised it.
-/
namespace Omni

variable {E S : Type} [SnapOps E S] {cc : ClusterConfig} {n W : Ballot} {L : List NodeId} {pr : NodeId → Nat}
variable {c c1 c2 c' : Cluster E S} {bl bl1 bl2 bl' : NodeId → BLE} {a : Action E S} {as pre : List (Action E S)} {i j k s t : NodeId}

/-! ### Messages arrive -/

theorem Cluster.link_step (ha : a.Calm cc) (hs : c.step cc a = some c') (s t : NodeId) :
    (a.isDelivery s t = true ∧ a = .deliver s t ∧ ∃ m, c.net s t = m :: c'.net s t) ∨ (a.isDelivery s t = false ∧ ∃ new, c'.net s t = c.net s t ++ new) := by
  cases a with
  | call i cl =>
    refine .inr ⟨rfl, [], ?_⟩
    simp only [Cluster.step] at hs
    repeat' split at hs
    all_goals first | (cases hs; simp [Cluster.setServer]) | cases hs
  | take i =>
    refine .inr ⟨rfl, ?_⟩
    simp only [Cluster.step] at hs
    cases hsv : c.servers i with
    | down d => rw [hsv] at hs; cases hs
    | up op =>
      rw [hsv] at hs
      have hc : c' = c.taken i op := (Option.some.inj hs).symm
      subst hc
      by_cases e : s = i
      · subst e
        simp only [Cluster.taken, if_true]
        exact ⟨_, rfl⟩
      · exact ⟨[], by rw [Cluster.taken_net_other e]; simp⟩
  | deliver i y =>
    simp only [Cluster.step] at hs
    cases hl : c.net i y with
    | nil => rw [hl] at hs; cases hs
    | cons m rest =>
      rw [hl] at hs
      have hn : c'.net = (c.setNet i y rest).net := by
        cases hsv : c.servers y with
        | down d => rw [hsv] at hs; cases hs; rfl
        | up op => rw [hsv] at hs; cases hs; rfl
      rw [hn]
      by_cases e : s = i ∧ t = y
      · obtain ⟨rfl, rfl⟩ := e
        exact .inl ⟨by simp [Action.isDelivery], rfl, m, by rw [Cluster.setNet_self, hl]⟩
      · refine .inr ⟨by simpa [Action.isDelivery] using fun h1 h2 => e ⟨h1, h2⟩, [], ?_⟩
        rw [Cluster.setNet_other (by by_cases e' : s = i; exact .inr fun h => e ⟨e', h⟩; exact .inl e')]
        simp
  | _ => exact ha.elim

/-- What holds when a message has arrived. -/
theorem Cluster.arrives {I P : Cluster E S → Prop} {good : Message E S → Prop} (hI : ∀ {c a c'}, I c → a.Calm cc → c.step cc a = some c' → I c')
    (hP : ∀ {c a c'}, I c → a.Calm cc → c.step cc a = some c' → P c → P c')
    (hd : ∀ {c c' m rest}, I c → c.net s t = m :: rest → good m → (Action.deliver s t : Action E S).Calm cc → c.step cc (.deliver s t) = some c' → P c')
    (ha : ∀ a ∈ as, a.Calm cc) (hs : c.run cc as = some c') (h : I c)
    (h0 : P c ∨ ∃ p m q, c.net s t = p ++ m :: q ∧ good m ∧ p.length < as.countP (Action.isDelivery s t)) : I c' ∧ P c' := by
  induction as generalizing c with
  | nil =>
    cases hs
    refine ⟨h, h0.resolve_right ?_⟩
    rintro ⟨p, m, q, -, -, hl⟩
    simp at hl
  | cons a as ih =>
    simp only [Cluster.run] at hs
    cases h1 : c.step cc a with
    | none => rw [h1] at hs; cases hs
    | some c1 =>
      rw [h1] at hs
      have hc := ha a (List.mem_cons_self ..)
      refine ih (fun b hb => ha b (List.mem_cons_of_mem _ hb)) hs (hI h hc h1) ?_
      rcases h0 with h0 | ⟨p, m, q, e, hg, hl⟩
      · exact .inl (hP h hc h1 h0)
      · rcases Cluster.link_step hc h1 s t with ⟨e1, e2, x, e3⟩ | ⟨e1, new, e2⟩
        · subst e2
          rw [e] at e3
          cases p with
          | nil =>
            cases e3
            exact .inl (hd h e hg hc h1)
          | cons y p =>
            simp only [List.cons_append, List.cons.injEq] at e3
            refine .inr ⟨p, m, q, e3.2.symm, hg, ?_⟩
            rw [List.countP_cons, if_pos e1, List.length_cons] at hl
            omega
        · refine .inr ⟨p, m, q ++ new, by rw [e2, e]; simp, hg, ?_⟩
          rw [List.countP_cons, e1] at hl
          simpa using hl

/-! ### The new leader -/

omit [SnapOps E S] in
theorem cand_antisymm (h1 : cand cc n pr i ≤ cand cc n pr j) (h2 : cand cc n pr j ≤ cand cc n pr i) : cand cc n pr i = cand cc n pr j := by
  have : i = j := by
    have h3 := (Ballot.le_iff _ _).1 h1
    have h4 := (Ballot.le_iff _ _).1 h2
    rw [Ballot.lt_iff] at h3 h4
    have h5 : ¬ (n.n + 1 < n.n + 1 ∨ n.n + 1 = n.n + 1 ∧ (pr j < pr i ∨ pr j = pr i ∧ j < i)) := h3
    have h6 : ¬ (n.n + 1 < n.n + 1 ∨ n.n + 1 = n.n + 1 ∧ (pr i < pr j ∨ pr i = pr j ∧ i < j)) := h4
    generalize pr i = x at h5 h6
    generalize pr j = y at h5 h6
    clear h1 h2 h3 h4
    omega
  rw [this]

/-- Nobody has promised more. -/
theorem Hunt.promise_top (h : Hunt cc n L pr c bl) (h7 : S7 cc n L pr i bl) (hk : k ∈ cc.nodes) {op : OP E S} (hop : c.servers k = .up op)
    (hw : cand cc n pr i ≤ op.sp.ist.cache.promise) : op.sp.ist.cache.promise = cand cc n pr i := by
  rcases (h.vouched.servers k hk op hop).ist.cprom with e | e | ⟨x, hx, e, hm⟩
  · have e : op.sp.ist.cache.promise = {} := e
    rw [e] at hw
    exact absurd (Ballot.le_trans hw (Ballot.default_le n)) (not_cand_le i)
  · have e : op.sp.ist.cache.promise ≤ n := e
    exact absurd (Ballot.le_trans hw e) (not_cand_le i)
  · have e : op.sp.ist.cache.promise = cand cc n pr x := e
    rw [e] at hw ⊢
    exact cand_antisymm (h7.top x hx hm) hw

/-- `k` has promised `W`, or more. -/
def Low (W : Ballot) (k : NodeId) (c : Cluster E S) : Prop := ∀ op, c.servers k = .up op → W ≤ op.sp.ist.cache.promise

theorem Low.step (h : Low W k c) (hr : Cluster.init.run cc pre = some c) (ha : a.Calm cc) (hs : c.step cc a = some c') : Low W k c' := by
  obtain ⟨bs, l, h1, h2⟩ := Cluster.reach_loose hr
  obtain ⟨as, l', -, h3, h4⟩ := h2.step (ok := fun _ => True) (a := a) (by cases a <;> trivial) hs
  have h5 := Loose.promise_mono h1 h3 k
  intro op' u'
  obtain ⟨op, u, -⟩ := step_clocks ha hs u'
  rw [h2.servers, h4.servers, u, u'] at h5
  exact Ballot.le_trans (h op u) h5

/-- Has been reached, by whatever calls, crashes and losses. -/
def Arisen (cc : ClusterConfig) (c : Cluster E S) : Prop := ∃ pre, Cluster.init.run cc pre = some c

theorem Arisen.step (h : Arisen cc c) (hs : c.step cc a = some c') : Arisen cc c' := by
  obtain ⟨pre, h⟩ := h
  exact ⟨pre ++ [a], Cluster.reach_append h (by simp [Cluster.run, hs])⟩

theorem Arisen.run (h : Arisen cc c) (hs : c.run cc as = some c') : Arisen cc c' := by
  obtain ⟨pre, h⟩ := h
  exact ⟨pre ++ as, Cluster.reach_append h hs⟩

omit [SnapOps E S] in
theorem call_up [SnapOps E S] {op o : OP E S} {cl : Call E S} {Q : SP E S → Prop} (hsat : M.Sat cl.run op.clearTrail (fun _ o => Q o.sp) (fun _ => True))
    (ho : op.callResult cl = .up o) : Q o.sp := by
  rcases callResult_sat hsat with ⟨o', e, h1⟩ | ⟨o', e, _⟩ <;> rw [e] at ho <;> cases ho
  exact h1

/-- At its election timeout, the new leader takes over. -/
theorem Move.takes (m : Move cc n L pr c bl a c' bl') (hL : ∀ x ∈ L, x ∈ cc.nodes) (hi : i ∈ L) (hr : Arisen cc c) (hh : Herald cc n (cand cc n pr i) j c)
    (hC : Crowned cc n L pr i bl' c'.net) (hk : (bl' i).hb_round ≠ (bl i).hb_round) : Low (cand cc n pr i) i c' := by
  obtain ⟨e, -⟩ := m.moves.fired hk
  subst e
  obtain ⟨pre, hr⟩ := hr
  obtain ⟨op, u, e1⟩ := m.before.bles i (hL i hi)
  obtain ⟨op', u', e1'⟩ := m.after.bles i (hL i hi)
  have e2 := (tick_election m.step u u').1
  have e3 : op.clearTrail.elects.1 = some (cand cc n pr i) := by
    have h1 : op'.ble.leader = cand cc n pr i := by rw [e1']; exact hC.leader i hi
    have h2 : op'.ble.current_ballot = cand cc n pr i := by rw [e1']; exact hC.s7.made
    rw [← e1', ← e1, e2] at hk
    rw [e2] at h1 h2
    unfold OP.elects at hk h1 h2 ⊢
    split at hk
    · rename_i hf
      rw [if_pos hf] at h1 h2 ⊢
      simp only [BLE.hb_timeout] at h1 h2 ⊢
      rw [if_pos (h1.trans h2.symm), h2]
    · exact absurd rfl hk
  have hs := m.step
  simp only [Cluster.step, u, Call.isIncoming, Bool.false_eq_true, if_false, Option.some.injEq] at hs
  subst hs
  intro o ho
  rw [Cluster.setServer_self] at ho
  refine call_up (Q := fun t => cand cc n pr i ≤ t.ist.cache.promise) ?_ ho
  refine M.sat_mono (OP.tick_parts (Q := fun t => cand cc n pr i ≤ t.ist.cache.promise) (P := fun _ => True)
    fun r w _ _ => ?_) (fun _ _ h => h.1) fun _ h => h
  exact M.sat_mono (SP.calls_ticked (hh i (hL i hi) op u).clear fun y e => Cluster.reach_elects hr u e) (fun _ _ h => h.2 _ e3 (lt_cand i)) fun _ h => h

theorem Trek.takes (h : Trek cc n L pr c bl as c' bl') (hL : ∀ x ∈ L, x ∈ cc.nodes) (hi : i ∈ L) (hr : Arisen cc c) (hh : Herald cc n (cand cc n pr i) j c)
    (hC : Crowned cc n L pr i bl c.net) (hk : Low (cand cc n pr i) i c ∨ (bl' i).hb_round ≠ (bl i).hb_round) : Low (cand cc n pr i) i c' := by
  induction h with
  | nil => exact hk.resolve_right fun h => h rfl
  | @cons c c1 c2 bl bl1 bl2 a as m _ ih =>
    obtain ⟨pre, hp⟩ := hr
    refine ih (Arisen.step ⟨pre, hp⟩ m.step) (hh.step (lt_cand i) hp (m.of.calm hL) m.step).1 (m.crowned hL hi hC) ?_
    rcases hk with hk | hk
    · exact .inl (hk.step hp (m.of.calm hL) m.step)
    · by_cases e : (bl1 i).hb_round = (bl i).hb_round
      · exact .inr (by rw [e]; exact hk)
      · exact .inl (m.takes hL hi ⟨pre, hp⟩ hh (m.crowned hL hi hC) e)

theorem Trek.low (h : Trek cc n L pr c bl as c' bl') (hL : ∀ x ∈ L, x ∈ cc.nodes) (hr : Arisen cc c) (hk : Low W k c) : Low W k c' := by
  induction h with
  | nil => exact hk
  | cons m _ ih =>
    obtain ⟨pre, hp⟩ := hr
    exact ih (Arisen.step ⟨pre, hp⟩ m.step) (hk.step hp (m.of.calm hL) m.step)

theorem Trek.herald (h : Trek cc n L pr c bl as c' bl') (hL : ∀ x ∈ L, x ∈ cc.nodes) (hr : Arisen cc c) (hn : n < W) (hh : Herald cc n W j c) :
    Herald cc n W j c' ∧ (Reached W j c → Reached W j c') := by
  induction h with
  | nil => exact ⟨hh, id⟩
  | cons m _ ih =>
    obtain ⟨pre, hp⟩ := hr
    have h1 := hh.step hn hp (m.of.calm hL) m.step
    have h2 := ih (Arisen.step ⟨pre, hp⟩ m.step) h1.1
    exact ⟨h2.1, fun h => h2.2 (h1.2 h)⟩

/-- What the new leader knows. -/
theorem Hunt.leads_now (h : Hunt cc n L pr c bl) (h7 : S7 cc n L pr i bl) (hi : i ∈ cc.nodes) (hh : Herald cc n (cand cc n pr i) j c) (hl : Low (cand cc n pr i) i c)
    {op : OP E S} (hop : c.servers i = .up op) : op.sp.role = .leader ∧ op.sp.ls.n_leader = cand cc n pr i ∧ ∀ x ∈ SP.peersOf cc.nodes i, x = j ∧ ¬ Reached (cand cc n pr i) j c →
      ∃ m ∈ op.sp.outgoing, m.dst = x ∧ ∃ p, m.msg = .prepare p ∧ p.n = cand cc n pr i :=
  (hh i hi op hop).ann rfl (h.promise_top h7 hi hop (hl op hop))

/-- One beat later, its Prepare is on the way. -/
theorem Trek.reached (h : Trek cc n L pr c bl as c' bl') (hL : ∀ x ∈ L, x ∈ cc.nodes) (hi : i ∈ L) (hj : j ∈ L) (hji : j ≠ i) (ht : .take i ∈ as) (hr : Arisen cc c)
    (hh : Herald cc n (cand cc n pr i) j c) (hC : Crowned cc n L pr i bl c.net) (hl : Low (cand cc n pr i) i c) : Reached (cand cc n pr i) j c' := by
  obtain ⟨p, q, rfl⟩ := List.append_of_mem ht
  rw [List.append_cons] at h
  obtain ⟨c1, b1, t1, t2⟩ := h.split
  have hr1 := hr.run t1.run
  refine (t2.herald hL hr1 (lt_cand i) (t1.herald hL hr (lt_cand i) hh).1).2 ?_
  have hC1 := t1.keep (F := fun b m => Crowned cc n L pr i b m) (fun m h => m.crowned hL hi h) hC
  have hl1 := t1.low hL hr hl
  have hh1 := (t1.herald hL hr (lt_cand i) hh).1
  obtain ⟨op, u, -⟩ := t1.hunt_end.bles i (hL i hi)
  have ho : op.sp.outgoing = [] := by
    obtain ⟨c0, b0, t0, t00⟩ := t1.split
    obtain ⟨op0, u0, -⟩ := t0.hunt_end.bles i (hL i hi)
    have hs := t00.run
    simp only [Cluster.run, Cluster.step, u0, Option.some.injEq] at hs
    have hc : c1 = c0.taken i op0 := hs.symm
    rw [hc, Cluster.taken_self] at u
    cases u
    rfl
  by_cases hR : Reached (cand cc n pr i) j c1
  · exact hR
  · obtain ⟨-, -, h3⟩ := t1.hunt_end.leads_now hC1.s7 (hL i hi) hh1 hl1 u
    obtain ⟨m, hm, -⟩ := h3 j (by simp [SP.peersOf, hL j hj, hji]) ⟨rfl, hR⟩
    rw [ho] at hm
    cases hm

/-- And another beat later it has arrived. -/
theorem Cluster.LBeat.promised (hb : c.LBeat cc L as) (hrun : c.run cc as = some c') (hL : ∀ x ∈ L, x ∈ cc.nodes) (hi : W.pid ∈ L) (hj : j ∈ L) (hn : n < W) (hr : Arisen cc c)
    (hh : Herald cc n W j c) (hR : Reached W j c) : Low W j c' := by
  refine (Cluster.arrives (cc := cc) (s := W.pid) (t := j) (I := fun c => Arisen cc c ∧ Herald cc n W j c) (P := Low W j)
    (good := fun m => ∃ q p, m = .paxos q ∧ q.msg = .prepare p ∧ p.n = W) ?_ ?_ ?_ hb.calm hrun ⟨hr, hh⟩ ?_).2
  · rintro c a c' ⟨⟨pre, hp⟩, h⟩ ha hs
    exact ⟨Arisen.step ⟨pre, hp⟩ hs, (h.step hn hp ha hs).1⟩
  · rintro c a c' ⟨⟨pre, hp⟩, h⟩ ha hs hl
    exact hl.step hp ha hs
  · rintro c c' m rest ⟨⟨pre, hp⟩, h⟩ hl ⟨q, p, rfl, e1, e2⟩ ⟨h1, h2⟩ hs
    simp only [Cluster.step, hl] at hs
    cases hsv : c.servers j with
    | down d => rw [hsv] at hs; cases hs; intro op hop; have hop : c.servers j = .up op := hop; rw [hsv] at hop; cases hop
    | up op =>
      rw [hsv] at hs
      simp only [Option.some.injEq] at hs
      subst hs
      intro o ho
      rw [Cluster.setServer_self] at ho
      refine call_up (Q := fun t => W ≤ t.ist.cache.promise) ?_ ho
      simp only [Call.run, OP.handle_incoming, OP.sat_onSP]
      exact M.sat_mono (SP.calls_handle (h j h2 op hsv).clear hn fun p e _ => Cluster.reach_prepare hp (i := W.pid) (by rw [hl]; exact List.mem_cons_self ..) e)
        (fun _ _ h => by rw [← e2]; exact h.2 p e1) fun _ h => h
  · rcases hR with ⟨m, hm, p, e1, e2⟩ | hR
    · obtain ⟨x, y, e⟩ := List.append_of_mem hm
      refine .inr ⟨x, _, y, e, ⟨m, p, rfl, e1, e2⟩, ?_⟩
      have := hb.delivered W.pid (hL _ hi) j hj
      rw [e, List.length_append, List.length_cons] at this
      omega
    · exact .inl hR

/-- All of that. -/
theorem Trek.promised {e : Nat} {zs : List (List (Action E S))} (hb : Cluster.LBeats cc L c zs c') (h : Trek cc n L pr c bl zs.flatten c' bl') (hrd : Ready L e c)
    (hL : ∀ x ∈ L, x ∈ cc.nodes) (hi : i ∈ L) (hr : Arisen cc c) (hh : ∀ j, Herald cc n (cand cc n pr i) j c) (hC : Crowned cc n L pr i bl c.net) (hl : e + 2 ≤ zs.length) :
    ∀ k ∈ L, Low (cand cc n pr i) k c' := by
  obtain ⟨b0, z1, rfl, h1⟩ : ∃ x y, zs = x ++ y ∧ x.length = e := ⟨zs.take e, zs.drop e, (List.take_append_drop ..).symm, by rw [List.length_take]; omega⟩
  obtain ⟨b1, z2, rfl⟩ : ∃ x y, z1 = x :: y := by
    cases z1 with
    | nil => simp only [List.append_nil] at hl; omega
    | cons x y => exact ⟨x, y, rfl⟩
  obtain ⟨b2, z3, rfl⟩ : ∃ x y, z2 = x :: y := by
    cases z2 with
    | nil => simp only [List.length_append, List.length_cons, List.length_nil] at hl; omega
    | cons x y => exact ⟨x, y, rfl⟩
  obtain ⟨c1, k1, hb⟩ := hb.split
  cases hb with
  | @cons _ c2 _ _ _ k2 r2 hb =>
  cases hb with
  | @cons _ c3 _ _ _ k3 r3 hb =>
  simp only [List.flatten_append, List.flatten_cons] at h
  obtain ⟨c1', bl1, t1, h⟩ := h.split
  obtain rfl : c1 = c1' := Option.some.inj (k1.run.symm.trans t1.run)
  obtain ⟨c2', bl2, t2, h⟩ := h.split
  obtain rfl : c2 = c2' := Option.some.inj (r2.symm.trans t2.run)
  obtain ⟨c3', bl3, t3, t4⟩ := h.split
  obtain rfl : c3 = c3' := Option.some.inj (r3.symm.trans t3.run)
  have hr1 := hr.run t1.run
  have hr2 := hr1.run t2.run
  have hr3 := hr2.run t3.run
  have hC1 := t1.keep (F := fun b m => Crowned cc n L pr i b m) (fun m h => m.crowned hL hi h) hC
  have l1 : Low (cand cc n pr i) i c1 := t1.takes hL hi hr (hh i) hC (.inr (Leg.turn ⟨b0, k1, by omega, hrd, t1⟩ hL hi))
  intro k hk
  refine t4.low hL hr3 ?_
  by_cases e : k = i
  · subst e
    exact t3.low hL hr2 (t2.low hL hr1 l1)
  · have g1 := (t1.herald hL hr (lt_cand i) (hh k)).1
    have g2 := (t2.herald hL hr1 (lt_cand i) g1).1
    exact k3.promised r3 hL (W := cand cc n pr i) hi hk (lt_cand i) hr2 g2 (t2.reached hL hi hk e (k2.taken i hi) hr1 g1 hC1 l1)

/-- At the start. -/
theorem Cluster.Settled.herald {q : Nat} (h : c.Settled cc n q) (hu : c.Under cc n) (hp : c.Peered cc) (hn : n < W) :
    Herald cc n W j c := by
  intro k hk op hop
  obtain ⟨op', u', hpid, ha⟩ := h.server k hk
  rw [hop] at u'
  cases u'
  obtain ⟨h1, -, -⟩ := hu k hk op hop
  have ho := (h.quiet.servers k hk op hop).1
  refine ⟨hpid, hp k hk op hop, id, fun hl => absurd (Ballot.lt_of_lt_of_le hl h1) (Ballot.lt_irrefl n), by rw [ho]; exact nofun, fun _ e => ?_⟩
  have e1 : op.sp.ist.cache.promise = n := ha.promise
  rw [e1] at e
  subst e
  exact absurd hn (Ballot.lt_irrefl n)

theorem Hunt.follows {d g : Cluster E S} {b : NodeId → BLE} (hL : ∀ x ∈ L, x ∈ cc.nodes) (hal : Alike L d g) (hH : Hunt cc n L pr g b) (hC : Crowned cc n L pr i b g.net) :
    d.Follows L (cand cc n pr i) := by
  intro j hj
  obtain ⟨op, u, e1⟩ := hH.bles j (hL j hj)
  rw [hal.servers j hj] at u
  have hw := (hH.hearts.server j (hL j hj)).tells
  have e2 := hC.leader j hj
  refine ⟨op, u, by rw [e1]; exact e2, ?_, ?_, fun e => ?_⟩
  · rw [e1]
    refine hw.happy ?_
    show (b j).leader ≠ n
    rw [e2]
    exact cand_ne i
  · rw [e1]
    rcases hw.ballot with h1 | ⟨_, h1⟩
    · exact Ballot.le_trans h1 (Ballot.le_of_lt (lt_cand i))
    · have h1 : (b j).current_ballot = cand cc n pr j := h1
      rw [h1]
      exact hC.s7.top j hj h1
  · rw [e1]
    have e : j = i := e
    subst e
    exact hC.s7.made

theorem Hunt.promised {d g : Cluster E S} {b : NodeId → BLE} (hH : Hunt cc n L pr g b) (hL : ∀ x ∈ L, x ∈ cc.nodes) (hal : Alike L d g) (h7 : S7 cc n L pr i b)
    (hh : ∀ j, Herald cc n (cand cc n pr i) j g) (hl : ∀ k ∈ L, Low (cand cc n pr i) k g) : d.Promised L (cand cc n pr i) := by
  intro j hj
  obtain ⟨op, u, -⟩ := hH.bles j (hL j hj)
  refine ⟨op, by rw [← hal.servers j hj]; exact u, hH.promise_top h7 (hL j hj) u (hl j hj op u), fun e => ?_⟩
  have e : j = i := e
  subst e
  have := hH.leads_now h7 (hL j hj) (hh j) (hl j hj) u
  exact ⟨this.1, this.2.1⟩

/-- The others have a new leader and have promised it. -/
theorem oust_promised {k e f : Nat} (hv : cc.validate = .ok ()) (hd : cc.nodes.Nodup) (h0 : Cluster.init.run cc pre = some c) (h : c.Settled cc n k) (hl : c.Loyal cc n) (hc : c.Current cc)
    (hu : c.Under cc n) (hps : c.Peered cc) (hw : c.Wound cc f)
    (he : ∀ i ∈ cc.nodes, ∀ op, c.servers i = .up op → op.election_clock.timeout ≤ e) {xs ys : List (List (Action E S))} (h1 : Cluster.Beats cc c xs c1)
    (hn : n.pid ∉ L) (hqa : AcceptQuorum cc L) (hqp : PrepareQuorum cc L) (h2 : Cluster.LBeats cc L c1 ys c2) (hy : 9 * e + 2 ≤ ys.length) (ho : ∀ a ∈ ys.flatten, a.Of cc L)
    (hup : ∀ i ∈ L, ∃ op, c2.servers i = .up op) :
    ∃ bl pr i bl2, i ∈ L ∧ Vouched (· ≤ n) cc c1 ∧ Trek cc n L pr c1 bl ys.flatten c2 bl2 ∧ Crowned cc n L pr i bl2 c2.net ∧ (∀ x ∈ L, Low (cand cc n pr i) x c2) ∧ (∀ j, Herald cc n (cand cc n pr i) j c2) ∧
      ∀ zs c3, Cluster.LBeats cc L c2 zs c3 → (∀ a ∈ zs.flatten, a.Of cc L) → (∀ i ∈ L, ∃ op, c3.servers i = .up op) → ∃ bl2 bl3, Trek cc n L pr c2 bl2 zs.flatten c3 bl3 ∧
        Crowned cc n L pr i bl3 c3.net ∧ (∀ x ∈ L, Low (cand cc n pr i) x c3) ∧ ∀ j, Herald cc n (cand cc n pr i) j c3 := by
  have hL := hqa.members
  obtain ⟨y1, y2, rfl, hy1⟩ : ∃ x y, ys = x ++ y ∧ x.length = 8 * e := ⟨ys.take (8 * e), ys.drop (8 * e), (List.take_append_drop ..).symm, by rw [List.length_take]; omega⟩
  have hy2 : e + 2 ≤ y2.length := by rw [List.length_append] at hy; omega
  obtain ⟨cm, k1, k2⟩ := h2.split
  rw [List.flatten_append] at ho ⊢
  have o1 : ∀ a ∈ y1.flatten, a.Of cc L := fun a ha => ho a (List.mem_append_left _ ha)
  have o2 : ∀ a ∈ y2.flatten, a.Of cc L := fun a ha => ho a (List.mem_append_right _ ha)
  obtain ⟨bl, pr, blm, V1, T1, t2, t3⟩ := ousted hv hd h hl hc hu hw he h1 hn hqa hqp k1 o1 fun i hi => by
    obtain ⟨op, u⟩ := hup i hi
    exact up_back (fun a ha => (o2 a ha).calm hL) k2.run u
  obtain ⟨i, hi, hC⟩ := t2 (by omega)
  obtain ⟨bl2, T2⟩ := t3 y2 c2 k2 o2 hup
  have r0 : Arisen cc c := ⟨pre, h0⟩
  have r1 := r0.run h1.run
  have rm := r1.run k1.run
  have r2 := rm.run k2.run
  have hh1 : ∀ j, Herald cc n (cand cc n pr i) j c1 := fun j => ((h.herald hu hps (lt_cand i)).run (lt_cand i) h0 (fun a ha => (h1.live hL).calm a ha) h1.run).1
  have hhm := fun j => (T1.herald hL r1 (lt_cand i) (hh1 j)).1
  have hh2 := fun j => (T2.herald hL rm (lt_cand i) (hhm j)).1
  have rd : Ready L e cm := by
    have : Ready L e c := fun i hi op hop => by
      have := (hw i (hL i hi) op hop).1
      exact ⟨by omega, he i (hL i hi) op hop⟩
    exact k1.ready ((h1.live hL).ready this)
  have hlow := T2.promised k2 rd hL hi rm hhm hC hy2
  have hC2 := T2.keep (F := fun b m => Crowned cc n L pr i b m) (fun m h => m.crowned hL hi h) hC
  refine ⟨bl, pr, i, bl2, hi, V1, T1.append T2, hC2, hlow, hh2, fun zs c3 h3 ho3 hup3 => ?_⟩
  obtain ⟨bl3, T3⟩ := t3 (y2 ++ zs) c3 (k2.append h3) (by rw [List.flatten_append]; exact fun a ha => (List.mem_append.1 ha).elim (o2 a) (ho3 a)) hup3
  rw [List.flatten_append] at T3
  obtain ⟨c2', bl2', T2', T3⟩ := T3.split
  obtain rfl : c2 = c2' := Option.some.inj (k2.run.symm.trans T2'.run)
  have hC2 := T2'.keep (F := fun b m => Crowned cc n L pr i b m) (fun m h => m.crowned hL hi h) hC
  exact ⟨bl2', bl3, T3, T3.keep (F := fun b m => Crowned cc n L pr i b m) (fun m h => m.crowned hL hi h) hC2, fun x hx => T3.low hL r2 (hlow x hx),
    fun j => (T3.herald hL r2 (lt_cand i) (hh2 j)).1⟩

end Omni
