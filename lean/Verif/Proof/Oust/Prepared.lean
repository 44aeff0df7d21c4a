import Verif.Proof.Oust.Bid
/-
The new leader enters the Accept phase.
-/
namespace Omni

variable {E S : Type} [SnapOps E S] {cc : ClusterConfig} {n W : Ballot} {L : List NodeId} {pr : NodeId → Nat}
variable {c c1 c2 c' : Cluster E S} {bl bl' : NodeId → BLE} {as : List (Action E S)} {i j k : NodeId} {R : Ride E S}

/-- No candidate is greater than that of `i`. -/
def Best (cc : ClusterConfig) (n : Ballot) (L : List NodeId) (pr : NodeId → Nat) (i : NodeId) (bl : NodeId → BLE) : Prop :=
  ∀ j ∈ L, Made cc n pr bl j → cand cc n pr j ≤ cand cc n pr i

theorem Trek.best (h : Trek cc n L pr c bl as c' bl') (hb : Best cc n L pr i bl') : Best cc n L pr i bl := by
  induction h with
  | nil => exact hb
  | cons m _ ih => exact fun j hj hm => ih hb j hj (m.made hm)

theorem Hunt.capped (h : Hunt cc n L pr c bl) (hr : c.Reachable cc Links.all) (hb : Best cc n L pr i bl) (hi : i ∈ cc.nodes) : Capped cc (cand cc n pr i) c := by
  have key : ∀ {b : Ballot}, (Prov.among E S (Known cc n L pr bl)).bal b → b ≤ cand cc n pr i ∧ (cand cc n pr i ≤ b → b = cand cc n pr i) := by
    rintro b (e | e | ⟨x, hx, e, hm⟩)
    · subst e
      exact ⟨Ballot.default_le _, fun hw => absurd (Ballot.le_trans hw (Ballot.default_le n)) (not_cand_le i)⟩
    · exact ⟨Ballot.le_trans e (Ballot.le_of_lt (lt_cand i)), fun hw => absurd (Ballot.le_trans hw e) (not_cand_le i)⟩
    · have e : b = cand cc n pr x := e
      subst e
      exact ⟨hb x hx hm, fun hw => cand_antisymm (hb x hx hm) hw⟩
  refine ⟨hr, hi, fun k hk => ?_, fun k hk op hop => (key (h.vouched.servers k hk op hop).ist.cprom).2, fun op hop => (key (h.vouched.servers i hi op hop).ist.cacc).2⟩
  obtain ⟨op, u, -⟩ := h.bles k hk
  exact ⟨op, u, (key (h.vouched.servers k hk op u).ist.cprom).1⟩

/-- At the start nobody has promised. -/
theorem Vouched.bids (h : Vouched (· ≤ n) cc c) (hn : n < W) (hW : W.pid ∈ cc.nodes) (hj : j ∈ cc.nodes) : Bids W j R c := by
  have key : ∀ k ∈ cc.nodes, ∀ op, c.servers k = .up op → op.sp.ist.cache.promise ≠ W := by
    rintro k hk op hop e
    have h1 : op.sp.ist.cache.promise ≤ n := by
      rcases (h.servers k hk op hop).ist.cprom with e | e
      · have e : op.sp.ist.cache.promise = {} := e
        rw [e]
        exact Ballot.default_le n
      · exact e
    rw [e] at h1
    exact Ballot.lt_irrefl _ (Ballot.lt_of_lt_of_le hn h1)
  exact ⟨fun op hop e => absurd e (key _ hW op hop), fun op oi hop _ e => absurd e (key j hj op hop)⟩

theorem Trek.bids (h : Trek cc n L pr c bl as c' bl') (hL : ∀ x ∈ L, x ∈ cc.nodes) (hi : i ∈ L) (hj : j ∈ L) (hne : j ≠ i) (hb : Best cc n L pr i bl') (hr : c.Reachable cc Links.all)
    (hB : Led (cand cc n pr i) c ∨ Bids (cand cc n pr i) j (Somewhere (cand cc n pr i)) c) : Led (cand cc n pr i) c' ∨ Bids (cand cc n pr i) j (Somewhere (cand cc n pr i)) c' := by
  induction h with
  | nil => exact hB
  | @cons c c1 c2 bl bl1 bl2 a as m t ih =>
    have ha := m.of.calm hL
    refine ih hb (hr.step ha m.step) ?_
    rcases hB with hB | hB
    · exact .inl (hB.step hr ha m.step)
    · have b1 := t.best hb
      refine hB.step (hL j hj) hne (Somewhere.flow _) (m.before.capped hr (fun j hj hm => b1 j hj (m.made hm)) (hL i hi)) (m.after.capped (hr.step ha m.step) b1 (hL i hi)) (.inl ?_) ha m.step
      intro net out z P hz
      exact .inl ⟨paxOf net ++ out, z, [], by simp, hz, nofun⟩

theorem Trek.reachable (h : Trek cc n L pr c bl as c' bl') (hL : ∀ x ∈ L, x ∈ cc.nodes) (hr : c.Reachable cc Links.all) : c'.Reachable cc Links.all := by
  induction h with
  | nil => exact hr
  | cons m _ ih => exact ih (hr.step (m.of.calm hL) m.step)

theorem Trek.led (h : Trek cc n L pr c bl as c' bl') (hL : ∀ x ∈ L, x ∈ cc.nodes) (hr : c.Reachable cc Links.all) (hB : Led W c) : Led W c' := by
  induction h with
  | nil => exact hB
  | cons m _ ih => exact ih (hr.step (m.of.calm hL) m.step) (hB.step hr (m.of.calm hL) m.step)

theorem Trek.within {N : Nat} (h : Trek cc n L pr c bl as c' bl') (hL : ∀ x ∈ L, x ∈ cc.nodes) (hi : i ∈ L) (hj : j ∈ L) (hne : j ≠ i) (hb : Best cc n L pr i bl') (hr : c.Reachable cc Links.all)
    (hl : Low (cand cc n pr i) j c)
    (hB : Led (cand cc n pr i) c ∨ Bids (cand cc n pr i) j (Within (cand cc n pr i) N) c) :
    Led (cand cc n pr i) c' ∨ Bids (cand cc n pr i) j (Within (cand cc n pr i) (N - as.countP (Action.isDelivery j i))) c' := by
  induction h generalizing N with
  | nil => exact hB
  | @cons c c1 c2 bl bl1 bl2 a as m t ih =>
    have ha := m.of.calm hL
    obtain ⟨pre, hp⟩ := hr.arisen
    have hr1 := hr.step ha m.step
    have hl1 := hl.step hp ha m.step
    rw [List.countP_cons]
    rcases hB with hB | hB
    · exact .inl (t.led hL hr1 (hB.step hr ha m.step))
    · have b1 := t.best hb
      have hT := m.before.capped hr (fun j hj hm => b1 j hj (m.made hm)) (hL i hi)
      have hT' := m.after.capped hr1 b1 (hL i hi)
      have hE : ∀ op, c.servers j = .up op → op.sp.ist.cache.promise = cand cc n pr i := fun op hop => hT.top j (hL j hj) op hop (hl op hop)
      cases e : a.isDelivery j i with
      | true =>
        have := ih hb hr1 hl1 (hB.step (hL j hj) hne (by rw [show a.isDelivery j (cand cc n pr i).pid = true from e]; exact Within.pop N) hT hT' (.inr hE) ha m.step)
        rwa [if_pos rfl, Nat.add_comm, ← Nat.sub_sub]
      | false =>
        have := ih hb hr1 hl1 (hB.step (hL j hj) hne (by rw [show a.isDelivery j (cand cc n pr i).pid = false from e]; exact Within.flow N) hT hT' (.inr hE) ha m.step)
        simpa using this

/-- The promise of `j` arrives within two beats. -/
theorem Trek.holds {b1 b2 : List (Action E S)} {bl1 bl2 : NodeId → BLE} (hb1 : c.LBeat cc L b1) (hb2 : c1.LBeat cc L b2) (t1 : Trek cc n L pr c bl b1 c1 bl1) (t2 : Trek cc n L pr c1 bl1 b2 c2 bl2)
    (hL : ∀ x ∈ L, x ∈ cc.nodes) (hi : i ∈ L) (hj : j ∈ L) (hne : j ≠ i) (hb : Best cc n L pr i bl2) (hr : c.Reachable cc Links.all) (hl : Low (cand cc n pr i) j c)
    (hB : Led (cand cc n pr i) c ∨ Bids (cand cc n pr i) j (Somewhere (cand cc n pr i)) c) :
    Led (cand cc n pr i) c2 ∨ ∀ oi, c2.servers i = .up oi → oi.sp.ist.cache.promise = cand cc n pr i ∧ Bidding (cand cc n pr i) oi.sp ∧ Holds oi.sp j := by
  have hr1 := t1.reachable hL hr
  have hr2 := t2.reachable hL hr1
  have bb1 := t2.best hb
  have hl1 := t1.low hL hr.arisen hl
  have hl2 := t2.low hL hr1.arisen hl1
  have s1 : Led (cand cc n pr i) c1 ∨ ∃ N, Bids (cand cc n pr i) j (Within (cand cc n pr i) N) c1 := by
    obtain ⟨p, q, rfl⟩ := List.append_of_mem (hb1.taken j hj)
    rw [List.append_cons] at t1
    obtain ⟨cx, blx, u1, u2⟩ := t1.split
    have hbx := u2.best bb1
    have hrx := u1.reachable hL hr
    rcases u1.bids hL hi hj hne hbx hr hB with h | h
    · exact .inl (u2.led hL hrx h)
    · have ho : ∀ op, cx.servers j = .up op → op.out i = [] := by
        intro op u
        obtain ⟨c0, bl0, v1, v2⟩ := u1.split
        obtain ⟨op0, u0, -⟩ := v1.hunt_end.bles j (hL j hj)
        have hs := v2.run
        simp only [Cluster.run, Cluster.step, u0, Option.some.injEq] at hs
        have hc : cx = c0.taken j op0 := hs.symm
        rw [hc, Cluster.taken_self] at u
        cases u
        rfl
      have h' : Bids (cand cc n pr i) j (Within (cand cc n pr i) (cx.net j i).length) cx := by
        refine ⟨h.lead, fun op oi hop hoi e => ?_⟩
        obtain ⟨k1, k2, k3⟩ := h.fol op oi hop hoi e
        refine ⟨k1, k2, ?_⟩
        have e1 : op.out (cand cc n pr i).pid = [] := ho op hop
        rw [e1] at k3 ⊢
        exact Within.of_somewhere k3
      exact (u2.within hL hi hj hne bb1 hrx (u1.low hL hr.arisen hl) (.inr h')).imp id fun h => ⟨_, h⟩
  rcases s1 with h | ⟨N, h⟩
  · exact .inl (t2.led hL hr1 h)
  · have h' : Bids (cand cc n pr i) j (Within (cand cc n pr i) (c1.net j i).length) c1 := by
      refine ⟨h.lead, fun op oi hop hoi e => ?_⟩
      obtain ⟨k1, k2, k3⟩ := h.fol op oi hop hoi e
      exact ⟨k1, k2, k3.fit⟩
    refine (t2.within hL hi hj hne hb hr1 hl1 (.inr h')).imp id fun h oi hoi => ?_
    rw [Nat.sub_eq_zero_of_le (hb2.delivered j (hL j hj) i hi)] at h
    obtain ⟨op, hop, -⟩ := t2.hunt_end.bles j (hL j hj)
    have hT := t2.hunt_end.capped hr2 hb (hL i hi)
    obtain ⟨-, k2, k3⟩ := h.fol op oi hop hoi (hT.top j (hL j hj) op hop (hl2 op hop))
    exact ⟨k2, h.lead oi hoi k2, k3.zero⟩

/-- So it has been prepared. -/
theorem Trek.leads {b1 b2 : List (Action E S)} {bl1 bl2 : NodeId → BLE} (hv : cc.validate = .ok ()) (hd : cc.nodes.Nodup) (hqa : AcceptQuorum cc L) (hqp : PrepareQuorum cc L)
    (hb1 : c.LBeat cc L b1) (hb2 : c1.LBeat cc L b2) (t1 : Trek cc n L pr c bl b1 c1 bl1) (t2 : Trek cc n L pr c1 bl1 b2 c2 bl2)
    (hi : i ∈ L) (hb : Best cc n L pr i bl2) (hr : c.Reachable cc Links.all) (hl : ∀ j ∈ L, Low (cand cc n pr i) j c)
    (hB : ∀ j ∈ L, j ≠ i → Led (cand cc n pr i) c ∨ Bids (cand cc n pr i) j (Somewhere (cand cc n pr i)) c) : Led (cand cc n pr i) c2 := by
  have hL := hqa.members
  by_cases hN : Led (cand cc n pr i) c2
  · exact hN
  · exfalso
    have key := fun j hj hne => (Trek.holds hb1 hb2 t1 t2 hL hi hj hne hb hr (hl j hj) (hB j hj hne)).resolve_left hN
    obtain ⟨oi, hoi, -⟩ := t2.hunt_end.bles i (hL i hi)
    obtain ⟨x, hx, hxi⟩ := hqa.other hv i
    obtain ⟨-, hA, -⟩ := key x hx hxi oi hoi
    obtain ⟨G, h1⟩ := (t2.reachable hL (t1.reachable hL hr)).inv
    obtain ⟨lg, hC, hR⟩ := h1.toCInv.up hoi
    unfold RoleInv at hR
    rw [hA.role, hA.phase] at hR
    have h2 := hA.noq L hqp.distinct (fun y hy => ?_) ⟨x, hx, hxi⟩
    · have h3 := hqp.is_quorum (Nat.le_refl L.length)
      have h4 : (SP.peersOf cc.nodes i).length + 1 = cc.nodes.length := length_filter_ne hd (hL i hi)
      rw [hC.quorum, quorumAt, h4, h3] at h2
      cases h2
    · by_cases e : y = i
      · subst e
        obtain ⟨m, hm, -⟩ := hR.self
        exact ⟨m, hm⟩
      · exact (key y hy e oi hoi).2.2

theorem Cluster.Reachable.peered (hr : c.Reachable cc Links.all) : c.Peered cc := by
  intro i hi op hop
  obtain ⟨G, h1⟩ := hr.inv
  obtain ⟨lg, hC, -⟩ := h1.toCInv.up hop
  exact hC.peers

/-- The others have a new leader, which has been prepared; also later. -/
theorem oust_prepared {k e f : Nat} (hv : cc.validate = .ok ()) (hd : cc.nodes.Nodup) (h0 : c.Reachable cc Links.all) (h : c.Settled cc n k) (hl : c.Loyal cc n) (hc : c.Current cc)
    (hu : c.Under cc n) (hw : c.Wound cc f)
    (he : ∀ i ∈ cc.nodes, ∀ op, c.servers i = .up op → op.election_clock.timeout ≤ e) {xs ys : List (List (Action E S))} (h1 : Cluster.Beats cc c xs c1)
    (hn : n.pid ∉ L) (hqa : AcceptQuorum cc L) (hqp : PrepareQuorum cc L) (h2 : Cluster.LBeats cc L c1 ys c2) (hy : 9 * e + 4 ≤ ys.length) (ho : ∀ a ∈ ys.flatten, a.Of cc L)
    (hup : ∀ i ∈ L, ∃ op, c2.servers i = .up op) :
    ∃ pr i, i ∈ L ∧ ∀ zs c3, Cluster.LBeats cc L c2 zs c3 → (∀ a ∈ zs.flatten, a.Of cc L) → (∀ i ∈ L, ∃ op, c3.servers i = .up op) → ∃ bl3, Hunt cc n L pr c3 bl3 ∧
        Crowned cc n L pr i bl3 c3.net ∧ (∀ x ∈ L, Low (cand cc n pr i) x c3) ∧ (∀ j, Herald cc n (cand cc n pr i) j c3) ∧ Led (cand cc n pr i) c3 ∧ c3.Reachable cc Links.all := by
  have hL := hqa.members
  obtain ⟨y1, y2, rfl, hy1⟩ : ∃ x y, ys = x ++ y ∧ x.length = 9 * e + 2 := ⟨ys.take (9 * e + 2), ys.drop (9 * e + 2), (List.take_append_drop ..).symm, by rw [List.length_take]; omega⟩
  have hy2 : 2 ≤ y2.length := by rw [List.length_append] at hy; omega
  obtain ⟨cm, k1, k2⟩ := h2.split
  rw [List.flatten_append] at ho
  have o1 : ∀ a ∈ y1.flatten, a.Of cc L := fun a ha => ho a (List.mem_append_left _ ha)
  have o2 : ∀ a ∈ y2.flatten, a.Of cc L := fun a ha => ho a (List.mem_append_right _ ha)
  have ⟨pre, hpre⟩ := h0.arisen
  obtain ⟨bl, pr, i, blm, hi, V1, T1, hC, hlow, -, t3⟩ := oust_promised hv hd hpre h hl hc hu h0.peered hw he h1 hn hqa hqp k1 (by omega) o1 fun i hi => by
    obtain ⟨op, u⟩ := hup i hi
    exact up_back (fun a ha => (o2 a ha).calm hL) k2.run u
  have r1 : c1.Reachable cc Links.all := h0.run (fun a ha => (h1.live hL).calm a ha) h1.run
  have rm := T1.reachable hL r1
  have bm : Best cc n L pr i blm := fun j hj hm => hC.s7.top j hj hm
  have hB : ∀ j ∈ L, j ≠ i → Led (cand cc n pr i) cm ∨ Bids (cand cc n pr i) j (Somewhere (cand cc n pr i)) cm := fun j hj hne =>
    T1.bids hL hi hj hne bm r1 (.inr (V1.bids (lt_cand i) (hL i hi) (hL j hj)))
  refine ⟨pr, i, hi, fun zs c3 h3 ho3 hup3 => ?_⟩
  obtain ⟨bl2, bl3, T, q1, q2, q3⟩ := t3 (y2 ++ zs) c3 (k2.append h3) (by rw [List.flatten_append]; exact fun a ha => (List.mem_append.1 ha).elim (o2 a) (ho3 a)) hup3
  refine ⟨bl3, T.hunt_end, q1, q2, q3, ?_, T.reachable hL rm⟩
  have b3 : Best cc n L pr i bl3 := fun j hj hm => q1.s7.top j hj hm
  obtain ⟨b1, z2, rfl⟩ : ∃ x y, y2 = x :: y := by
    cases y2 with
    | nil => simp at hy2
    | cons x y => exact ⟨x, y, rfl⟩
  obtain ⟨b2, z3, rfl⟩ : ∃ x y, z2 = x :: y := by
    cases z2 with
    | nil => simp at hy2
    | cons x y => exact ⟨x, y, rfl⟩
  cases k2 with
  | @cons _ ca _ _ _ g1 r1 k2 =>
  cases k2 with
  | @cons _ cb _ _ _ g2 r2 k2 =>
  simp only [List.cons_append, List.flatten_cons] at T
  obtain ⟨ca', bla, u1, T⟩ := T.split
  obtain rfl : ca = ca' := Option.some.inj (r1.symm.trans u1.run)
  obtain ⟨cb', blb, u2, T⟩ := T.split
  obtain rfl : cb = cb' := Option.some.inj (r2.symm.trans u2.run)
  exact T.led hL (u2.reachable hL (u1.reachable hL rm)) (Trek.leads hv hd hqa hqp g1 g2 u1 u2 hi (T.best b3) rm hlow hB)

end Omni
