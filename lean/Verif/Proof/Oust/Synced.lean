import Verif.Proof.Oust.Road
import Verif.Proof.Safety.Conclude
/-
All that are left accept in the ballot of the new leader.
-/
namespace Omni

variable {E S : Type} [SnapOps E S] {cc : ClusterConfig} {n W : Ballot} {L : List NodeId} {pr : NodeId → Nat}
variable {c c1 c2 c' : Cluster E S} {bl bl' : NodeId → BLE} {as : List (Action E S)} {i j k : NodeId}

section lanes
omit [SnapOps E S]
variable {p : PaxosMessage E S → Prop}

def Anywhere (p : PaxosMessage E S → Prop) : Lane E S := fun net out => ∃ x ∈ paxOf net ++ out, p x

/-- Among the next `N` messages of the link. -/
def Soon (p : PaxosMessage E S → Prop) (N : Nat) : Lane E S := fun net _ => ∃ x ∈ paxOf (net.take N), p x

def Nowhere : Lane E S := fun _ _ => False

theorem Anywhere.tide (b : Bool) : Tide p (Anywhere p) (Anywhere p) b where
  keep _ net out out' h hk := by
    obtain ⟨x, hx, hp⟩ := h
    exact ⟨x, (List.mem_append.1 hx).elim (List.mem_append_left _) fun h => List.mem_append_right _ (hk x h hp), hp⟩
  take _ net new out h e := by
    obtain ⟨x, hx, hp⟩ := h
    exact ⟨x, by rw [paxOf_append, e, List.append_nil]; exact hx, hp⟩
  tail _ m net out h := by
    obtain ⟨x, hx, hp⟩ := h
    cases m with
    | ble b => exact .inr ⟨x, by simpa [paxOf] using hx, hp⟩
    | paxos z =>
      have hx : x ∈ z :: (paxOf net ++ out) := by simpa [paxOf] using hx
      rcases List.mem_cons.1 hx with rfl | hx
      · exact .inl ⟨x, rfl, hp⟩
      · exact .inr ⟨x, hx, hp⟩

theorem Nowhere.tide (b : Bool) : Tide p (Nowhere : Lane E S) Nowhere b where
  keep _ _ _ _ h _ := h
  take _ _ _ _ h _ := h
  tail _ _ _ _ h := h.elim

theorem Soon.tide (N : Nat) : ∀ b : Bool, Tide p (Soon p N : Lane E S) (Soon p (N - b.toNat)) b
  | false => {
    keep := fun _ _ _ _ h _ => h
    take := by
      rintro - net new out ⟨x, hx, hp⟩ -
      refine ⟨x, ?_, hp⟩
      simp only [Bool.toNat_false, Nat.sub_zero, List.take_append, paxOf_append]
      exact List.mem_append_left _ hx
    tail := nofun }
  | true => {
    keep := nofun
    take := nofun
    tail := by
      rintro - m net out ⟨x, hx, hp⟩
      cases N with
      | zero => simp [paxOf] at hx
      | succ N =>
        rw [List.take_succ_cons] at hx
        cases m with
        | ble b => exact .inr ⟨x, by simpa [paxOf] using hx, hp⟩
        | paxos z =>
          have hx : x ∈ z :: paxOf (net.take N) := by simpa [paxOf] using hx
          rcases List.mem_cons.1 hx with rfl | hx
          · exact .inl ⟨x, rfl, hp⟩
          · exact .inr ⟨x, hx, hp⟩ }

theorem Soon.of_anywhere {net : List (Message E S)} (h : Anywhere p net []) (out : List (PaxosMessage E S)) : Soon p net.length net out := by
  obtain ⟨x, hx, hp⟩ := h
  exact ⟨x, by rw [List.take_length]; simpa using hx, hp⟩

theorem Soon.fit {N : Nat} {net : List (Message E S)} {out : List (PaxosMessage E S)} (h : Soon p N net out) : Soon p net.length net out := by
  obtain ⟨x, hx, hp⟩ := h
  refine ⟨x, ?_, hp⟩
  rw [List.take_length]
  simp only [paxOf, List.mem_filterMap] at hx ⊢
  obtain ⟨y, hy, e⟩ := hx
  exact ⟨y, List.mem_of_mem_take hy, e⟩

theorem Soon.zero {net : List (Message E S)} {out : List (PaxosMessage E S)} (h : Soon p 0 net out) : Nowhere net out := by
  obtain ⟨x, hx, -⟩ := h
  simp [paxOf] at hx

end lanes

theorem Road.mono {RA RB RA' RB' : Lane E S} (h : Road W j RA RB c) (hA : ∀ op, c.servers j = .up op → RA (c.net j W.pid) (op.out W.pid) → RA' (c.net j W.pid) (op.out W.pid))
    (hB : ∀ oi, c.servers W.pid = .up oi → RB (c.net W.pid j) (oi.out j) → RB' (c.net W.pid j) (oi.out j)) : Road W j RA' RB' c :=
  fun op oi h1 h2 h3 h4 => (h op oi h1 h2 h3 h4).imp id fun h => ⟨h.1, h.2.imp (hA op h1) (hB oi h2)⟩

/-- The leader has won and has not given up. -/
theorem Led.wins (hL : Led W c) (hT : Capped cc W c) (hh : Herald cc n W j c) {oi : OP E S} (hoi : c.servers W.pid = .up oi) : Won W oi.sp := by
  have h0 : LedAt W W.pid c := hL
  have hp : oi.sp.ist.cache.promise = W := by
    obtain ⟨G, h1⟩ := hT.reach.inv
    obtain ⟨lg, hC, -⟩ := h1.toCInv.up hoi
    refine hT.top _ hT.node oi hoi ?_
    unfold LedAt at h0
    rw [hoi] at h0
    rw [hC.mir.prom]
    exact Ballot.le_trans h0 hC.disk.le
  obtain ⟨h1, h2, -⟩ := (hh W.pid hT.node oi hoi).ann rfl hp
  exact ⟨h1, hL.won hT hoi h1 h2, h2⟩

/-- Before and after the leader wins. -/
theorem Trek.roads (h : Trek cc n L pr c bl as c' bl') (hL : ∀ x ∈ L, x ∈ cc.nodes) (hi : i ∈ L) (hj : j ∈ L) (hne : j ≠ i) (hb : Best cc n L pr i bl') (hr : c.Reachable cc Links.all)
    (hh : Herald cc n (cand cc n pr i) j c)
    (hB : Led (cand cc n pr i) c ∨ Bids (cand cc n pr i) j (Somewhere (cand cc n pr i)) c)
    (hR : Road (cand cc n pr i) j (Anywhere (IsProm (cand cc n pr i))) (Anywhere (IsSync (cand cc n pr i))) c) :
    Road (cand cc n pr i) j (Anywhere (IsProm (cand cc n pr i))) (Anywhere (IsSync (cand cc n pr i))) c' := by
  induction h with
  | nil => exact hR
  | @cons c c1 c2 bl bl1 bl2 a as m t ih =>
    have ha := m.of.calm hL
    have b1 := t.best hb
    have hr1 := hr.step ha m.step
    obtain ⟨pre, hp⟩ := hr.arisen
    have hT := m.before.capped hr (fun j hj hm => b1 j hj (m.made hm)) (hL i hi)
    have hT' := m.after.capped hr1 b1 (hL i hi)
    have fA : ∀ net out, (∃ x ∈ paxOf net ++ out, IsProm (cand cc n pr i) x) → Anywhere (E := E) (S := S) (IsProm (cand cc n pr i)) net out := fun _ _ h => h
    have fB : ∀ net out, (∃ x ∈ out, IsSync (cand cc n pr i) x) → Anywhere (E := E) (S := S) (IsSync (cand cc n pr i)) net out := fun _ _ ⟨x, h1, h2⟩ => ⟨x, List.mem_append_right _ h1, h2⟩
    refine ih hb hr1 (hh.step (lt_cand i) hp ha m.step).1 ?_ ?_
    · rcases hB with hB | hB
      · exact .inl (hB.step hr ha m.step)
      · refine hB.step (hL j hj) hne (Somewhere.flow _) hT hT' (.inl ?_) ha m.step
        intro net out z P hz
        exact .inl ⟨paxOf net ++ out, z, [], by simp, hz, nofun⟩
    · rcases hB with hB | hB
      · exact hR.later (hL j hj) hne (Anywhere.tide _) (Anywhere.tide _) hT hT' (.inl fA) (.inl fB) (fun oi u => hB.wins hT hh u) ha m.step
      · exact hB.road (hL j hj) hne hT hT' fA fB ha m.step

/-- After that. -/
theorem Trek.road {FA FB : Nat → Lane E S} (h : Trek cc n L pr c bl as c' bl') (hL : ∀ x ∈ L, x ∈ cc.nodes) (hi : i ∈ L) (hj : j ∈ L) (hne : j ≠ i) (hb : Best cc n L pr i bl')
    (hA : ∀ N b, Tide (IsProm (cand cc n pr i)) (FA N) (FA (N - b.toNat)) b) (hB : ∀ N b, Tide (IsSync (cand cc n pr i)) (FB N) (FB (N - b.toNat)) b)
    (f2 : (∀ N net out, (∃ x ∈ out, IsSync (cand cc n pr i) x) → FB N net out) ∨ ∀ N net out, ¬ FA N net out)
    (hr : c.Reachable cc Links.all) (hh : Herald cc n (cand cc n pr i) j c) (hl : Low (cand cc n pr i) j c) (hw : Led (cand cc n pr i) c) {x y : Nat}
    (hR : Road (cand cc n pr i) j (FA x) (FB y) c) :
    Road (cand cc n pr i) j (FA (x - as.countP (Action.isDelivery j i))) (FB (y - as.countP (Action.isDelivery i j))) c' := by
  induction h generalizing x y with
  | nil => exact hR
  | @cons c c1 c2 bl bl1 bl2 a as m t ih =>
    have ha := m.of.calm hL
    have b1 := t.best hb
    have hr1 := hr.step ha m.step
    obtain ⟨pre, hp⟩ := hr.arisen
    have hT := m.before.capped hr (fun j hj hm => b1 j hj (m.made hm)) (hL i hi)
    have hT' := m.after.capped hr1 b1 (hL i hi)
    have := ih hb hr1 (hh.step (lt_cand i) hp ha m.step).1 (hl.step hp ha m.step) (hw.step hr ha m.step)
      (hR.later (hL j hj) hne (hA x _) (hB y _) hT hT' (.inr hl) (f2.imp (fun f => f _) fun f => f _) (fun oi u => hw.wins hT hh u) ha m.step)
    have e : ∀ (z : Nat) (s t : NodeId), z - (a :: as).countP (Action.isDelivery s t) = z - (a.isDelivery s t).toNat - as.countP (Action.isDelivery s t) := by
      intro z s t
      rw [List.countP_cons]
      cases a.isDelivery s t <;> simp <;> omega
    rw [e, e]
    exact this

/-- Nothing waits at a server after its messages have been taken. -/
theorem Trek.emptied (h : Trek cc n L pr c bl (as ++ [.take j]) c' bl') (hj : j ∈ cc.nodes) {op : OP E S} (hop : c'.servers j = .up op) : op.out i = [] := by
  obtain ⟨c0, bl0, v1, v2⟩ := h.split
  obtain ⟨op0, u0, -⟩ := v1.hunt_end.bles j hj
  have hs := v2.run
  simp only [Cluster.run, Cluster.step, u0, Option.some.injEq] at hs
  have hc : c' = c0.taken j op0 := hs.symm
  rw [hc, Cluster.taken_self] at hop
  cases hop
  rfl

section stages
variable {b1 b2 : List (Action E S)} {bl1 bl2 : NodeId → BLE}

/-- The promise arrives within two beats. -/
theorem Trek.answered (hb1 : c.LBeat cc L b1) (hb2 : c1.LBeat cc L b2) (t1 : Trek cc n L pr c bl b1 c1 bl1) (t2 : Trek cc n L pr c1 bl1 b2 c2 bl2)
    (hL : ∀ x ∈ L, x ∈ cc.nodes) (hi : i ∈ L) (hj : j ∈ L) (hne : j ≠ i) (hb : Best cc n L pr i bl2) (hr : c.Reachable cc Links.all) (hh : Herald cc n (cand cc n pr i) j c)
    (hl : Low (cand cc n pr i) j c) (hw : Led (cand cc n pr i) c)
    (hR : Road (cand cc n pr i) j (Anywhere (IsProm (cand cc n pr i))) (Anywhere (IsSync (cand cc n pr i))) c) :
    Road (cand cc n pr i) j Nowhere (Anywhere (IsSync (cand cc n pr i))) c2 := by
  have hr1 := t1.reachable hL hr
  have bb1 := t2.best hb
  have fB : ∀ (N : Nat) net out, (∃ x ∈ out, IsSync (cand cc n pr i) x) → Anywhere (E := E) (S := S) (IsSync (cand cc n pr i)) net out := fun _ _ _ ⟨x, h1, h2⟩ => ⟨x, List.mem_append_right _ h1, h2⟩
  have s1 : ∃ N, Road (cand cc n pr i) j (Soon (IsProm (cand cc n pr i)) N) (Anywhere (IsSync (cand cc n pr i))) c1 := by
    have tt := t1
    obtain ⟨p, q, rfl⟩ := List.append_of_mem (hb1.taken j hj)
    rw [List.append_cons] at tt
    obtain ⟨cx, blx, u1, u2⟩ := tt.split
    have hbx := u2.best bb1
    have hrx := u1.reachable hL hr
    have h1 := u1.road (FA := fun _ => Anywhere (IsProm (cand cc n pr i))) (FB := fun _ => Anywhere (IsSync (cand cc n pr i))) hL hi hj hne hbx (fun _ b => Anywhere.tide b)
      (fun _ b => Anywhere.tide b) (.inl fB) hr hh hl hw (x := 0) (y := 0) hR
    have h2 := h1.mono (RA' := Soon (IsProm (cand cc n pr i)) (cx.net j i).length) (RB' := Anywhere (IsSync (cand cc n pr i))) (fun op u h => by
      have e1 : op.out (cand cc n pr i).pid = [] := u1.emptied (hL j hj) u
      rw [e1] at h ⊢
      exact Soon.of_anywhere h _) fun _ _ h => h
    exact ⟨_, u2.road (FA := fun N => Soon (IsProm (cand cc n pr i)) N) (FB := fun _ => Anywhere (IsSync (cand cc n pr i))) hL hi hj hne bb1 Soon.tide
      (fun _ b => Anywhere.tide b) (.inl fB) hrx (u1.herald hL hr.arisen (lt_cand i) hh).1 (u1.low hL hr.arisen hl) (u1.led hL hr hw) (y := 0) h2⟩
  obtain ⟨N, h⟩ := s1
  have h' := h.mono (RA' := Soon (IsProm (cand cc n pr i)) (c1.net j i).length) (RB' := Anywhere (IsSync (cand cc n pr i))) (fun _ _ h => h.fit) fun _ _ h => h
  have h2 := t2.road (FA := fun N => Soon (IsProm (cand cc n pr i)) N) (FB := fun _ => Anywhere (IsSync (cand cc n pr i))) hL hi hj hne hb Soon.tide
      (fun _ b => Anywhere.tide b) (.inl fB) hr1 (t1.herald hL hr.arisen (lt_cand i) hh).1 (t1.low hL hr.arisen hl) (t1.led hL hr hw) (y := 0) h'
  simp only [Nat.sub_eq_zero_of_le (hb2.delivered j (hL j hj) i hi)] at h2
  exact h2.mono (fun _ _ h => h.zero) fun _ _ h => h

/-- The AcceptSync arrives within two beats. -/
theorem Trek.joined (hb1 : c.LBeat cc L b1) (hb2 : c1.LBeat cc L b2) (t1 : Trek cc n L pr c bl b1 c1 bl1) (t2 : Trek cc n L pr c1 bl1 b2 c2 bl2)
    (hL : ∀ x ∈ L, x ∈ cc.nodes) (hi : i ∈ L) (hj : j ∈ L) (hne : j ≠ i) (hb : Best cc n L pr i bl2) (hr : c.Reachable cc Links.all) (hh : Herald cc n (cand cc n pr i) j c)
    (hl : Low (cand cc n pr i) j c) (hw : Led (cand cc n pr i) c)
    (hR : Road (cand cc n pr i) j Nowhere (Anywhere (IsSync (cand cc n pr i))) c) : LedAt (cand cc n pr i) j c2 := by
  have hr1 := t1.reachable hL hr
  have hr2 := t2.reachable hL hr1
  have bb1 := t2.best hb
  have s1 : ∃ N, Road (cand cc n pr i) j Nowhere (Soon (IsSync (cand cc n pr i)) N) c1 := by
    have tt := t1
    obtain ⟨p, q, rfl⟩ := List.append_of_mem (hb1.taken i hi)
    rw [List.append_cons] at tt
    obtain ⟨cx, blx, u1, u2⟩ := tt.split
    have hbx := u2.best bb1
    have hrx := u1.reachable hL hr
    have h1 := u1.road (FA := fun _ => Nowhere) (FB := fun _ => Anywhere (IsSync (cand cc n pr i))) hL hi hj hne hbx (fun _ b => Nowhere.tide b)
      (fun _ b => Anywhere.tide b) (.inr fun _ _ _ => id) hr hh hl hw (x := 0) (y := 0) hR
    have h2 := h1.mono (RA' := Nowhere) (RB' := Soon (IsSync (cand cc n pr i)) (cx.net i j).length) (fun _ _ h => h) (fun op u h => by
      have e1 : op.out j = [] := u1.emptied (hL i hi) u
      rw [e1] at h ⊢
      exact Soon.of_anywhere h _)
    exact ⟨_, u2.road (FA := fun _ => Nowhere) (FB := fun N => Soon (IsSync (cand cc n pr i)) N) hL hi hj hne bb1 (fun _ b => Nowhere.tide b) Soon.tide
      (.inr fun _ _ _ => id) hrx (u1.herald hL hr.arisen (lt_cand i) hh).1 (u1.low hL hr.arisen hl) (u1.led hL hr hw) (x := 0) h2⟩
  obtain ⟨N, h⟩ := s1
  have h' := h.mono (RA' := Nowhere) (RB' := Soon (IsSync (cand cc n pr i)) (c1.net i j).length) (fun _ _ h => h) fun _ _ h => h.fit
  have hh1 := (t1.herald hL hr.arisen (lt_cand i) hh).1
  have hl1 := t1.low hL hr.arisen hl
  have hw1 := t1.led hL hr hw
  have h2 := t2.road (FA := fun _ => Nowhere) (FB := fun N => Soon (IsSync (cand cc n pr i)) N) hL hi hj hne hb (fun _ b => Nowhere.tide b) Soon.tide
      (.inr fun _ _ _ => id) hr1 hh1 hl1 hw1 (x := 0) h'
  simp only [Nat.sub_eq_zero_of_le (hb2.delivered i (hL i hi) j hj)] at h2
  have hT := t2.hunt_end.capped hr2 hb (hL i hi)
  obtain ⟨op, hop, -⟩ := t2.hunt_end.bles j (hL j hj)
  obtain ⟨oi, hoi, -⟩ := t2.hunt_end.bles i (hL i hi)
  have hw2 := (t2.led hL hr1 hw1).wins hT (t2.herald hL hr1.arisen (lt_cand i) hh1).1 hoi
  rcases h2 op oi hop hoi hw2 (hT.top j (hL j hj) op hop (t2.low hL hr1.arisen hl1 op hop)) with h | ⟨-, h | h⟩
  · exact h
  · exact h.elim
  · exact h.zero.elim

end stages

theorem Trek.ledAt (h : Trek cc n L pr c bl as c' bl') (hL : ∀ x ∈ L, x ∈ cc.nodes) (hr : c.Reachable cc Links.all) (hB : LedAt W k c) : LedAt W k c' := by
  induction h with
  | nil => exact hB
  | cons m _ ih => exact ih (hr.step (m.of.calm hL) m.step) (hB.step hr (m.of.calm hL) m.step)

/-- And in no other ballot. -/
theorem Hunt.joined (h : Hunt cc n L pr c bl) (hb : Best cc n L pr i bl) (hr : c.Reachable cc Links.all) (hk : k ∈ cc.nodes) (ha : LedAt (cand cc n pr i) k c) {op : OP E S}
    (hop : c.servers k = .up op) : op.sp.ist.cache.accepted_round = cand cc n pr i ∧ op.sp.ist.storage.acc_round = some (cand cc n pr i) := by
  have h1 := ha.up hr hop
  have e : op.sp.ist.cache.accepted_round = cand cc n pr i := by
    rcases (h.vouched.servers k hk op hop).ist.cacc with e | e | ⟨x, hx, e, hm⟩
    · have e : op.sp.ist.cache.accepted_round = {} := e
      rw [e] at h1
      exact absurd (Ballot.le_trans h1 (Ballot.default_le n)) (not_cand_le i)
    · exact absurd (Ballot.le_trans h1 e) (not_cand_le i)
    · have e : op.sp.ist.cache.accepted_round = cand cc n pr x := e
      rw [e] at h1 ⊢
      exact cand_antisymm (hb x hx hm) h1
  refine ⟨e, ?_⟩
  obtain ⟨G, h2⟩ := hr.inv
  obtain ⟨lg, hC, -⟩ := h2.toCInv.up hop
  have h3 := hC.mir.acc
  rw [e] at h3
  cases h4 : op.sp.ist.storage.acc_round with
  | none =>
    rw [h4] at h3
    have h3 : cand cc n pr i = {} := h3
    exact absurd (by rw [h3]; exact Ballot.default_le n) (not_cand_le (cc := cc) (n := n) (pr := pr) i)
  | some b => rw [h4] at h3; rw [h3]; rfl

theorem Cluster.Reachable.both (hr : c.Reachable cc Links.all) (ha : ∀ a ∈ as, a.Calm cc) (hs : c.run cc as = some c') : ∃ G G', Mono G G' ∧ RInv cc c G Links.all ∧ RInv cc c' G' Links.all := by
  obtain ⟨G, h⟩ := hr.inv
  have key : ∀ {as : List (Action E S)} {c : Cluster E S} {G : Ghost E}, RInv cc c G Links.all → (∀ a ∈ as, a.Calm cc) → c.run cc as = some c' → ∃ G', Mono G G' ∧ RInv cc c' G' Links.all := by
    intro as
    induction as with
    | nil => intro c G h _ hs; cases hs; exact ⟨G, .refl _, h⟩
    | cons a as ih =>
      intro c G h ha hs
      simp only [Cluster.run] at hs
      cases h1 : c.step cc a with
      | none => rw [h1] at hs; cases hs
      | some c1 =>
        rw [h1] at hs
        obtain ⟨G1, m1, k1⟩ := h.step (ha a (List.mem_cons_self ..)).tidy h1
        obtain ⟨G2, m2, k2⟩ := ih k1 (fun b hb => ha b (List.mem_cons_of_mem _ hb)) hs
        exact ⟨G2, m1.trans m2, k2⟩
  obtain ⟨G', m, h'⟩ := key h ha hs
  exact ⟨G, G', m, h, h'⟩

/-- Who has accepted in a greater ballot has all that was decided before. -/
theorem LedAt.kept (hv : cc.validate = .ok ()) (hr : c.Reachable cc Links.all) (ha : ∀ a ∈ as, a.Calm cc) (hs : c.run cc as = some c') (hV : Vouched (· ≤ n) cc c) (hn : n < W)
    (h : LedAt W k c') (hj : j ∈ cc.nodes) {o op : OP E S} (ho : c.servers j = .up o) (hop : c'.servers k = .up op) {p : Nat} (hp : p < o.sp.ist.storage.ld) :
    op.sp.ist.storage.HasPos p ∧ op.sp.ist.storage.Keeps o.sp.ist.storage p := by
  obtain ⟨G, G', hm, hG, hG'⟩ := hr.both ha hs
  obtain ⟨lg, hC, -⟩ := hG.toCInv.up ho
  obtain ⟨lg', hC', -⟩ := hG'.toCInv.up hop
  have h1 : o.sp.ist.storage.acc_round.getD {} ≤ n := by
    rw [← hC.mir.acc]
    rcases (hV.servers j hj o ho).ist.cacc with e | e
    · have e : o.sp.ist.cache.accepted_round = {} := e
      rw [e]
      exact Ballot.default_le n
    · exact e
  have h2 : W ≤ op.sp.ist.storage.acc_round.getD {} := by
    unfold LedAt at h
    rw [hop] at h
    exact h
  obtain ⟨l, k1, k2, k3⟩ := hC.disk.dec.cut
  have hle : l ≤ lg' := by
    rcases k3 with ⟨-, rfl⟩ | ⟨b, hb, hc⟩
    · exact Lg.bot_le _
    · exact hC'.disk.chosen_le hG'.abs ((hc.mono hm).fixed hv) (.inl (Ballot.lt_of_lt_of_le (Ballot.lt_of_le_of_lt (Ballot.le_trans hb h1) hn) h2))
  exact ⟨hC'.disk.hasPos hle k2 hp, hC.disk.keeps hC'.disk k1 hle k2 hp⟩

/-- At the start nobody has promised. -/
theorem Vouched.road (h : Vouched (· ≤ n) cc c) (hn : n < W) (hj : j ∈ cc.nodes) {RA RB : Lane E S} : Road W j RA RB c := by
  intro op oi hop _ _ e
  exfalso
  have h1 : op.sp.ist.cache.promise ≤ n := by
    rcases (h.servers j hj op hop).ist.cprom with e | e
    · have e : op.sp.ist.cache.promise = {} := e
      rw [e]
      exact Ballot.default_le n
    · exact e
  rw [e] at h1
  exact Ballot.lt_irrefl _ (Ballot.lt_of_lt_of_le hn h1)

/-- The others have a new leader and have accepted in its ballot; also later. -/
theorem oust_synced {k e f : Nat} (hv : cc.validate = .ok ()) (hd : cc.nodes.Nodup) (h0 : c.Reachable cc Links.all) (h : c.Settled cc n k) (hl : c.Loyal cc n) (hc : c.Current cc)
    (hu : c.Under cc n) (hw : c.Wound cc f)
    (he : ∀ i ∈ cc.nodes, ∀ op, c.servers i = .up op → op.election_clock.timeout ≤ e) {xs ys : List (List (Action E S))} (h1 : Cluster.Beats cc c xs c1)
    (hn : n.pid ∉ L) (hqa : AcceptQuorum cc L) (hqp : PrepareQuorum cc L) (h2 : Cluster.LBeats cc L c1 ys c2) (hy : 9 * e + 8 ≤ ys.length) (ho : ∀ a ∈ ys.flatten, a.Of cc L)
    (hup : ∀ i ∈ L, ∃ op, c2.servers i = .up op) :
    ∃ pr i, i ∈ L ∧ Vouched (· ≤ n) cc c1 ∧ c1.Reachable cc Links.all ∧ ∀ zs c3, Cluster.LBeats cc L c2 zs c3 → (∀ a ∈ zs.flatten, a.Of cc L) → (∀ i ∈ L, ∃ op, c3.servers i = .up op) → ∃ bl3, Hunt cc n L pr c3 bl3 ∧
        Crowned cc n L pr i bl3 c3.net ∧ (∀ x ∈ L, Low (cand cc n pr i) x c3) ∧ (∀ j, Herald cc n (cand cc n pr i) j c3) ∧ (∀ x ∈ L, LedAt (cand cc n pr i) x c3) ∧
        c3.Reachable cc Links.all := by
  have hL := hqa.members
  obtain ⟨y1, y2, rfl, hy1⟩ : ∃ x y, ys = x ++ y ∧ x.length = 9 * e + 2 := ⟨ys.take (9 * e + 2), ys.drop (9 * e + 2), (List.take_append_drop ..).symm, by rw [List.length_take]; omega⟩
  have hy2 : 6 ≤ y2.length := by rw [List.length_append] at hy; omega
  obtain ⟨cm, k1, k2⟩ := h2.split
  rw [List.flatten_append] at ho
  have o1 : ∀ a ∈ y1.flatten, a.Of cc L := fun a ha => ho a (List.mem_append_left _ ha)
  have o2 : ∀ a ∈ y2.flatten, a.Of cc L := fun a ha => ho a (List.mem_append_right _ ha)
  have ⟨pre, hpre⟩ := h0.arisen
  obtain ⟨bl, pr, i, blm, hi, V1, T1, hC, hlow, hhm, t3⟩ := oust_promised hv hd hpre h hl hc hu h0.peered hw he h1 hn hqa hqp k1 (by omega) o1 fun i hi => by
    obtain ⟨op, u⟩ := hup i hi
    exact up_back (fun a ha => (o2 a ha).calm hL) k2.run u
  have r1 : c1.Reachable cc Links.all := h0.run (fun a ha => (h1.live hL).calm a ha) h1.run
  have rm := T1.reachable hL r1
  have bm : Best cc n L pr i blm := fun j hj hm => hC.s7.top j hj hm
  have hh1 : ∀ j, Herald cc n (cand cc n pr i) j c1 := fun j => ((h.herald hu h0.peered (lt_cand i)).run (lt_cand i) hpre (fun a ha => (h1.live hL).calm a ha) h1.run).1
  have B1 : ∀ j ∈ L, Bids (cand cc n pr i) j (Somewhere (cand cc n pr i)) c1 := fun j hj => V1.bids (lt_cand i) (hL i hi) (hL j hj)
  have hB : ∀ j ∈ L, j ≠ i → Led (cand cc n pr i) cm ∨ Bids (cand cc n pr i) j (Somewhere (cand cc n pr i)) cm := fun j hj hne =>
    T1.bids hL hi hj hne bm r1 (.inr (B1 j hj))
  have R1 : ∀ j ∈ L, j ≠ i → Road (cand cc n pr i) j (Anywhere (IsProm (cand cc n pr i))) (Anywhere (IsSync (cand cc n pr i))) cm := fun j hj hne =>
    T1.roads hL hi hj hne bm r1 (hh1 j) (.inr (B1 j hj)) (V1.road (lt_cand i) (hL j hj))
  refine ⟨pr, i, hi, V1, r1, fun zs c3 h3 ho3 hup3 => ?_⟩
  obtain ⟨bl2, bl3, T, q1, q2, q3⟩ := t3 (y2 ++ zs) c3 (k2.append h3) (by rw [List.flatten_append]; exact fun a ha => (List.mem_append.1 ha).elim (o2 a) (ho3 a)) hup3
  refine ⟨bl3, T.hunt_end, q1, q2, q3, ?_, T.reachable hL rm⟩
  have bend : Best cc n L pr i bl3 := fun j hj hm => q1.s7.top j hj hm
  match y2, hy2 with
  | b1 :: b2 :: b3 :: b4 :: b5 :: b6 :: z, _ =>
  cases k2 with
  | @cons _ ca _ _ _ g1 p1 k2 =>
  cases k2 with
  | @cons _ cb _ _ _ g2 p2 k2 =>
  cases k2 with
  | @cons _ cd _ _ _ g3 p3 k2 =>
  cases k2 with
  | @cons _ ce _ _ _ g4 p4 k2 =>
  cases k2 with
  | @cons _ cf _ _ _ g5 p5 k2 =>
  cases k2 with
  | @cons _ cg _ _ _ g6 p6 k2 =>
  simp only [List.cons_append, List.flatten_cons] at T
  obtain ⟨x, bla, u1, T⟩ := T.split
  obtain rfl : ca = x := Option.some.inj (p1.symm.trans u1.run)
  obtain ⟨x, blb, u2, T⟩ := T.split
  obtain rfl : cb = x := Option.some.inj (p2.symm.trans u2.run)
  obtain ⟨x, bld, u3, T⟩ := T.split
  obtain rfl : cd = x := Option.some.inj (p3.symm.trans u3.run)
  obtain ⟨x, ble, u4, T⟩ := T.split
  obtain rfl : ce = x := Option.some.inj (p4.symm.trans u4.run)
  obtain ⟨x, blf, u5, T⟩ := T.split
  obtain rfl : cf = x := Option.some.inj (p5.symm.trans u5.run)
  obtain ⟨x, blg, u6, T⟩ := T.split
  obtain rfl : cg = x := Option.some.inj (p6.symm.trans u6.run)
  have d6 := T.best bend
  have d4 := u5.best (u6.best d6)
  have d2 := u3.best (u4.best d4)
  have ra := u1.reachable hL rm
  have rb := u2.reachable hL ra
  have rd := u3.reachable hL rb
  have re := u4.reachable hL rd
  have rf := u5.reachable hL re
  have rg := u6.reachable hL rf
  have wb := Trek.leads hv hd hqa hqp g1 g2 u1 u2 hi d2 rm hlow hB
  have we := u4.led hL rd (u3.led hL rb wb)
  intro j hj
  refine T.ledAt hL rg ?_
  by_cases e : j = i
  · subst e
    exact u6.led hL rf (u5.led hL re we)
  · have ub := u1.append u2
    have ud := u3.append u4
    have hb' := ub.roads hL hi hj e d2 rm (hhm j) (hB j hj e) (R1 j hj e)
    have hhb := (ub.herald hL rm.arisen (lt_cand i) (hhm j)).1
    have hlb := ub.low hL rm.arisen (hlow j hj)
    have hhd := (ud.herald hL rb.arisen (lt_cand i) hhb).1
    have hld := ud.low hL rb.arisen hlb
    exact Trek.joined g5 g6 u5 u6 hL hi hj e d6 re hhd hld we (Trek.answered g3 g4 u3 u4 hL hi hj e d4 rb hhb hlb wb hb')

end Omni
