import Verif.Proof.Beats.Moves
/-
Heartbeats in steady operation: runs.
-/
namespace Omni

variable {E S : Type} {n : Ballot} {R : NodeId → HeartbeatReply → Prop} {k : Nat} {cc : ClusterConfig} {lg : NodeId → List E} {ci : NodeId → Nat} {A : List E}

/-- The election components of a cluster whose servers run. -/
def Bles (cc : ClusterConfig) (c : Cluster E S) (bl : NodeId → BLE) : Prop := ∀ i ∈ cc.nodes, ∃ op, c.servers i = .up op ∧ op.ble = bl i

theorem Bles.put {c : Cluster E S} {bl : NodeId → BLE} (h : Bles cc c bl) {i : NodeId} {op : OP E S} {b : BLE} (hb : op.ble = b) :
    Bles cc (c.setServer i (.up op)) (putB bl i b) := by
  intro x hx
  by_cases e : x = i
  · subst e
    exact ⟨op, Cluster.setServer_self .., by rw [putB_self]; exact hb⟩
  · rw [Cluster.setServer_other e, putB_other e]
    exact h x hx

theorem putB_same (bl : NodeId → BLE) (i : NodeId) : putB bl i (bl i) = bl := by
  funext j
  by_cases e : j = i
  · subst e; rw [putB_self]
  · rw [putB_other e]

variable [SnapOps E S]

/-- A run of which each action moves the heartbeats. -/
inductive Path (R : NodeId → HeartbeatReply → Prop) (cc : ClusterConfig) : Cluster E S → (NodeId → BLE) → List (Action E S) → Cluster E S → (NodeId → BLE) → Prop
  | nil {c : Cluster E S} {bl : NodeId → BLE} (h : Bles cc c bl) : Path R cc c bl [] c bl
  | cons {c c1 c2 : Cluster E S} {bl bl1 bl2 : NodeId → BLE} {a : Action E S} {as : List (Action E S)} (h : Bles cc c bl) (ha : a.Calm cc)
      (hs : c.step cc a = some c1) (hm : BMoves R bl c.net a bl1 c1.net) (hp : Path R cc c1 bl1 as c2 bl2) : Path R cc c bl (a :: as) c2 bl2

variable {c c' c'' : Cluster E S} {bl bl' bl'' : NodeId → BLE} {as bs : List (Action E S)} {i j : NodeId}

theorem Path.bles (h : Path R cc c bl as c' bl') : Bles cc c bl := by cases h <;> assumption

theorem Path.bles_end (h : Path R cc c bl as c' bl') : Bles cc c' bl' := by
  induction h with
  | nil h => exact h
  | cons _ _ _ _ _ ih => exact ih

theorem Path.run (h : Path R cc c bl as c' bl') : c.run cc as = some c' := by
  induction h with
  | nil => rfl
  | cons _ _ hs _ _ ih => simp only [Cluster.run, hs, ih]

theorem Path.append (h : Path R cc c bl as c' bl') (h' : Path R cc c' bl' bs c'' bl'') : Path R cc c bl (as ++ bs) c'' bl'' := by
  induction h with
  | nil => exact h'
  | cons h ha hs hm _ ih => exact .cons h ha hs hm (ih h')

theorem Path.split (h : Path R cc c bl (as ++ bs) c'' bl'') : ∃ c' bl', Path R cc c bl as c' bl' ∧ Path R cc c' bl' bs c'' bl'' := by
  induction as generalizing c bl with
  | nil => exact ⟨c, bl, .nil h.bles, h⟩
  | cons a as ih =>
    cases h with
    | cons h ha hs hm hp =>
      obtain ⟨c1, bl1, h1, h2⟩ := ih hp
      exact ⟨c1, bl1, .cons h ha hs hm h1, h2⟩

theorem Path.hearts (v : Signed cc R) (h : Path R cc c bl as c' bl') (hH : Hearts R cc bl c.net) : Hearts R cc bl' c'.net := by
  induction h with
  | nil => exact hH
  | cons _ ha _ hm _ ih => exact ih (hm.hearts v ha hH)

theorem Path.round_le (h : Path R cc c bl as c' bl') (i : NodeId) : (bl i).hb_round ≤ (bl' i).hb_round := by
  induction h with
  | nil => exact Nat.le_refl _
  | cons _ _ _ hm _ ih => exact Nat.le_trans (hm.round_le i) ih

/-! ### A round trip -/

section
variable (v : Signed cc R) (hi : i ∈ cc.nodes) (hj : j ∈ cc.nodes) (hji : j ≠ i)
include v hi hj

/-- What holds with every move in one round of `i` holds at the end. -/
theorem Path.keep {F : (NodeId → BLE) → (NodeId → NodeId → List (Message E S)) → Prop}
    (hR : ∀ {bl net a bl' net'}, BMoves R bl net a bl' net' → Hearts R cc bl net → (bl' i).hb_round = (bl i).hb_round → F bl net → F bl' net')
    (h : Path R cc c bl as c' bl') (hH : Hearts R cc bl c.net) (hr : (bl' i).hb_round = (bl i).hb_round) (h0 : F bl c.net) : F bl' c'.net := by
  induction h with
  | nil => exact h0
  | cons _ ha _ hm hp ih =>
    have h1 := hm.round_le i
    have h2 := hp.round_le i
    exact ih (hm.hearts v ha hH) (by omega) (hR hm hH (by omega) h0)

/-- What an action of the run brings about. -/
theorem Path.reach {a : Action E S} {F T : (NodeId → BLE) → (NodeId → NodeId → List (Message E S)) → Prop}
    (hR : ∀ {bl net b bl' net'}, BMoves R bl net b bl' net' → Hearts R cc bl net → (bl' i).hb_round = (bl i).hb_round → F bl net →
      (b ≠ a ∧ F bl' net') ∨ T bl' net')
    (hT : ∀ {bl net b bl' net'}, BMoves R bl net b bl' net' → Hearts R cc bl net → (bl' i).hb_round = (bl i).hb_round → T bl net → T bl' net')
    (h : Path R cc c bl as c' bl') (hH : Hearts R cc bl c.net) (hr : (bl' i).hb_round = (bl i).hb_round) (ha : a ∈ as) (h0 : F bl c.net) :
    T bl' c'.net := by
  induction h with
  | nil => cases ha
  | @cons c c1 c2 bl bl1 bl2 b as _ hb _ hm hp ih =>
    have h1 := hm.round_le i
    have h2 := hp.round_le i
    rcases hR hm hH (by omega) h0 with ⟨h3, h4⟩ | h3
    · refine ih (hm.hearts v hb hH) (by omega) ?_ h4
      rcases List.mem_cons.1 ha with h5 | h5
      · exact absurd h5.symm h3
      · exact h5
    · exact Path.keep v hi hj hT hp (hm.hearts v hb hH) (by omega) h3

/-- What deliveries bring nearer. -/
theorem Path.count {s t : NodeId} {F : Nat → (NodeId → BLE) → (NodeId → NodeId → List (Message E S)) → Prop}
    (hR : ∀ {d bl net b bl' net'}, BMoves R bl net b bl' net' → Hearts R cc bl net → (bl' i).hb_round = (bl i).hb_round → F d bl net →
      F (nearer d b s t) bl' net')
    (h : Path R cc c bl as c' bl') (hH : Hearts R cc bl c.net) (hr : (bl' i).hb_round = (bl i).hb_round) {d : Nat} (h0 : F d bl c.net) :
    F (d - as.countP (Action.isDelivery s t)) bl' c'.net := by
  induction h generalizing d with
  | nil => exact h0
  | @cons c c1 c2 bl bl1 bl2 b as _ hb _ hm hp ih =>
    have h1 := hm.round_le i
    have h2 := hp.round_le i
    have h3 := ih (hm.hearts v hb hH) (by omega) (hR hm hH (by omega) h0)
    rw [List.countP_cons]
    have e : nearer d b s t - as.countP (Action.isDelivery s t) = d - (as.countP (Action.isDelivery s t) + if b.isDelivery s t then 1 else 0) := by
      unfold nearer; omega
    rwa [e] at h3

include hji

theorem Path.roundTrip (h : Path R cc c bl as c' bl') (hH : Hearts R cc bl c.net) (hr : (bl' i).hb_round = (bl i).hb_round)
    (ht : c.RoundTrip cc i j as) : Got bl' i j := by
  obtain ⟨a1, a2, a3, a4, rfl, t1, t3, l1, l3⟩ := ht
  obtain ⟨c3, bl3, h, p4⟩ := h.split
  have r3 := h.run
  obtain ⟨c2, bl2, h, p3⟩ := h.split
  obtain ⟨c1, bl1, p1, p2⟩ := h.split
  have e1 := p1.round_le i
  have e2 := p2.round_le i
  have e3 := p3.round_le i
  have e4 := p4.round_le i
  have H1 := p1.hearts v hH
  have H2 := p2.hearts v H1
  have H3 := p3.hearts v H2
  have s0 : Late0 bl c.net i j := asked_iff.1 (hH.asked i hi j hj hji)
  have s1 : Late1 bl1 c1.net i j := Path.reach v hi hj (a := .take i) (F := fun b m => Late0 b m i j) (T := fun b m => Late1 b m i j)
    (fun hm hH hr hl => hm.late0 v hH hi hj hji hr hl) (fun hm hH hr hl => hm.late1 v hH hi hj hji hr hl) p1 hH (by omega) t1 s0
  have s2 : Late2 bl2 c2.net i j := by
    have : ReqOn bl1 c1.net i j (c1.net i j).length ∨ Late2 bl1 c1.net i j := by
      rcases s1 with ⟨d, p, m, q, x1, _, x2⟩ | s1
      · exact .inl ⟨p, m, q, x1, by rw [x1]; simp, x2⟩
      · exact .inr s1
    have := Path.count v hi hj (s := i) (t := j) (F := fun d b m => ReqOn b m i j d ∨ Late2 b m i j) (fun hm hH hr hl => by
      rcases hl with hl | hl
      · rcases hm.reqOn hH hi hj hji hr hl with h | h
        · exact .inl h
        · exact .inr (.inl h)
      · rcases hm.late2 v hH hi hj hr hl with ⟨_, h⟩ | h
        · exact .inr h
        · exact .inr (.inr h)) p2 H1 (by omega) this
    rcases this with ⟨p, m, q, _, x, _⟩ | this
    · have := l1 c1 p1.run
      omega
    · exact this
  have s3 : Late3 bl3 c3.net i j := Path.reach v hi hj (a := .take j) (F := fun b m => Late2 b m i j) (T := fun b m => Late3 b m i j)
    (fun hm hH hr hl => hm.late2 v hH hi hj hr hl) (fun hm hH hr hl => hm.late3 v hH hi hj hr hl) p3 H2 (by omega) t3 s2
  have : RepOn bl3 c3.net i j (c3.net j i).length ∨ Got bl3 i j := by
    rcases s3 with ⟨d, p, m, q, x1, _, x2⟩ | s3
    · exact .inl ⟨p, m, q, x1, by rw [x1]; simp, x2⟩
    · exact .inr s3
  have := Path.count v hi hj (s := j) (t := i) (F := fun d b m => RepOn b m i j d ∨ Got b i j) (fun hm hH hr hl => by
    rcases hl with hl | hl
    · exact hm.repOn v hH hi hj hr hl
    · exact .inr (hm.got hr hl)) p4 H3 (by omega) this
  rcases this with ⟨p, m, q, _, x, _⟩ | this
  · have := l3 c3 r3
    omega
  · exact this

/-- A round trip in the present round has brought a reply. -/
theorem Path.met (h : Path R cc c bl as c' bl') (hH : Hearts R cc bl c.net) (hm : c.Met cc as i j) : Got bl' i j := by
  obtain ⟨xs, ys, c0, c1, op0, op1, rfl, r0, r1, u0, u1, e, ht⟩ := hm
  obtain ⟨c2, bl2, p1, p2⟩ := h.split
  obtain rfl : c0 = c2 := Option.some.inj (r0.symm.trans p1.run)
  obtain rfl : c1 = c' := Option.some.inj (r1.symm.trans p2.run)
  refine p2.roundTrip v hi hj hji (p1.hearts v hH) ?_ ht
  obtain ⟨o0, v0, w0⟩ := p2.bles i hi
  obtain ⟨o1, v1, w1⟩ := p2.bles_end i hi
  rw [u0] at v0
  cases v0
  rw [u1] at v1
  cases v1
  rw [← w0, ← w1, e]

end

/-! ### One action -/

omit [SnapOps E S] in
theorem Cluster.Flows.ledBy (h : c.Flows cc n k lg ci A) : c.LedBy cc n := by
  obtain ⟨sv, h1, X, B, d, h2, _⟩ := h
  intro i hi
  obtain ⟨op, e1, e2⟩ := h1 i hi
  rw [e1]
  by_cases hin : i = n.pid
  · subst hin
    refine ⟨by show op.sp.ist.storage.n_prom = _; rw [e2]; exact h2.lead.ist.nprom, fun o ho _ => ?_⟩
    cases ho
    rw [e2]; exact h2.lead.role
  · obtain ⟨_, _, _, _, _, q, al, ms, hl⟩ := h2.fol i hi hin
    exact ⟨by show op.sp.ist.storage.n_prom = _; rw [e2]; exact hl.fol.ist.nprom, fun o _ hc => absurd hc hin⟩

omit [SnapOps E S] in
/-- Sequence Paxos is as the election component needs it. -/
theorem Cluster.Flows.server (h : c.Flows cc n k lg ci A) (hi : i ∈ cc.nodes) {op : OP E S} (hop : c.servers i = .up op) :
    op.sp.get_promise = n ∧ (i = n.pid → op.sp.role = .leader ∧ op.sp.phase = .accept) := by
  obtain ⟨sv, h1, X, B, d, h2, _⟩ := h
  obtain ⟨o, e1, e2⟩ := h1 i hi
  rw [hop] at e1
  cases e1
  rw [e2]
  by_cases hin : i = n.pid
  · subst hin
    exact ⟨h2.lead.ist.prom, fun _ => ⟨h2.lead.role, h2.lead.phase⟩⟩
  · obtain ⟨_, _, _, _, _, q, al, ms, hl⟩ := h2.fol i hi hin
    exact ⟨hl.fol.ist.prom, fun hc => absurd hc hin⟩

/-- One action of steady operation with heartbeats in time. -/
theorem beat_step (v : Vow cc n R) (hF : c.Flows cc n k lg ci A) (hv : cc.validate = .ok ()) (hnd : cc.nodes.Nodup) (hB : Bles cc c bl) (hH : Hearts R cc bl c.net)
    {a : Action E S} (ha : a.Calm cc) (hp : ∀ i p, a ≠ .call i (.setPriority p)) (hs : c.step cc a = some c')
    (ht : ∀ i, a = .call i .tick → c.Fires i → (i ≠ n.pid → Got bl i n.pid) ∧
      (i = n.pid → ∃ Q, AcceptQuorum cc (n.pid :: Q) ∧ ∀ j ∈ Q, Got bl n.pid j)) :
    c'.Flows cc n k lg ci (A ++ a.entry?.toList) ∧ ∃ bl', Bles cc c' bl' ∧ BMoves R bl c.net a bl' c'.net := by
  cases a with
  | call i call =>
    have hi : i ∈ cc.nodes := by cases call <;> first | exact ha | exact ha.elim
    obtain ⟨op, e1, e2⟩ := hB i hi
    cases call with
    | append e =>
      have hF' := hF.step hv hnd ha hs nofun
      refine ⟨hF', bl, ?_, ?_⟩
      · simp only [Cluster.step, e1, Call.isIncoming, Bool.false_eq_true, if_false, Option.some.injEq] at hs
        subst hs
        rcases callResult_sat (op := op) (call := .append e) (Q := fun o => o.ble = bl i) (P := fun _ => True)
          (by
            simp only [Call.run, OP.append, M.sat_bind, OP.sat_onSP, M.sat_pure]
            exact M.sat_mono (M.sat_true _ _) (fun _ _ _ => e2) fun _ h => h) with ⟨o, e3, e4⟩ | ⟨o, e3, e4⟩
        · rw [e3, ← putB_same bl i]
          exact hB.put e4
        · obtain ⟨sv, h1, _⟩ := hF'
          obtain ⟨o', h2, _⟩ := h1 i hi
          rw [Cluster.setServer_self, e3] at h2
          cases h2
      · simp only [Cluster.step, e1, Call.isIncoming, Bool.false_eq_true, if_false, Option.some.injEq] at hs
        subst hs
        exact .idle
    | tick =>
      have hop := hF.server hi e1
      have hloy := hH.server i hi
      -- what the election does
      have hel : (op.clearTrail.elects.2 = bl i ∨ ∃ b : BLE, b.Alike (bl i) ∧
          R i { round := b.hb_round, ballot := b.current_ballot, leader := b.leader, happy := b.happy } ∧ op.clearTrail.elects.2 = b.new_hb_round) ∧
          ∀ x, op.clearTrail.elects.1 = some x → x = n := by
        unfold OP.elects
        have hel' : op.clearTrail.election_clock = op.election_clock := rfl
        rw [hel']
        by_cases hf : op.election_clock.tick_and_check_timeout.1 = true
        · rw [if_pos hf]
          obtain ⟨g1, g2⟩ := ht i rfl ⟨op, e1, hf⟩
          obtain ⟨b, t1, t2, t3, t4⟩ := hloy.timeout v (role := op.sp.role) (phase := op.sp.phase) (Ballot.le_refl n) g1 (fun hin => by
            obtain ⟨Q, q1, q2⟩ := g2 hin
            rw [(hop.2 hin).1, (hop.2 hin).2, hloy.quorum]
            refine q1.is_quorum ?_
            have := count_heard (List.nodup_cons.1 q1.distinct).2 (rs := (bl i).heartbeat_replies) fun j hj => by
              rw [hin]; exact q2 j hj
            simp only [List.length_cons]
            omega)
          have e0 : op.clearTrail.ble.hb_timeout op.clearTrail.sp.role op.clearTrail.sp.phase op.clearTrail.sp.get_promise =
              (bl i).hb_timeout op.sp.role op.sp.phase n := by
            show op.ble.hb_timeout op.sp.role op.sp.phase op.sp.get_promise = _
            rw [e2, hop.1]
          rw [e0]
          refine ⟨.inr ⟨b, t1, t2, t3⟩, fun x hx => ?_⟩
          rw [t4] at hx
          split at hx
          · exact (Option.some.inj hx).symm
          · cases hx
        · rw [if_neg hf]
          exact ⟨.inl e2, nofun⟩
      obtain ⟨sv, h1, h2⟩ := hF
      obtain ⟨op', e1', e2'⟩ := h1 i hi
      rw [e1] at e1'
      cases e1'
      have h3 := h2.clear hi
      rw [← e2', ← OP.clearTrail_sp] at h3
      simp only [Cluster.step, e1, Call.isIncoming, Bool.false_eq_true, if_false, Option.some.injEq] at hs
      subst hs
      rcases callResult_sat (op := op) (call := .tick)
        (Q := fun o => Sys cc n k lg ci A (upd sv i o.sp) c.px ∧ o.ble = op.clearTrail.elects.2) (P := fun _ => False)
        (by
          refine OP.tick_parts (Q := fun s => Sys cc n k lg ci A (upd sv i s) c.px) (P := fun _ => False) fun r w _ _ => ?_
          have h4 := h3.ticked_calm hv hnd hi hel.2 r w
          rw [upd_self] at h4
          refine M.sat_mono h4 (fun _ s' hs => ?_) fun _ h => h
          rwa [upd_upd] at hs) with ⟨o, e3, e4, e5⟩ | ⟨o, e3, e4⟩
      · rw [e3]
        refine ⟨⟨_, servers_upd h1, by simp only [Action.entry?, Option.toList_none, List.append_nil]; exact e4⟩, ?_⟩
        rcases hel.1 with e6 | ⟨b, b1, b2, e6⟩
        · refine ⟨bl, ?_, .idle⟩
          have := hB.put (i := i) (e5.trans e6)
          rwa [putB_same] at this
        · exact ⟨_, hB.put (e5.trans e6), .fire b b1 b2⟩
      · exact e4.elim
    | setPriority p => exact absurd rfl (hp i p)
    | _ => exact ha.elim
  | take i =>
    obtain ⟨op, e1, e2⟩ := hB i ha
    refine ⟨hF.step hv hnd ha hs nofun, _, ?_, .take (net' := c'.net) (fun b => op.sp.outgoing.filter fun m => decide (m.dst = b)) ?_ ?_⟩ <;>
      (simp only [Cluster.step, e1, Option.some.injEq] at hs
       have hc : c' = c.taken i op := hs.symm
       subst hc)
    · intro x hx
      by_cases e : x = i
      · subst e
        exact ⟨_, Cluster.taken_self .., by rw [putB_self, ← e2]; rfl⟩
      · rw [Cluster.taken_other e, putB_other e]
        exact hB x hx
    · intro b
      simp only [Cluster.taken, if_true, OP.take_outgoing_messages, SP.take_outgoing_msgs, List.isEmpty_nil, List.append_cancel_left_eq,
        List.filter_append, e2, List.filter_map]
      rfl
    · intro x b hx
      exact Cluster.taken_net_other hx op b
  | deliver i j =>
    obtain ⟨hi, hj⟩ := ha
    have hF' := hF.step hv hnd (a := .deliver i j) ⟨hi, hj⟩ hs nofun
    refine ⟨hF', ?_⟩
    obtain ⟨op, e1, e2⟩ := hB j hj
    cases hl : c.net i j with
    | nil => simp only [Cluster.step, hl] at hs; cases hs
    | cons m rest =>
      simp only [Cluster.step, hl, e1, Option.some.injEq] at hs
      subst hs
      have hB' : Bles cc (c.setNet i j rest) bl := hB
      have hoth : ∀ a b, ¬ (a = i ∧ b = j) → (c.setNet i j rest).net a b = c.net a b := fun a b hab =>
        Cluster.setNet_other (by by_cases e : a = i; exact .inr fun h => hab ⟨e, h⟩; exact .inl e) rest
      cases m with
      | ble b =>
        refine ⟨putB bl j ((bl j).handle b), ?_, .beat b (by rw [Cluster.setServer_net, Cluster.setNet_self, hl]) hoth⟩
        refine hB'.put (op := { op.clearTrail with ble := op.clearTrail.ble.handle b }) ?_
        show op.ble.handle b = _
        rw [e2]
      | paxos m =>
        refine ⟨bl, ?_, .other m (by rw [Cluster.setServer_net, Cluster.setNet_self, hl]) hoth⟩
        rcases callResult_sat (op := op) (call := .handleIncoming (.paxos m)) (Q := fun o => o.ble = bl j) (P := fun _ => True)
          (by
            simp only [Call.run, OP.handle_incoming, OP.sat_onSP]
            exact M.sat_mono (M.sat_true _ _) (fun _ _ _ => e2) fun _ h => h) with ⟨o, e3, e4⟩ | ⟨o, e3, e4⟩
        · rw [e3]
          have := hB'.put (i := j) e4
          rwa [putB_same] at this
        · obtain ⟨sv, h1, _⟩ := hF'
          obtain ⟨o', h2, _⟩ := h1 j hj
          rw [Cluster.setServer_self, e3] at h2
          cases h2
  | _ => exact ha.elim

/-- A run with heartbeats in time. -/
theorem beat_run (v : Vow cc n R) (hF : c.Flows cc n k lg ci A) (hv : cc.validate = .ok ()) (hnd : cc.nodes.Nodup) (hn : n.pid ∈ cc.nodes) (hB : Bles cc c bl)
    (hH : Hearts R cc bl c.net) (hp : c.Prompt cc n as) (t : Nat) : ∀ c1, c.run cc (as.take t) = some c1 →
    ∃ A' bl', c1.Flows cc n k lg ci A' ∧ Path R cc c bl (as.take t) c1 bl' := by
  induction t with
  | zero =>
    intro c1 hr
    cases hr
    exact ⟨A, bl, hF, .nil hB⟩
  | succ t ih =>
    intro c2 hr
    by_cases hlt : t < as.length
    · have hget : as[t]? = some as[t] := List.getElem?_eq_getElem hlt
      rw [List.take_add_one, hget, Option.toList_some, Cluster.run_append] at hr
      cases h1 : c.run cc (as.take t) with
      | none => rw [h1] at hr; cases hr
      | some c1 =>
        rw [h1, Option.bind_some] at hr
        obtain ⟨A1, bl1, f1, p1⟩ := ih c1 h1
        have hs : c1.step cc as[t] = some c2 := by
          simp only [Cluster.run] at hr
          cases e : c1.step cc as[t] with
          | none => rw [e] at hr; cases hr
          | some x => rw [e] at hr; exact hr
        have hmem : as[t] ∈ as := List.getElem_mem hlt
        obtain ⟨f2, bl2, b2, m2⟩ := beat_step v f1 hv hnd p1.bles_end (p1.hearts v.signed hH) (hp.calm _ hmem)
          (fun i p e => hp.priorities i p (e ▸ hmem)) hs fun i ha hf => by
            have hi : i ∈ cc.nodes := by have := hp.calm _ hmem; rw [ha] at this; exact this
            rw [ha] at hget
            refine ⟨fun hin => p1.met v.signed hi hn (Ne.symm hin) hH (hp.follower i t c1 hget h1 hf hin), fun hin => ?_⟩
            subst hin
            obtain ⟨Q, q1, q2⟩ := hp.leader t c1 hget h1 hf
            exact ⟨Q, q1, fun j hj => p1.met v.signed hi (q1.members j (List.mem_cons_of_mem _ hj))
              (fun e => (List.nodup_cons.1 q1.distinct).1 (e ▸ hj)) hH (q2 j hj)⟩
        refine ⟨_, bl2, f2, ?_⟩
        rw [List.take_add_one, hget, Option.toList_some]
        exact p1.append (.cons p1.bles_end (hp.calm _ hmem) hs m2 (.nil b2))
    · have e : as.take (t + 1) = as.take t := by rw [List.take_of_length_le (by omega), List.take_of_length_le (by omega)]
      rw [e] at hr ⊢
      exact ih c2 hr

end Omni
