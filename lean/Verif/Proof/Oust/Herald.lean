import Verif.Proof.Oust.Calls
import Verif.Proof.Oust.Start
import Verif.Proof.Embed
import Verif.Proof.QuorumRun
/-
The candidate of the greatest ballot tells everybody, along runs.
-/
namespace Omni

variable {E S : Type} [SnapOps E S] {cc : ClusterConfig} {n W : Ballot}
variable {c c' : Cluster E S} {a : Action E S} {as pre : List (Action E S)} {i j k : NodeId}

/-! ### Any run -/

theorem Cluster.reach_loose (hr : Cluster.init.run cc pre = some c) : ∃ bs l, (Loose.init : Loose E S).run cc bs = some l ∧ Embeds c l := by
  obtain ⟨bs, l, -, h1, h2⟩ := Embeds.init.run (ok := fun _ => True) (fun a _ => by cases a <;> trivial) hr
  exact ⟨bs, l, h1, h2⟩

/-- Nobody is sent a Prepare of its own. -/
theorem Cluster.reach_prepare (hr : Cluster.init.run cc pre = some c) {m : PaxosMessage E S} (hm : .paxos m ∈ c.net i j) {p : Prepare} (e : m.msg = .prepare p) : p.n.pid ≠ j := by
  obtain ⟨bs, l, h1, h2⟩ := Cluster.reach_loose hr
  obtain ⟨h3, h4⟩ := h2.net i j _ hm
  have h5 := ((QRun.runs h1).msg m h3).2
  rw [e] at h5
  have h4 : m.dst = j := h4
  have h5 : ((Ev.ofSent cc _ l.sent m.src).peer m.dst) ∧ p.n.pid = m.src := h5
  rw [h5.2, ← h4]
  exact fun e => h5.1.2 e.symm

/-- Servers elect themselves only. -/
theorem Cluster.reach_elects (hr : Cluster.init.run cc pre = some c) {op : OP E S} (hop : c.servers i = .up op) {x : Ballot} (hx : op.clearTrail.elects.1 = some x) : x.pid = i := by
  obtain ⟨bs, l, h1, h2⟩ := Cluster.reach_loose hr
  have h3 := OwnPid.runs h1 (i := i) (op := op) (by rw [h2.servers]; exact hop)
  unfold OP.elects at hx
  split at hx
  · rw [BLE.timeout_elected hx]
    exact (BLE.op_hb_timeout h3 ..).2
  · cases hx

theorem Cluster.reach_append (hr : Cluster.init.run cc pre = some c) (hs : c.run cc as = some c') : Cluster.init.run cc (pre ++ as) = some c' := by
  rw [Cluster.run_append, hr]; exact hs

/-! ### The Prepares of `W` for `j` -/

/-- A Prepare of `W` is on its way to `j`, or `j` has promised. -/
def Reached (W : Ballot) (j : NodeId) (c : Cluster E S) : Prop :=
  (∃ m, .paxos m ∈ c.net W.pid j ∧ ∃ p, m.msg = .prepare p ∧ p.n = W) ∨ ∀ op, c.servers j = .up op → W ≤ op.sp.ist.cache.promise

def Herald (cc : ClusterConfig) (n W : Ballot) (j : NodeId) (c : Cluster E S) : Prop :=
  ∀ k ∈ cc.nodes, ∀ op, c.servers k = .up op → Calls n W (W ≤ op.sp.ist.cache.promise) (fun x => x = j ∧ ¬ Reached W j c) k (SP.peersOf cc.nodes k) op.sp

omit [SnapOps E S] in
theorem Herald.put (h : Herald cc n W j c) {op : OP E S} (hop : c.servers i = .up op) {s : Server E S}
    (hs : ∀ o, s = .up o → Calls n W (W ≤ op.sp.ist.cache.promise) (fun x => x = j ∧ ¬ Reached W j c) i (SP.peersOf cc.nodes i) o.sp) :
    Herald cc n W j (c.setServer i s) ∧ (Reached W j c → Reached W j (c.setServer i s)) := by
  have hR : Reached W j c → Reached W j (c.setServer i s) := by
    rintro (h1 | h1)
    · exact .inl h1
    · refine .inr fun o ho => ?_
      by_cases e : j = i
      · subst e
        rw [Cluster.setServer_self] at ho
        exact (hs o ho).low (h1 op hop)
      · rw [Cluster.setServer_other e] at ho
        exact h1 o ho
  refine ⟨fun k hk o ho => ?_, hR⟩
  by_cases e : k = i
  · subst e
    rw [Cluster.setServer_self] at ho
    exact ((hs o ho).less fun x hx => ⟨hx.1, fun hc => hx.2 (hR hc)⟩).of_low id
  · rw [Cluster.setServer_other e] at ho
    exact (h k hk o ho).less fun x hx => ⟨hx.1, fun hc => hx.2 (hR hc)⟩

theorem Herald.step (h : Herald cc n W j c) (hn : n < W) (hr : Cluster.init.run cc pre = some c) (ha : a.Calm cc) (hs : c.step cc a = some c') :
    Herald cc n W j c' ∧ (Reached W j c → Reached W j c') := by
  have call : ∀ {op : OP E S} {cl : Call E S} {Q : SP E S → Prop}, M.Sat cl.run op.clearTrail (fun _ o => Q o.sp) (fun _ => True) →
      ∀ o, op.callResult cl = .up o → Q o.sp := by
    intro op cl Q hsat o ho
    rcases callResult_sat hsat with ⟨o', e, h1⟩ | ⟨o', e, _⟩ <;> rw [e] at ho <;> cases ho
    exact h1
  cases a with
  | call i cl =>
    have hi : i ∈ cc.nodes := by cases cl <;> first | exact ha | exact ha.elim
    simp only [Cluster.step] at hs
    cases hsv : c.servers i with
    | down d => rw [hsv] at hs; cases hs
    | up op =>
      rw [hsv] at hs
      have h0 := (h i hi op hsv).clear
      cases cl with
      | append e =>
        simp only [Call.isIncoming, Bool.false_eq_true, if_false, Option.some.injEq] at hs
        subst hs
        refine h.put hsv (call ?_)
        simp only [Call.run, OP.append, M.sat_bind, OP.sat_onSP, M.sat_pure]
        exact h0.does (SP.y_append e)
      | tick =>
        simp only [Call.isIncoming, Bool.false_eq_true, if_false, Option.some.injEq] at hs
        subst hs
        refine h.put hsv (call ?_)
        refine M.sat_mono (OP.tick_parts (Q := Calls n W (W ≤ op.sp.ist.cache.promise) (fun x => x = j ∧ ¬ Reached W j c) i (SP.peersOf cc.nodes i)) (P := fun _ => True)
          fun r w _ _ => ?_) (fun _ _ h => h.1) fun _ h => h
        exact M.sat_mono (SP.calls_ticked h0 fun y e => Cluster.reach_elects hr hsv e) (fun _ _ h => h.1) fun _ h => h
      | setPriority p =>
        simp only [Call.isIncoming, Bool.false_eq_true, if_false, Option.some.injEq] at hs
        subst hs
        exact h.put hsv (call h0)
      | _ => exact ha.elim
  | take i =>
    simp only [Cluster.step] at hs
    cases hsv : c.servers i with
    | down d => rw [hsv] at hs; cases hs
    | up op =>
      rw [hsv] at hs
      have h0 := h i ha op hsv
      have hc : c' = c.taken i op := (Option.some.inj hs).symm
      subst hc
      have hnet : ∀ y m, .paxos m ∈ c.net i y ∨ m ∈ op.sp.outgoing ∧ m.dst = y → .paxos m ∈ (c.taken i op).net i y := fun y m hm => by
        simp only [Cluster.taken, if_true, OP.take_outgoing_messages, SP.take_outgoing_msgs, List.isEmpty_nil]
        rcases hm with hm | ⟨hm, hd⟩
        · exact List.mem_append_left _ hm
        · refine List.mem_append_right _ (List.mem_filter.2 ⟨?_, decide_eq_true hd⟩)
          simp only [List.mem_append, List.mem_map]
          exact .inl ⟨m, hm, rfl⟩
      have hpr : ∀ x o, (c.taken i op).servers x = .up o → ∃ o', c.servers x = .up o' ∧ o.sp.ist = o'.sp.ist := fun x o ho => by
        by_cases e : x = i
        · subst e
          rw [Cluster.taken_self] at ho
          cases ho
          exact ⟨op, hsv, rfl⟩
        · rw [Cluster.taken_other e] at ho
          exact ⟨o, ho, rfl⟩
      have hR : Reached W j c → Reached W j (c.taken i op) := by
        rintro (⟨m, hm, h1⟩ | h1)
        · refine .inl ⟨m, ?_, h1⟩
          by_cases e : W.pid = i
          · rw [e] at hm ⊢
            exact hnet j m (.inl hm)
          · rw [Cluster.taken_net_other e]
            exact hm
        · refine .inr fun o ho => ?_
          obtain ⟨o', u, e⟩ := hpr j o ho
          rw [e]
          exact h1 o' u
      refine ⟨fun x hx o ho => ?_, hR⟩
      by_cases e : x = i
      · subst e
        rw [Cluster.taken_self] at ho
        cases ho
        refine ⟨h0.pid, h0.peers, id, h0.lead, nofun, fun e1 e2 => ?_⟩
        obtain ⟨a1, a2, a3⟩ := h0.ann e1 e2
        refine ⟨a1, a2, fun y hy hX => ?_⟩
        obtain ⟨rfl, hX⟩ := hX
        exfalso
        refine hX ?_
        by_cases hold : Reached W y c
        · exact hR hold
        · obtain ⟨m, hm, hd, p, q1, q2⟩ := a3 y hy ⟨rfl, hold⟩
          refine .inl ⟨m, ?_, p, q1, q2⟩
          rw [← e1]
          exact hnet y m (.inr ⟨hm, hd⟩)
      · rw [Cluster.taken_other e] at ho
        exact (h x hx o ho).less fun y hy => ⟨hy.1, fun hc => hy.2 (hR hc)⟩
  | deliver i y =>
    obtain ⟨hi, hy⟩ := ha
    simp only [Cluster.step] at hs
    cases hl : c.net i y with
    | nil => rw [hl] at hs; cases hs
    | cons m rest =>
      rw [hl] at hs
      have hkeep : (∃ q, .paxos q ∈ c.net W.pid j ∧ ∃ p, q.msg = .prepare p ∧ p.n = W) →
          (∃ q, .paxos q ∈ (c.setNet i y rest).net W.pid j ∧ ∃ p, q.msg = .prepare p ∧ p.n = W) ∨
          (y = j ∧ ∃ q p, m = .paxos q ∧ q.msg = .prepare p ∧ p.n = W) := by
        rintro ⟨q, hq, p, e1, e2⟩
        by_cases e : W.pid = i ∧ j = y
        · obtain ⟨rfl, rfl⟩ := e
          rw [hl] at hq
          rcases List.mem_cons.1 hq with rfl | hq
          · exact .inr ⟨rfl, q, p, rfl, e1, e2⟩
          · exact .inl ⟨q, by rw [Cluster.setNet_self]; exact hq, p, e1, e2⟩
        · refine .inl ⟨q, ?_, p, e1, e2⟩
          rw [Cluster.setNet_other (by by_cases e' : W.pid = i; exact .inr fun h => e ⟨e', h⟩; exact .inl e')]
          exact hq
      cases hsv : c.servers y with
      | down d =>
        rw [hsv] at hs; cases hs
        have hR : Reached W j c → Reached W j (c.setNet i y rest) := ?_
        refine ⟨fun k hk o ho => (h k hk o ho).less fun x hx => ⟨hx.1, fun hc => hx.2 (hR hc)⟩, hR⟩
        intro hc
        rcases hc with h1 | h1
        · rcases hkeep h1 with h1 | ⟨e, h1⟩
          · exact .inl h1
          · refine .inr fun o ho => ?_
            subst e
            have ho : c.servers y = .up o := ho
            rw [hsv] at ho; cases ho
        · exact .inr h1
      | up op =>
        rw [hsv] at hs
        simp only [Option.some.injEq] at hs
        subst hs
        have h0 := (h y hy op hsv).clear
        have hm : ∀ o, op.callResult (.handleIncoming m) = .up o → Calls n W (W ≤ op.sp.ist.cache.promise) (fun x => x = j ∧ ¬ Reached W j c) y (SP.peersOf cc.nodes y) o.sp ∧
            ∀ q p, m = .paxos q → q.msg = .prepare p → p.n ≤ o.sp.ist.cache.promise := by
          refine call (Q := fun t => Calls n W (W ≤ op.sp.ist.cache.promise) (fun x => x = j ∧ ¬ Reached W j c) y (SP.peersOf cc.nodes y) t ∧
            ∀ q p, m = .paxos q → q.msg = .prepare p → p.n ≤ t.ist.cache.promise) ?_
          cases m with
          | ble b => exact ⟨h0, nofun⟩
          | paxos m =>
            simp only [Call.run, OP.handle_incoming, OP.sat_onSP]
            exact M.sat_mono (SP.calls_handle h0 hn fun p e _ => Cluster.reach_prepare hr (i := i) (by rw [hl]; exact List.mem_cons_self ..) e)
              (fun _ _ h => ⟨h.1, fun q p e1 e2 => by cases e1; exact h.2 p e2⟩) fun _ h => h
        have hR : Reached W j c → Reached W j ((c.setNet i y rest).setServer y (op.callResult (.handleIncoming m))) := by
          rintro (h1 | h1)
          · rcases hkeep h1 with h1 | ⟨rfl, q, p, e1, e2, e3⟩
            · exact .inl h1
            · refine .inr fun o ho => ?_
              rw [Cluster.setServer_self] at ho
              rw [← e3]
              exact (hm o ho).2 q p e1 e2
          · refine .inr fun o ho => ?_
            by_cases e : j = y
            · subst e
              rw [Cluster.setServer_self] at ho
              exact (hm o ho).1.low (h1 op hsv)
            · rw [Cluster.setServer_other e] at ho
              exact h1 o ho
        refine ⟨fun k hk o ho => ?_, hR⟩
        by_cases e : k = y
        · subst e
          rw [Cluster.setServer_self] at ho
          exact ((hm o ho).1.less fun x hx => ⟨hx.1, fun hc => hx.2 (hR hc)⟩).of_low id
        · rw [Cluster.setServer_other e] at ho
          exact (h k hk o ho).less fun x hx => ⟨hx.1, fun hc => hx.2 (hR hc)⟩
  | _ => exact ha.elim

theorem Herald.run (h : Herald cc n W j c) (hn : n < W) (hr : Cluster.init.run cc pre = some c) (ha : ∀ a ∈ as, a.Calm cc) (hs : c.run cc as = some c') :
    Herald cc n W j c' ∧ (Reached W j c → Reached W j c') := by
  induction as generalizing c pre with
  | nil => cases hs; exact ⟨h, id⟩
  | cons a as ih =>
    simp only [Cluster.run] at hs
    cases h1 : c.step cc a with
    | none => rw [h1] at hs; cases hs
    | some c1 =>
      rw [h1] at hs
      have h2 := h.step hn hr (ha a (List.mem_cons_self ..)) h1
      have h3 := ih h2.1 (pre := pre ++ [a]) (Cluster.reach_append hr (by simp [Cluster.run, h1])) (fun b hb => ha b (List.mem_cons_of_mem _ hb)) hs
      exact ⟨h3.1, fun h => h3.2 (h2.2 h)⟩

end Omni
