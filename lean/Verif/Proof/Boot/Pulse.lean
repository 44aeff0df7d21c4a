import Verif.Proof.Boot.Run
/-
From the start of a cluster to steady operation: heartbeats, clocks and beats.
-/
namespace Omni

variable {E S : Type} {n : Ballot} {R : NodeId → HeartbeatReply → Prop} {cc : ClusterConfig} {ρ ρ' ρ'' : NodeId → Nat} {A A' A'' : List E}
  [SnapOps E S] {c c' c'' : Cluster E S} {a : Action E S} {i j : NodeId} {bl bl' : NodeId → BLE} {as bs : List (Action E S)} {f : NodeId}

/-! ### One action -/

omit [SnapOps E S] in
theorem Cluster.Starting.server (h : c.Starting cc n A ρ) (hi : i ∈ cc.nodes) : ∃ op, c.servers i = .up op ∧ (op.sp.get_promise = {} ∨ op.sp.get_promise = n) ∧
    (i ≠ n.pid → op.sp.role = .follower) := by
  obtain ⟨sv, h1, h2⟩ := h
  obtain ⟨op, e1, e2⟩ := h1 i hi
  refine ⟨op, e1, ?_, fun hin => ?_⟩
  · rw [e2]; exact h2.server hi
  · rw [e2]; exact h2.follower hi hin

/-- The election component after a tick. -/
theorem tick_ble {op o : OP E S} (h : op.callResult .tick = .up o) : o.ble = op.clearTrail.elects.2 := by
  rcases callResult_sat (op := op) (call := .tick) (Q := fun o => o.ble = op.clearTrail.elects.2) (P := fun _ => True)
    (M.sat_mono (OP.tick_parts (Q := fun _ => True) (P := fun _ => True) fun _ _ _ _ => M.sat_true _ _) (fun _ _ h => h.2) fun _ _ => trivial) with ⟨o', e1, e2⟩ | ⟨o', e1, _⟩
  · rw [h] at e1
    cases e1
    exact e2
  · rw [h] at e1
    cases e1

/-- The election component after any other call. -/
theorem append_ble {op o : OP E S} {e : E} (h : op.callResult (.append e) = .up o) : o.ble = op.ble := by
  rcases callResult_sat (op := op) (call := .append e) (Q := fun o => o.ble = op.ble) (P := fun _ => True)
    (by
      simp only [Call.run, OP.append, M.sat_bind, OP.sat_onSP, M.sat_pure]
      exact M.sat_mono (M.sat_true _ _) (fun _ _ _ => rfl) fun _ h => h) with ⟨o', e1, e2⟩ | ⟨o', e1, _⟩
  · rw [h] at e1
    cases e1
    exact e2
  · rw [h] at e1
    cases e1

theorem paxos_ble {op o : OP E S} {m : PaxosMessage E S} (h : op.callResult (.handleIncoming (.paxos m)) = .up o) : o.ble = op.ble := by
  rcases callResult_sat (op := op) (call := .handleIncoming (.paxos m)) (Q := fun o => o.ble = op.ble) (P := fun _ => True)
    (by
      simp only [Call.run, OP.handle_incoming, OP.sat_onSP]
      exact M.sat_mono (M.sat_true _ _) (fun _ _ _ => rfl) fun _ h => h) with ⟨o', e1, e2⟩ | ⟨o', e1, _⟩
  · rw [h] at e1
    cases e1
    exact e2
  · rw [h] at e1
    cases e1

omit [SnapOps E S] in
/-- What the election timeout of a server that has heard from all others comes to. -/
theorem elects_all (v : Vow cc n R) (hv : cc.validate = .ok ()) (hnd : cc.nodes.Nodup) (h0 : 0 < n.pid) (hn : n.pid ∈ cc.nodes) (hi : i ∈ cc.nodes)
    {op : OP E S} (hH : (bl i).Tied R cc i) (hb : op.ble = bl i) (hp : op.sp.get_promise = {} ∨ op.sp.get_promise = n)
    (hg : op.election_clock.tick_and_check_timeout.1 = true → ∀ j ∈ cc.nodes, j ≠ i → Got bl i j) :
    (op.clearTrail.elects.2 = bl i ∨ ∃ b : BLE, b.Alike (bl i) ∧
      R i { round := b.hb_round, ballot := b.current_ballot, leader := b.leader, happy := b.happy } ∧ op.clearTrail.elects.2 = b.new_hb_round) ∧
    op.clearTrail.elects.1 = if op.election_clock.tick_and_check_timeout.1 = true ∧ i = n.pid then some n else none := by
  unfold OP.elects
  have hel' : op.clearTrail.election_clock = op.election_clock := rfl
  rw [hel']
  by_cases hf : op.election_clock.tick_and_check_timeout.1 = true
  · rw [if_pos hf]
    have hg := hg hf
    have hl : (SP.peersOf cc.nodes i).length + 1 = cc.nodes.length := length_filter_ne hnd hi
    have hc : cc.nodes.length ≤ (bl i).heartbeat_replies.length + 1 := by
      have := count_heard (Q := SP.peersOf cc.nodes i) (hnd.filter _) (rs := (bl i).heartbeat_replies) fun j hj =>
        hg j (List.mem_filter.1 hj).1 (by simpa [SP.peersOf] using (List.mem_filter.1 hj).2)
      omega
    have hq := hH.quorum
    obtain ⟨b, t1, t2, t3, t4⟩ := hH.timeout v (role := op.sp.role) (phase := op.sp.phase) (p := op.sp.get_promise)
      (by
        rcases hp with e | e
        · rw [e]
          intro hgt
          have := Join.ballot_pos h0
          rw [show Ballot.cmp {} n = .lt from this] at hgt
          cases hgt
        · rw [e]; exact Ballot.le_refl n)
      (fun hin => hg n.pid hn (Ne.symm hin)) (fun _ => by
        rw [hq]
        split
        · exact (accept_all hv hnd hi).is_quorum (by rw [List.length_cons]; omega)
        · exact prepare_all hv hc)
    have e0 : op.clearTrail.ble.hb_timeout op.clearTrail.sp.role op.clearTrail.sp.phase op.clearTrail.sp.get_promise =
        (bl i).hb_timeout op.sp.role op.sp.phase op.sp.get_promise := by
      show op.ble.hb_timeout op.sp.role op.sp.phase op.sp.get_promise = _
      rw [hb]
    rw [e0]
    refine ⟨.inr ⟨b, t1, t2, t3⟩, ?_⟩
    rw [t4]
    simp only [hf, true_and]
  · rw [if_neg hf]
    refine ⟨.inl hb, ?_⟩
    rw [if_neg (fun h => hf h.1)]

/-- One action, with the heartbeats. -/
theorem boot_step (hu : SnapOps.use_snapshots E S = false) (v : Vow cc n R) (hv : cc.validate = .ok ()) (hnd : cc.nodes.Nodup) (hn : n.pid ∈ cc.nodes) (h0 : 0 < n.pid)
    (hF : c.Starting cc n A ρ) (hB : Bles cc c bl) (hH : Hearts R cc bl c.net) (ha : a.Calm cc) (hp : ∀ i p, a ≠ .call i (.setPriority p))
    (hs : c.step cc a = some c') (ht : ∀ i, a = .call i .tick → c.Fires i → ∀ j ∈ cc.nodes, j ≠ i → Got bl i j)
    (hr : ∀ i op, a = .call i .tick → c.servers i = .up op → op.resend_message_clock.tick_and_check_timeout.1 = true → ∀ f ∈ cc.nodes, f ≠ n.pid → 8 ≤ ρ f) :
    ∃ ρ' bl', c'.Starting cc n (A ++ a.entry?.toList) ρ' ∧ Adv cc n c a ρ ρ' ∧ Bles cc c' bl' ∧ BMoves R bl c.net a bl' c'.net := by
  have hel : ∀ i op, a = .call i .tick → i ∈ cc.nodes → c.servers i = .up op →
      (op.clearTrail.elects.2 = bl i ∨ ∃ b : BLE, b.Alike (bl i) ∧
        R i { round := b.hb_round, ballot := b.current_ballot, leader := b.leader, happy := b.happy } ∧ op.clearTrail.elects.2 = b.new_hb_round) ∧
      op.clearTrail.elects.1 = if op.election_clock.tick_and_check_timeout.1 = true ∧ i = n.pid then some n else none := fun i op e hi e1 => by
    obtain ⟨o, u, p1, _⟩ := hF.server hi
    rw [e1] at u
    cases u
    obtain ⟨o, u, hb⟩ := hB i hi
    rw [e1] at u
    cases u
    exact elects_all v hv hnd h0 hn hi (hH.server i hi) hb p1 fun hf => ht i e ⟨op, e1, hf⟩
  obtain ⟨ρ', h1, h2⟩ := hF.step hu hv hnd hn ha hs fun i op e e1 => ⟨(hel i op e (by rw [e] at ha; exact ha) e1).2, hr i op e e1⟩
  have hup : ∀ j ∈ cc.nodes, ∃ op, c'.servers j = .up op := fun j hj => by
    obtain ⟨op, u, _⟩ := h1.server hj
    exact ⟨op, u⟩
  refine ⟨ρ', ?_⟩
  suffices h : ∃ bl', Bles cc c' bl' ∧ BMoves R bl c.net a bl' c'.net by
    obtain ⟨bl', h3, h4⟩ := h
    exact ⟨bl', h1, h2, h3, h4⟩
  cases a with
  | call i call =>
    have hi : i ∈ cc.nodes := by cases call <;> first | exact ha | exact ha.elim
    obtain ⟨op, e1, e2⟩ := hB i hi
    obtain ⟨o, u⟩ := hup i hi
    simp only [Cluster.step, e1] at hs
    cases call with
    | append e =>
      simp only [Call.isIncoming, Bool.false_eq_true, if_false, Option.some.injEq] at hs
      subst hs
      rw [Cluster.setServer_self] at u
      refine ⟨bl, ?_, .idle⟩
      have := hB.put (i := i) ((append_ble u).trans e2)
      rw [putB_same] at this
      rwa [u]
    | tick =>
      simp only [Call.isIncoming, Bool.false_eq_true, if_false, Option.some.injEq] at hs
      subst hs
      rw [Cluster.setServer_self] at u
      have h5 := tick_ble u
      rw [u]
      rcases (hel i op rfl hi e1).1 with e6 | ⟨b, b1, b2, e6⟩
      · refine ⟨bl, ?_, .idle⟩
        have := hB.put (i := i) (h5.trans e6)
        rwa [putB_same] at this
      · exact ⟨_, hB.put (h5.trans e6), .fire b b1 b2⟩
    | setPriority p => exact absurd rfl (hp i p)
    | _ => exact ha.elim
  | take i =>
    obtain ⟨op, e1, e2⟩ := hB i ha
    refine ⟨_, ?_, .take (net' := c'.net) (fun b => op.sp.outgoing.filter fun m => decide (m.dst = b)) ?_ ?_⟩ <;>
      (simp only [Cluster.step, e1, Option.some.injEq] at hs
       have hc : c' = c.taken i op := hs.symm
       subst hc)
    · intro x hx
      by_cases e : x = i
      · subst e
        exact ⟨_, Cluster.taken_self .., by rw [putB_self, ← e2]; rfl⟩
      · rw [Cluster.taken_other e, putB_other e]
        exact hB x hx
    · intro b
      simp only [Cluster.taken, if_true, OP.take_outgoing_messages, SP.take_outgoing_msgs, List.isEmpty_nil, List.append_cancel_left_eq,
        List.filter_append, e2, List.filter_map]
      rfl
    · intro x b hx
      exact Cluster.taken_net_other hx op b
  | deliver i j =>
    obtain ⟨hi, hj⟩ := ha
    obtain ⟨op, e1, e2⟩ := hB j hj
    obtain ⟨o, u⟩ := hup j hj
    cases hl : c.net i j with
    | nil => simp only [Cluster.step, hl] at hs; cases hs
    | cons m rest =>
      simp only [Cluster.step, hl, e1, Option.some.injEq] at hs
      subst hs
      have hB' : Bles cc (c.setNet i j rest) bl := hB
      have hoth : ∀ a b, ¬ (a = i ∧ b = j) → (c.setNet i j rest).net a b = c.net a b := fun a b hab =>
        Cluster.setNet_other (by by_cases e : a = i; exact .inr fun h => hab ⟨e, h⟩; exact .inl e) rest
      cases m with
      | ble b =>
        refine ⟨putB bl j ((bl j).handle b), ?_, .beat b (by rw [Cluster.setServer_net, Cluster.setNet_self, hl]) hoth⟩
        refine hB'.put (op := { op.clearTrail with ble := op.clearTrail.ble.handle b }) ?_
        show op.ble.handle b = _
        rw [e2]
      | paxos m =>
        refine ⟨bl, ?_, .other m (by rw [Cluster.setServer_net, Cluster.setNet_self, hl]) hoth⟩
        rw [Cluster.setServer_self] at u
        have := hB'.put (i := j) ((paxos_ble u).trans e2)
        rw [putB_same] at this
        rwa [u]
  | _ => exact ha.elim

/-! ### Clocks -/

/-- The resend clock with a step. -/
theorem step_resend (ha : a.Calm cc) (hs : c.step cc a = some c') {op' : OP E S} (hop : c'.servers i = .up op') :
    ∃ op, c.servers i = .up op ∧
      if a.isTick i then op'.resend_message_clock = op.resend_message_clock.tick_and_check_timeout.2 else op'.resend_message_clock = op.resend_message_clock := by
  have key : ∀ {op : OP E S} {call : Call E S}, op.callResult call = .up op' →
      (call = .tick → op'.resend_message_clock = op.resend_message_clock.tick_and_check_timeout.2) ∧
      (call ≠ .tick → op'.resend_message_clock = op.resend_message_clock) := by
    intro op call h
    have h1 := Call.run_clocks call op.clearTrail
    unfold OP.callResult at h
    unfold M.Sat at h1
    cases hr : call.run op.clearTrail with
    | panic p => rw [hr] at h; cases h
    | ok x p =>
      rw [hr] at h h1
      cases h
      exact ⟨fun e => (h1.1 e).2.1, fun e => (h1.2 e).2.1⟩
  have stay : ∀ {op : OP E S}, c.servers i = .up op → op = op' → a.isTick i = false → ∃ op, c.servers i = .up op ∧
      if a.isTick i then op'.resend_message_clock = op.resend_message_clock.tick_and_check_timeout.2 else op'.resend_message_clock = op.resend_message_clock := by
    intro op h e ht
    subst e
    exact ⟨op, h, by rw [ht]; rfl⟩
  cases a with
  | call k call =>
    simp only [Cluster.step] at hs
    cases hk : c.servers k with
    | down d => rw [hk] at hs; cases hs
    | up op =>
      simp only [hk] at hs
      split at hs
      · cases hs
      · cases hs
        by_cases hik : i = k
        · subst hik
          have h1 : op.callResult call = .up op' := by simpa [Cluster.setServer] using hop
          obtain ⟨h2, h3⟩ := key h1
          refine ⟨op, hk, ?_⟩
          cases call with
          | tick => rw [show Action.isTick i (.call i .tick : Action E S) = true by simp [Action.isTick], if_pos rfl]; exact h2 rfl
          | _ => exact h3 (fun h => nomatch h)
        · have h1 : c.servers i = .up op' := by simpa [Cluster.setServer, hik] using hop
          refine stay h1 rfl ?_
          cases call <;> simp [Action.isTick, hik]
  | take k =>
    simp only [Cluster.step] at hs
    cases hk : c.servers k with
    | down d => rw [hk] at hs; cases hs
    | up op =>
      simp only [hk, Option.some.injEq] at hs
      subst hs
      by_cases hik : i = k
      · subst hik
        simp only [if_true] at hop
        cases hop
        exact ⟨op, hk, rfl⟩
      · simp only [if_neg hik] at hop
        exact stay hop rfl rfl
  | deliver k l =>
    simp only [Cluster.step] at hs
    cases hn : c.net k l with
    | nil => rw [hn] at hs; cases hs
    | cons m rest =>
      simp only [hn] at hs
      cases hk : c.servers l with
      | down d =>
        simp only [hk, Option.some.injEq] at hs
        subst hs
        exact stay (op := op') (by simpa [Cluster.setNet] using hop) rfl rfl
      | up op =>
        simp only [hk, Option.some.injEq] at hs
        subst hs
        by_cases hik : i = l
        · subst hik
          have h1 : op.callResult (.handleIncoming m) = .up op' := by simpa [Cluster.setServer] using hop
          exact ⟨op, hk, (key h1).2 (fun h => nomatch h)⟩
        · exact stay (op := op') (by simpa [Cluster.setServer, Cluster.setNet, hik] using hop) rfl rfl
  | _ => cases ha

/-- A clock counts the ticks until its timeout. -/
theorem run_count (sel : OP E S → LogicalClock)
    (hsel : ∀ {c c' : Cluster E S} {a : Action E S}, a.Calm cc → c.step cc a = some c' → ∀ {op' : OP E S}, c'.servers i = .up op' →
      ∃ op, c.servers i = .up op ∧ if a.isTick i then sel op' = (sel op).tick_and_check_timeout.2 else sel op' = sel op) :
    ∀ {as : List (Action E S)} {c c' : Cluster E S}, (∀ a ∈ as, a.Calm cc) → c.run cc as = some c' → ∀ {op' : OP E S}, c'.servers i = .up op' →
      ∃ op, c.servers i = .up op ∧ ((sel op).time + as.countP (Action.isTick i) < (sel op).timeout →
        (sel op').time = (sel op).time + as.countP (Action.isTick i) ∧ (sel op').timeout = (sel op).timeout) := by
  intro as
  induction as with
  | nil => intro c c' _ hr op' hop; cases hr; exact ⟨op', hop, fun _ => ⟨rfl, rfl⟩⟩
  | cons a as ih =>
    intro c c' hc hr op' hop
    simp only [Cluster.run] at hr
    cases hs : c.step cc a with
    | none => rw [hs] at hr; cases hr
    | some c1 =>
      rw [hs] at hr
      obtain ⟨op1, u1, e1⟩ := ih (fun b hb => hc b (List.mem_cons_of_mem _ hb)) hr hop
      obtain ⟨op, u, e2⟩ := hsel (hc a (List.mem_cons_self ..)) hs u1
      refine ⟨op, u, fun hl => ?_⟩
      rw [List.countP_cons] at hl ⊢
      by_cases ht : a.isTick i = true
      · rw [if_pos ht] at e2 hl ⊢
        have : (sel op).tick_and_check_timeout.2 = { sel op with time := (sel op).time + 1 } := by
          unfold LogicalClock.tick_and_check_timeout
          rw [if_neg (by omega)]
        rw [this] at e2
        rw [e2] at e1
        simp only at e1
        obtain ⟨h1, h2⟩ := e1 (by omega)
        exact ⟨by omega, h2⟩
      · rw [if_neg ht] at e2 hl ⊢
        rw [e2] at e1
        exact e1 hl

theorem run_count_election (hc : ∀ a ∈ as, a.Calm cc) (hr : c.run cc as = some c') {op' : OP E S} (hop : c'.servers i = .up op') :
    ∃ op, c.servers i = .up op ∧ (op.election_clock.time + as.countP (Action.isTick i) < op.election_clock.timeout →
      op'.election_clock.time = op.election_clock.time + as.countP (Action.isTick i) ∧ op'.election_clock.timeout = op.election_clock.timeout) :=
  run_count OP.election_clock (fun ha hs _ hop => by
    obtain ⟨op, u, e⟩ := step_clocks ha hs hop
    refine ⟨op, u, ?_⟩
    split at e
    · rename_i h; rw [if_pos h]; exact e.1
    · rename_i h; rw [if_neg h]; exact e.1) hc hr hop

theorem run_count_resend (hc : ∀ a ∈ as, a.Calm cc) (hr : c.run cc as = some c') {op' : OP E S} (hop : c'.servers i = .up op') :
    ∃ op, c.servers i = .up op ∧ (op.resend_message_clock.time + as.countP (Action.isTick i) < op.resend_message_clock.timeout →
      op'.resend_message_clock.time = op.resend_message_clock.time + as.countP (Action.isTick i) ∧ op'.resend_message_clock.timeout = op.resend_message_clock.timeout) :=
  run_count OP.resend_message_clock (fun ha hs _ hop => step_resend ha hs hop) hc hr hop

/-! ### Beats -/

/-- One beat. -/
theorem Course.beat (h : Course cc n c ρ A as c' ρ' A') (hb : c.Beat cc as) (hn : n.pid ∈ cc.nodes) (hf : f ∈ cc.nodes) (hfn : f ≠ n.pid) {x : Nat}
    (hx : x = 1 ∨ x = 2 ∨ x = 3 ∨ x = 4 ∨ x = 6 ∨ x = 7) (h0 : x ≤ ρ f) : x + 1 ≤ ρ' f := by
  have hup : ∀ i ∈ cc.nodes, ∀ j ∈ cc.nodes, c.upcoming i j as = c.px i j := fun i hi j hj => by
    have := hb.delivered i hi j hj
    simp only [Cluster.upcoming, Cluster.px]
    rw [List.take_of_length_le this]
  obtain ⟨sv, _, hs⟩ := h.start
  rcases hx with rfl | rfl | rfl | rfl | rfl | rfl
  · exact h.reach hf hfn (hb.taken _ hn) (fun hA => (hA.takeL rfl f hf hfn).1) h0
  · refine h.arrive hf hfn (i := n.pid) (j := f) (fun hA hd => (hA.down f hf hfn _ hd).1) h0 fun e => ?_
    rw [hup _ hn _ hf]
    exact hs.down hf hfn (.inl e)
  · exact h.reach hf hfn (hb.taken _ hf) (fun hA => hA.takeF f hf hfn rfl) h0
  · refine h.arrive hf hfn (i := f) (j := n.pid) (fun hA hd => hA.up f hf hfn _ hd) h0 fun e => ?_
    rw [hup _ hf _ hn]
    exact hs.up hf hfn e
  · exact h.reach hf hfn (hb.taken _ hn) (fun hA => (hA.takeL rfl f hf hfn).2) h0
  · refine h.arrive hf hfn (i := n.pid) (j := f) (fun hA hd => (hA.down f hf hfn _ hd).2) h0 fun e => ?_
    rw [hup _ hn _ hf]
    exact hs.down hf hfn (.inr e)

theorem Cluster.Beats.ticks {bss : List (List (Action E S))} (h : Cluster.Beats cc c bss c') (hi : i ∈ cc.nodes) :
    bss.flatten.countP (Action.isTick i) = bss.length := by
  induction h with
  | nil c => rfl
  | cons h1 _ _ ih => rw [List.flatten_cons, List.countP_append, ih, h1.ticks i hi, List.length_cons, Nat.add_comm]

/-- Beats and stages. -/
theorem Course.beats {bss : List (List (Action E S))} (h : Course cc n c ρ A bss.flatten c' ρ' A') (hb : Cluster.Beats cc c bss c') (hv : cc.validate = .ok ())
    (hnd : cc.nodes.Nodup) (hn : n.pid ∈ cc.nodes) (h1 : ∀ f ∈ cc.nodes, f ≠ n.pid → 1 ≤ ρ f) (h6 : 6 ≤ bss.length) : ∀ f ∈ cc.nodes, f ≠ n.pid → 8 ≤ ρ' f := by
  have next : ∀ {c c' : Cluster E S} {ρ ρ' : NodeId → Nat} {A A' : List E} {as : List (Action E S)}, Course cc n c ρ A as c' ρ' A' → c.Beat cc as →
      ∀ {x : Nat}, (x = 1 ∨ x = 2 ∨ x = 3 ∨ x = 4 ∨ x = 6 ∨ x = 7) → (∀ f ∈ cc.nodes, f ≠ n.pid → x ≤ ρ f) → ∀ f ∈ cc.nodes, f ≠ n.pid → x + 1 ≤ ρ' f :=
    fun h hb x hx h0 f hf hfn => h.beat hb hn hf hfn hx (h0 f hf hfn)
  match bss, h6 with
  | b1 :: b2 :: b3 :: b4 :: b5 :: b6 :: bss, _ =>
    simp only [List.flatten_cons] at h
    cases hb with | cons v1 r1 hb =>
    cases hb with | cons v2 r2 hb =>
    cases hb with | cons v3 r3 hb =>
    cases hb with | cons v4 r4 hb =>
    cases hb with | cons v5 r5 hb =>
    cases hb with | cons v6 r6 hb =>
    obtain ⟨c1, ρ1, A1, p1, h⟩ := h.split
    obtain rfl := Option.some.inj (r1.symm.trans p1.run)
    obtain ⟨c2, ρ2, A2, p2, h⟩ := h.split
    obtain rfl := Option.some.inj (r2.symm.trans p2.run)
    obtain ⟨c3, ρ3, A3, p3, h⟩ := h.split
    obtain rfl := Option.some.inj (r3.symm.trans p3.run)
    obtain ⟨c4, ρ4, A4, p4, h⟩ := h.split
    obtain rfl := Option.some.inj (r4.symm.trans p4.run)
    obtain ⟨c5, ρ5, A5, p5, h⟩ := h.split
    obtain rfl := Option.some.inj (r5.symm.trans p5.run)
    obtain ⟨c6, ρ6, A6, p6, h⟩ := h.split
    have k1 := next p1 v1 (by omega) h1
    have k2 := next p2 v2 (by omega) k1
    have k3 := next p3 v3 (by omega) k2
    have k4 := next p4 v4 (by omega) k3
    obtain ⟨sv, _, hs⟩ := p4.finish
    have k5 := next p5 v5 (by omega) (hs.six hv hnd k4)
    have k6 := next p6 v6 (by omega) k5
    exact fun f hf hfn => Nat.le_trans (k6 f hf hfn) (h.mono hf hfn)

/-- The first election timeout of `n.pid`. -/
theorem Course.elected {bss : List (List (Action E S))} (h : Course cc n c ρ A bss.flatten c' ρ' A') (hb : Cluster.Beats cc c bss c')
    (hn : n.pid ∈ cc.nodes) {op : OP E S} (hop : c.servers n.pid = .up op) {T : Nat} (hT : op.election_clock.time + (T + 1) = op.election_clock.timeout)
    (hl : bss.length = T + 1) : ∀ f ∈ cc.nodes, f ≠ n.pid → 1 ≤ ρ' f := by
  obtain ⟨xs, b, rfl, hx⟩ : ∃ xs b, bss = xs ++ [b] ∧ xs.length = T := by
    rcases List.eq_nil_or_concat bss with rfl | ⟨xs, b, rfl⟩
    · cases hl
    · exact ⟨xs, b, List.concat_eq_append, by simpa using hl⟩
  obtain ⟨c1, b1, b2⟩ := hb.split
  obtain ⟨hv, hr⟩ := b2.one
  obtain ⟨p, q, rfl, hp, _⟩ := split_tick (hv.ticks _ hn)
  have e : (xs ++ [p ++ .call n.pid .tick :: q]).flatten = (xs.flatten ++ p) ++ .call n.pid .tick :: q := by simp
  rw [e] at h
  intro f hf hfn
  refine h.fire hf hfn fun c2 hr2 => ?_
  obtain ⟨c2', ρ2, A2, h2, _⟩ := h.split
  obtain rfl := Option.some.inj (hr2.symm.trans h2.run)
  obtain ⟨op2, u2, _⟩ := h2.finish.server hn
  obtain ⟨o, u, e2⟩ := run_count_election (fun a ha => by
    rcases List.mem_append.1 ha with ha | ha
    · exact b1.calm a ha
    · exact hv.calm a (List.mem_append_left _ ha)) hr2 u2
  rw [hop] at u
  cases u
  rw [List.countP_append, hp, b1.ticks hn, hx] at e2
  obtain ⟨e3, e4⟩ := e2 (by omega)
  refine ⟨op2, u2, ?_⟩
  unfold LogicalClock.tick_and_check_timeout
  rw [if_pos (by omega)]

/-- All stages. -/
theorem Course.through {bss : List (List (Action E S))} (h : Course cc n c ρ A bss.flatten c' ρ' A') (hb : Cluster.Beats cc c bss c') (hv : cc.validate = .ok ())
    (hnd : cc.nodes.Nodup) (hn : n.pid ∈ cc.nodes) {op : OP E S} (hop : c.servers n.pid = .up op) {T : Nat} (h0 : 0 < T)
    (hT : op.election_clock.time + T = op.election_clock.timeout) (hl : T + 6 ≤ bss.length) : ∀ f ∈ cc.nodes, f ≠ n.pid → 8 ≤ ρ' f := by
  obtain ⟨t, rfl⟩ : ∃ t, T = t + 1 := ⟨T - 1, by omega⟩
  rw [← List.take_append_drop (t + 1) bss] at hb h
  rw [List.flatten_append] at h
  obtain ⟨c1, b1, b2⟩ := hb.split
  obtain ⟨c2, ρ2, A2, h1, h2⟩ := h.split
  obtain rfl := Option.some.inj (b1.run.symm.trans h1.run)
  exact h2.beats b2 hv hnd hn (h1.elected b1 hn hop hT (by rw [List.length_take]; omega)) (by rw [List.length_drop]; omega)

/-! ### Runs -/

/-- The resend timeouts are too far away to matter. -/
def Cluster.Patient (cc : ClusterConfig) (t : Nat) (c : Cluster E S) : Prop :=
  ∀ i ∈ cc.nodes, ∀ op, c.servers i = .up op → op.resend_message_clock.time + t ≤ op.resend_message_clock.timeout

/-- A run in beats. -/
theorem boot_run (hu : SnapOps.use_snapshots E S = false) (v : Vow cc n R) (hv : cc.validate = .ok ()) (hnd : cc.nodes.Nodup) (hn : n.pid ∈ cc.nodes) (h0 : 0 < n.pid)
    (hF : c.Starting cc n A ρ) (hB : Bles cc c bl) (hH : Hearts R cc bl c.net) {w T : Nat} (hw : c.Wound cc w) {op : OP E S} (hop : c.servers n.pid = .up op)
    (hT : op.election_clock.time + T = op.election_clock.timeout) (hP : c.Patient cc (T + 7)) {bss : List (List (Action E S))} (hb : Cluster.Beats cc c bss c'')
    (t : Nat) : ∀ c1, c.run cc (bss.flatten.take t) = some c1 →
    ∃ ρ' A' bl', Course cc n c ρ A (bss.flatten.take t) c1 ρ' A' ∧ Path R cc c bl (bss.flatten.take t) c1 bl' := by
  have hT0 : 0 < T := by have := (hw _ hn op hop).1; omega
  induction t with
  | zero =>
    intro c1 hr
    cases hr
    exact ⟨ρ, A, bl, .nil hF, .nil hB⟩
  | succ t ih =>
    intro c2 hr
    generalize has : bss.flatten = as at *
    by_cases hlt : t < as.length
    · have hget : as[t]? = some as[t] := List.getElem?_eq_getElem hlt
      rw [List.take_add_one, hget, Option.toList_some, Cluster.run_append] at hr
      cases h1 : c.run cc (as.take t) with
      | none => rw [h1] at hr; cases hr
      | some c1 =>
        rw [h1, Option.bind_some] at hr
        obtain ⟨ρ1, A1, bl1, f1, p1⟩ := ih c1 h1
        have hs : c1.step cc as[t] = some c2 := by
          simp only [Cluster.run] at hr
          cases e : c1.step cc as[t] with
          | none => rw [e] at hr; cases hr
          | some x => rw [e] at hr; exact hr
        have hmem : as[t] ∈ as := List.getElem_mem hlt
        have hcalm : as[t].Calm cc := hb.calm _ (has ▸ hmem)
        obtain ⟨ρ2, bl2, s2, a2, b2, m2⟩ := boot_step hu v hv hnd hn h0 f1.finish p1.bles_end (p1.hearts v.signed hH) hcalm
          (fun i p e => hb.priorities i p (has ▸ e ▸ hmem)) hs
          (fun i ha hf j hj hji => by
            have hi : i ∈ cc.nodes := by have := hcalm; rw [ha] at this; exact this
            rw [ha, ← has] at hget
            rw [← has] at h1 p1
            exact p1.met v.signed hi hj hji hH (hb.met hw hi hj hget h1 hf))
          (fun i o1 ha u1 hre => by
            have hi : i ∈ cc.nodes := by have := hcalm; rw [ha] at this; exact this
            rw [ha, ← has] at hget
            obtain ⟨xs, ys, p, q, eb, et⟩ := flatten_at hget
            rw [← has, et] at f1
            rw [← has, et] at h1
            rw [eb] at hb
            obtain ⟨d1, hb1, hb2⟩ := hb.split
            have hbt : d1.Beat cc (p ++ .call i .tick :: q) := by cases hb2 with | cons h _ _ => exact h
            have hp : p.countP (Action.isTick i) = 0 := by
              have := hbt.ticks i hi
              rw [List.countP_append, List.countP_cons, if_pos (by simp [Action.isTick])] at this
              omega
            have hlen : T + 6 ≤ xs.length := by
              by_cases hlt : T + 6 ≤ xs.length
              · exact hlt
              · exfalso
                obtain ⟨o, u, e2⟩ := run_count_resend (fun a ha => by
                  rcases List.mem_append.1 ha with ha | ha
                  · exact hb1.calm a ha
                  · exact hbt.calm a (List.mem_append_left _ ha)) h1 u1
                have := hP i hi o u
                rw [List.countP_append, hp, hb1.ticks hi] at e2
                obtain ⟨e3, e4⟩ := e2 (by omega)
                unfold LogicalClock.tick_and_check_timeout at hre
                rw [if_neg (by omega)] at hre
                cases hre
            obtain ⟨c3, ρ3, A3, g1, g2⟩ := f1.split
            obtain rfl := Option.some.inj (hb1.run.symm.trans g1.run)
            exact fun f hf hfn => Nat.le_trans (g1.through hb1 hv hnd hn hop hT0 hT hlen f hf hfn) (g2.mono hf hfn))
        refine ⟨ρ2, A1 ++ as[t].entry?.toList, bl2, ?_, ?_⟩
        · rw [List.take_add_one, hget, Option.toList_some]
          exact f1.append (.cons f1.finish hcalm hs a2 (.nil s2))
        · rw [List.take_add_one, hget, Option.toList_some]
          exact p1.append (.cons p1.bles_end hcalm hs m2 (.nil b2))
    · have e : as.take (t + 1) = as.take t := by rw [List.take_of_length_le (by omega), List.take_of_length_le (by omega)]
      rw [e] at hr ⊢
      exact ih c2 hr

end Omni
