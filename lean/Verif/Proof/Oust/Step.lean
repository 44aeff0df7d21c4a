import Verif.Proof.Oust.Since
/-
A leader that falls silent: one action of the others, and the ballots in Sequence Paxos.
-/
namespace Omni

variable {E S : Type} [SnapOps E S] {cc : ClusterConfig} {R : NodeId → HeartbeatReply → Prop}
variable {c c' : Cluster E S} {bl bl' : NodeId → BLE} {a : Action E S} {i j k : NodeId}

theorem BLE.timeout_elected {b : BLE} {r : Role} {p : Phase} {n x : Ballot} (h : (b.hb_timeout r p n).1 = some x) :
    x = (b.hb_timeout r p n).2.current_ballot := by
  simp only [BLE.hb_timeout] at h ⊢
  split at h
  · exact (Option.some.inj h).symm
  · cases h

/-- One action, if the servers keep running. -/
theorem any_step (hB : Bles cc c bl) (ha : a.Calm cc) (hp : ∀ i p, a ≠ .call i (.setPriority p)) (hs : c.step cc a = some c')
    (hup : ∀ i ∈ cc.nodes, ∃ op, c'.servers i = .up op)
    (hf : ∀ i op, a = .call i .tick → c.servers i = .up op → op.election_clock.tick_and_check_timeout.1 = true →
      ∃ b : BLE, b.Alike (bl i) ∧ R i { round := b.hb_round, ballot := b.current_ballot, leader := b.leader, happy := b.happy } ∧
        ((bl i).hb_timeout op.sp.role op.sp.phase op.sp.get_promise).2 = b.new_hb_round) :
    ∃ bl', Bles cc c' bl' ∧ BMoves R bl c.net a bl' c'.net ∧ ∀ i, a = .call i .tick → ∀ op, c.servers i = .up op →
      bl' i = op.clearTrail.elects.2 := by
  cases a with
  | call i call =>
    have hi : i ∈ cc.nodes := by cases call <;> first | exact ha | exact ha.elim
    obtain ⟨op, e1, e2⟩ := hB i hi
    obtain ⟨o', hup⟩ := hup i hi
    simp only [Cluster.step, e1] at hs
    cases call with
    | append e =>
      simp only [Call.isIncoming, Bool.false_eq_true, if_false, Option.some.injEq] at hs
      subst hs
      rw [Cluster.setServer_self] at hup
      refine ⟨bl, ?_, .idle, nofun⟩
      rcases callResult_sat (op := op) (call := .append e) (Q := fun o => o.ble = bl i) (P := fun _ => True)
        (by
          simp only [Call.run, OP.append, M.sat_bind, OP.sat_onSP, M.sat_pure]
          exact M.sat_mono (M.sat_true _ _) (fun _ _ _ => e2) fun _ h => h) with ⟨o, e3, e4⟩ | ⟨o, e3, e4⟩
      · rw [e3, ← putB_same bl i]
        exact hB.put e4
      · rw [e3] at hup; cases hup
    | tick =>
      simp only [Call.isIncoming, Bool.false_eq_true, if_false, Option.some.injEq] at hs
      subst hs
      rw [Cluster.setServer_self] at hup
      rcases callResult_sat (op := op) (call := .tick) (Q := fun o => True ∧ o.ble = op.clearTrail.elects.2) (P := fun _ => True)
        (OP.tick_parts (Q := fun _ => True) (P := fun _ => True) fun r w _ _ => M.sat_true _ _) with ⟨o, e3, -, e5⟩ | ⟨o, e3, -⟩
      · rw [e3]
        by_cases hfi : op.election_clock.tick_and_check_timeout.1 = true
        · obtain ⟨b, b1, b2, b3⟩ := hf i op rfl e1 hfi
          have e6 : op.clearTrail.elects.2 = b.new_hb_round := by
            unfold OP.elects
            rw [if_pos (show op.clearTrail.election_clock.tick_and_check_timeout.1 = true from hfi)]
            show (op.ble.hb_timeout op.sp.role op.sp.phase op.sp.get_promise).2 = _
            rw [e2, b3]
          refine ⟨_, hB.put (e5.trans e6), .fire b b1 b2, fun x hx op' h' => ?_⟩
          cases hx
          rw [e1] at h'
          cases h'
          rw [putB_self, e6]
        · have e6 : op.clearTrail.elects.2 = bl i := by
            unfold OP.elects
            rw [if_neg (show ¬ op.clearTrail.election_clock.tick_and_check_timeout.1 = true from hfi)]
            exact e2
          refine ⟨bl, ?_, .idle, fun x hx op' h' => ?_⟩
          · have := hB.put (i := i) (e5.trans e6)
            rwa [putB_same] at this
          · cases hx
            rw [e1] at h'
            cases h'
            exact e6.symm
      · rw [e3] at hup; cases hup
    | setPriority p => exact absurd rfl (hp i p)
    | _ => exact ha.elim
  | take i =>
    obtain ⟨op, e1, e2⟩ := hB i ha
    refine ⟨_, ?_, .take (net' := c'.net) (fun b => op.sp.outgoing.filter fun m => decide (m.dst = b)) ?_ ?_, nofun⟩ <;>
      (simp only [Cluster.step, e1, Option.some.injEq] at hs
       have hc : c' = c.taken i op := hs.symm
       subst hc)
    · intro x hx
      by_cases e : x = i
      · subst e
        exact ⟨_, Cluster.taken_self .., by rw [putB_self, ← e2]; rfl⟩
      · rw [Cluster.taken_other e, putB_other e]
        exact hB x hx
    · intro b
      simp only [Cluster.taken, if_true, OP.take_outgoing_messages, SP.take_outgoing_msgs, List.isEmpty_nil, List.append_cancel_left_eq,
        List.filter_append, e2, List.filter_map]
      rfl
    · intro x b hx
      exact Cluster.taken_net_other hx op b
  | deliver i j =>
    obtain ⟨hi, hj⟩ := ha
    obtain ⟨op, e1, e2⟩ := hB j hj
    obtain ⟨o', hup⟩ := hup j hj
    cases hl : c.net i j with
    | nil => simp only [Cluster.step, hl] at hs; cases hs
    | cons m rest =>
      simp only [Cluster.step, hl, e1, Option.some.injEq] at hs
      subst hs
      rw [Cluster.setServer_self] at hup
      have hB' : Bles cc (c.setNet i j rest) bl := hB
      have hoth : ∀ a b, ¬ (a = i ∧ b = j) → (c.setNet i j rest).net a b = c.net a b := fun a b hab =>
        Cluster.setNet_other (by by_cases e : a = i; exact .inr fun h => hab ⟨e, h⟩; exact .inl e) rest
      cases m with
      | ble b =>
        refine ⟨putB bl j ((bl j).handle b), ?_, .beat b (by rw [Cluster.setServer_net, Cluster.setNet_self, hl]) hoth, nofun⟩
        refine hB'.put (op := { op.clearTrail with ble := op.clearTrail.ble.handle b }) ?_
        show op.ble.handle b = _
        rw [e2]
      | paxos m =>
        refine ⟨bl, ?_, .other m (by rw [Cluster.setServer_net, Cluster.setNet_self, hl]) hoth, nofun⟩
        rcases callResult_sat (op := op) (call := .handleIncoming (.paxos m)) (Q := fun o => o.ble = bl j) (P := fun _ => True)
          (by
            simp only [Call.run, OP.handle_incoming, OP.sat_onSP]
            exact M.sat_mono (M.sat_true _ _) (fun _ _ _ => e2) fun _ h => h) with ⟨o, e3, e4⟩ | ⟨o, e3, e4⟩
        · rw [e3]
          have := hB'.put (i := j) e4
          rwa [putB_same] at this
        · rw [e3] at hup; cases hup
  | _ => exact ha.elim

/-! ### Ballots -/

/-- Only ballots of which `ok`. -/
def Prov.among (E S : Type) [SnapOps E S] (ok : Ballot → Prop) : Prov E S where
  okp _ := True
  okb c p x := ok { config_id := c, n := x.1, priority := x.2, pid := p }
  ent _ := True
  stop _ := True
  snap _ := True
  create := fun _ _ => trivial
  merge := fun _ _ _ => trivial
  snapT _ := True
  sent := fun _ _ => ⟨trivial, trivial⟩
  got := fun _ => trivial
  pair _ _ := True
  gotPair := fun _ _ _ => trivial
  comp _ := True

namespace Among

variable {ok ok' : Ballot → Prop} (hk : ∀ b, ok b → ok' b)
include hk

theorem bal {b : Ballot} (h : (Prov.among E S ok).bal b) : (Prov.among E S ok').bal b := h.imp id (hk _)

theorem balO {b : Option Ballot} (h : (Prov.among E S ok).balO b) : (Prov.among E S ok').balO b := fun x e => bal hk (h x e)

theorem mem {m : Mem E S} (h : (Prov.among E S ok).mem m) : (Prov.among E S ok').mem m :=
  ⟨h.log, h.snap, h.stop, balO hk h.prom, balO hk h.accr, h.pair⟩

omit hk in
theorem syncO {l : Option (LogSync E S)} (h : (Prov.among E S ok).syncO l) : (Prov.among E S ok').syncO l :=
  fun x e => ⟨(h x e).snap, (h x e).suffix, (h x e).stop⟩

theorem msg {m : PaxosMsg E S} (h : (Prov.among E S ok).msg m) : (Prov.among E S ok').msg m := by
  cases m with
  | prepare p => exact bal hk h
  | promise p => exact syncO (ok := ok) h
  | acceptSync a => exact ⟨⟨h.1.snap, h.1.suffix, h.1.stop⟩, bal hk h.2⟩
  | _ => exact h

theorem sp {s : SP E S} (h : (Prov.among E S ok).sp s) : (Prov.among E S ok').sp s :=
  ⟨⟨mem hk h.ist.sto, fun m hm => mem hk (h.ist.trail m hm), h.ist.batch, h.ist.stop, bal hk h.ist.cprom,
    bal hk h.ist.cacc⟩, h.buf, h.bss, fun m hm => msg hk (h.out m hm), syncO h.max, fun p e => syncO (h.cached p e),
    h.pid, bal hk h.lead⟩

end Among

/-- All ballots in Sequence Paxos and its messages are as `ok` says. -/
structure Vouched (ok : Ballot → Prop) (cc : ClusterConfig) (c : Cluster E S) : Prop where
  servers : ∀ i ∈ cc.nodes, ∀ op, c.servers i = .up op → (Prov.among E S ok).sp op.clearTrail.sp
  links : ∀ i ∈ cc.nodes, ∀ j ∈ cc.nodes, ∀ m, .paxos m ∈ c.net i j → (Prov.among E S ok).msg m.msg

theorem Vouched.mono {ok ok' : Ballot → Prop} (h : Vouched ok cc c) (hk : ∀ b, ok b → ok' b) : Vouched ok' cc c :=
  ⟨fun i hi op hop => Among.sp hk (h.servers i hi op hop), fun i hi j hj m hm => Among.msg hk (h.links i hi j hj m hm)⟩

omit [SnapOps E S] in
theorem among_clear [SnapOps E S] {P : Prov E S} {op : OP E S} (h : P.sp op.sp) : P.sp op.clearTrail.sp :=
  ⟨⟨h.ist.sto, nofun, h.ist.batch, h.ist.stop, h.ist.cprom, h.ist.cacc⟩, h.buf, h.bss, h.out, h.max, h.cached, h.pid, h.lead⟩

theorem Vouched.put {ok : Ballot → Prop} (h : Vouched ok cc c) {s : Server E S} (hs : ∀ op, s = .up op → (Prov.among E S ok).sp op.sp) :
    Vouched ok cc (c.setServer i s) := by
  refine ⟨fun x hx op hop => ?_, h.links⟩
  by_cases e : x = i
  · subst e
    rw [Cluster.setServer_self] at hop
    exact among_clear (hs op hop)
  · rw [Cluster.setServer_other e] at hop
    exact h.servers x hx op hop

theorem Vouched.step {ok : Ballot → Prop} (h : Vouched ok cc c) (ha : a.Calm cc) (hs : c.step cc a = some c')
    (he : ∀ i op x, a = .call i .tick → c.servers i = .up op → op.clearTrail.elects.1 = some x → ok x) : Vouched ok cc c' := by
  have call : ∀ {op : OP E S} {cl : Call E S}, M.Sat cl.run op.clearTrail (fun _ o => (Prov.among E S ok).sp o.sp) (fun _ => True) →
      ∀ o, op.callResult cl = .up o → (Prov.among E S ok).sp o.sp := by
    intro op cl hsat o ho
    rcases callResult_sat hsat with ⟨o', e, h1⟩ | ⟨o', e, _⟩ <;> rw [e] at ho <;> cases ho
    exact h1
  cases a with
  | call i cl =>
    have hi : i ∈ cc.nodes := by cases cl <;> first | exact ha | exact ha.elim
    simp only [Cluster.step] at hs
    cases hsv : c.servers i with
    | down d => rw [hsv] at hs; cases hs
    | up op =>
      rw [hsv] at hs
      have h0 := h.servers i hi op hsv
      cases cl with
      | append e =>
        simp only [Call.isIncoming, Bool.false_eq_true, if_false, Option.some.injEq] at hs
        subst hs
        refine h.put (call ?_)
        simp only [Call.run, OP.append, M.sat_bind, OP.sat_onSP, M.sat_pure]
        exact M.sat_mono (SP.pv_append h0 fun _ => trivial) (fun _ _ h => h) fun _ _ => trivial
      | tick =>
        simp only [Call.isIncoming, Bool.false_eq_true, if_false, Option.some.injEq] at hs
        subst hs
        refine h.put (call ?_)
        refine M.sat_mono (OP.tick_parts (Q := (Prov.among E S ok).sp) (P := fun _ => True) fun r w _ _ => ?_) (fun _ _ h => h.1) fun _ _ => trivial
        have he := he i op
        have h2 : ∀ t, (Prov.among E S ok).sp t → (w → M.Sat SP.flush_batch_timeout t (fun _ => (Prov.among E S ok).sp) fun _ => True) ∧
            (¬ w → (Prov.among E S ok).sp t) :=
          fun t ht => ⟨fun _ => M.sat_mono (SP.pv_flush_timeout ht) (fun _ _ h => h) fun _ _ => trivial, fun _ => ht⟩
        have h3 : ∀ t, (Prov.among E S ok).sp t → M.Sat (do M.whenDo r SP.resend_message_timeout; M.whenDo w SP.flush_batch_timeout) t
            (fun _ => (Prov.among E S ok).sp) (fun _ => True) := fun t ht => by
          simp only [M.sat_bind, M.sat_whenDo]
          exact ⟨fun _ => M.sat_mono (SP.pv_resend ht) (fun _ u hu => h2 u hu) fun _ _ => trivial, fun _ => h2 t ht⟩
        unfold SP.ticked
        cases hb : op.clearTrail.elects.1 with
        | none => exact h3 _ h0
        | some b =>
          rw [M.sat_bind]
          exact M.sat_mono (SP.pv_handle_leader h0 (.inr (he b rfl hsv hb))) (fun _ t ht => h3 t ht) fun _ _ => trivial
      | setPriority p =>
        simp only [Call.isIncoming, Bool.false_eq_true, if_false, Option.some.injEq] at hs
        subst hs
        exact h.put (call h0)
      | _ => exact ha.elim
  | take i =>
    simp only [Cluster.step] at hs
    cases hsv : c.servers i with
    | down d => rw [hsv] at hs; cases hs
    | up op =>
      rw [hsv] at hs
      have h0 := h.servers i ha op hsv
      have hc : c' = c.taken i op := (Option.some.inj hs).symm
      subst hc
      refine ⟨fun x hx o ho => ?_, fun x hx y hy m hm => ?_⟩
      · by_cases e : x = i
        · subst e
          rw [Cluster.taken_self] at ho
          cases ho
          exact ⟨h0.ist, h0.buf, h0.bss, nofun, h0.max, h0.cached, h0.pid, h0.lead⟩
        · rw [Cluster.taken_other e] at ho
          exact h.servers x hx o ho
      · by_cases e : x = i
        · subst e
          simp only [Cluster.taken, if_true, OP.take_outgoing_messages, SP.take_outgoing_msgs, List.isEmpty_nil] at hm
          rcases List.mem_append.1 hm with hm | hm
          · exact h.links x hx y hy m hm
          · have := (List.mem_filter.1 hm).1
            simp only [List.mem_append, List.mem_map] at this
            rcases this with ⟨q, hq, e⟩ | ⟨q, _, e⟩
            · cases e
              exact h0.out _ hq
            · cases e
        · rw [Cluster.taken_net_other e] at hm
          exact h.links x hx y hy m hm
  | deliver i j =>
    obtain ⟨hi, hj⟩ := ha
    simp only [Cluster.step] at hs
    cases hl : c.net i j with
    | nil => rw [hl] at hs; cases hs
    | cons m rest =>
      rw [hl] at hs
      have h' : Vouched ok cc (c.setNet i j rest) := by
        refine ⟨h.servers, fun x hx y hy q hq => ?_⟩
        by_cases e : x = i ∧ y = j
        · obtain ⟨rfl, rfl⟩ := e
          rw [Cluster.setNet_self] at hq
          exact h.links x hx y hy q (by rw [hl]; exact List.mem_cons_of_mem _ hq)
        · rw [Cluster.setNet_other (by by_cases e' : x = i; exact .inr fun h => e ⟨e', h⟩; exact .inl e')] at hq
          exact h.links x hx y hy q hq
      cases hsv : c.servers j with
      | down d => rw [hsv] at hs; cases hs; exact h'
      | up op =>
        rw [hsv] at hs
        simp only [Option.some.injEq] at hs
        subst hs
        have h0 := h.servers j hj op hsv
        refine h'.put (call ?_)
        cases m with
        | ble b => exact h0
        | paxos m =>
          simp only [Call.run, OP.handle_incoming, OP.sat_onSP]
          exact M.sat_mono (SP.pv_handle h0 (h.links i hi j hj m (by rw [hl]; simp)) fun _ _ _ _ => trivial) (fun _ _ h => h) fun _ _ => trivial
  | _ => exact ha.elim

end Omni
