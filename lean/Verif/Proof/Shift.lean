import Verif.Spec.Progress
/-
Heartbeat rounds are only compared with each other. So adding a number to every heartbeat round of a cluster, of its servers
and of the messages in flight, changes nothing else about what ticks, sends and deliveries do. A run of such actions that
leads back to the state it began in, apart from the heartbeat rounds, can therefore be repeated for ever. The same holds of
`prev_replies`, which nothing depends on.
-/
namespace Omni

variable {E S : Type}

def HeartbeatReply.shift (d : Nat) (r : HeartbeatReply) : HeartbeatReply := { r with round := r.round + d }

def HeartbeatMsg.shift (d : Nat) : HeartbeatMsg → HeartbeatMsg
  | .request r => .request (r + d)
  | .reply r => .reply (r.shift d)

def BLEMessage.shift (d : Nat) (m : BLEMessage) : BLEMessage := { m with msg := m.msg.shift d }

def Message.shift (d : Nat) : Message E S → Message E S
  | .paxos p => .paxos p
  | .ble b => .ble (b.shift d)

def BLE.shift (d : Nat) (ps : List HeartbeatReply) (b : BLE) : BLE :=
  { b with
    hb_round := b.hb_round + d
    heartbeat_replies := b.heartbeat_replies.map (HeartbeatReply.shift d)
    prev_replies := ps
    outgoing := b.outgoing.map (BLEMessage.shift d) }

def OP.shift (d : Nat) (ps : List HeartbeatReply) (s : OP E S) : OP E S := { s with ble := s.ble.shift d ps }

def Server.shift (d : Nat) (ps : List HeartbeatReply) : Server E S → Server E S
  | .up op => .up (op.shift d ps)
  | .down m => .down m

namespace BLE

theorem shift_update_leader (d : Nat) (ps : List HeartbeatReply) (b : BLE) :
    (b.shift d ps).update_leader = b.update_leader.shift d ps := by
  have h : (b.shift d ps).heartbeat_replies.map (·.ballot) = b.heartbeat_replies.map (·.ballot) := by
    simp [shift, HeartbeatReply.shift, Function.comp_def]
  unfold update_leader
  rw [h]
  cases maxBallot (b.heartbeat_replies.map (·.ballot)) with
  | none => rfl
  | some m =>
    by_cases hm : b.leader < m
    · have hm' : (b.shift d ps).leader < m := hm
      simp only [if_pos hm, if_pos hm']; rfl
    · have hm' : ¬(b.shift d ps).leader < m := hm
      simp only [if_neg hm, if_neg hm']

theorem shift_update_happiness (d : Nat) (ps : List HeartbeatReply) (b : BLE) (role : Role) (phase : Phase) :
    (b.shift d ps).update_happiness role phase = (b.update_happiness role phase).shift d ps := by
  simp [update_happiness, shift, HeartbeatReply.shift, List.filter_map, List.any_map, Function.comp_def]
  rfl

theorem shift_check_takeover (d : Nat) (ps : List HeartbeatReply) (b : BLE) :
    (b.shift d ps).check_takeover = b.check_takeover.shift d ps := by
  unfold check_takeover
  simp only [shift, HeartbeatReply.shift, List.all_map, Function.comp_def, List.length_map]
  split
  · rfl
  · split <;> rfl

theorem shift_new_hb_round (d : Nat) (ps : List HeartbeatReply) (b : BLE) :
    (b.shift d ps).new_hb_round = b.new_hb_round.shift d (b.heartbeat_replies.map (HeartbeatReply.shift d)) := by
  simp [new_hb_round, shift, BLEMessage.shift, HeartbeatMsg.shift, Function.comp_def, Nat.add_right_comm]

theorem shift_sync_with_promise (d : Nat) (ps : List HeartbeatReply) (b : BLE) (p : Ballot) :
    (b.shift d ps).sync_with_promise p = (b.sync_with_promise p).shift d ps := by
  unfold sync_with_promise
  by_cases h : b.leader < p
  · have h' : (b.shift d ps).leader < p := h
    rw [if_pos h, if_pos h']; rfl
  · have h' : ¬(b.shift d ps).leader < p := h
    rw [if_neg h, if_neg h']

theorem shift_hb_timeout (d : Nat) (ps : List HeartbeatReply) (b : BLE) (role : Role) (phase : Phase) (p : Ballot) :
    ∃ ps', (b.shift d ps).hb_timeout role phase p
      = ((b.hb_timeout role phase p).1, (b.hb_timeout role phase p).2.shift d ps') := by
  unfold hb_timeout
  simp only [shift_update_leader, shift_update_happiness, shift_check_takeover, shift_new_hb_round, shift_sync_with_promise]
  exact ⟨_, rfl⟩

theorem shift_handle (d : Nat) (ps : List HeartbeatReply) (b : BLE) (m : BLEMessage) :
    (b.shift d ps).handle (m.shift d) = (b.handle m).shift d ps := by
  obtain ⟨src, dst, msg⟩ := m
  cases msg with
  | request r => simp [handle, handle_request, shift, BLEMessage.shift, HeartbeatMsg.shift, HeartbeatReply.shift]
  | reply r =>
    simp only [handle, handle_reply, shift, BLEMessage.shift, HeartbeatMsg.shift, HeartbeatReply.shift, Nat.add_right_cancel_iff]
    split <;> simp [HeartbeatReply.shift]

end BLE

/-- The outcome with the heartbeat rounds of the state shifted. -/
def Res.shift {α : Type} (d : Nat) (ps : List HeartbeatReply) : Res (OP E S) α → Res (OP E S) α
  | .ok a s => .ok a (s.shift d ps)
  | .panic s => .panic (s.shift d ps)

/-- The method does the same whatever the heartbeat rounds are. -/
def Shifts {α : Type} (d : Nat) (m : M (OP E S) α) : Prop := ∀ s ps, ∃ ps', m (s.shift d ps) = (m s).shift d ps'

theorem Shifts.bind {α β : Type} {d : Nat} {m : M (OP E S) α} {f : α → M (OP E S) β} (h : Shifts d m)
    (hf : ∀ a, Shifts d (f a)) : Shifts d (M.bind m f) := by
  intro s ps
  obtain ⟨ps', h⟩ := h s ps
  unfold M.bind
  rw [h]
  cases m s with
  | ok a t => exact hf a t ps'
  | panic t => exact ⟨ps', rfl⟩

theorem Shifts.get {α : Type} {d : Nat} {f : OP E S → M (OP E S) α} (h : ∀ s, Shifts d (f s))
    (hf : ∀ s ps, f (s.shift d ps) = f s) : Shifts d (M.bind M.get f) := by
  intro s ps
  show ∃ ps', f (s.shift d ps) (s.shift d ps) = (f s s).shift d ps'
  rw [hf]
  exact h s s ps

theorem Shifts.onSP {α : Type} {d : Nat} (m : M (SP E S) α) : Shifts d (OP.onSP m) := by
  intro s ps
  refine ⟨ps, ?_⟩
  unfold OP.onSP
  show (match m s.sp with | .ok a t => _ | .panic t => _) = _
  cases m s.sp <;> rfl

theorem Shifts.whenDo {d : Nat} {p : Prop} [Decidable p] {m : M (OP E S) Unit} (h : Shifts d m) :
    Shifts d (M.whenDo p m) := by
  intro s ps
  unfold M.whenDo
  split
  · exact h s ps
  · exact ⟨ps, rfl⟩

theorem Shifts.upd {d : Nat} {f : OP E S → OP E S} (h : ∀ s ps, f (s.shift d ps) = (f s).shift d ps) :
    Shifts d (M.upd f) := by
  intro s ps
  refine ⟨ps, ?_⟩
  show Res.ok () (f (s.shift d ps)) = Res.ok () ((f s).shift d ps)
  rw [h]

variable [SnapOps E S]

theorem Shifts.election_timeout (d : Nat) : Shifts d (OP.election_timeout : M (OP E S) Unit) := by
  have key : ∀ s : OP E S, OP.election_timeout s
      = match (s.ble.hb_timeout s.sp.role s.sp.phase s.sp.get_promise).1 with
        | some b => OP.onSP (SP.handle_leader b)
            { s with ble := (s.ble.hb_timeout s.sp.role s.sp.phase s.sp.get_promise).2 }
        | none => .ok () { s with ble := (s.ble.hb_timeout s.sp.role s.sp.phase s.sp.get_promise).2 } := by
    intro s
    show (match (s.ble.hb_timeout s.sp.role s.sp.phase s.sp.get_promise).1 with
        | some b => OP.onSP (SP.handle_leader b)
        | none => pure ()) { s with ble := (s.ble.hb_timeout s.sp.role s.sp.phase s.sp.get_promise).2 } = _
    cases (s.ble.hb_timeout s.sp.role s.sp.phase s.sp.get_promise).1 <;> rfl
  intro s ps
  obtain ⟨ps', h⟩ := s.ble.shift_hb_timeout d ps s.sp.role s.sp.phase s.sp.get_promise
  have h : (s.shift d ps).ble.hb_timeout (s.shift d ps).sp.role (s.shift d ps).sp.phase (s.shift d ps).sp.get_promise = _ := h
  rw [key, key, h]
  cases (s.ble.hb_timeout s.sp.role s.sp.phase s.sp.get_promise).1 with
  | none => exact ⟨ps', rfl⟩
  | some b =>
    exact Shifts.onSP (d := d) (SP.handle_leader b)
      ({ s with ble := (s.ble.hb_timeout s.sp.role s.sp.phase s.sp.get_promise).2 } : OP E S) ps'

theorem Shifts.tick (d : Nat) : Shifts d (OP.tick : M (OP E S) Unit) := by
  unfold OP.tick
  refine Shifts.get (fun s => ?_) (fun _ _ => rfl)
  refine Shifts.bind (Shifts.upd fun _ _ => rfl) (fun _ => ?_)
  refine Shifts.bind (Shifts.whenDo (Shifts.election_timeout d)) (fun _ => ?_)
  refine Shifts.bind (Shifts.upd fun _ _ => rfl) (fun _ => ?_)
  refine Shifts.bind (Shifts.whenDo (Shifts.onSP _)) (fun _ => ?_)
  refine Shifts.bind (Shifts.upd fun _ _ => rfl) (fun _ => ?_)
  exact Shifts.whenDo (Shifts.onSP _)

theorem OP.shift_incoming (d : Nat) (ps : List HeartbeatReply) (s : OP E S) (m : Message E S) :
    ∃ ps', OP.handle_incoming (m.shift d) (s.shift d ps) = (OP.handle_incoming m s).shift d ps' := by
  cases m with
  | paxos p => exact Shifts.onSP (SP.handle p) s ps
  | ble b =>
    refine ⟨ps, ?_⟩
    show Res.ok () _ = Res.ok () _
    have := s.ble.shift_handle d ps b
    congr 1
    show { s with ble := (s.ble.shift d ps).handle (b.shift d) } = _
    rw [this]; rfl

theorem OP.shift_tickResult (d : Nat) (ps : List HeartbeatReply) (s : OP E S) :
    ∃ ps', (s.shift d ps).callResult .tick = (s.callResult .tick).shift d ps' := by
  obtain ⟨ps', h⟩ := Shifts.tick d s.clearTrail ps
  refine ⟨ps', ?_⟩
  unfold OP.callResult
  show (match OP.tick (s.clearTrail.shift d ps) with | .ok _ op' => _ | .panic op' => _) = _
  rw [h]
  show _ = Server.shift d ps' (match OP.tick s.clearTrail with | .ok _ op' => _ | .panic op' => _)
  cases OP.tick s.clearTrail <;> rfl

theorem OP.shift_incomingResult (d : Nat) (ps : List HeartbeatReply) (s : OP E S) (m : Message E S) :
    ∃ ps', (s.shift d ps).callResult (.handleIncoming (m.shift d)) = (s.callResult (.handleIncoming m)).shift d ps' := by
  obtain ⟨ps', h⟩ := OP.shift_incoming d ps s.clearTrail m
  refine ⟨ps', ?_⟩
  unfold OP.callResult
  show (match OP.handle_incoming (m.shift d) (s.clearTrail.shift d ps) with | .ok _ op' => _ | .panic op' => _) = _
  rw [h]
  show _ = Server.shift d ps' (match OP.handle_incoming m s.clearTrail with | .ok _ op' => _ | .panic op' => _)
  cases OP.handle_incoming m s.clearTrail <;> rfl

/-- As far as the servers `N` and the links between them go, `c'` is `c` with `d` added to all heartbeat rounds
(and other `prev_replies`). -/
structure Cluster.Ahead (N : List NodeId) (d : Nat) (c c' : Cluster E S) : Prop where
  servers : ∀ i ∈ N, ∃ ps, c'.servers i = (c.servers i).shift d ps
  net : ∀ i ∈ N, ∀ j ∈ N, c'.net i j = (c.net i j).map (Message.shift d)

theorem Message.shift_dst (d : Nat) (m : Message E S) : (m.shift d).dst = m.dst := by cases m <;> rfl

theorem Cluster.Ahead.step {cc : ClusterConfig} {N : List NodeId} {d : Nat} {c c' c1 : Cluster E S} {a : Action E S}
    (h : c.Ahead N d c') (ha : a.Routine N) (hs : c.step cc a = some c1) :
    ∃ c1', c'.step cc a = some c1' ∧ c1.Ahead N d c1' := by
  cases a with
  | call i call =>
    cases call with
    | tick =>
      have hi : i ∈ N := ha
      obtain ⟨ps, e⟩ := h.servers i hi
      cases hc : c.servers i with
      | down m => simp [Cluster.step, hc] at hs
      | up op =>
        rw [hc] at e
        simp only [Cluster.step, hc, Call.isIncoming, Bool.false_eq_true, if_false, Option.some.injEq] at hs
        subst hs
        refine ⟨c'.setServer i ((op.shift d ps).callResult .tick), by simp [Cluster.step, e, Server.shift, Call.isIncoming], ?_⟩
        refine ⟨fun j hj => ?_, h.net⟩
        show ∃ ps', (if j = i then _ else _) = Server.shift d ps' (if j = i then _ else _)
        split
        · exact op.shift_tickResult d ps
        · exact h.servers j hj
    | _ => exact absurd ha (by simp [Action.Routine])
  | take i =>
    have hi : i ∈ N := ha
    obtain ⟨ps, e⟩ := h.servers i hi
    cases hc : c.servers i with
    | down m => simp [Cluster.step, hc] at hs
    | up op =>
      rw [hc] at e
      simp only [Cluster.step, hc, Option.some.injEq] at hs
      subst hs
      refine ⟨_, by simp only [Cluster.step, e, Server.shift]; rfl, ?_⟩
      have e1 : ((op.shift d ps).take_outgoing_messages []).1 = (op.take_outgoing_messages []).1.map (Message.shift d) := by
        simp [OP.take_outgoing_messages, SP.take_outgoing_msgs, OP.shift, BLE.shift, Message.shift, Function.comp_def]
      have e2 : ((op.shift d ps).take_outgoing_messages []).2 = (op.take_outgoing_messages []).2.shift d ps := rfl
      refine ⟨fun j hj => ?_, fun a ha b hb => ?_⟩
      · show ∃ ps', (if j = i then _ else _) = Server.shift d ps' (if j = i then _ else _)
        split
        · rw [e2]; exact ⟨ps, rfl⟩
        · exact h.servers j hj
      · show (if a = i then _ else _) = List.map _ (if a = i then _ else _)
        split
        · rw [e1, h.net a ha b hb, List.map_append, List.filter_map]
          simp only [Function.comp_def, Message.shift_dst]
        · exact h.net a ha b hb
  | deliver i j =>
    obtain ⟨hi, hj⟩ : i ∈ N ∧ j ∈ N := ha
    obtain ⟨ps, e⟩ := h.servers j hj
    have en := h.net i hi j hj
    cases hm : c.net i j with
    | nil => simp [Cluster.step, hm] at hs
    | cons m rest =>
      rw [hm] at en
      have key : ∀ (a b : NodeId), a ∈ N → b ∈ N → (c'.setNet i j (rest.map (Message.shift d))).net a b
          = ((c.setNet i j rest).net a b).map (Message.shift d) := by
        intro a b ha hb
        show (if a = i ∧ b = j then _ else _) = List.map _ (if a = i ∧ b = j then _ else _)
        split
        · rfl
        · exact h.net a ha b hb
      cases hc : c.servers j with
      | down dk =>
        rw [hc] at e
        simp only [Cluster.step, hm, hc, Option.some.injEq] at hs
        subst hs
        refine ⟨c'.setNet i j (rest.map (Message.shift d)), by simp [Cluster.step, en, e, Server.shift], h.servers, ?_⟩
        intro a ha b hb
        exact key a b ha hb
      | up op =>
        rw [hc] at e
        simp only [Cluster.step, hm, hc, Option.some.injEq] at hs
        subst hs
        refine ⟨(c'.setNet i j (rest.map (Message.shift d))).setServer j
          ((op.shift d ps).callResult (.handleIncoming (m.shift d))), by simp [Cluster.step, en, e, Server.shift], ?_, ?_⟩
        · intro x hx
          show ∃ ps', (if x = j then _ else _) = Server.shift d ps' (if x = j then _ else _)
          split
          · exact op.shift_incomingResult d ps m
          · exact h.servers x hx
        · intro a ha b hb
          exact key a b ha hb
  | _ => exact absurd ha (by simp [Action.Routine])

theorem Cluster.Ahead.run {cc : ClusterConfig} {N : List NodeId} {d : Nat} {as : List (Action E S)} :
    ∀ {c c' c1 : Cluster E S}, c.Ahead N d c' → (∀ a ∈ as, a.Routine N) → c.run cc as = some c1 →
      ∃ c1', c'.run cc as = some c1' ∧ c1.Ahead N d c1' := by
  induction as with
  | nil =>
    intro c c' c1 h _ hr
    obtain rfl : c = c1 := by simpa [Cluster.run] using hr
    exact ⟨c', rfl, h⟩
  | cons a as ih =>
    intro c c' c1 h ha hr
    unfold Cluster.run at hr
    cases hs : c.step cc a with
    | none => simp [hs] at hr
    | some c2 =>
      simp only [hs] at hr
      obtain ⟨c2', hs', h2⟩ := h.step (ha a (List.mem_cons_self ..)) hs
      obtain ⟨c1', hr', h1⟩ := ih h2 (fun x hx => ha x (List.mem_cons_of_mem _ hx)) hr
      exact ⟨c1', by unfold Cluster.run; rw [hs']; exact hr', h1⟩

omit [SnapOps E S] in
theorem Cluster.Ahead.trans {N : List NodeId} {d d' : Nat} {c c' c'' : Cluster E S} (h : c.Ahead N d c')
    (h' : c'.Ahead N d' c'') : c.Ahead N (d + d') c'' := by
  have er : ∀ r : HeartbeatReply, (r.shift d).shift d' = r.shift (d + d') := by
    intro r; simp [HeartbeatReply.shift, Nat.add_assoc]
  have eb : ∀ m : BLEMessage, (m.shift d).shift d' = m.shift (d + d') := by
    rintro ⟨s, t, m⟩
    cases m <;> simp [BLEMessage.shift, HeartbeatMsg.shift, er, Nat.add_assoc]
  have em : ∀ m : Message E S, (m.shift d).shift d' = m.shift (d + d') := by
    intro m; cases m <;> simp [Message.shift, eb]
  refine ⟨fun i hi => ?_, fun i hi j hj => ?_⟩
  · obtain ⟨ps, e⟩ := h.servers i hi
    obtain ⟨ps', e'⟩ := h'.servers i hi
    refine ⟨ps', ?_⟩
    rw [e', e]
    cases c.servers i with
    | down m => rfl
    | up op => simp [Server.shift, OP.shift, BLE.shift, er, eb, Function.comp_def, Nat.add_assoc]
  · rw [h'.net i hi j hj, h.net i hi j hj]
    simp [em, Function.comp_def]

/-- The state after `k` repetitions of `round` (it stays where it is if the round is not possible). -/
def Cluster.after (cc : ClusterConfig) (c : Cluster E S) (round : List (Action E S)) : Nat → Cluster E S
  | 0 => c
  | k + 1 => ((Cluster.after cc c round k).run cc round).getD (Cluster.after cc c round k)

/-- A round that leads back to the same state with the next heartbeat round can be repeated for ever. -/
theorem Cluster.Ahead.forever {cc : ClusterConfig} {N : List NodeId} {round : List (Action E S)} {c c1 : Cluster E S}
    (h : c.Ahead N 1 c1) (hr : ∀ a ∈ round, a.Routine N) (h1 : c.run cc round = some c1) (k : Nat) :
    (c.after cc round k).run cc round = some (c.after cc round (k + 1)) ∧ c.Ahead N k (c.after cc round k) := by
  have key : ∀ k, c.Ahead N k (c.after cc round k) →
      (c.after cc round k).run cc round = some (c.after cc round (k + 1)) ∧ c1.Ahead N k (c.after cc round (k + 1)) := by
    intro k ha
    obtain ⟨c'', hc'', ha'⟩ := ha.run hr h1
    have e : c.after cc round (k + 1) = c'' := by
      show ((c.after cc round k).run cc round).getD _ = _
      rw [hc'']; rfl
    rw [e]
    exact ⟨hc'', ha'⟩
  have ih : c.Ahead N k (c.after cc round k) := by
    induction k with
    | zero =>
      refine ⟨fun i _ => ?_, fun i _ j _ => ?_⟩
      · show ∃ ps, c.servers i = _
        cases c.servers i with
        | down m => exact ⟨[], rfl⟩
        | up op =>
          refine ⟨op.ble.prev_replies, ?_⟩
          simp only [Server.shift, OP.shift, BLE.shift]
          have er : HeartbeatReply.shift 0 = id := rfl
          have eb : BLEMessage.shift 0 = id := by funext m; obtain ⟨s, t, m⟩ := m; cases m <;> rfl
          rw [er, eb]; simp
      · have em : (Message.shift 0 : Message E S → Message E S) = id := by
          funext m
          cases m with
          | paxos p => rfl
          | ble m => obtain ⟨s, t, m⟩ := m; cases m <;> rfl
        rw [em]; simp [Cluster.after]
    | succ k ih =>
      have := h.trans (key k ih).2
      rw [Nat.add_comm] at this
      exact this
  exact ⟨(key k ih).1, ih⟩

end Omni
