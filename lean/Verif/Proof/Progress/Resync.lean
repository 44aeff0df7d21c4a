import Verif.Proof.Progress.Go
/-
The messages between a leader and one follower that is synchronised anew.
-/
namespace Omni

variable {E S : Type}

namespace SP

variable {s : SP E S}

theorem does_reconnected {L : NodeId} (h : L ≠ s.pid) :
    Does (reconnected L) s fun _ t => t.outgoing = s.outgoing ++ [{ src := s.pid, dst := L, msg := .prepareReq s.ist.cache.promise }] ∧
      t.ist.cache.promise = s.ist.cache.promise ∧ (L = s.ist.cache.promise.pid → t.phase = .recover) := by
  simp only [Does, reconnected, M.sat_bind, M.sat_get, M.sat_ite, M.sat_pure, M.sat_whenDo, sat_setState, sat_send, get_current_leader,
    get_promise]
  refine ⟨fun e => absurd e h, fun _ => (M.sat_whenDo ..).2 ?_⟩
  simp only [sat_setState]
  exact ⟨fun h => ⟨trivial, trivial, fun _ => trivial⟩, fun hn => ⟨trivial, trivial, fun h => absurd h hn⟩⟩

theorem does_preparereq {n : Ballot} {F : NodeId} (hr : s.role = .leader) (hn : n ≤ s.ls.n_leader) :
    Does (handle_preparereq n F) s fun _ t => t.role = s.role ∧ t.phase = s.phase ∧ t.ist = s.ist ∧ t.ls.n_leader = s.ls.n_leader ∧
      ∃ p : Prepare, p.n = s.ls.n_leader ∧ t.outgoing = s.outgoing ++ [{ src := s.pid, dst := F, msg := .prepare p }] := by
  simp only [Does, handle_preparereq, send_prepare, M.sat_bind, M.sat_get, M.sat_ite, M.sat_pure, sat_onLS, sat_send]
  refine ⟨fun _ => ⟨fun ls h1 => ⟨fun ls' h2 => ?_, fun _ => trivial⟩, fun _ => trivial⟩, fun h => absurd ⟨hr, hn⟩ h⟩
  have e1 : ls.n_leader = s.ls.n_leader := by
    unfold LeaderState.reset_promise at h1
    split at h1
    · cases h1
    · cases h1; rfl
  have e2 : ls'.n_leader = ls.n_leader := by
    unfold LeaderState.set_latest_accept_meta at h2
    split at h2
    · cases h2
    · cases h2; rfl
  exact ⟨trivial, trivial, trivial, e2.trans e1, _, e2.trans e1, rfl⟩

theorem does_prepare_again [SnapOps E S] {p : Prepare} {f : NodeId}
    (h : s.ist.cache.promise < p.n ∨ (s.ist.cache.promise = p.n ∧ s.phase = .recover)) :
    Does (handle_prepare p f) s fun _ t => t.role = .follower ∧ t.phase = .prepare ∧ t.ist.cache.promise = p.n ∧
      ∃ pr : Promise E S, pr.n = p.n ∧ t.outgoing = s.outgoing ++ [{ src := s.pid, dst := f, msg := .promise pr }] := by
  simp only [Does, handle_prepare, M.sat_bind, M.sat_get, M.sat_ite, M.sat_pure, M.sat_upd, sat_onStore, IStore.sat_flush_batch,
    IStore.sat_set_promise, M.sat_ofPan, sat_send]
  exact ⟨fun _ => ⟨fun y _ => ⟨trivial, trivial, rfl, _, rfl, rfl⟩, fun _ => trivial⟩, fun hn => absurd h hn⟩

theorem does_promise_again [SnapOps E S] (hu : SnapOps.use_snapshots E S = false) {p : Promise E S} {F : NodeId}
    (hr : s.role = .leader) (hp : s.phase = .accept) (hn : p.n = s.ls.n_leader) :
    Does (handle_promise p F) s fun _ t => t.role = .leader ∧ t.phase = .accept ∧ t.ist = s.ist ∧
      ∃ a : AcceptSync E S, AccSyncOf s.ist s.ls.n_leader a ∧ t.outgoing = s.outgoing ++ [{ src := s.pid, dst := F, msg := .acceptSync a }] := by
  simp only [Does, handle_promise, M.sat_bind, M.sat_get]
  rw [hr, hp]
  simp only [handle_promise_accept, M.sat_bind, M.sat_get, M.sat_ite, M.sat_pure, sat_onLS']
  refine ⟨fun _ => ⟨fun r hs => ?_, fun _ => trivial⟩, fun hne => absurd hn hne⟩
  obtain ⟨h1, -⟩ := set_promise_spec hs
  refine M.sat_mono (does_send_accsync hu F) (fun _ t ht => ?_) fun _ h => h
  obtain ⟨a, v, g1, g2, g3, rfl⟩ := ht
  simp only [h1] at g1
  exact ⟨hr, hp, rfl, a, g1, rfl⟩

end SP

variable [SnapOps E S] {cc : ClusterConfig} {c : Cluster E S}

/-- Two servers and the links between them. -/
structure Two (cc : ClusterConfig) (A B : NodeId) (opA opB : OP E S) (ab ba : List (Message E S)) (c : Cluster E S) : Prop where
  reach : c.PlainReachable cc
  ne : A ≠ B
  a : c.servers A = .up opA
  b : c.servers B = .up opB
  ab : c.net A B = ab
  ba : c.net B A = ba

variable {A B : NodeId} {opA opB : OP E S} {ab ba : List (Message E S)}

theorem Two.symm (h : Two cc A B opA opB ab ba c) : Two cc B A opB opA ba ab c := ⟨h.reach, h.ne.symm, h.b, h.a, h.ba, h.ab⟩

/-- `c'` is reached from `c` by running `as`, tidily. -/
def Does' (cc : ClusterConfig) (c : Cluster E S) (as : List (Action E S)) (c' : Cluster E S) : Prop :=
  c.TidyRun cc as ∧ c.run cc as = some c'

theorem Does'.one {a : Action E S} {c' : Cluster E S} (ht : c.Tidy a) (hs : c.step cc a = some c') : Does' cc c [a] c' :=
  ⟨⟨ht, fun _ _ => trivial⟩, by simp only [Cluster.run, hs]⟩

theorem Does'.trans {as bs : List (Action E S)} {c' c'' : Cluster E S} (h : Does' cc c as c') (h' : Does' cc c' bs c'') :
    Does' cc c (as ++ bs) c'' :=
  ⟨h.1.append h.2 h'.1, by rw [Cluster.run_append, h.2]; exact h'.2⟩

theorem Cluster.PlainReachable.does {as : List (Action E S)} {c' : Cluster E S} (h : c.PlainReachable cc) (hd : Does' cc c as c')
    (hp : ∀ a ∈ as, a.Only Call.Plain) : c'.PlainReachable cc :=
  h.go (ok := Action.Only Call.Plain) ⟨as, hp, hd.1, hd.2⟩ fun _ h => h

theorem Two.take (h : Two cc A B opA opB ab ba c) :
    ∃ c', Does' cc c [.take A] c' ∧
      Two cc A B (opA.take_outgoing_messages []).2 opB (ab ++ (opA.sp.outgoing.filter fun m => decide (m.dst = B)).map Message.paxos ++
        (opA.ble.outgoing.filter fun m => decide (m.dst = B)).map Message.ble) ba c' := by
  have hd : Does' cc c [.take A] (c.taken A opA) := Does'.one trivial (by simp only [Cluster.step, h.a]; rfl)
  refine ⟨_, hd, h.reach.does hd (by simp [Action.Only]), h.ne, Cluster.taken_self .., ?_, ?_, ?_⟩
  · rw [Cluster.taken_other h.ne.symm]; exact h.b
  · simp only [Cluster.taken, if_true, OP.take_outgoing_messages, SP.take_outgoing_msgs, List.isEmpty_nil, List.filter_append, h.ab, List.append_assoc]
    rw [List.filter_map, List.filter_map]
    rfl
  · rw [Cluster.taken_net_other h.ne.symm]; exact h.ba

omit [SnapOps E S] in
theorem BLE.handle_reply_outgoing {b : BLE} {m : BLEMessage} (h : ∃ r, m.msg = .reply r) : (b.handle m).outgoing = b.outgoing := by
  obtain ⟨r, h⟩ := h
  unfold BLE.handle
  rw [h]
  simp only [BLE.handle_reply]
  split <;> rfl

theorem Two.deliver_ble {m : BLEMessage} (h : Two cc A B opA opB (.ble m :: ab) ba c) :
    ∃ c', Does' cc c [.deliver A B] c' ∧ Two cc A B opA { opB.clearTrail with ble := opB.ble.handle m } ab ba c' := by
  have h1 : (Call.handleIncoming (.ble m)).run opB.clearTrail = .ok () { opB.clearTrail with ble := opB.ble.handle m } := rfl
  have hdo : Does' cc c [.deliver A B] ((c.setNet A B ab).setServer B (.up { opB.clearTrail with ble := opB.ble.handle m })) := by
    refine Does'.one (fun _ m' rest p op e hp => ?_) (by simp only [Cluster.step, h.ab, h.b, OP.callResult, h1])
    rw [h.ab] at e
    cases e
  refine ⟨_, hdo, ⟨h.reach.does hdo (by simp [Action.Only]), h.ne, ?_, Cluster.setServer_self .., ?_, ?_⟩⟩
  · rw [Cluster.setServer_other h.ne]; exact h.a
  · simp
  · rw [Cluster.setServer_net, Cluster.setNet_other (.inl h.ne.symm)]; exact h.ba

/-- Delivery of the answers to heartbeats. -/
theorem Two.deliver_replies {rs : List BLEMessage} (hrs : ∀ m ∈ rs, ∃ r, m.msg = .reply r) {opB : OP E S} {c : Cluster E S}
    (h : Two cc A B opA opB (rs.map Message.ble) ba c) :
    ∃ c' opB', Does' cc c (List.replicate rs.length (.deliver A B)) c' ∧ Two cc A B opA opB' [] ba c' ∧
      opB'.clearTrail.sp = opB.clearTrail.sp ∧ opB'.ble.outgoing = opB.ble.outgoing := by
  induction rs generalizing c opB with
  | nil => exact ⟨c, opB, ⟨trivial, rfl⟩, h, rfl, rfl⟩
  | cons m rs ih =>
    obtain ⟨c1, d1, h1⟩ := h.deliver_ble
    obtain ⟨c2, op2, d2, h2, e1, e2⟩ := ih (fun x hx => hrs x (List.mem_cons_of_mem _ hx)) h1
    exact ⟨c2, op2, d1.trans d2, h2, e1, e2.trans (BLE.handle_reply_outgoing (hrs m List.mem_cons_self))⟩

theorem Two.deliver (hu : SnapOps.use_snapshots E S = false) (h0 : 0 ∉ cc.nodes) {m : PaxosMessage E S}
    (h : Two cc A B opA opB (.paxos m :: ab) ba c) (ho : opB.sp.outgoing = []) {Q : Unit → SP E S → Prop}
    (hd : Does (SP.handle m) opB.clearTrail.sp Q) :
    ∃ c' sp', Does' cc c [.deliver A B] c' ∧ Two cc A B opA { opB with sp := sp' } ab ba c' ∧ Q () sp' := by
  have hd' : Does (Call.handleIncoming (.paxos m)).run opB.clearTrail fun _ op' => ∃ sp', op' = { opB with sp := sp' } ∧ Q () sp' := by
    simp only [Does, Call.run, OP.handle_incoming, OP.sat_onSP]
    exact M.sat_mono hd (fun _ t ht => ⟨t, rfl, ht⟩) fun _ h => h
  obtain ⟨op', h1, sp', rfl, h2⟩ := h.reach.call hu h0 h.b (call := .handleIncoming (.paxos m)) trivial
    (fun x hx => ⟨A, by cases hx; rw [h.ab]; exact List.mem_cons_self⟩) hd'
  have hdo : Does' cc c [.deliver A B] ((c.setNet A B ab).setServer B (.up { opB with sp := sp' })) := by
    refine Does'.one (Cluster.Drained.tidy fun op hop => ?_) (by simp only [Cluster.step, h.ab, h.b, OP.callResult, h1])
    rw [h.b] at hop
    cases hop
    exact ho
  refine ⟨_, sp', hdo, ⟨h.reach.does hdo (by simp [Action.Only]), h.ne, ?_, Cluster.setServer_self .., ?_, ?_⟩, h2⟩
  · rw [Cluster.setServer_other h.ne]; exact h.a
  · simp
  · rw [Cluster.setServer_net, Cluster.setNet_other (.inl h.ne.symm)]; exact h.ba

theorem Two.call (hu : SnapOps.use_snapshots E S = false) (h0 : 0 ∉ cc.nodes) (h : Two cc A B opA opB ab ba c) {call : Call E S}
    (hp : call.Plain) (hi : call.isIncoming = false) {Q : Unit → OP E S → Prop} (hd : Does call.run opA.clearTrail Q) :
    ∃ c' op', Does' cc c [.call A call] c' ∧ Two cc A B op' opB ab ba c' ∧ Q () op' := by
  obtain ⟨op', h1, h2⟩ := h.reach.call hu h0 h.a hp (fun m e => by subst e; cases hi) hd
  have hdo : Does' cc c [.call A call] (c.setServer A (.up op')) :=
    Does'.one trivial (by simp only [Cluster.step, h.a, hi, OP.callResult, h1, Bool.false_eq_true, if_false])
  refine ⟨_, op', hdo, ⟨h.reach.does hdo ?_, h.ne, Cluster.setServer_self .., ?_, h.ab, h.ba⟩, h2⟩
  · intro a ha
    rw [List.mem_singleton.1 ha]
    exact hp
  · rw [Cluster.setServer_other h.ne.symm]; exact h.b

/-- What is sent to and fro after the leader `L` has answered the PrepareReq of `F`, and the requests for `k` heartbeats. -/
def syncTail (F L : NodeId) (k : Nat) : List (Action E S) :=
  [.take L, .deliver L F] ++ List.replicate k (.deliver L F) ++ [.take F, .deliver F L, .take L, .deliver L F]

section tail
variable {L F : NodeId} {opL opF : OP E S}

/-- Everything after the leader has answered. -/
theorem Two.sync (hu : SnapOps.use_snapshots E S = false) (h0 : 0 ∉ cc.nodes) (h : Two cc L F opL opF [] [] c) {p : Prepare}
    {rs : List BLEMessage} (hrole : opL.sp.role = .leader) (hphase : opL.sp.phase = .accept)
    (hout : opL.sp.outgoing = [{ src := L, dst := F, msg := .prepare p }]) (hn : p.n = opL.sp.ls.n_leader)
    (hble : opL.ble.outgoing = rs) (hrs : ∀ m ∈ rs, m.dst = F ∧ ∃ r, m.msg = .reply r)
    (hout' : opF.sp.outgoing = []) (hble' : opF.ble.outgoing = [])
    (hp : opF.sp.ist.cache.promise < opL.sp.ls.n_leader ∨
      (opF.sp.ist.cache.promise = opL.sp.ls.n_leader ∧ opF.sp.phase = .recover)) :
    ∃ c' opL' opF', Does' cc c (syncTail F L rs.length) c' ∧ Two cc L F opL' opF' [] [] c' ∧
      opL'.sp.role = .leader ∧ opL'.sp.phase = .accept ∧ opL'.sp.ist.cache = opL.sp.ist.cache ∧
      opL'.sp.ist.storage = opL.sp.ist.storage ∧ opF'.sp.role = .follower ∧ opF'.sp.phase = .accept ∧
      opF'.sp.ist.cache.promise = opL.sp.ls.n_leader ∧ opF'.sp.ist.cache.decided_idx = opL.sp.ist.cache.decided_idx ∧
      opL.sp.ist.cache.accepted_idx ≤ opF'.sp.ist.cache.accepted_idx := by
  have pidL := (h.reach.good hu h0 h.a).pid
  have pidF := (h.reach.good hu h0 h.b).pid
  have hfil : rs.filter (fun m => decide (m.dst = F)) = rs := List.filter_eq_self.2 fun m hm => by simpa using (hrs m hm).1
  -- the Prepare
  obtain ⟨c3, d3, h3⟩ := h.take
  simp only [hout, hble, hfil, List.filter_cons, decide_true, if_true, List.filter_nil, List.map_cons, List.map_nil, List.nil_append,
    List.singleton_append] at h3
  obtain ⟨c4, sp4, d4, h4, s1, s2, s3, pr, s4, s5⟩ := h3.deliver hu h0 (m := { src := L, dst := F, msg := .prepare p }) hout'
    (SP.does_prepare_again (p := p) (f := L) (by rw [hn]; exact hp))
  obtain ⟨c4', op4, d4', h4', u1, u2⟩ := h4.deliver_replies fun m hm => (hrs m hm).2
  have v1 : op4.sp.outgoing = sp4.outgoing := by have := congrArg (fun s : SP E S => s.outgoing) u1; exact this
  have v2 : op4.sp.role = sp4.role := by have := congrArg (fun s : SP E S => s.role) u1; exact this
  have v3 : op4.sp.phase = sp4.phase := by have := congrArg (fun s : SP E S => s.phase) u1; exact this
  have v4 : op4.sp.ist.cache = sp4.ist.cache := by have := congrArg (fun s : SP E S => s.ist.cache) u1; exact this
  -- the Promise
  obtain ⟨c5, d5, h5⟩ := h4'.symm.take
  have f6 : op4.sp.outgoing = [{ src := F, dst := L, msg := .promise pr }] := by
    rw [v1, s5]; simp only [OP.clearTrail, hout', pidF, List.nil_append]
  simp only [f6, u2, hble', List.filter_cons, decide_true, if_true, List.filter_nil, List.map_cons, List.map_nil, List.nil_append, List.append_nil] at h5
  obtain ⟨c6, sp6, d6, h6, t1, t2, t3, a, t4, t5⟩ := h5.deliver hu h0 (m := { src := F, dst := L, msg := .promise pr }) rfl
    (SP.does_promise_again hu (p := pr) (F := F) (by exact hrole) (by exact hphase) (by rw [s4, hn]; rfl))
  -- the AcceptSync
  obtain ⟨c7, d7, h7⟩ := h6.symm.take
  have g6 : sp6.outgoing = [{ src := L, dst := F, msg := .acceptSync a }] := by
    rw [t5]; simp only [OP.clearTrail, OP.take_outgoing_messages, SP.take_outgoing_msgs, List.nil_append, pidL]
  simp only [g6, List.filter_cons, decide_true, if_true, List.filter_nil, List.map_cons, List.map_nil, List.nil_append, List.append_nil,
    OP.take_outgoing_messages, SP.take_outgoing_msgs] at h7
  have an : a.n = opL.sp.ls.n_leader := t4.n
  obtain ⟨c8, sp8, d8, h8, hq⟩ := h7.deliver hu h0 (m := { src := L, dst := F, msg := .acceptSync a }) rfl
    (SP.does_acceptsync (a := a) (by exact v2.trans s1) (by exact v3.trans s2) (by rw [an, ← hn, ← s3, ← v4]; rfl) L)
  obtain ⟨q1, q2, q3, q4, q5, -⟩ := hq (h8.reach.good hu h0 h8.b).nostop
  refine ⟨c8, _, _, ?_, h8, t1, t2, by show sp6.ist.cache = _; rw [t3]; rfl,
    by show sp6.ist.storage = _; rw [t3]; rfl, q1, q2, q3.trans an, q5.trans (t4.dec.trans rfl), ?_⟩
  · have := (((((d3.trans d4).trans d4').trans d5).trans d6).trans d7).trans d8
    simpa [syncTail] using this
  · have hl := h.reach.good hu h0 h.a
    have h9 : a.log_sync.suffix = opL.sp.ist.storage.log.drop (a.log_sync.sync_idx - opL.sp.ist.storage.trimmed_idx) := t4.suffix
    rw [hl.trim] at h9
    simp only at q4 ⊢
    rw [q4, h9, hl.len, List.length_drop]
    omega

/-- A synchronised follower has the log of its leader. -/
theorem Two.same_log (hu : SnapOps.use_snapshots E S = false) (h0 : 0 ∉ cc.nodes) (h : Two cc L F opL opF ab ba c)
    (hrole : opL.sp.role = .leader) (hphase : opL.sp.phase = .accept) (hF : opF.sp.phase = .accept)
    (hp : opF.sp.ist.cache.promise = opL.sp.ist.cache.promise)
    (hl : opL.sp.ist.cache.accepted_idx ≤ opF.sp.ist.cache.accepted_idx) :
    opF.get_current_leader = some (L, true) ∧ opF.sp.ist.storage.log = opL.sp.ist.storage.log := by
  obtain ⟨G, hG⟩ := reach_one h.reach.reachable
  obtain ⟨hv, lg, hC, hR⟩ := hG.up h.a
  unfold RoleInv at hR
  rw [hrole, hphase] at hR
  simp only at hR
  have hg := h.reach.good hu h0 h.a
  have hg' := h.reach.good hu h0 h.b
  have hLn : L ≠ 0 := fun e => h0 (e ▸ hC.node.1)
  have hpid : opF.sp.ist.cache.promise.pid = L := by rw [hp, ← hR.ldr, hR.own]
  have hcur : opF.get_current_leader = some (L, true) := by
    simp only [OP.get_current_leader, SP.get_promise, hpid, hF, hLn, if_false, decide_true]
  refine ⟨hcur, ?_⟩
  obtain ⟨k1, k2⟩ := (C37_leader_of_ballot_partial cc c h.reach.reachable F opF h.b).2.2 L hcur
  rw [h.a] at k2
  have hk := k2 (by
    show opL.sp.ist.storage.acc_round.getD {} = opF.sp.ist.cache.promise
    rw [← hC.mir.acc, hR.acc, hR.ldr, hp])
  have hcL : opL.sp.ist.storage.compacted_idx = 0 := by rw [← hC.mir.comp]; exact hg.comp
  have hcF : opF.sp.ist.storage.compacted_idx = 0 := by
    obtain ⟨-, lg', hC', -⟩ := hG.up h.b
    rw [← hC'.mir.comp]; exact hg'.comp
  have key : ∀ (q : Nat) (e : E), opF.sp.ist.storage.log[q]? = some e → opL.sp.ist.storage.log[q]? = some e := by
    intro q e he
    have := hk q e (by simp [Mem.entryAt, hcF, he])
    rcases this with h1 | h1
    · simp only [Server.disk] at h1; omega
    · simp only [Mem.entryAt, Server.disk, hcL] at h1
      simpa using h1
  rw [hg.len, hg'.len] at hl
  refine List.ext_getElem? fun q => ?_
  cases he : opF.sp.ist.storage.log[q]? with
  | some e => exact (key q e he).symm
  | none =>
    have := List.getElem?_eq_none_iff.1 he
    exact (List.getElem?_eq_none_iff.2 (by omega)).symm

end tail

theorem Two.synced {cc : ClusterConfig} {c c' : Cluster E S} {L F : NodeId} {opL opL' opF' : OP E S} {as : List (Action E S)}
    (hu : SnapOps.use_snapshots E S = false) (h0 : 0 ∉ cc.nodes) (hn : opL.sp.ls.n_leader = opL.sp.ist.cache.promise)
    (hd : Does' cc c as c') (h : Two cc L F opL' opF' [] [] c') (h1 : opL'.sp.role = .leader) (h2 : opL'.sp.phase = .accept)
    (h3 : opL'.sp.ist.cache = opL.sp.ist.cache) (h4 : opL'.sp.ist.storage = opL.sp.ist.storage) (h5 : opF'.sp.phase = .accept)
    (h6 : opF'.sp.ist.cache.promise = opL.sp.ls.n_leader) (h7 : opF'.sp.ist.cache.decided_idx = opL.sp.ist.cache.decided_idx)
    (h8 : opL.sp.ist.cache.accepted_idx ≤ opF'.sp.ist.cache.accepted_idx) :
    c.TidyRun cc as ∧ c.run cc as = some c' ∧ SyncedWith L F opL c' := by
  obtain ⟨g1, g2⟩ := h.same_log hu h0 h1 h2 h5 (by rw [h6, h3, hn]) (by rw [h3]; exact h8)
  refine ⟨hd.1, hd.2, opL', opF', h.a, h.b, h1, h2, ?_, by rw [h4], ?_, h6.trans hn, g1, by rw [g2, h4], h7⟩
  · simp only [OP.get_promise, SP.get_promise, h3]
  · simp only [OP.get_decided_idx, h3]

/-- What holds of a leader in the accept phase. -/
theorem Cluster.PlainReachable.leader {cc : ClusterConfig} {c : Cluster E S} (h : c.PlainReachable cc) {L : NodeId} {opL : OP E S}
    (hL : c.servers L = .up opL) (hrole : opL.sp.role = .leader) (hphase : opL.sp.phase = .accept) :
    opL.sp.ls.n_leader = opL.sp.ist.cache.promise ∧ opL.sp.ls.n_leader.pid = L ∧ L ∈ cc.nodes ∧ cc.validate = .ok () ∧
      GoodB cc opL.sp.ist.cache.promise := by
  obtain ⟨G, hG⟩ := reach_one h.reachable
  obtain ⟨hv, lg, hC, hR⟩ := hG.up hL
  unfold RoleInv at hR
  rw [hrole, hphase] at hR
  exact ⟨hR.ldr, hR.own, hC.node.1, hv, hC.mir.prom ▸ hC.disk.good⟩

theorem filter_dst {α : Type} {f : NodeId → α} {dst : α → NodeId} (hf : ∀ x, dst (f x) = x) {l : List NodeId} (hl : l.Nodup) {x : NodeId}
    (hx : x ∈ l) : (l.map f).filter (fun m => decide (dst m = x)) = [f x] := by
  rw [List.filter_map]
  have : l.filter ((fun m => decide (dst m = x)) ∘ f) = [x] := by
    induction l with
    | nil => cases hx
    | cons y l ih =>
      have hn := List.nodup_cons.1 hl
      simp only [List.filter_cons, Function.comp, hf, decide_eq_true_eq]
      rcases List.mem_cons.1 hx with rfl | hx
      · have : l.filter (fun z => decide (z = x)) = [] :=
          List.filter_eq_nil_iff.2 fun z hz => by simpa using fun e : z = x => hn.1 (e ▸ hz)
        rw [if_pos rfl]
        simp only [Function.comp_def, hf, this]
      · rw [if_neg fun e : y = x => hn.1 (e ▸ hx)]
        exact ih hn.2 hx
  rw [this]
  rfl

end Omni
