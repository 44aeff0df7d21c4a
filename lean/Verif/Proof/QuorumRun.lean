import Verif.Proof.DecidedIdx
import Verif.Proof.OwnPid
/-
The bookkeeping of Proof/Quorum.lean along the runs on the arbitrary network.
-/
namespace Omni

variable {E S : Type}

/-- What server `me` was sent, and the pids given to `reconnected`. -/
def Ev.ofSent (cc : ClusterConfig) (A : NodeId → Prop) (sent : List (Message E S)) (me : NodeId) : Ev where
  me := me
  q := Quorum.with cc.flexible_quorum ((SP.peersOf cc.nodes me).length + 1)
  node j := j ∈ cc.nodes
  ask := A
  prep n := ∃ p : Prepare, p.n = n ∧ .paxos { src := n.pid, dst := me, msg := .prepare p } ∈ sent
  led n := ∃ m : PaxosMsg E S, m.leaderBallot = some n ∧ .paxos { src := n.pid, dst := me, msg := m } ∈ sent
  prom n j := ∃ p : Promise E S, p.n = n ∧ .paxos { src := j, dst := me, msg := .promise p } ∈ sent
  sync n := ∃ a : AcceptSync E S, a.n = n ∧ .paxos { src := n.pid, dst := me, msg := .acceptSync a } ∈ sent
  ack n j k := ∃ a : Accepted, a.n = n ∧ a.accepted_idx = k ∧ .paxos { src := j, dst := me, msg := .accepted a } ∈ sent

/-- More evidence. -/
structure Ev.le (R R' : Ev) : Prop where
  me : R'.me = R.me
  q : R'.q = R.q
  node : R'.node = R.node
  ask : ∀ j, R.ask j → R'.ask j
  prep : ∀ n, R.prep n → R'.prep n
  led : ∀ n, R.led n → R'.led n
  prom : ∀ n j, R.prom n j → R'.prom n j
  sync : ∀ n, R.sync n → R'.sync n
  ack : ∀ n j k, R.ack n j k → R'.ack n j k

theorem Ev.ofSent_le (cc : ClusterConfig) {A B : NodeId → Prop} (hA : ∀ p, A p → B p) {xs ys : List (Message E S)} (h : ∀ m ∈ xs, m ∈ ys) (i : NodeId) :
    Ev.le (Ev.ofSent cc A xs i) (Ev.ofSent cc B ys i) :=
  ⟨rfl, rfl, rfl, hA, fun _ ⟨p, h1, h2⟩ => ⟨p, h1, h _ h2⟩, fun _ ⟨p, h1, h2⟩ => ⟨p, h1, h _ h2⟩,
    fun _ _ ⟨p, h1, h2⟩ => ⟨p, h1, h _ h2⟩, fun _ ⟨p, h1, h2⟩ => ⟨p, h1, h _ h2⟩,
    fun _ _ _ ⟨p, h0, h1, h2⟩ => ⟨p, h0, h1, h _ h2⟩⟩

theorem Ev.Promised.mono {R R' : Ev} (hR : R.le R') {n : Ballot} (h : R.Promised n) : R'.Promised n := by
  obtain ⟨Q, h1, h2, h3⟩ := h
  exact ⟨Q, h1, by rw [hR.q]; exact h2, fun j hj => (h3 j hj).imp (fun e => e.trans hR.me.symm) (hR.prom n j)⟩

theorem Ev.peer_mono {R R' : Ev} (hR : R.le R') {j : NodeId} (h : R.peer j) : R'.peer j := by
  unfold Ev.peer; rw [hR.node, hR.me]; exact h

theorem Ev.msg_mono {R R' : Ev} (hR : R.le R') {b : Ballot} {m : PaxosMessage E S} (h : R.msg b m) : R'.msg b m := by
  obtain ⟨src, dst, m⟩ := m
  obtain ⟨h1, h2⟩ := h
  refine ⟨h1.trans hR.me.symm, ?_⟩
  cases m <;> simp only [hR.me] at h2 ⊢
  · exact ⟨h2.1, by rw [hR.node]; exact h2.2.imp id (hR.ask _)⟩
  · exact ⟨Ev.peer_mono hR h2.1, h2.2⟩
  · exact ⟨Ev.peer_mono hR h2.1, h2.2.1, h2.2.2.1, hR.prep _ h2.2.2.2⟩
  · exact ⟨Ev.peer_mono hR h2.1, h2.2.1, hR.prom _ _ h2.2.2⟩
  · exact ⟨Ev.peer_mono hR h2.1, h2.2.1, hR.prom _ _ h2.2.2⟩
  · exact ⟨h2.1, Ev.peer_mono hR h2.2.1, hR.sync _ h2.2.2⟩
  · obtain ⟨k1, k2, k, k3, k4, k5⟩ := h2
    exact ⟨Ev.peer_mono hR k1, k2, k, k3, k4, hR.led _ k5⟩
  · exact ⟨Ev.peer_mono hR h2.1, h2.2.1, hR.prom _ _ h2.2.2⟩
  · exact Ev.peer_mono hR h2
  · exact Ev.peer_mono hR h2
  · exact ⟨Ev.peer_mono hR h2.1, h2.2.1, hR.prom _ _ h2.2.2⟩
  · exact Ev.peer_mono hR h2

theorem QI.mono {R R' : Ev} (hR : R.le R') {s : SP E S} (h : QI R s) : QI R' s := by
  refine ⟨h.pid.trans hR.me.symm, h.quo.trans hR.q.symm, by rw [hR.me]; exact h.lead, fun m hm => Ev.msg_mono hR (h.out m hm),
    fun p hp => ?_, fun k m hk => ?_, fun k a hk => ?_, fun e e' => (h.quorum e e').mono hR, fun er e => ?_,
    fun p hp => Ev.peer_mono hR (h.peers p hp), ?_⟩
  · have := h.cached p hp
    exact ⟨this.1, Ev.peer_mono hR this.2.1, hR.prep _ this.2.2⟩
  · rw [hR.me]; exact (h.slots k m hk).imp id fun x => ⟨Ev.peer_mono hR x.1, hR.prom _ _ x.2⟩
  · rw [hR.me]; exact (h.acks k a hk).imp id (Or.imp id (hR.ack _ _ _))
  · exact ⟨Ev.peer_mono hR (h.acc er e).1, hR.sync _ (h.acc er e).2⟩
  · rw [hR.me]; exact h.prom.imp id (Or.imp id (Ev.peer_mono hR))

theorem QI.clear {R : Ev} {op : OP E S} (h : QI R op.sp) : QI R op.clearTrail.sp :=
  ⟨h.pid, h.quo, h.lead, h.out, h.cached, h.slots, h.acks, h.quorum, h.acc, h.peers, h.prom⟩

variable [SnapOps E S] {A : NodeId → Prop}

structure QRun (cc : ClusterConfig) (A : NodeId → Prop) (c : Loose E S) : Prop where
  srv : ∀ i op, c.servers i = .up op → i ∈ cc.nodes ∧ QI (Ev.ofSent cc A c.sent i) op.sp
  src : ∀ m, .paxos m ∈ c.sent → m.src ∈ cc.nodes
  at_ : ∀ k m, c.sent[k]? = some (.paxos m) → (Ev.ofSent cc A (c.sent.take k) m.src).msg (c.servers m.src).promise m

theorem QRun.msg {cc : ClusterConfig} {c : Loose E S} (h : QRun cc A c) (m : PaxosMessage E S) (hm : .paxos m ∈ c.sent) :
    (Ev.ofSent cc A c.sent m.src).msg (c.servers m.src).promise m := by
  obtain ⟨k, hk⟩ := List.mem_iff_getElem?.1 hm
  exact Ev.msg_mono (Ev.ofSent_le cc (fun _ h => h) (fun _ hx => List.mem_of_mem_take hx) _) (h.at_ k m hk)

theorem QRun.prom {cc : ClusterConfig} {c : Loose E S} (h : QRun cc A c) {m : PaxosMessage E S} {p : Promise E S}
    (hm : .paxos m ∈ c.sent) (hp : m.msg = .promise p) : p.n ≤ (c.servers m.src).promise := by
  have := (h.msg m hm).2
  rw [hp] at this
  exact this.2.1

theorem QRun.dec {cc : ClusterConfig} {c : Loose E S} (h : QRun cc A c) {m : PaxosMessage E S} {d : Decide}
    (hm : .paxos m ∈ c.sent) (hp : m.msg = .decide d) : d.n.pid = m.src ∧ m.dst ≠ m.src := by
  have := (h.msg m hm).2
  rw [hp] at this
  exact ⟨this.2.1, this.1.2⟩

theorem Loose.promise_mono {cc : ClusterConfig} {c c' : Loose E S} {pre as : List (LAction E S)}
    (hpre : Loose.init.run cc pre = some c) (hr : c.run cc as = some c') (j : NodeId) :
    (c.servers j).promise ≤ (c'.servers j).promise := by
  obtain ⟨e1, h1⟩ := Loose.run_life hpre j
  obtain ⟨e2, h2⟩ := Loose.run_life hr j
  have h0 : LifeInv {} 0 (.of {}) ((Loose.init : Loose E S).servers j) := LifeInv.start (d := {}) rfl (.of {})
  have h3 := Server.lives_inv (l := .of {}) (Ballot.le_refl _) h0 h1
  exact (Server.lives_inv (l := .of {}) (Ballot.default_le _) h3.rebase h2).bounds.1

theorem Prov.bal_eq {cc : ClusterConfig} {acts : List (LAction E S)} {i j : NodeId} {a b : Ballot}
    (ha : (Prov.ofRun cc acts i).bal a) (hb : (Prov.ofRun cc acts j).bal b) (h : a.cmp b = .eq) : a = b := by
  obtain ⟨h1, h2, h3⟩ := (Ballot.cmp_eq_iff a b).1 h
  rcases ha with rfl | ha
  · rcases hb with rfl | hb
    · rfl
    · exact absurd h3.symm hb.2.2
  · rcases hb with rfl | hb
    · exact absurd h3 ha.2.2
    · exact Ballot.eq_of (ha.1.trans hb.1.symm) h

/-- The message is one of those sent to the server. -/
theorem Ev.given_ofSent {cc : ClusterConfig} {c : Loose E S} (h : QRun cc A c) {m : PaxosMessage E S}
    (hm : .paxos m ∈ c.sent) : (Ev.ofSent cc A c.sent m.dst).given m := by
  have hs := h.src m hm
  have h2 := (h.msg m hm).2
  obtain ⟨src, dst, msg⟩ := m
  unfold Ev.given
  have peer : (Ev.ofSent cc A c.sent src).peer dst → (Ev.ofSent cc A c.sent dst).peer src := fun x => ⟨hs, fun e => x.2 e.symm⟩
  cases msg <;> simp only at h2 ⊢
  · exact ⟨hs, fun e => h2.1 e.symm⟩
  · obtain ⟨k1, k2⟩ := h2
    have k2 : _ = src := k2
    exact ⟨peer k1, k2, _, rfl, by rw [k2]; exact hm⟩
  · exact ⟨peer h2.1, _, rfl, hm⟩
  · obtain ⟨k1, k2, -⟩ := h2
    have k2 : _ = src := k2
    exact ⟨peer k1, k2, ⟨_, rfl, by rw [k2]; exact hm⟩, _, rfl, by rw [k2]; exact hm⟩
  · obtain ⟨k1, k2, -⟩ := h2
    have k2 : _ = src := k2
    exact ⟨peer k1, k2, _, rfl, by rw [k2]; exact hm⟩
  · exact ⟨_, rfl, rfl, hm⟩
  · obtain ⟨k1, k2, -⟩ := h2
    have k2 : _ = src := k2
    exact ⟨peer k1, k2, _, rfl, by rw [k2]; exact hm⟩
  · obtain ⟨k1, k2, -⟩ := h2
    have k2 : _ = src := k2
    exact ⟨peer k1, k2, _, rfl, by rw [k2]; exact hm⟩

/-- A ballot of which a leader sent a message is one of the cluster. -/
theorem QRun.bal {cc : ClusterConfig} {acts : List (LAction E S)} {c : Loose E S}
    (hr : Loose.init.run cc acts = some c) (h : QRun cc A c) {m : PaxosMessage E S} (hm : .paxos m ∈ c.sent) {b : Ballot}
    (hb : m.msg.leaderBallot = some b) (i : NodeId) : (Prov.ofRun cc acts i).bal b := by
  have prep : ∀ {m : PaxosMessage E S} {p : Prepare}, .paxos m ∈ c.sent → m.msg = .prepare p → (Prov.ofRun cc acts i).bal p.n := by
    intro m p hm e
    have := Prov.message_any ((Prov.runs hr).sent _ hm) i
    unfold Prov.message at this
    simp only [e] at this
    exact this
  have prom : ∀ {n : Ballot} {j k : NodeId}, (Ev.ofSent cc A c.sent j).prom n k → (Prov.ofRun cc acts i).bal n := by
    rintro n j k ⟨p, rfl, h1⟩
    have := (h.msg _ h1).2
    simp only at this
    obtain ⟨-, -, -, q, h2, h3⟩ := this
    rw [← h2]
    exact prep h3 rfl
  have h2 := (h.msg m hm).2
  cases he : m.msg <;> rw [he] at hb h2 <;> cases hb
  · exact prep hm he
  · exact prom h2.2.2
  · exact prom h2.2.2
  · exact prom h2.2.2
  · exact prom h2.2.2

theorem QRun.call {cc : ClusterConfig} {acts : List (LAction E S)} {c : Loose E S}
    (hr : Loose.init.run cc acts = some c) (h : QRun cc A c) {i : NodeId} {op : OP E S} (hu : c.servers i = .up op)
    {call : Call E S} (hA : ∀ p, call = .reconnected p → A p) (hc : ∀ m, call = .handleIncoming m → m ∈ c.sent ∧ m.dst = i) {op' : OP E S}
    (ho : op.callResult call = .up op') : QI (Ev.ofSent cc A c.sent i) op'.sp := by
  have h1 := (h.srv i op hu).2
  have p1 := (Prov.runs hr).servers i
  rw [hu] at p1
  have hp := OwnPid.runs hr hu
  have hs := OP.run_closedOn (op := op.clearTrail) (SP.closed_q (R := Ev.ofSent cc A c.sent i))
    (fun n hn => hn.elim (·.trans hp.1) (·.trans hp.2)) h1.clear call (fun p e => .inr (hA p e)) (fun m e => by
    obtain ⟨hm, hd⟩ := hc _ e
    have hd : m.dst = i := hd
    refine SP.q_handle h1.clear (hd ▸ Ev.given_ofSent h hm) fun b hb hcmp => ?_
    exact Prov.bal_eq p1.sp.ist.cprom (h.bal hr hm hb i) hcmp) (fun j _ => SP.q_trim h1.clear j)
    fun j l _ => SP.q_snapshot h1.clear j l
  unfold OP.callResult at ho
  unfold M.Sat at hs
  split at hs <;> rename_i e <;> rw [e] at ho
  · cases ho; exact hs
  · cases ho

theorem QRun.build {cc : ClusterConfig} {cfg : ServerConfig} {d : Mem E S} {op : OP E S}
    (hb : OP.build { cluster_config := cc, server_config := cfg } d = some (.ok op)) (sent : List (Message E S))
    (hd : (d.n_prom.getD {}).pid = 0 ∨ (d.n_prom.getD {}).pid ∈ cc.nodes) :
    QI (Ev.ofSent cc A sent cfg.pid) op.sp := by
  obtain ⟨mp, -, rfl⟩ := OP.build_eq hb
  have hpeer : ∀ p ∈ SP.peersOf cc.nodes cfg.pid, (Ev.ofSent cc A sent cfg.pid).peer p := by
    intro p hp
    obtain ⟨h1, h2⟩ := List.mem_filter.1 hp
    exact ⟨h1, of_decide_eq_true h2⟩
  refine ⟨rfl, rfl, nofun, fun m hm => ?_, nofun, fun k m hk => ?_, fun k a hk => ?_, nofun, fun _ e => ?_, hpeer, ?_⟩
  · simp only at hm
    split at hm
    · obtain ⟨p, hp, rfl⟩ := List.mem_map.1 hm
      exact ⟨rfl, (hpeer p hp).2, .inl (hpeer p hp).1⟩
    · cases hm
  · simp only [LeaderState.with, List.getElem?_replicate] at hk; split at hk <;> cases hk
  · simp only [LeaderState.with, List.getElem?_replicate] at hk; split at hk
    · cases hk; exact .inl rfl
    · cases hk
  · simp only at e; split at e <;> cases e
  · refine hd.imp id fun h => ?_
    by_cases e : (d.n_prom.getD {}).pid = cfg.pid
    · exact .inl e
    · exact .inr ⟨h, e⟩

theorem QRun.step {cc : ClusterConfig} {acts : List (LAction E S)} {a : LAction E S} {c c' : Loose E S}
    (hr : Loose.init.run cc acts = some c) (h : QRun cc A c) (hA : ∀ i p, a = .call i (.reconnected p) → A p) (hs : c.step cc a = some c') : QRun cc A c' := by
  have hmono : ∀ j, (c.servers j).promise ≤ (c'.servers j).promise :=
    Loose.promise_mono (as := [a]) hr (by simp only [Loose.run, hs])
  -- one server changes, nothing is sent
  have one : ∀ (i : NodeId) (s : Server E S), c' = c.setServer i s →
      (∀ op, s = .up op → i ∈ cc.nodes ∧ QI (Ev.ofSent cc A c.sent i) op.sp) → QRun cc A c' := by
    intro i s e hsv
    have hsent : c'.sent = c.sent := by rw [e]; rfl
    refine ⟨fun j op hj => ?_, by rw [hsent]; exact h.src, fun k m hm => ?_⟩
    · rw [hsent]
      by_cases hji : j = i
      · subst hji
        rw [e, Loose.setServer_same] at hj
        exact hsv op hj
      · rw [e, Loose.setServer_ne c hji] at hj
        exact h.srv j op hj
    · rw [hsent] at hm ⊢
      exact SP.msg_mono (hmono _) (h.at_ k m hm)
  have down : ∀ (i : NodeId) (d : Mem E S), c' = c.setServer i (.down d) → QRun cc A c' :=
    fun i d e => one i _ e fun op h => by cases h
  cases a with
  | start i cfg =>
    simp only [Loose.step] at hs
    split at hs
    · cases hs
    · rename_i d hdown
      split at hs
      · rename_i hp
        split at hs
        · rename_i op hb
          cases hs
          refine one i _ rfl fun op' e => ?_
          cases e
          subst hp
          refine ⟨(OP.build_node hb).2.1, QRun.build hb _ ?_⟩
          have hprov := (Prov.runs hr).servers cfg.pid
          rw [hdown] at hprov
          cases e : d.n_prom with
          | none => exact .inl rfl
          | some b => exact (hprov.prom b e).imp (fun e => by rw [Option.getD_some, e]) fun e => by rw [Option.getD_some]; exact e.2.1
        · cases hs
      · cases hs
  | crash i =>
    simp only [Loose.step] at hs
    split at hs
    · cases hs; exact down i _ rfl
    · cases hs
  | call i call =>
    simp only [Loose.step] at hs
    split at hs
    · rename_i op hu
      split at hs
      · cases hs
      · rename_i hc
        cases hs
        exact one i _ rfl fun op' e => ⟨(h.srv i op hu).1, h.call hr hu (fun p e' => hA i p (by rw [e'])) (fun m e' => by
          rw [e'] at hc; simp [Call.isIncoming] at hc) e⟩
    · cases hs
  | crashCall i call k =>
    simp only [Loose.step] at hs
    split at hs
    · split at hs
      · cases hs
      · split at hs
        · cases hs; exact down i _ rfl
        · cases hs
    · cases hs
  | take i =>
    simp only [Loose.step] at hs
    split at hs
    · rename_i op hu
      have hi := h.srv i op hu
      have hout : ∀ m, .paxos m ∈ (op.take_outgoing_messages []).1 → m ∈ op.sp.outgoing := by
        intro m hm
        simp only [OP.take_outgoing_messages, SP.take_outgoing_msgs, List.isEmpty_nil, if_true, List.mem_append, List.mem_map] at hm
        rcases hm with ⟨x, hx, e⟩ | ⟨x, hx, e⟩
        · cases e; exact hx
        · cases e
      cases hs
      have hle : ∀ j, Ev.le (Ev.ofSent cc A c.sent j) (Ev.ofSent cc A (c.sent ++ (op.take_outgoing_messages []).1) j) :=
        Ev.ofSent_le cc (fun _ h => h) fun m hm => List.mem_append.2 (.inl hm)
      refine ⟨fun j op' hj => ?_, fun m hm => ?_, fun k m hm => ?_⟩
      · simp only at hj
        split at hj
        · rename_i e
          subst e
          cases hj
          refine ⟨hi.1, QI.mono (hle _) ?_⟩
          exact ⟨hi.2.pid, hi.2.quo, hi.2.lead, nofun, hi.2.cached, hi.2.slots, hi.2.acks, hi.2.quorum, hi.2.acc, hi.2.peers, hi.2.prom⟩
        · exact ⟨(h.srv j op' hj).1, (h.srv j op' hj).2.mono (hle j)⟩
      · rcases List.mem_append.1 hm with hm | hm
        · exact h.src m hm
        · rw [(hi.2.out m (hout m hm)).1]; exact hi.1
      · refine SP.msg_mono (hmono _) ?_
        simp only at hm ⊢
        by_cases hk : k < c.sent.length
        · rw [List.getElem?_append_left hk] at hm
          rw [List.take_append_of_le_length (Nat.le_of_lt hk)]
          exact h.at_ k m hm
        · rw [List.getElem?_append_right (Nat.le_of_not_lt hk)] at hm
          have ho := hi.2.out m (hout m (List.mem_of_getElem? hm))
          have e : m.src = i := ho.1
          rw [e, hu]
          refine Ev.msg_mono (Ev.ofSent_le cc (fun _ h => h) (fun x hx => ?_) _) ho
          rw [List.take_append, List.take_of_length_le (Nat.le_of_not_lt hk)]
          exact List.mem_append.2 (.inl hx)
    · cases hs
  | deliver n =>
    simp only [Loose.step] at hs
    split at hs
    · cases hs
    · rename_i m hm
      split at hs
      · cases hs
      · rename_i op hu
        cases hs
        exact one m.dst _ rfl fun op' e => ⟨(h.srv _ op hu).1, h.call hr hu (fun p e => by cases e) (fun m' e' => by
          cases e'; exact ⟨List.mem_of_getElem? hm, rfl⟩) e⟩
  | crashDeliver n k =>
    simp only [Loose.step] at hs
    split at hs
    · cases hs
    · split at hs
      · cases hs
      · split at hs
        · cases hs; exact down _ _ rfl
        · cases hs

theorem QRun.init {cc : ClusterConfig} : QRun cc A (Loose.init : Loose E S) := by
  have hs : ∀ m, m ∉ (Loose.init : Loose E S).sent := fun m hm => by cases hm
  refine ⟨fun i op e => ?_, fun m hm => absurd hm (hs _), fun k m hm => absurd (List.mem_of_getElem? hm) (hs _)⟩
  simp [Loose.init] at e

theorem QRun.runsOn {cc : ClusterConfig} {acts : List (LAction E S)} {c : Loose E S} (hr : Loose.init.run cc acts = some c)
    (hA : ∀ i p, .call i (.reconnected p) ∈ acts → A p) : QRun cc A c := by
  have key : ∀ (post pre : List (LAction E S)) (d : Loose E S), (∀ i p, .call i (.reconnected p) ∈ post → A p) →
      Loose.init.run cc pre = some d → QRun cc A d → ∀ d', d.run cc post = some d' → QRun cc A d' := by
    intro post
    induction post with
    | nil => intro pre d _ _ hd d' h; cases h; exact hd
    | cons a post ih =>
      intro pre d hA hpre hd d' h
      simp only [Loose.run] at h
      split at h
      · cases h
      · rename_i d1 h1
        refine ih (pre ++ [a]) d1 (fun i p hp => hA i p (.tail _ hp)) ?_ (QRun.step hpre hd (fun i p e => hA i p (e ▸ .head _)) h1) d' h
        rw [Loose.run_append, hpre]
        simp only [Option.bind, Loose.run, h1]
  exact key acts [] Loose.init hA rfl QRun.init c hr

theorem QRun.runs {cc : ClusterConfig} {acts : List (LAction E S)} {c : Loose E S} (hr : Loose.init.run cc acts = some c) :
    QRun cc (fun p => ∃ i, .call i (.reconnected p) ∈ acts) c := QRun.runsOn hr fun i _ h => ⟨i, h⟩

/-! ### The decided index of a leader -/

omit [SnapOps E S] in
theorem SP.guard_true {s : SP E S} (n : Ballot) (q : SeqNum) (any : Bool) : M.Sat (SP.accept_guard n q any) s
    (fun r _ => r = true → s.ist.cache.promise.cmp n = .eq ∧ (any = true ∨ s.role = .follower)) (fun _ => True) := by
  unfold SP.accept_guard
  rw [M.sat_bind]
  refine M.sat_mono (SP.check_valid_true n) (fun ok t ht => ?_) fun _ _ => trivial
  simp only [M.sat_bind, M.sat_get, M.sat_ite, M.sat_pure]
  refine ⟨fun hg => M.sat_mono (M.sat_true _ _) (fun _ _ _ _ => ?_) fun _ _ => trivial, fun _ => nofun⟩
  obtain ⟨rfl, hc⟩ := ht hg.1
  exact ⟨hc, hg.2.1⟩

/-- A leader in the Accept phase: messages other than Accepted, and other than Decide of its own ballot. -/
theorem SP.d_handle_leading {s : SP E S} {J : Nat → Prop} (h : DI J 0 s.ist) (hr : s.role = .leader) (hp : s.phase = .accept)
    {m : PaxosMessage E S} (h1 : ∀ a, m.msg ≠ .accepted a)
    (h2 : ∀ d, m.msg = .decide d → s.ist.cache.promise.cmp d.n ≠ .eq) :
    M.Sat (SP.handle m) s (fun _ t => DI J 0 t.ist) (fun _ => True) := by
  have keepW : ∀ {α : Type} {m : M (SP E S) α}, KeepsD J 0 m s → M.Sat m s (fun _ t => DI J 0 t.ist) (fun _ => True) :=
    fun h => M.sat_mono h (fun _ _ h => h) fun _ _ => trivial
  have guard : ∀ (n : Ballot) (q : SeqNum) (any : Bool) (f : M (SP E S) Unit),
      ¬ (s.ist.cache.promise.cmp n = .eq ∧ (any = true ∨ s.role = .follower)) →
      M.Sat (SP.accept_guard n q any >>= fun ok => if ok then f else pure ()) s (fun _ t => DI J 0 t.ist) (fun _ => True) := by
    intro n q any f hn
    rw [M.sat_bind]
    refine M.sat_mono (M.sat_and (keepW (SP.d_accept_guard h n q any)) (SP.guard_true n q any)) (fun ok t ht => ?_) fun _ _ => trivial
    rw [M.sat_ite]
    exact ⟨fun e => absurd (ht.2 e) hn, fun _ => ht.1⟩
  unfold SP.handle
  split <;> rename_i heq
  · exact keepW (d_handle_preparereq h _ _)
  · exact keepW (d_handle_prepare h _ _)
  · simp only [handle_promise, M.sat_bind, M.sat_get]
    split
    · rename_i e; rw [hp] at e; cases e
    · exact keepW (d_handle_promise_accept h _ _)
    · exact h
  · unfold handle_acceptsync
    rw [M.sat_bind]
    refine M.sat_mono (M.sat_and (keepW (SP.d_check_valid_ballot h _)) (SP.check_valid_true _)) (fun ok t ht => ?_) fun _ _ => trivial
    rw [M.sat_bind, M.sat_get, M.sat_ite]
    refine ⟨fun hg => ?_, fun _ => ht.1⟩
    obtain ⟨rfl, -⟩ := ht.2 hg.1
    rw [hr] at hg; cases hg.2.1
  · exact guard _ _ _ _ (by simp [hr])
  · exact keepW (d_handle_notaccepted h _ _)
  · exact absurd heq (h1 _)
  · exact guard _ _ _ _ (by simp [h2 _ heq])
  · exact keepW (d_handle_forwarded_proposal h _)
  · exact keepW (d_handle_compaction h _)
  · exact keepW (d_handle_accept_stopsign h _)
  · exact keepW (d_handle_forwarded_stopsign h _)

/-- A leader in the Accept phase changes its decided index only on an Accepted message, to an index that a quorum acknowledged. -/
theorem QRun.decided {cc : ClusterConfig} {acts : List (LAction E S)} {c : Loose E S}
    (hr : Loose.init.run cc acts = some c) {i : NodeId} {op : OP E S}
    (hu : c.servers i = .up op) (hrole : op.sp.role = .leader) (hph : op.sp.phase = .accept)
    {call : Call E S} (hc : ∀ m, call = .handleIncoming m → m ∈ c.sent ∧ m.dst = i) {op' : OP E S}
    (ho : op.callResult call = .up op') :
    op'.sp.ist.cache.decided_idx = op.sp.ist.cache.decided_idx ∨
      (op.sp.ist.cache.decided_idx < op'.sp.ist.cache.decided_idx ∧
        (Ev.ofSent cc (fun p => ∃ i, .call i (.reconnected p) ∈ acts) c.sent i).Acked op.sp.ls.n_leader op'.sp.ist.cache.decided_idx) := by
  have h := QRun.runs hr
  have h1 := (h.srv i op hu).2
  obtain ⟨l1, l2⟩ := h1.lead hrole
  have hmir : op.sp.ist.storage.ld = op.sp.ist.cache.decided_idx := (Loose.server_inv hr hu).ist.mir.dec.symm
  have fin : ∀ {P : SP E S → Prop}, M.Sat call.run op.clearTrail (fun _ t => P t.sp) (fun _ => True) → P op'.sp := by
    intro P hs
    unfold OP.callResult at ho
    unfold M.Sat at hs
    split at hs <;> rename_i e <;> rw [e] at ho
    · cases ho; exact hs
    · cases ho
  by_cases hacc : ∃ m a, call = .handleIncoming (.paxos m) ∧ m.msg = .accepted a
  · obtain ⟨m, a, rfl, ha⟩ := hacc
    obtain ⟨hm, hd⟩ := hc _ rfl
    have hd : m.dst = i := hd
    refine fin (P := fun s => s.ist.cache.decided_idx = op.sp.ist.cache.decided_idx ∨
      (op.sp.ist.cache.decided_idx < s.ist.cache.decided_idx ∧
        (Ev.ofSent cc (fun p => ∃ i, .call i (.reconnected p) ∈ acts) c.sent i).Acked op.sp.ls.n_leader s.ist.cache.decided_idx)) ?_
    have hg := Ev.given_ofSent h hm
    unfold Ev.given at hg
    rw [ha, hd] at hg
    simp only [Call.run, OP.handle_incoming, OP.sat_onSP, SP.handle, ha]
    exact M.sat_mono (SP.q_handle_accepted h1.clear hg) (fun _ _ ht => ht.2) fun _ h => h
  · left
    have h0 : DI (· = op.sp.ist.cache.decided_idx) 0 op.clearTrail.sp.ist := ⟨rfl, Nat.zero_le _, hmir, nofun⟩
    refine (fin (P := fun s => DI (· = op.sp.ist.cache.decided_idx) 0 s.ist) ?_).dec
    refine OP.run_closed (op := op.clearTrail) (Q := fun s => DI (· = op.sp.ist.cache.decided_idx) 0 s.ist) (P := fun _ => True)
      ⟨⟨?_, ?_, ?_, ?_, ?_, ?_⟩, ?_, ?_⟩ h0 call fun m e => ?_
    all_goals first
      | exact fun n s h => M.sat_mono (SP.closed_d.lead n s h) (fun _ _ h => h) fun _ _ => trivial
      | exact fun s h => M.sat_mono (SP.closed_d.resend s h) (fun _ _ h => h) fun _ _ => trivial
      | exact fun s h => M.sat_mono (SP.closed_d.flush s h) (fun _ _ h => h) fun _ _ => trivial
      | exact fun n s h => M.sat_mono (SP.closed_d.append n s h) (fun _ _ h => h) fun _ _ => trivial
      | exact fun n k s h => M.sat_mono (SP.closed_d.reconf n k s h) (fun _ _ h => h) fun _ _ => trivial
      | exact fun n s h => M.sat_mono (SP.closed_d.recon n s h) (fun _ _ h => h) fun _ _ => trivial
      | exact fun n s h => M.sat_mono (SP.closed_d.trim n s h) (fun _ _ h => h) fun _ _ => trivial
      | exact fun n k s h => M.sat_mono (SP.closed_d.snap n k s h) (fun _ _ h => h) fun _ _ => trivial
      | skip
    obtain ⟨hm, hd⟩ := hc _ e
    have hd : m.dst = i := hd
    refine SP.d_handle_leading h0 hrole hph (fun a ha => hacc ⟨m, a, e, ha⟩) fun d hdec hcmp => ?_
    obtain ⟨g1, g2⟩ := h.dec hm hdec
    have : op.sp.ist.cache.promise.pid = d.n.pid := ((Ballot.cmp_eq_iff _ _).1 hcmp).2.2
    rw [← l1, l2, g1] at this
    exact g2 (hd.trans this)

/-! ### Quorum sizes -/

theorem peers_count {l : List NodeId} (hn : l.Nodup) {i : NodeId} (hi : i ∈ l) : (SP.peersOf l i).length + 1 = l.length := by
  unfold SP.peersOf
  induction l with
  | nil => cases hi
  | cons a l ih =>
    rw [List.nodup_cons] at hn
    rcases List.mem_cons.1 hi with rfl | hi
    · have : l.filter (fun x => decide (x ≠ i)) = l := by
        rw [List.filter_eq_self]
        intro x hx
        simp only [ne_eq, decide_eq_true_eq]
        rintro rfl; exact hn.1 hx
      rw [List.filter_cons_of_neg (by simp), this]; rfl
    · have ha : a ≠ i := by rintro rfl; exact hn.1 hi
      rw [List.filter_cons_of_pos (by simpa using ha)]
      simp only [List.length_cons]
      rw [ih hn.2 hi]

theorem prepare_size {cc : ClusterConfig} (hn : cc.nodes.Nodup) {i : NodeId} (hi : i ∈ cc.nodes) {k : Nat}
    (h : (Quorum.with cc.flexible_quorum ((SP.peersOf cc.nodes i).length + 1)).is_prepare_quorum k = true) :
    match cc.flexible_quorum with
    | none => cc.nodes.length < 2 * k
    | some q => q.read_quorum_size ≤ k := by
  rw [peers_count hn hi] at h
  unfold Quorum.with Quorum.is_prepare_quorum at h
  cases hq : cc.flexible_quorum with
  | none => rw [hq] at h; simp at h; simp only; omega
  | some q => rw [hq] at h; simpa using h

theorem accept_size {cc : ClusterConfig} (hn : cc.nodes.Nodup) {i : NodeId} (hi : i ∈ cc.nodes) {k : Nat}
    (h : (Quorum.with cc.flexible_quorum ((SP.peersOf cc.nodes i).length + 1)).is_accept_quorum k = true) :
    match cc.flexible_quorum with
    | none => cc.nodes.length < 2 * k
    | some q => q.write_quorum_size ≤ k := by
  rw [peers_count hn hi] at h
  unfold Quorum.with Quorum.is_accept_quorum at h
  cases hq : cc.flexible_quorum with
  | none => rw [hq] at h; simp at h; simp only; omega
  | some q => rw [hq] at h; simpa using h

end Omni
