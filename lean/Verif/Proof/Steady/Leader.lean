import Verif.Proof.Steady.Follower
import Verif.Proof.Progress.Steps
/-
Steady operation: the leader.
-/
namespace Omni

variable {E S : Type}

/-- The part of the leader's state that does not change in steady operation, and its own log; `P` are the servers that have promised. -/
structure LeadOf (P : NodeId → Prop) (cc : ClusterConfig) (n : Ballot) (k : Nat) (lg : List E) (ci : Nat) (X B : List E) (d : Nat) (s : SP E S) : Prop where
  role : s.role = .leader
  phase : s.phase = .accept
  pid : s.pid = n.pid
  peers : s.peers = SP.peersOf cc.nodes n.pid
  ballot : s.ls.n_leader = n
  quorum : s.ls.quorum = Quorum.with cc.flexible_quorum cc.nodes.length
  promised : ∀ i ∈ cc.nodes, P i → ∃ m, slot s.ls.promises_meta i = some (.promised m)
  slots : ∀ i ∈ cc.nodes, ∃ st, slot s.ls.promises_meta i = some st
  members : ∀ i m, slot s.ls.promises_meta i = some (.promised m) → i ∈ cc.nodes ∧ P i
  lam : s.latest_accepted_meta = none
  buf : s.buffered_proposals = []
  ist : Stored n k lg ci X B d s.ist
  dec : d ≤ k + X.length
  own : slot s.ls.accepted_indexes n.pid = some (k + X.length)
  size : n.pid ≠ 0 ∧ n.pid ≤ s.ls.max_pid ∧ ∃ r, slot s.ls.latest_accept_meta n.pid = some r ∧ r = none
  ends : ∀ m ∈ s.outgoing, (m.dst ∈ cc.nodes ∧ m.dst ≠ n.pid) ∧ m.src = n.pid

/-- All have promised. -/
abbrev Lead (cc : ClusterConfig) (n : Ballot) (k : Nat) (lg : List E) (ci : Nat) (X B : List E) (d : Nat) (s : SP E S) : Prop :=
  LeadOf (fun _ => True) cc n k lg ci X B d s

/-- What the leader keeps about follower `f`: the last sequence number, the accepted index, the messages waiting to be sent. -/
structure Keeps (n : Ballot) (f : NodeId) (q : SeqNum) (a : Nat) (ms : List (PaxosMsg E S)) (s : SP E S) : Prop where
  pos : f ≠ 0
  size : f ≤ s.ls.max_pid
  seq : slot s.ls.follower_seq_nums f = some q
  acc : slot s.ls.accepted_indexes f = some a
  outs : ms = (s.outgoing.filter fun m => decide (m.dst = f)).map (·.msg)
  lam : ∃ r, slot s.ls.latest_accept_meta f = some r ∧ ∀ b idx, r = some (b, idx) → b = n ∧ ∃ p x r, s.outgoing = p ++ x :: r ∧
    p.length = idx ∧ x.dst = f ∧ (∃ y, x.msg = .acceptDecide y) ∧ ∀ z ∈ r, z.dst ≠ f

/-- Only the messages, their positions and the sequence numbers changed; there may be new messages for the servers in `D`. -/
structure Sends (n : Ballot) (D : NodeId → Prop) (s s' : SP E S) : Prop where
  eq : s' = { s with outgoing := s'.outgoing, ls := { s.ls with follower_seq_nums := s'.ls.follower_seq_nums, latest_accept_meta := s'.ls.latest_accept_meta } }
  own : slot s'.ls.latest_accept_meta n.pid = slot s.ls.latest_accept_meta n.pid
  ends : ∀ m ∈ s'.outgoing, (D m.dst ∧ m.src = s.pid) ∨ ∃ m0 ∈ s.outgoing, m0.dst = m.dst ∧ m0.src = m.src

variable {n : Ballot} {D : NodeId → Prop}

theorem Sends.refl (s : SP E S) : Sends n D s s := ⟨rfl, rfl, fun m hm => .inr ⟨m, hm, rfl, rfl⟩⟩

theorem Sends.mono {D' : NodeId → Prop} {s t : SP E S} (h : Sends n D s t) (hD : ∀ x, D x → D' x) : Sends n D' s t :=
  ⟨h.eq, h.own, fun m hm => (h.ends m hm).imp (fun h => ⟨hD _ h.1, h.2⟩) fun h => h⟩

theorem Sends.trans {s t u : SP E S} (h : Sends n D s t) (h' : Sends n D t u) : Sends n D s u := by
  refine ⟨?_, h'.own.trans h.own, fun m hm => ?_⟩
  · have h1 := h.eq
    have h2 := h'.eq
    rw [h1] at h2
    exact h2
  · rcases h'.ends m hm with ⟨h1, h2⟩ | ⟨m1, h1, h2, h3⟩
    · exact .inl ⟨h1, h2.trans (by rw [h.eq])⟩
    · rw [← h2, ← h3]
      exact h.ends m1 h1

theorem Sends.lead {P : NodeId → Prop} {cc : ClusterConfig} {k : Nat} {lg : List E} {ci : Nat} {X B : List E} {d : Nat} {s s' : SP E S}
    (h : Sends n D s s') (hD : ∀ x, D x → x ∈ cc.nodes ∧ x ≠ n.pid) (hl : LeadOf P cc n k lg ci X B d s) : LeadOf P cc n k lg ci X B d s' := by
  have he : ∀ m ∈ s'.outgoing, (m.dst ∈ cc.nodes ∧ m.dst ≠ n.pid) ∧ m.src = n.pid := fun m hm => by
    rcases h.ends m hm with ⟨h1, h2⟩ | ⟨m1, h1, h2, h3⟩
    · exact ⟨hD _ h1, h2.trans hl.pid⟩
    · rw [← h2, ← h3]
      exact hl.ends m1 h1
  have ho := h.own
  have hs := h.eq
  generalize s'.outgoing = o at *
  generalize s'.ls.follower_seq_nums = q at *
  generalize s'.ls.latest_accept_meta = r at *
  subst hs
  exact ⟨hl.role, hl.phase, hl.pid, hl.peers, hl.ballot, hl.quorum, hl.promised, hl.slots, hl.members, hl.lam, hl.buf, hl.ist, hl.dec, hl.own,
    ⟨hl.size.1, hl.size.2.1, by simp only [ho]; exact hl.size.2.2⟩, he⟩

/-- A further message for `g`. -/
theorem Keeps.other {f g : NodeId} {q : SeqNum} {a : Nat} {ms : List (PaxosMsg E S)} {s : SP E S} (h : Keeps n f q a ms s) (hg : f ≠ g)
    {m : PaxosMsg E S} {src : NodeId} {ls : LeaderState E S} (h1 : ls.max_pid = s.ls.max_pid)
    (h2 : slot ls.follower_seq_nums f = slot s.ls.follower_seq_nums f) (h3 : ls.accepted_indexes = s.ls.accepted_indexes)
    (h4 : slot ls.latest_accept_meta f = slot s.ls.latest_accept_meta f) :
    Keeps n f q a ms { s with ls, outgoing := s.outgoing ++ [{ src, dst := g, msg := m }] } := by
  refine ⟨h.pos, by simp only [h1]; exact h.size, by simp only [h2]; exact h.seq, by simp only [h3]; exact h.acc, ?_, ?_⟩
  · simp [h.outs, List.filter_append, Ne.symm hg]
  · obtain ⟨r, e1, e2⟩ := h.lam
    refine ⟨r, by simp only [h4]; exact e1, fun b idx hr => ?_⟩
    obtain ⟨e3, p, x, r, e4, e5, e6, e7, e8⟩ := e2 b idx hr
    refine ⟨e3, p, x, r ++ [{ src, dst := g, msg := m }], by simp [e4], e5, e6, e7, fun z hz => ?_⟩
    rcases List.mem_append.1 hz with hz | hz
    · exact e8 z hz
    · rw [List.mem_singleton.1 hz]; exact Ne.symm hg

/-- What sending to `f` achieves. -/
def SentTo (n : Ballot) (w : Bool) (f : NodeId) (es : List E) (d : Nat) (s s' : SP E S) : Prop :=
  Sends n (· = f) s s' ∧ (∀ q a ms, Keeps n f q a ms s → ∃ q' ms', Sent n w q ms es d q' ms' ∧ Keeps n f q' a ms' s') ∧
    ∀ g q a ms, g ≠ f → Keeps n g q a ms s → Keeps n g q a ms s'

theorem get_latest {f : NodeId} {q : SeqNum} {a : Nat} {ms : List (PaxosMsg E S)} {s : SP E S} (h : Keeps n f q a ms s)
    (hb : s.ls.n_leader = n) : (s.get_latest_accdec f = some none) ∨
      ∃ idx y p x r, s.get_latest_accdec f = some (some (idx, y)) ∧ s.outgoing = p ++ x :: r ∧ p.length = idx ∧ x.dst = f ∧
        x.msg = .acceptDecide y ∧ (∀ z ∈ r, z.dst ≠ f) := by
  obtain ⟨m, h1, h2⟩ := h.lam
  unfold SP.get_latest_accdec LeaderState.get_latest_accept_meta
  rw [h1]
  cases m with
  | none => exact .inl rfl
  | some m =>
    obtain ⟨b, idx⟩ := m
    obtain ⟨rfl, p, x, r, e1, e2, e3, ⟨y, e4⟩, e5⟩ := h2 b idx rfl
    refine .inr ⟨idx, y, p, x, r, ?_, e1, e2, e3, e4, e5⟩
    have hx : s.outgoing[idx]? = some x := by rw [e1, ← e2]; simp
    simp only [hb, if_true, hx, e4]

/-- Changing the last AcceptDecide for `f`. -/
theorem sentTo_upd {w : Bool} {f : NodeId} {es : List E} {d : Nat} {s : SP E S} {p r : List (PaxosMessage E S)}
    {x : PaxosMessage E S} {y : AcceptDecide E} (e1 : s.outgoing = p ++ x :: r) (e3 : x.dst = f)
    (e4 : x.msg = .acceptDecide y) (e5 : ∀ z ∈ r, z.dst ≠ f) :
    SentTo n w f es d s { s with outgoing := s.outgoing.modify p.length fun m => { m with msg := .acceptDecide { y with entries := y.entries ++ es, decided_idx := d } } } := by
  have hmod := modify_at p x r fun m => { m with msg := .acceptDecide { y with entries := y.entries ++ es, decided_idx := d } }
  rw [← e1] at hmod
  have hr : r.filter (fun m => decide (m.dst = f)) = [] := List.filter_eq_nil_iff.2 fun z hz => by simpa using e5 z hz
  refine ⟨⟨rfl, rfl, fun m hm => ?_⟩, fun q a ms h => ?_, fun g q a ms hg h => ?_⟩
  · simp only [hmod] at hm
    rcases List.mem_append.1 hm with hm | hm
    · exact .inr ⟨m, by rw [e1]; exact List.mem_append_left _ hm, rfl, rfl⟩
    · rcases List.mem_cons.1 hm with rfl | hm
      · exact .inr ⟨x, by rw [e1]; simp, rfl, rfl⟩
      · exact .inr ⟨m, by rw [e1]; exact List.mem_append_right _ (List.mem_cons_of_mem _ hm), rfl, rfl⟩
  · refine ⟨q, _, .upd ((p.filter fun m => decide (m.dst = f)).map (·.msg)) y ?_, h.pos, h.size, h.seq, h.acc, ?_, ?_⟩
    · rw [h.outs, e1]
      simp [List.filter_append, List.filter_cons, e3, e4, hr]
    · simp [hmod, List.filter_append, List.filter_cons, e3, hr]
    · obtain ⟨m, h1, h2⟩ := h.lam
      refine ⟨m, h1, fun b idx hm => ?_⟩
      obtain ⟨h3, p', x', r', h4, h5, h6, ⟨y', h7⟩, h8⟩ := h2 b idx hm
      -- the position is the same
      have : p' = p ∧ x' = x ∧ r' = r := by
        rw [e1] at h4
        have key : ∀ (p p' : List (PaxosMessage E S)), p ++ x :: r = p' ++ x' :: r' → p' = p ∧ x' = x ∧ r' = r := by
          intro p
          induction p with
          | nil =>
            intro p' h
            cases p' with
            | nil => simp at h; exact ⟨rfl, h.1.symm, h.2.symm⟩
            | cons z p' =>
              simp only [List.nil_append, List.cons_append, List.cons.injEq] at h
              exact absurd h6 (e5 x' (by rw [h.2]; simp))
          | cons w p ih =>
            intro p' h
            cases p' with
            | nil =>
              simp only [List.nil_append, List.cons_append, List.cons.injEq] at h
              exact absurd e3 (h8 x (by rw [← h.2]; simp))
            | cons z p' =>
              simp only [List.cons_append, List.cons.injEq] at h
              obtain ⟨i1, i2⟩ := ih p' h.2
              exact ⟨by rw [i1, h.1], i2⟩
        exact key p p' h4
      obtain ⟨rfl, rfl, rfl⟩ := this
      exact ⟨h3, p', _, r', hmod, h5, e3, ⟨_, rfl⟩, e5⟩
  · refine ⟨h.pos, h.size, h.seq, h.acc, ?_, ?_⟩
    · have hx : ¬ x.dst = g := by rw [e3]; exact Ne.symm hg
      rw [h.outs, e1]
      rw [e1] at hmod
      simp [hmod, List.filter_append, List.filter_cons, hx]
    · obtain ⟨m, h1, h2⟩ := h.lam
      refine ⟨m, h1, fun b idx hm => ?_⟩
      obtain ⟨h3, p', x', r', h4, h5, h6, ⟨y', h7⟩, h8⟩ := h2 b idx hm
      let F : PaxosMessage E S → PaxosMessage E S := fun m => { m with msg := .acceptDecide { y with entries := y.entries ++ es, decided_idx := d } }
      -- the position for `g` is another one
      have hne : p'.length ≠ p.length := by
        intro he
        have : x' = x := by
          have h9 : s.outgoing[p'.length]? = some x' := by rw [h4]; simp
          have h10 : s.outgoing[p.length]? = some x := by rw [e1]; simp
          rw [he, h10] at h9
          exact (Option.some.inj h9).symm
        rw [this, e3] at h6
        exact hg h6.symm
      have key : ∀ (p' : List (PaxosMessage E S)) (j : Nat), p'.length ≠ j → ∃ p2 r2, (p' ++ x' :: r').modify j F = p2 ++ x' :: r2 ∧
          p2.length = p'.length ∧ ((∀ z ∈ r', z.dst ≠ g) → ∀ z ∈ r2, z.dst ≠ g) := by
        intro p'
        induction p' with
        | nil =>
          intro j hj
          cases j with
          | zero => exact absurd rfl hj
          | succ j =>
            refine ⟨[], r'.modify j F, by simp [List.modify_succ_cons], rfl, fun hz z hz' => ?_⟩
            obtain ⟨i, hi, rfl⟩ := List.mem_iff_getElem.1 hz'
            simp only [List.length_modify] at hi
            rw [List.getElem_modify]
            split
            · exact (hz r'[i] (List.getElem_mem hi) : r'[i].dst ≠ g)
            · exact hz _ (List.getElem_mem hi)
        | cons w p' ih =>
          intro j hj
          cases j with
          | zero => exact ⟨F w :: p', r', by simp [List.modify_zero_cons], by simp, fun h => h⟩
          | succ j =>
            obtain ⟨p2, r2, i1, i2, i3⟩ := ih j (by simpa using hj)
            exact ⟨w :: p2, r2, by simp [List.modify_succ_cons, i1], by simp [i2], i3⟩
      obtain ⟨p2, r2, i1, i2, i3⟩ := key p' p.length hne
      refine ⟨h3, p2, x', r2, ?_, by rw [i2, h5], h6, ⟨y', h7⟩, i3 h8⟩
      simp only
      rw [h4]
      exact i1

/-- leader.rs 195-220. -/
theorem send_acceptdecide_to_spec {f : NodeId} {q0 : SeqNum} {a0 : Nat} {ms0 : List (PaxosMsg E S)} {s : SP E S} (h0 : Keeps n f q0 a0 ms0 s)
    (hb : s.ls.n_leader = n) (hf : f ≠ n.pid) (es : List E) :
    M.Sat (SP.send_acceptdecide_to es f) s (fun _ s' => SentTo n true f es s.ist.cache.decided_idx s s') (fun _ => False) := by
  simp only [SP.send_acceptdecide_to, M.sat_bind, M.sat_get, M.sat_ofPan]
  rcases get_latest h0 hb with hl | ⟨idx, y, p, x, r, hl, e1, e2, e3, e4, e5⟩
  · rw [hl]
    refine ⟨fun o ho => ?_, fun h => by simp at h⟩
    simp only [Option.some.injEq] at ho
    subst ho
    obtain ⟨rm, hrm, _⟩ := h0.lam
    simp only [M.sat_bind, SP.sat_onLS, LeaderState.set_latest_accept_meta, Option.map_some]
    have hs1 : ∃ v, setSlot s.ls.latest_accept_meta f (some (s.ls.n_leader, s.outgoing.length)) = some v := by
      cases f with
      | zero => simp [slot] at hrm
      | succ j => simp only [slot] at hrm; obtain ⟨hj, _⟩ := List.getElem?_eq_some_iff.1 hrm; exact ⟨_, by simp only [setSlot]; rw [if_pos hj]⟩
    obtain ⟨v, hv⟩ := hs1
    rw [hv]
    refine ⟨fun ls hls => ?_, fun h => by simp at h⟩
    simp only [Option.some.injEq] at hls
    subst hls
    simp only [SP.sat_onLS', LeaderState.next_seq_num, h0.seq]
    have hs2 : ∃ w, setSlot s.ls.follower_seq_nums f q0.next = some w := by
      have hq := h0.seq
      cases f with
      | zero => simp [slot] at hq
      | succ j => simp only [slot] at hq; obtain ⟨hj, _⟩ := List.getElem?_eq_some_iff.1 hq; exact ⟨_, by simp only [setSlot]; rw [if_pos hj]⟩
    obtain ⟨w, hw⟩ := hs2
    unfold SeqNum.next at hw
    rw [hw]
    refine ⟨fun r hr => ?_, fun h => by simp at h⟩
    simp only [Option.some.injEq] at hr
    subst hr
    simp only [SP.sat_send]
    obtain ⟨_, _, _, hv1, hv2⟩ := setSlot_spec hv
    obtain ⟨_, _, _, hw1, hw2⟩ := setSlot_spec hw
    refine ⟨⟨rfl, by simp only; rw [hv2 _ (Ne.symm hf)], fun m hm => ?_⟩, fun q a ms h => ?_, fun g q a ms hg h => ?_⟩
    · simp only at hm
      rcases List.mem_append.1 hm with hm | hm
      · exact .inr ⟨m, hm, rfl, rfl⟩
      · rw [List.mem_singleton.1 hm]; exact .inl ⟨rfl, rfl⟩
    · have : q0 = q := by have := h0.seq; rw [h.seq] at this; exact (Option.some.inj this).symm
      subst this
      refine ⟨_, _, .acc rfl, h.pos, h.size, hw1, h.acc, ?_, some (s.ls.n_leader, s.outgoing.length), hv1, fun b idx hr => ?_⟩
      · simp [h.outs, List.filter_append, hb, SeqNum.next]
      · simp only [Option.some.injEq, Prod.mk.injEq] at hr
        exact ⟨by rw [← hr.1, hb], s.outgoing, _, [], rfl, hr.2, rfl, ⟨_, rfl⟩, nofun⟩
    · exact h.other hg rfl (hw2 g hg) rfl (hv2 g hg)
  · rw [hl]
    refine ⟨fun o ho => ?_, fun h => by simp at h⟩
    simp only [Option.some.injEq] at ho
    subst ho
    simp only [SP.sat_setMsg]
    rw [← e2]
    exact sentTo_upd e1 e3 e4 e5

/-- leader.rs 336-342. -/
theorem announce_decided_spec {f : NodeId} {q0 : SeqNum} {a0 : Nat} {ms0 : List (PaxosMsg E S)} {s : SP E S} (h0 : Keeps n f q0 a0 ms0 s)
    (hb : s.ls.n_leader = n) (d : Nat) :
    M.Sat (SP.announce_decided d f) s (fun _ s' => SentTo n false f ([] : List E) d s s') (fun _ => False) := by
  simp only [SP.announce_decided, M.sat_bind, M.sat_get, M.sat_ofPan]
  rcases get_latest h0 hb with hl | ⟨idx, y, p, x, r, hl, e1, e2, e3, e4, e5⟩
  · rw [hl]
    refine ⟨fun o ho => ?_, fun h => by simp at h⟩
    simp only [Option.some.injEq] at ho
    subst ho
    simp only [SP.send_decide, SP.seqNumFor, Bool.false_eq_true, if_false, M.sat_bind, SP.sat_onLS', LeaderState.next_seq_num, h0.seq]
    have hs2 : ∃ w, setSlot s.ls.follower_seq_nums f q0.next = some w := by
      have hq := h0.seq
      cases f with
      | zero => simp [slot] at hq
      | succ j => simp only [slot] at hq; obtain ⟨hj, _⟩ := List.getElem?_eq_some_iff.1 hq; exact ⟨_, by simp only [setSlot]; rw [if_pos hj]⟩
    obtain ⟨w, hw⟩ := hs2
    unfold SeqNum.next at hw
    rw [hw]
    refine ⟨fun r hr => ?_, fun h => by simp at h⟩
    simp only [Option.some.injEq] at hr
    subst hr
    simp only [M.sat_get, SP.sat_send]
    obtain ⟨_, _, _, hw1, hw2⟩ := setSlot_spec hw
    -- no AcceptDecide is waiting
    have hnone : ∀ q a ms, Keeps n f q a ms s → slot s.ls.latest_accept_meta f = some none := by
      intro q a ms h
      obtain ⟨r, h1, h2⟩ := h.lam
      cases r with
      | none => exact h1
      | some r =>
        obtain ⟨b, idx⟩ := r
        obtain ⟨rfl, p, x, r, e1, e2, e3, ⟨y, e4⟩, e5⟩ := h2 b idx rfl
        have hx : s.outgoing[idx]? = some x := by rw [e1, ← e2]; simp
        unfold SP.get_latest_accdec LeaderState.get_latest_accept_meta at hl
        simp only [h1, hb, if_true, hx, e4] at hl
        simp at hl
    refine ⟨⟨rfl, rfl, fun m hm => ?_⟩, fun q a ms h => ?_, fun g q a ms hg h => ?_⟩
    · simp only at hm
      rcases List.mem_append.1 hm with hm | hm
      · exact .inr ⟨m, hm, rfl, rfl⟩
      · rw [List.mem_singleton.1 hm]; exact .inl ⟨rfl, rfl⟩
    · have : q0 = q := by have := h0.seq; rw [h.seq] at this; exact (Option.some.inj this).symm
      subst this
      refine ⟨_, _, .dec rfl rfl, h.pos, h.size, hw1, h.acc, ?_, none, hnone _ _ _ h, nofun⟩
      simp [h.outs, List.filter_append, hb, SeqNum.next]
    · exact h.other hg rfl (hw2 g hg) rfl rfl
  · rw [hl]
    refine ⟨fun o ho => ?_, fun h => by simp at h⟩
    simp only [Option.some.injEq] at ho
    subst ho
    simp only [SP.sat_setMsg]
    rw [← e2]
    have := sentTo_upd (n := n) (w := false) (es := []) (d := d) e1 e3 e4 e5
    simpa using this

end Omni
