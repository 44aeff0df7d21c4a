import Verif.Proof.Boot.Local
/-
From the start of a cluster to steady operation: the server that becomes leader.
-/
namespace Omni

variable {E S : Type} {n : Ballot} {cc : ClusterConfig}

/-- A server that has heard of no leader. -/
structure Unled (cc : ClusterConfig) (i : NodeId) (s : SP E S) : Prop where
  role : s.role = .follower
  phase : s.phase = .none
  pid : s.pid = i
  peers : s.peers = SP.peersOf cc.nodes i
  quorum : s.ls.quorum = Quorum.with cc.flexible_quorum cc.nodes.length
  ballot : s.ls.n_leader = {}
  size : ∀ j ∈ cc.nodes, j ≠ 0 ∧ j ≤ s.ls.max_pid
  lam : s.latest_accepted_meta = none
  bss : s.buffered_stopsign = none
  ist : Blank {} s.ist
  out : s.outgoing = []

namespace Unled

variable {i : NodeId} {s : SP E S}

theorem clear (h : Unled cc i s) : Unled cc i { s with ist := { s.ist with trail := [], calls := [] } } :=
  ⟨h.role, h.phase, h.pid, h.peers, h.quorum, h.ballot, h.size, h.lam, h.bss, h.ist.clear, h.out⟩

theorem take (h : Unled cc i s) (buf : List (Message E S)) : Unled cc i (s.take_outgoing_msgs buf).2 :=
  ⟨h.role, h.phase, h.pid, h.peers, h.quorum, h.ballot, h.size, rfl, h.bss, h.ist, rfl⟩

theorem join (h : Unled cc i s) (hi : i ≠ n.pid) (h0 : 0 < n.pid) : Join {} .none n i s :=
  ⟨h.role, h.phase, h.pid, hi, h0, h.ist, by rw [h.out]; nofun⟩

theorem append (h : Unled cc i s) (e : E) :
    M.Sat (SP.append e) s (fun _ s' => Unled cc i s' ∧ s'.buffered_proposals = s.buffered_proposals ++ [e]) (fun _ => False) := by
  have hr : s.accepted_reconfiguration = false := by simp [SP.accepted_reconfiguration, h.ist.st.ss]
  have hp : s.get_current_leader = 0 := congrArg Ballot.pid h.ist.st.prom
  simp only [SP.append, M.sat_bind, M.sat_get, hr, SP.propose_entry, h.role, h.phase, Bool.false_eq_true, if_false, M.sat_pure]
  simp only [SP.forward_proposals, M.sat_bind, M.sat_get, hp, M.sat_ite, M.sat_upd]
  exact ⟨fun hc => absurd hc.1 (Nat.lt_irrefl 0),
    fun _ => ⟨⟨h.role, h.phase, h.pid, h.peers, h.quorum, h.ballot, h.size, h.lam, h.bss, h.ist, h.out⟩, trivial⟩⟩

theorem ticked (h : Unled cc i s) (r w : Prop) [Decidable r] [Decidable w] (hr : ¬ r) :
    M.Sat (SP.ticked none r w) s (fun _ s' => s' = s) (fun _ => False) := by
  simp only [SP.ticked, M.sat_bind, M.sat_pure, M.sat_whenDo, hr, false_implies, not_false_eq_true, true_implies, true_and]
  refine ⟨fun _ => ?_, fun _ => trivial⟩
  simp only [SP.flush_batch_timeout, M.sat_bind, M.sat_get, h.role, h.phase, M.sat_pure]

end Unled

/-- What the leader records about a follower that has promised and has accepted nothing. -/
def meta0 (f : NodeId) : PromiseMetaData := { n_accepted := {}, accepted_idx := 0, decided_idx := 0, pid := f }

/-- A leader in the Prepare phase; `P` have promised, `Z` is waiting to be appended. -/
structure Cand (P : NodeId → Prop) (cc : ClusterConfig) (n : Ballot) (Z : List E) (s : SP E S) : Prop where
  role : s.role = .leader
  phase : s.phase = .prepare
  pid : s.pid = n.pid
  peers : s.peers = SP.peersOf cc.nodes n.pid
  ballot : s.ls.n_leader = n
  quorum : s.ls.quorum = Quorum.with cc.flexible_quorum cc.nodes.length
  promised : ∀ i ∈ cc.nodes, P i → ∃ m, slot s.ls.promises_meta i = some (.promised m)
  slots : ∀ i ∈ cc.nodes, ∃ st, slot s.ls.promises_meta i = some st
  members : ∀ i m, slot s.ls.promises_meta i = some (.promised m) → i ∈ cc.nodes ∧ P i
  metas : ∀ i m, slot s.ls.promises_meta i = some (.promised m) → m = meta0 i
  sync : s.ls.max_promise_sync = none
  lam : s.latest_accepted_meta = none
  buf : s.buffered_proposals = Z
  bss : s.buffered_stopsign = none
  ist : Blank n s.ist
  own : slot s.ls.accepted_indexes n.pid = some 0
  size : n.pid ≠ 0 ∧ n.pid ≤ s.ls.max_pid ∧ ∃ r, slot s.ls.latest_accept_meta n.pid = some r ∧ r = none
  ends : ∀ m ∈ s.outgoing, (m.dst ∈ cc.nodes ∧ m.dst ≠ n.pid) ∧ m.src = n.pid
  noq : ∀ f, f ≠ n.pid → P f → s.ls.quorum.is_prepare_quorum s.ls.num_promised = false

theorem setSlot_of_slot {α : Type} {l : List α} {f : NodeId} {x : α} (h : slot l f = some x) (a : α) : ∃ v, setSlot l f a = some v := by
  cases f with
  | zero => simp [slot] at h
  | succ j => simp only [slot] at h; obtain ⟨hj, _⟩ := List.getElem?_eq_some_iff.1 h; exact ⟨_, by simp only [setSlot]; rw [if_pos hj]⟩

/-- The leader state after a promise. -/
structure Promised (f : NodeId) (ls ls' : LeaderState E S) : Prop where
  n_leader : ls'.n_leader = ls.n_leader
  quorum : ls'.quorum = ls.quorum
  accepted : ls'.accepted_indexes = ls.accepted_indexes
  seq : ls'.follower_seq_nums = ls.follower_seq_nums
  latest : ls'.latest_accept_meta = ls.latest_accept_meta
  max_pid : ls'.max_pid = ls.max_pid
  self : slot ls'.promises_meta f = some (.promised (meta0 f))
  other : ∀ g, g ≠ f → slot ls'.promises_meta g = slot ls.promises_meta g
  sync : ls.max_promise_sync = none → ls'.max_promise_sync = none

/-- util.rs 131-149. -/
theorem set_promise_zero {ls : LeaderState E S} {f : NodeId} {st : PromiseState} (h : slot ls.promises_meta f = some st) (n : Ballot) (b : Bool) :
    ∃ ls', ls.set_promise (prom0 n) f b = some (ls', ls.quorum.is_prepare_quorum ls'.num_promised) ∧ Promised f ls ls' := by
  obtain ⟨v, hv⟩ := setSlot_of_slot h (.promised (meta0 f))
  obtain ⟨_, _, _, h1, h2⟩ := setSlot_spec hv
  simp only [LeaderState.set_promise, prom0, LeaderState.update_max]
  by_cases hb : (b && ({ n_accepted := {}, accepted_idx := 0, decided_idx := 0, pid := f } : PromiseMetaData).gt ls.max_promise_meta) = true
  · refine ⟨{ ls with max_promise_meta := meta0 f, max_promise_sync := none, promises_meta := v }, ?_, ⟨rfl, rfl, rfl, rfl, rfl, rfl, h1, h2, fun _ => rfl⟩⟩
    unfold meta0 at hv
    simp only [hb, if_true, hv]
    rfl
  · refine ⟨{ ls with promises_meta := v }, ?_, ⟨rfl, rfl, rfl, rfl, rfl, rfl, h1, h2, fun h => h⟩⟩
    unfold meta0 at hv
    simp only [hb, Bool.false_eq_true, if_false, hv]

theorem send_all (ps : List NodeId) (m : PaxosMsg E S) (s : SP E S) (Q : Unit → SP E S → Prop) (P : SP E S → Prop)
    (hQ : Q () { s with outgoing := s.outgoing ++ ps.map fun p => { src := s.pid, dst := p, msg := m } }) :
    M.Sat (M.forEach ps fun p => SP.send p m) s Q P := by
  induction ps generalizing s with
  | nil => simpa using hQ
  | cons p ps ih =>
    rw [M.sat_forEach_cons, SP.sat_send]
    exact ih _ (by simpa using hQ)

/-- leader.rs 16-60. -/
theorem Unled.handle_leader {s : SP E S} (h : Unled cc n.pid s) (hn : n.pid ∈ cc.nodes) (hnd : cc.nodes.Nodup) :
    M.Sat (SP.handle_leader n) s (fun _ s' => Cand (· = n.pid) cc n s.buffered_proposals s' ∧
      ∀ f ∈ cc.nodes, f ≠ n.pid → Keeps n f {} 0 [.prepare (prep0 n)] s') (fun _ => False) := by
  have h0 : 0 < n.pid := Nat.pos_of_ne_zero (h.size _ hn).1
  have hlt := Join.ballot_pos h0
  have hc : ¬ (n ≤ s.ls.n_leader ∨ n ≤ s.get_promise) := by
    rw [h.ballot, show s.get_promise = {} from h.ist.st.prom, or_self]
    exact (Ballot.not_le ..).2 hlt
  have hB := h.ist.flush_promise n
  simp only [SP.handle_leader, M.sat_bind, M.sat_get, if_neg hc, if_pos h.pid, M.sat_upd, SP.sat_onStore, IStore.sat_flush_batch,
    IStore.sat_set_promise, SP.sat_onLS', SP.sat_setState]
  have hslot : ∀ j ∈ cc.nodes, slot (List.replicate s.ls.max_pid PromiseState.notPromised) j = some .notPromised := fun j hj =>
    slot_replicate_le (h.size j hj).1 (h.size j hj).2
  obtain ⟨ls, hls, hP⟩ := set_promise_zero (ls := (LeaderState.with n s.ls.max_pid s.ls.quorum : LeaderState E S)) (hslot _ hn) n true
  simp only [prom0] at hls
  simp only [hB.round, hB.st.dec, hB.st.acc, List.length_nil, h.pid, hls]
  refine ⟨fun r hr => ?_, fun h => by simp at h⟩
  simp only [Option.some.injEq] at hr
  subst hr
  refine send_all _ _ _ _ _ ?_
  have hmem : ∀ i m, slot ls.promises_meta i = some (.promised m) → i = n.pid ∧ m = meta0 i := by
    intro i m hm
    by_cases e : i = n.pid
    · subst e
      rw [hP.self] at hm
      simp only [Option.some.injEq, PromiseState.promised.injEq] at hm
      exact ⟨rfl, hm.symm⟩
    · rw [hP.other i e] at hm
      simp only [LeaderState.with] at hm
      cases i with
      | zero => simp [slot] at hm
      | succ j =>
        simp only [slot, List.getElem?_replicate] at hm
        split at hm <;> simp at hm
  refine ⟨⟨rfl, rfl, rfl, h.peers, hP.n_leader, hP.quorum.trans h.quorum, fun i _ hi => ?_, fun i hi => ?_, fun i m hm => ?_, fun i m hm => (hmem i m hm).2,
    hP.sync rfl, h.lam, rfl, h.bss, hB, ?_, ⟨(h.size _ hn).1, ?_, none, ?_, rfl⟩, fun m hm => ?_, fun f hf e => absurd e hf⟩, fun f hf hfn => ?_⟩
  · subst hi; exact ⟨_, hP.self⟩
  · by_cases e : i = n.pid
    · subst e; exact ⟨_, hP.self⟩
    · exact ⟨_, (hP.other i e).trans (hslot i hi)⟩
  · have := (hmem i m hm).1
    subst this
    exact ⟨hn, rfl⟩
  · simp only [hP.accepted]
    exact slot_replicate_le (h.size _ hn).1 (h.size _ hn).2
  · simp only [hP.max_pid]
    exact (h.size _ hn).2
  · simp only [hP.latest]
    exact slot_replicate_le (h.size _ hn).1 (h.size _ hn).2
  · simp only [h.out, List.nil_append, List.mem_map] at hm
    obtain ⟨p, hp, rfl⟩ := hm
    rw [h.peers] at hp
    exact ⟨mem_peers.1 hp, rfl⟩
  · refine ⟨(h.size f hf).1, by simp only [hP.max_pid]; exact (h.size f hf).2, ?_, ?_, ?_, none, ?_, nofun⟩
    · simp only [hP.seq]; exact slot_replicate_le (h.size f hf).1 (h.size f hf).2
    · simp only [hP.accepted]; exact slot_replicate_le (h.size f hf).1 (h.size f hf).2
    · simp only [h.out, List.nil_append, h.peers]
      have hN : (SP.peersOf cc.nodes n.pid).Nodup := hnd.filter _
      have hF : f ∈ SP.peersOf cc.nodes n.pid := mem_peers.2 ⟨hf, hfn⟩
      generalize SP.peersOf cc.nodes n.pid = l at hN hF
      induction l with
      | nil => cases hF
      | cons x l ih =>
        have hN' := List.nodup_cons.1 hN
        by_cases e : x = f
        · subst e
          simp only [List.map_cons, List.filter_cons, decide_true, if_true]
          rw [List.filter_eq_nil_iff.2]
          · rfl
          · intro m hm
            obtain ⟨p, hp, rfl⟩ := List.mem_map.1 hm
            simp only [decide_eq_true_eq]
            exact fun e => hN'.1 (e ▸ hp)
        · have hF' : f ∈ l := by rcases List.mem_cons.1 hF with e' | e'; exact absurd e'.symm e; exact e'
          simpa [List.filter_cons, e] using ih hN'.2 hF'
    · simp only [hP.latest]; exact slot_replicate_le (h.size f hf).1 (h.size f hf).2

/-! ### Synchronising the followers -/

/-- leader.rs 150-191, for a follower that has accepted nothing. -/
theorem send_accsync_spec [SnapOps E S] (hu : SnapOps.use_snapshots E S = false) {f : NodeId} {q : SeqNum} {a : Nat} {s : SP E S} {X B : List E} {d : Nat}
    (hk : Keeps n f q a [] s) (hb : s.ls.n_leader = n) (h0 : 0 < n.pid) (hm : slot s.ls.promises_meta f = some (.promised (meta0 f)))
    (hi : Stored n 0 [] 0 X B d s.ist) :
    M.Sat (SP.send_accsync f) s (fun _ s' => Sends n (· = f) s s' ∧
      (∃ q', Keeps n f q' a [.acceptSync { n, seq_num := q', decided_idx := d, log_sync := sync0 X }] s') ∧
      ∀ g q a ms, g ≠ f → Keeps n g q a ms s → Keeps n g q a ms s') (fun _ => False) := by
  have hne : ¬ ({} : Ballot) = n := fun e => by rw [← e] at h0; exact Nat.lt_irrefl 0 h0
  have hs : SP.sync_indexes s.ls f = some (0, 0) := by
    simp only [SP.sync_indexes, LeaderState.get_promise_meta, LeaderState.get_decided_idx, hm, meta0, hb, if_neg hne]
    split <;> simp
  have hl : s.create_log_sync 0 0 = some (sync0 X) := by
    simp only [SP.create_log_sync, hu, Bool.false_eq_true, false_and, if_false, Mem.get_suffix, usub, hi.trim, hi.log, hi.ss]
    simp [sync0]
  obtain ⟨v, hv⟩ := setSlot_of_slot hk.seq { session := q.session + 1, counter := 0 }
  obtain ⟨_, _, _, hv1, hv2⟩ := setSlot_spec hv
  obtain ⟨w, hw⟩ := setSlot_of_slot hv1 { session := q.session + 1, counter := 1 }
  obtain ⟨_, _, _, hw1, hw2⟩ := setSlot_spec hw
  simp only [SP.send_accsync, M.sat_bind, M.sat_get, M.sat_ofPan, hs]
  refine ⟨fun r hr => ?_, fun h => by simp at h⟩
  simp only [Option.some.injEq] at hr
  subst hr
  rw [hl]
  refine ⟨fun r hr => ?_, fun h => by simp at h⟩
  simp only [Option.some.injEq] at hr
  subst hr
  simp only [SP.sat_onLS, LeaderState.increment_seq_num_session, hk.seq, hv]
  refine ⟨fun r hr => ?_, fun h => by simp at h⟩
  simp only [Option.some.injEq] at hr
  subst hr
  simp only [SP.sat_onLS', LeaderState.next_seq_num, hv1, Nat.zero_add, hw]
  refine ⟨fun r hr => ?_, fun h => by simp at h⟩
  simp only [Option.some.injEq] at hr
  subst hr
  simp only [SP.sat_send]
  -- no AcceptDecide is waiting
  have hnone : slot s.ls.latest_accept_meta f = some none := by
    obtain ⟨r, h1, h2⟩ := hk.lam
    cases r with
    | none => exact h1
    | some r =>
      obtain ⟨b, idx⟩ := r
      obtain ⟨rfl, p, x, r, e1, e2, e3, ⟨y, e4⟩, e5⟩ := h2 b idx rfl
      have ho := hk.outs
      rw [e1] at ho
      simp [List.filter_append, List.filter_cons, e3] at ho
  refine ⟨⟨rfl, rfl, fun m hm => ?_⟩, ⟨_, hk.pos, hk.size, hw1, hk.acc, ?_, none, hnone, nofun⟩, fun g q a ms hg h => ?_⟩
  · rcases List.mem_append.1 hm with hm | hm
    · exact .inr ⟨m, hm, rfl, rfl⟩
    · rw [List.mem_singleton.1 hm]; exact .inl ⟨rfl, rfl⟩
  · simp only [List.filter_append, List.map_append, ← hk.outs, List.nil_append, hb, hi.dec]
    simp
  · exact h.other hg rfl ((hw2 g hg).trans (hv2 g hg)) rfl rfl

theorem sync_loop [SnapOps E S] (hu : SnapOps.use_snapshots E S = false) (h0 : 0 < n.pid) {X B : List E} {d : Nat} (fs : List NodeId) (hn : fs.Nodup)
    (s : SP E S) (hb : s.ls.n_leader = n) (hi : Stored n 0 [] 0 X B d s.ist)
    (hK : ∀ f ∈ fs, slot s.ls.promises_meta f = some (.promised (meta0 f)) ∧ ∃ q a, Keeps n f q a [] s) :
    M.Sat (M.forEach fs SP.send_accsync) s (fun _ s' => Sends n (· ∈ fs) s s' ∧
      (∀ f ∈ fs, ∀ q a, Keeps n f q a [] s → ∃ q', Keeps n f q' a [.acceptSync { n, seq_num := q', decided_idx := d, log_sync := sync0 X }] s') ∧
      ∀ g, g ∉ fs → ∀ q a ms, Keeps n g q a ms s → Keeps n g q a ms s') (fun _ => False) := by
  induction fs generalizing s with
  | nil => exact ⟨Sends.refl s, by simp, fun _ _ _ _ _ h => h⟩
  | cons f fs ih =>
    rw [M.sat_forEach_cons]
    obtain ⟨hm, q0, a0, hk0⟩ := hK f List.mem_cons_self
    have hnd := List.nodup_cons.1 hn
    refine M.sat_mono (send_accsync_spec hu hk0 hb h0 hm hi) (fun _ t ht => ?_) fun _ h => h
    obtain ⟨h1, ⟨q1, h2⟩, h3⟩ := ht
    have hne : ∀ g ∈ fs, g ≠ f := fun g hg e => hnd.1 (e ▸ hg)
    refine M.sat_mono (ih hnd.2 t (by rw [h1.eq]; exact hb) (by rw [h1.eq]; exact hi) fun g hg => ?_) (fun _ u hu => ?_) fun _ h => h
    · obtain ⟨hm, q, a, hk⟩ := hK g (List.mem_cons_of_mem _ hg)
      exact ⟨by rw [h1.eq]; exact hm, q, a, h3 g q a _ (hne g hg) hk⟩
    · obtain ⟨i1, i2, i3⟩ := hu
      refine ⟨(h1.mono fun x hx => by rw [hx]; exact List.mem_cons_self).trans (i1.mono fun x hx => List.mem_cons_of_mem _ hx), fun g hg q a hk => ?_, fun g hg q a ms hk => ?_⟩
      · rcases List.mem_cons.1 hg with rfl | hg
        · have : a = a0 := by have := hk.acc; rw [hk0.acc] at this; exact (Option.some.inj this).symm
          subst this
          exact ⟨q1, i3 g hnd.1 _ _ _ h2⟩
        · exact i2 g hg q a (h3 g q a _ (hne g hg) hk)
      · exact i3 g (fun h => hg (List.mem_cons_of_mem _ h)) q a ms (h3 g q a ms (fun e => hg (e ▸ List.mem_cons_self)) hk)

/-- A follower has promised. -/
theorem Promised.keeps {f g : NodeId} {q : SeqNum} {a : Nat} {ms : List (PaxosMsg E S)} {s : SP E S} {ls : LeaderState E S} (hP : Promised f s.ls ls)
    (h : Keeps n g q a ms s) : Keeps n g q a ms { s with ls } :=
  ⟨h.pos, by simp only [hP.max_pid]; exact h.size, by simp only [hP.seq]; exact h.seq, by simp only [hP.accepted]; exact h.acc, h.outs,
    by simp only [hP.latest]; exact h.lam⟩

/-- leader.rs 301-314: a promise in the Accept phase. -/
theorem LeadOf.promise [SnapOps E S] (hu : SnapOps.use_snapshots E S = false) {P : NodeId → Prop} {X B : List E} {d : Nat} {s : SP E S}
    (h : LeadOf P cc n 0 [] 0 X B d s) {f : NodeId} (hf : f ∈ cc.nodes) (hfn : f ≠ n.pid) {q : SeqNum} {a : Nat} (hk : Keeps n f q a [] s) :
    M.Sat (SP.handle_promise_accept (prom0 n) f) s (fun _ s' => LeadOf (fun g => g = f ∨ P g) cc n 0 [] 0 X B d s' ∧
      (∃ q', Keeps n f q' a [.acceptSync { n, seq_num := q', decided_idx := d, log_sync := sync0 X }] s') ∧
      ∀ g q a ms, g ≠ f → Keeps n g q a ms s → Keeps n g q a ms s') (fun _ => False) := by
  obtain ⟨st, hst⟩ := h.slots f hf
  obtain ⟨ls, hls, hP⟩ := set_promise_zero hst n false
  simp only [SP.handle_promise_accept, M.sat_bind, M.sat_get, M.sat_ite]
  refine ⟨fun _ => ?_, fun hn => absurd h.ballot.symm hn⟩
  simp only [SP.sat_onLS', hls]
  refine ⟨fun r hr => ?_, fun h => by simp at h⟩
  simp only [Option.some.injEq] at hr
  subst hr
  have hL : LeadOf (fun g => g = f ∨ P g) cc n 0 [] 0 X B d { s with ls } := by
    refine ⟨h.role, h.phase, h.pid, h.peers, hP.n_leader.trans h.ballot, hP.quorum.trans h.quorum, fun i hi hp => ?_, fun i hi => ?_, fun i m hm => ?_,
      h.lam, h.buf, h.ist, h.dec, by simp only [hP.accepted]; exact h.own, ⟨h.size.1, by simp only [hP.max_pid]; exact h.size.2.1, by simp only [hP.latest]; exact h.size.2.2⟩, h.ends⟩
    · by_cases e : i = f
      · subst e; exact ⟨_, hP.self⟩
      · simp only [hP.other i e]; exact h.promised i hi (hp.resolve_left e)
    · by_cases e : i = f
      · subst e; exact ⟨_, hP.self⟩
      · simp only [hP.other i e]; exact h.slots i hi
    · by_cases e : i = f
      · subst e; exact ⟨hf, .inl rfl⟩
      · simp only [hP.other i e] at hm; exact ⟨(h.members i m hm).1, .inr (h.members i m hm).2⟩
  refine M.sat_mono (send_accsync_spec hu (hP.keeps hk) hL.ballot (Nat.pos_of_ne_zero h.size.1) hP.self h.ist) (fun _ t ht => ?_) fun _ h => h
  obtain ⟨h1, h2, h3⟩ := ht
  exact ⟨h1.lead (fun x hx => by rw [hx]; exact ⟨hf, hfn⟩) hL, h2, fun g q a ms hg hk => h3 g q a ms hg (hP.keeps hk)⟩

/-- leader.rs 281-284. -/
theorem sync_followers [SnapOps E S] (hu : SnapOps.use_snapshots E S = false) {P : NodeId → Prop} {X B : List E} {d : Nat} {s : SP E S}
    (h : LeadOf P cc n 0 [] 0 X B d s) (hm : ∀ i m, slot s.ls.promises_meta i = some (.promised m) → m = meta0 i)
    (hK : ∀ g ∈ cc.nodes, g ≠ n.pid → P g → ∃ q a, Keeps n g q a [] s)
    {fs : List NodeId} (hfs : fs = s.ls.get_promised_followers) : M.Sat (M.forEach fs SP.send_accsync) s (fun _ s' => LeadOf P cc n 0 [] 0 X B d s' ∧
      ∀ g ∈ cc.nodes, g ≠ n.pid → ∀ q a ms, Keeps n g q a ms s →
        (P g → ms = [] → ∃ q', Keeps n g q' a [.acceptSync { n, seq_num := q', decided_idx := d, log_sync := sync0 X }] s') ∧
        (¬ P g → Keeps n g q a ms s')) (fun _ => False) := by
  subst hfs
  have hF := fun f => h.mem_followers (f := f)
  refine M.sat_mono (sync_loop hu (Nat.pos_of_ne_zero h.size.1) _ (LeaderState.followers_nodup _) _ h.ballot h.ist fun g hg => ?_) (fun _ t ht => ?_) fun _ h => h
  · obtain ⟨⟨h1, h2⟩, h3⟩ := (hF g).1 hg
    obtain ⟨m, hmm⟩ := h.promised g h1 h3
    obtain ⟨q, a, hk⟩ := hK g h1 h2 h3
    exact ⟨by rw [hmm, hm g m hmm], q, a, hk⟩
  · obtain ⟨h1, h2, h3⟩ := ht
    refine ⟨h1.lead (fun x hx => ((hF x).1 hx).1) h, fun g hg hgn q a ms hk => ⟨fun hp hms => ?_, fun hp => ?_⟩⟩
    · subst hms; exact h2 g ((hF g).2 ⟨⟨hg, hgn⟩, hp⟩) q a hk
    · exact h3 g (fun hx => hp ((hF g).1 hx).2) q a ms hk

theorem max_decided_zero {l : List PromiseState} (h : ∀ m, PromiseState.promised m ∈ l → m.decided_idx = 0) :
    (LeaderState.promisedDecided l).foldl max 0 = 0 := by
  induction l with
  | nil => rfl
  | cons x l ih =>
    have h' := ih fun m hm => h m (List.mem_cons_of_mem _ hm)
    cases x with
    | promised m => simp only [LeaderState.promisedDecided, List.foldl_cons, h m List.mem_cons_self, Nat.max_self]; exact h'
    | _ => exact h'

/-- leader.rs 264-278. -/
theorem append_buffered_spec {s : SP E S} (hi : Stored n 0 [] 0 [] [] 0 s.ist) (hb : s.buffered_stopsign = none) :
    M.Sat (SP.append_buffered 0) s (fun r s' => r = s.buffered_proposals.length ∧ ∃ j, Stored n 0 [] 0 s.buffered_proposals [] 0 j ∧
      s' = { s with ist := j, buffered_proposals := [] }) (fun _ => False) := by
  have hr : s.accepted_reconfiguration = false := by simp [SP.accepted_reconfiguration, hi.ss]
  simp only [SP.append_buffered, M.sat_bind, M.sat_get, hr, M.sat_ite, Bool.false_eq_true, false_implies, not_false_eq_true, true_implies, true_and,
    SP.append_buffered_proposals, M.sat_pure, SP.append_buffered_stopsign, hb, M.sat_upd, SP.sat_onStore, IStore.append_entries_without_batching,
    IStore.sat_write_append, IStore.sat_setCache]
  refine ⟨fun he => ?_, fun _ => ?_⟩
  · have he' := List.isEmpty_iff.1 he
    refine ⟨by rw [he']; rfl, s.ist, by rw [he']; exact hi, ?_⟩
    rw [← he', ← hb]
  · refine ⟨by simp [hi.acc], _, ?_, rfl⟩
    exact ⟨by simp [Mem.append_entries, hi.log], hi.batch, by simp [hi.acc], hi.dec, hi.comp, hi.trim, hi.ccomp, hi.ss, hi.dss, hi.prom, hi.nprom⟩

theorem prepare_all {cc : ClusterConfig} (hv : cc.validate = .ok ()) {j : Nat} (hj : cc.nodes.length ≤ j) :
    (Quorum.with cc.flexible_quorum cc.nodes.length).is_prepare_quorum j = true := by
  unfold ClusterConfig.validate at hv
  simp only at hv
  unfold Quorum.with Quorum.is_prepare_quorum
  split at hv
  · cases hv
  · split at hv
    · cases hv
    · cases hq : cc.flexible_quorum with
      | none => simp; omega
      | some q =>
        rw [hq] at hv
        simp only at hv
        simp only [ge_iff_le, decide_eq_true_eq]
        split at hv
        · cases hv
        · split at hv
          · cases hv
          · split at hv
            · cases hv
            · rename_i h; have := Classical.not_not.1 h; omega

namespace Cand

variable {P : NodeId → Prop} {Z : List E} {s : SP E S}

theorem clear (h : Cand P cc n Z s) : Cand P cc n Z { s with ist := { s.ist with trail := [], calls := [] } } :=
  ⟨h.role, h.phase, h.pid, h.peers, h.ballot, h.quorum, h.promised, h.slots, h.members, h.metas, h.sync, h.lam, h.buf, h.bss, h.ist.clear, h.own, h.size, h.ends, h.noq⟩

theorem take (h : Cand P cc n Z s) (buf : List (Message E S)) : Cand P cc n Z (s.take_outgoing_msgs buf).2 :=
  ⟨h.role, h.phase, h.pid, h.peers, h.ballot, h.quorum, h.promised, h.slots, h.members, h.metas, h.sync, rfl, h.buf, h.bss, h.ist, h.own,
    ⟨h.size.1, h.size.2.1, none, slot_replicate_le h.size.1 h.size.2.1, rfl⟩, nofun, h.noq⟩

theorem hold (h : Cand P cc n Z s) (es : List E) : Cand P cc n (Z ++ es) { s with buffered_proposals := s.buffered_proposals ++ es } :=
  ⟨h.role, h.phase, h.pid, h.peers, h.ballot, h.quorum, h.promised, h.slots, h.members, h.metas, h.sync, h.lam, by simp only [h.buf], h.bss, h.ist, h.own, h.size, h.ends, h.noq⟩

theorem no_ss (h : Cand P cc n Z s) : s.accepted_reconfiguration = false := by
  simp [SP.accepted_reconfiguration, h.ist.st.ss]

/-- Nothing but the waiting proposals changes. -/
def Held (P : NodeId → Prop) (cc : ClusterConfig) (n : Ballot) (Z : List E) (s s' : SP E S) : Prop :=
  Cand P cc n Z s' ∧ ∀ f q a ms, Keeps n f q a ms s → Keeps n f q a ms s'

theorem append (h : Cand P cc n Z s) (e : E) :
    M.Sat (SP.append e) s (fun _ s' => Held P cc n (Z ++ [e]) s s') (fun _ => False) := by
  simp only [SP.append, M.sat_bind, M.sat_get, h.no_ss, SP.propose_entry, h.role, h.phase, Bool.false_eq_true, if_false, M.sat_pure, M.sat_upd]
  exact ⟨by simpa only [h.role, h.phase] using h.hold [e], fun f q a ms hk => ⟨hk.pos, hk.size, hk.seq, hk.acc, hk.outs, hk.lam⟩⟩

theorem forwarded (h : Cand P cc n Z s) (es : List E) :
    M.Sat (SP.handle_forwarded_proposal es) s (fun _ s' => Held P cc n (Z ++ es) s s') (fun _ => False) := by
  simp only [SP.handle_forwarded_proposal, M.sat_bind, M.sat_get, h.no_ss, h.role, h.phase, Bool.false_eq_true, if_false, M.sat_upd]
  exact ⟨by simpa only [h.role, h.phase] using h.hold es, fun f q a ms hk => ⟨hk.pos, hk.size, hk.seq, hk.acc, hk.outs, hk.lam⟩⟩

/-- A tick at which nobody else is elected and the resend timeout does not fire. -/
theorem ticked (h : Cand P cc n Z s) {b : Option Ballot} (hb : b = none ∨ b = some n) (r w : Prop) [Decidable r] [Decidable w] (hr : ¬ r) :
    M.Sat (SP.ticked b r w) s (fun _ s' => s' = s) (fun _ => False) := by
  have hc : (n ≤ s.ls.n_leader ∨ n ≤ s.get_promise) := by
    rw [h.ballot]; exact .inl (Ballot.le_refl n)
  have key : M.Sat (M.whenDo w SP.flush_batch_timeout) s (fun _ s' => s' = s) (fun _ => False) := by
    rw [M.sat_whenDo]
    refine ⟨fun _ => ?_, fun _ => rfl⟩
    simp only [SP.flush_batch_timeout, M.sat_bind, M.sat_get, h.role, h.phase, M.sat_pure]
  rcases hb with rfl | rfl
  · simp only [SP.ticked, M.sat_bind, M.sat_pure, M.sat_whenDo (c := r), hr, false_implies, not_false_eq_true, true_implies, true_and]
    exact key
  · simp only [SP.ticked, M.sat_bind, SP.handle_leader, M.sat_get, if_pos hc, M.sat_pure, M.sat_whenDo (c := r), hr, false_implies, not_false_eq_true, true_implies, true_and]
    exact key

/-- All have promised: the Prepare phase is over. -/
theorem not_all (h : Cand P cc n Z s) (hv : cc.validate = .ok ()) (hnd : cc.nodes.Nodup) {f : NodeId} (hf : f ∈ cc.nodes) (hfn : f ≠ n.pid) :
    ¬ ∀ g ∈ cc.nodes, P g := fun ha => by
  have h1 := h.noq f hfn (ha f hf)
  rw [h.quorum] at h1
  rw [prepare_all hv] at h1
  · cases h1
  · refine le_count_slots hnd fun x hx => ?_
    obtain ⟨m, hm⟩ := h.promised x hx (ha x hx)
    exact ⟨_, hm, rfl⟩

/-- leader.rs 287-299. -/
theorem promise [SnapOps E S] (hu : SnapOps.use_snapshots E S = false) (h : Cand P cc n Z s) {f : NodeId} (hf : f ∈ cc.nodes) (hfn : f ≠ n.pid)
    (hK : ∀ g ∈ cc.nodes, g ≠ n.pid → (g = f ∨ P g) → ∃ q a, Keeps n g q a [] s) :
    M.Sat (SP.handle_promise_prepare (prom0 n) f) s (fun _ s' =>
      Held (fun g => g = f ∨ P g) cc n Z s s' ∨
      (LeadOf (fun g => g = f ∨ P g) cc n 0 [] 0 Z [] 0 s' ∧ ∀ g ∈ cc.nodes, g ≠ n.pid → ∀ q a ms, Keeps n g q a ms s →
        ((g = f ∨ P g) → ms = [] → ∃ q', Keeps n g q' a [.acceptSync { n, seq_num := q', decided_idx := 0, log_sync := sync0 Z }] s') ∧
        (¬ (g = f ∨ P g) → Keeps n g q a ms s'))) (fun _ => False) := by
  obtain ⟨st, hst⟩ := h.slots f hf
  obtain ⟨ls, hls, hP⟩ := set_promise_zero hst n true
  simp only [SP.handle_promise_prepare, M.sat_bind, M.sat_get, M.sat_ite]
  refine ⟨fun _ => ?_, fun hn => absurd h.ballot.symm hn⟩
  simp only [SP.sat_onLS', hls]
  refine ⟨fun r hr => ?_, fun h => by simp at h⟩
  simp only [Option.some.injEq] at hr
  subst hr
  have hprom : ∀ i ∈ cc.nodes, (i = f ∨ P i) → ∃ m, slot ls.promises_meta i = some (.promised m) := fun i hi hp => by
    by_cases e : i = f
    · subst e; exact ⟨_, hP.self⟩
    · rw [hP.other i e]; exact h.promised i hi (hp.resolve_left e)
  have hslots : ∀ i ∈ cc.nodes, ∃ st, slot ls.promises_meta i = some st := fun i hi => by
    by_cases e : i = f
    · subst e; exact ⟨_, hP.self⟩
    · rw [hP.other i e]; exact h.slots i hi
  have hmem : ∀ i m, slot ls.promises_meta i = some (.promised m) → i ∈ cc.nodes ∧ (i = f ∨ P i) := fun i m hm => by
    by_cases e : i = f
    · subst e; exact ⟨hf, .inl rfl⟩
    · rw [hP.other i e] at hm; exact ⟨(h.members i m hm).1, .inr (h.members i m hm).2⟩
  have hmeta : ∀ i m, slot ls.promises_meta i = some (.promised m) → m = meta0 i := fun i m hm => by
    by_cases e : i = f
    · subst e; rw [hP.self] at hm; simpa using hm.symm
    · rw [hP.other i e] at hm; exact h.metas i m hm
  refine ⟨fun hq => ?_, fun hq => .inl ⟨?_, fun g q a ms hk => hP.keeps hk⟩⟩
  · have hmax : ls.get_max_decided_idx = 0 := max_decided_zero fun m hm => by
      obtain ⟨j, hj, hjm⟩ := List.mem_iff_getElem.1 hm
      have := hmeta (j + 1) m (by simp only [slot, List.getElem?_eq_getElem hj, hjm])
      rw [this]; rfl
    simp only [SP.handle_majority_promises, M.sat_bind, M.sat_get, M.sat_upd, SP.sat_onStore, hmax, hP.sync h.sync, hP.n_leader.trans h.ballot]
    refine M.sat_mono (h.ist.sync_none n) (fun r j hj => ?_) fun _ h => h
    obtain ⟨rfl, hj⟩ := hj
    refine M.sat_mono (append_buffered_spec hj h.bss) (fun r t ht => ?_) fun _ h => h
    obtain ⟨rfl, j', hj', rfl⟩ := ht
    have hown : slot ls.accepted_indexes n.pid = some 0 := by rw [hP.accepted]; exact h.own
    obtain ⟨v, hv⟩ := setSlot_of_slot hown Z.length
    obtain ⟨_, _, _, hv1, hv2⟩ := setSlot_spec hv
    simp only [h.buf] at hj'
    simp only [SP.sat_setState, SP.sat_onLS, LeaderState.set_accepted_idx, h.buf, h.pid, hv]
    refine ⟨fun r hr => ?_, fun h => by simp at h⟩
    simp only [Option.some.injEq] at hr
    subst hr
    refine M.sat_mono (sync_followers hu (P := fun g => g = f ∨ P g) (cc := cc) (X := Z) (B := []) (d := 0) (n := n) ?_ ?_ ?_ rfl) (fun _ t ht => ?_) fun _ h => h
    · exact ⟨rfl, rfl, rfl, h.peers, rfl, hP.quorum.trans h.quorum, hprom, hslots, hmem, h.lam, rfl, hj', Nat.zero_le _, by simpa using hv1,
        ⟨h.size.1, by simp only [hP.max_pid]; exact h.size.2.1, by simp only [hP.latest]; exact h.size.2.2⟩, h.ends⟩
    · exact hmeta
    · intro g hg hgn hgP
      obtain ⟨q, a, hk⟩ := hK g hg hgn hgP
      have hk := hP.keeps hk
      exact ⟨q, a, hk.pos, hk.size, hk.seq, by simp only; rw [hv2 g hgn]; exact hk.acc, hk.outs, hk.lam⟩
    · refine .inr ⟨ht.1, fun g hg hgn q a ms hk => ?_⟩
      refine ht.2 g hg hgn q a ms ?_
      have hk := hP.keeps hk
      exact ⟨hk.pos, hk.size, hk.seq, by simp only; rw [hv2 g hgn]; exact hk.acc, hk.outs, hk.lam⟩
  · refine ⟨h.role, h.phase, h.pid, h.peers, hP.n_leader.trans h.ballot, hP.quorum.trans h.quorum, hprom, hslots, hmem, hmeta, hP.sync h.sync, h.lam, h.buf, h.bss, h.ist,
      by simp only [hP.accepted]; exact h.own, ⟨h.size.1, by simp only [hP.max_pid]; exact h.size.2.1, by simp only [hP.latest]; exact h.size.2.2⟩, h.ends, fun g _ _ => ?_⟩
    simp only [hP.quorum]
    simpa using hq

end Cand

end Omni
