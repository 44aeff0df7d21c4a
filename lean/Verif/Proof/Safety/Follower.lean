import Verif.Proof.Safety.Store
/-
The handlers of a follower in the Accept phase keep the invariant.
-/
namespace Omni

variable {E S : Type}

theorem pairwise_modify {α : Type} {R : α → α → Prop} {l : List α} {k : Nat} {f : α → α} (h : l.Pairwise R)
    (hk : ∀ a, l[k]? = some a → ∀ x ∈ l, (R x a → R x (f a)) ∧ (R a x → R (f a) x)) : (l.modify k f).Pairwise R := by
  induction l generalizing k with
  | nil => simpa using h
  | cons a l ih =>
    rw [List.pairwise_cons] at h
    cases k with
    | zero =>
      simp only [List.modify_zero_cons, List.pairwise_cons]
      refine ⟨fun x hx => ?_, h.2⟩
      exact (hk a rfl x (List.mem_cons_of_mem _ hx)).2 (h.1 x hx)
    | succ k =>
      simp only [List.modify_succ_cons, List.pairwise_cons]
      refine ⟨fun x hx => ?_, ih h.2 fun b hb x hx => hk b (by simpa using hb) x (List.mem_cons_of_mem _ hx)⟩
      rw [List.mem_iff_getElem?] at hx
      obtain ⟨j, hj⟩ := hx
      rw [List.getElem?_modify] at hj
      by_cases hjk : k = j
      · subst hjk
        cases hl : l[k]? with
        | none => rw [hl] at hj; simp at hj
        | some b =>
          rw [hl] at hj
          simp at hj
          subst hj
          exact (hk b (by simpa using hl) a (by simp)).1 (h.1 b (List.mem_of_getElem? hl))
      · simp [hjk] at hj
        exact h.1 x (List.mem_of_getElem? hj)

theorem mem_modify {α : Type} {l : List α} {k : Nat} {f : α → α} {x : α} (h : x ∈ l.modify k f) :
    x ∈ l ∨ ∃ a, l[k]? = some a ∧ x = f a := by
  rw [List.mem_iff_getElem?] at h
  obtain ⟨j, hj⟩ := h
  rw [List.getElem?_modify] at hj
  by_cases hjk : k = j
  · subst hjk
    cases hl : l[k]? with
    | none => rw [hl] at hj; simp at hj
    | some b => rw [hl] at hj; simp at hj; exact .inr ⟨b, rfl, hj.symm⟩
  · simp [hjk] at hj
    exact .inl (List.mem_of_getElem? hj)

namespace Ctx
variable {C : Ctx E S} {G G' : Ghost E} {s s' : SP E S} {lg lg' : Lg E}

theorem leader_pid (hC : C.CoreC G s lg) (hr : RoleInv C.cc C.i C.pre G s lg) (hl : s.role = .leader) :
    s.ist.cache.promise.pid = C.i ∧ s.ls.n_leader = s.ist.cache.promise := by
  unfold RoleInv at hr
  rw [hl] at hr
  cases hp : s.phase <;> rw [hp] at hr <;> simp only at hr
  · exact ⟨hr.ldr ▸ hr.own, hr.ldr⟩
  · exact ⟨hr.ldr ▸ hr.own, hr.ldr⟩

theorem fol_of (hr : RoleInv C.cc C.i C.pre G s lg) (hl : s.role = .follower) : FolInv C.cc C.i G s lg := by
  unfold RoleInv at hr
  rw [hl] at hr
  cases hp : s.phase <;> rw [hp] at hr <;> exact hr

theorem role_of_fol (hr : FolInv C.cc C.i G s lg) (hl : s.role = .follower) : RoleInv C.cc C.i C.pre G s lg := by
  unfold RoleInv
  rw [hl]
  cases hp : s.phase <;> exact hr

theorem reconnected_inv (h : C.Inv s) (pid : NodeId) : M.Sat (SP.reconnected pid) s (fun _ => C.Inv) C.Bad := by
  obtain ⟨G, hR, ⟨lg, hC, hr⟩, hT⟩ := h
  simp only [SP.reconnected, M.sat_bind, M.sat_get, M.sat_ite, M.sat_pure, M.sat_whenDo, SP.sat_setState, SP.sat_send]
  refine ⟨fun _ => ⟨G, hR, ⟨lg, hC, hr⟩, hT⟩, fun hne => ⟨fun hl => ?_, fun _ => ?_⟩⟩
  · have hrole : s.role = .follower := by
      cases hx : s.role with
      | follower => rfl
      | leader =>
        exfalso
        apply hne
        rw [hl, hC.pid]
        exact (leader_pid hC hr hx).1
    have hF := fol_of hr hrole
    have hC' : C.CoreC G { s with role := .follower, phase := .recover } lg :=
      ⟨hC.pid, hC.node, hC.peers, hC.quorum, hC.maxpid, hC.lenA, hC.disk, hC.mir, hC.idx, hC.src, hC.dst, hC.out, hC.lam,
        Nat.le_trans (SP.tok_follower (s := s) rfl rfl rfl) hC.tok⟩
    have hF' : FolInv C.cc C.i G { s with role := .follower, phase := .recover } lg :=
      ⟨hF.batch, fun h => by simp at h, fun h => by simp at h, fun h => by simp at h⟩
    exact Inv.send hR hC' (role_of_fol hF' rfl) hT (by rw [← hC.pid]; exact hne) rfl trivial fun _ => rfl
  · exact Inv.send hR hC hr hT (by rw [← hC.pid]; exact hne) rfl trivial fun _ => rfl

theorem good_eq (hR : C.Reach G) (hC : C.CoreC G s lg) {n : Ballot} (hn : GoodB C.cc n)
    (h : s.ist.cache.promise.cmp n = .eq) : s.ist.cache.promise = n := by
  have hg := hC.disk.good
  rw [← hC.mir.prom] at hg
  have h1 := (Ballot.cmp_eq_iff _ _).1 h
  exact Ballot.eq_of_le_of_le hg hn (by rw [Ballot.le_iff, Ballot.lt_iff]; omega) (by rw [Ballot.le_iff, Ballot.lt_iff]; omega)

/-- Facts about an accept message that is being delivered. -/
structure Incoming (C : Ctx E S) (G : Ghost E) (n : Ballot) (q : SeqNum) : Prop where
  ne : n.pid ≠ C.i
  acc : G.acc n.pid n ≠ none
  pid : n.pid ≠ 0
  /-- an accept message other than AcceptSync is taken only right after the previous one -/
  allow : q.session = (G.curg n C.i).session → 1 ≤ (G.curg n C.i).counter → C.allow n q

theorem Incoming.good {n : Ballot} {q : SeqNum} (h : Incoming C G n q) (hR : C.Reach G) : GoodB C.cc n := hR.abs.good _ _ h.acc

theorem Incoming.ne_default {n : Ballot} {q : SeqNum} (h : Incoming C G n q) : n ≠ {} := by
  rintro rfl; exact h.pid rfl

/-- The promise is recorded, unless it is the default ballot. -/
theorem prec_prom (hR : C.Reach G) (hC : C.CoreC G s lg) (hne : s.ist.storage.prom ≠ {}) :
    G.prec C.i s.ist.storage.prom ≠ none := by
  by_cases h : s.ist.storage.prom = s.ist.storage.acc_round.getD {}
  · rw [h] at hne ⊢
    exact (hR.abs.acc C.i _ lg hC.disk.acc hne).1
  · rw [hC.disk.precCur h]; simp

theorem not_gone {n : Ballot} (hC : C.CoreC G s lg) (hp : s.ist.cache.promise = n) : ¬ G.Gone n C.i := by
  rintro ⟨b, h1, h2⟩
  have := hC.disk.precMax b h2
  rw [← hC.mir.prom, hp] at this
  exact Ballot.lt_irrefl _ (Ballot.lt_of_lt_of_le h1 this)

theorem notaccepted_body (hR : C.Reach G) (hC : C.CoreC G s lg) (dst : NodeId) :
    MsgBody C.cc G C.i dst (.notAccepted s.ist.cache.promise : PaxosMsg E S) := by
  by_cases h : s.ist.cache.promise = {}
  · exact .inl h
  · right
    rw [hC.mir.prom] at h ⊢
    exact prec_prom hR hC h

theorem check_valid_ballot_sat (hR : C.Reach G) (hC : C.CoreC G s lg) (hr : RoleInv C.cc C.i C.pre G s lg) (hT : C.Trail s)
    {n : Ballot} (hn : GoodB C.cc n) (hne : n.pid ≠ C.i) {Q : Bool → SP E S → Prop} (hf : ∀ s', C.Inv s' → Q false s')
    (ht : s.ist.cache.promise = n → Q true s) : M.Sat (SP.check_valid_ballot n) s Q C.Bad := by
  simp only [SP.check_valid_ballot, M.sat_bind, M.sat_get, SP.get_promise]
  cases hc : s.ist.cache.promise.cmp n with
  | eq => exact ht (good_eq hR hC hn hc)
  | gt =>
    simp only [M.sat_bind, SP.sat_send, M.sat_pure]
    exact hf _ (Inv.send hR hC hr hT hne rfl (notaccepted_body hR hC _) fun _ => rfl)
  | lt =>
    simp only [M.sat_bind, M.sat_pure]
    exact M.sat_mono (reconnected_inv ⟨G, hR, ⟨lg, hC, hr⟩, hT⟩ _) (fun _ s' h => hf s' h) fun _ h => h

theorem accept_guard_sat (hR : C.Reach G) (hC : C.CoreC G s lg) (hr : RoleInv C.cc C.i C.pre G s lg) (hT : C.Trail s)
    {n : Ballot} {q : SeqNum} (hI : Incoming C G n q) (any : Bool) {Q : Bool → SP E S → Prop}
    (hf : ∀ s', C.Inv s' → Q false s')
    (ht : s.ist.cache.promise = n → s.role = .follower → s.phase = .accept → q.session = s.current_seq_num.session →
      q.counter = s.current_seq_num.counter + 1 → Q true { s with current_seq_num := q }) :
    M.Sat (SP.accept_guard n q any) s Q C.Bad := by
  have hi : C.Inv s := ⟨G, hR, ⟨lg, hC, hr⟩, hT⟩
  simp only [SP.accept_guard, M.sat_bind]
  refine check_valid_ballot_sat hR hC hr hT (hI.good hR) hI.ne (fun s' h => ?_) fun hp => ?_
  · simp only [M.sat_get, M.sat_ite, M.sat_pure]
    exact ⟨fun h => by simp at h, fun _ => hf s' h⟩
  · simp only [M.sat_get, M.sat_ite, M.sat_pure, SP.handle_sequence_num, M.sat_bind]
    refine ⟨fun hc => ?_, fun _ => hf s hi⟩
    have hrole : s.role = .follower := by
      cases hx : s.role with
      | follower => rfl
      | leader => exact absurd ((leader_pid hC hr hx).1) (by rw [hp]; exact hI.ne)
    cases hst : s.current_seq_num.check_msg_status q with
    | expected =>
      simp only [M.sat_bind, M.sat_upd, M.sat_pure]
      have : q.session = s.current_seq_num.session ∧ q.counter = s.current_seq_num.counter + 1 := by
        unfold SeqNum.check_msg_status at hst
        split at hst
        · assumption
        · split at hst <;> simp at hst
      exact ht hp hrole hc.2.2 this.1 this.2
    | droppedPreceding =>
      simp only [M.sat_bind, M.sat_pure]
      exact M.sat_mono (reconnected_inv hi _) (fun _ s' h => hf s' h) fun _ h => h
    | outdated =>
      simp only [M.sat_pure]
      exact hf s hi

/-- A follower in the Accept phase of ballot `n`. -/
structure FolAcc (C : Ctx E S) (n : Ballot) (G : Ghost E) (s : SP E S) (lg : Lg E) : Prop where
  reach : C.Reach G
  core : C.CoreC G s lg
  fol : FolInv C.cc C.i G s lg
  trail : C.Trail s
  role : s.role = .follower
  phase : s.phase = .accept
  prom : s.ist.cache.promise = n
  ne : n.pid ≠ C.i

theorem FolAcc.inv {n : Ballot} (h : FolAcc C n G s lg) : C.Inv s :=
  ⟨G, h.reach, ⟨lg, h.core, role_of_fol h.fol h.role⟩, h.trail⟩

theorem FolAcc.acc {n : Ballot} (h : FolAcc C n G s lg) : G.acc C.i n = some lg := by
  have := h.core.disk.acc
  rw [← h.core.mir.acc, (h.fol.accept h.phase).1, h.prom] at this
  exact this

theorem FolAcc.round {n : Ballot} (h : FolAcc C n G s lg) : s.ist.storage.acc_round.getD {} = n := by
  rw [← h.core.mir.acc, (h.fol.accept h.phase).1, h.prom]

/-- The session a follower is in is not dead. -/
theorem FolAcc.alive {n : Ballot} {q : SeqNum} (h : FolAcc C n G s lg) (hs : q.session = s.current_seq_num.session) :
    ¬ G.dead n C.i q.session := by
  rw [hs, ← h.prom]
  exact h.fol.live h.phase

/-- The follower steps to the next accept message. -/
theorem FolAcc.advance {n : Ballot} {q : SeqNum} {es : List E} (h : FolAcc C n G s lg) (hI : Incoming C G n q)
    (hs : q.session = s.current_seq_num.session) (hc : q.counter = s.current_seq_num.counter + 1)
    (he : (G.endf n C.i q).es = (G.endf n C.i q.pred).es ++ es) :
    ∃ G', Mono G G' ∧ (∀ n F q, G'.endf n F q = G.endf n F q) ∧
      FolAcc C n G' { s with current_seq_num := q, ist := s.ist.batch (s.ist.cache.batched_entries ++ es) } lg := by
  obtain ⟨f1, f2, f3, f4, f5⟩ := h.fol.accept h.phase
  have hp := h.prom
  rw [hp] at f1 f2 f3 f5
  have hpred : q.pred = s.current_seq_num := by
    unfold SeqNum.pred
    rw [hc]
    cases hx : s.current_seq_num
    simp [hx] at hs ⊢
    exact hs
  have hlt : G.curg n C.i ≤ q := by rw [← f3, ← hpred]; exact SeqNum.pred_le q
  have hacc := h.acc
  have hne := hI.ne_default
  obtain ⟨hpr, p, l0, hp', h0, hl0, hlp, hend⟩ := h.reach.abs.acc C.i n lg hacc hne
  have hend := hend f2.symm
  have hold : ∀ x, G.acc C.i n = some x → x ≤ lg := fun x hx => by
    rw [hacc] at hx; simp at hx; exact Lg.le_of_eq hx.symm
  have hS : Step C.i C.allow G (G.follow C.i n lg q) := Ghost.follow_step hold hlt (hI.allow (by rw [← f3]; exact hs) (by rw [← f3]; exact f4))
  have hA : Abs C.cc (G.follow C.i n lg q) := by
    refine Ghost.follow_abs h.reach.abs f2 hne h0 hl0 hold (Lg.le_trans hend (h.reach.abs.endMono _ _ _ _ hlt)) hpr ?_
    intro b hb
    have := h.core.disk.precMax b hb
    rw [← h.core.mir.prom, hp] at this
    exact this
  have ho := out_mono hS (fun _ _ _ => rfl) h.core.src h.core.out
  have hR' : C.Reach (G.follow C.i n lg q) := h.reach.trans hS hA ho
  have hd : DiskInv C.cc C.i (G.follow C.i n lg q) s.ist.storage lg := by
    have hd := h.core.disk
    have hround := h.round
    exact {
      acc := by rw [hround]; simp [Ghost.follow]
      log := hd.log
      trim := hd.trim
      ss := hd.ss
      cov := hd.cov
      dec := hd.dec.mono hS.toMono
      snap := fun h => (hd.snap h).mono hS.toMono
      le := hd.le
      good := hd.good
      accMax := fun b hb => by
        simp only [Ghost.follow] at hb
        split at hb
        · rename_i hc; rw [hc.2, hround]; exact Ballot.le_refl _
        · exact hd.accMax b hb
      precMax := hd.precMax
      precCur := hd.precCur }
  have hC' := setIst (ist := s.ist.batch (s.ist.cache.batched_entries ++ es)) h.core hd (mirror_batch h.core.mir _) h.core.idx ho
    (Nat.le_trans (SP.tok_follower (s := s) h.role rfl rfl) h.core.tok)
  have hcur : (G.follow C.i n lg q).curg n C.i = q := by simp [Ghost.follow]
  have heq : lg.es ++ (s.ist.cache.batched_entries ++ es) = (G.endf n C.i q).es := by
    rw [he, hpred, f3, ← f5, List.append_assoc]
  refine ⟨G.follow C.i n lg q, hS.toMono, fun _ _ _ => rfl, hR',
    ⟨hC'.pid, hC'.node, hC'.peers, hC'.quorum, hC'.maxpid, hC'.lenA, hC'.disk, hC'.mir, hC'.idx, hC'.src, hC'.dst, hC'.out, hC'.lam, hC'.tok⟩,
    ⟨?_, ?_, ?_, fun _ => ?_⟩, h.trail, h.role, h.phase, h.prom, h.ne⟩
  rotate_right
  · show ¬ G.dead s.ist.cache.promise C.i q.session
    rw [hp]
    exact h.alive hs
  · refine .inr ⟨?_, ?_, ?_⟩
    · show s.ist.cache.accepted_round = s.ist.cache.promise; rw [f1, hp]
    · show s.ist.cache.promise.pid ≠ _; rw [hp]; exact f2
    · show lg.es ++ (s.ist.cache.batched_entries ++ es) <+:
        (G.endf s.ist.cache.promise C.i ((G.follow C.i n lg q).curg s.ist.cache.promise C.i)).es
      rw [hp, hcur, heq]
      exact List.prefix_rfl
  · intro hx
    simp only [h.phase] at hx
    exact absurd hx (by simp)
  · intro _
    show s.ist.cache.accepted_round = s.ist.cache.promise ∧ s.ist.cache.promise.pid ≠ _ ∧
      q = (G.follow C.i n lg q).curg s.ist.cache.promise C.i ∧ _ ∧
      lg.es ++ (s.ist.cache.batched_entries ++ es) = (G.endf s.ist.cache.promise C.i ((G.follow C.i n lg q).curg s.ist.cache.promise C.i)).es
    rw [hp, hcur]
    exact ⟨f1, f2, rfl, by show 1 ≤ q.counter; omega, heq⟩

theorem FolAcc.flush {n : Ballot} (h : FolAcc C n G s lg) :
    ∃ G', Mono G G' ∧ (∀ n F q, G'.endf n F q = G.endf n F q) ∧ (∀ n F, G'.curg n F = G.curg n F) ∧
      FolAcc C n G' { s with ist := s.ist.flushed } ⟨lg.es ++ s.ist.cache.batched_entries, lg.ss⟩ := by
  obtain ⟨G', h1, h2, h3, h4, h5⟩ := fol_flush h.reach h.core h.trail h.fol
  exact ⟨G', h1.step.toMono, h1.endf, h1.curg, h2, h3, h5, h4, h.role, h.phase, h.prom, h.ne⟩

/-- A chosen log is part of an accepted one, as far as the latter goes. -/
theorem decOK_of_msg (hv : C.cc.validate = .ok ()) (hA : Abs C.cc G) {n : Ballot} {j : NodeId} {d k k' : Nat}
    (hd : G.DecMsg C.cc n d) (ha : G.acc j n = some lg) (hk : lg.Covers k') (h1 : k ≤ d) (h2 : k ≤ k') :
    G.DecOK C.cc n lg k := by
  rcases hd with rfl | ⟨b, l, hb, hc, hcov⟩
  · exact .inl (by omega)
  have hcase : l ≤ lg ∨ (b = n ∧ lg ≤ l) := by
    rcases Ballot.lt_or_le b n with hlt | hle
    · exact .inl (hA.fixed_le_acc (hc.fixed hv) hlt ha)
    · obtain ⟨j', a, ha', hla⟩ := hc.exists_acc hv
      have : b = n := Ballot.eq_of_le_of_le (hA.good j' b (by rw [ha']; simp)) (hA.good j n (by rw [ha]; simp)) hb hle
      subst this
      obtain ⟨p, hp, h3⟩ := hA.le_prop ha
      obtain ⟨p', hp', h4⟩ := hA.le_prop ha'
      rw [hp] at hp'; simp at hp'; subst hp'
      rcases Lg.comparable (Lg.le_trans hla h4) h3 with h5 | h5
      · exact .inl h5
      · exact .inr ⟨rfl, h5⟩
  rcases hcase with h3 | ⟨rfl, h3⟩
  · exact .inr ⟨b, l, hb, hc, hcov.down h1, h3⟩
  · exact .inr ⟨b, lg, hb, hc.down h3, hk.down h2, Lg.le_refl _⟩

theorem FolAcc.decide {n : Ballot} {d k : Nat} (h : FolAcc C n G s lg) (hd : G.DecMsg C.cc n d) (h1 : k ≤ d)
    (h2 : k ≤ s.ist.cache.accepted_idx) : FolAcc C n G { s with ist := s.ist.decided k } lg := by
  have hdec : G.DecOK C.cc n lg k := decOK_of_msg C.hv h.reach.abs hd h.acc h.core.idx.covers h1 h2
  have hd := h.core.disk.decide (k := k) (by rw [h.round]; exact hdec)
  have hm := h.core.mir
  exact {
    reach := h.reach
    core := setIst h.core hd ⟨hm.prom, hm.acc, rfl, hm.comp, hm.trim, hm.ss⟩ h.core.idx h.core.out h.core.tok
    fol := ⟨h.fol.batch, h.fol.prep, h.fol.accept, h.fol.live⟩
    trail := h.trail.cons ⟨G, lg, h.reach, hd⟩ (IStore.wrote_decided ..)
    role := h.role
    phase := h.phase
    prom := h.prom
    ne := h.ne }

/-- The post-condition of the middle parts of a handler: still in the Accept phase, and what is to be reported is accepted. -/
def FolPost (C : Ctx E S) (n : Ballot) (d : Nat) (r : Option Nat) (s : SP E S) : Prop :=
  ∃ G lg, FolAcc C n G s lg ∧ G.DecMsg C.cc n d ∧ ∀ k, r = some k → k = s.ist.cache.accepted_idx

theorem FolPost.bad {n d r} (h : FolPost C n d r s) : C.Bad s := let ⟨_, _, h, _⟩ := h; h.inv.bad

theorem update_decided_sat {n : Ballot} {d : Nat} {r : Option Nat} (h : FolPost C n d r s) :
    M.Sat (SP.update_decided_idx_and_get_accepted_idx d) s (fun r' => FolPost C n d (r'.or r)) C.Bad := by
  obtain ⟨G, lg, hF, hd, hr⟩ := h
  simp only [SP.update_decided_idx_and_get_accepted_idx, M.sat_bind, M.sat_get, M.sat_ite, M.sat_pure, SP.sat_onStore,
    IStore.sat_flush_batch, IStore.sat_set_decided_idx]
  refine ⟨fun _ => ⟨G, lg, hF, hd, by simpa using hr⟩, fun h1 => ⟨fun h2 => ?_, fun h2 => ?_⟩⟩
  · obtain ⟨G', hM, -, -, hF'⟩ := hF.flush
    refine ⟨G', _, hF'.decide (hd.mono hM) (Nat.min_le_left _ _) (Nat.min_le_right _ _), hd.mono hM, ?_⟩
    intro k hk
    simp at hk
    exact hk.symm
  · refine ⟨G, lg, hF.decide hd (Nat.le_refl _) (by omega), hd, ?_⟩
    intro k hk
    simp at hk
    exact hr k hk

/-- Overwriting a message that is not an accept message by another one. -/
theorem _root_.Omni.Core.setMsg {cc : ClusterConfig} {i : NodeId} {pre : NodeId → List (PaxosMessage E S)} (h : Core cc i pre G s lg)
    {idx : Nat} {msg : PaxosMsg E S} {m : PaxosMessage E S} (hm : s.outgoing[idx]? = some m) (hold : m.msg.accOf = none)
    (hnew : msg.accOf = none) (hb : MsgBody cc G i m.dst msg)
    (hl : ∀ b k, s.latest_accepted_meta = some (b, k) → k = idx → ∃ a, msg = .accepted a ∧ a.n = b) (hf : ∀ P, msg.fwd P = 0) :
    Core cc i pre G { s with outgoing := s.outgoing.modify idx fun m => { m with msg } } lg where
  pid := h.pid
  node := h.node
  peers := h.peers
  quorum := h.quorum
  maxpid := h.maxpid
  lenA := h.lenA
  disk := h.disk
  mir := h.mir
  idx := h.idx
  src j x hx := by
    rcases List.mem_append.1 hx with hx | hx
    · exact h.src j x (List.mem_append_left _ hx)
    · rcases mem_modify hx with hx | ⟨a, ha, rfl⟩
      · exact h.src j x (List.mem_append_right _ hx)
      · exact h.src j a (List.mem_append_right _ (List.mem_of_getElem? ha))
  dst := h.dst
  out j := by
    refine ⟨fun x hx => ?_, (h.out j).ord, fun x hx n q hq => ?_, pairwise_modify (h.out j).seq ?_, fun a ha b hb => ?_⟩
    · rcases List.mem_append.1 hx with hx | hx
      · exact (h.out j).msg x (List.mem_append_left _ hx)
      · rcases mem_modify hx with hx | ⟨a, ha, rfl⟩
        · exact (h.out j).msg x (List.mem_append_right _ hx)
        · rw [hm] at ha
          simp at ha
          subst ha
          have h0 := (h.out j).msg m (List.mem_append_right _ (List.mem_of_getElem? hm))
          have hs := h.src j m (List.mem_append_right _ (List.mem_of_getElem? hm))
          exact msgOK_of_none hnew h0.ne h0.node (by rw [hs]; exact hb)
    · rcases mem_modify hx with hx | ⟨a, ha, rfl⟩
      · exact (h.out j).fresh x hx n q hq
      · simp only at hq; rw [hnew] at hq; cases hq
    · intro a ha x _
      refine ⟨fun _ => seqd_of_none hnew, fun _ n q q' h1 => ?_⟩
      rw [hnew] at h1
      simp at h1
    · rcases mem_modify hb with hb | ⟨c, hc, rfl⟩
      · exact (h.out j).cross a ha b hb
      · exact seqd_of_none hnew
  lam b k hk := by
    obtain ⟨m', a, h1, h2, h3⟩ := h.lam b k hk
    by_cases hki : k = idx
    · obtain ⟨a', h4, h5⟩ := hl b k hk hki
      subst hki
      exact ⟨{ m' with msg := msg }, a', by simp [List.getElem?_modify, h1], h4, h5⟩
    · exact ⟨m', a, by rw [List.getElem?_modify]; simp [Ne.symm hki, h1], h2, h3⟩
  tok := by
    have := h.tok
    have := fwds_modify (ms := s.outgoing) (k := idx) (hf G.mark)
    simp only [SP.tok, SP.own] at *
    omega

theorem reply_accepted_sat {n : Ballot} (h : FolAcc C n G s lg) (k : Nat) (hk : lg.Covers k) :
    M.Sat (SP.reply_accepted n k) s (fun _ => C.Inv) C.Bad := by
  simp only [SP.reply_accepted, M.sat_bind, M.sat_get, M.sat_ofPan]
  refine ⟨fun r hr => ?_, fun _ => h.inv.bad⟩
  have hbody : ∀ a : Accepted, a.n = n → a.accepted_idx = k → ∀ d, MsgBody C.cc G C.i d (.accepted a : PaxosMsg E S) := by
    intro a h1 h2 d
    refine ⟨lg, ?_, ?_⟩
    · rw [h1]; exact h.acc
    · rw [h2]; exact hk
  cases r with
  | some ia =>
    obtain ⟨idx, a⟩ := ia
    simp only [SP.sat_setMsg]
    unfold SP.get_latest_accepted at hr
    split at hr
    · simp at hr
    · rename_i bal idx' hlam
      split at hr
      · rename_i hbal
        subst hbal
        obtain ⟨m', a', h1, h2, h3⟩ := h.core.lam bal idx' hlam
        rw [h1] at hr
        simp only [h2] at hr
        simp at hr
        obtain ⟨rfl, rfl⟩ := hr
        have hC := h.core.setMsg (msg := .accepted { a' with accepted_idx := k }) h1 (by rw [h2]; rfl) rfl
          (hbody { a' with accepted_idx := k } h3 rfl _) (fun b k' hk' _ => ⟨_, rfl, by rw [hlam] at hk'; simp at hk'; rw [h3]; exact hk'.1⟩) (fun _ => rfl)
        exact ⟨G, h.reach, ⟨lg, hC, role_of_fol ⟨h.fol.batch, h.fol.prep, h.fol.accept, h.fol.live⟩ h.role⟩, h.trail⟩
      · simp at hr
  | none =>
    simp only [M.sat_bind, M.sat_upd, SP.sat_send]
    have hC : C.CoreC G { s with outgoing := s.outgoing ++ [{ src := s.pid, dst := n.pid, msg := .accepted { n, accepted_idx := k } }] } lg := by
      refine h.core.sends fun m hm => ?_
      simp at hm
      subst hm
      exact ⟨h.core.pid, h.ne, rfl, hbody _ rfl rfl _, fun _ => rfl⟩
    refine ⟨G, h.reach, ⟨lg, ⟨hC.pid, hC.node, hC.peers, hC.quorum, hC.maxpid, hC.lenA, hC.disk, hC.mir, hC.idx, hC.src, hC.dst, hC.out, ?_, hC.tok⟩,
      role_of_fol ⟨h.fol.batch, h.fol.prep, h.fol.accept, h.fol.live⟩ h.role⟩, h.trail⟩
    intro b k' hk'
    simp at hk'
    obtain ⟨rfl, rfl⟩ := hk'
    refine ⟨{ src := s.pid, dst := n.pid, msg := .accepted { n, accepted_idx := k } }, _, ?_, rfl, rfl⟩
    simp

theorem reply_opt_sat {n : Ballot} {d : Nat} {r : Option Nat} (h : FolPost C n d r s) :
    M.Sat (SP.reply_opt n r) s (fun _ => C.Inv) C.Bad := by
  obtain ⟨G, lg, hF, hd, hr⟩ := h
  cases r with
  | none => exact hF.inv
  | some k =>
    refine reply_accepted_sat hF k ?_
    rw [hr k rfl]
    exact hF.core.idx.covers

theorem handle_acceptdecide_inv [SnapOps E S] (hR : C.Reach G) (hC : C.CoreC G s lg) (hr : RoleInv C.cc C.i C.pre G s lg) (hT : C.Trail s)
    {a : AcceptDecide E} (hI : Incoming C G a.n a.seq_num) (hb : ¬ G.dead a.n C.i a.seq_num.session → ¬ G.Gone a.n C.i → MsgBody C.cc G a.n.pid C.i (.acceptDecide a : PaxosMsg E S)) :
    M.Sat (SP.handle_acceptdecide a) s (fun _ => C.Inv) C.Bad := by
  simp only [SP.handle_acceptdecide, M.sat_bind]
  refine accept_guard_sat hR hC hr hT hI false (fun s' h => by simpa using h) fun hp hrole hphase hs hc => ?_
  have hF : FolAcc C a.n G s lg := ⟨hR, hC, fol_of hr hrole, hT, hrole, hphase, hp, hI.ne⟩
  obtain ⟨hb1, hb2⟩ := hb (hF.alive hs) (not_gone hF.core hF.prom)
  obtain ⟨G1, hM, -, hF1⟩ := hF.advance hI hs hc hb1
  simp only [if_true, M.sat_bind, SP.sat_onStore, IStore.append_entries_and_get_accepted_idx, IStore.cache_append_entries,
    IStore.take_entries_if_batch_is_full, IStore.sat_setCache, M.sat_get, M.sat_ite, M.sat_pure]
  refine ⟨fun hfull => ?_, fun hfull => ?_⟩
  · simp only [M.sat_bind, IStore.sat_append_nb, M.sat_pure]
    obtain ⟨G2, hM2, -, -, hF2⟩ := hF1.flush
    refine M.sat_mono (update_decided_sat (n := a.n) (r := some (s.ist.cache.accepted_idx + (s.ist.cache.batched_entries ++ a.entries).length))
      ⟨G2, _, hF2, (hb2.mono hM).mono hM2, ?_⟩) (fun r s' h => reply_opt_sat h) fun _ h => h
    intro k hk
    simp at hk
    show k = s.ist.cache.accepted_idx + (s.ist.cache.batched_entries ++ a.entries).length
    simp; exact hk.symm
  · refine M.sat_mono (update_decided_sat (n := a.n) (r := none) ⟨G1, _, hF1, hb2.mono hM, by simp⟩)
      (fun r s' h => reply_opt_sat h) fun _ h => h

theorem handle_decide_inv [SnapOps E S] (hR : C.Reach G) (hC : C.CoreC G s lg) (hr : RoleInv C.cc C.i C.pre G s lg) (hT : C.Trail s)
    {a : Decide} (hI : Incoming C G a.n a.seq_num) (hb : ¬ G.dead a.n C.i a.seq_num.session → ¬ G.Gone a.n C.i → MsgBody C.cc G a.n.pid C.i (.decide a : PaxosMsg E S)) :
    M.Sat (SP.handle_decide a) s (fun _ => C.Inv) C.Bad := by
  simp only [SP.handle_decide, M.sat_bind]
  refine accept_guard_sat hR hC hr hT hI true (fun s' h => by simpa using h) fun hp hrole hphase hs hc => ?_
  have hF : FolAcc C a.n G s lg := ⟨hR, hC, fol_of hr hrole, hT, hrole, hphase, hp, hI.ne⟩
  obtain ⟨hb1, hb2⟩ := hb (hF.alive hs) (not_gone hF.core hF.prom)
  have h1 := (hF.fol.accept hphase).2.2.2.1
  obtain ⟨G1, hM, -, hF1⟩ := hF.advance (es := []) hI hs hc (by rw [hb1 (by omega), List.append_nil])
  rw [List.append_nil] at hF1
  simp only [if_true, M.sat_bind]
  refine M.sat_mono (update_decided_sat (n := a.n) (r := none) ⟨G1, lg, hF1, hb2.mono hM, by simp⟩)
      (fun r s' h => ?_) fun _ h => h
  rw [Option.or_none] at h
  exact reply_opt_sat h

theorem FolAcc.stop {n : Ballot} {ss : StopSign} (h : FolAcc C n G s lg) (hb : s.ist.cache.batched_entries = [])
    (hss : (G.endf n C.i (G.curg n C.i)).ss = some ss) {ist : IStore E S} {k : Nat}
    (hk : (s.ist.cache.stopsign = none ∧ k = s.ist.cache.accepted_idx + 1) ∨
      (s.ist.cache.stopsign ≠ none ∧ k = s.ist.cache.accepted_idx))
    (hist : ist = { s.ist with
      storage := { s.ist.storage with stopsign := some ss }
      cache := { s.ist.cache with accepted_idx := k, stopsign := some ss }
      trail := { s.ist.storage with stopsign := some ss } :: s.ist.trail
      calls := .one (.setStopsign (some ss)) :: s.ist.calls }) :
    ∃ G' lg', FolAcc C n G' { s with ist := ist } lg' := by
  obtain ⟨f1, f2, f3, f4, f5⟩ := h.fol.accept h.phase
  have hp := h.prom
  rw [hp] at f1 f2 f3 f5
  rw [hb, List.append_nil] at f5
  have hacc := h.acc
  have hne : n ≠ {} := by
    rintro rfl
    have := hacc
    rw [h.reach.abs.base] at this
    simp at this
    have := h.reach.abs.endLe {} C.i (G.curg {} C.i) {} (h.reach.abs.base _)
    rw [Lg.le_bot this] at hss
    simp at hss
  obtain ⟨hpr, p, l0, hp', h0, hl0, hlp, hend⟩ := h.reach.abs.acc C.i n lg hacc hne
  have hend := hend f2.symm
  generalize hl' : G.endf n C.i (G.curg n C.i) = lg' at hss hend f5
  have hold : ∀ x, G.acc C.i n = some x → x ≤ lg' := fun x hx => by
    rw [hacc] at hx; simp at hx; subst hx; exact hend
  have hS : Step C.i C.allow G (G.follow C.i n lg' (G.curg n C.i)) := Ghost.follow_step' hold
  have hcur : ∀ b F, (G.follow C.i n lg' (G.curg n C.i)).curg b F = G.curg b F := by
    intro b F
    simp only [Ghost.follow]
    split
    · rename_i hc; rw [hc.1, hc.2]
    · rfl
  have hA : Abs C.cc (G.follow C.i n lg' (G.curg n C.i)) := by
    refine Ghost.follow_abs h.reach.abs f2 hne h0 (Lg.le_trans hl0 hend) hold (Lg.le_of_eq hl'.symm) hpr ?_
    intro b hb
    have := h.core.disk.precMax b hb
    rw [← h.core.mir.prom, hp] at this
    exact this
  have ho := out_mono hS (fun _ _ _ => rfl) h.core.src h.core.out
  have hR' := h.reach.trans hS hA ho
  have hm := h.core.mir
  have hround := h.round
  have hd : DiskInv C.cc C.i (G.follow C.i n lg' (G.curg n C.i)) { s.ist.storage with stopsign := some ss } lg' := by
    have hd := h.core.disk
    exact {
      acc := by show (G.follow C.i n lg' (G.curg n C.i)).acc C.i (s.ist.storage.acc_round.getD {}) = _; rw [hround]; simp [Ghost.follow]
      log := by show s.ist.storage.log = _; rw [← f5]; exact hd.log
      trim := hd.trim
      ss := hss.symm
      cov := .inr (by rw [hss]; simp)
      dec := (hd.dec.mono hS.toMono).up (Ballot.le_refl _) hend
      snap := fun h => (hd.snap h).mono hS.toMono
      le := hd.le
      good := hd.good
      accMax := fun b hb => by
        simp only [Ghost.follow] at hb
        split at hb
        · rename_i hc; rw [hc.2]; show n ≤ s.ist.storage.acc_round.getD {}; rw [hround]; exact Ballot.le_refl _
        · exact hd.accMax b hb
      precMax := hd.precMax
      precCur := fun hx => absurd (by
        show s.ist.storage.prom = s.ist.storage.acc_round.getD {}; rw [hround, ← hm.prom, hp]) hx }
  subst hist
  refine ⟨_, lg', hR', setIst h.core hd ⟨hm.prom, hm.acc, hm.dec, hm.comp, hm.trim, rfl⟩ ?_ ho h.core.tok, ⟨.inl hb, ?_, ?_, h.fol.live⟩,
    h.trail.cons ⟨_, _, hR', hd⟩ ⟨rfl, _, rfl, Fits.stopsign ..⟩, h.role, h.phase, h.prom, h.ne⟩
  · refine ⟨fun hx => by rw [hss] at hx; simp at hx, fun _ => ?_⟩
    show lg'.es.length + 1 ≤ k
    rw [← f5]
    have hcs : s.ist.cache.stopsign = lg.ss := hm.ss.trans h.core.disk.ss
    rcases hk with ⟨h1, rfl⟩ | ⟨h1, rfl⟩
    · have := h.core.idx.ge; omega
    · exact h.core.idx.2 (by rw [← hcs]; exact h1)
  · intro hx
    simp only [h.phase] at hx
    exact absurd hx (by simp)
  · intro _
    show s.ist.cache.accepted_round = s.ist.cache.promise ∧ s.ist.cache.promise.pid ≠ _ ∧
      s.current_seq_num = (G.follow C.i n lg' (G.curg n C.i)).curg s.ist.cache.promise C.i ∧ _ ∧
      lg'.es ++ s.ist.cache.batched_entries =
        (G.endf s.ist.cache.promise C.i ((G.follow C.i n lg' (G.curg n C.i)).curg s.ist.cache.promise C.i)).es
    rw [hp, hcur, hl', hb, List.append_nil]
    exact ⟨f1, f2, f3, f4, rfl⟩

theorem handle_accept_stopsign_inv [SnapOps E S] (hR : C.Reach G) (hC : C.CoreC G s lg) (hr : RoleInv C.cc C.i C.pre G s lg)
    (hT : C.Trail s) {a : AcceptStopSign} (hI : Incoming C G a.n a.seq_num)
    (hb : ¬ G.dead a.n C.i a.seq_num.session → ¬ G.Gone a.n C.i → MsgBody C.cc G a.n.pid C.i (.acceptStopSign a : PaxosMsg E S)) :
    M.Sat (SP.handle_accept_stopsign a) s (fun _ => C.Inv) C.Bad := by
  simp only [SP.handle_accept_stopsign, M.sat_bind]
  refine accept_guard_sat hR hC hr hT hI false (fun s' h => by simpa using h) fun hp hrole hphase hs hc => ?_
  have hF : FolAcc C a.n G s lg := ⟨hR, hC, fol_of hr hrole, hT, hrole, hphase, hp, hI.ne⟩
  obtain ⟨hb1, hb2⟩ := hb (hF.alive hs) (not_gone hF.core hF.prom)
  have h1 := (hF.fol.accept hphase).2.2.2.1
  obtain ⟨G1, hM, he1, hF1⟩ := hF.advance (es := []) hI hs hc (by rw [hb2 (by omega), List.append_nil])
  rw [List.append_nil] at hF1
  obtain ⟨G2, hM2, he2, hc2, hF2⟩ := hF1.flush
  have hcur : G2.curg a.n C.i = a.seq_num := by
    have := (hF2.fol.accept hF2.phase).2.2.1
    rw [hF2.prom] at this
    exact this.symm
  simp only [if_true, M.sat_bind, SP.sat_onStore, IStore.sat_flush_batch, IStore.set_stopsign, M.sat_get, M.sat_ofPan,
    IStore.sat_setCache, IStore.sat_write_append, IStore.sat_write_stopsign, IStore.sat_write_promise, IStore.sat_write_decided, M.sat_pure, Mem.set_stopsign]
  refine ⟨fun k hk => ?_, fun _ => hF2.inv.bad⟩
  have hst := hF2.stop (ss := a.ss) (k := k) rfl (by rw [hcur, he2, he1]; exact hb1) ?_ rfl
  · obtain ⟨G3, lg3, hF3⟩ := hst
    refine reply_accepted_sat hF3 k ?_
    exact hF3.core.idx.covers
  · cases hx : s.ist.flushed.cache.stopsign with
    | none =>
      rw [show ({ s with current_seq_num := a.seq_num } : SP E S).ist.flushed.cache.stopsign = s.ist.flushed.cache.stopsign from rfl, hx] at hk
      simp at hk
      exact .inl ⟨hx, hk.symm⟩
    | some x =>
      rw [show ({ s with current_seq_num := a.seq_num } : SP E S).ist.flushed.cache.stopsign = s.ist.flushed.cache.stopsign from rfl, hx] at hk
      simp at hk
      exact .inr ⟨by rw [show (s.ist.batch s.ist.cache.batched_entries).flushed.cache.stopsign = s.ist.flushed.cache.stopsign from rfl, hx]; simp, hk.symm⟩

theorem flush_batch_follower_inv (h : C.Inv s) (hrole : s.role = .follower) (hphase : s.phase = .accept) :
    M.Sat SP.flush_batch_follower s (fun _ => C.Inv) C.Bad := by
  obtain ⟨G, hR, ⟨lg, hC, hr⟩, hT⟩ := h
  have hF0 := fol_of hr hrole
  have hF : FolAcc C s.ist.cache.promise G s lg :=
    ⟨hR, hC, hF0, hT, hrole, hphase, rfl, (hF0.accept hphase).2.1⟩
  simp only [SP.flush_batch_follower, M.sat_bind, M.sat_get, SP.sat_onStore, IStore.sat_flush_batch, M.sat_ite, M.sat_pure]
  obtain ⟨G1, hM, -, -, hF1⟩ := hF.flush
  refine ⟨fun _ => reply_accepted_sat hF1 _ ?_, fun _ => hF1.inv⟩
  exact hF1.core.idx.covers

end Ctx
end Omni
