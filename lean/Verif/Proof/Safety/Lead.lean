import Verif.Proof.Safety.Prepare
import Verif.Proof.Safety.Slot
/-
Becoming leader: `handle_leader`, and leader messages outside the accept phase.
-/
namespace Omni

variable {E S : Type}

/-- A promise carrying what the default maximum has does not beat it. -/
theorem max_default {m : PromiseMetaData} {cid : Nat} (hg : Ballot.Good cid m.n_accepted) (h : m.gt {} = false) :
    m.n_accepted = {} ∧ m.accepted_idx = 0 := by
  simp only [PromiseMetaData.gt] at h
  split at h
  · rename_i hc; exact ⟨hc.1, hc.2.1⟩
  · simp only [decide_eq_false_iff_not, not_or, not_and] at h
    have : m.n_accepted = {} :=
      Ballot.eq_of_le_of_le hg (.inl rfl) (Ballot.not_lt.1 h.1) (Ballot.default_le _)
    exact ⟨this, by have := h.2 this; omega⟩

theorem fresh_promise {n : Ballot} {mp : Nat} {q : Quorum} {pr : Promise E S} {p : NodeId} {ls : LeaderState E S} {maj : Bool}
    {cid : Nat} (hg : Ballot.Good cid pr.n_accepted) (hl : pr.log_sync = none)
    (h : (LeaderState.with n mp q : LeaderState E S).set_promise pr p true = some (ls, maj)) :
    ∃ v mm, ls = { LeaderState.with n mp q with promises_meta := v, max_promise_meta := mm } ∧
      mm.n_accepted = pr.n_accepted ∧ mm.accepted_idx = pr.accepted_idx ∧
      slot v p = some (.promised ⟨pr.n_accepted, pr.accepted_idx, pr.decided_idx, p⟩) ∧
      ∀ F m, slot v F = some (.promised m) → F = p ∧ m = ⟨pr.n_accepted, pr.accepted_idx, pr.decided_idx, p⟩ := by
  simp only [LeaderState.set_promise] at h
  split at h
  · simp at h
  · rename_i v hv
    simp only [Option.some.injEq, Prod.mk.injEq] at h
    obtain ⟨rfl, -⟩ := h
    obtain ⟨-, -, -, h1, h2⟩ := setSlot_spec hv
    have hslot : ∀ F m, slot v F = some (.promised m) → F = p ∧ m = ⟨pr.n_accepted, pr.accepted_idx, pr.decided_idx, p⟩ := by
      intro F m hF
      by_cases hp : F = p
      · subst hp
        rw [h1] at hF
        simp at hF
        exact ⟨rfl, hF.symm⟩
      · rw [h2 F hp] at hF
        have : (PromiseState.promised m) = .notPromised := by
          simp only [LeaderState.update_max] at hF
          split at hF <;> exact slot_replicate hF
        simp at this
    simp only [LeaderState.update_max, Bool.true_and] at hslot ⊢
    by_cases hgt : (PromiseMetaData.mk pr.n_accepted pr.accepted_idx pr.decided_idx p).gt
        (LeaderState.with n mp q : LeaderState E S).max_promise_meta = true
    · refine ⟨v, ⟨pr.n_accepted, pr.accepted_idx, pr.decided_idx, p⟩, ?_, rfl, rfl, h1, hslot⟩
      rw [if_pos hgt, hl]
      rfl
    · refine ⟨v, {}, ?_, ?_, ?_, h1, hslot⟩
      · rw [if_neg hgt]; rfl
      · exact (max_default (m := ⟨pr.n_accepted, pr.accepted_idx, pr.decided_idx, p⟩) hg (by simpa [LeaderState.with] using hgt)).1.symm
      · exact (max_default (m := ⟨pr.n_accepted, pr.accepted_idx, pr.decided_idx, p⟩) hg (by simpa [LeaderState.with] using hgt)).2.symm

namespace Ctx
variable {C : Ctx E S} {G G' : Ghost E} {s s' : SP E S} {lg lg' : Lg E}

/-- Fields of `Core` that do not mention other fields. -/
theorem Core.congr (h : C.CoreC G s lg) (h1 : s'.ist = s.ist) (h2 : s'.pid = s.pid) (h3 : s'.peers = s.peers)
    (h4 : s'.ls.quorum = s.ls.quorum) (h5 : s'.ls.max_pid = s.ls.max_pid)
    (h6 : s'.ls.accepted_indexes.length = s.ls.accepted_indexes.length) (h7 : s'.outgoing = s.outgoing)
    (h8 : s'.latest_accepted_meta = s.latest_accepted_meta)
    (h9 : s'.tok G.mark ≤ s.tok G.mark) : C.CoreC G s' lg where
  pid := by rw [h2]; exact h.pid
  node := h.node
  peers := by rw [h3]; exact h.peers
  quorum := by rw [h4]; exact h.quorum
  maxpid := by rw [h5]; exact h.maxpid
  lenA := by rw [h5, h6]; exact h.lenA
  disk := by rw [h1]; exact h.disk
  mir := by rw [h1]; exact h.mir
  idx := by rw [h1]; exact h.idx
  src := by rw [h7]; exact h.src
  dst := h.dst
  out := by rw [h7]; exact h.out
  lam := by rw [h7, h8]; exact h.lam
  tok := Nat.le_trans h9 h.tok

theorem Trail.congr (h : C.Trail s) (h1 : s'.ist = s.ist) : C.Trail s' := by
  unfold Trail at *; rw [h1]; exact h

/-- The Prepare of the current leader. -/
theorem prepare_body (hR : C.Reach G) (hC : C.CoreC G s lg) (hldr : s.ls.n_leader = s.ist.cache.promise)
    (hown : s.ls.n_leader.pid = C.i) (hpr : G.prec C.i s.ls.n_leader ≠ none) (dst : NodeId) :
    MsgBody C.cc G C.i dst (.prepare ⟨s.ls.n_leader, s.ist.cache.decided_idx, s.ist.cache.accepted_round,
      s.ist.cache.accepted_idx⟩ : PaxosMsg E S) := by
  have hd := hC.disk
  have hm := hC.mir
  refine ⟨hown, hpr, fun hn => ?_⟩
  simp only at hn ⊢
  have hne : s.ist.storage.prom ≠ s.ist.storage.acc_round.getD {} := by
    intro h
    have := hd.acc
    rw [← h, ← hm.prom, ← hldr] at this
    rw [this] at hn
    simp at hn
  have := hd.precCur hne
  rw [← hm.prom, ← hldr, ← hm.acc] at this
  refine ⟨lg, this, hC.idx, ?_⟩
  have := hd.dec
  rw [← hm.acc, ← hm.dec] at this
  exact this

theorem handle_leader_inv (hR : C.Reach G) (hC : C.CoreC G s lg) (hr : RoleInv C.cc C.i C.pre G s lg)
    (hT : C.Trail s) {n : Ballot} (hpid : n.pid = C.i) (hg : GoodB C.cc n) :
    M.Sat (SP.handle_leader n) s (fun _ => C.Inv) C.Bad := by
  unfold SP.handle_leader
  rw [M.sat_bind, M.sat_get, M.sat_ite]
  refine ⟨fun _ => ⟨G, hR, ⟨lg, hC, hr⟩, hT⟩, fun hc => ?_⟩
  rw [M.sat_ite]
  refine ⟨fun _ => ?_, fun h => absurd (hC.pid.trans hpid.symm) h⟩
  simp only [M.sat_bind, M.sat_get, SP.sat_onStore, IStore.sat_flush_batch, IStore.sat_set_promise, M.sat_upd,
    SP.sat_onLS', SP.sat_setState, SP.forEach_send, M.sat_of_eq (SP.forEach_send _ _ _)]
  obtain ⟨G1, lg1, hE1, hR1, hC1, hT1⟩ := any_flush hR hC hr hT
  have hlt : s.ist.cache.promise < n := by
    simp only [not_or, SP.get_promise] at hc
    exact Ballot.not_le.1 hc.2
  obtain ⟨G2, hE2, hR2, hC2, hT2, hprec, hacc, -⟩ := promise_higher (n := n) hR1 hC1 hT1 hlt hg (.inl hpid)
  have hd1 := hC1.disk
  have hnoacc : G2.acc C.i n = none := by
    rw [hacc]
    by_contra hx
    have h1 := Ballot.le_trans (hd1.accMax n hx) hd1.le
    rw [← hC1.mir.prom] at h1
    exact Ballot.lt_irrefl _ (Ballot.lt_of_lt_of_le hlt h1)
  constructor
  · rintro ⟨ls, maj⟩ hls
    have hround := hC2.disk.acc
    rw [← hC2.mir.acc] at hround
    obtain ⟨v, mm, rfl, hm1, hm2, hown, hslot⟩ := fresh_promise (hR2.abs.good _ _ (by rw [hround]; simp)) rfl hls
    have hC3 : C.CoreC G2 { s with
        ist := s.ist.flushed.promised n, role := .leader, phase := .prepare
        ls := { LeaderState.with n s.ls.max_pid s.ls.quorum with promises_meta := v, max_promise_meta := mm } } lg1 :=
      Core.congr hC2 rfl rfl rfl rfl rfl (by simp [LeaderState.with]; exact hC.lenA.symm) rfl rfl
        (by simp [SP.tok, SP.own, IStore.promised, IStore.flushed, IStore.appended, IStore.batch])
    have hdec := hC3.disk.dec
    rw [← hC3.mir.acc, ← hC3.mir.dec] at hdec
    have hL : LeadPrep C.cc C.i G2 { s with
        ist := s.ist.flushed.promised n, role := .leader, phase := .prepare
        ls := { LeaderState.with n s.ls.max_pid s.ls.quorum with promises_meta := v, max_promise_meta := mm } } lg1 :=
      { ldr := rfl
        own := hpid
        noacc := hnoacc
        batch := rfl
        self := ⟨_, hC.pid ▸ hown, rfl⟩
        seqs := fun F q h => slot_replicate h
        metas := fun F q h => slot_replicate h
        accs := fun F q h => slot_replicate h
        max := by
          refine ⟨lg1, ⟨C.i, ?_⟩, ?_, .inl ⟨rfl, hm1, rfl⟩, .inr ⟨hm1.symm, Lg.le_refl _⟩, ?_⟩
          · show G2.prec C.i n = some (mm.n_accepted, lg1)
            rw [hm1]
            exact hprec
          · simp only [hm2]; exact hC2.idx
          · intro F m hF
            obtain ⟨rfl, rfl⟩ := hslot F m hF
            rw [hC.pid]
            exact ⟨rfl, hC.node, lg1, hprec, hC2.idx, hdec, .inr ⟨hm1.symm, Lg.le_refl _⟩⟩ }
    refine Inv.sends hR2 hC3 hL hT2 fun m hx => ?_
    simp only [List.mem_map] at hx
    obtain ⟨p, hp, rfl⟩ := hx
    refine ⟨hC.pid, peers_ne hC hp, rfl, ?_, fun _ => rfl⟩
    exact prepare_body hR2 hC3 rfl hpid (by show G2.prec C.i n ≠ none; rw [hprec]; simp) p
  · intro _
    exact bad_of (s := { s with ist := s.ist.flushed.promised n, ls := LeaderState.with n s.ls.max_pid s.ls.quorum }) (lg := lg1) hR2
      (Core.congr hC2 rfl rfl rfl rfl rfl (by simp [LeaderState.with]; exact hC.lenA.symm) rfl rfl (Nat.le_refl _)) hT2

theorem lead_prec (hR : C.Reach G) (hC : C.CoreC G s lg) (hr : RoleInv C.cc C.i C.pre G s lg) (hl : s.role = .leader) :
    s.ls.n_leader = s.ist.cache.promise ∧ s.ls.n_leader.pid = C.i ∧ G.prec C.i s.ls.n_leader ≠ none := by
  have hd := hC.disk
  have hm := hC.mir
  rcases role_cases hr with ⟨h, -⟩ | ⟨-, -, hP⟩ | ⟨-, -, hA⟩
  · rw [hl] at h; simp at h
  · refine ⟨hP.ldr, hP.own, ?_⟩
    have hne : s.ist.storage.prom ≠ s.ist.storage.acc_round.getD {} := by
      intro h
      have := hd.acc
      rw [← h, ← hm.prom, ← hP.ldr, hP.noacc] at this
      simp at this
    have := hd.precCur hne
    rw [← hm.prom, ← hP.ldr] at this
    rw [this]
    simp
  · refine ⟨hA.ldr, hA.own, ?_⟩
    have := hd.acc
    rw [← hm.acc, hA.acc] at this
    refine (hR.abs.acc _ _ _ this ?_).1
    intro h
    have := hA.own
    rw [h] at this
    exact hC.node.2 this.symm

/-- Forgetting promises and message positions. -/
theorem RoleInv.drop (hr : RoleInv C.cc C.i C.pre G s lg) {v : List PromiseState} {w : List (Option (Ballot × Nat))}
    (hv : ∀ F m, slot v F = some (.promised m) → slot s.ls.promises_meta F = some (.promised m))
    (ho : slot v C.i = slot s.ls.promises_meta C.i)
    (hw : ∀ F r, slot w F = some (some r) → slot s.ls.latest_accept_meta F = some (some r))
    (hg : ∀ F r, slot w F = some (some r) → slot v F = slot s.ls.promises_meta F ∨ G.Gone s.ls.n_leader F) :
    RoleInv C.cc C.i C.pre G { s with ls := { s.ls with promises_meta := v, latest_accept_meta := w } } lg :=
  hr.map rfl rfl
    (fun h =>
      { ldr := h.ldr
        own := h.own
        noacc := h.noacc
        batch := h.batch
        self := by
          obtain ⟨m, h1, h2⟩ := h.self
          exact ⟨m, ho.trans h1, h2⟩
        seqs := h.seqs
        metas := fun F r hF => by
          cases r with
          | none => rfl
          | some r => exact h.metas F _ (hw F r hF)
        accs := h.accs
        max := by
          obtain ⟨lgs, h1, h2, h3, h4, h5⟩ := h.max
          exact ⟨lgs, h1, h2, h3, h4, fun F m hF => h5 F m (hv F m hF)⟩ })
    (fun h =>
      { ldr := h.ldr
        own := h.own
        acc := h.acc
        batch := h.batch
        max := h.max
        prom := fun F m hF => h.prom F m (hv F m hF)
        ends := fun F m l q hF hp => h.ends F m l q hF (hv F m hp)
        cur := h.cur
        link := h.link
        mets := fun F b k hF => by
          obtain ⟨h1, h2, h3, h4⟩ := h.mets F b k (hw F _ hF)
          refine ⟨h1, h2, ?_, h4⟩
          rcases hg F _ hF with h5 | h5
          · exact h3.imp (fun ⟨m, hm⟩ => ⟨m, h5.trans hm⟩) id
          · exact .inr h5
        dead := h.dead
        accs := h.accs })
    (fun h => ⟨h.batch, h.prep, h.accept, h.live⟩)

theorem drop_promise {l v : List PromiseState} {p : NodeId} {a : PromiseState} (ha : ∀ m, a ≠ .promised m)
    (h : setSlot l p a = some v) : ∀ F m, slot v F = some (.promised m) → slot l F = some (.promised m) := by
  obtain ⟨-, -, -, h1, h2⟩ := setSlot_spec h
  intro F m hF
  by_cases hp : F = p
  · subst hp; rw [h1] at hF; simp at hF; exact absurd hF (ha m)
  · rw [h2 F hp] at hF; exact hF

theorem send_prepare_inv (hR : C.Reach G) (hC : C.CoreC G s lg) (hr : RoleInv C.cc C.i C.pre G s lg)
    (hT : C.Trail s) (hl : s.role = .leader) {p : NodeId} (hne : p ≠ C.i) :
    M.Sat (SP.send_prepare p) s (fun _ s' => C.Inv s' ∧ s'.role = .leader) C.Bad := by
  simp only [SP.send_prepare, M.sat_bind, M.sat_get, SP.sat_send]
  obtain ⟨h1, h2, h3⟩ := lead_prec hR hC hr hl
  exact ⟨Inv.send hR hC hr hT hne rfl (prepare_body hR hC h1 h2 h3 p) (fun _ => rfl), hl⟩

theorem handle_preparereq_inv (hR : C.Reach G) (hC : C.CoreC G s lg) (hr : RoleInv C.cc C.i C.pre G s lg)
    (hT : C.Trail s) (n : Ballot) {frm : NodeId} (hne : frm ≠ C.i) :
    M.Sat (SP.handle_preparereq n frm) s (fun _ => C.Inv) C.Bad := by
  unfold SP.handle_preparereq
  rw [M.sat_bind, M.sat_get, M.sat_ite]
  refine ⟨fun hc => ?_, fun _ => ⟨G, hR, ⟨lg, hC, hr⟩, hT⟩⟩
  rw [M.sat_bind, SP.sat_onLS]
  refine ⟨fun ls hls => ?_, fun _ => bad_of hR hC hT⟩
  simp only [LeaderState.reset_promise] at hls
  split at hls
  · simp at hls
  · rename_i v hv
    simp at hls
    subst hls
    have hv' := drop_promise (by simp) hv
    have hC1 : C.CoreC G { s with ls := { s.ls with promises_meta := v } } lg := Core.congr hC rfl rfl rfl rfl rfl rfl rfl rfl (Nat.le_refl _)
    rw [M.sat_bind, SP.sat_onLS]
    refine ⟨fun ls hls => ?_, fun _ => bad_of hR hC1 hT⟩
    simp only [LeaderState.set_latest_accept_meta] at hls
    split at hls
    · simp at hls
    · rename_i w hw
      simp at hls
      subst hls
      obtain ⟨-, -, -, h1, h2⟩ := setSlot_spec hw
      have hw' : ∀ F r, slot w F = some (some r) → slot s.ls.latest_accept_meta F = some (some r) := by
        intro F r hF
        by_cases hp : F = frm
        · subst hp; rw [h1] at hF; simp at hF
        · rw [h2 F hp] at hF; exact hF
      have hg' : ∀ F r, slot w F = some (some r) → slot v F = slot s.ls.promises_meta F ∨ G.Gone s.ls.n_leader F := by
        intro F r hF
        by_cases hp : F = frm
        · subst hp; rw [h1] at hF; simp at hF
        · exact .inl ((setSlot_spec hv).2.2.2.2 F hp)
      exact M.sat_mono (Q := fun _ s' => C.Inv s' ∧ s'.role = .leader) (send_prepare_inv
        (s := { s with ls := { s.ls with promises_meta := v, latest_accept_meta := w } }) hR (Core.congr hC rfl rfl rfl rfl rfl rfl rfl rfl (Nat.le_refl _)) (RoleInv.drop (v := v) (w := w) hr hv' ((setSlot_spec hv).2.2.2.2 _ hne.symm) hw' hg') hT hc.1 hne)
        (fun _ _ h => h.1) (fun _ h => h)

theorem handle_notaccepted_inv (hR : C.Reach G) (hC : C.CoreC G s lg) (hr : RoleInv C.cc C.i C.pre G s lg)
    (hT : C.Trail s) {n : Ballot} {frm : NodeId} (hne : frm ≠ C.i) (hb : n = {} ∨ G.prec frm n ≠ none) :
    M.Sat (SP.handle_notaccepted n frm) s (fun _ => C.Inv) C.Bad := by
  unfold SP.handle_notaccepted
  rw [M.sat_bind, M.sat_get, M.sat_ite]
  refine ⟨fun hc => ?_, fun _ => ⟨G, hR, ⟨lg, hC, hr⟩, hT⟩⟩
  rw [SP.sat_onLS]
  refine ⟨fun ls hls => ?_, fun _ => bad_of hR hC hT⟩
  simp only [LeaderState.lost_promise] at hls
  split at hls
  · simp at hls
  · rename_i v hv
    simp at hls
    subst hls
    refine ⟨G, hR, ⟨lg, Core.congr hC rfl rfl rfl rfl rfl rfl rfl rfl (Nat.le_refl _),
      RoleInv.drop hr (drop_promise (by simp) hv) ((setSlot_spec hv).2.2.2.2 _ hne.symm) (fun _ _ h => h) fun F r _ => ?_⟩, hT⟩
    by_cases hp : F = frm
    · subst hp
      refine .inr ⟨n, hc.2, hb.resolve_left ?_⟩
      rintro rfl
      exact Ballot.lt_irrefl _ (Ballot.lt_of_lt_of_le hc.2 (Ballot.default_le _))
    · exact .inl ((setSlot_spec hv).2.2.2.2 F hp)

theorem preparable_subset {ls : LeaderState E S} {ps qs : List NodeId} (h : ls.get_preparable_peers ps = some qs) :
    ∀ p ∈ qs, p ∈ ps := by
  induction ps generalizing qs with
  | nil => simp [LeaderState.get_preparable_peers] at h; subst h; simp
  | cons x r ih =>
    simp only [LeaderState.get_preparable_peers] at h
    split at h
    · simp at h
    · split at h
      · simp at h
      · rename_i st _ r' hr
        have := ih hr
        split at h <;> simp at h <;> subst h
        · intro p hp
          rcases List.mem_cons.1 hp with rfl | hp
          · simp
          · exact List.mem_cons_of_mem _ (this p hp)
        · intro p hp; exact List.mem_cons_of_mem _ (this p hp)

theorem resend_prepare_inv (hR : C.Reach G) (hC : C.CoreC G s lg) (hr : RoleInv C.cc C.i C.pre G s lg)
    (hT : C.Trail s) (hl : s.role = .leader) : M.Sat SP.resend_prepare s (fun _ => C.Inv) C.Bad := by
  unfold SP.resend_prepare
  rw [M.sat_bind, M.sat_get, M.sat_bind, M.sat_ofPan]
  refine ⟨fun ps hps => ?_, fun _ => bad_of hR hC hT⟩
  have hsub := preparable_subset hps
  refine M.sat_mono (M.sat_forEach (fun s' => C.Inv s' ∧ s'.role = .leader) ⟨⟨G, hR, ⟨lg, hC, hr⟩, hT⟩, hl⟩ ?_)
    (fun _ _ h => h.1) (fun _ h => h)
  rintro p hp s' ⟨⟨G', hR', ⟨lg', hC', hr'⟩, hT'⟩, hl'⟩
  exact send_prepare_inv hR' hC' hr' hT' hl' (peers_ne hC (hsub p hp))

/-- Sending anything that says nothing. -/
theorem Inv.send_trivial (h : C.Inv s) {dst : NodeId} {msg : PaxosMsg E S} (hd : dst ≠ C.i) (hn : msg.accOf = none)
    (hb : ∀ G, MsgBody C.cc G C.i dst msg) (hf : ∀ P, msg.fwd P = 0) :
    C.Inv { s with outgoing := s.outgoing ++ [{ src := s.pid, dst, msg }] } := by
  obtain ⟨G, hR, ⟨lg, hC, hr⟩, hT⟩ := h
  exact Inv.send hR hC hr hT hd hn (hb G) hf

theorem Inv.pid (h : C.Inv s) : s.pid = C.i := by
  obtain ⟨G, hR, ⟨lg, hC, hr⟩, hT⟩ := h
  exact hC.pid

theorem forward_proposals_inv {es : List E} (h : C.Slack es s) : M.Sat (SP.forward_proposals es) s (fun _ => C.Inv) C.Bad := by
  unfold SP.forward_proposals
  rw [M.sat_bind, M.sat_get, M.sat_ite, SP.sat_send, M.sat_upd]
  refine ⟨fun hc => ?_, fun _ => h.buffer⟩
  exact h.forward hc.2.symm

theorem forward_stopsign_inv (h : C.Inv s) (ss : StopSign) : M.Sat (SP.forward_stopsign ss) s (fun _ => C.Inv) C.Bad := by
  unfold SP.forward_stopsign
  rw [M.sat_bind, M.sat_get, M.sat_ite, SP.sat_send]
  refine ⟨fun hc => ?_, fun _ => ?_⟩
  · exact h.send_trivial (by rw [← h.pid]; exact hc.2.symm) rfl (fun _ => trivial) fun _ => rfl
  · rw [M.sat_ite, M.sat_upd, M.sat_pure]
    exact ⟨fun _ => h.frame _ _ fun _ => Nat.le_refl _, fun _ => h⟩

theorem send_preparereq_inv (hR : C.Reach G) (hC : C.CoreC G s lg) (hr : RoleInv C.cc C.i C.pre G s lg)
    (hT : C.Trail s) : M.Sat SP.send_preparereq_to_all_peers s (fun _ => C.Inv) C.Bad := by
  unfold SP.send_preparereq_to_all_peers
  rw [M.sat_bind, M.sat_get, M.sat_of_eq (SP.forEach_send _ _ _)]
  refine Inv.sends hR hC hr hT fun m hm => ?_
  simp only [List.mem_map] at hm
  obtain ⟨p, hp, rfl⟩ := hm
  exact ⟨hC.pid, peers_ne hC hp, rfl, trivial, fun _ => rfl⟩

theorem resend_messages_follower_inv (hR : C.Reach G) (hC : C.CoreC G s lg) (hr : RoleInv C.cc C.i C.pre G s lg)
    (hT : C.Trail s) (hf : s.role = .follower) : M.Sat SP.resend_messages_follower s (fun _ => C.Inv) C.Bad := by
  unfold SP.resend_messages_follower
  rw [M.sat_bind, M.sat_get]
  have hF := fol_of hr hf
  split
  · rename_i hp
    split
    · rename_i p hcp
      obtain ⟨-, h1⟩ := hF.prep hp
      rw [SP.sat_send]
      exact Inv.send hR hC hr hT (h1 p hcp).2.1 rfl (h1 p hcp).2 fun _ => rfl
    · rw [M.sat_bind, SP.sat_setState]
      refine send_preparereq_inv hR (s := { s with role := .follower, phase := .recover })
        (Core.congr hC rfl rfl rfl rfl rfl rfl rfl rfl (SP.tok_follower rfl rfl rfl)) ?_ hT
      exact role_of_fol ⟨.inl (hF.prep hp).1, fun h => by simp at h, fun h => by simp at h, fun h => by simp at h⟩ rfl
  · exact send_preparereq_inv hR hC hr hT
  · exact ⟨G, hR, ⟨lg, hC, hr⟩, hT⟩
  · exact ⟨G, hR, ⟨lg, hC, hr⟩, hT⟩

end Ctx
end Omni
