import Verif.Proof.Safety.Sync
/-
Promising a ballot: `handle_prepare` and `handle_leader`.
-/
namespace Omni

variable {E S : Type}

namespace Ctx
variable {C : Ctx E S} {G G' : Ghost E} {s s' : SP E S} {lg lg' : Lg E}

/-- What a log synchronisation created by a server with log `lg` says. -/
theorem create_log_sync_spec [SnapOps E S] (hC : C.CoreC G s lg) {k od : Nat} (hk : lg.Covers k) {y : LogSync E S}
    (h : s.create_log_sync k od = some y) :
    y.suffix = lg.es.drop y.sync_idx ∧ y.stopsign = lg.ss ∧ lg.Covers y.sync_idx ∧
      (y.decided_snapshot ≠ none ∨ (y.decided_snapshot = none ∧ y.sync_idx = k) ∨
        (y.sync_idx ≤ s.ist.storage.compacted_idx ∧ s.ist.storage.snapshot = none)) := by
  have hd := hC.disk
  have hm := hC.mir
  have hss : s.ist.cache.stopsign = lg.ss := hm.ss.trans hd.ss
  have hsuf : ∀ f l, s.ist.storage.get_suffix f = some l → s.ist.storage.compacted_idx ≤ f ∧ l = lg.es.drop f := by
    intro f l hl
    simp only [Mem.get_suffix, usub] at hl
    by_cases hf : s.ist.storage.trimmed_idx ≤ f
    · simp only [hf, if_true] at hl
      simp at hl
      have := hd.trim
      refine ⟨by omega, ?_⟩
      rw [← hl, hd.log, List.drop_drop]
      congr 1
      omega
    · simp [hf] at hl
  simp only [SP.create_log_sync] at h
  split at h
  · rename_i hc
    split at h
    · simp at h
    · rename_i snap ci hdiff
      split at h
      · simp at h
      · rename_i suffix hs
        simp at h
        subst h
        obtain ⟨h1, h2⟩ := hsuf _ _ hs
        have hcov := hd.dec.covers
        rw [← hm.dec] at hcov
        -- the snapshot ends at the decided index without the stop sign
        have hdl : ∃ ld, s.ist.get_decided_idx_without_stopsign = some ld ∧ ci = ld ∧
            (snap ≠ none ∨ (ld ≤ s.ist.cache.compacted_idx ∧ s.ist.storage.snapshot = none)) := by
          simp only [IStore.create_diff_snapshot] at hdiff
          split at hdiff
          · simp at hdiff
          · rename_i ld hld
            refine ⟨ld, hld, ?_⟩
            split at hdiff
            · split at hdiff
              · split at hdiff
                · simp at hdiff
                · simp at hdiff; obtain ⟨rfl, rfl⟩ := hdiff; exact ⟨rfl, .inl (by simp)⟩
              · simp at hdiff
                obtain ⟨rfl, rfl⟩ := hdiff
                refine ⟨rfl, ?_⟩
                cases hx : s.ist.storage.snapshot with
                | none => exact .inr ⟨by omega, rfl⟩
                | some x => exact .inl (by simp)
            · split at hdiff
              · simp at hdiff
              · split at hdiff
                · simp at hdiff
                · simp at hdiff; obtain ⟨rfl, rfl⟩ := hdiff; exact ⟨rfl, .inl (by simp)⟩
        obtain ⟨ld, hld, rfl, hsn⟩ := hdl
        have hle : ci ≤ s.ist.cache.decided_idx ∧ lg.es.drop s.ist.cache.decided_idx = lg.es.drop ci := by
          simp only [IStore.get_decided_idx_without_stopsign, usub] at hld
          split at hld
          · rename_i hsd
            simp only [StateCache.stopsign_is_decided, Bool.and_eq_true, decide_eq_true_eq] at hsd
            obtain ⟨hsd1, hsd2⟩ := hsd
            have : lg.ss ≠ none := by rw [← hss]; intro h; rw [h] at hsd1; simp at hsd1
            have := hC.idx.2 this
            split at hld
            · simp at hld
              subst hld
              refine ⟨by omega, ?_⟩
              rw [List.drop_of_length_le (by omega), List.drop_of_length_le (by omega)]
            · simp at hld
          · simp at hld; subst hld; exact ⟨Nat.le_refl _, rfl⟩
        refine ⟨by rw [h2]; exact hle.2, hss, hcov.down hle.1, ?_⟩
        rcases hsn with h3 | ⟨h3, h4⟩
        · exact .inl h3
        · rw [hm.comp] at h3
          exact .inr (.inr ⟨h3, h4⟩)
  · split at h
    · simp at h
    · rename_i suffix hs
      simp at h
      subst h
      exact ⟨(hsuf _ _ hs).2, hss, hk, .inr (.inl ⟨rfl, rfl⟩)⟩

/-- The leader appends to its log. -/
theorem lead_grow {todo : NodeId → Option (Lg E)} (hR : C.Reach G) (hC : C.CoreC G s lg) (hL : LeadAcc C.cc C.i C.pre todo G s lg)
    (hl : lg ≤ lg') {k : Nat} (hk : k ≤ G.hold C.i) (hcnt : G.count lg'.es ≤ G.count lg.es + k) :
    ∃ G', Ext C.i C.allow G G' ∧ Abs C.cc G' ∧ (∀ b, G'.prec C.i b = G.prec C.i b) ∧
      s.ist.storage.prom = s.ist.storage.acc_round.getD {} ∧
      G'.acc C.i (s.ist.storage.acc_round.getD {}) = some lg' ∧
      (∀ b, G'.acc C.i b ≠ none → b ≤ s.ist.storage.acc_round.getD {}) ∧ G'.hold C.i + k = G.hold C.i := by
  have hd := hC.disk
  have h1 : s.ist.storage.prom = s.ist.storage.acc_round.getD {} := by
    rw [← hC.mir.prom, ← hC.mir.acc, hL.acc, hL.ldr]
  generalize hn : s.ist.storage.acc_round.getD {} = n at *
  have hacc := hd.acc
  rw [hn] at hacc
  have hpid : n.pid = C.i := by rw [← h1, ← hC.mir.prom, ← hL.ldr]; exact hL.own
  have hne : n ≠ {} := by
    rintro rfl
    exact hC.node.2 hpid.symm
  have hold : ∀ x, G.acc C.i n = some x → x ≤ lg' := by
    intro x hx; rw [hacc] at hx; simp at hx; subst hx; exact hl
  refine ⟨G.setAcc C.i n lg' k, ⟨Ghost.setAcc_step hold hk, fun _ _ _ => rfl, fun _ _ => rfl, fun _ => rfl, rfl⟩, ?_, fun _ => rfl, h1, ?_, ?_, ?_⟩
  · refine Ghost.setAcc_abs hR.abs hpid hne hacc hl ?_ hcnt
    intro b hb; have := hd.precMax b hb; rw [h1] at this; exact this
  · simp [Ghost.setAcc]
  · intro b hb
    simp only [Ghost.setAcc] at hb
    split at hb
    · rename_i hc; rw [hc.2]; exact Ballot.le_refl _
    · have := hd.accMax b hb; rw [hn] at this; exact this
  · simp only [Ghost.setAcc, if_true]; omega

/-- The leader appends entries. -/
theorem lead_append {todo : NodeId → Option (Lg E)} (hR : C.Reach G) (hC : C.CoreC G s lg) (hT : C.Trail s)
    (hL : LeadAcc C.cc C.i C.pre todo G s lg) {es : List E} (hss : es = [] ∨ lg.ss = none)
    (ht : s.tok G.mark + G.count es ≤ G.hold C.i) :
    ∃ G', Ext C.i C.allow G G' ∧ C.Reach G' ∧ C.CoreC G' { s with ist := s.ist.appended es } ⟨lg.es ++ es, lg.ss⟩ ∧
      C.Trail { s with ist := s.ist.appended es } := by
  have hle : lg ≤ ⟨lg.es ++ es, lg.ss⟩ := by
    rcases hss with rfl | h0
    · exact .inr (by simp)
    · exact .inl ⟨h0, List.prefix_append _ _⟩
  obtain ⟨G', hE, hA, hpr, hp, hacc, hmax, hho⟩ := lead_grow (k := G.count es) hR hC hL hle (by omega) (by simp [Ghost.count])
  have hd := hC.disk.append hE.step.toMono hss (.inr hp) hacc hmax hpr
  have hR' := Reach.ext hR hC hE hA
  exact ⟨G', hE, hR', setIst hC hd (mirror_appended hC.mir es) hC.idx.append (Core.ext hC hE)
      (by have : s.tok G'.mark ≤ G'.hold C.i := by rw [hE.step.mark]; omega
          exact this),
    hT.cons ⟨G', _, hR', hd⟩ (IStore.wrote_appended ..)⟩

theorem role_cases (hr : RoleInv C.cc C.i C.pre G s lg) :
    (s.role = .follower ∧ FolInv C.cc C.i G s lg) ∨ (s.role = .leader ∧ s.phase = .prepare ∧ LeadPrep C.cc C.i G s lg) ∨
      (s.role = .leader ∧ s.phase = .accept ∧ LeadAcc C.cc C.i C.pre (fun _ => some lg) G s lg) := by
  cases hx : s.role with
  | follower => exact .inl ⟨rfl, fol_of hr hx⟩
  | leader =>
    unfold RoleInv at hr
    rw [hx] at hr
    cases hp : s.phase <;> rw [hp] at hr <;> simp only at hr
    · exact .inr (.inl ⟨rfl, rfl, hr⟩)
    · exact .inr (.inr ⟨rfl, rfl, hr⟩)

/-- `flush_batch` in any role. -/
theorem any_flush (hR : C.Reach G) (hC : C.CoreC G s lg) (hr : RoleInv C.cc C.i C.pre G s lg) (hT : C.Trail s) :
    ∃ G' lg', Ext C.i C.allow G G' ∧ C.Reach G' ∧ C.CoreC G' { s with ist := s.ist.flushed } lg' ∧
      C.Trail { s with ist := s.ist.flushed } := by
  rcases role_cases hr with ⟨-, hF⟩ | ⟨-, -, hP⟩ | ⟨hrole, -, hr⟩
  · obtain ⟨G', h1, h2, h3, h4, -⟩ := fol_flush hR hC hT hF
    exact ⟨G', _, h1, h2, h3, h4⟩
  · obtain ⟨G', h1, h2, h3, h4⟩ := fol_append (s := { s with ist := s.ist.batch [] }) hR (Core.batch_nil hC) hT (.inl hP.batch)
    exact ⟨G', _, h1, h2, h3, h4⟩
  · have hL : LeadAcc C.cc C.i C.pre (fun _ => some lg) G { s with ist := s.ist.batch [] } lg :=
      { ldr := hr.ldr, own := hr.own, acc := hr.acc, batch := fun _ => rfl, max := hr.max, prom := hr.prom, ends := hr.ends,
        cur := hr.cur, link := hr.link, mets := hr.mets, dead := hr.dead, accs := hr.accs }
    obtain ⟨G', h1, h2, h3, h4⟩ := lead_append (s := { s with ist := s.ist.batch [] }) hR (Core.batch_nil hC) hT hL
      (es := s.ist.cache.batched_entries) (by
        by_cases hs : lg.ss = none
        · exact .inr hs
        · exact .inl (hr.batch hs))
      (by have h1 := hC.tok
          have h2 := tok_batch_nil (s := s) G.mark
          have h3 : s.own G.mark = s.ist.cache.batched_entries.countP G.mark := if_pos hrole
          simp only [Ghost.count]
          omega)
    exact ⟨G', _, h1, h2, h3, h4⟩

theorem mirror_promised {s : IStore E S} (h : Mirror s) (n : Ballot) : Mirror (s.promised n) :=
  ⟨rfl, h.acc, h.dec, h.comp, h.trim, h.ss⟩

/-- A server promises a higher ballot. -/
theorem promise_higher (hR : C.Reach G) (hC : C.CoreC G s lg) (hT : C.Trail s) {n : Ballot} (hlt : s.ist.cache.promise < n)
    (hg : GoodB C.cc n) (hlead : n.pid = C.i ∨ G.prec n.pid n ≠ none) :
    ∃ G', Ext C.i C.allow G G' ∧ C.Reach G' ∧ C.CoreC G' { s with ist := s.ist.promised n } lg ∧
      C.Trail { s with ist := s.ist.promised n } ∧ G'.prec C.i n = some (s.ist.cache.accepted_round, lg) ∧
      G'.acc = G.acc ∧ G.prec C.i n = none := by
  have hd := hC.disk
  have hm := hC.mir
  rw [hm.prom] at hlt
  have hnone : G.prec C.i n = none := by
    by_contra hx
    exact Ballot.lt_irrefl _ (Ballot.lt_of_lt_of_le hlt (hd.precMax n hx))
  have hna : s.ist.storage.acc_round.getD {} < n := Ballot.lt_of_le_of_lt hd.le hlt
  have hE : Ext C.i C.allow G (G.promise C.i n (s.ist.storage.acc_round.getD {}) lg) :=
    ⟨Ghost.promise_step hnone, fun _ _ _ => rfl, fun _ _ => rfl, fun _ => rfl, rfl⟩
  have hA : Abs C.cc (G.promise C.i n (s.ist.storage.acc_round.getD {}) lg) :=
    Ghost.promise_abs hR.abs hnone hg hna hd.acc hd.accMax hlead
  have hR' := Reach.ext hR hC hE hA
  have hprec : (G.promise C.i n (s.ist.storage.acc_round.getD {}) lg).prec C.i n = some (s.ist.storage.acc_round.getD {}, lg) := by
    simp [Ghost.promise]
  have hd' : DiskInv C.cc C.i (G.promise C.i n (s.ist.storage.acc_round.getD {}) lg) { s.ist.storage with n_prom := some n } lg :=
    { acc := hd.acc
      log := hd.log
      trim := hd.trim
      ss := hd.ss
      cov := hd.cov
      dec := hd.dec.mono hE.step.toMono
      snap := fun h => (hd.snap h).mono hE.step.toMono
      le := Ballot.le_of_lt hna
      good := hg
      accMax := hd.accMax
      precMax := fun b hb => by
        simp only [Ghost.promise] at hb
        split at hb
        · rename_i hc; rw [hc.2]; exact Ballot.le_refl _
        · exact Ballot.le_trans (hd.precMax b hb) (Ballot.le_of_lt hlt)
      precCur := fun _ => hprec }
  exact ⟨_, hE, hR', setIst hC hd' (mirror_promised hm n) hC.idx (Core.ext hC hE) hC.tok, hT.cons ⟨_, _, hR', hd'⟩ (IStore.wrote_promised ..),
    by rw [hm.acc]; exact hprec, rfl, hnone⟩

/-- A server promises its current ballot again. -/
theorem promise_again (hR : C.Reach G) (hC : C.CoreC G s lg) (hT : C.Trail s) {n : Ballot} (hn : s.ist.cache.promise = n) :
    C.CoreC G { s with ist := s.ist.promised n } lg ∧ C.Trail { s with ist := s.ist.promised n } := by
  have hd := hC.disk
  have hm := hC.mir
  have hp : s.ist.storage.prom = n := by rw [← hm.prom]; exact hn
  have hd' : DiskInv C.cc C.i G { s.ist.storage with n_prom := some n } lg :=
    { acc := hd.acc
      log := hd.log
      trim := hd.trim
      ss := hd.ss
      cov := hd.cov
      dec := hd.dec
      snap := hd.snap
      le := by have := hd.le; rw [hp] at this; exact this
      good := by have := hd.good; rw [hp] at this; exact this
      accMax := hd.accMax
      precMax := by have := hd.precMax; rw [hp] at this; exact this
      precCur := by have := hd.precCur; rw [hp] at this; exact this }
  exact ⟨setIst hC hd' (mirror_promised hm n) hC.idx hC.out hC.tok, hT.cons ⟨_, _, hR, hd'⟩ (IStore.wrote_promised ..)⟩

/-- The synchronisation a promise carries. -/
theorem promise_sync_fact [SnapOps E S] (hR : C.Reach G) (hC : C.CoreC G s lg) {p : Prepare} {src : NodeId} (hsrc : Node C.cc src)
    (hpid : p.n.pid = src) (hprom : s.ist.cache.promise = p.n) (hacc : G.acc src p.n = none) {lgL : Lg E}
    (hL : G.prec src p.n = some (p.n_accepted, lgL)) (hidx : lgL.IdxOK p.accepted_idx)
    (hdec : G.DecOK C.cc p.n_accepted lgL p.decided_idx)
    (hpi : G.prec C.i p.n = some (s.ist.cache.accepted_round, lg)) {y : Option (LogSync E S)}
    (hy : s.promise_log_sync p = some y) : SyncFact p.n_accepted lgL s.ist.cache.accepted_round lg y := by
  have hd := hC.disk
  have hm := hC.mir
  have hA := hR.abs
  have hacci : G.acc C.i s.ist.cache.accepted_round = some lg := by rw [hm.acc]; exact hd.acc
  obtain ⟨-, -, haccL, -⟩ := hA.prec src p.n _ _ hL
  have hgi := hA.good C.i _ (by rw [hacci]; simp)
  have hgL := hA.good src _ (by rw [haccL]; simp)
  -- any synchronisation at a common prefix will do
  have common : ∀ k od y', lg.Covers k → (∃ l : Lg E, l.Covers k ∧ l ≤ lgL ∧ l ≤ lg) →
      s.create_log_sync k od = some y' → SyncOK lgL lg y' := by
    intro k od y' hk hl hcl
    obtain ⟨h1, h2, h3, h4⟩ := create_log_sync_spec hC hk hcl
    refine ⟨h1, h2, h3, ?_⟩
    rcases h4 with h4 | ⟨-, h4⟩ | ⟨h4, h5⟩
    · exact .inl h4
    · rw [h4]; exact .inr hl
    · right
      rcases (hd.snap h5).down h4 with h6 | ⟨b, l, h6, h7⟩
      · exact ⟨{}, by rw [h6]; exact Lg.covers_zero _, Lg.bot_le _, Lg.bot_le _⟩
      · obtain ⟨ai, h8, h9⟩ := h6 C.i hC.node
        obtain ⟨aL, h10, h11⟩ := h6 src hsrc
        have hb : b ≤ p.n := by
          rw [← hprom, hm.prom]
          exact Ballot.le_trans (hd.accMax b (by rw [h8]; simp)) hd.le
        have hb' : b < p.n := by
          rcases Ballot.lt_or_le b p.n with h | h
          · exact h
          · have := Ballot.eq_of_le_of_le (hA.good C.i b (by rw [h8]; simp)) (hA.precGood (by rw [hL]; simp)) hb h
            subst this
            rw [hacc] at h10; simp at h10
        exact ⟨l, h7, hA.fixed_le_prec (h6.fixed C.hv) h10 h11 hb' hL, hA.fixed_le_prec (h6.fixed C.hv) h8 h9 hb' hpi⟩
  simp only [SP.promise_log_sync] at hy
  split at hy
  · rename_i hlt
    cases hcl : s.create_log_sync p.decided_idx p.decided_idx with
    | none => rw [hcl] at hy; simp at hy
    | some y' =>
      rw [hcl] at hy
      simp at hy
      subst hy
      have hl : ∃ l : Lg E, l.Covers p.decided_idx ∧ l ≤ lgL ∧ l ≤ lg := by
        rcases hdec with h0 | ⟨b, l, h1, h2, h3, h4⟩
        · exact ⟨{}, by rw [h0]; exact Lg.covers_zero _, Lg.bot_le _, Lg.bot_le _⟩
        · exact ⟨l, h3, h4, hA.fixed_le_acc (h2.fixed C.hv) (Ballot.lt_of_le_of_lt h1 hlt) hacci⟩
      obtain ⟨l, h1, h2, h3⟩ := hl
      exact common _ _ _ (h1.mono h3) ⟨l, h1, h2, h3⟩ hcl
  · rename_i hnlt
    split at hy
    · rename_i hc
      obtain ⟨hc1, hc2⟩ := hc
      cases hcl : s.create_log_sync p.accepted_idx p.decided_idx with
      | none => rw [hcl] at hy; simp at hy
      | some y' =>
        rw [hcl] at hy
        simp at hy
        subst hy
        rw [← hc1] at haccL
        obtain ⟨pr, hp1, hp2⟩ := hA.le_prop hacci
        obtain ⟨pr', hp3, hp4⟩ := hA.le_prop haccL
        rw [hp1] at hp3; simp at hp3; subst hp3
        have := Lg.le_of_idx_lt hp4 hp2 hidx hC.idx hc2
        exact common _ _ _ (hidx.covers.mono this) ⟨lgL, hidx.covers, Lg.le_refl _, this⟩ hcl
    · rename_i hc
      simp at hy
      subst hy
      by_cases he : s.ist.cache.accepted_round = p.n_accepted
      · right
        refine ⟨he, ?_⟩
        rw [← he] at haccL
        obtain ⟨pr, hp1, hp2⟩ := hA.le_prop hacci
        obtain ⟨pr', hp3, hp4⟩ := hA.le_prop haccL
        rw [hp1] at hp3; simp at hp3; subst hp3
        refine Lg.le_of_idx hp2 hp4 hC.idx hidx ?_
        by_contra hx
        exact hc ⟨he, by omega⟩
      · left
        have hle : s.ist.cache.accepted_round ≤ p.n_accepted := Ballot.not_lt.1 hnlt
        rcases Ballot.lt_or_le s.ist.cache.accepted_round p.n_accepted with h | h
        · exact h
        · exact absurd (Ballot.eq_of_le_of_le hgi hgL hle h) he

theorem handle_prepare_inv [SnapOps E S] (hR : C.Reach G) (hC : C.CoreC G s lg) (hr : RoleInv C.cc C.i C.pre G s lg)
    (hT : C.Trail s) {p : Prepare} {src : NodeId} (hne : src ≠ C.i) (hsrc : Node C.cc src)
    (hb : MsgBody C.cc G src C.i (.prepare p : PaxosMsg E S)) :
    M.Sat (SP.handle_prepare p src) s (fun _ => C.Inv) C.Bad := by
  unfold SP.handle_prepare
  rw [M.sat_bind, M.sat_get, M.sat_ite]
  simp only [M.sat_bind, M.sat_get, M.sat_pure, SP.sat_onStore, IStore.sat_flush_batch,
    IStore.sat_set_promise, M.sat_upd, M.sat_ofPan, SP.sat_send, SP.get_promise]
  refine ⟨fun hc => ?_, fun _ => ⟨G, hR, ⟨lg, hC, hr⟩, hT⟩⟩
  obtain ⟨hpid, hb2, hb3⟩ := hb
  obtain ⟨G1, lg1, hE1, hR1, hC1, hT1⟩ := any_flush hR hC hr hT
  -- after recording the promise
  have key : ∃ G2, Mono G G2 ∧ (∀ b, G2.acc src b = G.acc src b) ∧ C.Reach G2 ∧
      C.CoreC G2 { s with ist := s.ist.flushed.promised p.n } lg1 ∧ C.Trail { s with ist := s.ist.flushed.promised p.n } := by
    rcases hc with hc | ⟨hc, -⟩
    · obtain ⟨G2, hE2, hR2, hC2, hT2, -, -, -⟩ := promise_higher (n := p.n) hR1 hC1 hT1 hc (hR.abs.precGood hb2)
        (.inr (by rw [hpid]; exact hE1.step.prec_ne hb2))
      refine ⟨G2, hE1.step.toMono.trans hE2.step.toMono, fun b => ?_, hR2, hC2, hT2⟩
      rw [hE2.step.acc_o src b hne, hE1.step.acc_o src b hne]
    · obtain ⟨hC2, hT2⟩ := promise_again (n := p.n) hR1 hC1 hT1 hc
      exact ⟨G1, hE1.step.toMono, fun b => hE1.step.acc_o src b hne, hR1, hC2, hT2⟩
  obtain ⟨G2, hM, hsame, hR2, hC2, hT2⟩ := key
  have hC3 : C.CoreC G2 { s with
      ist := s.ist.flushed.promised p.n, role := .follower, phase := .prepare, current_seq_num := {} } lg1 :=
    ⟨hC2.pid, hC2.node, hC2.peers, hC2.quorum, hC2.maxpid, hC2.lenA, hC2.disk, hC2.mir, hC2.idx, hC2.src, hC2.dst, hC2.out, hC2.lam,
      by refine Nat.le_trans ?_ hC2.tok; exact SP.tok_follower rfl rfl rfl⟩
  refine ⟨fun y hy => ?_, fun _ => bad_of hR2 hC3 hT2⟩
  have hpidne : p.n.pid ≠ C.i := by rw [hpid]; exact hne
  have hnd : p.n ≠ {} := by intro h; rw [h] at hpid; exact hsrc.2 hpid.symm
  have hd := hC2.disk
  have hm := hC2.mir
  have hprom : (s.ist.flushed.promised p.n).storage.prom = p.n := rfl
  have hround : (s.ist.flushed.promised p.n).storage.acc_round.getD {} = (s.ist.flushed.promised p.n).cache.accepted_round := hm.acc.symm
  have hdec := hd.dec
  rw [hround, ← hm.dec] at hdec
  have hfact : G2.PromFact C.cc C.i p.n (s.ist.flushed.promised p.n).cache.accepted_round
      (s.ist.flushed.promised p.n).cache.accepted_idx (s.ist.flushed.promised p.n).cache.decided_idx := by
    by_cases hx : (s.ist.flushed.promised p.n).cache.accepted_round = p.n
    · rw [hx] at hdec hround
      refine .inl ⟨hx, lg1, lg1, ?_, Lg.le_refl _, hC2.idx, hdec⟩
      have := hd.acc
      rw [hround] at this
      exact this
    · refine .inr ⟨lg1, ?_, hC2.idx, hdec⟩
      have := hd.precCur (by rw [hround, hprom]; exact Ne.symm hx)
      rw [hround] at this
      exact this
  have hbody : ∀ pr : Promise E S, pr.n = p.n → pr.n_accepted = (s.ist.flushed.promised p.n).cache.accepted_round →
      pr.accepted_idx = (s.ist.flushed.promised p.n).cache.accepted_idx →
      pr.decided_idx = (s.ist.flushed.promised p.n).cache.decided_idx → pr.log_sync = y →
      MsgBody C.cc G2 C.i p.n.pid (.promise pr) := by
    intro pr h1 h2 h3 h4 h5
    simp only [MsgBody, h1, h2, h3, h4, h5]
    refine ⟨hpidne, hfact, fun hacc => ?_⟩
    rw [hpid] at hacc
    obtain ⟨lgL, l1, l2, l3⟩ := hb3 (by rw [← hsame]; exact hacc)
    have hx : (s.ist.flushed.promised p.n).cache.accepted_round ≠ p.n := by
      intro hx
      have := hd.acc
      rw [hround, hx] at this
      obtain ⟨-, q, l0, h6, -⟩ := hR2.abs.acc C.i p.n lg1 this hnd
      rw [hpid, hacc] at h6
      simp at h6
    have hpi := hd.precCur (by rw [hround, hprom]; exact Ne.symm hx)
    rw [hround] at hpi
    rw [hpid]
    refine ⟨p.n_accepted, lgL, lg1, hM.prec _ _ _ l1, hpi, ?_⟩
    exact promise_sync_fact hR2 hC3 hsrc hpid rfl hacc (hM.prec _ _ _ l1) l2 (l3.mono hM) hpi hy
  have hmsg := hbody ⟨p.n, (s.ist.flushed.promised p.n).cache.accepted_round, (s.ist.flushed.promised p.n).cache.decided_idx,
    (s.ist.flushed.promised p.n).cache.accepted_idx, y⟩ rfl rfl rfl rfl rfl
  have hfin := hC3.sends (ms := [⟨s.pid, src, .promise ⟨p.n, (s.ist.flushed.promised p.n).cache.accepted_round,
      (s.ist.flushed.promised p.n).cache.decided_idx, (s.ist.flushed.promised p.n).cache.accepted_idx, y⟩⟩]) (fun m hx => by
        simp at hx
        subst hx
        refine ⟨hC.pid, hne, rfl, ?_, fun _ => rfl⟩
        rw [hpid] at hmsg
        exact hmsg)
  refine ⟨G2, hR2, ⟨lg1, ⟨hfin.pid, hfin.node, hfin.peers, hfin.quorum, hfin.maxpid, hfin.lenA, hfin.disk, hfin.mir, hfin.idx, hfin.src, hfin.dst, hfin.out, hfin.lam, hfin.tok⟩,
    role_of_fol ⟨.inl rfl, fun _ => ⟨rfl, fun pr hpr => ?_⟩, fun h => by simp at h, fun h => by simp at h⟩ rfl⟩, hT2⟩
  simp at hpr
  subst hpr
  exact ⟨rfl, hbody _ rfl rfl rfl rfl rfl⟩

end Ctx
end Omni
