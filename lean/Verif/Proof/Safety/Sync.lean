import Verif.Proof.Safety.Follower
/-
Log synchronisation: what `sync_log` writes, and what `create_log_sync` reads.
-/
namespace Omni

variable {E S : Type}

/-- What `sync_log` leaves behind when it synchronises to the log `P`. -/
structure Synced (s : IStore E S) (n : Ballot) (dec : Nat) (P : Lg E) (s' : IStore E S) : Prop where
  mir : Mirror s'
  idx : P.IdxOK s'.cache.accepted_idx
  prom : s'.cache.promise = s.cache.promise
  nprom : s'.storage.n_prom = s.storage.n_prom
  acc : s'.storage.acc_round = some n
  ld : s'.storage.ld = dec
  batch : s'.cache.batched_entries = s.cache.batched_entries
  log : s'.storage.log = P.es.drop s'.storage.compacted_idx
  ss : s'.storage.stopsign = P.ss
  cov : P.Covers s'.storage.compacted_idx
  snap : s'.storage.snapshot = none → s.storage.snapshot = none ∧ s'.storage.compacted_idx = s.storage.compacted_idx
  wrote : s.Wrote s'

/-- A synchronisation from log `lg` to `P`. -/
def SyncTo (lg P : Lg E) : Option (LogSync E S) → Prop
  | none => P = lg
  | some y => y.suffix = P.es.drop y.sync_idx ∧ y.stopsign = P.ss ∧ P.Covers y.sync_idx ∧
      (y.decided_snapshot ≠ none ∨ lg.es.take y.sync_idx = P.es.take y.sync_idx)

theorem drop_take_append (l : List E) {c k : Nat} (h : c ≤ k) : (l.take k).drop c ++ l.drop k = l.drop c := by
  rcases Nat.lt_or_ge k l.length with hk | hk
  · conv => rhs; rw [← List.take_append_drop k l]
    rw [List.drop_append_of_le_length]
    simp; omega
  · rw [List.take_of_length_le hk, List.drop_of_length_le hk, List.append_nil]

theorem idxOK_sync {P : Lg E} {k : Nat} (h : P.Covers k) :
    P.IdxOK (k + (P.es.drop k).length + (if P.ss.isSome then 1 else 0)) := by
  refine ⟨fun hs => ?_, fun hs => ?_⟩
  · rcases h with h | h
    · rw [hs]; simp; omega
    · exact absurd hs h
  · cases hx : P.ss with
    | none => exact absurd hx hs
    | some x => simp; omega

theorem bounds_ss (b : LogBounds) (o y : Option StopSign) : b.ops (IStore.syncStopsignOps o y : List (StorageOp E S)) = some b := by
  cases y <;> cases o <;> rfl

/-- The transaction of a synchronisation without snapshot. -/
theorem bounds_sync {b : LogBounds} {i : Nat} (h1 : b.trimmed ≤ i) (h2 : i ≤ b.stop ∨ i = b.trimmed) (n : Ballot) (d : Nat) (es : List E)
    (o y : Option StopSign) :
    b.calls [.atomically ([.setAcceptedRound n, .setDecidedIndex d] ++ [] ++ [.appendOnPrefix i es] ++
      (IStore.syncStopsignOps o y : List (StorageOp E S)))] = some { b with stop := i + es.length } := by
  simp only [LogBounds.calls]
  rw [LogBounds.ops_append]
  simp only [List.append_nil, List.cons_append, List.nil_append, LogBounds.ops, LogBounds.op]
  rw [if_pos ⟨h1, h2⟩]
  simp only [Option.bind_some, bounds_ss]

/-- The transaction of a synchronisation with snapshot. -/
theorem bounds_sync_snap {b : LogBounds} {i : Nat} (h1 : b.trimmed ≤ i) (n : Ballot) (d : Nat) (sn : Option S) (es : List E)
    (o y : Option StopSign) :
    b.calls [.atomically ([.setAcceptedRound n, .setDecidedIndex d] ++ [.trim i, .setCompactedIdx i, .setSnapshot sn] ++
      [.appendOnPrefix i es] ++ (IStore.syncStopsignOps o y : List (StorageOp E S)))] = some ⟨i, i, i + es.length⟩ := by
  simp only [LogBounds.calls]
  rw [LogBounds.ops_append]
  simp only [List.cons_append, List.nil_append, LogBounds.ops, LogBounds.op]
  rw [if_pos h1]
  simp only [Nat.le_refl, true_and, or_true, if_true, Option.bind_some, bounds_ss]

theorem sync_log_sat [SnapOps E S] {s : IStore E S} {lg P : Lg E} (hm : Mirror s) (hlog : s.storage.log = lg.es.drop s.storage.compacted_idx)
    (hss : s.storage.stopsign = lg.ss) (hidx : lg.IdxOK s.cache.accepted_idx) (hcov : lg.Covers s.storage.compacted_idx)
    (n : Ballot) (dec : Nat) {y : Option (LogSync E S)} (hy : SyncTo lg P y) :
    M.Sat (IStore.sync_log n dec y) s (fun r s' => r = s'.cache.accepted_idx ∧ Synced s n dec P s')
      (fun s' => s'.storage = s.storage ∧ s'.trail = s.trail ∧ s'.calls = s.calls) := by
  cases y with
  | none =>
    obtain rfl : P = lg := hy
    simp only [IStore.sync_log, M.sat_bind, M.sat_get, IStore.sat_setCache, IStore.sat_writeOps, M.sat_pure]
    refine ⟨fun m' hw => ?_, fun _ => ⟨trivial, trivial, trivial⟩⟩
    have hw0 := hw
    have h2 := IStore.base_ops hw
    simp only [Mem.write_atomically, Option.some.injEq] at h2
    subst h2
    exact ⟨trivial, ⟨hm.prom, rfl, rfl, hm.comp, hm.trim, hm.ss⟩, hidx, rfl, rfl, rfl, rfl, rfl, hlog, hss, hcov, fun h => ⟨h, rfl⟩,
      ⟨rfl, _, rfl, hw0, trivial, fun _ => rfl⟩⟩
  | some y =>
    obtain ⟨y1, y2, y3, y4⟩ := hy
    simp only [IStore.sync_log, M.sat_bind, M.sat_get, IStore.sat_setCache, M.sat_ofPan, IStore.sat_writeOps, M.sat_pure]
    refine ⟨fun ops hops => ⟨fun m' hw => ?_, fun _ => ⟨trivial, trivial, trivial⟩⟩, fun _ => ⟨trivial, trivial, trivial⟩⟩
    have hw0 := hw
    simp only [List.cons_append, List.nil_append, List.append_assoc] at hw
    have h2 := IStore.base_ops hw
    have hcase : (y.decided_snapshot = none ∧ ops = []) ∨
        (y.decided_snapshot.isSome = true ∧ ∃ sn, ops =
          [.trim y.sync_idx, .setCompactedIdx y.sync_idx, .setSnapshot (some sn)]) := by
      simp only [IStore.syncSnapshotOps] at hops
      split at hops
      · rename_i hs; simp at hops; right; exact ⟨by simp [hs], _, hops.symm⟩
      · rename_i hs
        split at hops
        · simp at hops
        · split at hops
          · simp at hops
          · simp at hops; right; exact ⟨by simp [hs], _, hops.symm⟩
      · rename_i hs; simp at hops; left; exact ⟨hs, hops⟩
    have hidx' : P.IdxOK (y.sync_idx + y.suffix.length + (if y.stopsign.isSome then 1 else 0)) := by
      rw [y1, y2]; exact idxOK_sync y3
    rcases hcase with ⟨hs, rfl⟩ | ⟨hs, sn, rfl⟩
    · simp only [List.nil_append] at h2
      obtain ⟨hle, rfl⟩ := IStore.sync_tail (by exact hm.ss.symm) h2
      simp only at hle
      have htr := hm.trim
      have htake := y4.resolve_left (by rw [hs]; simp)
      refine ⟨trivial, ⟨hm.prom, rfl, rfl, ?_, hm.trim, rfl⟩, hidx', rfl, rfl, rfl, rfl, rfl, ?_, y2, ?_, fun h => ⟨h, rfl⟩,
        ⟨rfl, _, rfl, hw0, trivial, fun hno => ?_⟩⟩
      · simp only [hs]; exact hm.comp
      · show s.storage.log.take (y.sync_idx - s.storage.trimmed_idx) ++ y.suffix = P.es.drop s.storage.compacted_idx
        rw [hlog, htr, y1, List.take_drop, Nat.add_sub_cancel' (by omega), htake]
        exact drop_take_append _ (by omega)
      · exact y3.down (by show s.storage.compacted_idx ≤ _; omega)
      · have hk : y.sync_idx ≤ P.es.length := y3.resolve_right fun h => h (y2.symm.trans hno)
        have hl : y.sync_idx ≤ lg.es.length := by
          have := congrArg List.length htake
          simp only [List.length_take] at this
          omega
        have hlen : s.storage.log.length = lg.es.length - s.storage.compacted_idx := by rw [hlog, List.length_drop]
        rw [bounds_sync (b := s.storage.bounds) hle (by simp only [Mem.bounds]; omega)]
        simp only [Mem.bounds, Mem.append_entries, List.length_append, List.length_take, Option.some.injEq, LogBounds.mk.injEq, true_and]
        omega
    · simp only [List.cons_append, List.nil_append] at h2
      obtain ⟨h3, h4⟩ := IStore.trim_ops h2
      rw [show ∀ (m : Mem E S) op r, m.write_atomically (op :: r) =
        (match m.apply op with | none => none | some m' => m'.write_atomically r) from fun _ _ _ => rfl] at h4
      simp only [Mem.apply, Mem.set_snapshot, Mem.compactTo] at h4
      obtain ⟨_, rfl⟩ := IStore.sync_tail (by exact hm.ss.symm) h4
      refine ⟨trivial, ⟨hm.prom, rfl, rfl, ?_, rfl, rfl⟩, hidx', rfl, rfl, rfl, rfl, rfl, ?_, y2, y3, fun h => by simp at h,
        ⟨rfl, _, rfl, hw0, trivial, fun _ => ?_⟩⟩
      · simp only [hs]; rfl
      · show List.take (y.sync_idx - y.sync_idx) _ ++ y.suffix = _
        rw [Nat.sub_self, List.take_zero, List.nil_append, y1]
      · rw [bounds_sync_snap (b := s.storage.bounds) h3]
        simp [Mem.bounds]

theorem Synced.disk {cc : ClusterConfig} {i : NodeId} {s s' : IStore E S} {n : Ballot} {dec : Nat} {P lg : Lg E} {G G' : Ghost E}
    (h : Synced s n dec P s') (hd : DiskInv cc i G s.storage lg) (hM : Mono G G') (hn : s.storage.prom = n)
    (ha : G'.acc i n = some P) (hdec : G'.DecOK cc n P dec) (hmax : ∀ b, G'.acc i b ≠ none → b ≤ n)
    (hpr : ∀ b, G'.prec i b = G.prec i b) : DiskInv cc i G' s'.storage P := by
  have hround : s'.storage.acc_round.getD {} = n := by rw [h.acc]; rfl
  have hprom : s'.storage.prom = n := by rw [← hn]; unfold Mem.prom; rw [h.nprom]
  exact {
    acc := by rw [hround]; exact ha
    log := h.log
    trim := h.mir.trim
    ss := h.ss
    cov := h.cov
    dec := by rw [hround, h.ld]; exact hdec
    snap := fun hs => by
      obtain ⟨h1, h2⟩ := h.snap hs
      rw [h2]
      exact (hd.snap h1).mono hM
    le := by rw [hround, hprom]; exact Ballot.le_refl _
    good := by rw [hprom, ← hn]; exact hd.good
    accMax := fun b hb => by rw [hround]; exact hmax b hb
    precMax := fun b hb => by
      rw [hprom, ← hn]
      rw [hpr b] at hb
      exact hd.precMax b hb
    precCur := fun hne => absurd (by rw [hprom, hround]) hne }

namespace Ctx
variable {C : Ctx E S} {G G' : Ghost E} {s s' : SP E S} {lg lg' : Lg E}

/-- Accepted in the promised ballot: this is the current log. -/
theorem acc_prom (hR : C.Reach G) (hC : C.CoreC G s lg) {x : Lg E} (h : G.acc C.i s.ist.storage.prom = some x) :
    s.ist.storage.acc_round.getD {} = s.ist.storage.prom ∧ x = lg := by
  have h1 := hC.disk.accMax _ (by rw [h]; simp)
  have h2 := hC.disk.le
  have : s.ist.storage.acc_round.getD {} = s.ist.storage.prom :=
    Ballot.eq_of_le_of_le (hR.abs.good _ _ (by rw [hC.disk.acc]; simp)) hC.disk.good h2 h1
  refine ⟨this, ?_⟩
  have ha := hC.disk.acc
  rw [this, h] at ha
  simpa using ha

theorem forward_buffered_sat {s : SP E S} {Q : SP E S → Prop} {P}
    (h : ∀ bp ms, (∀ m ∈ ms, m.src = s.pid ∧ m.dst ≠ s.pid ∧ ∃ es, m.msg = .proposalForward es) →
      (∀ P, bp.countP P + fwds P ms ≤ s.buffered_proposals.countP P) →
      Q { s with buffered_proposals := bp, outgoing := s.outgoing ++ ms }) :
    M.Sat SP.forward_buffered_proposals s (fun _ => Q) P := by
  simp only [SP.forward_buffered_proposals, M.sat_bind, M.sat_get, M.sat_upd, M.sat_ite, M.sat_pure, SP.forward_proposals, SP.sat_send]
  refine ⟨fun _ => ?_, fun _ => ⟨fun hc => ?_, fun _ => ?_⟩⟩
  · have := h [] [] (by simp) (by simp [fwds])
    simpa using this
  · refine h [] _ ?_ (by simp [fwds, PaxosMsg.fwd])
    intro m hm
    simp at hm
    subst hm
    exact ⟨rfl, fun hx => hc.2 hx.symm, _, rfl⟩
  · have := h ([] ++ s.buffered_proposals) [] (by simp) (by simp [fwds])
    simpa using this

theorem handle_acceptsync_inv [SnapOps E S] (hR : C.Reach G) (hC : C.CoreC G s lg) (hr : RoleInv C.cc C.i C.pre G s lg)
    (hT : C.Trail s) {a : AcceptSync E S} (hI : Incoming C G a.n a.seq_num) (hall : C.allow a.n a.seq_num) (hfresh : G.curg a.n C.i < a.seq_num)
    (hg : s.role = .follower → s.phase = .prepare → s.ist.cache.promise = a.n → ¬ G.dead a.n C.i a.seq_num.session)
    (hb : ¬ G.dead a.n C.i a.seq_num.session → ¬ G.Gone a.n C.i → MsgBody C.cc G a.n.pid C.i (.acceptSync a)) :
    M.Sat (SP.handle_acceptsync a a.n.pid) s (fun _ => C.Inv) C.Bad := by
  have hi : C.Inv s := ⟨G, hR, ⟨lg, hC, hr⟩, hT⟩
  simp only [SP.handle_acceptsync, M.sat_bind]
  refine check_valid_ballot_sat hR hC hr hT (hI.good hR) hI.ne (fun s' h => ?_) fun hp => ?_
  · simp only [M.sat_get, M.sat_ite, M.sat_pure]
    exact ⟨fun h => by simp at h, fun _ => h⟩
  simp only [M.sat_get, M.sat_ite, M.sat_pure, M.sat_bind, M.sat_upd, SP.sat_onStore]
  refine ⟨fun hc => ?_, fun _ => hi⟩
  obtain ⟨-, hrole, hphase⟩ := hc
  have hF := fol_of hr hrole
  have hbatch := (hF.prep hphase).1
  obtain ⟨b1, b2, b3, b4, ⟨l0, b5, b6⟩, b7, b8⟩ := hb (hg hrole hphase hp) (not_gone hC hp)
  generalize hP : G.endf a.n C.i a.seq_num = P at b2 b3 b4 b6 b7 b8
  have hm := hC.mir
  have hd := hC.disk
  have hprom : s.ist.storage.prom = a.n := by rw [← hm.prom]; exact hp
  have hne := hI.ne_default
  have hpr := prec_prom hR hC (by rw [hprom]; exact hne)
  rw [hprom] at hpr
  have hold : ∀ x, G.acc C.i a.n = some x → x ≤ P := by
    intro x hx
    obtain ⟨h1, rfl⟩ := acc_prom hR hC (by rw [hprom]; exact hx)
    obtain ⟨-, p, l0', -, -, -, -, hend⟩ := hR.abs.acc C.i a.n x hx hne
    have := hend hI.ne.symm
    rw [← hP]
    exact Lg.le_trans this (hR.abs.endMono _ _ _ _ (SeqNum.le_of_lt hfresh))
  have hto : SyncTo lg P (some a.log_sync) := by
    refine ⟨b2, b3, b4, b8.imp id ?_⟩
    rintro ⟨l, h1, h2, h3⟩
    refine Lg.take_eq ?_ h2 h1
    rcases h3 with ⟨na, lgF, l0', h4, h5, h6, h7⟩ | ⟨x, h4, h5⟩
    · by_cases hx : s.ist.storage.prom = s.ist.storage.acc_round.getD {}
      · have hacc := hd.acc
        rw [← hx, hprom] at hacc
        obtain ⟨-, p, l0'', -, h8, h9, -, -⟩ := hR.abs.acc C.i a.n lg hacc hne
        rw [h5] at h8; simp at h8; subst h8
        exact Lg.le_trans h7 h9
      · have := hd.precCur hx
        rw [hprom, h4] at this
        simp at this
        rw [← this.2]; exact h6
    · obtain ⟨-, rfl⟩ := acc_prom hR hC (by rw [hprom]; exact h4)
      exact h5
  have hS : Step C.i C.allow G (G.follow C.i a.n P a.seq_num) :=
    Ghost.follow_step hold (SeqNum.le_of_lt hfresh) hall
  have hA : Abs C.cc (G.follow C.i a.n P a.seq_num) := by
    refine Ghost.follow_abs hR.abs hI.ne hne b5 b6 hold (Lg.le_of_eq hP.symm) hpr ?_
    intro b hb
    have := hd.precMax b hb
    rw [hprom] at this
    exact this
  have ho := out_mono hS (fun _ _ _ => rfl) hC.src hC.out
  have hR' := hR.trans hS hA ho
  refine M.sat_mono (sync_log_sat hm hd.log hd.ss hC.idx hd.cov a.n a.decided_idx hto) (fun r ist h => ?_) fun ist h => ?_
  swap
  · exact ⟨⟨G, lg, hR, h.1 ▸ hd⟩, hT.same h⟩
  obtain ⟨hr', hsy⟩ := h
  have hd' : DiskInv C.cc C.i (G.follow C.i a.n P a.seq_num) ist.storage P := by
    refine hsy.disk hd hS.toMono hprom (by simp [Ghost.follow]) (b7.mono hS.toMono) ?_ fun _ => rfl
    intro b hb
    simp only [Ghost.follow] at hb
    split at hb
    · rename_i hc; rw [hc.2]; exact Ballot.le_refl _
    · rw [← hprom]; exact Ballot.le_trans (hd.accMax b hb) hd.le
  have hC' := setIst hC hd' hsy.mir hsy.idx ho (Nat.le_trans (SP.tok_follower (s := s) hrole rfl rfl) hC.tok)
  have hT' : C.Trail { s with ist := ist } := hT.cons ⟨_, _, hR', hd'⟩ hsy.wrote
  have hround : ist.cache.accepted_round = a.n := by rw [hsy.mir.acc, hsy.acc]; rfl
  -- the rest only sends messages
  have fin : ∀ bp ms, (∀ m ∈ ms, m.src = s.pid ∧ m.dst ≠ s.pid ∧ ∃ es, m.msg = .proposalForward es) →
      (∀ P, bp.countP P + fwds P ms ≤ s.buffered_proposals.countP P) →
      C.Inv { s with
        ist := ist, cached_promise := none, buffered_proposals := bp, role := .follower, phase := .accept
        current_seq_num := a.seq_num, latest_accepted_meta := some (a.n, (s.outgoing ++ ms).length)
        outgoing := (s.outgoing ++ ms) ++ [{ src := s.pid, dst := a.n.pid, msg := .accepted { n := a.n, accepted_idx := r } }] } := by
    intro bp ms hms hbp
    have hC1 := (hC'.sends_any (ms := ms) (bp := bp) (fun m hx => by
      obtain ⟨h1, h2, es, h3⟩ := hms m hx
      exact ⟨h1.trans hC.pid, by rw [← hC.pid]; exact h2, by rw [h3]; rfl, by rw [h3]; trivial⟩) (by
        have h1 := hC'.tok
        have h2 := hbp (G.follow C.i a.n P a.seq_num).mark
        simp only [SP.tok] at h1 ⊢
        omega)).sends
      (ms := [{ src := s.pid, dst := a.n.pid, msg := .accepted { n := a.n, accepted_idx := r } }]) (fun m hx => by
        simp at hx
        subst hx
        refine ⟨hC.pid, hI.ne, rfl, ⟨P, by simp [Ghost.follow], ?_⟩, fun _ => rfl⟩
        rw [hr']; exact hsy.idx.covers)
    refine ⟨_, hR', ⟨P, ⟨hC1.pid, hC1.node, hC1.peers, hC1.quorum, hC1.maxpid, hC1.lenA, hC1.disk, hC1.mir, hC1.idx, hC1.src, hC1.dst, hC1.out, ?_,
        by refine Nat.le_trans ?_ hC1.tok; exact SP.tok_follower rfl rfl rfl⟩,
      role_of_fol ⟨.inl (hsy.batch.trans hbatch), fun h => by simp at h, fun _ => ?_, fun _ => by
        show ¬ G.dead ist.cache.promise C.i a.seq_num.session
        rw [hsy.prom.trans hp]
        exact hg hrole hphase hp⟩ rfl⟩, hT'⟩
    · intro b k hk
      simp only [Option.some.injEq, Prod.mk.injEq] at hk
      obtain ⟨rfl, rfl⟩ := hk
      refine ⟨{ src := s.pid, dst := a.n.pid, msg := .accepted { n := a.n, accepted_idx := r } }, _, ?_, rfl, rfl⟩
      exact List.getElem?_concat_length
    · have hcp : ist.cache.promise = a.n := hsy.prom.trans hp
      show ist.cache.accepted_round = ist.cache.promise ∧ ist.cache.promise.pid ≠ C.i ∧
        a.seq_num = (G.follow C.i a.n P a.seq_num).curg ist.cache.promise C.i ∧ 1 ≤ a.seq_num.counter ∧
        P.es ++ ist.cache.batched_entries = (G.endf ist.cache.promise C.i ((G.follow C.i a.n P a.seq_num).curg ist.cache.promise C.i)).es
      rw [hcp, hsy.batch, hbatch, List.append_nil, hround]
      have : (G.follow C.i a.n P a.seq_num).curg a.n C.i = a.seq_num := by simp [Ghost.follow]
      rw [this, hP]
      exact ⟨rfl, hI.ne, rfl, Nat.le_of_eq b1.symm, rfl⟩
  simp only [M.sat_whenDo, SP.sat_setState, M.sat_upd, SP.sat_send]
  refine ⟨fun _ => ?_, fun _ => ?_⟩
  · refine forward_buffered_sat fun bp ms hms hbp => ?_
    exact fin bp ms hms hbp
  · have := fin s.buffered_proposals [] (by simp) (by simp [fwds])
    simpa using this

end Ctx
end Omni
