import Verif.Proof.Safety.Majority
import Verif.Proof.Compact
/-
Compaction, proposals, timeouts, and the dispatch of messages.
-/
namespace Omni

variable {E S : Type}

namespace IStore
variable {s : IStore E S}

theorem target_le {idx : Option Nat} {k : Nat} (h : s.compactTarget idx = some (.ok k)) :
    k ≤ s.cache.decided_idx ∧ ∀ i, idx = some i → k ≤ i := by
  have hd : ∀ j, s.get_decided_idx_without_stopsign = some j → j ≤ s.cache.decided_idx := by
    intro j hj
    simp only [get_decided_idx_without_stopsign, usub] at hj
    split at hj
    · split at hj
      · simp at hj; omega
      · simp at hj
    · simp at hj; omega
  unfold compactTarget at h
  split at h
  · simp at h
  · rename_i j hj
    have := hd j hj
    split at h
    · simp at h; subst h; exact ⟨this, by simp⟩
    · rename_i i
      split at h
      · simp at h; subst h; exact ⟨by omega, by simp⟩
      · split at h
        · simp at h; subst h
          refine ⟨this, ?_⟩
          intro i' hi'
          simp at hi'
          omega
        · simp at h

/-- Nothing happens, or the log is compacted to `k`. -/
theorem try_trim_sat (idx : Nat) :
    M.Sat (try_trim idx) s (fun _ s' => s' = s ∨ ∃ k, k ≤ s.cache.decided_idx ∧ k ≤ idx ∧ s.cache.compacted_idx < k ∧
      s' = s.compacted k s.storage.snapshot [.trim k, .setCompactedIdx k] ∧
      s.storage.write_atomically [.trim k, .setCompactedIdx k] = some s'.storage) (fun s' => s' = s) := by
  unfold try_trim
  rw [M.sat_bind, M.sat_get, M.sat_bind, M.sat_ofPan]
  refine ⟨fun t ht => ?_, fun _ => rfl⟩
  cases t with
  | error e => exact .inl rfl
  | ok k =>
    obtain ⟨h1, h2⟩ := target_le ht
    simp only [M.sat_ite, M.sat_bind, sat_writeOps, sat_setCache, M.sat_pure]
    refine ⟨fun hk => ⟨fun m' hw => ?_, fun hn => trivial⟩, fun _ => .inl trivial⟩
    obtain ⟨_, h4⟩ := trim_ops hw
    have hw0 := hw
    simp only [Mem.write_atomically, Option.some.injEq] at h4
    subst h4
    exact .inr ⟨k, h1, h2 _ rfl, hk, rfl, hw0⟩

theorem try_snapshot_sat [SnapOps E S] (idx : Option Nat) :
    M.Sat (try_snapshot idx) s (fun _ s' => s' = s ∨ ∃ k sn, k ≤ s.cache.decided_idx ∧ s.cache.compacted_idx < k ∧
      s' = s.compacted k (some sn) [.trim k, .setCompactedIdx k, .setSnapshot (some sn)] ∧
      s.storage.write_atomically [.trim k, .setCompactedIdx k, .setSnapshot (some sn)] = some s'.storage) (fun s' => s' = s) := by
  unfold try_snapshot
  rw [M.sat_bind, M.sat_get, M.sat_bind, M.sat_ofPan]
  refine ⟨fun t ht => ?_, fun _ => rfl⟩
  cases t with
  | error e => exact .inl rfl
  | ok k =>
    obtain ⟨h1, h2⟩ := target_le ht
    simp only [M.sat_ite, M.sat_bind, M.sat_ofPan, M.sat_pure]
    refine ⟨fun hk => ⟨fun r hr => ?_, fun hn => trivial⟩, fun _ => .inl trivial⟩
    cases r with
    | error e => exact .inl rfl
    | ok sn =>
      simp only [M.sat_bind, sat_writeOps, sat_setCache, M.sat_pure]
      refine ⟨fun m' hw => ?_, fun hn => trivial⟩
      obtain ⟨_, h4⟩ := trim_ops hw
      have hw0 := hw
      simp only [Mem.write_atomically, Mem.apply, Mem.set_snapshot, Option.some.injEq] at h4
      subst h4
      exact .inr ⟨k, sn, h1, hk, rfl, hw0⟩

end IStore

theorem foldl_min_le (l : List Nat) (a : Nat) : l.foldl min a ≤ a ∧ ∀ x ∈ l, l.foldl min a ≤ x := by
  induction l generalizing a with
  | nil => simp
  | cons y r ih =>
    obtain ⟨h1, h2⟩ := ih (min a y)
    simp only [List.foldl_cons]
    refine ⟨by omega, fun x hx => ?_⟩
    rcases List.mem_cons.1 hx with rfl | hx
    · omega
    · exact h2 x hx

theorem min_all_le {ls : LeaderState E S} {k : Nat} (h : ls.get_min_all_accepted_idx = some k) :
    ls.accepted_indexes ≠ [] ∧ ∀ x ∈ ls.accepted_indexes, k ≤ x := by
  unfold LeaderState.get_min_all_accepted_idx at h
  split at h
  · simp at h
  · rename_i a r hx
    simp at h
    subst h
    obtain ⟨h1, h2⟩ := foldl_min_le r a
    rw [hx]
    refine ⟨by simp, fun x hx => ?_⟩
    rcases List.mem_cons.1 hx with rfl | hx
    · exact h1
    · exact h2 x hx

namespace Ctx
variable {C : Ctx E S} {G G' : Ghost E} {s s' : SP E S} {lg lg' : Lg E}

/-- Compacting decided entries; without a snapshot only what everybody has accepted. -/
theorem compact_inv (hR : C.Reach G) (hC : C.CoreC G s lg) (hr : RoleInv C.cc C.i C.pre G s lg) (hT : C.Trail s)
    {k : Nat} {sn : Option S} {ops : List (StorageOp E S)} (hk : k ≤ s.ist.cache.decided_idx) (hc : s.ist.cache.compacted_idx < k)
    (hs : sn = none → G.TrimOK C.cc k)
    (hw : s.ist.storage.write_atomically ops = some (s.ist.compacted k sn ops).storage)
    (hops : ∀ b : LogBounds, b.trimmed ≤ k → b.ops ops = some { b with trimmed := k, compacted := k }) :
    C.CoreC G { s with ist := s.ist.compacted k sn ops } lg ∧ RoleInv C.cc C.i C.pre G { s with ist := s.ist.compacted k sn ops } lg ∧
      C.Trail { s with ist := s.ist.compacted k sn ops } := by
  have hd := hC.disk
  have hm := hC.mir
  have hcov : lg.Covers k := by
    have := hd.dec.covers
    rw [← hm.dec] at this
    exact this.down hk
  have hd' : DiskInv C.cc C.i G (s.ist.compacted k sn ops).storage lg :=
    { acc := hd.acc
      log := by
        show s.ist.storage.log.drop (min (k - s.ist.storage.trimmed_idx) s.ist.storage.log.length) = lg.es.drop k
        have h1 := hm.comp
        rw [hd.trim, hd.log, List.length_drop, List.drop_drop]
        by_cases hle : k ≤ lg.es.length
        · congr 1; omega
        · rw [List.drop_of_length_le (by omega), List.drop_of_length_le (by omega)]
      trim := rfl
      ss := hd.ss
      cov := hcov
      dec := hd.dec
      snap := hs
      le := hd.le
      good := hd.good
      accMax := hd.accMax
      precMax := hd.precMax
      precCur := hd.precCur }
  refine ⟨setIst hC hd' ⟨hm.prom, hm.acc, hm.dec, rfl, rfl, hm.ss⟩ hC.idx hC.out hC.tok, ?_, hT.cons ⟨G, lg, hR, hd'⟩ ⟨rfl, _, rfl, hw, trivial, fun hno => ?_⟩⟩
  swap
  · have hkl : k ≤ lg.es.length := hcov.resolve_right fun h => h (hd.ss.symm.trans hno)
    have ht := hd.trim
    have hcm := hm.comp
    have h1 : (s.ist.compacted k sn ops).storage.log.length = lg.es.length - k := by rw [hd'.log, List.length_drop]; rfl
    have h2 : s.ist.storage.log.length = lg.es.length - s.ist.storage.compacted_idx := by rw [hd.log, List.length_drop]
    simp only [LogBounds.calls]
    rw [hops _ (by simp only [Mem.bounds]; omega)]
    show some (LogBounds.mk k k _) = some (LogBounds.mk k k _)
    simp only [Mem.bounds, Option.some.injEq, LogBounds.mk.injEq, true_and]
    rw [h1, show (s.ist.compacted k sn ops).storage.trimmed_idx = k from rfl]
    omega
  exact hr.map rfl rfl
    (fun hr => { ldr := hr.ldr, own := hr.own, noacc := hr.noacc, batch := hr.batch, self := hr.self, seqs := hr.seqs, metas := hr.metas, accs := hr.accs, max := hr.max })
    (fun hr => { ldr := hr.ldr, own := hr.own, acc := hr.acc, batch := hr.batch, max := hr.max, prom := hr.prom, ends := hr.ends, cur := hr.cur, link := hr.link, mets := hr.mets, dead := hr.dead, accs := hr.accs })
    (fun hr => ⟨hr.batch, hr.prep, hr.accept, hr.live⟩)

/-- Invariant with the history fixed. -/
def InvAt (C : Ctx E S) (G : Ghost E) (s : SP E S) : Prop :=
  C.Reach G ∧ (∃ lg, C.CoreC G s lg ∧ RoleInv C.cc C.i C.pre G s lg) ∧ C.Trail s

theorem InvAt.inv (h : C.InvAt G s) : C.Inv s := by
  obtain ⟨hR, ⟨lg, hC, hr⟩, hT⟩ := h
  exact ⟨G, hR, ⟨lg, hC, hr⟩, hT⟩

theorem InvAt.bad (h : C.InvAt G s) : C.Bad s := h.inv.bad

theorem try_trim_inv (h : C.InvAt G s) {idx : Nat} (hi : G.TrimOK C.cc idx) :
    M.Sat (SP.onStore (IStore.try_trim idx)) s (fun _ s' => C.InvAt G s' ∧ s'.pid = s.pid ∧ s'.peers = s.peers) C.Bad := by
  rw [SP.sat_onStore]
  refine M.sat_mono (IStore.try_trim_sat idx) ?_ ?_
  · rintro r ist (rfl | ⟨k, h1, h2, h3, rfl, hw⟩)
    · exact ⟨h, rfl, rfl⟩
    · obtain ⟨hR, ⟨lg, hC, hr⟩, hT⟩ := h
      obtain ⟨h4, h5, h6⟩ := compact_inv hR hC hr hT h1 h3 (fun _ => hi.down h2) hw
        (fun b hb => by simp only [LogBounds.ops, LogBounds.op, if_pos hb])
      exact ⟨⟨hR, ⟨lg, h4, h5⟩, h6⟩, rfl, rfl⟩
  · rintro ist rfl
    exact h.bad

theorem try_snapshot_inv [SnapOps E S] (h : C.InvAt G s) (idx : Option Nat) :
    M.Sat (SP.onStore (IStore.try_snapshot idx)) s (fun _ s' => C.InvAt G s' ∧ s'.pid = s.pid ∧ s'.peers = s.peers) C.Bad := by
  rw [SP.sat_onStore]
  refine M.sat_mono (IStore.try_snapshot_sat idx) ?_ ?_
  · rintro r ist (rfl | ⟨k, sn, h1, h3, rfl, hw⟩)
    · exact ⟨h, rfl, rfl⟩
    · obtain ⟨hR, ⟨lg, hC, hr⟩, hT⟩ := h
      obtain ⟨h4, h5, h6⟩ := compact_inv hR hC hr hT h1 h3 (sn := some sn) (fun h => by simp at h) hw
        (fun b hb => by simp only [LogBounds.ops, LogBounds.op, if_pos hb])
      exact ⟨⟨hR, ⟨lg, h4, h5⟩, h6⟩, rfl, rfl⟩
  · rintro ist rfl
    exact h.bad

theorem send_all_inv (h : C.InvAt G s) {ps : List NodeId} (hps : ps = s.peers) {g : NodeId → PaxosMsg E S}
    (hg : ∀ p, (g p).accOf = none ∧ MsgBody C.cc G C.i p (g p) ∧ ∀ P, (g p).fwd P = 0) :
    M.Sat (M.forEach ps fun p => SP.send p (g p)) s (fun _ => C.Inv) C.Bad := by
  subst hps
  obtain ⟨hR, ⟨lg, hC, hr⟩, hT⟩ := h
  rw [M.sat_of_eq (SP.forEach_send _ _ _)]
  refine Inv.sends hR hC hr hT fun m hm => ?_
  simp only [List.mem_map] at hm
  obtain ⟨p, hp, rfl⟩ := hm
  exact ⟨hC.pid, peers_ne hC hp, (hg p).1, (hg p).2.1, (hg p).2.2⟩

/-- The leader's trim index has been accepted by everybody. -/
theorem trim_ok (h : C.InvAt G s) (hl : s.role = .leader) {k j : Nat} (hk : s.ls.get_min_all_accepted_idx = some k) (hj : j ≤ k) :
    G.TrimOK C.cc j := by
  obtain ⟨hR, ⟨lg, hC, hr⟩, hT⟩ := h
  obtain ⟨hne, hmin⟩ := min_all_le hk
  by_cases h0 : j = 0
  · exact .inl h0
  rcases role_cases hr with ⟨h, -⟩ | ⟨-, -, h⟩ | ⟨h1, h2, -⟩
  · rw [hl] at h; simp at h
  · exfalso
    obtain ⟨a, ha⟩ := slot_isSome (l := s.ls.accepted_indexes) (p := 1) (by omega) (by
      cases hx : s.ls.accepted_indexes with
      | nil => exact absurd hx hne
      | cons _ _ => simp)
    have := h.accs 1 a ha
    have := hmin a (slot_mem ha)
    omega
  · have h := LeadSt.of hR hC hr hT h1 h2
    have hall : ∀ F, Node C.cc F → ∃ a, G.acc F s.ls.n_leader = some a ∧ a.Covers j := by
      intro F hF
      obtain ⟨a, ha⟩ := slot_isSome (l := s.ls.accepted_indexes) hF.2 (by rw [hC.lenA]; exact hC.maxpid F hF.1)
      have := hmin a (slot_mem ha)
      obtain ⟨-, x, hx1, hx2⟩ := h.lead.accs F a ha (by omega)
      exact ⟨x, hx1, hx2.down (by omega)⟩
    obtain ⟨a, ha1, ha2⟩ := hall C.i hC.node
    refine .inr ⟨s.ls.n_leader, lg.cut j, fun F hF => ?_, Lg.covers_cut (ha2.mono (h.acc_le ha1))⟩
    obtain ⟨x, hx1, hx2⟩ := hall F hF
    exact ⟨x, hx1, Lg.cut_le_of_le (h.acc_le hx1) hx2⟩

theorem trim_inv (h : C.Inv s) (idx : Option Nat) : M.Sat (SP.trim idx) s (fun _ => C.Inv) C.Bad := by
  obtain ⟨G, hR, ⟨lg, hC, hr⟩, hT⟩ := h
  have h : C.InvAt G s := ⟨hR, ⟨lg, hC, hr⟩, hT⟩
  unfold SP.trim
  rw [M.sat_bind, M.sat_get, M.sat_ite]
  refine ⟨fun hl => ?_, fun _ => h.inv⟩
  rw [M.sat_bind, M.sat_ofPan]
  refine ⟨fun k hk => ?_, fun _ => h.bad⟩
  rw [M.sat_ite]
  refine ⟨fun hle => ?_, fun _ => h.inv⟩
  have hok := trim_ok h hl hk hle
  rw [M.sat_bind]
  refine M.sat_mono (try_trim_inv h hok) ?_ fun _ h => h
  rintro r s' ⟨h1, h2, h3⟩
  cases r with
  | error e => exact h1.inv
  | ok u =>
    rw [M.sat_bind]
    refine M.sat_mono (send_all_inv (g := fun _ => .compaction (.trim (idx.getD k))) h1 h3.symm fun p => ⟨rfl, hok, fun _ => rfl⟩) ?_ fun _ h => h
    exact fun _ _ h => h

theorem snapshot_inv [SnapOps E S] (h : C.Inv s) (idx : Option Nat) (l : Bool) : M.Sat (SP.snapshot idx l) s (fun _ => C.Inv) C.Bad := by
  obtain ⟨G, hR, ⟨lg, hC, hr⟩, hT⟩ := h
  have h : C.InvAt G s := ⟨hR, ⟨lg, hC, hr⟩, hT⟩
  unfold SP.snapshot
  rw [M.sat_bind, M.sat_get, M.sat_bind]
  refine M.sat_mono (try_snapshot_inv h idx) ?_ fun _ h => h
  rintro r s' ⟨h1, h2, h3⟩
  cases r with
  | error e => exact h1.inv
  | ok u =>
    rw [M.sat_bind, M.sat_whenDo]
    refine ⟨fun _ => ?_, fun _ => h1.inv⟩
    refine M.sat_mono (send_all_inv (g := fun _ => .compaction (.snapshot idx)) h1 h3.symm fun p => ⟨rfl, trivial, fun _ => rfl⟩) ?_ fun _ h => h
    exact fun _ _ h => h

theorem handle_compaction_inv [SnapOps E S] (h : C.InvAt G s) {c : Compaction} {src dst : NodeId}
    (hb : MsgBody C.cc G src dst (.compaction c : PaxosMsg E S)) :
    M.Sat (SP.handle_compaction c) s (fun _ => C.Inv) C.Bad := by
  cases c with
  | trim idx =>
    unfold SP.handle_compaction
    rw [M.sat_bind]
    refine M.sat_mono (try_trim_inv h hb) ?_ fun _ h => h
    exact fun _ _ h => h.1.inv
  | snapshot idx =>
    unfold SP.handle_compaction
    rw [M.sat_bind]
    refine M.sat_mono (snapshot_inv h.inv idx true) ?_ fun _ h => h
    exact fun _ _ h => h

/-! ### Proposals -/

theorem ss_none (hC : C.CoreC G s lg) (h : ¬ s.accepted_reconfiguration = true) : lg.ss = none := by
  simp only [SP.accepted_reconfiguration] at h
  rw [hC.mir.ss, hC.disk.ss] at h
  simpa using h

theorem handle_forwarded_proposal_inv {es : List E} (h : C.Slack es s) :
    M.Sat (SP.handle_forwarded_proposal es) s (fun _ => C.Inv) C.Bad := by
  unfold SP.handle_forwarded_proposal
  rw [M.sat_bind, M.sat_get, M.sat_ite]
  refine ⟨fun _ => h.inv, fun hx => ?_⟩
  split
  · rw [M.sat_upd]; exact h.buffer
  · rename_i h1 h2
    obtain ⟨G, lg, hR, hC, hr, hT, ht⟩ := h
    exact accept_entries_leader_inv (LeadSt.of hR hC hr hT h1 h2) (ss_none hC hx) es ht
  · exact forward_proposals_inv h

theorem handle_forwarded_stopsign_inv (h : C.Inv s) (ss : StopSign) :
    M.Sat (SP.handle_forwarded_stopsign ss) s (fun _ => C.Inv) C.Bad := by
  unfold SP.handle_forwarded_stopsign
  rw [M.sat_bind, M.sat_get, M.sat_ite]
  refine ⟨fun _ => h, fun hx => ?_⟩
  split
  · rw [M.sat_upd]; exact h.frame _ _ fun _ => Nat.le_refl _
  · rename_i h1 h2
    obtain ⟨G, hR, ⟨lg, hC, hr⟩, hT⟩ := h
    exact accept_stopsign_leader_inv (LeadSt.of hR hC hr hT h1 h2) (ss_none hC hx) ss
  · exact forward_stopsign_inv h ss

theorem append_inv {e : E} (h : C.Slack [e] s) : M.Sat (SP.append e) s (fun _ => C.Inv) C.Bad := by
  unfold SP.append
  rw [M.sat_bind, M.sat_get, M.sat_ite]
  refine ⟨fun _ => h.inv, fun hx => ?_⟩
  rw [M.sat_bind]
  unfold SP.propose_entry
  rw [M.sat_bind, M.sat_get]
  simp only [M.sat_pure]
  split
  · rw [M.sat_upd]; exact h.buffer
  · rename_i h1 h2
    obtain ⟨G, lg, hR, hC, hr, hT, ht⟩ := h
    exact accept_entry_leader_inv (LeadSt.of hR hC hr hT h1 h2) (ss_none hC hx) e ht
  · exact forward_proposals_inv h

theorem reconfigure_inv (h : C.Inv s) (c : ClusterConfig) (md : Option (List Nat)) :
    M.Sat (SP.reconfigure c md) s (fun _ => C.Inv) C.Bad := by
  unfold SP.reconfigure
  rw [M.sat_bind, M.sat_get, M.sat_ite]
  refine ⟨fun _ => h, fun hx => ?_⟩
  rw [M.sat_bind]
  unfold SP.propose_stopsign
  rw [M.sat_bind, M.sat_get]
  simp only [M.sat_pure]
  split
  · rw [M.sat_upd]; exact h.frame _ _ fun _ => Nat.le_refl _
  · rename_i h1 h2
    obtain ⟨G, hR, ⟨lg, hC, hr⟩, hT⟩ := h
    exact accept_stopsign_leader_inv (LeadSt.of hR hC hr hT h1 h2) (ss_none hC hx) _
  · exact forward_stopsign_inv h _

/-! ### Timeouts -/

theorem resend_message_timeout_inv (h : C.Inv s) : M.Sat SP.resend_message_timeout s (fun _ => C.Inv) C.Bad := by
  unfold SP.resend_message_timeout
  rw [M.sat_bind, M.sat_get]
  obtain ⟨G, hR, ⟨lg, hC, hr⟩, hT⟩ := h
  split
  · rename_i h1; exact resend_messages_leader_inv hR hC hr hT h1
  · rename_i h1; exact resend_messages_follower_inv hR hC hr hT h1

theorem flush_batch_timeout_inv (h : C.Inv s) : M.Sat SP.flush_batch_timeout s (fun _ => C.Inv) C.Bad := by
  unfold SP.flush_batch_timeout
  rw [M.sat_bind, M.sat_get]
  split
  · rename_i h1 h2
    obtain ⟨G, hR, ⟨lg, hC, hr⟩, hT⟩ := h
    exact flush_batch_leader_inv (LeadSt.of hR hC hr hT h1 h2)
  · rename_i h1 h2; exact flush_batch_follower_inv h h1 h2
  · exact h

/-! ### Messages -/

/-- A promise that meets an AcceptDecide waiting to be taken starts a dead session (finding F1); a follower that waits for an AcceptSync
must not receive that of a dead session. -/
structure Guard (C : Ctx E S) (G : Ghost E) (s : SP E S) (m : PaxosMessage E S) : Prop where
  die : ∀ p, m.msg = .promise p → s.role = .leader → s.phase = .accept → p.n = s.ls.n_leader →
    (∃ x, slot s.ls.latest_accept_meta m.src = some (some x)) → ∀ q, slot s.ls.follower_seq_nums m.src = some q →
    C.allow.die s.ls.n_leader m.src (q.session + 1)
  live : ∀ a, m.msg = .acceptSync a → s.role = .follower → s.phase = .prepare → s.ist.cache.promise = a.n →
    ¬ G.dead a.n C.i a.seq_num.session

theorem Guard.other {m : PaxosMessage E S} (h1 : ∀ p, m.msg ≠ .promise p) (h2 : ∀ a, m.msg ≠ .acceptSync a) : Guard C G s m :=
  ⟨fun p hp => absurd hp (h1 p), fun a ha => absurd ha (h2 a)⟩

theorem handle_inv [SnapOps E S] (hR : C.Reach G) (hC : C.CoreC G s lg) (hr : RoleInv C.cc C.i C.pre G s lg) (hT : C.Trail s)
    {m : PaxosMessage E S} (hm : MsgOK C.cc G m) (hd : m.dst = C.i) (hall : ∀ n q, m.msg.Moves n (G.curg n C.i) q → C.allow n q)
    (hg : Guard C G s m) (hk : ∀ es, m.msg = .proposalForward es → s.tok G.mark + G.count es ≤ G.hold C.i) :
    M.Sat (SP.handle m) s (fun _ => C.Inv) C.Bad := by
  have hne : m.src ≠ C.i := by rw [← hd]; exact hm.ne
  have h : C.InvAt G s := ⟨hR, ⟨lg, hC, hr⟩, hT⟩
  have hb0 := hm.body
  have hb : m.msg.accOf = none → MsgBody C.cc G m.src C.i m.msg := fun h0 => by
    rw [← hd]; exact hb0 fun n q hq => by rw [h0] at hq; simp at hq
  have hba : ∀ n q, m.msg.accOf = some (n, q) → ¬ G.dead n C.i q.session → ¬ G.Gone n C.i → MsgBody C.cc G m.src C.i m.msg := fun n q hq h1 h2 => by
    rw [← hd] at h1 h2 ⊢
    exact hb0 fun n' q' hq' => by
      rw [hq] at hq'
      simp only [Option.some.injEq, Prod.mk.injEq] at hq'
      rw [← hq'.1, ← hq'.2]
      exact ⟨h1, h2⟩
  have hin : ∀ n q, m.msg.accOf = some (n, q) → Incoming C G n q ∧ n.pid = m.src := by
    intro n q hq
    obtain ⟨h1, h2⟩ := hm.lead n q hq
    exact ⟨⟨by rw [h1]; exact hne, by rw [h1]; exact h2, by rw [h1]; exact hm.node.2, fun h3 h4 => hall n q ⟨hq, .inr ⟨h3, h4⟩⟩⟩, h1⟩
  have hfr := hm.fresh
  unfold SP.handle
  rw [hd] at hfr
  cases hx : m.msg with
  | prepareReq n => exact handle_preparereq_inv hR hC hr hT n hne
  | prepare p => rw [hx] at hb; exact handle_prepare_inv hR hC hr hT hne hm.node (hb rfl)
  | promise p =>
    rw [hx] at hb
    exact handle_promise_inv hR hC hr hT hm.node hne (hb rfl) (hg.die p hx)
  | acceptSync a =>
    rw [hx] at hba hin hfr hall
    obtain ⟨h1, h2⟩ := hin a.n a.seq_num rfl
    rw [← h2] at hba
    rw [← h2]
    exact handle_acceptsync_inv hR hC hr hT h1 (hall _ _ ⟨rfl, .inl rfl⟩) (hfr a.n a.seq_num rfl) (hg.live a hx) (hba _ _ rfl)
  | acceptDecide a =>
    rw [hx] at hba hin
    obtain ⟨h1, h2⟩ := hin a.n a.seq_num rfl
    rw [← h2] at hba
    exact handle_acceptdecide_inv hR hC hr hT h1 (hba _ _ rfl)
  | notAccepted n => rw [hx] at hb; exact handle_notaccepted_inv hR hC hr hT hne (hb rfl)
  | accepted a => rw [hx] at hb; exact handle_accepted_inv hR hC hr hT hm.node (hb rfl)
  | decide d =>
    rw [hx] at hba hin
    obtain ⟨h1, h2⟩ := hin d.n d.seq_num rfl
    rw [← h2] at hba
    exact handle_decide_inv hR hC hr hT h1 (hba _ _ rfl)
  | proposalForward es => exact handle_forwarded_proposal_inv ⟨G, lg, hR, hC, hr, hT, hk es hx⟩
  | compaction c => rw [hx] at hb; exact handle_compaction_inv h (hb rfl)
  | acceptStopSign a =>
    rw [hx] at hba hin
    obtain ⟨h1, h2⟩ := hin a.n a.seq_num rfl
    rw [← h2] at hba
    exact handle_accept_stopsign_inv hR hC hr hT h1 (hba _ _ rfl)
  | forwardStopSign ss => exact handle_forwarded_stopsign_inv h.inv ss

end Ctx
end Omni
