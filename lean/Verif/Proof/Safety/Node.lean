import Verif.Proof.Safety.Handle
import Verif.Proof.LifeInv
/-
A whole server: its calls, its restart, and handing over its messages.
-/
namespace Omni

variable {E S : Type}

/-- The election part of server `i`. -/
structure BleOK (cc : ClusterConfig) (i : NodeId) (b : BLE) : Prop where
  own : b.OwnBallot
  pid : b.pid = i
  cfg : b.configuration_id = cc.configuration_id

namespace Ctx

variable {C : Ctx E S}

structure OInv (C : Ctx E S) (op : OP E S) : Prop where
  sp : C.Inv op.sp
  ble : BleOK C.cc C.i op.ble

def OBad (C : Ctx E S) (op : OP E S) : Prop := C.Bad op.sp

theorem Inv.promise_good {s : SP E S} (h : C.Inv s) : GoodB C.cc s.get_promise := by
  obtain ⟨G, hR, ⟨lg, hC, -⟩, -⟩ := h
  have := hC.disk.good
  rw [← hC.mir.prom] at this
  exact this

theorem Inv.node {s : SP E S} (h : C.Inv s) : Node C.cc C.i := by
  obtain ⟨G, hR, ⟨lg, hC, -⟩, -⟩ := h
  exact hC.node

theorem onSP_inv {α : Type} {m : M (SP E S) α} {op : OP E S} (h : C.OInv op)
    (hm : M.Sat m op.sp (fun _ => C.Inv) C.Bad) : M.Sat (OP.onSP m) op (fun _ => C.OInv) C.OBad := by
  rw [OP.sat_onSP]
  exact M.sat_mono hm (fun _ _ h1 => ⟨h1, h.ble⟩) fun _ h => h

theorem drop_inv {α : Type} {m : M (OP E S) α} {op : OP E S} (h : M.Sat m op (fun _ => C.OInv) C.OBad) :
    M.Sat (m >>= fun _ => pure ()) op (fun _ => C.OInv) C.OBad := by
  rw [M.sat_bind]
  exact M.sat_mono h (fun _ _ h => h) fun _ h => h

theorem leader_inv {op : OP E S} (h : C.OInv op) {n : Ballot} (hp : n.pid = C.i) (hc : n.config_id = C.cc.configuration_id) :
    M.Sat (OP.onSP (SP.handle_leader n)) op (fun _ => C.OInv) C.OBad := by
  refine onSP_inv h ?_
  have hn := h.sp.node
  obtain ⟨G, hR, ⟨lg, hC, hr⟩, hT⟩ := h.sp
  exact handle_leader_inv hR hC hr hT hp (.inr ⟨hc, by rw [hp]; exact hn.2⟩)

theorem own_of_good {op : OP E S} (h : C.OInv op) : op.sp.get_promise.pid = op.ble.pid →
    op.sp.get_promise.config_id = op.ble.configuration_id := by
  intro hx
  rw [h.ble.pid] at hx
  rcases h.sp.promise_good with h1 | ⟨h1, -⟩
  · rw [h1] at hx; exact absurd hx.symm h.sp.node.2
  · rw [h1, h.ble.cfg]

theorem election_timeout_inv {op : OP E S} (h : C.OInv op) : M.Sat OP.election_timeout op (fun _ => C.OInv) C.OBad := by
  unfold OP.election_timeout
  rw [M.sat_bind, M.sat_get]
  simp only [M.sat_bind, M.sat_upd]
  have hown := own_of_good h
  have hp := BLE.hb_timeout_pid op.ble op.sp.role op.sp.phase op.sp.get_promise
  have hb : BleOK C.cc C.i (op.ble.hb_timeout op.sp.role op.sp.phase op.sp.get_promise).2 :=
    ⟨BLE.hb_timeout_own h.ble.own hown, by rw [hp.1]; exact h.ble.pid, by rw [hp.2]; exact h.ble.cfg⟩
  have h' : C.OInv { op with ble := (op.ble.hb_timeout op.sp.role op.sp.phase op.sp.get_promise).2 } := ⟨h.sp, hb⟩
  split
  · rename_i b hbb
    have hcur : b = (op.ble.hb_timeout op.sp.role op.sp.phase op.sp.get_promise).2.current_ballot := by
      simp only [BLE.hb_timeout] at hbb ⊢
      split at hbb
      · simpa using hbb.symm
      · simp at hbb
    exact leader_inv h' (by rw [hcur, ← hb.pid]; exact hb.own.1) (by rw [hcur, ← hb.cfg]; exact hb.own.2)
  · exact h'

theorem tick_inv {op : OP E S} (h : C.OInv op) : M.Sat OP.tick op (fun _ => C.OInv) C.OBad := by
  unfold OP.tick
  rw [M.sat_bind, M.sat_get, M.sat_bind, M.sat_upd, M.sat_bind, M.sat_whenDo]
  have rest : ∀ op1 : OP E S, C.OInv op1 → M.Sat (do
      M.upd fun s => { s with resend_message_clock := s.resend_message_clock.tick_and_check_timeout.2 }
      M.whenDo (op.resend_message_clock.tick_and_check_timeout.1 = true) (OP.onSP SP.resend_message_timeout)
      M.upd fun s => { s with flush_batch_clock := s.flush_batch_clock.tick_and_check_timeout.2 }
      M.whenDo (op.flush_batch_clock.tick_and_check_timeout.1 = true) (OP.onSP SP.flush_batch_timeout)) op1
      (fun _ => C.OInv) C.OBad := by
    intro op1 h1
    rw [M.sat_bind, M.sat_upd, M.sat_bind, M.sat_whenDo]
    have rest2 : ∀ op2 : OP E S, C.OInv op2 → M.Sat (do
      M.upd fun s => { s with flush_batch_clock := s.flush_batch_clock.tick_and_check_timeout.2 }
      M.whenDo (op.flush_batch_clock.tick_and_check_timeout.1 = true) (OP.onSP SP.flush_batch_timeout)) op2
      (fun _ => C.OInv) C.OBad := by
      intro op2 h2
      rw [M.sat_bind, M.sat_upd, M.sat_whenDo]
      exact ⟨fun _ => onSP_inv ⟨h2.sp, h2.ble⟩ (flush_batch_timeout_inv h2.sp), fun _ => ⟨h2.sp, h2.ble⟩⟩
    exact ⟨fun _ => M.sat_mono (onSP_inv ⟨h1.sp, h1.ble⟩ (resend_message_timeout_inv h1.sp)) (fun _ op2 h2 => rest2 op2 h2) fun _ h => h,
      fun _ => rest2 _ ⟨h1.sp, h1.ble⟩⟩
  exact ⟨fun _ => M.sat_mono (election_timeout_inv ⟨h.sp, h.ble⟩) (fun _ op1 h1 => rest op1 h1) fun _ h => h,
      fun _ => rest _ ⟨h.sp, h.ble⟩⟩

/-- Every API call keeps the invariant. -/
theorem call_inv [SnapOps E S] {op : OP E S} (h : C.OInv op) (c : Call E S) (hc : c.isIncoming = false)
    (hk : ∀ e, c = .append e → C.Slack [e] op.sp) :
    M.Sat c.run op (fun _ => C.OInv) C.OBad := by
  cases c with
  | append e => exact drop_inv (onSP_inv h (append_inv (hk e rfl)))
  | reconfigure c md =>
    refine drop_inv ?_
    unfold OP.reconfigure
    split
    · exact h
    · exact onSP_inv h (reconfigure_inv h.sp c md)
  | tick => exact tick_inv h
  | tryBecomeLeader =>
    simp only [Call.run, OP.try_become_leader]
    rw [M.sat_bind, M.sat_get]
    exact leader_inv h (by rw [← h.ble.pid]; exact h.ble.own.1) (by rw [← h.ble.cfg]; exact h.ble.own.2)
  | setPriority p => exact ⟨h.sp, h.ble.own, h.ble.pid, h.ble.cfg⟩
  | reconnected pid => exact onSP_inv h (reconnected_inv h.sp pid)
  | trim idx => exact drop_inv (onSP_inv h (trim_inv h.sp idx))
  | snapshot idx l => exact drop_inv (onSP_inv h (snapshot_inv h.sp idx l))
  | handleIncoming m => simp [Call.isIncoming] at hc

/-- A message of the election protocol arrives. -/
theorem ble_inv [SnapOps E S] {op : OP E S} (h : C.OInv op) (m : BLEMessage) :
    M.Sat (Call.run (.handleIncoming (.ble m) : Call E S)) op (fun _ => C.OInv) C.OBad := by
  have := BLE.handle_fields op.ble m
  refine ⟨h.sp, ⟨?_, ?_⟩, ?_, ?_⟩
  · show (op.ble.handle m).current_ballot.pid = (op.ble.handle m).pid
    rw [this.1, this.2.1]; exact h.ble.own.1
  · show (op.ble.handle m).current_ballot.config_id = (op.ble.handle m).configuration_id
    rw [this.1, this.2.2]; exact h.ble.own.2
  · show (op.ble.handle m).pid = _
    rw [this.2.1]; exact h.ble.pid
  · show (op.ble.handle m).configuration_id = _
    rw [this.2.2]; exact h.ble.cfg

/-- A message of the replication protocol arrives. -/
theorem paxos_inv [SnapOps E S] {op : OP E S} {G : Ghost E} (hR : C.Reach G) (hN : NodeInv C.cc C.i C.pre G op.sp)
    (hT : C.Trail op.sp) (hb : BleOK C.cc C.i op.ble) {m : PaxosMessage E S} (hm : MsgOK C.cc G m) (hd : m.dst = C.i)
    (hall : ∀ n q, m.msg.Moves n (G.curg n C.i) q → C.allow n q) (hg : Guard C G op.sp m)
    (hk : ∀ es, m.msg = .proposalForward es → op.sp.tok G.mark + G.count es ≤ G.hold C.i) :
    M.Sat (Call.run (.handleIncoming (.paxos m) : Call E S)) op (fun _ => C.OInv) C.OBad := by
  obtain ⟨lg, hC, hr⟩ := id hN
  exact onSP_inv ⟨⟨G, hR, hN, hT⟩, hb⟩ (handle_inv hR hC hr hT hm hd hall hg hk)

end Ctx

/-! ### Between calls -/

section between
variable {cc : ClusterConfig} {i : NodeId} {pre pre' : NodeId → List (PaxosMessage E S)} {G : Ghost E}

theorem NodeInv.clear {op : OP E S} (h : NodeInv cc i pre G op.sp) : NodeInv cc i pre G op.clearTrail.sp := by
  obtain ⟨lg, hC, hr⟩ := h
  refine ⟨lg, ⟨hC.pid, hC.node, hC.peers, hC.quorum, hC.maxpid, hC.lenA, hC.disk, ⟨hC.mir.prom, hC.mir.acc, hC.mir.dec, hC.mir.comp, hC.mir.trim, hC.mir.ss⟩, hC.idx, hC.src, hC.dst, hC.out, hC.lam, hC.tok⟩, ?_⟩
  exact hr.map rfl rfl
    (fun hr => { ldr := hr.ldr, own := hr.own, noacc := hr.noacc, batch := hr.batch, self := hr.self, seqs := hr.seqs, metas := hr.metas, accs := hr.accs, max := hr.max })
    (fun hr => { ldr := hr.ldr, own := hr.own, acc := hr.acc, batch := hr.batch, max := hr.max, prom := hr.prom, ends := hr.ends, cur := hr.cur, link := hr.link, mets := hr.mets, dead := hr.dead, accs := hr.accs })
    (fun hr => ⟨hr.batch, hr.prep, hr.accept, hr.live⟩)

/-- Handing the outgoing messages to the network. -/
theorem NodeInv.take {s : SP E S} (h : NodeInv cc i pre G s) :
    NodeInv cc i (fun j => pre j ++ s.outgoing.filter fun m => decide (m.dst = j)) G (s.take_outgoing_msgs []).2 := by
  obtain ⟨lg, hC, hr⟩ := h
  have hsub : ∀ j, (pre j ++ s.outgoing.filter fun m => decide (m.dst = j)).Sublist (pre j ++ s.outgoing) := fun j =>
    (List.Sublist.refl _).append List.filter_sublist
  refine ⟨lg, ⟨hC.pid, hC.node, hC.peers, hC.quorum, hC.maxpid, hC.lenA, hC.disk, hC.mir, hC.idx, ?_, ?_, ?_, ?_, ?_⟩, ?_⟩
  · intro j m hm
    simp only [SP.take_outgoing_msgs, List.append_nil] at hm
    exact hC.src j m ((hsub j).subset hm)
  · intro j m hm
    rcases List.mem_append.1 hm with hm | hm
    · exact hC.dst j m hm
    · simpa using (List.mem_filter.1 hm).2
  · intro j
    simp only [SP.take_outgoing_msgs, List.append_nil]
    exact (hC.out j).take _
  · intro b k hk
    simp [SP.take_outgoing_msgs] at hk
  · have := hC.tok
    have h1 : (s.take_outgoing_msgs []).2.own G.mark = s.own G.mark := rfl
    simp only [SP.tok, h1] at *
    simp only [SP.take_outgoing_msgs, fwds_nil]
    omega
  · unfold RoleInv at *
    show match s.role, s.phase with
      | .leader, .prepare => LeadPrep cc i G (s.take_outgoing_msgs []).2 lg
      | .leader, .accept => LeadAcc cc i _ (fun _ => some lg) G (s.take_outgoing_msgs []).2 lg
      | .leader, _ => False
      | .follower, _ => FolInv cc i G (s.take_outgoing_msgs []).2 lg
    cases hro : s.role <;> cases hp : s.phase <;> rw [hro, hp] at hr <;> simp only at hr ⊢
    all_goals first
      | exact hr.elim
      | exact ⟨hr.batch, hr.prep, hr.accept, hr.live⟩
      | exact ⟨hr.ldr, hr.own, hr.noacc, hr.batch, hr.self, hr.seqs, fun F r h => slot_replicate h, hr.accs, hr.max⟩
      | skip
    refine ⟨hr.ldr, hr.own, hr.acc, hr.batch, hr.max, hr.prom, hr.ends, hr.cur, ?_, ?_, hr.dead, hr.accs⟩
    · intro j m hm
      simp only [SP.take_outgoing_msgs, List.append_nil] at hm
      exact hr.link j m ((hsub j).subset hm)
    · intro F b k hk
      have := slot_replicate hk
      simp at this

theorem foldl_max_ge' (l : List Nat) (a : Nat) : a ≤ l.foldl max a ∧ ∀ x ∈ l, x ≤ l.foldl max a := by
  induction l generalizing a with
  | nil => simp
  | cons y l ih =>
    simp only [List.foldl_cons, List.mem_cons, forall_eq_or_imp]
    have := ih (max a y)
    exact ⟨by omega, by omega, this.2⟩

theorem SP.maxPid_ge {pid : NodeId} {ps : List NodeId} {mp : Nat} (h : SP.maxPid pid ps = some mp) :
    pid ≤ mp ∧ ∀ p ∈ ps, p ≤ mp := by
  cases ps with
  | nil => simp [SP.maxPid] at h
  | cons p ps =>
    simp only [SP.maxPid, Option.some.injEq] at h
    have := foldl_max_ge' ps p
    subst h
    refine ⟨Nat.le_max_right _ _, fun x hx => Nat.le_trans ?_ (Nat.le_max_left _ _)⟩
    rcases List.mem_cons.1 hx with rfl | hx
    · exact this.1
    · exact this.2 x hx

/-- A server that is down. -/
structure DownInv (cc : ClusterConfig) (i : NodeId) (pre : NodeId → List (PaxosMessage E S)) (G : Ghost E) (d : Mem E S) : Prop where
  disk : ∃ lg, DiskInv cc i G d lg
  src : ∀ j, ∀ m ∈ pre j, m.src = i ∧ m.dst = j
  out : ∀ j, LinkOK cc G (pre j) []

theorem DownInv.build {cfg : ServerConfig} {d : Mem E S} {op : OP E S} (h : DownInv cc cfg.pid pre G d)
    (hb : OP.build { cluster_config := cc, server_config := cfg } d = some (.ok op)) :
    cc.validate = .ok () ∧ NodeInv cc cfg.pid pre G op.sp ∧ BleOK cc cfg.pid op.ble := by
  have hval : (OmniPaxosConfig.validate { cluster_config := cc, server_config := cfg }) = .ok () := by
    unfold OP.build at hb
    split at hb
    · simp at hb
    · assumption
  obtain ⟨hv, hn⟩ : cc.validate = .ok () ∧ Node cc cfg.pid := by
    unfold OmniPaxosConfig.validate at hval
    split at hval
    · simp at hval
    · rename_i h1
      split at hval
      · simp at hval
      · rename_i h2
        split at hval
        · simp at hval
        · rename_i h3
          refine ⟨h1, by simpa using h3, ?_⟩
          intro h0
          unfold ServerConfig.validate at h2
          simp [h0] at h2
  refine ⟨hv, ?_⟩
  obtain ⟨mp, hmp, rfl⟩ := OP.build_eq hb
  simp only at hmp
  have hge := SP.maxPid_ge hmp
  obtain ⟨lg, hD⟩ := h.disk
  have hD' : DiskInv cc cfg.pid G { d with n_prom := some (d.n_prom.getD {}) } lg :=
    ⟨hD.acc, hD.log, hD.trim, hD.ss, hD.cov, hD.dec, hD.snap, hD.le, hD.good, hD.accMax, hD.precMax, hD.precCur⟩
  constructor
  · refine ⟨lg, ?_, ?_⟩
    · have hpl : ∀ m ∈ (match d.n_prom with
                  | some b => (SP.peersOf cc.nodes cfg.pid).map fun p =>
                      ({ src := cfg.pid, dst := p, msg := .prepareReq b } : PaxosMessage E S)
                  | none => []), Plain cc cfg.pid G m := by
        intro m hm
        split at hm
        · obtain ⟨p, hp, rfl⟩ := List.mem_map.1 hm
          refine ⟨rfl, ?_, rfl, trivial, fun _ => rfl⟩
          simp [SP.peersOf] at hp
          exact hp.2
        · simp at hm
      refine Core.sends (s := { ist := _, pid := _, peers := _, role := _, phase := _, buffered_proposals := _, buffered_stopsign := _, outgoing := [], ls := _, latest_accepted_meta := _, current_seq_num := _, cached_promise := _ }) ?_ hpl
      refine ⟨rfl, hn, rfl, rfl, ?_, ?_, hD', ⟨rfl, rfl, rfl, rfl, hD.trim, rfl⟩, ?_, ?_, ?_, ?_, ?_, Nat.zero_le _⟩
      · intro j hj
        by_cases hji : j = cfg.pid
        · rw [hji]; exact hge.1
        · exact hge.2 j (by simp [SP.peersOf, hj, hji])
      · simp [LeaderState.with]
      · show lg.IdxOK (d.log.length + d.compacted_idx + if d.stopsign.isSome then 1 else 0)
        rw [hD.ss, hD.log, List.length_drop]
        refine ⟨fun hs => ?_, fun hs => ?_⟩
        · rw [hs]
          rcases hD.cov with hc | hc
          · simp; omega
          · exact absurd hs hc
        · rw [if_pos (Option.isSome_iff_ne_none.2 hs)]; omega
      · intro j m hm
        simp only [List.append_nil] at hm
        exact (h.src j m hm).1
      · intro j m hm
        exact (h.src j m hm).2
      · intro j
        simp only [List.append_nil]
        exact h.out j
      · intro b k hk
        simp at hk
    · unfold RoleInv
      simp only
      refine ⟨.inl rfl, ?_, ?_, ?_⟩
      · intro hp
        simp only at hp
        split at hp <;> simp at hp
      · intro hp
        simp only at hp
        split at hp <;> simp at hp
      · intro hp
        simp only at hp
        split at hp <;> simp at hp
  · refine ⟨⟨?_, ?_⟩, ?_, ?_⟩ <;> simp only [BLE.with, BLE.new_hb_round] <;> split <;> (try split) <;> rfl

end between
end Omni
