import Verif.Proof.Progress.Resync
import Verif.Props.CatchUp
/-
Property C49 (properties.jsonl): a follower that reconnects or restarts is brought up to date by the leader. (Without either it may
stay behind for ever, see C47.)
-/
namespace Omni

variable {E S : Type} [SnapOps E S]

/-- **C49** for a follower that reconnects (full claim: also after compaction and with snapshots in use, after a reconfiguration, and
with other messages on the way). In every state that tidy runs reach without `trim`, `snapshot` and `reconfigure`, let `L` be a leader
in the accept phase and `F` another running server that has not promised a larger ballot, and let nothing be on the way between the
two or wait to be sent. Whatever `F` has missed: after `reconnected` at `F`, two messages in each direction bring it up to date. -/
theorem C49_reconnected_partial (hu : SnapOps.use_snapshots E S = false) (cc : ClusterConfig) (h0 : 0 ∉ cc.nodes) (c : Cluster E S)
    (h : c.PlainReachable cc) {L F : NodeId} (hne : L ≠ F) {opL opF : OP E S} (hL : c.servers L = .up opL) (hF : c.servers F = .up opF)
    (hrole : opL.sp.role = .leader) (hphase : opL.sp.phase = .accept) (hp : opF.get_promise ≤ opL.get_promise)
    (hLF : c.net L F = []) (hFL : c.net F L = []) (hoL : opL.sp.outgoing = [] ∧ opL.ble.outgoing = [])
    (hoF : opF.sp.outgoing = [] ∧ opF.ble.outgoing = []) :
    ∃ c', c.TidyRun cc (reconnectRun F L) ∧ c.run cc (reconnectRun F L) = some c' ∧ SyncedWith L F opL c' := by
  obtain ⟨l1, l2, -, -, l3⟩ := h.leader hL hrole hphase
  have hT : Two cc F L opF opL [] [] c := ⟨h, hne.symm, hF, hL, hFL, hLF⟩
  have pidF := (h.good hu h0 hF).pid
  have pidL := (h.good hu h0 hL).pid
  -- reconnected
  obtain ⟨c1, op1, d1, h1, sp1, rfl, e1, e2, e3⟩ := hT.call hu h0 (call := .reconnected L) trivial rfl
    (Q := fun _ op' => ∃ sp', op' = { opF with sp := sp' } ∧
      sp'.outgoing = [{ src := F, dst := L, msg := .prepareReq opF.sp.ist.cache.promise }] ∧
      sp'.ist.cache.promise = opF.sp.ist.cache.promise ∧ (L = opF.sp.ist.cache.promise.pid → sp'.phase = .recover)) (by
    simp only [Does, Call.run, OP.reconnected, OP.sat_onSP]
    refine M.sat_mono (SP.does_reconnected (s := opF.clearTrail.sp) (by show L ≠ opF.sp.pid; rw [pidF]; exact hne))
      (fun _ t ht => ⟨t, rfl, ?_, ht.2.1, ht.2.2⟩) fun _ h => h
    rw [ht.1]
    simp only [OP.clearTrail, hoF.1, pidF, List.nil_append])
  -- PrepareReq
  obtain ⟨c2, d2, h2⟩ := h1.take
  simp only [e1, hoF.2, List.filter_cons, decide_true, if_true, List.filter_nil, List.map_cons, List.map_nil, List.nil_append,
    List.append_nil] at h2
  obtain ⟨c3, sp3, d3, h3, r1, r2, r3, r4, p, r5, r6⟩ := h2.deliver hu h0
    (m := { src := F, dst := L, msg := .prepareReq opF.sp.ist.cache.promise }) hoL.1
    (SP.does_preparereq (s := opL.clearTrail.sp) (F := F) hrole (by show _ ≤ opL.sp.ls.n_leader; rw [l1]; exact hp))
  -- the rest
  obtain ⟨c4, opL', opF', d4, h4, q1, q2, q3, q4, -, q5, q6, q7, q8⟩ := h3.symm.sync hu h0 (p := p) (rs := []) (r1.trans hrole)
    (r2.trans hphase) (by simp only [r6, OP.clearTrail, hoL.1, pidL, List.nil_append]) (r5.trans r4.symm) hoL.2 nofun rfl rfl (by
      simp only [r4, OP.take_outgoing_messages, SP.take_outgoing_msgs, OP.clearTrail, e2]
      by_cases hlt : opF.sp.ist.cache.promise < opL.sp.ls.n_leader
      · exact .inl hlt
      · right
        obtain ⟨G, hG⟩ := reach_one h.reachable
        obtain ⟨-, lg, hC, -⟩ := hG.up hF
        have : opF.sp.ist.cache.promise = opL.sp.ist.cache.promise :=
          Ballot.eq_of_le_of_le (hC.mir.prom ▸ hC.disk.good) l3 hp (Ballot.not_lt.1 (l1 ▸ hlt))
        exact ⟨this.trans l1.symm, e3 (by rw [this, ← l1, l2])⟩)
  have r3c : sp3.ist.cache = opL.sp.ist.cache := by rw [r3]; rfl
  have r3s : sp3.ist.storage = opL.sp.ist.storage := by rw [r3]; rfl
  have hall := (d1.trans d2).trans (d3.trans d4)
  exact ⟨c4, Two.synced hu h0 l1 hall h4 q1 q2 (q3.trans r3c) (q4.trans r3s) q5 (q6.trans r4)
    (q7.trans (by rw [r3c])) (by rw [← r3c]; exact q8)⟩

/-- **C49** for a follower that restarts (full claim: as above). `F` is down; its storage has a promise, not larger than the ballot of
the leader `L`. Whatever `F` has missed: after it is started, two messages in each direction (and a heartbeat) bring it up to date. -/
theorem C49_restarted_partial (hu : SnapOps.use_snapshots E S = false) (cc : ClusterConfig) (h0 : 0 ∉ cc.nodes) (hd : cc.nodes.Nodup)
    (c : Cluster E S) (h : c.PlainReachable cc) {L F : NodeId} (hne : L ≠ F) (hmem : F ∈ cc.nodes) {opL : OP E S}
    (hL : c.servers L = .up opL) {d : Mem E S} (hF : c.servers F = .down d) (hrole : opL.sp.role = .leader)
    (hphase : opL.sp.phase = .accept) {b : Ballot} (hb : d.n_prom = some b) (hp : b ≤ opL.get_promise)
    (hLF : c.net L F = []) (hFL : c.net F L = []) (hoL : opL.sp.outgoing = [] ∧ opL.ble.outgoing = [])
    {sc : ServerConfig} (hsc : sc.pid = F) (hv : sc.validate = .ok ()) :
    ∃ c', c.TidyRun cc (restartRun F L sc) ∧ c.run cc (restartRun F L sc) = some c' ∧ SyncedWith L F opL c' := by
  obtain ⟨l1, l2, lm, lv, l3⟩ := h.leader hL hrole hphase
  have pidL := (h.good hu h0 hL).pid
  obtain ⟨opF, hbuild⟩ := (C45_build { cluster_config := cc, server_config := sc } d).1.2
    ⟨lv, hv, by rw [hsc]; exact hmem, L, lm, by rw [hsc]; exact hne⟩
  have hd1 : Does' cc c [.start F sc] (c.setServer F (.up opF)) :=
    Does'.one trivial (by simp only [Cluster.step, hF, hsc, if_true, hbuild])
  have hT : Two cc F L opF opL [] [] (c.setServer F (.up opF)) :=
    ⟨h.does hd1 (by simp [Action.Only]), hne.symm, Cluster.setServer_self .., by rw [Cluster.setServer_other hne]; exact hL, hFL, hLF⟩
  have hpeer : L ∈ SP.peersOf cc.nodes F := by simp [SP.peersOf, lm, hne]
  have hpd : (SP.peersOf cc.nodes F).Nodup := hd.filter _
  -- what the new server looks like
  have hop : (opF.sp.outgoing = (SP.peersOf cc.nodes F).map fun p => { src := F, dst := p, msg := .prepareReq b }) ∧
      (∃ k, opF.ble.outgoing = (SP.peersOf cc.nodes F).map fun p => { src := F, dst := p, msg := .request k }) ∧
      opF.sp.ist.cache.promise = b ∧ opF.sp.phase = .recover := by
    unfold OP.build at hbuild
    split at hbuild
    · cases hbuild
    · simp only at hbuild
      split at hbuild
      · cases hbuild
      · rename_i sp hsp
        simp only [Option.some.injEq, Except.ok.injEq] at hbuild
        subst hbuild
        unfold SP.with at hsp
        split at hsp
        · cases hsp
        · simp only [Option.some.injEq] at hsp
          subst hsp
          simp only [hb, hsc, Option.isSome_some, if_true, Option.getD_some]
          refine ⟨trivial, ?_, trivial, trivial⟩
          unfold BLE.with
          simp only
          split <;> exact ⟨_, rfl⟩
  obtain ⟨o1, ⟨k, o2⟩, o3, o4⟩ := hop
  -- PrepareReq and the heartbeat
  obtain ⟨c2, d2, h2⟩ := hT.take
  rw [o1, o2, filter_dst (fun _ => rfl) hpd hpeer, filter_dst (fun _ => rfl) hpd hpeer] at h2
  simp only [List.map_cons, List.map_nil, List.nil_append, List.singleton_append] at h2
  obtain ⟨c3, sp3, d3, h3, r1, r2, r3, r4, p, r5, r6⟩ := h2.deliver hu h0
    (m := { src := F, dst := L, msg := .prepareReq b }) hoL.1
    (SP.does_preparereq (s := opL.clearTrail.sp) (F := F) hrole (by show _ ≤ opL.sp.ls.n_leader; rw [l1]; exact hp))
  obtain ⟨c3', d3', h3'⟩ := h3.deliver_ble
  -- the rest
  obtain ⟨c4, opL', opF', d4, h4, q1, q2, q3, q4, -, q5, q6, q7, q8⟩ := h3'.symm.sync hu h0 (p := p) (rs := [_]) (r1.trans hrole)
    (r2.trans hphase) (by simp only [OP.clearTrail]; rw [r6]; simp only [OP.clearTrail, hoL.1, pidL, List.nil_append]) (r5.trans r4.symm)
    (by simp only [BLE.handle, BLE.handle_request, hoL.2, List.nil_append]; rfl) (by simp) rfl rfl (by
      simp only [r4, OP.take_outgoing_messages, SP.take_outgoing_msgs, OP.clearTrail, o3, o4]
      by_cases hlt : b < opL.sp.ls.n_leader
      · exact .inl hlt
      · right
        obtain ⟨G, hG⟩ := reach_one hT.reach.reachable
        obtain ⟨-, lg, hC, -⟩ := hG.up hT.a
        have hg := hC.disk.good
        rw [← hC.mir.prom, o3] at hg
        exact ⟨(Ballot.eq_of_le_of_le hg l3 hp (Ballot.not_lt.1 (l1 ▸ hlt))).trans l1.symm, trivial⟩)
  have r3c : sp3.ist.cache = opL.sp.ist.cache := by rw [r3]; rfl
  have r3s : sp3.ist.storage = opL.sp.ist.storage := by rw [r3]; rfl
  have hall := (hd1.trans d2).trans ((d3.trans d3').trans d4)
  refine ⟨c4, Two.synced hu h0 l1 hall h4 q1 q2 (q3.trans r3c) (q4.trans r3s) q5 (q6.trans r4)
    (q7.trans ?_) ?_⟩
  · show sp3.ist.cache.decided_idx = _
    rw [r3c]
  · rw [← r3c]; exact q8

section sample
attribute [local instance] Sample.noSync
open Sample

/-- Executable form of the conditions in the examples. -/
def plainB (as : List A) : Bool := as.all fun a => match a with
  | .call _ (.trim _) | .call _ (.snapshot _ _) | .call _ (.reconfigure _ _) | .crashCall _ _ _ => false
  | _ => true

theorem plainB_sound {as : List A} (h : plainB as = true) : ∀ a ∈ as, a.Only Call.Plain := by
  intro a ha
  have := List.all_eq_true.1 h a ha
  cases a with
  | call i k => cases k <;> first | trivial | simp at this
  | crashCall i k n => simp at this
  | _ => trivial

/-- Concrete case: the state after `lostRun` (F16). Server 3 has not heard of the decision and is not told; `reconnected` helps. -/
example : ∃ c c' : C, ∃ opL opF, c.PlainReachable cc ∧ c.servers 2 = .up opL ∧ c.servers 3 = .up opF ∧
    opL.get_decided_idx = 1 ∧ opF.get_decided_idx = 0 ∧ c.run cc (reconnectRun 3 2) = some c' ∧ SyncedWith 2 3 opL c' := by
  have hr : Cluster.init.drainedB cc lostRun = true := by decide +kernel
  have hc : ((Cluster.init.run cc lostRun).map fun c => quietB c && onUp c 2 fun opL => onUp c 3 fun opF =>
      opL.get_decided_idx = 1 && opL.sp.role = .leader && opL.sp.phase = .accept && opF.get_decided_idx = 0 &&
      opF.get_promise ≤ opL.get_promise) = some true := by decide +kernel
  cases hs : (Cluster.init : C).run cc lostRun with
  | none => rw [hs] at hc; simp at hc
  | some c =>
    rw [hs] at hc
    simp only [Option.map_some, Option.some.injEq, Bool.and_eq_true] at hc
    obtain ⟨hq, hc⟩ := hc
    obtain ⟨opL, h1, hc⟩ := onUp_elim hc
    obtain ⟨opF, h2, hc⟩ := onUp_elim hc
    simp only [Bool.and_eq_true, decide_eq_true_eq] at hc
    obtain ⟨⟨⟨⟨g1, g2⟩, g3⟩, g4⟩, g5⟩ := hc
    simp only [quietB, Bool.and_eq_true, List.all_eq_true, List.isEmpty_iff] at hq
    have hp : c.PlainReachable cc := ⟨_, (Cluster.drainedB_sound hr).tidy, plainB_sound (by decide +kernel), hs⟩
    have q2 := hq.1 2 (by decide)
    have q3 := hq.1 3 (by decide)
    simp only [onUp, h1, Bool.and_eq_true, List.isEmpty_iff] at q2
    simp only [onUp, h2, Bool.and_eq_true, List.isEmpty_iff] at q3
    obtain ⟨c', -, e1, e2⟩ := C49_reconnected_partial rfl cc (by decide) c hp (by decide) h1 h2 g2 g3 g5
      (hq.2 2 (by decide) 3 (by decide)) (hq.2 3 (by decide) 2 (by decide)) q2 q3
    exact ⟨c, c', opL, opF, hp, h1, h2, g1, g4, e1, e2⟩

/-- Concrete case: the same, but server 3 is restarted. -/
example : ∃ c c' : C, ∃ opL d, c.PlainReachable cc ∧ c.servers 2 = .up opL ∧ c.servers 3 = .down d ∧
    opL.get_decided_idx = 1 ∧ d.ld = 0 ∧ c.run cc (restartRun 3 2 (sc1 3)) = some c' ∧ SyncedWith 2 3 opL c' := by
  have hr : Cluster.init.drainedB cc (lostRun ++ [.crash 3]) = true := by decide +kernel
  have hc : ((Cluster.init.run cc (lostRun ++ [.crash 3])).map fun c => onUp c 2 fun opL =>
      opL.get_decided_idx = 1 && opL.sp.role = .leader && opL.sp.phase = .accept && (c.net 2 3).isEmpty && (c.net 3 2).isEmpty &&
      opL.sp.outgoing.isEmpty && opL.ble.outgoing.isEmpty && (match c.servers 3 with
        | .up _ => false
        | .down d => d.ld = 0 && (match d.n_prom with
          | none => false
          | some b => b ≤ opL.get_promise))) = some true := by decide +kernel
  cases hs : (Cluster.init : C).run cc (lostRun ++ [.crash 3]) with
  | none => rw [hs] at hc; simp at hc
  | some c =>
    rw [hs] at hc
    simp only [Option.map_some, Option.some.injEq] at hc
    obtain ⟨opL, h1, hc⟩ := onUp_elim hc
    simp only [Bool.and_eq_true, decide_eq_true_eq, List.isEmpty_iff] at hc
    obtain ⟨⟨⟨⟨⟨⟨⟨g1, g2⟩, g3⟩, g4⟩, g5⟩, g6⟩, g7⟩, hc⟩ := hc
    split at hc
    · simp at hc
    · rename_i d h2
      simp only [Bool.and_eq_true, decide_eq_true_eq] at hc
      obtain ⟨g8, hc⟩ := hc
      split at hc
      · simp at hc
      · rename_i b hb
        have hp : c.PlainReachable cc := ⟨_, (Cluster.drainedB_sound hr).tidy, plainB_sound (by decide +kernel), hs⟩
        obtain ⟨c', -, e1, e2⟩ := C49_restarted_partial rfl cc (by decide) (by decide) c hp (by decide) (by decide) h1 h2 g2 g3 hb
          (by simpa using hc) g4 g5 ⟨g6, g7⟩ (sc := sc1 3) rfl (by decide)
        exact ⟨c, c', opL, d, hp, h1, h2, g1, g8, e1, e2⟩

end sample

end Omni
