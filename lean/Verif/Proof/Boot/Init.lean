import Verif.Proof.Boot.Pulse
import Verif.Proof.NoPanicRun
import Verif.Spec.Boot
/-
From the start of a cluster to steady operation: the start.
-/
namespace Omni

variable {E S : Type} [SnapOps E S] {cc : ClusterConfig} {cfg : NodeId → ServerConfig} {f : Nat} {l i : NodeId} {c c' : Cluster E S}

/-- Starting servers that are down. -/
theorem run_starts : ∀ {order : List NodeId} {c c' : Cluster E S}, c.run cc (order.map fun i => .start i (cfg i)) = some c' →
    c'.net = c.net ∧ ∀ i, (i ∉ order → c'.servers i = c.servers i) ∧
      (i ∈ order → ∃ d op, c.servers i = .down d ∧ (cfg i).pid = i ∧ OP.build { cluster_config := cc, server_config := cfg i } d = some (.ok op) ∧ c'.servers i = .up op) := by
  intro order
  induction order with
  | nil => intro c c' h; cases h; exact ⟨rfl, fun i => ⟨fun _ => rfl, nofun⟩⟩
  | cons k order ih =>
    intro c c' h
    simp only [List.map_cons, Cluster.run] at h
    cases hs : c.step cc (.start k (cfg k)) with
    | none => rw [hs] at h; cases h
    | some c1 =>
      rw [hs] at h
      obtain ⟨h1, h2⟩ := ih h
      simp only [Cluster.step] at hs
      cases hk : c.servers k with
      | up op => rw [hk] at hs; cases hs
      | down d =>
        simp only [hk] at hs
        by_cases hp : (cfg k).pid = k
        · rw [if_pos hp] at hs
          cases hb : OP.build { cluster_config := cc, server_config := cfg k } d with
          | none => rw [hb] at hs; cases hs
          | some r =>
            cases r with
            | error e => rw [hb] at hs; cases hs
            | ok op =>
              rw [hb] at hs
              simp only [Option.some.injEq] at hs
              subst hs
              refine ⟨h1, fun i => ⟨fun hi => ?_, fun hi => ?_⟩⟩
              · rw [(h2 i).1 fun h => hi (List.mem_cons_of_mem _ h), Cluster.setServer_other (fun e : i = k => hi (e ▸ List.mem_cons_self))]
              · by_cases hio : i ∈ order
                · obtain ⟨d', op', e1, e2⟩ := (h2 i).2 hio
                  by_cases hik : i = k
                  · subst hik
                    rw [Cluster.setServer_self] at e1
                    cases e1
                  · rw [Cluster.setServer_other hik] at e1
                    exact ⟨d', op', e1, e2⟩
                · have hik : i = k := (List.mem_cons.1 hi).resolve_right hio
                  subst hik
                  exact ⟨d, op, hk, hp, hb, by rw [(h2 i).1 hio, Cluster.setServer_self]⟩
        · rw [if_neg hp] at hs; cases hs

omit [SnapOps E S] in
/-- A server built on an empty storage. -/
theorem build_empty {op : OP E S} (hv : cc.validate = .ok ()) (hp : (cfg i).pid = i) (hb : OP.build { cluster_config := cc, server_config := cfg i } {} = some (.ok op)) :
    i ≠ 0 ∧ ∃ mp, SP.maxPid i (SP.peersOf cc.nodes i) = some mp ∧ SP.with i (SP.peersOf cc.nodes i) (cfg i).batch_size cc.flexible_quorum ({} : Mem E S) = some op.sp ∧
      op.ble = BLE.with cc.configuration_id i (SP.peersOf cc.nodes i) (cfg i).leader_priority cc.flexible_quorum none ∧
      op.election_clock = LogicalClock.with (cfg i).election_tick_timeout ∧ op.resend_message_clock = LogicalClock.with (cfg i).resend_message_tick_timeout ∧
      op.flush_batch_clock = LogicalClock.with (cfg i).flush_batch_tick_timeout := by
  unfold OP.build at hb
  split at hb
  · cases hb
  · rename_i h1
    simp only [hp] at hb
    unfold OmniPaxosConfig.validate at h1
    simp only [hv] at h1
    have h0 : i ≠ 0 := by
      rintro rfl
      unfold ServerConfig.validate at h1
      rw [hp] at h1
      simp at h1
    refine ⟨h0, ?_⟩
    cases hs : SP.with i (SP.peersOf cc.nodes i) (cfg i).batch_size cc.flexible_quorum ({} : Mem E S) with
    | none => rw [hs] at hb; cases hb
    | some sp =>
      rw [hs] at hb
      cases hm : SP.maxPid i (SP.peersOf cc.nodes i) with
      | none => simp [SP.with, hm] at hs
      | some mp =>
        cases hb
        exact ⟨mp, rfl, rfl, rfl, rfl, rfl, rfl⟩

omit [SnapOps E S] in
/-- Its Sequence Paxos. -/
theorem with_unled {sp : SP E S} {bs : Nat} {mp : Nat} (hnd : cc.nodes.Nodup) (hi : i ∈ cc.nodes) (h0 : ∀ j ∈ cc.nodes, j ≠ 0) (hm : SP.maxPid i (SP.peersOf cc.nodes i) = some mp)
    (h : SP.with i (SP.peersOf cc.nodes i) bs cc.flexible_quorum ({} : Mem E S) = some sp) : Unled cc i sp ∧ sp.buffered_proposals = [] := by
  unfold SP.with at h
  rw [hm] at h
  simp only [Option.some.injEq] at h
  subst h
  have hl : (SP.peersOf cc.nodes i).length + 1 = cc.nodes.length := length_filter_ne hnd hi
  refine ⟨⟨rfl, rfl, rfl, rfl, ?_, rfl, fun j hj => ⟨h0 j hj, ?_⟩, rfl, rfl, ⟨⟨rfl, rfl, rfl, rfl, rfl, rfl, rfl, rfl, rfl, rfl, rfl⟩, rfl⟩, rfl⟩, rfl⟩
  · show Quorum.with _ _ = _
    rw [hl]
  · show j ≤ mp
    obtain ⟨_, h1, h2⟩ := maxPid_spec hm
    by_cases e : j = i
    · exact e ▸ h1
    · exact h2 j (List.mem_filter.2 ⟨hj, by simpa using e⟩)

/-- Its election component. -/
theorem with_tied (hF : Favours cc cfg f l) (hnd : cc.nodes.Nodup) (hi : i ∈ cc.nodes) :
    (BLE.with cc.configuration_id i (SP.peersOf cc.nodes i) (cfg i).leader_priority cc.flexible_quorum none).Tied
      (fun j r => r.Weak cc.configuration_id (firstBallot cc cfg l) j) cc i := by
  have hl : (SP.peersOf cc.nodes i).length + 1 = cc.nodes.length := length_filter_ne hnd hi
  refine ⟨rfl, rfl, rfl, ?_, ?_, nofun, fun m hm => ?_⟩
  · show Quorum.with _ _ = _
    rw [hl]
  · have hle : firstBallot cc cfg i ≤ firstBallot cc cfg l := by
      by_cases e : i = l
      · rw [e]; exact Ballot.le_refl _
      · have := hF.greatest i hi e
        rw [Ballot.le_iff, Ballot.lt_iff]
        simp only [firstBallot]
        omega
    exact ⟨rfl, rfl, hle, fun e => by cases e; rfl, hle, rfl, fun e => by cases e; rfl, rfl⟩
  · simp only [BLE.with, BLE.new_hb_round, List.nil_append, List.mem_map] at hm
    obtain ⟨p, _, rfl⟩ := hm
    exact ⟨rfl, nofun⟩

/-- The cluster after the start. -/
theorem boot_init (hF : Favours cc cfg f l) (hv : cc.validate = .ok ()) (hnd : cc.nodes.Nodup) {order : List NodeId} (ho : ∀ i ∈ cc.nodes, i ∈ order)
    (hr : Cluster.init.run cc (order.map fun i => .start i (cfg i)) = some c) :
    l ≠ 0 ∧ c.Starting cc (firstBallot cc cfg l) ([] : List E) (fun _ => 0) ∧
    (∃ bl, Bles cc c bl ∧ Hearts (fun j r => r.Weak cc.configuration_id (firstBallot cc cfg l) j) cc bl c.net) ∧
    c.Wound cc f ∧ c.Patient cc ((cfg l).election_tick_timeout + 7) ∧
    ∃ op, c.servers l = .up op ∧ op.election_clock.time + (cfg l).election_tick_timeout = op.election_clock.timeout := by
  obtain ⟨h1, h2⟩ := run_starts hr
  have h3 : ∀ i ∈ cc.nodes, ∃ op : OP E S, (cfg i).pid = i ∧ OP.build { cluster_config := cc, server_config := cfg i } {} = some (.ok op) ∧ c.servers i = .up op := fun i hi => by
    obtain ⟨d, op, e1, e2, e3, e4⟩ := (h2 i).2 (ho i hi)
    cases e1
    exact ⟨op, e2, e3, e4⟩
  have h0 : ∀ j ∈ cc.nodes, j ≠ 0 := fun j hj => by
    obtain ⟨op, e1, e2, _⟩ := h3 j hj
    exact (build_empty hv e1 e2).1
  have hnet : ∀ i j, c.net i j = [] := fun i j => by rw [h1]; rfl
  obtain ⟨ops, hops⟩ : ∃ ops : NodeId → OP E S, ∀ i ∈ cc.nodes, c.servers i = .up (ops i) := by
    obtain ⟨op0, _, _, _⟩ := h3 l hF.member
    refine ⟨fun i => match c.servers i with | .up op => op | .down _ => op0, fun i hi => ?_⟩
    obtain ⟨op, _, _, e⟩ := h3 i hi
    simp only [e]
  have h4 : ∀ i ∈ cc.nodes, (cfg i).pid = i ∧ OP.build { cluster_config := cc, server_config := cfg i } {} = some (.ok (ops i)) := fun i hi => by
    obtain ⟨op, e1, e2, e3⟩ := h3 i hi
    rw [hops i hi] at e3
    cases e3
    exact ⟨e1, e2⟩
  refine ⟨h0 l hF.member, ⟨fun i => (ops i).sp, fun i hi => ⟨ops i, hops i hi, rfl⟩, .inl ⟨rfl, ?_⟩⟩, ⟨fun i => (ops i).ble, fun i hi => ⟨ops i, hops i hi, rfl⟩, ?_⟩, ?_, ?_, ?_⟩
  · have hun : ∀ i ∈ cc.nodes, Unled cc i (ops i).sp ∧ (ops i).sp.buffered_proposals = [] := fun i hi => by
      obtain ⟨_, mp, e1, e2, _⟩ := build_empty hv (h4 i hi).1 (h4 i hi).2
      exact with_unled hnd hi h0 e1 e2
    have hpx : ∀ i j, c.px i j = [] := fun i j => by simp [Cluster.px, hnet]
    refine ⟨fun i hi => (hun i hi).1, fun i _ j _ => hpx i j, fun p => ?_⟩
    have hz : ∀ g ∈ SP.peersOf cc.nodes (firstBallot cc cfg l).pid, (held (ops g).sp (c.px g (firstBallot cc cfg l).pid)).countP p = 0 := fun g hg => by
      have hg := hun g (List.mem_filter.1 hg).1
      simp [held, hpx, hg.1.out, hg.2]
    have hl := (hun l hF.member).2
    rw [show (ops (firstBallot cc cfg l).pid).sp.buffered_proposals = [] from hl]
    rw [List.map_congr_left hz]
    simp
  · refine ⟨fun i hi => ?_, fun i _ j _ m hm => (by rw [hnet] at hm; cases hm), fun i hi j hj hji => .inl ?_⟩
    · obtain ⟨_, mp, _, _, e, _⟩ := build_empty hv (h4 i hi).1 (h4 i hi).2
      show BLE.Tied _ cc i (ops i).ble
      rw [e]
      exact with_tied hF hnd hi
    · obtain ⟨_, mp, _, _, e, _⟩ := build_empty hv (h4 i hi).1 (h4 i hi).2
      simp only [e]
      refine ⟨{ src := i, dst := j, msg := .request 1 }, ?_, rfl, rfl⟩
      simp only [BLE.with, BLE.new_hb_round, List.nil_append, List.mem_map]
      exact ⟨j, List.mem_filter.2 ⟨hj, by simpa using hji⟩, rfl⟩
  · intro i hi op hop
    rw [hops i hi] at hop
    cases hop
    obtain ⟨_, mp, _, _, _, e1, _, e3⟩ := build_empty hv (h4 i hi).1 (h4 i hi).2
    rw [e1, e3]
    have := hF.election i hi
    have := hF.flush i hi
    simp only [LogicalClock.with]
    omega
  · intro i hi op hop
    rw [hops i hi] at hop
    cases hop
    obtain ⟨_, mp, _, _, _, _, e2, _⟩ := build_empty hv (h4 i hi).1 (h4 i hi).2
    rw [e2]
    have := hF.resend i hi
    simp only [LogicalClock.with]
    omega
  · obtain ⟨_, mp, _, _, _, e1, _⟩ := build_empty hv (h4 l hF.member).1 (h4 l hF.member).2
    refine ⟨ops l, hops l hF.member, ?_⟩
    rw [e1]
    simp [LogicalClock.with]

end Omni
