import Verif.Proof.Runs
import Verif.Proof.Embed
import Verif.Proof.NoPanicRun
import Verif.Proof.Progress.Steps
import Verif.Props.Agreement
import Verif.Props.Api
/-
Runs that make progress: what holds in the states from which they start, and their single steps.
-/
namespace Omni

variable {E S : Type} [SnapOps E S] {cc : ClusterConfig}

/-! ### Runs -/

/-- `c'` is reached from `c` by a tidy run of actions satisfying `ok`. -/
def Go (cc : ClusterConfig) (ok : Action E S → Prop) (c c' : Cluster E S) : Prop :=
  ∃ as, (∀ a ∈ as, ok a) ∧ c.TidyRun cc as ∧ c.run cc as = some c'

variable {ok : Action E S → Prop} {c c' c'' : Cluster E S}

theorem Go.refl : Go cc ok c c := ⟨[], nofun, trivial, rfl⟩

theorem Go.trans (h : Go cc ok c c') (h' : Go cc ok c' c'') : Go cc ok c c'' := by
  obtain ⟨as, h1, h2, h3⟩ := h
  obtain ⟨bs, g1, g2, g3⟩ := h'
  refine ⟨as ++ bs, fun a ha => ?_, h2.append h3 g2, ?_⟩
  · rcases List.mem_append.1 ha with ha | ha
    · exact h1 a ha
    · exact g1 a ha
  · rw [Cluster.run_append, h3]; exact g3

theorem Go.one {a : Action E S} (ha : ok a) (ht : c.Tidy a) (hs : c.step cc a = some c') : Go cc ok c c' :=
  ⟨[a], fun b hb => by rw [List.mem_singleton.1 hb]; exact ha, ⟨ht, fun _ _ => trivial⟩, by simp only [Cluster.run, hs]⟩

theorem Go.mono {ok' : Action E S → Prop} (h : Go cc ok c c') (hk : ∀ a, ok a → ok' a) : Go cc ok' c c' := by
  obtain ⟨as, h1, h2, h3⟩ := h
  exact ⟨as, fun a ha => hk a (h1 a ha), h2, h3⟩

theorem Cluster.PlainReachable.go (h : c.PlainReachable cc) (hg : Go cc ok c c') (hk : ∀ a, ok a → a.Only Call.Plain) :
    c'.PlainReachable cc := by
  obtain ⟨as, h1, h2, h3⟩ := h
  obtain ⟨bs, g1, g2, g3⟩ := hg
  refine ⟨as ++ bs, h1.append h3 g2, fun a ha => ?_, ?_⟩
  · rcases List.mem_append.1 ha with ha | ha
    · exact h2 a ha
    · exact hk a (g1 a ha)
  · rw [Cluster.run_append, h3]; exact g3

omit [SnapOps E S] in
theorem Action.Helpful.plain {W : List NodeId} {L : NodeId} {e : E} {a : Action E S} (h : a.Helpful W L e) : a.Only Call.Plain := by
  cases a with
  | call i c => cases c <;> first | trivial | exact h.elim
  | crashCall i c k => exact h.elim
  | _ => trivial

theorem Cluster.PlainReachable.reachable (h : c.PlainReachable cc) : c.Reachable cc := by
  obtain ⟨as, h1, -, h3⟩ := h
  exact ⟨as, h1, h3⟩

omit [SnapOps E S] in
theorem Call.Plain.noCompaction {c : Call E S} (h : c.Plain) : c.NoCompaction := by
  cases c <;> first | trivial | exact h.elim

omit [SnapOps E S] in
theorem LAction.Only.mono {p q : Call E S → Prop} (hpq : ∀ c, p c → q c) {a : LAction E S} (h : a.Only p) : a.Only q := by
  cases a <;> first | trivial | exact hpq _ h

/-- The same state as a state on the arbitrary network. -/
theorem Cluster.PlainReachable.loose (h : c.PlainReachable cc) :
    ∃ as l, (∀ a ∈ as, a.Only (Call.Plain (E := E) (S := S))) ∧ Loose.init.run cc as = some l ∧ Embeds c l := by
  obtain ⟨as, -, h2, h3⟩ := h
  exact Embeds.init.run h2 h3

/-! ### Running servers -/

/-- What holds of a running server. -/
structure Good (cc : ClusterConfig) (i : NodeId) (op : OP E S) : Prop where
  pid : op.sp.pid = i
  peers : op.sp.peers = SP.peersOf cc.nodes i
  quorum : op.sp.ls.quorum = quorumAt cc i
  nostop : op.sp.ist.cache.stopsign = none
  nobuf : op.sp.buffered_stopsign = none
  lead : op.sp.ls.n_leader ≤ op.sp.ist.cache.promise
  len : op.sp.ist.cache.accepted_idx = op.sp.ist.storage.log.length
  dec : op.sp.ist.cache.decided_idx ≤ op.sp.ist.storage.log.length
  ld : op.sp.ist.cache.decided_idx = op.sp.ist.storage.ld
  trim : op.sp.ist.storage.trimmed_idx = 0
  comp : op.sp.ist.cache.compacted_idx = 0
  ble : op.ble.current_ballot.pid = i

omit [SnapOps E S] in
theorem not_requested {as : List (LAction E S)} (h : ∀ a ∈ as, a.Only (Call.Plain (E := E) (S := S))) [SnapOps E S] (ss : StopSign) :
    ¬ Loose.Requested cc as ss := by
  rintro ⟨pre, a, post, c, i, op, rfl, -, -, h1, -⟩
  have := h a (by simp)
  rcases h1 with rfl | ⟨k, rfl⟩ <;> exact this

theorem disk_facts {G : Ghost E} {i : NodeId} {d : Mem E S} {lg : Lg E} (h : DiskInv cc i G d lg) (ht : d.trimmed_idx = 0)
    (hs : d.stopsign = none) : d.log = lg.es ∧ lg.ss = none ∧ d.ld ≤ d.log.length := by
  have hc : d.compacted_idx = 0 := h.trim ▸ ht
  have h1 : d.log = lg.es := by rw [h.log, hc, List.drop_zero]
  have h2 : lg.ss = none := h.ss ▸ hs
  refine ⟨h1, h2, ?_⟩
  rcases h.dec with h0 | ⟨b, l, -, -, h3, h4⟩
  · omega
  · rcases h3.mono h4 with h5 | h5
    · rw [h1]; exact h5
    · exact absurd h2 h5

theorem Cluster.PlainReachable.good (hu : SnapOps.use_snapshots E S = false) (h0 : 0 ∉ cc.nodes) (h : c.PlainReachable cc) {i : NodeId}
    {op : OP E S} (hop : c.servers i = .up op) : Good cc i op := by
  obtain ⟨as, l, h1, h2, h3⟩ := h.loose
  obtain ⟨N, hN⟩ := NodesIn.exists h0
  have hop' : l.servers i = .up op := by rw [h3.servers]; exact hop
  have hI := (HI.runs hu hN (fun a ha => (h1 a ha).mono fun _ => Call.Plain.noCompaction) h2).up i op hop'
  have hP : Prov.srv (Prov.ofRun cc as i) op := by
    have := (Prov.runs h2).servers i
    rw [hop'] at this
    exact this
  have hS := Loose.server_inv h2 hop'
  obtain ⟨G, hG⟩ := reach_one h.reachable
  have hb : BleOK cc i op.ble := by
    have := hG.srv i
    rw [hop] at this
    exact this.2.2
  obtain ⟨hv, lg, hC, hR⟩ := hG.up hop
  have hs : op.sp.ist.cache.stopsign = none := by
    cases e : op.sp.ist.cache.stopsign with
    | none => rfl
    | some ss => exact absurd (hP.sp.ist.stop ss e) (not_requested h1 ss)
  obtain ⟨f1, f2, f3⟩ := disk_facts hC.disk (hI.ist.disk.clean rfl) (hC.mir.ss ▸ hs)
  refine ⟨hC.pid, hC.peers, hC.quorum, hs, ?_, hS.below, ?_, ?_, hC.mir.dec, hI.ist.disk.clean rfl, ?_, ?_⟩
  · cases e : op.sp.buffered_stopsign with
    | none => rfl
    | some ss => exact absurd (hP.sp.bss ss e) (not_requested h1 ss)
  · rw [f1]; exact hC.idx.1 f2
  · rw [hC.mir.dec]; exact f3
  · rw [hC.mir.comp, ← hC.mir.trim]; exact hI.ist.disk.clean rfl
  · rw [← hb.pid]; exact hb.own.1

/-- A disk that a reachable cluster holds. -/
theorem Cluster.PlainReachable.disk (hu : SnapOps.use_snapshots E S = false) (h0 : 0 ∉ cc.nodes) (h : c.PlainReachable cc) {i : NodeId}
    {d : Mem E S} (hd : c.servers i = .down d) : d.ld ≤ d.log.length := by
  obtain ⟨as, l, h1, h2, h3⟩ := h.loose
  obtain ⟨N, hN⟩ := NodesIn.exists h0
  have hd' : l.servers i = .down d := by rw [h3.servers]; exact hd
  have hI := (HI.runs hu hN (fun a ha => (h1 a ha).mono fun _ => Call.Plain.noCompaction) h2).down i d hd'
  have hP : Prov.mem (Prov.ofRun cc as i) d := by
    have := (Prov.runs h2).servers i
    rw [hd'] at this
    exact this
  obtain ⟨G, hG⟩ := reach_one h.reachable
  obtain ⟨lg, hD⟩ := (hG.srv i).disk
  rw [hd] at hD
  have hs : d.stopsign = none := by
    cases e : d.stopsign with
    | none => rfl
    | some ss => exact absurd (hP.stop ss e) (not_requested h1 ss)
  exact (disk_facts hD (hI.clean rfl) hs).2.2

/-- Calls do not panic. -/
theorem Cluster.PlainReachable.call (hu : SnapOps.use_snapshots E S = false) (h0 : 0 ∉ cc.nodes) (h : c.PlainReachable cc) {i : NodeId}
    {op : OP E S} (hop : c.servers i = .up op) {call : Call E S} (hc : call.Plain)
    (hm : ∀ m, call = .handleIncoming m → ∃ j, m ∈ c.net j i) {Q : Unit → OP E S → Prop} (hd : Does call.run op.clearTrail Q) :
    ∃ op', call.run op.clearTrail = .ok () op' ∧ Q () op' := by
  obtain ⟨as, l, h1, h2, h3⟩ := h.loose
  have hop' : l.servers i = .up op := by rw [h3.servers]; exact hop
  obtain ⟨op', e⟩ := Loose.no_panic hu h0 (fun a ha => (h1 a ha).mono fun _ => Call.Plain.noCompaction) h2 hop' hc.noCompaction
    fun m e => by
      obtain ⟨j, hj⟩ := hm m e
      exact (h3.net j i m hj).1
  unfold OP.callResult at e
  unfold Does M.Sat at hd
  split at e
  · rename_i u op1 h4
    rw [h4] at hd
    exact ⟨op1, h4, hd⟩
  · cases e

end Omni
