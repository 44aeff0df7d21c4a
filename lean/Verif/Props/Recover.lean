import Verif.Proof.Progress.Settle
import Verif.Props.Progress
/-
Property theorem C73: from every state back to steady operation.
-/
namespace Omni

variable {E S : Type} [SnapOps E S]

/-- C73 (full claim: also after compaction and with snapshots in use). From every state that tidy runs reach without `trim`, `snapshot` and
`reconfigure`, and for every server `L` of the configuration, the run can go on without further crashes such that everything is done and ready for steady
operation (`Settled`, the state C69, C70 and C71 start from): all servers run and follow `L`, all have decided the same entries, the last of them an entry `e`
appended at `L` on the way, nothing is on the way or held back, and the records and sequence numbers of the leader agree with the followers. Missing:
states after compaction, and types with snapshots in use (see C16 and C41). -/
theorem C73_recovers_partial (hu : SnapOps.use_snapshots E S = false) (cc : ClusterConfig) (h0 : 0 ∉ cc.nodes)
    (hv : cc.validate = .ok ()) (hd : cc.nodes.Nodup) (c : Cluster E S) (h : c.PlainReachable cc) (L : NodeId) (hL : L ∈ cc.nodes) (e : E) :
    ∃ (as : List (Action E S)) (c' : Cluster E S) (n : Ballot) (k : Nat), (∀ a ∈ as, a.Helpful cc.nodes L e) ∧ c.TidyRun cc as ∧
      c.run cc as = some c' ∧ n.pid = L ∧ c'.Settled cc n (k + 1) ∧
      ∀ i ∈ cc.nodes, ∃ op, c'.servers i = .up op ∧ op.read k = some (some (.decided e)) := by
  have hp : (L :: cc.nodes.erase L).Perm cc.nodes := (List.perm_cons_erase hL).symm
  have hm : ∀ x, x ∈ L :: cc.nodes.erase L ↔ x ∈ cc.nodes := fun x => hp.mem_iff
  have hq : match cc.flexible_quorum with
      | none => 0 < cc.nodes.length
      | some q => q.read_quorum_size ≤ cc.nodes.length ∧ q.write_quorum_size ≤ cc.nodes.length := by
    have hv := hv
    unfold ClusterConfig.validate at hv
    simp only at hv
    split at hv
    · cases hv
    · rename_i h1
      split at hv
      · cases hv
      · cases hf : cc.flexible_quorum with
        | none => exact List.length_pos_of_mem hL
        | some q =>
          rw [hf] at hv
          simp only at hv ⊢
          split at hv
          · cases hv
          · split at hv
            · cases hv
            · rename_i h2
              split at hv
              · cases hv
              · rename_i h3
                exact ⟨(Classical.not_not.1 h2).2, (Classical.not_not.1 h3).2⟩
  have H : Setup E S cc L (cc.nodes.erase L) := by
    refine ⟨hu, h0, hv, ⟨hp.nodup_iff.2 hd, fun x hx => (hm x).1 hx, ?_⟩, ⟨hp.nodup_iff.2 hd, fun x hx => (hm x).1 hx, ?_⟩⟩
    all_goals
      rw [hp.length_eq]
      cases hf : cc.flexible_quorum with
      | none => rw [hf] at hq; simp only at hq ⊢; omega
      | some q => rw [hf] at hq; simp only at hq ⊢; omega
  obtain ⟨c', l, n, hg, hn, hs, opL, s1, s2⟩ := to_settled (e := e) H hd (fun x hx => (hm x).2 hx) h
  have hr := h.go hg fun _ => Action.Helpful.plain
  obtain ⟨as, a1, a2, a3⟩ := hg
  have hlen : (l ++ [e]).length = l.length + 1 := by simp
  rw [hlen] at hs
  refine ⟨as, c', n, l.length, fun a ha => ?_, a2, a3, hn, hs, ?_⟩
  · have := a1 a ha
    cases a with
    | start i s => exact (hm i).1 this
    | take i => exact (hm i).1 this
    | deliver i j => exact ⟨(hm i).1 this.1, (hm j).1 this.2⟩
    | lose i j k => trivial
    | call i call => cases call <;> first | exact this | exact this.elim
    | _ => exact this.elim
  have key : ∀ (x : NodeId) (op : OP E S) (y : E), c'.servers x = .up op → op.sp.ist.cache.decided_idx = l.length + 1 →
      op.sp.ist.storage.log[l.length]? = some y → op.read l.length = some (some (.decided y)) := by
    intro x op y hop hd hy
    have hG := hr.good hu h0 hop
    obtain ⟨G, hI⟩ := reach_one hr.reachable
    obtain ⟨-, lg, hC, -⟩ := hI.up hop
    obtain ⟨hc, -, -⟩ := C17_reads_in_runs_partial cc c' hr.reachable x op hop (hC.mir.ss ▸ hG.nostop)
    have := (C17_positions op hc l.length).2.1 y hy
    simp only [OP.get_compacted_idx, OP.get_decided_idx, hG.comp, hd, Nat.zero_add] at this
    rw [this, if_pos (Nat.lt_succ_self _)]
  have hrest : ∀ i ∈ cc.nodes, ∃ op, c'.servers i = .up op ∧ op.sp.ist.cache.decided_idx = l.length + 1 ∧ op.sp.ist.storage.log.length = l.length + 1 := by
    intro i hi
    obtain ⟨op, t1, -, t2⟩ := hs.server i hi
    have hG := hr.good hu h0 t1
    exact ⟨op, t1, t2.decided, by rw [← hG.len, t2.accepted]⟩
  have hRL : opL.read l.length = some (some (.decided e)) := by
    obtain ⟨op, t1, t2, -⟩ := hrest L hL
    rw [s1] at t1
    cases t1
    exact key L opL e s1 t2 (by rw [s2]; simp)
  intro i hi
  obtain ⟨op, t1, t2, t3⟩ := hrest i hi
  have hy := List.getElem?_eq_getElem (l := op.sp.ist.storage.log) (i := l.length) (by omega)
  have hx := key i op _ t1 t2 hy
  have := C01_agreement_partial cc c' c' (.inl ⟨hr.reachable, [], trivial, rfl⟩) i L l.length _ e ⟨op, t1, .read hx⟩ ⟨opL, s1, .read hRL⟩
  rw [this] at hx
  exact ⟨op, t1, hx⟩

section sample
attribute [local instance] Sample.noSync
open Sample

/-- Concrete case: server 1 crashed after a decision, and server 3 leads, in the Accept phase. From there the run can go on to `Settled` under server 1. -/
example : ∃ c : C, c.PlainReachable cc ∧ (∃ d, c.servers 1 = .down d) ∧
    (∃ op, c.servers 3 = .up op ∧ op.sp.role = .leader ∧ op.sp.phase = .accept) ∧
    ∃ as c' n k, c.run cc as = some c' ∧ n.pid = 1 ∧ c'.Settled cc n (k + 1) ∧
      ∀ i ∈ cc.nodes, ∃ op, c'.servers i = .up op ∧ op.read k = some (some (.decided 77)) := by
  have hr : Cluster.init.drainedB cc (decide12 ++ takeover3) = true := by decide +kernel
  have hc : ((Cluster.init.run cc (decide12 ++ takeover3)).map fun c =>
      (match c.servers 1 with | .down _ => true | .up _ => false) &&
      onUp c 3 (fun op => op.sp.role = .leader && op.sp.phase = .accept)) = some true := by decide +kernel
  cases hs : (Cluster.init : C).run cc (decide12 ++ takeover3) with
  | none => rw [hs] at hc; simp at hc
  | some c =>
    rw [hs] at hc
    simp only [Option.map_some, Option.some.injEq, Bool.and_eq_true] at hc
    obtain ⟨op, h1, h2⟩ := onUp_elim hc.2
    simp only [Bool.and_eq_true, decide_eq_true_eq] at h2
    have hp : c.PlainReachable cc := ⟨_, (Cluster.drainedB_sound hr).tidy, by simp [decide12, takeover3, Action.Only, Call.Plain], hs⟩
    obtain ⟨as, c', n, k, -, -, h3, h4, h5, h6⟩ := C73_recovers_partial rfl cc (by decide) (by decide) (by decide) c hp 1 (by decide) 77
    refine ⟨c, hp, ?_, ⟨op, h1, h2⟩, as, c', n, k, h3, h4, h5, h6⟩
    have := hc.1
    split at this
    · exact ⟨_, by assumption⟩
    · simp at this

end sample

end Omni
