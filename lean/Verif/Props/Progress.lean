import Verif.Proof.Progress.Accept
import Verif.Props.Decided
import Verif.Spec.Progress
/-
Property theorem C46: the cluster never gets stuck.
-/
namespace Omni

variable {E S : Type} [SnapOps E S]

/-- C46 (full claim: also after compaction and with snapshots in use). From every state that tidy runs reach without `trim`,
`snapshot` and `reconfigure` — whatever crashed, whoever leads or led, whatever was lost and whatever is still on its way or
buffered — and for every set of servers that is a quorum for preparing and for accepting, the run can go on with these servers
alone, without further crashes, such that an entry `e` appended at `L` is decided on all of them, at one and the same position,
the last decided one. Missing: states after compaction, and types with snapshots in use (see C16 and C41). -/
theorem C46_can_decide_partial (hu : SnapOps.use_snapshots E S = false) (cc : ClusterConfig) (h0 : 0 ∉ cc.nodes)
    (hv : cc.validate = .ok ()) (c : Cluster E S) (h : c.PlainReachable cc) (L : NodeId) (Fs : List NodeId)
    (hP : PrepareQuorum cc (L :: Fs)) (hA : AcceptQuorum cc (L :: Fs)) (e : E) :
    ∃ (as : List (Action E S)) (c' : Cluster E S), (∀ a ∈ as, a.Helpful (L :: Fs) L e) ∧ c.TidyRun cc as ∧ c.run cc as = some c' ∧
      ∃ k, ∀ x ∈ L :: Fs, ∃ op, c'.servers x = .up op ∧ op.get_decided_idx = k + 1 ∧ op.read k = some (some (.decided e)) := by
  have H : Setup E S cc L Fs := ⟨hu, h0, hv, hP, hA⟩
  obtain ⟨c', l, hg, ⟨opL, s1, s2, s3⟩, hF⟩ := to_decided (e := e) H h
  have hr := h.go hg fun _ => Action.Helpful.plain
  obtain ⟨as, a1, a2, a3⟩ := hg
  refine ⟨as, c', a1, a2, a3, l.length, ?_⟩
  -- what a server shows whose log is decided to its end
  have key : ∀ (x : NodeId) (op : OP E S) (y : E), c'.servers x = .up op → op.sp.ist.cache.decided_idx = l.length + 1 →
      op.sp.ist.storage.log[l.length]? = some y → op.read l.length = some (some (.decided y)) := by
    intro x op y hop hd hy
    have hG := hr.good hu h0 hop
    obtain ⟨G, hI⟩ := reach_one hr.reachable
    obtain ⟨-, lg, hC, -⟩ := hI.up hop
    obtain ⟨hc, -, -⟩ := C17_reads_in_runs_partial cc c' hr.reachable x op hop (hC.mir.ss ▸ hG.nostop)
    have := (C17_positions op hc l.length).2.1 y hy
    simp only [OP.get_compacted_idx, OP.get_decided_idx, hG.comp, hd, Nat.zero_add] at this
    rw [this, if_pos (Nat.lt_succ_self _)]
  have hL := key L opL e s1 (by rw [s3]; simp) (by rw [s2]; simp)
  intro x hx
  rcases List.mem_cons.1 hx with rfl | hx
  · exact ⟨opL, s1, by rw [OP.get_decided_idx, s3]; simp, hL⟩
  · obtain ⟨op, t1, t2, t3⟩ := hF x hx
    have hG := hr.good hu h0 t1
    have hlen : op.sp.ist.storage.log.length = l.length + 1 := by rw [← hG.len, t3]; simp
    have hy := List.getElem?_eq_getElem (l := op.sp.ist.storage.log) (i := l.length) (by omega)
    have hx := key x op _ t1 (by rw [t2]; simp) hy
    have := C01_agreement_partial cc c' c' (.inl ⟨hr.reachable, [], trivial, rfl⟩) x L l.length _ e ⟨op, t1, .read hx⟩ ⟨opL, s1, .read hL⟩
    rw [this] at hx
    exact ⟨op, t1, by rw [OP.get_decided_idx, t2]; simp, hx⟩

section sample
attribute [local instance] Sample.noSync
open Sample

/-- Concrete case: server 1 crashed and server 3 leads. Servers 1 and 2 are such a quorum, with server 1 to propose. -/
example : ∃ c : C, c.PlainReachable cc ∧ (∃ d, c.servers 1 = .down d) ∧
    (∃ op, c.servers 3 = .up op ∧ op.sp.role = .leader ∧ op.sp.phase = .accept) ∧
    PrepareQuorum cc [1, 2] ∧ AcceptQuorum cc [1, 2] ∧ 0 ∉ cc.nodes ∧ cc.validate = .ok () ∧
    SnapOps.use_snapshots Nat (List Nat) = false := by
  have hr : Cluster.init.drainedB cc (decide12 ++ takeover3) = true := by decide +kernel
  have hc : ((Cluster.init.run cc (decide12 ++ takeover3)).map fun c =>
      (match c.servers 1 with | .down _ => true | .up _ => false) &&
      onUp c 3 (fun op => op.sp.role = .leader && op.sp.phase = .accept)) = some true := by decide +kernel
  cases hs : (Cluster.init : C).run cc (decide12 ++ takeover3) with
  | none => rw [hs] at hc; simp at hc
  | some c =>
    rw [hs] at hc
    simp only [Option.map_some, Option.some.injEq, Bool.and_eq_true] at hc
    obtain ⟨op, h1, h2⟩ := onUp_elim hc.2
    simp only [Bool.and_eq_true, decide_eq_true_eq] at h2
    refine ⟨c, ⟨_, (Cluster.drainedB_sound hr).tidy, ?_, hs⟩, ?_, ⟨op, h1, h2⟩, ⟨by decide, by decide, show 3 < 2 * 2 by decide⟩, ⟨by decide, by decide, show 3 < 2 * 2 by decide⟩,
      by decide, by decide, rfl⟩
    · simp [decide12, takeover3, Action.Only, Call.Plain]
    · have := hc.1
      split at this
      · exact ⟨_, by assumption⟩
      · simp at this

end sample

end Omni
