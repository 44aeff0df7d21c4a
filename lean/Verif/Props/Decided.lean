import Verif.Proof.DecidedIdx
import Verif.Props.Agreement
import Verif.Props.Compaction
/-
C06: when the decided index can and cannot go back. That it can is shown in Props/Witness.lean (`C06_false_sync`).
C17 for the states that a cluster reaches.
-/
namespace Omni

variable {E S : Type} [SnapOps E S]

/-- `get_decided_idx()` of a running server; the index on the disk of a stopped one. -/
def Server.decided : Server E S → Nat
  | .up op => op.get_decided_idx
  | .down d => d.ld

/-- The calls that can move the decided index back: handling an AcceptSync that carries a smaller decided index, and handling a
Promise as a leader in the Prepare phase whose record of its own promise is absent, shows a smaller decided index, or is
replaced by this very Promise. In tidy runs no leader is in that position (C06_decided_monotone_partial). -/
def OP.MayUndecide (op : OP E S) : Call E S → Prop
  | .handleIncoming (.paxos m) => match m.msg with
    | .acceptSync a => a.decided_idx < op.get_decided_idx
    | .promise _ => op.sp.role = .leader ∧ op.sp.phase = .prepare ∧ ¬ (m.src ≠ op.sp.pid ∧
        ∃ md, slot op.sp.ls.promises_meta op.sp.pid = some (.promised md) ∧ op.get_decided_idx ≤ md.decided_idx)
    | _ => False
  | _ => False

/-- C06 for one server in any environment (full claim: the decided index never goes back): a server whose decided index is the
one on its disk and does not exceed what it has accepted. No call other than the two of `MayUndecide` moves its decided index
back, on the disk or in memory, not even between two durable writes of the call or if the call panics. -/
theorem C06_call_keeps_decided_partial (op : OP E S) (call : Call E S) (hm : op.sp.ist.storage.ld = op.get_decided_idx)
    (ha : op.get_decided_idx ≤ op.sp.ist.cache.accepted_idx) (hc : ¬ op.MayUndecide call) :
    op.get_decided_idx ≤ (op.callResult call).decided ∧ op.get_decided_idx ≤ (op.callResult call).disk.ld ∧
    ∀ d ∈ op.callTrail call, op.get_decided_idx ≤ d.ld := by
  have h0 : DI (op.get_decided_idx ≤ ·) op.get_decided_idx op.clearTrail.sp.ist :=
    ⟨Nat.le_refl _, ha, Nat.le_of_eq hm.symm, fun _ h => by cases h⟩
  have key : M.Sat call.run op.clearTrail (fun _ t => DI (op.get_decided_idx ≤ ·) 0 t.sp.ist)
      (fun t => DI (op.get_decided_idx ≤ ·) 0 t.sp.ist) := by
    refine OP.run_closed SP.closed_d (op := op.clearTrail) ⟨h0.dec, Nat.zero_le _, h0.sto, h0.trail⟩ call fun m e => ?_
    subst e
    refine SP.d_handle_all h0 (fun a e => ?_) fun p e hr hp => Classical.byContradiction fun hn => ?_
    · refine Nat.not_lt.1 fun hlt => hc ?_
      simp only [OP.MayUndecide, e]; exact hlt
    · refine hc ?_
      simp only [OP.MayUndecide, e]; exact ⟨hr, hp, hn⟩
  unfold M.Sat at key
  unfold OP.callResult OP.callTrail
  split at key <;> rename_i e <;> rw [e]
  · exact ⟨key.dec, key.sto, key.trail⟩
  · exact ⟨key.sto, key.sto, key.trail⟩

/-- The message an action delivers to server `i`. -/
def Cluster.Gives (c : Cluster E S) (i : NodeId) (m : Message E S) : Action E S → Prop
  | .deliver j k | .crashDeliver j k _ => k = i ∧ ∃ rest, c.net j k = m :: rest
  | _ => False

/-- C06 in tidy runs, for servers that hold no StopSign: no action moves the decided index of a server back, whether the server
is running or stopped, crashes or restarts, or takes over as leader, unless the action delivers to it an AcceptSync with a
smaller decided index. -/
theorem C06_decided_monotone_partial {rel : Links} (cc : ClusterConfig) (c c' : Cluster E S) (a : Action E S) (h : c.Reachable cc rel)
    (hs : c.step cc a = some c') (i : NodeId) (hss : (c.servers i).disk.stopsign = none)
    (hg : ∀ src dst s, c.Gives i (.paxos ⟨src, dst, .acceptSync s⟩) a → (c.servers i).decided ≤ s.decided_idx) :
    (c.servers i).decided ≤ (c'.servers i).decided := by
  obtain ⟨G, hG⟩ := reach_one h
  have hg : ∀ op m, c.servers i = .up op → c.Gives i m a → ¬ op.MayUndecide (.handleIncoming m) := by
    intro op m hop hm hu
    obtain ⟨hv, lg, hC, hR⟩ := hG.up hop
    cases m with
    | ble m => exact hu
    | paxos m =>
      cases hb : m.msg with
      | acceptSync s =>
        simp only [OP.MayUndecide, hb] at hu
        obtain ⟨x, y, b⟩ := m
        cases hb
        have := hg _ _ _ hm
        rw [hop] at this
        exact absurd hu (Nat.not_lt.2 this)
      | promise p =>
        simp only [OP.MayUndecide, hb] at hu
        obtain ⟨hr, hp, hn⟩ := hu
        refine hn ⟨?_, ?_⟩
        · have hnet : ∃ j, m ∈ c.pre j i := by
            have hpre : ∀ {j rest}, c.net j i = .paxos m :: rest → m ∈ c.pre j i := by
              intro j rest e
              unfold Cluster.pre
              rw [e]
              exact List.mem_cons_self
            cases a <;> simp only [Cluster.Gives] at hm
            · obtain ⟨rfl, rest, hm⟩ := hm; exact ⟨_, hpre hm⟩
            · obtain ⟨rfl, rest, hm⟩ := hm; exact ⟨_, hpre hm⟩
          obtain ⟨j, hj⟩ := hnet
          have h1 := ((hG.srv j).link i).msg m (List.mem_append_left _ hj)
          have h2 := ((hG.srv j).src i m hj).2
          rw [hC.pid, ← h2]; exact h1.ne
        · unfold RoleInv at hR
          rw [hr, hp] at hR
          obtain ⟨md, h2, h3⟩ := hR.self
          exact ⟨md, by rw [hC.pid]; exact h2, Nat.le_of_eq h3.symm⟩
      | _ => simp only [OP.MayUndecide, hb] at hu
  have loc : ∀ op, c.servers i = .up op → op.sp.ist.storage.ld = op.get_decided_idx ∧
      op.get_decided_idx ≤ op.sp.ist.cache.accepted_idx := by
    intro op hop
    rw [hop] at hss
    obtain ⟨hv, lg, hC, hR⟩ := hG.up hop
    have hl : lg.ss = none := by rw [← hC.disk.ss]; exact hss
    refine ⟨hC.mir.dec.symm, ?_⟩
    unfold OP.get_decided_idx
    rw [hC.mir.dec, hC.idx.1 hl]
    rcases hC.disk.dec.covers with h1 | h1
    · exact h1
    · exact absurd hl h1
  have other : ∀ {j : NodeId} {s : Server E S} {d : Cluster E S}, d.servers i = c.servers i →
      (j = i → (c.servers i).decided ≤ s.decided) → (c.servers i).decided ≤ ((d.setServer j s).servers i).decided := by
    intro j s d hd hj
    by_cases e : i = j
    · rw [show (d.setServer j s).servers i = s by simp [Cluster.setServer, e]]
      exact hj e.symm
    · rw [show (d.setServer j s).servers i = c.servers i by simp [Cluster.setServer, e, hd]]
      exact Nat.le_refl _
  have call : ∀ {op : OP E S} {call : Call E S}, c.servers i = .up op → ¬ op.MayUndecide call →
      (c.servers i).decided ≤ (op.callResult call).decided ∧ ∀ d ∈ op.callTrail call, (c.servers i).decided ≤ d.ld := by
    intro op call hop hc
    obtain ⟨h1, h2⟩ := loc op hop
    obtain ⟨h3, -, h4⟩ := C06_call_keeps_decided_partial op call h1 h2 hc
    rw [hop]; exact ⟨h3, h4⟩
  cases a with
  | start j cfg =>
    simp only [Cluster.step] at hs
    split at hs
    · cases hs
    · rename_i d hd
      split at hs
      · split at hs
        · rename_i op hb
          cases hs
          refine other rfl fun e => ?_
          obtain ⟨mp, -, rfl⟩ := OP.build_eq hb
          rw [← e, hd]; exact Nat.le_refl _
        · cases hs
      · cases hs
  | crash j =>
    simp only [Cluster.step] at hs
    split at hs
    · rename_i op hop
      cases hs
      refine other rfl fun e => ?_
      subst e
      rw [hop]
      exact Nat.le_of_eq (loc op hop).1.symm
    · cases hs
  | call j x =>
    simp only [Cluster.step] at hs
    split at hs
    · rename_i op hop
      split at hs
      · cases hs
      · rename_i hi
        cases hs
        refine other rfl fun e => ?_
        subst e
        refine (call hop ?_).1
        cases x <;> simp_all [OP.MayUndecide, Call.isIncoming]
    · cases hs
  | crashCall j x k =>
    simp only [Cluster.step] at hs
    split at hs
    · rename_i op hop
      split at hs
      · cases hs
      · rename_i hi
        split at hs
        · rename_i d hd
          cases hs
          refine other rfl fun e => ?_
          subst e
          refine (call hop ?_).2 d (List.mem_of_getElem? hd)
          cases x <;> simp_all [OP.MayUndecide, Call.isIncoming]
        · cases hs
    · cases hs
  | take j =>
    simp only [Cluster.step] at hs
    split at hs
    · rename_i op hop
      cases hs
      refine other (j := j) (d := c) (s := .up (op.take_outgoing_messages []).2) rfl fun e => ?_
      subst e
      rw [hop]
      exact Nat.le_refl _
    · cases hs
  | deliver j k =>
    simp only [Cluster.step] at hs
    split at hs
    · cases hs
    · rename_i m rest hm
      split at hs
      · cases hs; exact Nat.le_refl _
      · rename_i op hop
        cases hs
        refine other rfl fun e => ?_
        subst e
        exact (call hop (hg op m hop ⟨rfl, rest, hm⟩)).1
  | crashDeliver j k n =>
    simp only [Cluster.step] at hs
    split at hs
    · cases hs
    · rename_i m rest hm
      split at hs
      · cases hs
      · rename_i op hop
        split at hs
        · rename_i d hd
          cases hs
          refine other rfl fun e => ?_
          subst e
          exact (call hop (hg op m hop ⟨rfl, rest, hm⟩)).2 d (List.mem_of_getElem? hd)
        · cases hs
  | lose j k n =>
    simp only [Cluster.step] at hs
    split at hs
    · cases hs; exact Nat.le_refl _
    · cases hs
  | rearrange j k ks =>
    simp only [Cluster.step] at hs
    cases hs; exact Nat.le_refl _

/-! ## C17 -/

/-- C17 in tidy runs (full claim: on every server in every state): on a running server that holds no StopSign, the cached
numbers are those of the storage, so that all three ways of reading return the log (C17_read, C17_read_entries,
C17_read_decided_suffix). With a StopSign this is false, see `C17_false_stopsign`. -/
theorem C17_reads_in_runs_partial {rel : Links} (cc : ClusterConfig) (c : Cluster E S) (h : c.Reachable cc rel) (i : NodeId) (op : OP E S)
    (hop : c.servers i = .up op) (hs : op.sp.ist.storage.stopsign = none) :
    op.Consistent ∧ (∀ k, op.read k = some (op.at k)) ∧
    (∀ k, op.read_decided_suffix k =
      some (if k < op.get_decided_idx then some (op.sp.ist.storage.viewRange k op.get_decided_idx) else none)) := by
  suffices hc : op.Consistent from ⟨hc, C17_read op hc, C17_read_decided_suffix op hc⟩
  obtain ⟨G, hG⟩ := reach_one h
  obtain ⟨hv, lg, hC, hR⟩ := hG.up hop
  have hl : lg.ss = none := by rw [← hC.disk.ss]; exact hs
  have hcov : op.sp.ist.storage.compacted_idx ≤ lg.es.length := hC.disk.cov.resolve_right fun h => h hl
  have hlen : op.sp.ist.storage.len = lg.es.length := by
    unfold Mem.len
    rw [hs, hC.disk.log, List.length_drop]; simp; omega
  refine ⟨hC.mir.comp, hC.mir.trim, hC.mir.dec, hC.mir.ss, ?_, ?_⟩
  · rw [hlen]; exact hC.idx.1 hl
  · rw [hlen]; exact hC.disk.dec.covers.resolve_right fun h => h hl

section sample
attribute [local instance] Sample.noSync
open Sample

/-- Concrete case for C06: server 1 has decided two positions, has accepted two, and holds no StopSign. -/
example : ∃ (c : C) (op : OP Nat (List Nat)), c.Reachable cc ∧ c.servers 1 = .up op ∧ (c.servers 1).disk.stopsign = none ∧
    op.get_decided_idx = 2 ∧ op.sp.ist.storage.ld = 2 ∧ op.sp.ist.cache.accepted_idx = 2 ∧
    ¬ op.MayUndecide (.handleIncoming (.paxos ⟨2, 1, .accepted ⟨⟨1, 1, 0, 1⟩, 2⟩⟩)) := by
  obtain ⟨c, h, hP⟩ := check_one (as := decide12)
    (P := fun c => decide ((c.servers 1).disk.stopsign = none) && onUp c 1 (fun op => op.get_decided_idx = 2 && op.sp.ist.storage.ld = 2 &&
      op.sp.ist.cache.accepted_idx = 2)) (by decide +kernel)
  simp only [Bool.and_eq_true, decide_eq_true_eq] at hP
  obtain ⟨op, h1, h1'⟩ := onUp_elim hP.2
  simp only [Bool.and_eq_true, decide_eq_true_eq] at h1'
  exact ⟨c, op, h, h1, hP.1, h1'.1.1, h1'.1.2, h1'.2, fun h => h⟩

end sample

end Omni
