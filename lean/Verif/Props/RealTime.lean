import Verif.Proof.Safety.Fresh
import Verif.Props.Once
import Verif.Props.Witness
/-
C84: the order of the decided log respects the order in which things happened outside of it.
-/
namespace Omni

variable {E S : Type} [SnapOps E S]

/-- C84 (full claim: in all executions). A tidy run consists of `bs`, which leads to `c`, and `cs`, which leads to `c'`. No `append` of `bs`
is with `e`: it was handed in later than `c`, if at all. Then each position at which `c'` shows `e` as decided, on any server, is
beyond everything that any server had decided in `c`. The links may duplicate forwarded proposals here. -/
theorem C84_real_time_partial {rel : Links} [DecidableEq E] (cc : ClusterConfig) (bs cs : List (Action E S)) (c c' : Cluster E S)
    (ht : Cluster.init.TidyRun cc (bs ++ cs) rel) (hb : Cluster.init.run cc bs = some c) (hc : c.run cc cs = some c') (e : E)
    (hno : appendsOf (fun x => decide (x = e)) bs = 0) (i : NodeId) (op : OP E S) (hi : c.servers i = .up op)
    (j : NodeId) (q : Nat) (hq : c'.Shows j q (.decided e)) : op.get_decided_idx ≤ q := by
  obtain ⟨ht1, ht2⟩ := ht.split hb
  obtain ⟨G1, -, hk, hG1, hW⟩ := (RInv.init cc fun x => decide (x = e)).run_none (RInv.within_init _) ht1 hno hb
  obtain ⟨G2, hm, hG2⟩ := hG1.run ht2 hc
  obtain ⟨hv, lg, hC, -⟩ := hG1.up hi
  obtain ⟨op', hj, hs⟩ := hq
  obtain ⟨-, lg', hC', -⟩ := hG2.up hj
  obtain ⟨h4, h5⟩ := hs.decided hC'.mir
  have h6 := hC'.disk.entry h5
  have hd := hC.disk.dec.mono hm
  rcases Nat.lt_or_ge q op.get_decided_idx with hlt | hge
  · exfalso
    have hlt' : q < op.sp.ist.storage.ld := by rw [← hC.mir.dec]; exact hlt
    cases hx : lg.es[q]? with
    | none =>
      rw [List.getElem?_eq_none_iff] at hx
      have h7 := (hd.stop_eq hv hG2.abs hC'.disk.dec (by omega)).2 q h4 (List.getElem?_eq_some_iff.1 h6).1
      omega
    | some x =>
      have h7 := hd.entry_eq hv hG2.abs hC'.disk.dec hlt' h4 hx h6
      have h1 := hG1.abs.cnt _ _ _ hC.disk.acc
      have h2 := RInv.Within.used hW
      simp only [Ghost.count, hk] at h1
      have h8 : 0 < lg.es.countP (RInv.G0 (fun x : E => decide (x = e))).mark :=
        List.countP_pos_iff.2 ⟨x, List.mem_of_getElem? hx, by simp [RInv.G0, h7]⟩
      omega
  · exact hge

/-- C84 (full claim as before), between two entries: if `e` was handed in after some server showed `x` as decided at position
`p`, it is decided behind `x`. -/
theorem C84_order_partial {rel : Links} [DecidableEq E] (cc : ClusterConfig) (bs cs : List (Action E S)) (c c' : Cluster E S)
    (ht : Cluster.init.TidyRun cc (bs ++ cs) rel) (hb : Cluster.init.run cc bs = some c) (hc : c.run cc cs = some c') (e x : E)
    (hno : appendsOf (fun x => decide (x = e)) bs = 0) (i j : NodeId) (p q : Nat) (hp : c.Shows i p (.decided x))
    (hq : c'.Shows j q (.decided e)) : p < q := by
  obtain ⟨op, hi, hs⟩ := hp
  have h1 := C84_real_time_partial cc bs cs c c' ht hb hc e hno i op hi j q hq
  obtain ⟨G, -, hG⟩ := (RInv.init cc).run (ht.split hb).1 hb
  obtain ⟨-, lg, hC, -⟩ := hG.up hi
  have h2 := (hs.decided hC.mir).1
  rw [← hC.mir.dec] at h2
  exact Nat.lt_of_lt_of_le h2 h1

section sample
attribute [local instance] Sample.noSync
open Sample

/-- Concrete case: server 1 has decided two positions when 9 is handed in at follower 2. The link duplicates the forwarded
proposal, and server 1 decides 9 at positions 2 and 3. -/
example : ∃ (bs cs : List A) (c c' : C) (op : OP Nat (List Nat)), Cluster.init.TidyRun cc (bs ++ cs) ∧ Cluster.init.run cc bs = some c ∧
    c.run cc cs = some c' ∧ appendsOf (fun x => decide (x = 9)) bs = 0 ∧ c.servers 1 = .up op ∧ op.get_decided_idx = 2 ∧
    c.Shows 1 1 (.decided 8) ∧ c'.Shows 1 2 (.decided 9) ∧ c'.Shows 1 3 (.decided 9) := by
  obtain ⟨ht, c', h1, h2⟩ := check_run (as := forwardTwice) (P := fun c =>
    onUp c 1 (fun op => op.read 2 = some (some (.decided 9)) && op.read 3 = some (some (.decided 9)))) (by decide +kernel)
  obtain ⟨-, c, h3, h4⟩ := check_run (as := decide12) (P := fun c =>
    onUp c 1 (fun op => op.read 1 = some (some (.decided 8)) && op.get_decided_idx = 2)) (by decide +kernel)
  obtain ⟨op1, h5, h5'⟩ := onUp_elim h2
  obtain ⟨op2, h6, h6'⟩ := onUp_elim h4
  simp only [Bool.and_eq_true, decide_eq_true_eq] at h5' h6'
  refine ⟨decide12, _, c, c', op2, ht, h3, ?_, by decide, h6, h6'.2, ⟨_, h6, .read h6'.1⟩, ⟨_, h5, .read h5'.1⟩, ⟨_, h5, .read h5'.2⟩⟩
  unfold forwardTwice at h1
  rw [Cluster.run_append, h3] at h1
  exact h1

/-- After the run of F1, server 3 is synchronised with server 1, which decides three positions. -/
def lateRun : List A := mergeRun ++ [.call 3 (.reconnected 1), .take 3, .deliver 3 1, .take 1, .deliver 1 3, .take 3, .deliver 3 1, .take 1,
  .deliver 1 3, .take 3, .deliver 3 1, .take 1, .deliver 1 3, .take 3, .deliver 3 1, .take 1]

/-- Then 10 is handed in, and server 2 receives it. -/
def lateEnd : List A := [.call 1 (.append 10), .take 1, .deliver 1 2, .take 2, .deliver 1 2, .take 2]

/-- C84 is false of the code without the restriction to tidy runs (F1), though nothing is reordered or duplicated: three positions
were decided when 10 was handed in, and server 2 decides it at position 2. -/
theorem C84_false_merged_acceptdecide : ¬ ∀ (cc : ClusterConfig) (bs cs : List A) (c c' : C), (∀ a ∈ bs ++ cs, Action.InOrder a = true) →
    Cluster.init.run cc bs = some c → c.run cc cs = some c' → ∀ (e : Nat), appendsOf (fun x => decide (x = e)) bs = 0 →
    ∀ (i : NodeId) (op : OP Nat (List Nat)), c.servers i = .up op → ∀ (j : NodeId) (q : Nat), c'.Shows j q (.decided e) →
    op.get_decided_idx ≤ q := by
  intro hall
  have hP : (match Cluster.init.run cc lateRun with
    | none => false
    | some c => onUp c 1 (fun op => op.get_decided_idx = 3) && match c.run cc lateEnd with
      | none => false
      | some c' => onUp c' 2 (fun op => op.read 2 = some (some (.decided 10)))) = true := by decide +kernel
  split at hP
  · simp at hP
  rename_i c hc
  simp only [Bool.and_eq_true] at hP
  obtain ⟨h1, hP⟩ := hP
  split at hP
  · simp at hP
  rename_i c' hc'
  obtain ⟨op1, h2, h2'⟩ := onUp_elim h1
  obtain ⟨op2, h3, h3'⟩ := onUp_elim hP
  simp only [decide_eq_true_eq] at h2' h3'
  have := hall cc lateRun lateEnd c c' (by decide) hc hc' 10 (by decide) 1 op1 h2 2 2 ⟨_, h3, .read h3'⟩
  omega

end sample

end Omni
