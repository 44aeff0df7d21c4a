import Verif.Proof.Safety.Conclude
import Verif.Spec.Runs
/-
Properties of the whole cluster in every tidy run (Spec/Run.lean): C01, C02, C04, C05, C09, C10, C12, C31, C32, C37, C38.
The runs are arbitrary interleavings of API calls, deliveries, losses, crashes at every durable write and restarts. The
restriction to tidy runs is what "partial" refers to unless said otherwise; that it cannot be dropped is shown in
Props/Witness.lean. `rel` is any set of links that are dependable; with `Links.none` no link needs to be, with `Links.all` the order in
which the user takes messages from the servers does not matter.
-/
namespace Omni

variable {E S : Type} [SnapOps E S]

section invariant
variable {cc : ClusterConfig} {c c' : Cluster E S}

theorem reach_two {rel : Links} (h : c.Reachable cc rel) (h' : c.Later cc c' rel) : ∃ G G', Mono G G' ∧ RInv cc c G rel ∧ RInv cc c' G' rel := by
  obtain ⟨as, ht, hr⟩ := h
  obtain ⟨bs, ht', hr'⟩ := h'
  obtain ⟨G, -, hG⟩ := (RInv.init cc).run ht hr
  obtain ⟨G', hm, hG'⟩ := hG.run ht' hr'
  exact ⟨G, G', hm, hG, hG'⟩

theorem reach_one {rel : Links} (h : c.Reachable cc rel) : ∃ G, RInv cc c G rel := by
  obtain ⟨G, -, -, hG, -⟩ := reach_two h (Cluster.Later.refl cc c)
  exact ⟨G, hG⟩

theorem reach_pair {rel : Links} (h : c.SameRun cc c' rel) : ∃ G1 G2 G, RInv cc c G1 rel ∧ RInv cc c' G2 rel ∧ Mono G1 G ∧ Mono G2 G ∧ Abs cc G := by
  rcases h with ⟨h, h'⟩ | ⟨h, h'⟩
  · obtain ⟨G, G', hm, hG, hG'⟩ := reach_two h h'
    exact ⟨G, G', G', hG, hG', hm, Mono.refl _, hG'.abs⟩
  · obtain ⟨G, G', hm, hG, hG'⟩ := reach_two h h'
    exact ⟨G', G, G', hG', hG, Mono.refl _, hm, hG'.abs⟩

omit [SnapOps E S] in
theorem RInv.up {rel : Links} {G : Ghost E} (h : RInv cc c G rel) {i : NodeId} {op : OP E S} (hs : c.servers i = .up op) :
    cc.validate = .ok () ∧ ∃ lg, Core cc i (c.pre i) G op.sp lg ∧ RoleInv cc i (c.pre i) G op.sp lg := by
  have := h.srv i
  rw [hs] at this
  exact ⟨this.1, this.2.1⟩

end invariant

section sample
attribute [local instance] Sample.noSync
open Sample

/-- Concrete case for C01, C02: servers 1 and 2 show 7 at position 0 as decided; later, server 3, which took over, does too. -/
example : ∃ c c' : C, c.SameRun cc c' ∧ c.Shows 1 0 (.decided 7) ∧ c.Shows 2 1 (.decided 8) ∧ c'.Shows 3 0 (.decided 7) ∧
    c'.Shows 3 1 (.decided 8) := by
  obtain ⟨c, c', h, h', hP, hQ⟩ := check_two (as := decide12) (bs := takeover3)
    (P := fun c => onUp c 1 (fun op => op.read 0 = some (some (.decided 7))) && onUp c 2 (fun op => op.read 1 = some (some (.decided 8))))
    (Q := fun c => onUp c 3 (fun op => op.read 0 = some (some (.decided 7)) && op.read 1 = some (some (.decided 8)))) (by decide +kernel)
  simp only [Bool.and_eq_true] at hP hQ
  obtain ⟨op1, h1, h1'⟩ := onUp_elim hP.1
  obtain ⟨op2, h2, h2'⟩ := onUp_elim hP.2
  obtain ⟨op3, h3, h3'⟩ := onUp_elim hQ
  simp only [Bool.and_eq_true, decide_eq_true_eq] at h1' h2' h3'
  exact ⟨c, c', .inl ⟨h, h'⟩, ⟨_, h1, .read h1'⟩, ⟨_, h2, .read h2'⟩, ⟨_, h3, .read h3'.1⟩, ⟨_, h3, .read h3'.2⟩⟩

/-- Concrete case: the same decision on links that duplicate and reorder. -/
example : ∃ c : C, c.Reachable cc ∧ c.Shows 1 1 (.decided 8) ∧ c.Shows 2 1 (.decided 8) := by
  obtain ⟨c, h, hP⟩ := check_one (as := decideShuffled) (P := fun c =>
    onUp c 1 (fun op => op.read 1 = some (some (.decided 8))) && onUp c 2 (fun op => op.read 1 = some (some (.decided 8)))) (by decide +kernel)
  simp only [Bool.and_eq_true] at hP
  obtain ⟨op1, h1, h1'⟩ := onUp_elim hP.1
  obtain ⟨op2, h2, h2'⟩ := onUp_elim hP.2
  simp only [decide_eq_true_eq] at h1' h2'
  exact ⟨c, h, ⟨_, h1, .read h1'⟩, ⟨_, h2, .read h2'⟩⟩

/-- Concrete case with dependable links: a Promise reaches the leader while an AcceptDecide for its sender has not been taken, and entries
are merged into that AcceptDecide afterwards. -/
example : ∃ c c' : C, c.Reachable cc Links.all ∧ c.Later cc c' Links.all ∧ ¬ c.Tidy (.deliver 2 1) ∧ c'.Shows 1 1 (.decided 8) ∧
    c'.Shows 2 1 (.decided 8) ∧ c'.Shows 2 2 (.decided 9) := by
  obtain ⟨c, c', h, h', hP, hQ⟩ := check_links (as := resend1) (bs := resend2)
    (P := fun c => onUp c 1 (fun op => op.sp.outgoing = [⟨1, 2, .acceptDecide ⟨⟨1, 1, 0, 1⟩, ⟨1, 2⟩, 0, [7]⟩⟩]) &&
      match c.net 2 1 with
      | [.paxos m] => m.src = 2 && match m.msg with
        | .promise p => p.n = ⟨1, 1, 0, 1⟩
        | _ => false
      | _ => false)
    (Q := fun c => onUp c 1 (fun op => op.read 1 = some (some (.decided 8))) &&
      onUp c 2 (fun op => op.read 1 = some (some (.decided 8)) && op.read 2 = some (some (.decided 9)))) (by decide +kernel)
  simp only [Bool.and_eq_true] at hP hQ
  obtain ⟨op, h1, h1'⟩ := onUp_elim hP.1
  obtain ⟨op1, h2, h2'⟩ := onUp_elim hQ.1
  obtain ⟨op2, h3, h3'⟩ := onUp_elim hQ.2
  simp only [Bool.and_eq_true, decide_eq_true_eq] at h1' h2' h3'
  refine ⟨c, c', h, h', fun ht => ?_, ⟨_, h2, .read h2'⟩, ⟨_, h3, .read h3'.1⟩, ⟨_, h3, .read h3'.2⟩⟩
  have hN := hP.2
  split at hN
  · rename_i m hm
    simp only [Bool.and_eq_true, decide_eq_true_eq] at hN
    obtain ⟨hs, hN⟩ := hN
    split at hN
    · rename_i p hp
      exact ht rfl m [] p op hm hp h1 ⟨1, 2, .acceptDecide ⟨⟨1, 1, 0, 1⟩, ⟨1, 2⟩, 0, [7]⟩⟩ (by rw [h1']; exact .head _) hs.symm _ rfl (of_decide_eq_true hN).symm
    · cases hN
  · cases hN

/-- Concrete case for C09, C10: servers 1 and 2 decided a StopSign at position 2, after the entries. -/
example : ∃ c c' : C, c.SameRun cc c' ∧ c.Shows 2 1 (.decided 8) ∧ c'.Reconfigured 1 ⟨cc', none⟩ ∧ c'.Reconfigured 2 ⟨cc', none⟩ ∧
    ∃ op, c'.servers 2 = .up op ∧ op.read 2 = some (some (.stopSign ⟨cc', none⟩ true)) := by
  obtain ⟨c, c', h, h', hP, hQ⟩ := check_two (as := decide12) (bs := reconf)
    (P := fun c => onUp c 2 (fun op => op.read 1 = some (some (.decided 8))))
    (Q := fun c => onUp c 1 (fun op => op.is_reconfigured = some ⟨cc', none⟩) &&
      onUp c 2 (fun op => op.is_reconfigured = some ⟨cc', none⟩ && op.read 2 = some (some (.stopSign ⟨cc', none⟩ true)))) (by decide +kernel)
  simp only [Bool.and_eq_true] at hP hQ
  obtain ⟨op1, h1, h1'⟩ := onUp_elim hP
  obtain ⟨op2, h2, h2'⟩ := onUp_elim hQ.1
  obtain ⟨op3, h3, h3'⟩ := onUp_elim hQ.2
  simp only [Bool.and_eq_true, decide_eq_true_eq] at h1' h2' h3'
  exact ⟨c, c', .inl ⟨h, h'⟩, ⟨_, h1, .read h1'⟩, ⟨_, h2, h2'⟩, ⟨_, h3, h3'.1⟩, ⟨_, h3, h3'.2⟩⟩

/-- Concrete case for C04, C31, C32, C37, C05: server 1 decided two positions, then server 3 leads in accept phase of a higher
ballot, and server 2 follows it. -/
example : ∃ c c' : C, c.Reachable cc ∧ c.Later cc c' ∧ (c.servers 1).disk.ld = 2 ∧ (c.servers 1).disk.stopsign = none ∧
    ∃ op op', c'.servers 3 = .up op ∧ op.sp.role = .leader ∧ op.sp.phase = .accept ∧
      (c.servers 1).disk.accepted ≤ op.sp.ls.n_leader ∧ c'.servers 2 = .up op' ∧ op'.get_current_leader = some (3, true) := by
  obtain ⟨c, c', h, h', hP, hQ⟩ := check_two (as := decide12) (bs := takeover3)
    (P := fun c => (c.servers 1).disk.ld = 2 && (c.servers 1).disk.stopsign = none && (c.servers 1).disk.accepted = ⟨1, 1, 0, 1⟩)
    (Q := fun c => onUp c 3 (fun op => op.sp.role = .leader && op.sp.phase = .accept && op.sp.ls.n_leader = ⟨1, 1, 0, 3⟩) &&
      onUp c 2 (fun op => op.get_current_leader = some (3, true))) (by decide +kernel)
  simp only [Bool.and_eq_true, decide_eq_true_eq] at hP hQ
  obtain ⟨op3, h3, h3'⟩ := onUp_elim hQ.1
  obtain ⟨op2, h2, h2'⟩ := onUp_elim hQ.2
  simp only [Bool.and_eq_true, decide_eq_true_eq] at h3' h2'
  refine ⟨c, c', h, h', hP.1.1, hP.1.2, op3, op2, h3, h3'.1.1, h3'.1.2, ?_, h2, h2'⟩
  rw [hP.2, h3'.2]
  decide

/-- Concrete case for C12: an Accepted message for two positions is on its way from server 2 to server 1. -/
example : ∃ c : C, c.Reachable cc ∧ .paxos ⟨2, 1, .accepted ⟨⟨1, 1, 0, 1⟩, 2⟩⟩ ∈ c.net 2 1 ∧ (c.servers 2).disk.accepted = ⟨1, 1, 0, 1⟩ := by
  obtain ⟨c, h, hP⟩ := check_one (as := decide12.take 23)
    (P := fun c => decide (.paxos ⟨2, 1, .accepted ⟨⟨1, 1, 0, 1⟩, 2⟩⟩ ∈ c.net 2 1) && (c.servers 2).disk.accepted = ⟨1, 1, 0, 1⟩) (by decide +kernel)
  simp only [Bool.and_eq_true, decide_eq_true_eq] at hP
  exact ⟨c, h, hP⟩

/-- Concrete case for C38: position 0 is trimmed on server 2. -/
example : ∃ c : C, c.Reachable cc ∧ (c.servers 2).disk.snapshot = none ∧ 0 < (c.servers 2).disk.compacted_idx := by
  obtain ⟨c, h, hP⟩ := check_one (as := decideTrim)
    (P := fun c => decide ((c.servers 2).disk.snapshot = none) && decide (0 < (c.servers 2).disk.compacted_idx)) (by decide +kernel)
  simp only [Bool.and_eq_true, decide_eq_true_eq] at hP
  exact ⟨c, h, hP⟩

/-- The configuration of these cases meets the hypotheses on configurations. -/
example : cc.validate = .ok () ∧ cc.nodes.Nodup := by decide

end sample

/-! ## C01 -/

/-- C01 (full claim: in all executions). Two moments of a tidy run, two servers (or the same one), with whatever happened in
between: an index reported as decided with `e` at one and with `f` at the other has `e = f`. -/
theorem C01_agreement_partial {rel : Links} (cc : ClusterConfig) (c c' : Cluster E S) (h : c.SameRun cc c' rel)
    (i j : NodeId) (p : Nat) (e f : E) (he : c.Shows i p (.decided e)) (hf : c'.Shows j p (.decided f)) : e = f := by
  obtain ⟨G1, G2, G, hG1, hG2, hm1, hm2, hA⟩ := reach_pair h
  obtain ⟨op, hop, hs⟩ := he
  obtain ⟨op', hop', hs'⟩ := hf
  obtain ⟨hv, lg, hC, -⟩ := hG1.up hop
  obtain ⟨-, lg', hC', -⟩ := hG2.up hop'
  obtain ⟨h1, h2⟩ := hs.decided hC.mir
  obtain ⟨h1', h2'⟩ := hs'.decided hC'.mir
  exact Ghost.DecOK.entry_eq hv hA (hC.disk.dec.mono hm1) (hC'.disk.dec.mono hm2) h1 h1' (hC.disk.entry h2) (hC'.disk.entry h2')

/-! ## C09 -/

/-- C09 (full claim: in all executions): all indexes reported as decided entries, on any server at any moment, lie below the
index at which any server ever reads a decided StopSign. -/
theorem C09_nothing_after_stopsign_partial {rel : Links} (cc : ClusterConfig) (c c' : Cluster E S) (h : c.SameRun cc c' rel)
    (i j : NodeId) (op : OP E S) (hop : c.servers i = .up op) (p q : Nat) (ss : StopSign) (e : E)
    (hs : op.read q = some (some (.stopSign ss true))) (he : c'.Shows j p (.decided e)) : p < q := by
  obtain ⟨G1, G2, G, hG1, hG2, hm1, hm2, hA⟩ := reach_pair h
  obtain ⟨op', hop', hs'⟩ := he
  obtain ⟨hv, lg, hC, -⟩ := hG1.up hop
  obtain ⟨-, lg', hC', -⟩ := hG2.up hop'
  obtain ⟨h1', h2'⟩ := hs'.decided hC'.mir
  have h1 := (OP.Shows.read hs).stop
  have h2 := hC.stop_decided h1.2.symm
  have h3 := OP.read_stop_pos hs
  have h4 := ((hC.disk.dec.mono hm1).stop_eq hv hA (hC'.disk.dec.mono hm2) h2.1).2 p h1' (List.getElem?_eq_some_iff.1 (hC'.disk.entry h2')).1
  have h5 := hC.idx.2 (by rw [← hC.ss_eq, h1.1]; simp)
  omega

/-- C09: the same when the StopSign is learned from `is_reconfigured`: no decided entry lies at or behind the end of the
entries of that server. -/
theorem C09_nothing_after_reconfigured_partial {rel : Links} (cc : ClusterConfig) (c c' : Cluster E S) (h : c.SameRun cc c' rel)
    (i j : NodeId) (op : OP E S) (hop : c.servers i = .up op) (ss : StopSign) (hs : op.is_reconfigured = some ss)
    (p : Nat) (e : E) (he : c'.Shows j p (.decided e)) :
    p < op.sp.ist.storage.compacted_idx + op.sp.ist.storage.log.length := by
  obtain ⟨G1, G2, G, hG1, hG2, hm1, hm2, hA⟩ := reach_pair h
  obtain ⟨op', hop', hs'⟩ := he
  obtain ⟨hv, lg, hC, -⟩ := hG1.up hop
  obtain ⟨-, lg', hC', -⟩ := hG2.up hop'
  obtain ⟨h1', h2'⟩ := hs'.decided hC'.mir
  unfold OP.is_reconfigured SP.is_reconfigured at hs
  split at hs
  · rename_i ss' hss
    split at hs
    · rename_i hd
      have h2 := hC.stop_decided hd
      have h4 := ((hC.disk.dec.mono hm1).stop_eq hv hA (hC'.disk.dec.mono hm2) h2.1).2 p h1' (List.getElem?_eq_some_iff.1 (hC'.disk.entry h2')).1
      rw [hC.disk.log, List.length_drop]
      omega
    · simp at hs
  · simp at hs

/-- C01, StopSign part (full claim: in all executions): no index is a decided StopSign on one server and a decided entry on
another one, at any two moments. -/
theorem C01_stopsign_agreement_partial {rel : Links} (cc : ClusterConfig) (c c' : Cluster E S) (h : c.SameRun cc c' rel)
    (i j : NodeId) (op : OP E S) (hop : c.servers i = .up op) (p : Nat) (ss : StopSign) (e : E)
    (hs : op.read p = some (some (.stopSign ss true))) (he : c'.Shows j p (.decided e)) : False :=
  Nat.lt_irrefl p (C09_nothing_after_stopsign_partial cc c c' h i j op hop p p ss e hs he)

/-! ## C10 -/

/-- C10, agreement (full claim: in all executions, and `is_reconfigured` stays `Some`): the StopSigns that `is_reconfigured`
returns on any two servers at any two moments are equal. Stability is false, see Props/Witness.lean. -/
theorem C10_reconfiguration_agreement_partial {rel : Links} (cc : ClusterConfig) (c c' : Cluster E S) (h : c.SameRun cc c' rel)
    (i j : NodeId) (ss tt : StopSign) (hs : c.Reconfigured i ss) (ht : c'.Reconfigured j tt) : ss = tt := by
  obtain ⟨G1, G2, G, hG1, hG2, hm1, hm2, hA⟩ := reach_pair h
  obtain ⟨op, hop, hs⟩ := hs
  obtain ⟨op', hop', hs'⟩ := ht
  obtain ⟨hv, lg, hC, -⟩ := hG1.up hop
  obtain ⟨-, lg', hC', -⟩ := hG2.up hop'
  have key : ∀ {o : OP E S} {t : StopSign}, o.is_reconfigured = some t →
      o.sp.ist.cache.stopsign = some t ∧ o.sp.ist.cache.stopsign_is_decided = true := by
    intro o t ho
    unfold OP.is_reconfigured SP.is_reconfigured at ho
    split at ho
    · rename_i hss
      split at ho
      · rename_i hd; simp at ho; exact ⟨by rw [hss, ho], hd⟩
      · simp at ho
    · simp at ho
  have h1 := key hs
  have h1' := key hs'
  have h2 := ((hC.disk.dec.mono hm1).stop_eq hv hA (hC'.disk.dec.mono hm2) (hC.stop_decided h1.2).1).1 (hC'.stop_decided h1'.2).1
  have h3 := h1.1
  have h4 := h1'.1
  rw [hC.ss_eq] at h3
  rw [hC'.ss_eq, h2, h3] at h4
  simpa using h4

/-- C10: the same for decided StopSigns returned by the read functions. -/
theorem C10_stopsign_agreement_partial {rel : Links} (cc : ClusterConfig) (c c' : Cluster E S) (h : c.SameRun cc c' rel)
    (i j : NodeId) (p q : Nat) (ss tt : StopSign) (hs : c.Shows i p (.stopSign ss true)) (ht : c'.Shows j q (.stopSign tt true)) :
    ss = tt := by
  have key : ∀ {c : Cluster E S} {i p ss}, c.Shows i p (.stopSign ss true) → c.Reconfigured i ss := by
    rintro c i p ss ⟨op, hop, hs⟩
    have := hs.stop
    exact ⟨op, hop, by unfold OP.is_reconfigured SP.is_reconfigured; rw [this.1]; simp [← this.2]⟩
  exact C10_reconfiguration_agreement_partial cc c c' h i j ss tt (key hs) (key ht)

/-! ## C02 -/

/-- C02 (full claim: in all executions): the decided entries on the storages of two servers (running or not) at two moments,
neither compacted, are comparable by the prefix order. -/
theorem C02_prefixes_partial {rel : Links} (cc : ClusterConfig) (hv : cc.validate = .ok ()) (c c' : Cluster E S) (h : c.SameRun cc c' rel)
    (i j : NodeId) (hi : (c.servers i).disk.compacted_idx = 0) (hj : (c'.servers j).disk.compacted_idx = 0) :
    (c.servers i).disk.log.take (c.servers i).disk.ld <+: (c'.servers j).disk.log.take (c'.servers j).disk.ld ∨
    (c'.servers j).disk.log.take (c'.servers j).disk.ld <+: (c.servers i).disk.log.take (c.servers i).disk.ld := by
  obtain ⟨G1, G2, G, hG1, hG2, hm1, hm2, hA⟩ := reach_pair h
  obtain ⟨lg, hd⟩ := (hG1.srv i).disk
  obtain ⟨lg', hd'⟩ := (hG2.srv j).disk
  rw [hd.log, hd'.log, hi, hj, List.drop_zero, List.drop_zero]
  obtain ⟨l, l', h1, h2, h3, h4, h5⟩ := (hd.dec.mono hm1).agree hv hA (hd'.dec.mono hm2)
  rw [← Lg.take_eq (Lg.le_refl l) h1 h2, ← Lg.take_eq (Lg.le_refl l') h3 h4]
  rcases h5 with h5 | h5
  · exact List.prefix_or_prefix_of_prefix ((List.take_prefix _ _).trans (Lg.pre h5)) (List.take_prefix _ _)
  · exact List.prefix_or_prefix_of_prefix (List.take_prefix _ _) ((List.take_prefix _ _).trans (Lg.pre h5))

/-! ## C04 -/

/-- C04 (full claim: in all executions). What a server shows as decided at some moment (on its storage `d`, running or not) is
in the log of every later leader in accept phase of a ballot that is not below the one `d` last accepted in; so is the
StopSign, if decided. -/
theorem C04_leader_completeness_partial {rel : Links} (cc : ClusterConfig) (c c' : Cluster E S) (h : c.Reachable cc rel) (h' : c.Later cc c' rel)
    (i j : NodeId) (op : OP E S) (hop : c'.servers j = .up op) (hr : op.sp.role = .leader) (hp : op.sp.phase = .accept)
    (hb : (c.servers i).disk.accepted ≤ op.sp.ls.n_leader) :
    (∀ p, p < (c.servers i).disk.ld → op.sp.ist.storage.HasPos p ∧ op.sp.ist.storage.Keeps (c.servers i).disk p) ∧
    ((c.servers i).disk.compacted_idx + (c.servers i).disk.log.length < (c.servers i).disk.ld →
      op.sp.ist.storage.stopsign = (c.servers i).disk.stopsign) := by
  obtain ⟨G, G', hm, hG, hG'⟩ := reach_two h h'
  obtain ⟨lg, hd⟩ := (hG.srv i).disk
  obtain ⟨hv, lg', hC', hR'⟩ := hG'.up hop
  have hL : LeadAcc cc j (c'.pre j) (fun _ => some lg') G' op.sp lg' := by
    unfold RoleInv at hR'; rw [hr, hp] at hR'; exact hR'
  have hacc : op.sp.ls.n_leader = op.sp.ist.storage.acc_round.getD {} := by rw [← hL.acc, hC'.mir.acc]
  obtain ⟨l, h1, h2, h3⟩ := hd.dec.cut
  have hle : l ≤ lg' := by
    rcases h3 with ⟨-, rfl⟩ | ⟨b, hb', hc⟩
    · exact Lg.bot_le _
    · exact hC'.disk.lead_le hv hG'.abs (by rw [← hacc]; exact hL.own) (hc.mono hm)
        (Ballot.le_trans hb' (by rw [← hacc]; exact hb))
  refine ⟨fun p hp => ⟨hC'.disk.hasPos hle h2 hp, hd.keeps hC'.disk h1 hle h2 hp⟩, fun hk => ?_⟩
  obtain ⟨h4, h5⟩ := hd.stop_of_cut h1 h2 hk
  rw [hC'.disk.ss, ← Lg.eq_of_ss hle h5, hd.ss, h4]

/-! ## C32 -/

/-- C32 (full claim: in all executions), for every server and moment: if some positions are decided on the storage of a
server, there is an accept quorum whose storages now contain all of them (or have compacted them), and the StopSign if it
is decided. -/
theorem C32_decided_on_quorum_partial {rel : Links} (cc : ClusterConfig) (hv : cc.validate = .ok ()) (hn : cc.nodes.Nodup) (c : Cluster E S)
    (h : c.Reachable cc rel) (i : NodeId) (hd : (c.servers i).disk.ld ≠ 0) :
    ∃ W, AcceptQuorum cc W ∧ ∀ j ∈ W,
      (∀ p, p < (c.servers i).disk.ld → (c.servers j).disk.HasPos p ∧ (c.servers j).disk.Keeps (c.servers i).disk p) ∧
      ((c.servers i).disk.compacted_idx + (c.servers i).disk.log.length < (c.servers i).disk.ld →
        (c.servers j).disk.stopsign = (c.servers i).disk.stopsign) := by
  obtain ⟨G, hG⟩ := reach_one h
  obtain ⟨lg, hD⟩ := (hG.srv i).disk
  obtain ⟨l, h1, h2, h3⟩ := hD.dec.cut
  rcases h3 with ⟨h0, -⟩ | ⟨b, -, hc⟩
  · exact absurd h0 hd
  obtain ⟨W, hW, ha⟩ := id hc
  refine ⟨W, hW.spec hn, fun j hj => ?_⟩
  obtain ⟨lg', hD'⟩ := (hG.srv j).disk
  have hle : l ≤ lg' := hD'.chosen_le hG.abs (hc.fixed hv) (.inr (ha j hj))
  refine ⟨fun p hp => ⟨hD'.hasPos hle h2 hp, hD.keeps hD' h1 hle h2 hp⟩, fun hk => ?_⟩
  obtain ⟨h4, h5⟩ := hD.stop_of_cut h1 h2 hk
  rw [hD'.ss, ← Lg.eq_of_ss hle h5, hD.ss, h4]

/-! ## C31 -/

/-- C31 (full claim: in all executions, and the servers reported their logs): a leader in accept phase of ballot `n` has a
prepare quorum of servers whose promise is at least `n`. -/
theorem C31_promise_quorum_partial {rel : Links} (cc : ClusterConfig) (hn : cc.nodes.Nodup) (c : Cluster E S) (h : c.Reachable cc rel)
    (i : NodeId) (op : OP E S) (hop : c.servers i = .up op) (hr : op.sp.role = .leader) (hp : op.sp.phase = .accept) :
    ∃ Q, PrepareQuorum cc Q ∧ ∀ j ∈ Q, op.sp.ls.n_leader ≤ (c.servers j).disk.n_prom.getD {} := by
  obtain ⟨G, hG⟩ := reach_one h
  obtain ⟨hv, lg, hC, hR⟩ := hG.up hop
  have hL : LeadAcc cc i (c.pre i) (fun _ => some lg) G op.sp lg := by
    unfold RoleInv at hR; rw [hr, hp] at hR; exact hR
  obtain ⟨lgs, m0, h1, -⟩ := hL.max
  obtain ⟨-, Q, m, n, hQ, -, hall⟩ := hG.abs.init _ _ h1
  refine ⟨Q, hQ.spec hn, fun j hj => ?_⟩
  obtain ⟨n', l', h2, -⟩ := hall j hj
  obtain ⟨lg', hD'⟩ := (hG.srv j).disk
  exact hD'.precMax _ (by rw [h2]; simp)

/-! ## C12 -/

/-- C12 (full claim: in all executions). An Accepted message for ballot `n` and index `k` that server `i` has handed out: from
then on the storage of `i` has accepted in `n` or a higher ballot, and as long as it is `n`, it contains the first `k`
positions, with the entries the leader of `n` has (or had) there. -/
theorem C12_accepted_is_persisted_partial {rel : Links} (cc : ClusterConfig) (c c' : Cluster E S) (h : c.Reachable cc rel) (h' : c.Later cc c' rel)
    (i j : NodeId) (m : PaxosMessage E S) (a : Accepted) (hm : .paxos m ∈ c.net i j) (ha : m.msg = .accepted a) :
    a.n ≤ (c'.servers i).disk.accepted ∧
    ((c'.servers i).disk.accepted = a.n → ∀ p, p < a.accepted_idx → (c'.servers i).disk.HasPos p ∧
      ((c'.servers a.n.pid).disk.accepted = a.n → (c'.servers a.n.pid).disk.HasPos p ∧
        (c'.servers a.n.pid).disk.Keeps (c'.servers i).disk p ∧ (c'.servers i).disk.Keeps (c'.servers a.n.pid).disk p)) := by
  obtain ⟨G, G', hmo, hG, hG'⟩ := reach_two h h'
  have hmem : m ∈ c.pre i j := by
    unfold Cluster.pre paxOf
    rw [List.mem_filterMap]
    exact ⟨.paxos m, hm, rfl⟩
  have hok := ((hG.srv i).link j).msg m (List.mem_append_left _ hmem)
  have hb := hok.body fun n q hq => by rw [ha] at hq; cases hq
  rw [ha, ((hG.srv i).src j m hmem).1] at hb
  obtain ⟨x, h1, h2⟩ := hb
  obtain ⟨x', h3, h4⟩ := hmo.acc _ _ _ h1
  obtain ⟨lg, hD⟩ := (hG'.srv i).disk
  refine ⟨hD.accMax _ (by rw [h3]; simp), fun he p hp => ?_⟩
  have hx : x' = lg := by
    have := hD.acc
    rw [show (c'.servers i).disk.acc_round.getD {} = a.n from he, h3] at this
    simpa using this
  subst hx
  have hc := h2.mono h4
  refine ⟨hD.hasPos (Lg.le_refl _) hc hp, fun hl => ?_⟩
  obtain ⟨lg', hD'⟩ := (hG'.srv a.n.pid).disk
  obtain ⟨p', h5, h6⟩ := hG'.abs.le_prop h3
  have hx' : p' = lg' := by
    have := hD'.acc
    rw [show (c'.servers a.n.pid).disk.acc_round.getD {} = a.n from hl, h5] at this
    simpa using this
  subst hx'
  exact ⟨hD'.hasPos h6 hc hp, hD.keeps hD' (Lg.le_refl _) h6 hc hp, hD'.keeps hD h6 (Lg.le_refl _) hc hp⟩

/-! ## C37 -/

/-- C37 (full claim: in all executions): `get_current_leader` is `None` exactly if nothing was promised, otherwise it names
the server in `get_promise`; the accept flag on a follower means that it accepted in exactly the promised ballot, and then
it has only positions of the log of that ballot's leader, if that one still has the ballot. -/
theorem C37_leader_of_ballot_partial {rel : Links} (cc : ClusterConfig) (c : Cluster E S) (h : c.Reachable cc rel) (i : NodeId) (op : OP E S)
    (hop : c.servers i = .up op) :
    (op.get_current_leader = none ↔ op.get_promise = {}) ∧
    (∀ p f, op.get_current_leader = some (p, f) → p = op.get_promise.pid) ∧
    (∀ p, op.get_current_leader = some (p, true) → op.sp.ist.storage.accepted = op.get_promise ∧
      ((c.servers p).disk.accepted = op.get_promise → ∀ q, (c.servers p).disk.Keeps op.sp.ist.storage q)) := by
  obtain ⟨G, hG⟩ := reach_one h
  obtain ⟨hv, lg, hC, hR⟩ := hG.up hop
  have hgood := hC.disk.good
  rw [← hC.mir.prom] at hgood
  refine ⟨?_, ?_, ?_⟩
  · unfold OP.get_current_leader OP.get_promise
    simp only
    split
    · rename_i h0
      refine ⟨fun _ => ?_, fun _ => rfl⟩
      rcases hgood with h1 | ⟨-, h1⟩
      · exact h1
      · exact absurd h0 h1
    · rename_i h0
      refine ⟨fun h => by simp at h, fun h => ?_⟩
      rw [h] at h0
      exact absurd rfl h0
  · intro p f hp
    unfold OP.get_current_leader at hp
    simp only at hp
    split at hp <;> simp at hp
    exact hp.1.symm
  · intro p hp
    unfold OP.get_current_leader at hp
    simp only at hp
    split at hp <;> simp at hp
    obtain ⟨hp1, hp2⟩ := hp
    have hacc : op.sp.ist.storage.accepted = op.get_promise := by
      show op.sp.ist.storage.acc_round.getD {} = op.sp.ist.cache.promise
      rw [← hC.mir.acc]
      unfold RoleInv at hR
      rw [hp2] at hR
      cases hr : op.sp.role with
      | leader => rw [hr] at hR; exact hR.acc.trans hR.ldr
      | follower => rw [hr] at hR; exact (hR.accept hp2).1
    refine ⟨hacc, fun hl q => ?_⟩
    obtain ⟨lg', hD'⟩ := (hG.srv p).disk
    obtain ⟨p', h5, h6⟩ := hG.abs.le_prop hC.disk.acc
    have hx' : p' = lg' := by
      have := hD'.acc
      rw [show (c.servers p).disk.acc_round.getD {} = op.get_promise from hl] at this
      rw [show op.sp.ist.storage.acc_round.getD {} = op.get_promise from hacc, show op.get_promise.pid = p from hp1, this] at h5
      simpa using h5.symm
    subst hx'
    exact fun e he => hD'.of_entry (Lg.get_le h6 (hC.disk.entry he))

/-! ## C38 -/

/-- C38 (full claim: in all executions, all trims): if the compacted part of a server's storage is not represented by a
snapshot, all servers of the cluster have these positions, with equal entries. -/
theorem C38_trimmed_everywhere_partial {rel : Links} (cc : ClusterConfig) (c : Cluster E S) (h : c.Reachable cc rel) (i : NodeId)
    (hs : (c.servers i).disk.snapshot = none) (p : Nat) (hp : p < (c.servers i).disk.compacted_idx)
    (j k : NodeId) (hj : j ∈ cc.nodes ∧ j ≠ 0) (hk : k ∈ cc.nodes ∧ k ≠ 0) (hv : cc.validate = .ok ()) :
    (c.servers j).disk.HasPos p ∧ (c.servers k).disk.Keeps (c.servers j).disk p := by
  obtain ⟨G, hG⟩ := reach_one h
  obtain ⟨lg, hD⟩ := (hG.srv i).disk
  rcases hD.snap hs with h0 | ⟨b, l, h1, h2⟩
  · omega
  obtain ⟨lgj, hDj⟩ := (hG.srv j).disk
  obtain ⟨lgk, hDk⟩ := (hG.srv k).disk
  have hlj : l ≤ lgj := hDj.chosen_le hG.abs (h1.fixed hv) (.inr (h1 j hj))
  have hlk : l ≤ lgk := hDk.chosen_le hG.abs (h1.fixed hv) (.inr (h1 k hk))
  exact ⟨hDj.hasPos hlj h2 hp, hDj.keeps hDk hlj hlk h2 hp⟩

/-! ## C05 -/

/-- C05 (full claim: in all executions, `get_decided_idx()` never exceeds the length of the log): proved for tidy runs and
servers that hold no StopSign. With a StopSign it is false, see Props/Witness.lean. -/
theorem C05_decided_within_log_partial {rel : Links} (cc : ClusterConfig) (c : Cluster E S) (h : c.Reachable cc rel) (i : NodeId) (op : OP E S)
    (hop : c.servers i = .up op) (hs : op.sp.ist.storage.stopsign = none) :
    op.get_decided_idx ≤ op.get_compacted_idx + op.sp.ist.storage.log.length := by
  obtain ⟨G, hG⟩ := reach_one h
  obtain ⟨hv, lg, hC, hR⟩ := hG.up hop
  have h1 := hC.disk.dec.covers
  have hss : lg.ss = none := by rw [← hC.disk.ss]; exact hs
  unfold OP.get_decided_idx OP.get_compacted_idx
  rw [hC.mir.dec, hC.mir.comp, hC.disk.log, List.length_drop]
  rcases h1 with h1 | h1
  · omega
  · exact absurd hss h1

end Omni
