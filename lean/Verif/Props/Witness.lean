import Verif.Spec.Runs
import Verif.Spec.AnyNet
import Verif.Spec.Snapshot
import Verif.Spec.Progress
import Verif.Spec.Service
/-
The code violates some properties. Here the unrestricted claims are refuted by concrete executions of the model, evaluated by
the kernel. The theorems that hold in spite of this are in the other files of this directory.
-/
namespace Omni
open Sample

/-- A run and a later part of it, with tests of both states. -/
def run2 [SnapOps Nat (List Nat)] (cc : ClusterConfig) (as : List A) (P : C → Bool) (bs : List A) (Q : C → Bool) : Bool :=
  as.all Action.InOrder && bs.all Action.InOrder && match Cluster.init.run cc as with
  | none => false
  | some c => P c && match c.run cc bs with
    | none => false
    | some c' => Q c'

theorem run2_elim [SnapOps Nat (List Nat)] {cc : ClusterConfig} {as bs : List A} {P Q : C → Bool} (h : run2 cc as P bs Q = true) :
    ∃ c c' : C, c.AnyReach cc ∧ c.AnyLater cc c' ∧ P c = true ∧ Q c' = true := by
  unfold run2 at h
  simp only [Bool.and_eq_true] at h
  obtain ⟨⟨o1, o2⟩, h⟩ := h
  split at h
  · simp at h
  · rename_i c hc
    simp only [Bool.and_eq_true] at h
    obtain ⟨h1, h2⟩ := h
    split at h2
    · simp at h2
    · rename_i c' hc'
      exact ⟨c, c', ⟨as, o1, hc⟩, ⟨bs, o2, hc'⟩, h1, h2⟩

theorem run1_elim [SnapOps Nat (List Nat)] {cc : ClusterConfig} {as : List A} {P : C → Bool}
    (h : run2 cc as P [] (fun _ => true) = true) : ∃ c : C, c.AnyReach cc ∧ P c = true := by
  obtain ⟨c, -, h1, -, h2, -⟩ := run2_elim h
  exact ⟨c, h1, h2⟩

section noSync
attribute [local instance] Sample.noSync

/-! ## F1: entries merged into an AcceptDecide of the previous session

The first AcceptSync to server 2 is lost. The leader appends 7, which is put into AcceptDecide (session 1). A re-sent Promise
of server 2 arrives before the leader's messages are taken: AcceptSync (session 2) follows, with the log [7]. Then 8 is
appended, and merged into the AcceptDecide of session 1, which server 2 ignores. 9 is sent in session 2 and follows 7. -/

def mergeRun : List A := [.start 1 (sc 1), .start 2 (sc 2), .start 3 (sc 3), .call 1 .tryBecomeLeader, .take 1, .lose 1 3 0,
  .lose 1 3 0, .lose 1 2 1, .deliver 1 2, .take 2, .lose 2 1 1, .lose 2 3 0, .deliver 2 1, .take 1, .lose 1 2 0,
  .call 1 (.append 7), .call 2 .tick, .take 2, .deliver 2 1, .call 1 (.append 8), .take 1, .call 1 (.append 9), .take 1,
  .deliver 1 2, .take 2, .deliver 1 2, .take 2, .deliver 1 2, .take 2]

/-- Server 1 learns the acceptance and decides, then server 2 does. -/
def mergeDecide : List A := [.deliver 2 1, .take 1, .deliver 1 2, .take 2, .deliver 2 1, .take 1, .deliver 1 2, .take 2]

/-- C01 is false of the code without the restriction to tidy runs. -/
theorem C01_false_merged_acceptdecide : ¬ ∀ (cc : ClusterConfig) (c : C), c.AnyReach cc →
    ∀ (i j : NodeId) (p : Nat) (e f : Nat), c.Shows i p (.decided e) → c.Shows j p (.decided f) → e = f := by
  intro hall
  obtain ⟨c, h, hP⟩ := run1_elim (cc := cc) (as := mergeRun ++ mergeDecide) (P := fun c =>
    onUp c 1 (fun op => op.read 1 = some (some (.decided 8))) && onUp c 2 (fun op => op.read 1 = some (some (.decided 9)))) (by decide +kernel)
  simp only [Bool.and_eq_true] at hP
  obtain ⟨op1, h1, h1'⟩ := onUp_elim hP.1
  obtain ⟨op2, h2, h2'⟩ := onUp_elim hP.2
  simp only [decide_eq_true_eq] at h1' h2'
  have := hall cc c h 1 2 1 8 9 ⟨_, h1, .read h1'⟩ ⟨_, h2, .read h2'⟩
  omega

/-- C02 is false of the code. -/
theorem C02_false_merged_acceptdecide : ¬ ∀ (cc : ClusterConfig) (c : C), c.AnyReach cc →
    ∀ (i j : NodeId), (c.servers i).disk.compacted_idx = 0 → (c.servers j).disk.compacted_idx = 0 →
    (c.servers i).disk.log.take (c.servers i).disk.ld <+: (c.servers j).disk.log.take (c.servers j).disk.ld ∨
    (c.servers j).disk.log.take (c.servers j).disk.ld <+: (c.servers i).disk.log.take (c.servers i).disk.ld := by
  intro hall
  obtain ⟨c, h, hP⟩ := run1_elim (cc := cc) (as := mergeRun ++ mergeDecide) (P := fun c =>
    decide ((c.servers 1).disk.compacted_idx = 0 ∧ (c.servers 2).disk.compacted_idx = 0 ∧
      (c.servers 1).disk.log = [7, 8, 9] ∧ (c.servers 1).disk.ld = 2 ∧ (c.servers 2).disk.log = [7, 9] ∧ (c.servers 2).disk.ld = 2))
    (by decide +kernel)
  simp only [decide_eq_true_eq] at hP
  obtain ⟨h1, h2, h3, h4, h5, h6⟩ := hP
  have := hall cc c h 1 2 h1 h2
  rw [h3, h4, h5, h6] at this
  revert this
  decide

/-- C04 is false of the code: server 3 takes over with server 2 and lacks the 8 that was decided on server 1. -/
theorem C04_false_merged_acceptdecide : ¬ ∀ (cc : ClusterConfig) (c c' : C), c.AnyReach cc → c.AnyLater cc c' →
    ∀ (i j : NodeId) (op : OP Nat (List Nat)), c'.servers j = .up op → op.sp.role = .leader → op.sp.phase = .accept →
    (c.servers i).disk.accepted < op.sp.ls.n_leader →
    ∀ p, p < (c.servers i).disk.ld → op.sp.ist.storage.Keeps (c.servers i).disk p := by
  intro hall
  obtain ⟨c, c', h, h', hP, hQ⟩ := run2_elim (cc := cc) (as := mergeRun ++ mergeDecide) (bs := takeover3)
    (P := fun c => decide ((c.servers 1).disk.accepted = ⟨1, 1, 0, 1⟩ ∧ (c.servers 1).disk.ld = 2 ∧ (c.servers 1).disk.entryAt 1 = some 8))
    (Q := fun c => onUp c 3 fun op => op.sp.role = .leader ∧ op.sp.phase = .accept ∧ op.sp.ls.n_leader = ⟨1, 1, 0, 3⟩ ∧
      op.sp.ist.storage.compacted_idx = 0 ∧ op.sp.ist.storage.entryAt 1 = some 9) (by decide +kernel)
  obtain ⟨op3, h3, h3'⟩ := onUp_elim hQ
  simp only [decide_eq_true_eq] at h3' hP
  obtain ⟨h4, h5, h6⟩ := hP
  obtain ⟨h7, h8, h9, h10, h11⟩ := h3'
  have := hall cc c c' h h' 1 3 op3 h3 h7 h8 (by rw [h4, h9]; decide) 1 (by omega) 8 h6
  rw [h10, h11] at this
  simp at this

/-- C12 is false of the code: server 2 acknowledges two positions of ballot `n` and holds 9 at the second one, the leader of `n`
has 8 there. -/
theorem C12_false_merged_acceptdecide : ¬ ∀ (cc : ClusterConfig) (c : C), c.AnyReach cc →
    ∀ (i j : NodeId) (m : PaxosMessage Nat (List Nat)) (a : Accepted), .paxos m ∈ c.net i j → m.msg = .accepted a →
    (c.servers i).disk.accepted = a.n → (c.servers a.n.pid).disk.accepted = a.n → ∀ p, p < a.accepted_idx →
    (c.servers a.n.pid).disk.Keeps (c.servers i).disk p := by
  intro hall
  obtain ⟨c, h, hP⟩ := run1_elim (cc := cc) (as := mergeRun) (P := fun c =>
    decide (.paxos ⟨2, 1, .accepted ⟨⟨1, 1, 0, 1⟩, 2⟩⟩ ∈ c.net 2 1 ∧ (c.servers 2).disk.accepted = ⟨1, 1, 0, 1⟩ ∧
      (c.servers 1).disk.accepted = ⟨1, 1, 0, 1⟩ ∧ (c.servers 1).disk.compacted_idx = 0 ∧ (c.servers 1).disk.entryAt 1 = some 8 ∧
      (c.servers 2).disk.entryAt 1 = some 9)) (by decide +kernel)
  simp only [decide_eq_true_eq] at hP
  obtain ⟨h1, h2, h3, h4, h5, h6⟩ := hP
  have := hall cc c h 2 1 _ ⟨⟨1, 1, 0, 1⟩, 2⟩ h1 rfl h2 h3 1 (by decide) 9 h6
  simp only [h4, h5] at this
  simp at this

/-- C32 is false of the code: position 1 is decided with 8 on server 1, which is the only one that has 8 there. -/
theorem C32_false_merged_acceptdecide : ¬ ∀ (cc : ClusterConfig), cc.validate = .ok () → cc.nodes.Nodup → ∀ (c : C), c.AnyReach cc →
    ∀ i, (c.servers i).disk.ld ≠ 0 → ∃ W, AcceptQuorum cc W ∧ ∀ j ∈ W, ∀ p, p < (c.servers i).disk.ld →
      (c.servers j).disk.HasPos p ∧ (c.servers j).disk.Keeps (c.servers i).disk p := by
  intro hall
  obtain ⟨c, h, hP⟩ := run1_elim (cc := cc) (as := mergeRun ++ mergeDecide) (P := fun c =>
    decide ((c.servers 1).disk.ld = 2 ∧ (c.servers 1).disk.entryAt 1 = some 8 ∧ (c.servers 2).disk.compacted_idx = 0 ∧
      (c.servers 2).disk.entryAt 1 = some 9 ∧ (c.servers 3).disk.compacted_idx = 0 ∧ (c.servers 3).disk.entryAt 1 = none)) (by decide +kernel)
  simp only [decide_eq_true_eq] at hP
  obtain ⟨h1, h2, h3, h4, h5, h6⟩ := hP
  obtain ⟨W, hW, ha⟩ := hall cc rfl (by decide) c h 1 (by omega)
  have n2 : 2 ∉ W := by
    intro hm
    have := (ha 2 hm 1 (by omega)).2 8 h2
    rw [h3, h4] at this
    simp at this
  have n3 : 3 ∉ W := by
    intro hm
    have := (ha 3 hm 1 (by omega)).2 8 h2
    rw [h5, h6] at this
    simp at this
  have hsub : ∀ x ∈ W, x = 1 := by
    intro x hx
    have := hW.members x hx
    simp [cc] at this
    rcases this with h | h | h
    · exact h
    · subst h; exact absurd hx n2
    · subst h; exact absurd hx n3
  have hl : W.length ≤ 1 := by
    rcases W with _ | ⟨a, _ | ⟨b, W⟩⟩
    · simp
    · simp
    · have h1 := hsub a (by simp)
      have h2 := hsub b (by simp)
      have := hW.distinct
      rw [h1, h2] at this
      simp at this
  have := hW.size
  simp [cc] at this
  omega

/-- `mergeRun` with a StopSign instead of 9. -/
def mergeStop : List A := [.start 1 (sc 1), .start 2 (sc 2), .start 3 (sc 3), .call 1 .tryBecomeLeader, .take 1, .lose 1 3 0,
  .lose 1 3 0, .lose 1 2 1, .deliver 1 2, .take 2, .lose 2 1 1, .lose 2 3 0, .deliver 2 1, .take 1, .lose 1 2 0,
  .call 1 (.append 7), .call 2 .tick, .take 2, .deliver 2 1, .call 1 (.append 8), .take 1, .call 1 (.reconfigure cc' none), .take 1,
  .deliver 1 2, .take 2, .deliver 1 2, .take 2, .deliver 1 2, .take 2]

/-- C09 is false of the code: server 2 shows the StopSign as decided at position 1, where server 1 shows 8 as decided. -/
theorem C09_false_merged_acceptdecide : ¬ ∀ (cc : ClusterConfig) (c : C), c.AnyReach cc →
    ∀ (i j : NodeId) (op : OP Nat (List Nat)), c.servers i = .up op → ∀ (p q : Nat) (ss : StopSign) (e : Nat),
      op.read q = some (some (.stopSign ss true)) → c.Shows j p (.decided e) → p < q := by
  intro hall
  obtain ⟨c, h, hP⟩ := run1_elim (cc := cc) (as := mergeStop ++ mergeDecide) (P := fun c =>
    onUp c 1 (fun op => op.read 1 = some (some (.decided 8))) && onUp c 2 (fun op => op.read 1 = some (some (.stopSign ⟨cc', none⟩ true))))
    (by decide +kernel)
  simp only [Bool.and_eq_true] at hP
  obtain ⟨op1, h1, h1'⟩ := onUp_elim hP.1
  obtain ⟨op2, h2, h2'⟩ := onUp_elim hP.2
  simp only [decide_eq_true_eq] at h1' h2'
  have := hall cc c h 2 1 op2 h2 1 1 _ 8 h2' ⟨_, h1, .read h1'⟩
  omega

/-- Server 3 joins, and the leader trims two positions. -/
def mergeTrim : List A := [.call 1 .tick, .take 1, .deliver 1 3, .take 3, .deliver 3 1, .take 1, .deliver 1 3, .take 3, .deliver 3 1,
  .deliver 3 1, .take 1, .call 1 (.trim (some 2))]

/-- C38 is false of the code: the 8 at position 1 is trimmed by its leader, and server 2 has 9 there. -/
theorem C38_false_merged_acceptdecide : ¬ ∀ (cc : ClusterConfig) (c : C), cc.validate = .ok () → c.AnyReach cc → ∀ (i : NodeId),
    (c.servers i).disk.snapshot = none → ∀ p, p < (c.servers i).disk.compacted_idx → ∀ j k, j ∈ cc.nodes ∧ j ≠ 0 → k ∈ cc.nodes ∧ k ≠ 0 →
      (c.servers j).disk.HasPos p ∧ (c.servers k).disk.Keeps (c.servers j).disk p := by
  intro hall
  obtain ⟨c, h, hP⟩ := run1_elim (cc := cc) (as := mergeRun ++ mergeDecide ++ mergeTrim) (P := fun c =>
    decide ((c.servers 1).disk.compacted_idx = 2 ∧ (c.servers 1).disk.snapshot = none ∧ (c.servers 2).disk.compacted_idx = 0 ∧
      (c.servers 2).disk.entryAt 1 = some 9 ∧ (c.servers 3).disk.entryAt 1 = some 8)) (by decide +kernel)
  simp only [decide_eq_true_eq] at hP
  obtain ⟨h1, h2, h3, h4, h5⟩ := hP
  have := (hall cc c rfl h 1 h2 1 (by omega) 3 2 (by decide) (by decide)).2 8 h5
  rw [h3, h4] at this
  simp at this

/-- C58 is false of the code: the second configuration has been started from the StopSign that server 2 shows as decided at position 1 of the
first one, and server 1 shows an entry as decided at that position. Messages stay within their configuration, and the links keep their order. -/
theorem C58_false_merged_acceptdecide : ¬ ∀ (cc : ClusterConfig) (as : List (SAction Nat (List Nat))) (s : Service Nat (List Nat)),
    (∀ a ∈ as, a.Separate) → (∀ g k b, .act g k b ∈ as → Action.InOrder b = true) → (Service.init cc).run as = some s →
    ∀ (g : Nat) (i j : NodeId) (op : OP Nat (List Nat)), (s.gen g).servers i = .up op → ∀ (p q : Nat) (ss : StopSign) (e : Nat),
      op.read q = some (some (.stopSign ss true)) → ss.next_config ∈ s.learnt (g + 1) → (∃ op', (s.gen (g + 1)).servers i = .up op') →
      (s.gen g).Shows j p (.decided e) → p < q := by
  intro hall
  have key : (match (Service.init cc).run ((mergeStop ++ mergeDecide).map (.act 0 0) ++ [.learn 0 2, .act 1 0 (.start 2 (sc 2))]) with
    | none => false
    | some s => onUp (s.gen 0) 1 (fun op => op.read 1 = some (some (.decided 8))) &&
        onUp (s.gen 0) 2 (fun op => op.read 1 = some (some (.stopSign ⟨cc', none⟩ true))) &&
        decide (cc' ∈ s.learnt 1) && onUp (s.gen 1) 2 (fun _ => true)) = true := by decide +kernel
  split at key
  · cases key
  · rename_i s hs
    simp only [Bool.and_eq_true, decide_eq_true_eq] at key
    obtain ⟨⟨⟨k1, k2⟩, k3⟩, k4⟩ := key
    obtain ⟨op1, h1, h1'⟩ := onUp_elim k1
    obtain ⟨op2, h2, h2'⟩ := onUp_elim k2
    obtain ⟨op3, h3, -⟩ := onUp_elim k4
    simp only [decide_eq_true_eq] at h1' h2'
    have hsep : ∀ a ∈ (mergeStop ++ mergeDecide).map (SAction.act 0 0) ++ [.learn 0 2, .act 1 0 (.start 2 (sc 2))], a.Separate := by
      intro a ha
      rcases List.mem_append.1 ha with ha | ha
      · obtain ⟨b, -, rfl⟩ := List.mem_map.1 ha
        trivial
      · rcases List.mem_cons.1 ha with rfl | ha
        · trivial
        · rw [List.mem_singleton.1 ha]
          trivial
    have hord : ∀ b ∈ mergeStop ++ mergeDecide, Action.InOrder b = true := by
      have : (mergeStop ++ mergeDecide).all Action.InOrder = true := by decide +kernel
      exact List.all_eq_true.1 this
    have := hall cc _ s hsep (fun g k b hb => by
      rcases List.mem_append.1 hb with hb | hb
      · obtain ⟨b', hb', he⟩ := List.mem_map.1 hb
        cases he
        exact hord _ hb'
      · rcases List.mem_cons.1 hb with he | hb
        · cases he
        · cases List.mem_singleton.1 hb
          rfl) hs 0 2 1 op2 h2 1 1 _ 8 h2' k3 ⟨op3, h3⟩ ⟨_, h1, .read h1'⟩
    omega

/-! ## F3: synchronisation overwrites the decided index -/

/-- Server 1 decides [7, 8]; the Decide to server 2 is lost. Server 3 takes over with server 2, decides nothing yet, and then
synchronises server 1. -/
def undecideRun : List A := [.start 1 (sc 1), .start 2 (sc 2), .start 3 (sc 3), .call 1 .tryBecomeLeader, .take 1, .lose 1 3 0,
  .lose 1 3 0, .lose 1 2 1, .deliver 1 2, .take 2, .lose 2 1 1, .lose 2 3 0, .deliver 2 1, .take 1, .deliver 1 2, .take 2,
  .deliver 2 1, .take 1, .call 1 (.append 7), .call 1 (.append 8), .take 1, .deliver 1 2, .take 2, .deliver 2 1, .take 1,
  .lose 1 2 0, .call 3 .tryBecomeLeader, .take 3, .lose 3 1 1, .lose 3 2 1, .deliver 3 2, .take 2, .deliver 2 3, .take 3,
  .deliver 3 1, .take 1, .deliver 1 3, .take 3]

/-- C06 is false of the code: the decided index of a running server goes back when it handles an AcceptSync. -/
theorem C06_false_sync : ¬ ∀ (cc : ClusterConfig) (c c' : C) (a : A), c.AnyReach cc → c.step cc a = some c' →
    ∀ (i : NodeId) (op op' : OP Nat (List Nat)), c.servers i = .up op → c'.servers i = .up op' →
    op.get_decided_idx ≤ op'.get_decided_idx := by
  intro hall
  obtain ⟨c, c', h, ⟨as, h'⟩, hP, hQ⟩ : ∃ c c' : C, c.AnyReach cc ∧ (∃ a, c.step cc a = some c') ∧
      onUp c 1 (fun op => op.get_decided_idx = 2) = true ∧ onUp c' 1 (fun op => op.get_decided_idx = 0) = true := by
    have : (match Cluster.init.run cc undecideRun with
      | none => false
      | some c => onUp c 1 (fun op => op.get_decided_idx = 2) && match c.step cc (.deliver 3 1) with
        | none => false
        | some c' => onUp c' 1 (fun op => op.get_decided_idx = 0)) = true := by decide +kernel
    split at this
    · simp at this
    · rename_i c hc
      simp only [Bool.and_eq_true] at this
      obtain ⟨h1, h2⟩ := this
      split at h2
      · simp at h2
      · rename_i c' hc'
        exact ⟨c, c', ⟨_, by decide, hc⟩, ⟨_, hc'⟩, h1, h2⟩
  obtain ⟨op, h1, h1'⟩ := onUp_elim hP
  obtain ⟨op', h2, h2'⟩ := onUp_elim hQ
  have := hall cc c c' as h h' 1 op op' h1 h2
  simp only [decide_eq_true_eq] at h1' h2'
  omega

/-! ## F5: the StopSign is counted twice

A follower that holds the StopSign (so its accepted index counts it) asks to be synchronised again. The leader sends
`sync_idx` = that accepted index and the StopSign, and `sync_log` adds one for it again. -/

def reconfRun : List A := [.start 1 (sc 1), .start 2 (sc 2), .start 3 (sc 3), .call 1 .tryBecomeLeader, .take 1, .lose 1 2 1,
  .lose 1 3 1, .deliver 1 2, .take 2, .lose 2 1 1, .lose 2 3 0, .deliver 2 1, .take 1, .deliver 1 2, .take 2, .deliver 2 1,
  .take 1, .deliver 1 3, .take 3, .lose 3 1 1, .lose 3 2 0, .deliver 3 1, .take 1, .deliver 1 3, .take 3, .deliver 3 1, .take 1,
  .call 1 (.append 7), .take 1, .call 1 (.reconfigure cc' none), .take 1, .deliver 1 2, .take 2, .deliver 1 2, .take 2,
  .deliver 2 1, .take 1, .deliver 1 2, .take 2, .deliver 2 1, .take 1, .deliver 1 2, .take 2, .deliver 1 3, .take 3,
  .deliver 1 3, .take 3, .deliver 1 3, .take 3, .deliver 1 3, .take 3, .deliver 3 1, .take 1, .deliver 3 1, .take 1]

/-- Server 2 reconnects. -/
def resync2 : List A := [.call 2 (.reconnected 1), .take 2, .deliver 2 1, .take 1, .deliver 1 2, .take 2, .deliver 2 1, .take 1,
  .deliver 1 2, .take 2, .deliver 2 1, .take 1]

/-- So does server 3. -/
def resync3 : List A := [.call 3 (.reconnected 1), .take 3, .deliver 3 1, .take 1, .deliver 1 3, .take 3, .deliver 3 1, .take 1,
  .deliver 1 3, .take 3, .deliver 3 1, .take 1, .deliver 1 3, .take 3, .deliver 1 2, .take 2]

/-- C10, second half, is false of the code: `is_reconfigured` returns `Some` on the leader and later `None`, although the
leader was running all the time and only handled messages. -/
theorem C10_false_stability : ¬ ∀ (cc : ClusterConfig) (c c' : C), c.AnyReach cc → c.AnyLater cc c' →
    ∀ (i : NodeId) (op op' : OP Nat (List Nat)), c.servers i = .up op → c'.servers i = .up op' →
    op.is_reconfigured ≠ none → op'.is_reconfigured ≠ none := by
  intro hall
  obtain ⟨c, c', h, h', hP, hQ⟩ := run2_elim (cc := cc) (as := reconfRun) (bs := resync2 ++ resync3)
    (P := fun c => onUp c 1 (fun op => op.is_reconfigured ≠ none)) (Q := fun c => onUp c 1 (fun op => op.is_reconfigured = none))
    (by decide +kernel)
  obtain ⟨op, h1, h1'⟩ := onUp_elim hP
  obtain ⟨op', h2, h2'⟩ := onUp_elim hQ
  exact hall cc c c' h h' 1 op op' h1 h2 (of_decide_eq_true h1') (of_decide_eq_true h2')

/-- C05 is false of the code: the leader's decided index is larger than its log with the StopSign. -/
theorem C05_false_stopsign : ¬ ∀ (cc : ClusterConfig) (c : C), c.AnyReach cc → ∀ (i : NodeId) (op : OP Nat (List Nat)),
    c.servers i = .up op → op.get_decided_idx ≤ op.get_compacted_idx + op.sp.ist.storage.log.length +
      (if op.sp.ist.storage.stopsign = none then 0 else 1) := by
  intro hall
  obtain ⟨c, h, hP⟩ := run1_elim (cc := cc) (as := reconfRun ++ resync2 ++ resync3)
    (P := fun c => onUp c 1 (fun op => ¬ op.get_decided_idx ≤ op.get_compacted_idx + op.sp.ist.storage.log.length +
      (if op.sp.ist.storage.stopsign = none then 0 else 1))) (by decide +kernel)
  obtain ⟨op, h1, h1'⟩ := onUp_elim hP
  exact of_decide_eq_true h1' (hall cc c h 1 op h1)

/-- C17 is false of the code: on server 2 nothing is compacted and 7 is in the log and decided, but reading the whole log does
not show it, and there is a hole between it and the StopSign. -/
theorem C17_false_stopsign : ∃ (c : C) (op : OP Nat (List Nat)), c.AnyReach cc ∧ c.servers 2 = .up op ∧ op.get_compacted_idx = 0 ∧
    op.get_decided_idx = 2 ∧ op.sp.ist.storage.log = [7] ∧ op.sp.ist.storage.stopsign = some ⟨cc', none⟩ ∧
    op.read_entries .unbounded .unbounded = some (some [.stopSign ⟨cc', none⟩ false]) ∧ op.read 0 = some (some (.decided 7)) ∧
    op.read 1 = some none ∧ op.read 2 = some (some (.stopSign ⟨cc', none⟩ false)) := by
  obtain ⟨c, h, hP⟩ := run1_elim (cc := cc) (as := reconfRun ++ resync2)
    (P := fun c => onUp c 2 (fun op => op.get_compacted_idx = 0 ∧
    op.get_decided_idx = 2 ∧ op.sp.ist.storage.log = [7] ∧ op.sp.ist.storage.stopsign = some ⟨cc', none⟩ ∧
    op.read_entries .unbounded .unbounded = some (some [.stopSign ⟨cc', none⟩ false]) ∧ op.read 0 = some (some (.decided 7)) ∧
    op.read 1 = some none ∧ op.read 2 = some (some (.stopSign ⟨cc', none⟩ false)))) (by decide +kernel)
  obtain ⟨op, h1, h1'⟩ := onUp_elim hP
  exact ⟨c, op, h, h1, of_decide_eq_true h1'⟩

/-! ## F7: a trimmed server cannot answer a Prepare

All servers accept [7], server 3 does not learn that it is decided. Servers 1 and 2 trim it. Server 2 takes over. When server 3
prepares, with its decided index 0, server 1 has to send the log from there on. -/

def trimRun : List A := [.start 1 (sc 1), .start 2 (sc 2), .start 3 (sc 3), .call 1 .tryBecomeLeader, .take 1, .lose 1 2 1,
  .lose 1 3 1, .deliver 1 2, .take 2, .lose 2 1 1, .lose 2 3 0, .deliver 2 1, .take 1, .deliver 1 2, .take 2, .deliver 2 1,
  .take 1, .deliver 1 3, .take 3, .lose 3 1 1, .lose 3 2 0, .deliver 3 1, .take 1, .deliver 1 3, .take 3, .deliver 3 1, .take 1,
  .call 1 (.append 7), .take 1, .deliver 1 3, .take 3, .deliver 3 1, .take 1, .lose 1 3 0, .deliver 1 2, .take 2, .deliver 1 2,
  .take 2, .deliver 2 1, .take 1, .call 1 (.trim (some 1)), .take 1, .lose 1 3 0, .deliver 1 2, .take 2, .call 2 .tryBecomeLeader,
  .take 2, .lose 2 3 0, .deliver 2 1, .take 1, .deliver 1 2, .take 2, .deliver 2 1, .take 1, .deliver 1 2, .take 2,
  .call 3 .tryBecomeLeader, .take 3]

/-- C39 is false of the code: delivering a message brings a running server down. -/
theorem C39_false_prepare_after_trim : ¬ ∀ (cc : ClusterConfig) (c c' : C) (i j : NodeId), c.AnyReach cc →
    c.step cc (.deliver i j) = some c' → ∀ op, c.servers j = .up op → ∃ op', c'.servers j = .up op' := by
  intro hall
  obtain ⟨c, c', h, h', hP, hQ⟩ : ∃ c c' : C, c.AnyReach cc ∧ c.step cc (.deliver 3 1) = some c' ∧
      onUp c 1 (fun _ => true) = true ∧ onUp c' 1 (fun _ => true) = false := by
    have : (match Cluster.init.run cc trimRun with
      | none => false
      | some c => onUp c 1 (fun _ => true) && match c.step cc (.deliver 3 1) with
        | none => false
        | some c' => !onUp c' 1 (fun _ => true)) = true := by decide +kernel
    split at this
    · simp at this
    · rename_i c hc
      simp only [Bool.and_eq_true] at this
      obtain ⟨h1, h2⟩ := this
      split at h2
      · simp at h2
      · rename_i c' hc'
        exact ⟨c, c', ⟨_, by decide, hc⟩, hc', h1, by simpa using h2⟩
  obtain ⟨op, h1, -⟩ := onUp_elim hP
  obtain ⟨op', h2⟩ := hall cc c c' 3 1 h h' op h1
  simp [onUp, h2] at hQ

/-! ## F8: pids with gaps -/

/-- A valid configuration whose pids are not 1..n. -/
def gapped : ClusterConfig := { configuration_id := 1, nodes := [1, 2, 4] }

def gappedRun : List A := [.start 1 (sc 1), .start 2 (sc 2), .start 4 (sc 4), .call 1 .tryBecomeLeader, .take 1, .lose 1 2 1,
  .lose 1 4 1, .deliver 1 2, .take 2, .lose 2 1 1, .lose 2 4 0, .deliver 2 1, .take 1, .deliver 1 2, .take 2, .deliver 2 1,
  .take 1, .deliver 1 4, .take 4, .lose 4 1 1, .lose 4 2 0, .deliver 4 1, .take 1, .deliver 1 4, .take 4, .deliver 4 1, .take 1,
  .call 1 (.append 7), .take 1, .deliver 1 2, .take 2, .deliver 2 1, .take 1, .deliver 1 2, .take 2, .deliver 1 4, .take 4,
  .deliver 1 4, .take 4, .deliver 4 1, .take 1]

/-- The error that `trim` returns, if it returns one. -/
def trimError (op : OP Nat (List Nat)) (idx : Option Nat) : Option CompactionErr :=
  match OP.trim idx op with
  | .ok (.error e) _ => some e
  | _ => none

/-- C40 is false of the code: all three servers decided one entry and told the leader, and `trim` fails with
`NotAllDecided(0)`. -/
theorem C40_false_gapped_pids : ∃ (c : C) (op : OP Nat (List Nat)), gapped.validate = .ok () ∧ c.AnyReach gapped ∧
    (∀ i ∈ gapped.nodes, (c.servers i).disk.ld = 1 ∧ (c.servers i).disk.log = [7]) ∧ c.servers 1 = .up op ∧
    op.sp.role = .leader ∧ (∀ i ∈ gapped.nodes, op.sp.ls.get_accepted_idx i = some 1) ∧
    trimError op (some 1) = some (.notAllDecided 0) := by
  obtain ⟨c, h, hP⟩ := run1_elim (cc := gapped) (as := gappedRun)
    (P := fun c => decide (∀ i ∈ gapped.nodes, (c.servers i).disk.ld = 1 ∧ (c.servers i).disk.log = [7]) &&
      onUp c 1 (fun op => op.sp.role = .leader ∧ (∀ i ∈ gapped.nodes, op.sp.ls.get_accepted_idx i = some 1) ∧
        trimError op (some 1) = some (.notAllDecided 0))) (by decide +kernel)
  simp only [Bool.and_eq_true] at hP
  obtain ⟨op, h1, h1'⟩ := onUp_elim hP.2
  exact ⟨c, op, rfl, h, of_decide_eq_true hP.1, h1, of_decide_eq_true h1'⟩

/-! ## F9: a server with pid 0 -/

/-- A configuration that is accepted although it contains the pid 0. -/
def withZero : ClusterConfig := { configuration_id := 1, nodes := [0, 1, 2] }

/-- C44 is false of the code: server 1 is about to become leader, and its next tick re-sends Prepare; it looks up the promise of
peer 0 at index -1 and panics. -/
theorem C44_false_node_zero : withZero.validate = .ok () ∧ ∃ (c : C) (op : OP Nat (List Nat)), c.AnyReach withZero ∧
    c.servers 1 = .up op ∧ ∃ d, op.callResult .tick = .down d := by
  obtain ⟨c, h, hP⟩ := run1_elim (cc := withZero) (as := [.start 1 (sc 1), .call 1 .tryBecomeLeader])
    (P := fun c => onUp c 1 (fun op => match op.callResult .tick with
      | .down _ => true
      | .up _ => false)) (by decide +kernel)
  obtain ⟨op, h1, h1'⟩ := onUp_elim hP
  refine ⟨rfl, c, op, h, h1, ?_⟩
  split at h1'
  · rename_i d hd; exact ⟨d, hd⟩
  · cases h1'

/-! ## F11: a snapshot that is older than the compacted index -/

/-- C41 is false of the code: after `snapshot(1)` and `trim(2)` the read functions return the snapshot [7] as the snapshot of
the first two positions, which are 7 and 8. -/
theorem C41_false_trim_after_snapshot : ∃ (c c' : C) (op : OP Nat (List Nat)), c.AnyReach cc ∧ c.AnyLater cc c' ∧
    c.Shows 1 0 (.decided 7) ∧ c.Shows 1 1 (.decided 8) ∧ c'.servers 1 = .up op ∧ op.read 0 = some (some (.snapshotted 2 [7])) := by
  obtain ⟨c, c', h, h', hP, hQ⟩ := run2_elim (cc := cc) (as := decideTrim.take 42)
    (bs := [.call 1 (.snapshot (some 1) true), .call 1 (.trim (some 2))])
    (P := fun c => onUp c 1 (fun op => op.read 0 = some (some (.decided 7)) ∧ op.read 1 = some (some (.decided 8))))
    (Q := fun c => onUp c 1 (fun op => op.read 0 = some (some (.snapshotted 2 [7])))) (by decide +kernel)
  obtain ⟨op, h1, h1'⟩ := onUp_elim hP
  obtain ⟨op', h2, h2'⟩ := onUp_elim hQ
  have := of_decide_eq_true h1'
  exact ⟨c, c', op', h, h', ⟨_, h1, .read this.1⟩, ⟨_, h1, .read this.2⟩, h2, of_decide_eq_true h2'⟩

/-! ## F2: a duplicated AcceptSync -/

/-- Server 2 receives the first AcceptSync of server 1 a second time, while it waits for a newer one. It throws away the entry
that it acknowledged and that server 1 decided; server 3 takes over with server 2. -/
def dupRun : List (LAction Nat (List Nat)) := [.start 1 (sc 1), .start 2 (sc 2), .start 3 (sc 3), .call 1 .tryBecomeLeader, .take 1,
  .deliver 0, .take 2, .deliver 4, .take 1, .deliver 7, .take 2, .deliver 8, .take 1, .call 1 (.append 7), .take 1, .deliver 9,
  .take 2, .deliver 10, .take 1, .deliver 11, .take 2, .call 2 (.reconnected 1), .take 2, .deliver 12, .take 1, .deliver 13,
  .take 2, .deliver 7, .take 2, .call 3 .tryBecomeLeader, .take 3, .deliver 17, .take 2, .deliver 20, .take 3, .deliver 21,
  .take 2, .deliver 22, .take 3, .call 3 (.append 9), .take 3, .deliver 23, .take 2, .deliver 24, .take 3, .deliver 25, .take 2]

/-- C01 is false of the code on a network that duplicates and reorders messages: 7 and 9 are decided at position 0. (Outgoing
messages are taken after every call in this run.) -/
theorem C01_false_duplicated_acceptsync : ∃ (c : Loose Nat (List Nat)) (op op' : OP Nat (List Nat)), Loose.init.run cc dupRun = some c ∧
    c.servers 1 = .up op ∧ op.read 0 = some (some (.decided 7)) ∧ c.servers 3 = .up op' ∧ op'.read 0 = some (some (.decided 9)) := by
  have : (match Loose.init.run cc dupRun with
    | none => false
    | some c => match c.servers 1, c.servers 3 with
      | .up op, .up op' => decide (op.read 0 = some (some (.decided 7)) ∧ op'.read 0 = some (some (.decided 9)))
      | _, _ => false) = true := by decide +kernel
  split at this
  · simp at this
  · rename_i c hc
    split at this
    · rename_i op op' h1 h2
      have h := of_decide_eq_true this
      exact ⟨c, op, op', hc, h1, h.1, h2, h.2⟩
    · simp at this

/-- The same without duplication: the first AcceptSync of server 1 to server 2 is delayed until server 2, synchronised by a
second one, has acknowledged an entry and waits for a third. -/
def reorderRun : List A := [.start 1 (sc 1), .start 2 (sc 2), .start 3 (sc 3), .call 1 .tryBecomeLeader, .take 1, .lose 1 3 0,
  .lose 1 3 0, .lose 1 2 1, .deliver 1 2, .take 2, .lose 2 1 1, .lose 2 3 0, .deliver 2 1, .take 1, .call 2 (.reconnected 1), .take 2,
  .deliver 2 1, .take 1, .rearrange 1 2 [1, 0], .deliver 1 2, .take 2, .deliver 2 1, .take 1, .rearrange 1 2 [1, 0], .deliver 1 2,
  .take 2, .deliver 2 1, .take 1, .call 1 (.append 7), .take 1, .rearrange 1 2 [1, 0], .deliver 1 2, .take 2, .deliver 2 1, .take 1,
  .call 2 (.reconnected 1), .take 2, .deliver 2 1, .take 1, .rearrange 1 2 [2, 0], .deliver 1 2, .take 2, .deliver 1 2, .take 2,
  .call 3 .tryBecomeLeader, .take 3, .deliver 3 2, .take 2, .deliver 2 3, .take 3, .lose 3 2 0, .deliver 3 2, .take 2, .deliver 2 3,
  .take 3, .call 3 (.append 9), .take 3, .deliver 3 2, .take 2, .deliver 2 3, .take 3]

/-- C01 is false of the code on links that lose and reorder, but do not duplicate: 7 and 9 are decided at position 0. -/
theorem C01_false_reordered_acceptsync : ∃ (c : C) (op op' : OP Nat (List Nat)),
    (∀ i j ks, (.rearrange i j ks : A) ∈ reorderRun → ks.Nodup) ∧ Cluster.init.run cc reorderRun = some c ∧
    c.servers 1 = .up op ∧ op.read 0 = some (some (.decided 7)) ∧ c.servers 3 = .up op' ∧ op'.read 0 = some (some (.decided 9)) := by
  have hn : ∀ i j ks, (.rearrange i j ks : A) ∈ reorderRun → ks.Nodup := by
    intro i j ks h
    simp only [reorderRun, List.mem_cons, reduceCtorEq, Action.rearrange.injEq, List.not_mem_nil, false_or, or_false] at h
    rcases h with ⟨-, -, rfl⟩ | ⟨-, -, rfl⟩ | ⟨-, -, rfl⟩ | ⟨-, -, rfl⟩ <;> decide
  have : (match Cluster.init.run cc reorderRun with
    | none => false
    | some c => match c.servers 1, c.servers 3 with
      | .up op, .up op' => decide (op.read 0 = some (some (.decided 7)) ∧ op'.read 0 = some (some (.decided 9)))
      | _, _ => false) = true := by decide +kernel
  split at this
  · simp at this
  · rename_i c hc
    split at this
    · rename_i op op' h1 h2
      have h := of_decide_eq_true this
      exact ⟨c, op, op', hn, hc, h1, h.1, h2, h.2⟩
    · simp at this

end noSync

section useSync
attribute [local instance] Sample.useSync

/-! ## F4: delta snapshots -/

/-- All servers decide [7]. Server 2 misses the 8 that the others decide, and reconnects. -/
def deltaRun : List A := [.start 1 (sc 1), .start 2 (sc 2), .start 3 (sc 3), .call 1 .tryBecomeLeader, .take 1, .lose 1 2 1,
  .lose 1 3 1, .deliver 1 2, .take 2, .lose 2 1 1, .lose 2 3 0, .deliver 2 1, .take 1, .deliver 1 2, .take 2, .deliver 2 1,
  .take 1, .deliver 1 3, .take 3, .lose 3 1 1, .lose 3 2 0, .deliver 3 1, .take 1, .deliver 1 3, .take 3, .deliver 3 1, .take 1,
  .call 1 (.append 7), .take 1, .deliver 1 2, .take 2, .deliver 2 1, .take 1, .deliver 1 2, .take 2, .deliver 1 3, .take 3,
  .deliver 1 3, .take 3, .deliver 3 1, .take 1, .call 1 (.append 8), .take 1, .lose 1 2 0, .deliver 1 3, .take 3, .deliver 3 1,
  .take 1, .deliver 1 3, .take 3, .lose 1 2 0, .call 2 (.reconnected 1), .take 2, .deliver 2 1, .take 1, .deliver 1 2, .take 2,
  .deliver 2 1, .take 1, .deliver 1 2, .take 2]

/-- C16 is false of the code: server 2 has compacted both positions and its snapshot contains 8 only; 7, which it had decided
itself before, is lost. -/
theorem C16_false_delta : ∃ (c : C) (op : OP Nat (List Nat)), c.AnyReach cc ∧ c.Shows 1 0 (.decided 7) ∧ c.Shows 1 1 (.decided 8) ∧
    c.servers 2 = .up op ∧ op.read 0 = some (some (.snapshotted 2 [8])) := by
  obtain ⟨c, h, hP⟩ := run1_elim (cc := cc) (as := deltaRun) (P := fun c =>
    onUp c 1 (fun op => op.read 0 = some (some (.decided 7)) ∧ op.read 1 = some (some (.decided 8))) &&
    onUp c 2 (fun op => op.read 0 = some (some (.snapshotted 2 [8])))) (by decide +kernel)
  simp only [Bool.and_eq_true] at hP
  obtain ⟨op, h1, h1'⟩ := onUp_elim hP.1
  obtain ⟨op', h2, h2'⟩ := onUp_elim hP.2
  have := of_decide_eq_true h1'
  exact ⟨c, op', h, ⟨_, h1, .read this.1⟩, ⟨_, h1, .read this.2⟩, h2, of_decide_eq_true h2'⟩

/-! ## F6: compacted above decided -/

def five : ClusterConfig := { configuration_id := 1, nodes := [1, 2, 3, 4, 5] }

/-- Server 3 prepares, receives the Promise of server 2 with a snapshot, then the PrepareReq that server 2 sends after a
restart, then Promises of servers 5 and 4, which know nothing decided. -/
def resetRun : List A := [.start 1 (sc 1), .start 2 (sc 2), .start 3 (sc 3), .start 4 (sc 4), .start 5 (sc 5),
  .call 1 .tryBecomeLeader, .take 1, .lose 1 3 0, .lose 1 3 0, .lose 1 5 0, .lose 1 5 0, .lose 1 2 1, .lose 1 4 1, .deliver 1 2,
  .take 2, .lose 2 1 1, .lose 2 3 0, .lose 2 4 0, .lose 2 5 0, .deliver 2 1, .take 1, .deliver 1 4, .take 4, .lose 4 1 1,
  .lose 4 2 0, .lose 4 3 0, .lose 4 5 0, .deliver 4 1, .take 1, .deliver 1 2, .take 2, .deliver 2 1, .take 1, .deliver 1 4,
  .take 4, .deliver 4 1, .take 1, .call 1 (.append 7), .take 1, .deliver 1 4, .take 4, .deliver 4 1, .deliver 1 2, .take 2,
  .deliver 2 1, .take 1, .deliver 1 2, .take 2, .lose 1 4 0, .call 3 .tryBecomeLeader, .take 3, .lose 3 1 1, .lose 3 2 1,
  .lose 3 4 1, .lose 3 5 1, .deliver 3 2, .take 2, .deliver 2 3, .crash 2, .start 2 (sc 2), .call 2 .tick, .take 2, .lose 2 1 2,
  .lose 2 3 2, .lose 2 4 2, .lose 2 5 2, .deliver 2 3, .deliver 3 5, .take 5, .lose 5 1 0, .lose 5 2 0, .lose 5 3 1,
  .lose 5 4 0, .deliver 5 3, .deliver 3 4, .take 4, .deliver 4 3]

/-- C35, second half, is false of the code (the server also panics on the way, and is restarted here). -/
theorem C35_false_bound : ¬ ∀ (cc : ClusterConfig) (c : C), c.AnyReach cc → ∀ (i : NodeId) (op : OP Nat (List Nat)),
    c.servers i = .up op → op.get_compacted_idx ≤ op.get_decided_idx := by
  intro hall
  obtain ⟨c, h, hP⟩ := run1_elim (cc := five) (as := resetRun ++ [.start 3 (sc 3)])
    (P := fun c => onUp c 3 (fun op => ¬ op.get_compacted_idx ≤ op.get_decided_idx)) (by decide +kernel)
  obtain ⟨op, h1, h1'⟩ := onUp_elim hP
  exact of_decide_eq_true h1' (hall five c h 3 op h1)

/-! ## F3 and snapshots: a server whose decided index went back behind its snapshot cannot answer a Prepare

Server 1 decides [7, 8] and makes a snapshot; the Decide to server 2 is lost. Server 3 takes over with server 2 and synchronises
server 1, whose decided index becomes 0 while its log starts at 2. Server 2, which has not seen the AcceptSync of server 3,
prepares. -/

def snapRun : List A := undecideRun.take 25 ++ [.call 1 (.snapshot none true)] ++ undecideRun.drop 25 ++
  [.deliver 3 1, .take 1, .lose 3 2 0, .call 2 .tryBecomeLeader, .take 2]

/-- C39 is false of the code without trim, too: in a run with one local snapshot, with a lawful snapshot type that is used in log
synchronisation, delivering a message brings a running server down. -/
theorem C39_false_prepare_after_snapshot : SnapLaw Nat (List Nat) ∧ SnapOps.use_snapshots Nat (List Nat) = true ∧
    (∀ a ∈ snapRun, a.Only Call.Quiet) ∧ Cluster.init.TidyRun cc snapRun ∧
    ∃ c c' : C, Cluster.init.run cc snapRun = some c ∧ c.step cc (.deliver 2 1) = some c' ∧
      (∃ op, c.servers 1 = .up op) ∧ ¬ ∃ op, c'.servers 1 = .up op := by
  refine ⟨fun a b x y h h' => by cases h; cases h'; rfl, rfl, by simp [snapRun, undecideRun, Action.Only, Call.Quiet],
    (Cluster.drainedB_sound (by decide +kernel)).tidy, ?_⟩
  have : (match Cluster.init.run cc snapRun with
    | none => false
    | some c => onUp c 1 (fun _ => true) && match c.step cc (.deliver 2 1) with
      | none => false
      | some c' => !onUp c' 1 (fun _ => true)) = true := by decide +kernel
  split at this
  · simp at this
  · rename_i c hc
    simp only [Bool.and_eq_true] at this
    obtain ⟨h1, h2⟩ := this
    split at h2
    · simp at h2
    · rename_i c' hc'
      obtain ⟨op, h1, -⟩ := onUp_elim h1
      refine ⟨c, c', hc, hc', ⟨op, h1⟩, fun ⟨op', h⟩ => ?_⟩
      simp [onUp, h] at h2

end useSync

end Omni
