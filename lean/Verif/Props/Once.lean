import Verif.Proof.Safety.Once
import Verif.Props.Agreement
/-
C63: no entry is put into the log more often than it was handed in.
-/
namespace Omni

variable {E S : Type} [SnapOps E S]

/-- C63 (full claim: in all executions in which the network does not duplicate ProposalForwards). `P` picks some entries, for
instance those equal to a given one. At the end of a tidy run, the log on the disk of each server contains at most as many of
them as there were `append` calls with them in the run. -/
theorem C63_log_count_partial {rel : Links} (cc : ClusterConfig) (as : List (Action E S)) (c : Cluster E S) (ht : Cluster.init.TidyRun cc as rel)
    (ho : Cluster.init.ForwardsOnceRun cc as) (hr : Cluster.init.run cc as = some c) (P : E → Bool) (i : NodeId) :
    (c.servers i).disk.log.countP P ≤ appendsOf P as := by
  obtain ⟨G, -, hk, hG, hW, -⟩ := (RInv.init cc P).run_within (RInv.within_init P) ht ho hr
  obtain ⟨lg, hd⟩ := (hG.srv i).disk
  have h1 := hG.abs.cnt _ _ _ hd.acc
  have h2 := RInv.Within.used hW
  simp only [Ghost.count, hk] at h1
  have h3 : G.mark = P := hk
  rw [hd.log]
  have h4 := ((List.drop_sublist (c.servers i).disk.compacted_idx lg.es).countP_le (p := P))
  simp only [RInv.G0] at *
  omega

/-- C63 (full claim as before). Distinct positions that were shown as decided with such entries, each on some server at some
moment of the run, are at most as many as the `append` calls with them. -/
theorem C63_decided_count_partial {rel : Links} (cc : ClusterConfig) (as : List (Action E S)) (c : Cluster E S) (ht : Cluster.init.TidyRun cc as rel)
    (ho : Cluster.init.ForwardsOnceRun cc as) (hr : Cluster.init.run cc as = some c) (P : E → Bool) (ps : List Nat) (hn : ps.Nodup)
    (hp : ∀ p ∈ ps, ∃ bs cs c1 i e, as = bs ++ cs ∧ Cluster.init.run cc bs = some c1 ∧ c1.Shows i p (.decided e) ∧ P e = true) :
    ps.length ≤ appendsOf P as := by
  obtain ⟨G, -, hk, hG, hW, hpre⟩ := (RInv.init cc P).run_within (RInv.within_init P) ht ho hr
  by_cases hne : ps = []
  · subst hne; exact Nat.zero_le _
  have hx : ∀ p ∈ ps, cc.validate = .ok () ∧ ∃ b l e, G.Chosen cc b l ∧ l.es[p]? = some e ∧ P e = true := by
    intro p hp'
    obtain ⟨bs, cs, c1, i, e, h1, h2, ⟨op, hop, hs⟩, h3⟩ := hp p hp'
    obtain ⟨G1, hm, hG1⟩ := hpre bs cs c1 h1 h2
    obtain ⟨hv, lg, hC, -⟩ := hG1.up hop
    obtain ⟨h4, h5⟩ := hs.decided hC.mir
    rcases hC.disk.dec.mono hm with h6 | ⟨b, l, -, h6, h7, h8⟩
    · omega
    · exact ⟨hv, b, l, e, h6, by rw [Lg.get_eq h8 h7 h4]; exact hC.disk.entry h5, h3⟩
  obtain ⟨p0, hp0⟩ := List.exists_mem_of_ne_nil ps hne
  have hv := (hx p0 hp0).1
  obtain ⟨b, l, h1, h2⟩ := hG.abs.common hv (fun p hp => (hx p hp).2) hne
  obtain ⟨j, a, ha, hla⟩ := h1.exists_acc hv
  have h3 := hG.abs.cnt _ _ _ ha
  have h4 := RInv.Within.used hW
  have h5 := positions_le P a.es hn fun p hp => let ⟨e, h6, h7⟩ := h2 p hp; ⟨e, Lg.get_le hla h6, h7⟩
  simp only [Ghost.count, hk] at h3
  simp only [RInv.G0] at *
  omega

/-- C63: an entry handed in once is decided at one position only. -/
theorem C63_one_position_partial {rel : Links} [DecidableEq E] (cc : ClusterConfig) (as bs cs bs' cs' : List (Action E S)) (c d d' : Cluster E S)
    (ht : Cluster.init.TidyRun cc as rel) (ho : Cluster.init.ForwardsOnceRun cc as) (hr : Cluster.init.run cc as = some c)
    (hd : as = bs ++ cs ∧ Cluster.init.run cc bs = some d) (hd' : as = bs' ++ cs' ∧ Cluster.init.run cc bs' = some d')
    (e : E) (hone : appendsOf (fun x => decide (x = e)) as ≤ 1) (i j : NodeId) (p q : Nat)
    (hp : d.Shows i p (.decided e)) (hq : d'.Shows j q (.decided e)) : p = q := by
  by_cases hpq : p = q
  · exact hpq
  have := C63_decided_count_partial cc as c ht ho hr (fun x => decide (x = e)) [p, q] (by simp [hpq]) (by
    intro r hr'
    rcases List.mem_cons.1 hr' with rfl | hr'
    · exact ⟨bs, cs, d, i, e, hd.1, hd.2, hp, by simp⟩
    · obtain rfl : r = q := by simpa using hr'
      exact ⟨bs', cs', d', j, e, hd'.1, hd'.2, hq, by simp⟩)
  simp only [List.length_cons, List.length_nil] at this
  omega

section sample
attribute [local instance] Sample.noSync
open Sample

/-- Then 9 is handed to follower 2, which forwards it to the leader; it is decided on both. -/
def forward9 : List A := decide12 ++ [.call 2 (.append 9), .take 2, .deliver 2 1, .take 1, .deliver 1 2, .take 2, .deliver 2 1,
  .take 1, .deliver 1 2, .take 2]

/-- The link from 2 to 1 duplicates the forwarded proposal. -/
def forwardTwice : List A := decide12 ++ [.call 2 (.append 9), .take 2, .rearrange 2 1 [0, 0], .deliver 2 1, .take 1, .deliver 2 1,
  .take 1, .deliver 1 2, .take 2, .deliver 1 2, .take 2, .deliver 2 1, .take 1, .deliver 2 1, .take 1]

theorem check_run {as : List A} {P : C → Bool} (h : check as P [] (fun _ => true) = true) :
    Cluster.init.TidyRun cc as ∧ ∃ c : C, Cluster.init.run cc as = some c ∧ P c = true := by
  unfold check at h
  simp only [Bool.and_eq_true] at h
  obtain ⟨h1, h2⟩ := h
  split at h2
  · simp at h2
  · rename_i c hc
    simp only [Bool.and_eq_true] at h2
    exact ⟨(Cluster.drainedB_sound h1).tidy, c, hc, h2.1.1⟩

/-- Concrete case: 9 is handed in once, as 7 and 8 are; it is in two logs, and both servers show it as decided at position 2. -/
example : Cluster.init.TidyRun cc forward9 ∧ Cluster.init.ForwardsOnceRun cc forward9 ∧ ∃ c : C, Cluster.init.run cc forward9 = some c ∧
    (c.servers 2).disk.log = [7, 8, 9] ∧ c.Shows 1 2 (.decided 9) ∧ c.Shows 2 2 (.decided 9) ∧
    appendsOf (fun x => decide (x = 9)) forward9 = 1 ∧ appendsOf (fun _ => true) forward9 = 3 := by
  obtain ⟨h, c, h1, h2⟩ := check_run (as := forward9) (P := fun c => decide ((c.servers 2).disk.log = [7, 8, 9]) &&
    onUp c 1 (fun op => op.read 2 = some (some (.decided 9))) && onUp c 2 (fun op => op.read 2 = some (some (.decided 9)))) (by decide +kernel)
  simp only [Bool.and_eq_true, decide_eq_true_eq] at h2
  obtain ⟨op1, h3, h3'⟩ := onUp_elim h2.1.2
  obtain ⟨op2, h4, h4'⟩ := onUp_elim h2.2
  simp only [decide_eq_true_eq] at h3' h4'
  exact ⟨h, .of_inOrder (by decide), c, h1, h2.1.1, ⟨_, h3, .read h3'⟩, ⟨_, h4, .read h4'⟩, by decide, by decide⟩

/-- The condition on the network is needed: nothing in the code recognises a forwarded proposal that arrives twice. In a tidy
run 9 was handed in once, and the log of the leader has it twice. -/
theorem C63_false_duplicated_log : ¬ ∀ (cc : ClusterConfig) (as : List A) (c : C), Cluster.init.TidyRun cc as →
    Cluster.init.run cc as = some c → ∀ (P : Nat → Bool) (i : NodeId), (c.servers i).disk.log.countP P ≤ appendsOf P as := by
  intro h
  obtain ⟨ht, c, h1, h2⟩ := check_run (as := forwardTwice) (P := fun c => decide ((c.servers 1).disk.log = [7, 8, 9, 9])) (by decide +kernel)
  simp only [decide_eq_true_eq] at h2
  have := h cc forwardTwice c ht h1 (fun x => decide (x = 9)) 1
  rw [h2] at this
  revert this
  decide

/-- ... and it is decided at two positions. -/
theorem C63_false_duplicated : ¬ ∀ (cc : ClusterConfig) (as : List A) (c : C), Cluster.init.TidyRun cc as →
    Cluster.init.run cc as = some c → ∀ (e : Nat), appendsOf (fun x => decide (x = e)) as ≤ 1 → ∀ (i : NodeId) (p q : Nat),
    c.Shows i p (.decided e) → c.Shows i q (.decided e) → p = q := by
  intro h
  obtain ⟨ht, c, h1, h2⟩ := check_run (as := forwardTwice) (P := fun c =>
    onUp c 1 (fun op => op.read 2 = some (some (.decided 9)) && op.read 3 = some (some (.decided 9)))) (by decide +kernel)
  obtain ⟨op1, h3, h3'⟩ := onUp_elim h2
  simp only [Bool.and_eq_true, decide_eq_true_eq] at h3'
  have := h cc forwardTwice c ht h1 9 (by decide) 1 2 3 ⟨_, h3, .read h3'.1⟩ ⟨_, h3, .read h3'.2⟩
  omega

end sample

end Omni
