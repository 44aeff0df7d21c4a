import Verif.Props.Agreement
import Verif.Props.Witness
/-
C62: what two servers hold of one ballot agrees, and a follower that has seen the leader's last number has the leader's log.
In tidy runs; that the restriction cannot be dropped is shown at the end.
-/
namespace Omni

variable {E S : Type} [SnapOps E S]

/-- The storage of a server with the entries of its batch behind the log: what it will hold after the next flush. -/
def OP.flushed (op : OP E S) : Mem E S :=
  { op.sp.ist.storage with log := op.sp.ist.storage.log ++ op.sp.ist.cache.batched_entries }

section lemmas
omit [SnapOps E S]
variable {cc : ClusterConfig} {c c' : Cluster E S}

theorem Abs.same_acc {G : Ghost E} (hA : Abs cc G) {i j : NodeId} {b : Ballot} {l l' : Lg E} (h : G.acc i b = some l)
    (h' : G.acc j b = some l') : ∃ p : Lg E, l ≤ p ∧ l' ≤ p := by
  obtain ⟨p, h1, h2⟩ := hA.le_prop h
  obtain ⟨p', h1', h2'⟩ := hA.le_prop h'
  rw [h1] at h1'
  cases h1'
  exact ⟨p, h2, h2'⟩

/-- The log of a follower in the accept phase is within what the leader sent it, and with the batch it is all of that. -/
theorem FolInv.flushed {G : Ghost E} {i : NodeId} {op : OP E S} {pre} {lg : Lg E} (hA : Abs cc G)
    (hC : Core cc i pre G op.sp lg) (hF : FolInv cc i G op.sp lg) (hp : op.sp.phase = .accept) :
    lg ≤ G.endf op.sp.ist.cache.promise i op.sp.current_seq_num ∧
    ∀ p, op.flushed.compacted_idx ≤ p →
      op.flushed.entryAt p = (G.endf op.sp.ist.cache.promise i op.sp.current_seq_num).es[p]? := by
  obtain ⟨h1, h2, h3, h4, h5⟩ := hF.accept hp
  have hd := hC.disk
  have hle : lg ≤ G.endf op.sp.ist.cache.promise i op.sp.current_seq_num := by
    have hacc := hd.acc
    rw [← hC.mir.acc, h1] at hacc
    by_cases hne : op.sp.ist.cache.promise = {}
    · rw [hne, hA.base] at hacc
      cases hacc
      exact Lg.bot_le _
    · obtain ⟨-, p, l0, -, -, -, -, h6⟩ := hA.acc i _ lg hacc hne
      rw [h3]
      exact h6 (Ne.symm h2)
  refine ⟨hle, fun p hc => ?_⟩
  rw [h3, ← h5]
  unfold OP.flushed Mem.entryAt at *
  simp only at hc ⊢
  rw [if_neg (by omega)]
  rcases hd.cov with hcov | hss
  · rw [hd.log, ← List.drop_append_of_le_length hcov, List.getElem?_drop,
      show op.sp.ist.storage.compacted_idx + (p - op.sp.ist.storage.compacted_idx) = p by omega]
  · have he := Lg.eq_of_ss hle hss
    have : op.sp.ist.cache.batched_entries = [] := by
      rw [← h3, ← he] at h5
      simpa using h5
    rw [this, List.append_nil, List.append_nil, hd.log, List.getElem?_drop,
      show op.sp.ist.storage.compacted_idx + (p - op.sp.ist.storage.compacted_idx) = p by omega]

end lemmas

section sample
attribute [local instance] Sample.noSync
open Sample

/-- Concrete case: server 2 follows server 1, holds what the leader holds, and has the leader's last number. -/
example : ∃ (c : C) (op op' : OP Nat (List Nat)), c.Reachable cc ∧ c.servers 1 = .up op ∧ c.servers 2 = .up op' ∧
    op.sp.role = .leader ∧ op.sp.phase = .accept ∧ op'.sp.role = .follower ∧ op'.sp.phase = .accept ∧
    op'.get_promise = op.get_promise ∧ (∃ m, op.sp.ls.promises_meta[1]? = some (.promised m)) ∧
    op.sp.ls.follower_seq_nums[1]? = some op'.sp.current_seq_num ∧ op'.flushed.entryAt 1 = some 8 := by
  obtain ⟨c, h, hP⟩ := check_one (as := decide12) (P := fun c => onUp c 1 (fun (op : OP Nat (List Nat)) => onUp c 2 (fun (op' : OP Nat (List Nat)) =>
    decide (op.sp.role = .leader ∧ op.sp.phase = .accept ∧ op'.sp.role = .follower ∧ op'.sp.phase = .accept ∧
    op'.get_promise = op.get_promise) && (match op.sp.ls.promises_meta[1]? with | some (PromiseState.promised _) => true | _ => false) &&
    decide (op.sp.ls.follower_seq_nums[1]? = some op'.sp.current_seq_num ∧ op'.flushed.entryAt 1 = some 8)))) (by decide +kernel)
  obtain ⟨op, h1, h1'⟩ := onUp_elim hP
  obtain ⟨op', h2, h2'⟩ := onUp_elim h1'
  simp only [Bool.and_eq_true, decide_eq_true_eq] at h2'
  obtain ⟨⟨⟨g1, g2, g3, g4, g5⟩, g6⟩, g7, g8⟩ := h2'
  refine ⟨c, op, op', h, h1, h2, g1, g2, g3, g4, g5, ?_, g7, g8⟩
  split at g6
  · rename_i m hm
    exact ⟨m, hm⟩
  · simp at g6

/-- Concrete case: in the same ballot, servers 1 and 2 hold the same two entries and a StopSign. -/
example : ∃ c : C, c.Reachable cc ∧ (c.servers 1).disk.accepted = (c.servers 2).disk.accepted ∧
    (c.servers 1).disk.entryAt 1 = some 8 ∧ (c.servers 2).disk.entryAt 1 = some 8 ∧
    (c.servers 1).disk.stopsign = some ⟨cc', none⟩ ∧ (c.servers 2).disk.stopsign = some ⟨cc', none⟩ := by
  obtain ⟨c, h, hP⟩ := check_one (as := decide12 ++ reconf) (P := fun c => decide (
    (c.servers 1).disk.accepted = (c.servers 2).disk.accepted ∧
    (c.servers 1).disk.entryAt 1 = some 8 ∧ (c.servers 2).disk.entryAt 1 = some 8 ∧
    (c.servers 1).disk.stopsign = some ⟨cc', none⟩ ∧ (c.servers 2).disk.stopsign = some ⟨cc', none⟩)) (by decide +kernel)
  exact ⟨c, h, of_decide_eq_true hP⟩

end sample

/-- C62, logs of one ballot (full claim: in all executions): two servers whose storages last accepted in the same ballot, at any
two moments, running or not, hold the same entry at every position both hold. -/
theorem C62_log_matching_partial {rel : Links} (cc : ClusterConfig) (c c' : Cluster E S) (h : c.SameRun cc c' rel) (i j : NodeId)
    (hb : (c.servers i).disk.accepted = (c'.servers j).disk.accepted) (p : Nat) (e f : E)
    (he : (c.servers i).disk.entryAt p = some e) (hf : (c'.servers j).disk.entryAt p = some f) : e = f := by
  obtain ⟨G1, G2, G, hG1, hG2, hm1, hm2, hA⟩ := reach_pair h
  obtain ⟨lg, hd⟩ := (hG1.srv i).disk
  obtain ⟨lg', hd'⟩ := (hG2.srv j).disk
  obtain ⟨a, h1, h2⟩ := hm1.acc _ _ _ hd.acc
  obtain ⟨a', h1', h2'⟩ := hm2.acc _ _ _ hd'.acc
  simp only [Mem.accepted] at hb
  rw [hb] at h1
  obtain ⟨q, h3, h4⟩ := hA.same_acc h1 h1'
  have h5 := Lg.get_le (Lg.le_trans h2 h3) (hd.entry he)
  have h6 := Lg.get_le (Lg.le_trans h2' h4) (hd'.entry hf)
  rw [h5] at h6
  exact Option.some.inj h6

/-- C62, StopSigns of one ballot: if one of them has a StopSign, the other has no entry behind the entries of the one, and no
other StopSign. -/
theorem C62_stopsign_matching_partial {rel : Links} (cc : ClusterConfig) (c c' : Cluster E S) (h : c.SameRun cc c' rel) (i j : NodeId)
    (hb : (c.servers i).disk.accepted = (c'.servers j).disk.accepted) (ss : StopSign)
    (hs : (c.servers i).disk.stopsign = some ss) :
    (∀ p e, (c'.servers j).disk.entryAt p = some e → p < (c.servers i).disk.compacted_idx + (c.servers i).disk.log.length) ∧
    ∀ tt, (c'.servers j).disk.stopsign = some tt → ss = tt := by
  obtain ⟨G1, G2, G, hG1, hG2, hm1, hm2, hA⟩ := reach_pair h
  obtain ⟨lg, hd⟩ := (hG1.srv i).disk
  obtain ⟨lg', hd'⟩ := (hG2.srv j).disk
  obtain ⟨a, h1, h2⟩ := hm1.acc _ _ _ hd.acc
  obtain ⟨a', h1', h2'⟩ := hm2.acc _ _ _ hd'.acc
  simp only [Mem.accepted] at hb
  rw [hb] at h1
  obtain ⟨q, h3, h4⟩ := hA.same_acc h1 h1'
  have h5 : lg = q := Lg.eq_of_ss (Lg.le_trans h2 h3) (by rw [← hd.ss, hs]; simp)
  have h6 : lg' ≤ lg := by rw [h5]; exact Lg.le_trans h2' h4
  refine ⟨fun p e he => ?_, fun tt ht => ?_⟩
  · have h7 := (List.getElem?_eq_some_iff.1 (Lg.get_le h6 (hd'.entry he))).1
    rw [hd.log, List.length_drop]
    omega
  · have h8 : lg' = lg := Lg.eq_of_ss h6 (by rw [← hd'.ss, ht]; simp)
    have h9 := hd.ss
    rw [← h8, ← hd'.ss, hs, ht] at h9
    exact Option.some.inj h9

/-- C62, the leader has it: a leader in the accept phase holds, or has compacted, every entry that a follower in the accept phase of
its ballot has in its log or in its batch. -/
theorem C62_follower_within_leader_partial {rel : Links} (cc : ClusterConfig) (c : Cluster E S) (h : c.Reachable cc rel) (i j : NodeId)
    (op op' : OP E S) (hi : c.servers i = .up op) (hj : c.servers j = .up op') (hl : op.sp.role = .leader)
    (hlp : op.sp.phase = .accept) (hf : op'.sp.role = .follower) (hfp : op'.sp.phase = .accept)
    (hb : op'.get_promise = op.get_promise) (p : Nat) : op.sp.ist.storage.Keeps op'.flushed p := by
  obtain ⟨G, hG⟩ := reach_one h
  obtain ⟨hv, lg, hC, hR⟩ := hG.up hi
  obtain ⟨-, lg', hC', hR'⟩ := hG.up hj
  simp only [RoleInv, hl, hlp] at hR
  simp only [RoleInv, hf] at hR'
  obtain ⟨h1, h2⟩ := hR'.flushed hG.abs hC' hfp
  intro e he
  have hp : op'.flushed.compacted_idx ≤ p := by
    unfold Mem.entryAt at he
    split at he
    · simp at he
    · omega
  rw [h2 p hp] at he
  refine hC.disk.of_entry (Lg.get_le (hG.abs.endLe _ _ _ _ ?_) he)
  have hacc := hC.disk.acc
  rw [← hC.mir.acc, hR.acc, hR.ldr] at hacc
  have hb' : op'.sp.ist.cache.promise = op.sp.ist.cache.promise := hb
  rw [hb', ← hR.ldr, hR.own, hR.ldr]
  exact hacc

/-- C62, caught up: a follower in the accept phase of the ballot of a leader, that has seen the message with the last number the
leader used for it, has in its log and its batch exactly the entries of the leader's log (each up to what is compacted). -/
theorem C62_caught_up_partial {rel : Links} (cc : ClusterConfig) (c : Cluster E S) (h : c.Reachable cc rel) (i j : NodeId)
    (op op' : OP E S) (hi : c.servers i = .up op) (hj : c.servers j = .up op') (hl : op.sp.role = .leader)
    (hlp : op.sp.phase = .accept) (hf : op'.sp.role = .follower) (hfp : op'.sp.phase = .accept)
    (hb : op'.get_promise = op.get_promise) (m : PromiseMetaData)
    (hm : op.sp.ls.promises_meta[j - 1]? = some (.promised m))
    (hq : op.sp.ls.follower_seq_nums[j - 1]? = some op'.sp.current_seq_num) (p : Nat)
    (hp : op'.get_compacted_idx ≤ p) (hp' : op.get_compacted_idx ≤ p) :
    op'.flushed.entryAt p = op.sp.ist.storage.entryAt p := by
  obtain ⟨G, hG⟩ := reach_one h
  obtain ⟨hv, lg, hC, hR⟩ := hG.up hi
  obtain ⟨-, lg', hC', hR'⟩ := hG.up hj
  simp only [RoleInv, hl, hlp] at hR
  simp only [RoleInv, hf] at hR'
  obtain ⟨h1, h2⟩ := hR'.flushed hG.abs hC' hfp
  have hb' : op'.sp.ist.cache.promise = op.sp.ist.cache.promise := hb
  have hj0 : j ≠ 0 := hC'.node.2
  have hji : j ≠ i := by
    intro h0
    have := (hR'.accept hfp).2.1
    rw [hb', ← hR.ldr, hR.own] at this
    exact this h0.symm
  have hsl : ∀ {α : Type} (l : List α), slot l j = l[j - 1]? := by
    intro α l
    cases j with
    | zero => exact absurd rfl hj0
    | succ k => rfl
  obtain ⟨h3, -⟩ := hR.ends j m lg _ hji (by rw [hsl]; exact hm) rfl (by rw [hsl]; exact hq)
  have h4 := h3 _ (SeqNum.le_refl _)
  have hc : op'.flushed.compacted_idx ≤ p := by
    show op'.sp.ist.storage.compacted_idx ≤ p
    rw [← hC'.mir.comp]; exact hp
  have hc' : op.sp.ist.storage.compacted_idx ≤ p := by rw [← hC.mir.comp]; exact hp'
  rw [h2 p hc, hb', ← hR.ldr, h4]
  unfold Mem.entryAt
  rw [if_neg (by omega), hC.disk.log, List.getElem?_drop,
    show op.sp.ist.storage.compacted_idx + (p - op.sp.ist.storage.compacted_idx) = p by omega]

/-! ## Without the restriction (finding F1) -/

section sample
attribute [local instance] Sample.noSync
open Sample

/-- C62 is false of the code without the restriction to tidy runs: servers 1 and 2 accepted in the same ballot and hold different
entries at position 1. -/
theorem C62_false_merged_acceptdecide : ¬ ∀ (cc : ClusterConfig) (c : C), c.AnyReach cc → ∀ (i j : NodeId),
    (c.servers i).disk.accepted = (c.servers j).disk.accepted → ∀ p e f, (c.servers i).disk.entryAt p = some e →
    (c.servers j).disk.entryAt p = some f → e = f := by
  intro hall
  obtain ⟨c, h, hP⟩ := run1_elim (cc := cc) (as := mergeRun) (P := fun c => decide (
    (c.servers 1).disk.accepted = (c.servers 2).disk.accepted ∧ (c.servers 1).disk.entryAt 1 = some 8 ∧
    (c.servers 2).disk.entryAt 1 = some 9)) (by decide +kernel)
  obtain ⟨h1, h2, h3⟩ := of_decide_eq_true hP
  have := hall cc c h 1 2 h1 1 8 9 h2 h3
  omega

/-- Nor does having seen the leader's last number mean having the leader's log. -/
theorem C62_false_caught_up : ∃ (c : C) (op op' : OP Nat (List Nat)), c.AnyReach cc ∧ c.servers 1 = .up op ∧
    c.servers 2 = .up op' ∧ op.sp.role = .leader ∧ op.sp.phase = .accept ∧ op'.sp.role = .follower ∧ op'.sp.phase = .accept ∧
    op'.get_promise = op.get_promise ∧ op.sp.ls.follower_seq_nums[1]? = some op'.sp.current_seq_num ∧
    op.sp.ist.storage.log = [7, 8, 9] ∧ op'.flushed.log = [7, 9] := by
  obtain ⟨c, h, hP⟩ := run1_elim (cc := cc) (as := mergeRun) (P := fun c => onUp c 1 (fun (op : OP Nat (List Nat)) => onUp c 2 (fun (op' : OP Nat (List Nat)) =>
    decide (op.sp.role = .leader ∧ op.sp.phase = .accept ∧ op'.sp.role = .follower ∧ op'.sp.phase = .accept ∧
    op'.get_promise = op.get_promise ∧ op.sp.ls.follower_seq_nums[1]? = some op'.sp.current_seq_num ∧
    op.sp.ist.storage.log = [7, 8, 9] ∧ op'.flushed.log = [7, 9])))) (by decide +kernel)
  obtain ⟨op, h1, h1'⟩ := onUp_elim hP
  obtain ⟨op', h2, h2'⟩ := onUp_elim h1'
  exact ⟨c, op, op', h, h1, h2, of_decide_eq_true h2'⟩

end sample

end Omni
