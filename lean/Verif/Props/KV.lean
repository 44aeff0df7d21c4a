import Verif.Spec.KV
import Verif.Spec.Runs
import Verif.Props.Decided
import Verif.Proof.Progress.Base
/-
C54: the key-value application on top of the log.
-/
namespace Omni

namespace KVSnapshot

theorem foldl_insert (D : List KeyValue) (m : KVSnapshot) (k : String) :
    (D.foldl (fun m e => m.insert e.key e.value) m).get k = (lastWrite D k).or (m.get k) := by
  induction D generalizing m with
  | nil => rfl
  | cons e D ih =>
    rw [List.foldl_cons, ih]
    unfold lastWrite
    rw [List.reverse_cons, List.find?_append]
    cases D.reverse.find? fun e => e.key = k with
    | some x => rfl
    | none =>
      by_cases h : e.key = k
      · subst h; simp [get, insert]
      · have h' : ¬ k = e.key := fun e => h e.symm
        simp [get, insert, h, h']

theorem get_create (D : List KeyValue) (k : String) : (create D).get k = lastWrite D k := by
  unfold create
  rw [foldl_insert]
  simp [get, new]

theorem ext {a b : KVSnapshot} (h : ∀ k, a.get k = b.get k) : a = b := funext h

theorem create_append (a b : List KeyValue) : (create a).merge (create b) = create (a ++ b) := by
  refine ext fun k => ?_
  have h1 : ((create a).merge (create b)).get k = ((create b).get k).or ((create a).get k) := rfl
  rw [h1, get_create, get_create, get_create]
  unfold lastWrite
  rw [List.reverse_append, List.find?_append]
  cases b.reverse.find? fun e => e.key = k <;> rfl

end KVSnapshot

/-- C54, `create`: the snapshot of a stretch of the log holds, for every key, the value that the last command on that key
writes. -/
theorem C54_create (D : List KeyValue) : ∃ s : KVSnapshot, SnapOps.create D = some s ∧ ∀ k, s.get k = lastWrite D k :=
  ⟨_, rfl, KVSnapshot.get_create D⟩

/-- C54, `merge`: merging the snapshot of a stretch with that of the stretch behind it gives the snapshot of both. -/
theorem C54_merge : SnapLaw KeyValue KVSnapshot := by
  intro a b x y hx hy
  cases hx; cases hy
  exact congrArg some (KVSnapshot.create_append a b)

/-- C54, `merge`: in whatever order the iterator returns the pairs of `delta`, inserting them gives the same map, in which a key
of `delta` has the value of `delta` and any other key the value it had. -/
theorem C54_merge_any_order (m delta : KVSnapshot) (l : List (String × Nat)) (h : delta.Iterates l) (k : String) :
    (m.insertAll l).get k = (m.merge delta).get k ∧
    (m.insertAll l).get k = (match delta.get k with
      | some v => some v
      | none => m.get k) := by
  have key : ∀ (l : List (String × Nat)) (m : KVSnapshot), (l.map (·.1)).Nodup →
      (m.insertAll l).get k = ((l.find? fun p => p.1 = k).map (·.2)).or (m.get k) := by
    intro l
    induction l with
    | nil => intro m _; rfl
    | cons p l ih =>
      intro m hn
      rw [List.map_cons, List.nodup_cons] at hn
      have hi : m.insertAll (p :: l) = (m.insert p.1 p.2).insertAll l := rfl
      rw [hi, ih _ hn.2]
      by_cases hp : p.1 = k
      · have : l.find? (fun p => p.1 = k) = none := by
          refine List.find?_eq_none.2 fun q hq hk => hn.1 ?_
          rw [decide_eq_true_eq] at hk
          rw [hp, ← hk]
          exact List.mem_map_of_mem hq
        rw [this]
        simp [KVSnapshot.get, KVSnapshot.insert, hp]
      · have h' : ¬ k = p.1 := fun e => hp e.symm
        simp [KVSnapshot.get, KVSnapshot.insert, hp, h']
  have hf : (l.find? fun p => p.1 = k).map (·.2) = delta.get k := by
    cases hd : l.find? fun p => p.1 = k with
    | some p =>
      have h1 := List.mem_of_find?_eq_some hd
      have h2 := List.find?_some hd
      rw [decide_eq_true_eq] at h2
      exact ((h.pairs k p.2).1 (by rw [← h2]; exact h1)).symm
    | none =>
      cases hg : delta.get k with
      | none => rfl
      | some v =>
        have := List.find?_eq_none.1 hd _ ((h.pairs k v).2 hg)
        simp at this
  rw [key l m h.once, hf]
  refine ⟨rfl, ?_⟩
  cases delta.get k <;> rfl

theorem applyDecided_append (m : KVSnapshot) (a b : List (LogEntry KeyValue KVSnapshot)) :
    applyDecided m (a ++ b) = applyDecided (applyDecided m a) b := List.foldl_append

theorem applyDecided_view (d : Mem KeyValue KVSnapshot) (m : KVSnapshot) (n a : Nat) (hc : d.compacted_idx ≤ a) (hn : a + n ≤ d.ld)
    (hl : a + n ≤ d.compacted_idx + d.log.length) :
    applyDecided m ((List.range' a n).filterMap d.view) =
      ((d.log.drop (a - d.compacted_idx)).take n).foldl (fun m e => m.insert e.key e.value) m := by
  induction n generalizing a m with
  | zero => rfl
  | succ n ih =>
    obtain ⟨e, he⟩ : ∃ e, d.log[a - d.compacted_idx]? = some e :=
      ⟨_, List.getElem?_eq_getElem (by omega : a - d.compacted_idx < d.log.length)⟩
    have hv : d.view a = some (.decided e) := by
      unfold Mem.view
      rw [if_neg (by omega), he]
      simp only
      rw [if_pos (by omega)]
    have hd : d.log.drop (a - d.compacted_idx) = e :: d.log.drop (a + 1 - d.compacted_idx) := by
      rw [List.drop_eq_getElem_cons (by omega : a - d.compacted_idx < d.log.length)]
      rw [List.getElem?_eq_getElem (by omega : a - d.compacted_idx < d.log.length)] at he
      cases he
      rw [show a + 1 - d.compacted_idx = a - d.compacted_idx + 1 by omega]
    rw [List.range'_succ, List.filterMap_cons_some hv, hd, List.take_succ_cons, List.foldl_cons]
    exact ih (m := m.insert e.key e.value) (a := a + 1) (by omega) (by omega) (by omega)

/-- C54, the store (full claim: on every server in every state, the store built by the loop of the application from
`read_decided_suffix(0)` is the one that results from all decided commands). In tidy runs, on a server without StopSign, it is
the one that results from the decided commands *behind the compacted index*; it is the right one if nothing is compacted. The
full claim is false, see `C54_false_snapshot`. -/
theorem C54_store_partial {rel : Links} (cc : ClusterConfig) (c : Cluster KeyValue KVSnapshot) (h : c.Reachable cc rel) (i : NodeId)
    (op : OP KeyValue KVSnapshot) (hop : c.servers i = .up op) (hs : op.sp.ist.storage.stopsign = none)
    (l : List (LogEntry KeyValue KVSnapshot)) (hl : op.read_decided_suffix 0 = some (some l)) (k : String) :
    (applyDecided .new l).get k =
      lastWrite (op.sp.ist.storage.log.take (op.get_decided_idx - op.get_compacted_idx)) k := by
  obtain ⟨hc, -, h2⟩ := C17_reads_in_runs_partial cc c h i op hop hs
  rw [h2] at hl
  split at hl
  · cases hl
    unfold Mem.viewRange
    have hb := hc.bound
    unfold Mem.len at hb
    rw [hs] at hb
    have hm : ∀ m, applyDecided m (if 0 < op.sp.ist.storage.compacted_idx then [op.sp.ist.storage.marker] else []) = m := by
      intro m
      split
      · unfold Mem.marker
        cases op.sp.ist.storage.snapshot <;> rfl
      · rfl
    rw [applyDecided_append, hm, Nat.zero_max]
    have hd : op.get_decided_idx = op.sp.ist.storage.ld := hc.decided
    have hcp : op.get_compacted_idx = op.sp.ist.storage.compacted_idx := hc.compacted
    simp only [Option.isSome_none, Bool.false_eq_true, if_false, Nat.add_zero] at hb
    by_cases hlt : op.sp.ist.storage.compacted_idx ≤ op.sp.ist.storage.ld
    · rw [applyDecided_view _ _ _ _ (Nat.le_refl _) (by omega) (by omega), Nat.sub_self, List.drop_zero, hcp,
        ← KVSnapshot.get_create]
      rfl
    · rw [hd, hcp, Nat.sub_eq_zero_of_le (by omega)]
      rfl
  · cases hl

/-- C54, replicas (full claim: in all executions): the stores of two servers that compacted nothing, at any two moments of a
tidy run, are the results of two lists of commands of which one continues the other; if both decided equally many, the stores
are equal. -/
theorem C54_replicas_partial {rel : Links} (cc : ClusterConfig) (hv : cc.validate = .ok ()) (c c' : Cluster KeyValue KVSnapshot) (h : c.SameRun cc c' rel)
    (i j : NodeId) (op op' : OP KeyValue KVSnapshot) (hi : c.servers i = .up op) (hj : c'.servers j = .up op')
    (hsi : op.sp.ist.storage.stopsign = none) (hsj : op'.sp.ist.storage.stopsign = none)
    (hci : op.get_compacted_idx = 0) (hcj : op'.get_compacted_idx = 0)
    (l l' : List (LogEntry KeyValue KVSnapshot)) (hl : op.read_decided_suffix 0 = some (some l))
    (hl' : op'.read_decided_suffix 0 = some (some l')) :
    (∃ D D' : List KeyValue, (∀ k, (applyDecided .new l).get k = lastWrite D k) ∧ (∀ k, (applyDecided .new l').get k = lastWrite D' k) ∧
      D.length = op.get_decided_idx ∧ D'.length = op'.get_decided_idx ∧ (D <+: D' ∨ D' <+: D)) ∧
    (op.get_decided_idx = op'.get_decided_idx → applyDecided .new l = applyDecided .new l') := by
  obtain ⟨hr, hr'⟩ : c.Reachable cc rel ∧ c'.Reachable cc rel := by
    rcases h with ⟨h1, h2⟩ | ⟨h1, h2⟩
    · exact ⟨h1, Cluster.Reachable.later h1 h2⟩
    · exact ⟨Cluster.Reachable.later h1 h2, h1⟩
  obtain ⟨k1, -, -⟩ := C17_reads_in_runs_partial cc c hr i op hi hsi
  obtain ⟨k2, -, -⟩ := C17_reads_in_runs_partial cc c' hr' j op' hj hsj
  have hp := C02_prefixes_partial cc hv c c' h i j (by rw [hi]; exact k1.compacted.symm.trans hci)
    (by rw [hj]; exact k2.compacted.symm.trans hcj)
  have s1 := C54_store_partial cc c hr i op hi hsi l hl
  have s2 := C54_store_partial cc c' hr' j op' hj hsj l' hl'
  rw [hi, hj] at hp
  simp only [Server.disk] at hp
  have b1 := k1.bound
  have b2 := k2.bound
  unfold Mem.len at b1 b2
  rw [hsi, ← k1.compacted] at b1
  rw [hsj, ← k2.compacted] at b2
  have hci' : op.sp.ist.cache.compacted_idx = 0 := hci
  have hcj' : op'.sp.ist.cache.compacted_idx = 0 := hcj
  have d1 : op.get_decided_idx = op.sp.ist.storage.ld := k1.decided
  have d2 : op'.get_decided_idx = op'.sp.ist.storage.ld := k2.decided
  simp only [hci, hcj, d1, d2, Nat.sub_zero] at s1 s2
  simp only [hci', hcj', Option.isSome_none, Bool.false_eq_true, if_false] at b1 b2
  have hex : ∃ D D' : List KeyValue, (∀ k, (applyDecided .new l).get k = lastWrite D k) ∧
      (∀ k, (applyDecided .new l').get k = lastWrite D' k) ∧
      D.length = op.get_decided_idx ∧ D'.length = op'.get_decided_idx ∧ (D <+: D' ∨ D' <+: D) :=
    ⟨_, _, s1, s2, by rw [List.length_take, d1]; omega, by rw [List.length_take, d2]; omega, hp⟩
  refine ⟨hex, fun he => KVSnapshot.ext fun k => ?_⟩
  obtain ⟨D, D', h1, h2, h3, h4, h5⟩ := hex
  have : D = D' := by
    rcases h5 with h5 | h5
    · exact h5.eq_of_length (by omega)
    · exact (h5.eq_of_length (by omega)).symm
  rw [h1, h2, this]

/-! ### Concrete cases and the negation -/

namespace Sample

abbrev KC := Cluster KeyValue KVSnapshot
abbrev KA := Action KeyValue KVSnapshot

/-- Servers 1 and 2 decide a := 1 and b := 2 in a ballot of server 1; server 3 receives nothing. -/
def kvDecide : List KA := [.start 1 (sc 1), .start 2 (sc 2), .start 3 (sc 3), .call 1 .tryBecomeLeader, .take 1, .lose 1 3 0,
  .lose 1 3 0, .lose 1 2 1, .deliver 1 2, .take 2, .lose 2 1 1, .lose 2 3 0, .deliver 2 1, .take 1, .deliver 1 2, .take 2,
  .deliver 2 1, .take 1, .call 1 (.append ⟨"a", 1⟩), .call 1 (.append ⟨"b", 2⟩), .take 1, .deliver 1 2, .take 2, .deliver 2 1,
  .take 1, .deliver 1 2, .take 2]

/-- Then server 1 crashes and server 3 takes over with the promise of server 2. -/
def kvTakeover : List KA := [.crash 1, .call 3 .tryBecomeLeader, .take 3, .lose 3 1 1, .lose 3 2 1, .deliver 3 2, .take 2,
  .deliver 2 3, .take 3, .deliver 3 2, .take 2, .deliver 2 3, .take 3]

def kvCheck (as : List KA) (P : KC → Bool) : Bool :=
  Cluster.init.drainedB cc as && match Cluster.init.run cc as with
    | none => false
    | some c => P c

theorem kvCheck_elim {as : List KA} {P : KC → Bool} (h : kvCheck as P = true) : ∃ c : KC, c.Reachable cc ∧ P c = true := by
  unfold kvCheck at h
  simp only [Bool.and_eq_true] at h
  obtain ⟨h1, h2⟩ := h
  split at h2
  · simp at h2
  · rename_i c hc
    exact ⟨c, ⟨as, (Cluster.drainedB_sound h1).tidy, hc⟩, h2⟩

def kvUp (c : KC) (i : NodeId) (p : OP KeyValue KVSnapshot → Bool) : Bool :=
  match c.servers i with
  | .up op => p op
  | .down _ => false

theorem kvUp_elim {c : KC} {i : NodeId} {p : OP KeyValue KVSnapshot → Bool} (h : kvUp c i p = true) :
    ∃ op, c.servers i = .up op ∧ p op = true := by
  unfold kvUp at h
  split at h
  · exact ⟨_, by assumption, h⟩
  · simp at h

/-- What the application's loop holds under the key `k`, from a read at index 0. -/
def kvGet (op : OP KeyValue KVSnapshot) (k : String) : Option Nat :=
  match op.read_decided_suffix 0 with
  | some (some l) => (applyDecided .new l).get k
  | _ => none

end Sample

open Sample

/-- Concrete case for C54: servers 1 and 2 decided two commands, compacted nothing, hold no StopSign, and both stores hold 1 under
"a". -/
example : ∃ (c : KC) (op op' : OP KeyValue KVSnapshot), c.SameRun cc c ∧ cc.validate = .ok () ∧ c.servers 1 = .up op ∧ c.servers 2 = .up op' ∧
    op.sp.ist.storage.stopsign = none ∧ op'.sp.ist.storage.stopsign = none ∧ op.get_compacted_idx = 0 ∧ op'.get_compacted_idx = 0 ∧
    op.get_decided_idx = 2 ∧ op'.get_decided_idx = 2 ∧ kvGet op "a" = some 1 ∧ kvGet op' "a" = some 1 := by
  obtain ⟨c, h, hP⟩ := kvCheck_elim (as := kvDecide)
    (P := fun c => let p := fun op : OP KeyValue KVSnapshot => decide (op.sp.ist.storage.stopsign = none ∧ op.get_compacted_idx = 0 ∧
      op.get_decided_idx = 2 ∧ kvGet op "a" = some 1); kvUp c 1 p && kvUp c 2 p) (by decide +kernel)
  simp only [Bool.and_eq_true] at hP
  obtain ⟨op, h1, h1'⟩ := kvUp_elim hP.1
  obtain ⟨op', h2, h2'⟩ := kvUp_elim hP.2
  obtain ⟨a1, a2, a3, a4⟩ := of_decide_eq_true h1'
  obtain ⟨b1, b2, b3, b4⟩ := of_decide_eq_true h2'
  exact ⟨c, op, op', .inl ⟨h, .refl cc c⟩, rfl, h1, h2, a1, b1, a2, b2, a3, b3, a4, b4⟩

/-- Concrete case for C54_merge_any_order. -/
example : (KVSnapshot.create [⟨"a", 1⟩, ⟨"b", 2⟩, ⟨"a", 3⟩]).Iterates [("b", 2), ("a", 3)] := by
  refine ⟨by decide, fun k v => ?_⟩
  rw [KVSnapshot.get_create]
  by_cases ha : k = "a"
  · subst ha; simp [lastWrite, eq_comm]
  · by_cases hb : k = "b"
    · subst hb; simp [lastWrite, eq_comm]
    · have h1 : ¬ "a" = k := fun e => ha e.symm
      have h2 : ¬ "b" = k := fun e => hb e.symm
      simp [lastWrite, ha, hb, h1, h2]

/-- C54 is false of the code: server 3 receives the decided commands of servers 1 and 2 as a snapshot when it takes over. It has
decided two positions, and the store that the application builds from `read_decided_suffix(0)` is empty: the loop skips the
snapshot. -/
theorem C54_false_snapshot : ∃ (c : KC) (op op' : OP KeyValue KVSnapshot), c.Reachable cc ∧ c.servers 3 = .up op ∧ c.servers 2 = .up op' ∧
    op.get_decided_idx = 2 ∧ op'.get_decided_idx = 2 ∧ op.sp.ist.storage.stopsign = none ∧
    kvGet op' "a" = some 1 ∧ kvGet op' "b" = some 2 ∧ kvGet op "a" = none ∧ kvGet op "b" = none := by
  obtain ⟨c, h, hP⟩ := kvCheck_elim (as := kvDecide ++ kvTakeover)
    (P := fun c => kvUp c 3 (fun op => decide (op.get_decided_idx = 2 ∧ op.sp.ist.storage.stopsign = none ∧ kvGet op "a" = none ∧
      kvGet op "b" = none)) && kvUp c 2 (fun op => decide (op.get_decided_idx = 2 ∧ kvGet op "a" = some 1 ∧ kvGet op "b" = some 2)))
    (by decide +kernel)
  simp only [Bool.and_eq_true] at hP
  obtain ⟨op, h1, h1'⟩ := kvUp_elim hP.1
  obtain ⟨op', h2, h2'⟩ := kvUp_elim hP.2
  obtain ⟨a1, a2, a3, a4⟩ := of_decide_eq_true h1'
  obtain ⟨b1, b2, b3⟩ := of_decide_eq_true h2'
  exact ⟨c, op, op', h, h1, h2, a1, b1, a2, b2, b3, a3, a4⟩

end Omni
