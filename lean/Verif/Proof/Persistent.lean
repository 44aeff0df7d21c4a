import Verif.Spec.Storage
/-
MemoryStorage simulates PersistentStorage.
-/
namespace Omni

variable {E S : Type}

namespace KV

/-- Keys ascending. -/
def Sorted (m : KV E) : Prop := m.Pairwise fun a b => a.1 < b.1

/-- Point lookup. -/
def get (m : KV E) (k : Nat) : Option E := (m.find? fun p => p.1 = k).map (·.2)

theorem get_nil (k : Nat) : get ([] : KV E) k = none := rfl

theorem get_cons (j : Nat) (v : E) (r : KV E) (k : Nat) : get ((j, v) :: r) k = if j = k then some v else get r k := by
  unfold get
  by_cases h : j = k <;> simp [h]

theorem get_lt {m : KV E} {j k : Nat} (h : ∀ p ∈ m, j < p.1) (hk : k ≤ j) : get m k = none := by
  induction m with
  | nil => rfl
  | cons p r ih =>
    obtain ⟨a, v⟩ := p
    have := h (a, v) List.mem_cons_self
    rw [get_cons, if_neg (by simp at this; omega), ih fun q hq => h q (List.mem_cons_of_mem _ hq)]

theorem ext {a b : KV E} (ha : Sorted a) (hb : Sorted b) (h : ∀ k, get a k = get b k) : a = b := by
  induction a generalizing b with
  | nil =>
    cases b with
    | nil => rfl
    | cons p r => have := h p.1; rw [get_cons, if_pos rfl] at this; cases this
  | cons p r ih =>
    obtain ⟨j, v⟩ := p
    cases b with
    | nil => have := h j; rw [get_cons, if_pos rfl] at this; cases this
    | cons q s =>
      obtain ⟨k, w⟩ := q
      have ha' := List.pairwise_cons.1 ha
      have hb' := List.pairwise_cons.1 hb
      have hjk : j = k := by
        rcases Nat.lt_trichotomy j k with hlt | heq | hlt
        · have h1 := h j
          rw [get_cons, if_pos rfl, get_cons, if_neg (by omega), get_lt (fun p hp => hb'.1 p hp) (by simp; omega)] at h1
          cases h1
        · exact heq
        · have h1 := h k
          rw [get_cons, if_neg (by omega), get_lt (fun p hp => ha'.1 p hp) (by simp; omega), get_cons, if_pos rfl] at h1
          cases h1
      subst hjk
      have hv := h j
      rw [get_cons, if_pos rfl, get_cons, if_pos rfl] at hv
      cases hv
      congr 1
      refine ih ha'.2 hb'.2 fun i => ?_
      have h1 := h i
      rw [get_cons, get_cons] at h1
      by_cases hi : j = i
      · rw [get_lt (fun p hp => ha'.1 p hp) (by simp; omega), get_lt (fun p hp => hb'.1 p hp) (by simp; omega)]
      · rwa [if_neg hi, if_neg hi] at h1

theorem mem_put {m : KV E} {k : Nat} {v : E} {p : Nat × E} (h : p ∈ m.put k v) : p = (k, v) ∨ p ∈ m := by
  induction m with
  | nil => simp [put] at h; exact .inl h
  | cons q r ih =>
    obtain ⟨j, w⟩ := q
    simp only [put] at h
    split at h
    · rcases List.mem_cons.1 h with h | h
      · exact .inl h
      · exact .inr h
    · split at h
      · rcases List.mem_cons.1 h with h | h
        · exact .inl h
        · exact .inr (List.mem_cons_of_mem _ h)
      · rcases List.mem_cons.1 h with h | h
        · exact .inr (h ▸ List.mem_cons_self)
        · rcases ih h with h | h
          · exact .inl h
          · exact .inr (List.mem_cons_of_mem _ h)

theorem sorted_put {m : KV E} (h : Sorted m) (k : Nat) (v : E) : Sorted (m.put k v) := by
  induction m with
  | nil => simp [put, Sorted]
  | cons q r ih =>
    obtain ⟨j, w⟩ := q
    have h' := List.pairwise_cons.1 h
    simp only [put]
    split
    · rename_i hk
      refine List.pairwise_cons.2 ⟨fun p hp => ?_, h⟩
      rcases List.mem_cons.1 hp with rfl | hp
      · exact hk
      · exact Nat.lt_trans hk (h'.1 p hp)
    · split
      · rename_i hk; subst hk
        exact List.pairwise_cons.2 ⟨h'.1, h'.2⟩
      · refine List.pairwise_cons.2 ⟨fun p hp => ?_, ih h'.2⟩
        rcases mem_put hp with rfl | hp
        · simp only; omega
        · exact h'.1 p hp

theorem get_put {m : KV E} (h : Sorted m) (k : Nat) (v : E) (i : Nat) :
    get (m.put k v) i = if k = i then some v else get m i := by
  induction m with
  | nil => simp only [put, get_cons]
  | cons q r ih =>
    obtain ⟨j, w⟩ := q
    have h' := List.pairwise_cons.1 h
    simp only [put]
    split
    · rw [get_cons]
    · split
      · rename_i hk; subst hk
        rw [get_cons, get_cons]
        split <;> rfl
      · rw [get_cons, ih h'.2, get_cons]
        split
        · rename_i hk _ hj
          rw [if_neg (by omega)]
        · rfl

theorem sorted_delete {m : KV E} (h : Sorted m) (a b : Nat) : Sorted (m.deleteRange a b) := h.filter _

theorem get_delete (m : KV E) (a b i : Nat) :
    get (m.deleteRange a b) i = if a ≤ i ∧ i < b then none else get m i := by
  induction m with
  | nil => simp [deleteRange, get_nil]
  | cons q r ih =>
    obtain ⟨j, w⟩ := q
    simp only [deleteRange, List.filter_cons] at ih ⊢
    split
    · rename_i hj
      simp at hj
      rw [get_cons, ih, get_cons]
      split
      · rename_i e; subst e; rw [if_neg (by omega)]
      · rfl
    · rename_i hj
      simp at hj
      rw [ih, get_cons]
      split
      · rfl
      · rw [if_neg (by omega)]

/-- A contiguous log starting at index `t`. -/
def ofLog (t : Nat) : List E → KV E
  | [] => []
  | e :: es => (t, e) :: ofLog (t + 1) es

theorem mem_ofLog {t : Nat} {es : List E} {p : Nat × E} (h : p ∈ ofLog t es) : t ≤ p.1 := by
  induction es generalizing t with
  | nil => cases h
  | cons e es ih =>
    rcases List.mem_cons.1 h with rfl | h
    · exact Nat.le_refl _
    · have := ih h; omega

theorem sorted_ofLog (t : Nat) (es : List E) : Sorted (ofLog t es) := by
  induction es generalizing t with
  | nil => exact List.Pairwise.nil
  | cons e es ih => exact List.pairwise_cons.2 ⟨fun p hp => mem_ofLog hp, ih (t + 1)⟩

theorem get_ofLog (t : Nat) (es : List E) (i : Nat) : get (ofLog t es) i = if t ≤ i then es[i - t]? else none := by
  induction es generalizing t with
  | nil => simp [ofLog, get_nil]
  | cons e es ih =>
    rw [ofLog, get_cons, ih]
    by_cases h : t = i
    · subst h; simp
    · rw [if_neg h]
      by_cases h2 : t ≤ i
      · rw [if_pos (by omega), if_pos h2, show i - t = (i - (t + 1)) + 1 by omega, List.getElem?_cons_succ]
      · rw [if_neg (by omega), if_neg h2]

theorem length_ofLog (t : Nat) (es : List E) : (ofLog t es).length = es.length := by
  induction es generalizing t with
  | nil => rfl
  | cons e es ih => simp [ofLog, ih]

theorem vals_ofLog (t : Nat) (es : List E) : (ofLog t es).map (·.2) = es := by
  induction es generalizing t with
  | nil => rfl
  | cons e es ih => simp [ofLog, ih]

theorem seek_ofLog (t : Nat) (es : List E) (i : Nat) (h : t ≤ i) : (ofLog t es).seek i = ofLog i (es.drop (i - t)) := by
  induction es generalizing t with
  | nil => simp [ofLog, seek]
  | cons e es ih =>
    simp only [ofLog, seek, List.dropWhile_cons]
    by_cases hlt : t < i
    · simp only [hlt, decide_true, if_true]
      have := ih (t + 1) hlt
      rw [seek] at this
      rw [this, show i - t = (i - (t + 1)) + 1 by omega, List.drop_succ_cons]
    · have : t = i := by omega
      subst this
      simp [ofLog]

theorem last_ofLog (t : Nat) (es : List E) : (ofLog t es).getLast?.map (·.1 + 1) =
    if es = [] then none else some (t + es.length) := by
  induction es generalizing t with
  | nil => rfl
  | cons e es ih =>
    cases es with
    | nil => simp [ofLog]
    | cons f fs =>
      have := ih (t + 1)
      simp only [ofLog, List.getLast?_cons_cons, reduceCtorEq, if_false, List.length_cons] at this ⊢
      rw [this]; congr 1; omega

end KV

theorem DB.write_append (d : DB E S) (a b : List (WOp E S)) : d.write (a ++ b) = (d.write a).write b :=
  List.foldl_append

/-- Writing consecutive keys. -/
theorem DB.write_put (d : DB E S) (hs : d.log.Sorted) (n : Nat) (es : List E) :
    ∃ l, d.write (PStore.putEntries n es) = { d with log := l } ∧ l.Sorted ∧
      ∀ i, l.get i = if n ≤ i ∧ i < n + es.length then es[i - n]? else d.log.get i := by
  induction es generalizing d n with
  | nil => exact ⟨d.log, rfl, hs, fun i => by rw [if_neg (by simp)]⟩
  | cons e es ih =>
    obtain ⟨l, h1, h2, h3⟩ := ih { d with log := d.log.put n e } (KV.sorted_put hs n e) (n + 1)
    refine ⟨l, h1, h2, fun i => ?_⟩
    rw [h3 i, KV.get_put hs]
    simp only [List.length_cons]
    by_cases hi : n = i
    · subst hi
      rw [if_neg (by omega), if_pos rfl, if_pos (by omega)]; simp
    · rw [if_neg hi]
      by_cases h4 : n + 1 ≤ i ∧ i < n + 1 + es.length
      · rw [if_pos h4, if_pos (by omega), show i - n = (i - (n + 1)) + 1 by omega, List.getElem?_cons_succ]
      · rw [if_neg h4, if_neg (by omega)]

/-- The simulation relation. -/
structure Sim (m : Mem E S) (p : PStore E S) (b : LogBounds) : Prop where
  log : p.db.log = KV.ofLog m.trimmed_idx m.log
  next : m.trimmed_idx + m.log.length = p.next_log_key ∨ (m.log = [] ∧ p.next_log_key < m.trimmed_idx)
  stop : b.stop = p.next_log_key
  trimmed : b.trimmed = m.trimmed_idx
  comp : b.compacted = m.compacted_idx
  promise : m.n_prom = p.get_promise
  decided : m.ld = p.get_decided_idx
  accepted : m.acc_round = p.get_accepted_round
  compacted : m.compacted_idx = p.get_compacted_idx
  stopsign : m.stopsign = p.get_stopsign
  snapshot : m.snapshot = p.get_snapshot

theorem Sim.init : Sim ({} : Mem E S) {} {} :=
  ⟨rfl, .inl rfl, rfl, rfl, rfl, rfl, rfl, rfl, rfl, rfl, rfl⟩

/-- Appending `es` at index `i`, after removing what lies behind. -/
theorem Sim.prefixed {m : Mem E S} {p : PStore E S} {b : LogBounds} (h : Sim m p b) {i : Nat} {es : List E}
    (h1 : m.trimmed_idx ≤ i) (h2 : i ≤ p.next_log_key ∨ i = m.trimmed_idx) :
    (p.db.write (PStore.batch_append_on_prefix p.next_log_key i es).1) =
      { p.db with log := KV.ofLog m.trimmed_idx (m.log.take (i - m.trimmed_idx) ++ es) } := by
  have hlen : (m.log.take (i - m.trimmed_idx)).length = i - m.trimmed_idx := by
    rw [List.length_take]
    rcases h.next with hn | ⟨hn, hlt⟩
    · omega
    · rw [hn]; simp; omega
  unfold PStore.batch_append_on_prefix
  simp only
  rw [DB.write_append]
  have hs : p.db.log.Sorted := by rw [h.log]; exact KV.sorted_ofLog _ _
  -- after the deletion
  have hd : ∃ l, p.db.write (if i + es.length < p.next_log_key then [.deleteLog (i + es.length) p.next_log_key] else []) =
      { p.db with log := l } ∧ l.Sorted ∧ ∀ k, l.get k =
        if i + es.length ≤ k ∧ k < p.next_log_key then none else p.db.log.get k := by
    split
    · exact ⟨_, rfl, KV.sorted_delete hs _ _, fun k => KV.get_delete _ _ _ _⟩
    · exact ⟨p.db.log, rfl, hs, fun k => by rw [if_neg (by omega)]⟩
  obtain ⟨l, e1, s1, g1⟩ := hd
  rw [e1]
  obtain ⟨l', e2, s2, g2⟩ := DB.write_put { p.db with log := l } s1 i es
  rw [e2]
  simp only [DB.mk.injEq, and_self, and_true]
  refine KV.ext s2 (KV.sorted_ofLog _ _) fun k => ?_
  rw [g2, g1, h.log, KV.get_ofLog, KV.get_ofLog]
  by_cases hk : m.trimmed_idx ≤ k
  · rw [if_pos hk, if_pos hk]
    by_cases h3 : i ≤ k
    · by_cases h4 : k < i + es.length
      · rw [if_pos ⟨h3, h4⟩, List.getElem?_append_right (by omega), hlen]
        congr 1; omega
      · rw [if_neg (by omega), List.getElem?_append_right (by omega), hlen]
        rw [List.getElem?_eq_none (l := es) (by omega)]
        split
        · rfl
        · rw [List.getElem?_eq_none]
          rcases h.next with hn | ⟨hn, hlt⟩
          · omega
          · rw [hn]; simp
    · rw [if_neg (by omega), if_neg (by omega), List.getElem?_append_left (by omega), List.getElem?_take_of_lt (by omega)]
  · rw [if_neg (by omega), if_neg hk]
    simp only [hk, if_false, ite_self]

theorem Sim.append {m : Mem E S} {p : PStore E S} {b : LogBounds} (h : Sim m p b) (es : List E)
    (hb : b.trimmed ≤ b.stop) :
    (p.db.write (PStore.putEntries p.next_log_key es)) = { p.db with log := KV.ofLog m.trimmed_idx (m.log ++ es) } ∧
      m.trimmed_idx + m.log.length = p.next_log_key := by
  have hn : m.trimmed_idx + m.log.length = p.next_log_key := by
    rcases h.next with hn | ⟨-, hlt⟩
    · exact hn
    · rw [h.trimmed, h.stop] at hb; omega
  refine ⟨?_, hn⟩
  have := h.prefixed (i := p.next_log_key) (es := es) (by omega) (.inl (Nat.le_refl _))
  simp only [PStore.batch_append_on_prefix] at this
  rw [if_neg (by omega), List.nil_append, show p.next_log_key - m.trimmed_idx = m.log.length by omega, List.take_length] at this
  exact this

/-- One operation of a batch. -/
theorem Sim.op {m : Mem E S} {p : PStore E S} {b b' : LogBounds} (h : Sim m p b) {op : StorageOp E S}
    (hb : b.op op = some b') :
    ∃ m', m.apply op = some m' ∧
      Sim m' { db := p.db.write (PStore.batch p.next_log_key op).1, next_log_key := (PStore.batch p.next_log_key op).2 } b' := by
  have hput : ∀ (n : Nat) (e : E), ([.putLog n e] : List (WOp E S)) = PStore.putEntries n [e] := fun _ _ => rfl
  cases op with
  | appendEntry e =>
    simp only [LogBounds.op] at hb
    split at hb
    · cases hb
      rename_i hb
      obtain ⟨e1, e2⟩ := h.append [e] hb
      refine ⟨_, rfl, ?_⟩
      simp only [PStore.batch, hput, e1]
      exact ⟨rfl, .inl (by simp [Mem.append_entry]; omega), by simp [h.stop], h.trimmed, h.comp, h.promise, h.decided, h.accepted,
        h.compacted, h.stopsign, h.snapshot⟩
    · cases hb
  | appendEntries es =>
    simp only [LogBounds.op] at hb
    split at hb
    · cases hb
      rename_i hb
      obtain ⟨e1, e2⟩ := h.append es hb
      refine ⟨_, rfl, ?_⟩
      simp only [PStore.batch, e1]
      exact ⟨rfl, .inl (by simp [Mem.append_entries]; omega), by simp [h.stop], h.trimmed, h.comp, h.promise, h.decided,
        h.accepted, h.compacted, h.stopsign, h.snapshot⟩
    · cases hb
  | appendOnPrefix i es =>
    simp only [LogBounds.op] at hb
    split at hb
    · cases hb
      rename_i hb
      rw [h.trimmed, h.stop] at hb
      have e1 := h.prefixed (es := es) hb.1 hb.2
      refine ⟨{ m with log := m.log.take (i - m.trimmed_idx) ++ es }, ?_, ?_⟩
      · simp only [Mem.apply, Mem.append_on_prefix, usub, if_pos hb.1]; rfl
      · simp only [PStore.batch, e1]
        refine ⟨rfl, .inl ?_, by simp [PStore.batch_append_on_prefix], h.trimmed, h.comp, h.promise, h.decided, h.accepted,
          h.compacted, h.stopsign, h.snapshot⟩
        simp only [PStore.batch_append_on_prefix, List.length_append, List.length_take]
        rcases h.next with hn | ⟨hn, hlt⟩
        · omega
        · rw [hn]; simp; omega
    · cases hb
  | trim i =>
    simp only [LogBounds.op] at hb
    split at hb
    · cases hb
      rename_i hb
      rw [h.trimmed] at hb
      refine ⟨{ m with log := m.log.drop (min (i - m.trimmed_idx) m.log.length), trimmed_idx := i }, ?_, ?_⟩
      · simp only [Mem.apply, Mem.trim, usub, if_pos hb]
      · refine ⟨?_, ?_, h.stop, rfl, h.comp, h.promise, h.decided, h.accepted, h.compacted, h.stopsign, h.snapshot⟩
        · show p.db.log.deleteRange 0 i = _
          have hs : p.db.log.Sorted := by rw [h.log]; exact KV.sorted_ofLog _ _
          refine KV.ext (KV.sorted_delete hs _ _) (KV.sorted_ofLog _ _) fun k => ?_
          rw [KV.get_delete, h.log, KV.get_ofLog, KV.get_ofLog]
          by_cases hk : i ≤ k
          · rw [if_neg (by omega), if_pos (by omega), if_pos hk, List.getElem?_drop]
            by_cases h5 : i - m.trimmed_idx ≤ m.log.length
            · rw [Nat.min_eq_left h5, show i - m.trimmed_idx + (k - i) = k - m.trimmed_idx by omega]
            · rw [Nat.min_eq_right (by omega), List.getElem?_eq_none (by omega), List.getElem?_eq_none (by omega)]
          · rw [if_pos (by omega), if_neg hk]
        · show i + _ = p.next_log_key ∨ (_ ∧ p.next_log_key < i)
          simp only [List.length_drop]
          rcases h.next with hn | ⟨hn, hlt⟩
          · by_cases h5 : i ≤ p.next_log_key
            · left; omega
            · right; exact ⟨List.drop_eq_nil_of_le (by omega), by omega⟩
          · right; exact ⟨by rw [hn]; simp, by omega⟩
    · cases hb
  | setCompactedIdx i =>
    cases hb
    exact ⟨_, rfl, h.log, h.next, h.stop, h.trimmed, rfl, h.promise, h.decided, h.accepted, rfl, h.stopsign, h.snapshot⟩
  | setPromise x =>
    cases hb
    exact ⟨_, rfl, h.log, h.next, h.stop, h.trimmed, h.comp, rfl, h.decided, h.accepted, h.compacted, h.stopsign, h.snapshot⟩
  | setDecidedIndex i =>
    cases hb
    exact ⟨_, rfl, h.log, h.next, h.stop, h.trimmed, h.comp, h.promise, rfl, h.accepted, h.compacted, h.stopsign, h.snapshot⟩
  | setAcceptedRound x =>
    cases hb
    exact ⟨_, rfl, h.log, h.next, h.stop, h.trimmed, h.comp, h.promise, h.decided, rfl, h.compacted, h.stopsign, h.snapshot⟩
  | setStopsign ss =>
    cases hb
    exact ⟨_, rfl, h.log, h.next, h.stop, h.trimmed, h.comp, h.promise, h.decided, h.accepted, h.compacted, rfl, h.snapshot⟩
  | setSnapshot x =>
    cases hb
    exact ⟨_, rfl, h.log, h.next, h.stop, h.trimmed, h.comp, h.promise, h.decided, h.accepted, h.compacted, h.stopsign, rfl⟩

theorem Sim.ops {m : Mem E S} {p : PStore E S} {b b' : LogBounds} (h : Sim m p b) {ops : List (StorageOp E S)}
    (hb : b.ops ops = some b') :
    ∃ m', m.write_atomically ops = some m' ∧ Sim m' (p.write_atomically ops) b' := by
  induction ops generalizing m p b with
  | nil => cases hb; exact ⟨m, rfl, h⟩
  | cons op ops ih =>
    simp only [LogBounds.ops] at hb
    split at hb
    · cases hb
    · rename_i b1 hb1
      obtain ⟨m1, e1, h1⟩ := h.op hb1
      obtain ⟨m2, e2, h2⟩ := ih h1 hb
      refine ⟨m2, ?_, ?_⟩
      · simp only [Mem.write_atomically, e1]; exact e2
      · simp only [PStore.write_atomically, PStore.batchAll, DB.write_append] at h2 ⊢; exact h2

/-- A single call does the same as a batch with this one operation. -/
theorem PStore.call_one (p : PStore E S) (op : StorageOp E S) :
    p.call (.one op) = { db := p.db.write (batch p.next_log_key op).1, next_log_key := (batch p.next_log_key op).2 } := by
  cases op with
  | appendOnPrefix i es =>
    simp only [PStore.call, append_on_prefix, append_entries, batch, batch_append_on_prefix, DB.write_append]
    split <;> rfl
  | _ => rfl

theorem Sim.calls {m : Mem E S} {p : PStore E S} {b b' : LogBounds} (h : Sim m p b) {cs : List (StorageCall E S)}
    (hb : b.calls cs = some b') : ∃ m', m.calls cs = some m' ∧ Sim m' (p.calls cs) b' := by
  induction cs generalizing m p b with
  | nil => cases hb; exact ⟨m, rfl, h⟩
  | cons c cs ih =>
    cases c with
    | one op =>
      simp only [LogBounds.calls] at hb
      split at hb
      · cases hb
      · rename_i b1 hb1
        obtain ⟨m1, e1, h1⟩ := h.op hb1
        rw [← PStore.call_one] at h1
        obtain ⟨m2, e2, h2⟩ := ih h1 hb
        refine ⟨m2, ?_, h2⟩
        simp only [Mem.calls, Mem.call, e1]; exact e2
    | atomically ops =>
      simp only [LogBounds.calls] at hb
      split at hb
      · cases hb
      · rename_i b1 hb1
        obtain ⟨m1, e1, h1⟩ := h.ops hb1
        obtain ⟨m2, e2, h2⟩ := ih (p := p.call (.atomically ops)) h1 hb
        refine ⟨m2, ?_, h2⟩
        simp only [Mem.calls, Mem.call, e1]; exact e2

theorem Sim.settled {m : Mem E S} {p : PStore E S} {b : LogBounds} (h : Sim m p b) (hs : b.Settled) :
    m.trimmed_idx = m.compacted_idx ∧ m.trimmed_idx + m.log.length = p.next_log_key := by
  have h1 := hs.1
  have h2 := hs.2
  rw [h.comp, h.trimmed] at h1
  rw [h.trimmed, h.stop] at h2
  refine ⟨h1.symm, ?_⟩
  rcases h.next with hn | ⟨-, hlt⟩
  · exact hn
  · omega

theorem Sim.entries {m : Mem E S} {p : PStore E S} {b : LogBounds} (h : Sim m p b) (hs : b.Settled) (i j : Nat)
    (hi : m.compacted_idx ≤ i) (hj : m.compacted_idx ≤ j) :
    m.get_entries i j = p.get_entries i j ∧ (p.get_entries i j).isSome := by
  obtain ⟨h1, h2⟩ := h.settled hs
  rw [← h1] at hi hj
  simp only [Mem.get_entries, PStore.get_entries, usub, if_pos hi, if_pos hj, sliceGet]
  by_cases hc : j > p.next_log_key ∨ i ≥ j
  · rw [if_pos hc]
    refine ⟨?_, rfl⟩
    by_cases h3 : i = j
    · subst h3; split <;> simp
    · rw [if_neg (by omega)]
  · rw [if_neg hc, if_pos (by omega), h.log, KV.seek_ofLog _ _ _ hi, KV.length_ofLog, List.length_drop, if_neg (by omega)]
    refine ⟨?_, rfl⟩
    congr 1
    rw [List.map_take, KV.vals_ofLog, List.drop_take]
    congr 1; omega

theorem Sim.getters {m : Mem E S} {p : PStore E S} {b : LogBounds} (h : Sim m p b) (hs : b.Settled) : SameGetters m p := by
  obtain ⟨h1, h2⟩ := h.settled hs
  refine ⟨fun i j hi hj => (h.entries hs i j hi hj).1, fun i j hi hj => (h.entries hs i j hi hj).2, fun i => ?_, ?_, h.promise,
    h.decided, h.accepted, h.compacted, h.stopsign, h.snapshot⟩
  · by_cases hi : m.compacted_idx ≤ i
    rotate_left
    · rw [← h1] at hi
      simp only [PStore.get_suffix, PStore.get_entries, Mem.get_suffix, usub, if_neg hi]
      rw [if_neg (by omega), if_pos]
      rw [h.log]
      refine Nat.lt_of_le_of_lt (List.dropWhile_sublist _).length_le ?_
      rw [KV.length_ofLog]; omega
    rw [PStore.get_suffix, ← (h.entries hs i _ hi (by omega)).1]
    rw [← h1] at hi
    simp only [Mem.get_suffix, Mem.get_entries, usub, if_pos hi, if_pos (show m.trimmed_idx ≤ p.next_log_key by omega), sliceGet]
    congr 1
    rw [show p.next_log_key - m.trimmed_idx = m.log.length by omega, List.take_length]
    split
    · rfl
    · exact List.drop_eq_nil_of_le (by omega)
  · rw [PStore.get_log_len, ← h.compacted, ← h1, usub, if_pos (by omega), Mem.get_log_len]
    congr 1; omega

theorem Sim.reopen {m : Mem E S} {p : PStore E S} {b : LogBounds} (h : Sim m p b) (hs : b.Settled) : PStore.open p.db = p := by
  obtain ⟨h1, h2⟩ := h.settled hs
  unfold PStore.open
  cases p with | mk db next => ?_
  simp only [PStore.mk.injEq, true_and]
  have hl := KV.last_ofLog m.trimmed_idx m.log
  rw [← h.log] at hl
  simp only at hl h2
  cases hx : db.log.getLast? with
  | some q =>
    rw [hx] at hl
    simp only [Option.map_some] at hl
    split at hl
    · cases hl
    · have := Option.some.inj hl
      simp only
      omega
  | none =>
    rw [hx] at hl
    simp only [Option.map_none] at hl
    split at hl
    · rename_i he
      have hc := h.compacted
      simp only [PStore.get_compacted_idx] at hc ⊢
      rw [← hc, ← h1]
      rw [he] at h2; simp at h2; omega
    · cases hl

end Omni
