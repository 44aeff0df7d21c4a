import Verif.Proof.Persistent
/-
Properties of the two storage back-ends: C18, C19.
-/
namespace Omni

variable {E S : Type}

section Sample

/-- Single calls and transactions: append, trim with its compacted index, replace the whole log by a snapshot beyond its end
and a suffix, cut off the suffix. -/
def storeCalls : List (StorageCall Nat (List Nat)) :=
  [.one (.setPromise ⟨1, 1, 0, 1⟩), .one (.appendEntries [5, 6, 7]), .one (.appendEntry 8),
   .atomically [.trim 2, .setCompactedIdx 2],
   .atomically [.setAcceptedRound ⟨1, 2, 0, 3⟩, .setDecidedIndex 9, .trim 6, .setCompactedIdx 6, .setSnapshot (some [5]),
     .appendOnPrefix 6 [60, 70, 80], .setStopsign none],
   .one (.appendOnPrefix 7 [71])]

example : InBounds storeCalls := ⟨⟨6, 6, 8⟩, by decide, by decide, by decide⟩
example : (({} : Mem Nat (List Nat)).calls storeCalls).map (·.log) = some [60, 71] ∧
    (({} : PStore Nat (List Nat)).calls storeCalls).db.log = [(6, 60), (7, 71)] := by decide

/-- Without the bounds the two differ: `trim` alone, its compacted index not yet set, changes `get_log_len` of one only. -/
example : (({} : Mem Nat (List Nat)).calls [.one (.appendEntries [5, 6]), .one (.trim 1)]).map (·.get_log_len) = some 1 ∧
    (({} : PStore Nat (List Nat)).calls [.one (.appendEntries [5, 6]), .one (.trim 1)]).get_log_len = some 2 := by decide

/-- Keeping a prefix beyond the end of the log: MemoryStorage appends at the end, PersistentStorage at the index. -/
example : (({} : Mem Nat (List Nat)).calls [.one (.appendEntries [5, 6]), .one (.appendOnPrefix 3 [9])]).map (·.get_log_len) = some 3 ∧
    (({} : PStore Nat (List Nat)).calls [.one (.appendEntries [5, 6]), .one (.appendOnPrefix 3 [9])]).get_log_len = some 4 := by
  decide

end Sample

/-! ## C18 -/

/-- C18: after every sequence of write calls (single ones and transactions) that respects the log bounds, MemoryStorage has
not panicked and every getter of the two storages returns the same, and none of them an error. -/
theorem C18_interchangeable (cs : List (StorageCall E S)) (h : InBounds cs) :
    ∃ m, ({} : Mem E S).calls cs = some m ∧ SameGetters m (({} : PStore E S).calls cs) := by
  obtain ⟨b, hb, hs⟩ := h
  obtain ⟨m, hm, hsim⟩ := Sim.init.calls hb
  exact ⟨m, hm, hsim.getters hs⟩

/-! ## C19 -/

/-- C19: opening the database again after any such sequence of calls, each of which reached the database, gives the very
same storage. -/
theorem C19_reopen (cs : List (StorageCall E S)) (h : InBounds cs) :
    PStore.open (({} : PStore E S).calls cs).db = ({} : PStore E S).calls cs := by
  obtain ⟨b, hb, hs⟩ := h
  obtain ⟨m, -, hsim⟩ := Sim.init.calls hb
  exact hsim.reopen hs

/-- C19, repeated: any number of closings and re-openings between the calls leaves the same storage as never closing. -/
theorem C19_reopen_between (css : List (List (StorageCall E S))) (h : ∀ k, InBounds (css.take k).flatten) :
    css.foldl (fun p cs => PStore.open (p.calls cs).db) ({} : PStore E S) = ({} : PStore E S).calls css.flatten := by
  have key : ∀ n, n ≤ css.length →
      (css.take n).foldl (fun p cs => PStore.open (p.calls cs).db) ({} : PStore E S) = ({} : PStore E S).calls (css.take n).flatten := by
    intro n
    induction n with
    | zero => intro _; rfl
    | succ n ih =>
      intro hn
      have he : css.take (n + 1) = css.take n ++ [css[n]] := by simp
      rw [he, List.foldl_append, ih (by omega)]
      have hc : (({} : PStore E S).calls (css.take n).flatten).calls css[n] =
          ({} : PStore E S).calls (css.take n ++ [css[n]]).flatten := by
        simp only [List.flatten_append, List.flatten_cons, List.flatten_nil, List.append_nil, PStore.calls, List.foldl_append]
      simp only [List.foldl_cons, List.foldl_nil, hc]
      exact C19_reopen _ (he ▸ h (n + 1))
  have := key css.length (Nat.le_refl _)
  rwa [List.take_length] at this

/-- All entries trimmed away: the next key comes from the compacted index. -/
example : PStore.open (({} : PStore Nat (List Nat)).calls
    [.one (.appendEntries [5, 6]), .atomically [.trim 2, .setCompactedIdx 2]]).db =
    { db := { log := [], trim := some 2 }, next_log_key := 2 } := by decide

end Omni
