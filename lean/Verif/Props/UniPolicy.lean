import Verif.Proof.UniPolicy
import Verif.Proof.UniRecent
import Verif.Proof.UniOnce
/-
C81: which value an LFU field replaces. C82: which values an LRU field knows. C83: fields whose values all fit into the cache.
-/
namespace Omni

variable {V : Type} [DecidableEq V]

/-- C81: an LFU field that encodes any sequence of values does what the ideal encoder (`Used.encode`) does: it never panics, gives every known value its encoding, and when it is full replaces
a value that has been used least often since it came in, of these the one that was not used for the longest time. -/
theorem C81_lfu_policy (size max : Nat) (hs : 0 < size) (hm : size ≤ max) (vs : List V) :
    ∃ c : LFUni V, LFUni.new max size = .ok c ∧ c.answers (vs.map .encode) = (Used.encodeAll size [] vs).map .encoded := by
  obtain ⟨c, h1, h2⟩ := LFUni.ideal_new (V := V) (max := max) hs
  exact ⟨c, h1, h2.answers hs hm vs⟩

/-- Concrete case: 7 is used twice, 8 and 9 once each; 6 replaces 8, which is then unknown, and takes over its encoding. -/
example : Used.encodeAll 3 [] [7, 8, 9, 7, 6, 6, 8, 7] =
    [.notEncoded 7, .notEncoded 8, .notEncoded 9, .encoded 1, .notEncoded 6, .encoded 2, .notEncoded 8, .encoded 1] ∧
    (do let c ← LFUni.new 255 3; return c.answers ([7, 8, 9, 7, 6, 6, 8, 7].map .encode)) =
      .ok [.encoded (.notEncoded 7), .encoded (.notEncoded 8), .encoded (.notEncoded 9), .encoded (.encoded 1), .encoded (.notEncoded 6), .encoded (.encoded 2),
        .encoded (.notEncoded 8), .encoded (.encoded 1)] := ⟨by decide, rfl⟩

/-- C82: an LRU field that encodes any sequence of values never panics, and encodes exactly the values that are among the `size` ones used last; every other value is sent as it is. -/
theorem C82_lru_policy (size max : Nat) (hs : 0 < size) (hm : size ≤ max) (vs : List V) :
    ∃ (c : LRUni V) (ms : List (MaybeEncoded V)), LRUni.new max size = .ok c ∧ c.encodeAll vs = .ok ms ∧ ms.length = vs.length ∧
      ∀ before v after, vs = before ++ v :: after →
        (UsedLast size before v → ∃ e, ms[before.length]? = some (.encoded e)) ∧ (¬ UsedLast size before v → ms[before.length]? = some (.notEncoded v)) := by
  obtain ⟨c, h1, h2⟩ := LRUni.ideal_new (V := V) (max := max) hs
  obtain ⟨ms, h3, h4, h5⟩ := LRUni.Ideal.all hs hm vs (us := []) h2
  refine ⟨c, ms, h1, h3, h4, fun a v b e => ?_⟩
  rcases h5 a v b e with ⟨k1, k2⟩ | ⟨k1, k2⟩
  · exact ⟨fun _ => k1, fun k => absurd k2 k⟩
  · exact ⟨fun k => absurd k k2, fun _ => k1⟩

/-- Concrete case: 7 is used again before 9 comes and 8 has to go; so after 7, 8, 7, 9 the value 7 is recent and 8 is not. -/
example : UsedLast 2 [7, 8, 7, 9] 7 ∧ ¬ UsedLast 2 [7, 8, 7, 9] 8 ∧
    (do let c ← LRUni.new 255 2; c.encodeAll [7, 8, 7, 9, 7, 8]) = .ok [.notEncoded 7, .notEncoded 8, .encoded 1, .notEncoded 9, .encoded 1, .notEncoded 8] := by
  refine ⟨⟨[7, 8], [9], rfl, by decide, by decide⟩, ?_, rfl⟩
  rw [← mem_latest_take]
  decide

/-- C83: if there are no more different values than the cache has places, every value is sent once as it is, and afterwards as its number in the order of first appearance; under both policies. -/
theorem C83_once (a : FieldAttr) (ha : a.Fits) (vs : List V) (hv : vs.dedup.length ≤ a.size) :
    ∃ (c : FieldCache V) (ms : List (MaybeEncoded V)), FieldCache.new a = .ok c ∧ c.encodeAll vs = .ok ms ∧ ms.length = vs.length ∧
      ∀ before v after, vs = before ++ v :: after → ms[before.length]? = some (numbered before v) := by
  obtain ⟨c, h1, h2⟩ := FieldCache.roomy_new (V := V) ha
  obtain ⟨ms, h3, h4, h5⟩ := h2.all ha vs hv
  exact ⟨c, ms, h1, h3, h4, h5⟩

/-- Concrete case, for both policies. -/
example : ({ size := 3, lfu := true } : FieldAttr).Fits ∧ ([7, 9, 7, 8, 9, 8, 7] : List Nat).dedup.length ≤ 3 ∧ numbered [7, 9, 7, 8] 9 = .encoded 2 ∧
    ∀ lfu : Bool, (do let c ← FieldCache.new { size := 3, lfu }; c.encodeAll [7, 9, 7, 8, 9, 8, 7]) =
      .ok [.notEncoded 7, .notEncoded 9, .encoded 1, .notEncoded 8, .encoded 2, .encoded 3, .encoded 1] := by
  refine ⟨by decide, by decide, by decide, fun lfu => ?_⟩
  cases lfu <;> rfl

end Omni
