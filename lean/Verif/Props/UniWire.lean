import Verif.Proof.UniWire
/-
C80: an LFU cache that goes over the network works on as before.
-/
namespace Omni

variable {V : Type} [DecidableEq V]

/-- C80: whatever an LFU cache of a field has been through (encoding, decoding, cloning, earlier serialisations), once serialised and deserialised it answers every further sequence of
encodings and decodings exactly as the original does: the same encodings, the same evictions, the same panics. This does not depend on the order in which the hash maps are written. -/
theorem C80_wire_lfu (c : LFUni V) (hc : c.Made) (oe : List (V × ValueCounter Nat) → List (V × ValueCounter Nat)) (od : List (Nat × ValueCounter V) → List (Nat × ValueCounter V))
    (he : ∀ l, (oe l).Perm l) (hd : ∀ l, (od l).Perm l) (os : List (CacheOp V)) : (c.wire oe od).answers os = c.answers os :=
  (hc.twins.wire he hd).answers os

namespace UniWire

/-- The cache after some operations, if none panics. -/
def after (c : LFUni Nat) : List (CacheOp Nat) → Option (LFUni Nat)
  | [] => some c
  | o :: os => match c.op o with
    | .ok (_, c) => after c os
    | .error _ => none

theorem after_made : ∀ (os : List (CacheOp Nat)) {c c' : LFUni Nat}, c.Made → after c os = some c' → c'.Made
  | [], _, _, hc, h => by cases h; exact hc
  | o :: os, c, c', hc, h => by
    unfold after at h
    split at h
    · rename_i e; exact after_made os (.op hc e) h
    · cases h

def before : List (CacheOp Nat) := [.encode 7, .encode 7, .encode 8, .decode (.notEncoded 5), .decode (.notEncoded 6), .decode (.encoded 3), .encode 9, .encode 7]

def later : List (CacheOp Nat) := [.encode 9, .encode 8, .decode (.notEncoded 4), .encode 7, .decode (.encoded 4), .decode (.encoded 3), .decode (.encoded 9)]

/-- Concrete case: two values fit in; values are in the cache more or less often and are replaced before and after; the hash maps are written backwards; the last operation panics. -/
example : ∃ (c0 c : LFUni Nat), LFUni.new 255 2 = .ok c0 ∧ after c0 before = some c ∧ c.Made ∧ (∀ l : List (Nat × ValueCounter Nat), l.reverse.Perm l) ∧
    c.lfu_cache_encoder.values.length = 2 ∧
    c.answers later = [.encoded (.encoded 2), .encoded (.notEncoded 8), .decoded 4, .encoded (.encoded 1), .decoded 4, .decoded 5, .panic .notCached] := by
  obtain ⟨c0, h0⟩ : ∃ c0, (LFUni.new 255 2 : CM (LFUni Nat)) = .ok c0 := ⟨_, rfl⟩
  have h1 : (match (LFUni.new 255 2 : CM (LFUni Nat)) with
      | .ok c0 => (after c0 before).map fun c => (c.lfu_cache_encoder.values.length, c.answers later)
      | .error _ => none) =
      some (2, [.encoded (.encoded 2), .encoded (.notEncoded 8), .decoded 4, .encoded (.encoded 1), .decoded 4, .decoded 5, .panic .notCached]) := by decide +kernel
  rw [h0] at h1
  obtain ⟨c, h2, h3⟩ := Option.map_eq_some_iff.1 h1
  rw [Prod.mk.injEq] at h3
  exact ⟨c0, c, h0, h2, after_made _ (.new h0) h2, List.reverse_perm, h3.1, h3.2⟩

end UniWire
end Omni
