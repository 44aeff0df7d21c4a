import Verif.Model.UniCache
/-
Vocabulary for the UniCache properties.
-/
namespace Omni

variable {V R : Type} [DecidableEq V]

/-- The attributes make sense: the cache is not empty and the encoding type is large enough for its size. -/
def FieldAttr.Fits (a : FieldAttr) : Prop := 0 < a.size ∧ a.size ≤ a.max

instance (a : FieldAttr) : Decidable a.Fits := inferInstanceAs (Decidable (_ ∧ _))

/-- The entry has one value per annotated field. -/
def UEntry.For (as : List FieldAttr) (e : UEntry V R) : Prop := e.fields.length = as.length

instance (as : List FieldAttr) (e : UEntry V R) : Decidable (e.For as) := inferInstanceAs (Decidable (_ = _))

/-- Decoding with `f` everything that `l` makes of the entries `es` gives back `es`; neither side panics. -/
def RoundTrip (l f : UCache V) (es : List (UEntry V R)) : Prop :=
  ∃ xs l' f', l.encodeAll es = .ok (xs, l') ∧ f.decodeAll xs = .ok (es, f')

/-- What a leader does with its cache and its batch between two messages to a follower. -/
inductive UCall (V R : Type) where
  /-- `append` of one entry, or of forwarded entries -/
  | append (es : List (UEntry V R))
  /-- flush timeout -/
  | flush

/-- One call: the flushed entries (if any) with their encoding, and the new state. -/
def UCall.run (b : UBatch V R) : UCall V R → CM (UBatch.Flushed V R × UBatch V R)
  | .append es => b.append_entries es
  | .flush => .ok b.flush

/-- A sequence of calls: the entries that the leader wrote to its log, what it sent for them, and the new state. -/
def UBatch.calls (b : UBatch V R) : List (UCall V R) → CM ((List (UEntry V R) × List (UEncoded V R)) × UBatch V R)
  | [] => .ok (([], []), b)
  | c :: cs => do
    let (o, b) ← c.run b
    let ((es, xs), b) ← b.calls cs
    return ((((o.map (·.1)).getD []) ++ es, ((o.map (·.2)).getD []) ++ xs), b)

/-- The entries of the calls fit the annotated fields. -/
def UCall.For (as : List FieldAttr) : UCall V R → Prop
  | .append es => ∀ e ∈ es, e.For as
  | .flush => True

/-- What is asked of the cache of a field. -/
inductive CacheOp (V : Type) where
  | encode (v : V)
  | decode (m : MaybeEncoded V)

/-- What it answers. -/
inductive CacheAnswer (V : Type) where
  | encoded (m : MaybeEncoded V)
  | decoded (v : V)
  | panic (p : CachePanic)
deriving DecidableEq, Repr

namespace LFUni

/-- One operation: the answer and the cache afterwards, or a panic. -/
def op (c : LFUni V) : CacheOp V → CM (CacheAnswer V × LFUni V)
  | .encode v => do let (m, c) ← c.try_encode v; return (.encoded m, c)
  | .decode m => do let (v, c) ← c.decode m; return (.decoded v, c)

/-- The answers to a sequence of operations, up to the first panic. -/
def answers (c : LFUni V) : List (CacheOp V) → List (CacheAnswer V)
  | [] => []
  | o :: os => match c.op o with
    | .error p => [.panic p]
    | .ok (x, c) => x :: c.answers os

/-- The caches that there can be: new ones, and what becomes of them by encoding, decoding, cloning, and going over the network. -/
inductive Made : LFUni V → Prop where
  | new {max size : Nat} {c : LFUni V} : new max size = .ok c → Made c
  | op {c c' : LFUni V} {o : CacheOp V} {x : CacheAnswer V} : Made c → c.op o = .ok (x, c') → Made c'
  | clone {c c' : LFUni V} {order : List (V × Nat) → List (V × Nat)} : Made c → c.clone order = .ok c' → Made c'
  | wire {c : LFUni V} {oe : List (V × ValueCounter Nat) → List (V × ValueCounter Nat)} {od : List (Nat × ValueCounter V) → List (Nat × ValueCounter V)} :
    Made c → (∀ l, (oe l).Perm l) → (∀ l, (od l).Perm l) → Made (c.wire oe od)

end LFUni

/-- A value known to an ideal LFU encoder: its encoding and how often it was used. -/
structure Used (V : Type) where
  value : V
  code : Nat
  uses : Nat
deriving DecidableEq, Repr

/-- The ideal LFU encoder of `size` values. It keeps a list of the values in the order in which they were last used. A known value is encoded. An unknown one gets the next encoding
if there is room; otherwise it takes the place and the encoding of a value that was used least often, and of these the one not used for the longest time. -/
def Used.encode (size : Nat) (s : List (Used V)) (v : V) : MaybeEncoded V × List (Used V) :=
  match s.find? fun u => u.value = v with
  | some u => (.encoded u.code, (s.filter fun w => w.value ≠ v) ++ [{ u with uses := u.uses + 1 }])
  | none =>
    if s.length < size then (.notEncoded v, s ++ [⟨v, s.length + 1, 1⟩])
    else match s.find? fun u => s.all fun w => u.uses ≤ w.uses with
      | some u => (.notEncoded v, (s.filter fun w => w.value ≠ u.value) ++ [⟨v, u.code, 1⟩])
      | none => (.notEncoded v, s)

/-- What it makes of a sequence of values. -/
def Used.encodeAll (size : Nat) (s : List (Used V)) : List V → List (MaybeEncoded V)
  | [] => []
  | v :: vs => (Used.encode size s v).1 :: Used.encodeAll size (Used.encode size s v).2 vs

end Omni
