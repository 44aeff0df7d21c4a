/-
UniCache (feature "unicache"): /repo/omnipaxos/src/unicache/{mod,lru_cache,lfu_cache}.rs, unicache/lfu/mod.rs, the code that
`derive(UniCacheEntry)` generates (/repo/omnipaxos_macros/src/lib.rs 62-200), and the parts of state_cache.rs and
internal_storage.rs that are compiled with the feature only.

The `Encoded` type of a field is an unsigned integer with the largest value `max` (u8: 255); adding one beyond it is the
overflow panic of a debug build. `Hash`/`Eq` of a field value is decidable equality. The crates `lru` and `linked_hash_set`
are modelled by lists, `HashMap` by association lists or functions; the iteration order of a `HashMap` is a parameter.
-/
namespace Omni

/-- The panics of the cache code. -/
inductive CachePanic where
  /-- `NonZeroUsize::new(0).unwrap()` / "capacity is 0" -/
  | zeroSize
  /-- `Encoded + 1` overflows -/
  | overflow
  /-- `decoder.get(&encoding).unwrap()` -/
  | notCached
  /-- `unwrap` on an empty cache or frequency bin -/
  | empty
deriving DecidableEq, Repr

abbrev CM (α : Type) := Except CachePanic α

/-- `MaybeEncoded`: mod.rs 80-88. -/
inductive MaybeEncoded (V : Type) where
  | encoded (e : Nat)
  | notEncoded (v : V)
deriving DecidableEq, Repr

/-! ### The `lru` crate -/

/-- `lru::LruCache`: most recently used first. -/
structure LruCache (K V : Type) where
  cap : Nat
  items : List (K × V) := []
deriving Repr

namespace LruCache
variable {K V : Type} [DecidableEq K]

/-- `LruCache::new(NonZeroUsize::new(cap).unwrap())`. -/
def new (cap : Nat) : CM (LruCache K V) := if cap = 0 then .error .zeroSize else .ok { cap }

def len (c : LruCache K V) : Nat := c.items.length

/-- `get`: the value of the key, which becomes the most recently used one. -/
def get (c : LruCache K V) (k : K) : Option V × LruCache K V :=
  match c.items.find? fun p => p.1 = k with
  | some p => (some p.2, { c with items := p :: c.items.eraseP fun p => p.1 = k })
  | none => (none, c)

/-- `push`: an existing key is updated and moved to the front, a new one evicts the least recently used if the cache is
full. -/
def push (c : LruCache K V) (k : K) (v : V) : LruCache K V :=
  if c.items.any fun p => p.1 = k then { c with items := (k, v) :: c.items.eraseP fun p => p.1 = k }
  else if c.len = c.cap then { c with items := (k, v) :: c.items.dropLast }
  else { c with items := (k, v) :: c.items }

/-- `pop_lru`. -/
def pop_lru (c : LruCache K V) : Option ((K × V) × LruCache K V) :=
  c.items.getLast?.map fun p => (p, { c with items := c.items.dropLast })

/-- `iter().rev()` pushed one by one into a cache: the body of `Clone` (lru_cache.rs 58-65) and of `visit_seq` (209-213). -/
def pushAll (c : LruCache K V) : List (K × V) → LruCache K V
  | [] => c
  | p :: r => (c.push p.1 p.2).pushAll r

end LruCache

/-! ### LRUniCache: lru_cache.rs 38-145 -/

/-- `LRUniCache`: lru_cache.rs 40-49. `max` is the largest value of the `Encoded` type. -/
structure LRUni (V : Type) where
  lru_cache_encoder : LruCache V Nat
  lru_cache_decoder : LruCache Nat V
  encoding : Nat
  size : Nat
  max : Nat
deriving Repr

/-- `encoding.add(one)`. -/
def addOne (max enc : Nat) : CM Nat := if enc < max then .ok (enc + 1) else .error .overflow

namespace LRUni
variable {V : Type} [DecidableEq V]

/-- `new`: lru_cache.rs 90-98. -/
def new (max size : Nat) : CM (LRUni V) := do
  let enc ← LruCache.new size
  let dec ← LruCache.new size
  return { lru_cache_encoder := enc, lru_cache_decoder := dec, encoding := 0, size, max }

/-- `try_encode`: lru_cache.rs 100-118. -/
def try_encode (c : LRUni V) (field : V) : CM (MaybeEncoded V × LRUni V) :=
  match c.lru_cache_encoder.get field with
  | (some encoding, enc) => .ok (.encoded encoding, { c with lru_cache_encoder := enc })
  | (none, enc) =>
    if enc.len = c.size then
      match enc.pop_lru with
      | none => .error .empty
      | some ((_, popped), enc) => .ok (.notEncoded field, { c with lru_cache_encoder := enc.push field popped })
    else do
      let added ← addOne c.max c.encoding
      return (.notEncoded field, { c with lru_cache_encoder := enc.push field added, encoding := added })

/-- `decode`: lru_cache.rs 120-144. -/
def decode (c : LRUni V) : MaybeEncoded V → CM (V × LRUni V)
  | .encoded e =>
    match c.lru_cache_decoder.get e with
    | (some v, dec) => .ok (v, { c with lru_cache_decoder := dec })
    | (none, _) => .error .notCached
  | .notEncoded v =>
    if c.lru_cache_decoder.len = c.size then
      match c.lru_cache_decoder.pop_lru with
      | none => .error .empty
      | some ((popped, _), dec) => .ok (v, { c with lru_cache_decoder := dec.push popped v })
    else do
      let added ← addOne c.max c.encoding
      return (v, { c with lru_cache_decoder := c.lru_cache_decoder.push added v, encoding := added })

/-- `clone`: lru_cache.rs 51-73. Only the decoder is filled, from the encoder, least recently used first. -/
def clone (c : LRUni V) : CM (LRUni V) := do
  let dec ← LruCache.new c.size
  let enc ← LruCache.new 1
  return { c with lru_cache_encoder := enc,
                  lru_cache_decoder := dec.pushAll (c.lru_cache_encoder.items.reverse.map fun p => (p.2, p.1)) }

/-- What a `LRUniCache` is after being serialised and deserialised: lru_cache.rs 147-217. The capacity is not transmitted;
it is the size hint that the format gives for a sequence of the given length, or 255 if it gives none. -/
def wire (hint : Nat → Option Nat) (c : LRUni V) : CM (LRUni V) := do
  let enc ← LruCache.new ((hint c.lru_cache_encoder.len).getD 255)
  let dec ← LruCache.new ((hint c.lru_cache_decoder.len).getD 255)
  return { c with lru_cache_encoder := enc.pushAll c.lru_cache_encoder.items.reverse,
                  lru_cache_decoder := dec.pushAll c.lru_cache_decoder.items.reverse }

end LRUni

/-! ### LFUCache: lfu/mod.rs 29-165 -/

/-- `ValueCounter`: lfu/mod.rs 37-43. -/
structure ValueCounter (V : Type) where
  value : V
  count : Nat
deriving Repr

/-- `LFUCache`: lfu/mod.rs 28-35. A frequency bin lists its keys in insertion order. -/
structure LFUCache (K V : Type) where
  values : List (K × ValueCounter V) := []
  frequency_bin : Nat → Option (List K) := fun _ => none
  capacity : Nat
  min_frequency : Nat := 0

namespace LFUCache
variable {K V : Type} [DecidableEq K]

/-- `with_capacity`: lfu/mod.rs 51-61. -/
def with_capacity (capacity : Nat) : CM (LFUCache K V) := if capacity = 0 then .error .zeroSize else .ok { capacity }

/-- `len`: lfu/mod.rs 67-69. -/
def len (c : LFUCache K V) : Nat := c.values.length

def lookup (c : LFUCache K V) (k : K) : Option (ValueCounter V) := (c.values.find? fun p => p.1 = k).map (·.2)

/-- `frequency_bin.entry(n).or_default().0.insert(k)`: at the end of the order, wherever it was before. -/
def binInsert (bins : Nat → Option (List K)) (n : Nat) (k : K) : Nat → Option (List K) :=
  fun i => if i = n then some (((bins n).getD []).erase k ++ [k]) else bins i

/-- `update_frequency_bin`: lfu/mod.rs 97-112. -/
def update_frequency_bin (c : LFUCache K V) (k : K) : CM (LFUCache K V) :=
  match c.lookup k with
  | none => .ok c
  | some vc =>
    match c.frequency_bin vc.count with
    | none => .error .empty
    | some bin =>
      let bin := bin.erase k
      .ok { c with
        values := c.values.map fun p => if p.1 = k then (p.1, { p.2 with count := p.2.count + 1 }) else p
        min_frequency := if vc.count = c.min_frequency && bin.isEmpty then c.min_frequency + 1 else c.min_frequency
        frequency_bin := binInsert (fun i => if i = vc.count then some bin else c.frequency_bin i) (vc.count + 1) k }

/-- `get`: lfu/mod.rs 87-90. -/
def get (c : LFUCache K V) (k : K) : CM (Option V × LFUCache K V) := do
  let c ← c.update_frequency_bin k
  return ((c.lookup k).map (·.value), c)

/-- `evict_and_return_key` (lfu/mod.rs 120-129) and `evict_and_return_value` (131-139), which remove the same key. `None` is
the absent bin, the panic is `pop_front().unwrap()`; the callers unwrap the result, so both are the same panic. -/
def evict_entry (c : LFUCache K V) : CM ((K × Option V) × LFUCache K V) :=
  match c.frequency_bin c.min_frequency with
  | none => .error .empty
  | some [] => .error .empty
  | some (k :: bin) =>
    .ok ((k, (c.lookup k).map (·.value)),
      { c with frequency_bin := fun i => if i = c.min_frequency then some bin else c.frequency_bin i
               values := c.values.eraseP fun p => p.1 = k })

/-- `set`: lfu/mod.rs 145-164; `evict` (114-118) is `evict_entry` without its result. -/
def set (c : LFUCache K V) (k : K) (v : V) : CM (LFUCache K V) :=
  match c.lookup k with
  | some _ =>
    update_frequency_bin
      { c with values := c.values.map fun p => if p.1 = k then (p.1, { p.2 with value := v }) else p } k
  | none => do
    let c ← if c.len ≥ c.capacity then do let r ← c.evict_entry; pure r.2 else pure c
    return { c with values := c.values ++ [(k, { value := v, count := 1 })]
                    min_frequency := 1
                    frequency_bin := binInsert c.frequency_bin 1 k }

/-- `set` for a sequence of pairs: the body of `Clone` (lfu_cache.rs 26-30). -/
def setAll (c : LFUCache K V) : List (K × V) → CM (LFUCache K V)
  | [] => .ok c
  | p :: r => do let c ← c.set p.1 p.2; c.setAll r

/-- `HashMap::insert`, once for each entry of a serialised map: what the derived `Deserialize` of `HashMap` does. -/
def mapOf {A : Type} (m : List (K × A)) : List (K × A) → List (K × A)
  | [] => m
  | p :: r => mapOf (if m.any fun q => q.1 = p.1 then m.map fun q => if q.1 = p.1 then (q.1, p.2) else q else m ++ [p]) r

/-- `visit_seq` of `LinkedHashSetWrapper`, lfu/serialization.rs 45-55: the elements are inserted one by one into an empty set; `insert` puts an element at the end, wherever it was before. -/
def setOf (s : List K) : List K → List K
  | [] => s
  | k :: r => setOf (s.erase k ++ [k]) r

/-- What a `LFUCache` is after being serialised and deserialised: the derived impls of lfu/mod.rs 29-43, lfu/serialization.rs 6-63 for the bins. A `HashMap` is written in the order of its
iteration, which is not specified: `order` is any permutation. The format is taken to be able to represent the keys and values (else `serialize_element(..).unwrap()` panics). -/
def wire (order : List (K × ValueCounter V) → List (K × ValueCounter V)) (c : LFUCache K V) : LFUCache K V :=
  { c with values := mapOf [] (order c.values), frequency_bin := fun i => (c.frequency_bin i).map fun l => setOf [] l }

end LFUCache

/-! ### LFUniCache: lfu_cache.rs -/

/-- `LFUniCache`: lfu_cache.rs 5-16. -/
structure LFUni (V : Type) where
  lfu_cache_encoder : LFUCache V Nat
  lfu_cache_decoder : LFUCache Nat V
  encoding : Nat
  size : Nat
  max : Nat

namespace LFUni
variable {V : Type} [DecidableEq V]

/-- `new`: lfu_cache.rs 45-52. -/
def new (max size : Nat) : CM (LFUni V) := do
  let enc ← LFUCache.with_capacity size
  let dec ← LFUCache.with_capacity size
  return { lfu_cache_encoder := enc, lfu_cache_decoder := dec, encoding := 0, size, max }

/-- `try_encode`: lfu_cache.rs 54-72. -/
def try_encode (c : LFUni V) (field : V) : CM (MaybeEncoded V × LFUni V) := do
  match ← c.lfu_cache_encoder.get field with
  | (some encoding, enc) => return (.encoded encoding, { c with lfu_cache_encoder := enc })
  | (none, enc) =>
    if enc.len = c.size then
      match ← enc.evict_entry with
      | ((_, none), _) => .error .empty
      | ((_, some popped), enc) =>
        let enc ← enc.set field popped
        return (.notEncoded field, { c with lfu_cache_encoder := enc })
    else
      let added ← addOne c.max c.encoding
      let enc ← enc.set field added
      return (.notEncoded field, { c with lfu_cache_encoder := enc, encoding := added })

/-- `decode`: lfu_cache.rs 74-97. -/
def decode (c : LFUni V) : MaybeEncoded V → CM (V × LFUni V)
  | .encoded e => do
    match ← c.lfu_cache_decoder.get e with
    | (some v, dec) => return (v, { c with lfu_cache_decoder := dec })
    | (none, _) => .error .notCached
  | .notEncoded v => do
    if c.lfu_cache_decoder.len = c.size then
      let ((popped, _), dec) ← c.lfu_cache_decoder.evict_entry
      let dec ← dec.set popped v
      return (v, { c with lfu_cache_decoder := dec })
    else
      let added ← addOne c.max c.encoding
      let dec ← c.lfu_cache_decoder.set added v
      return (v, { c with lfu_cache_decoder := dec, encoding := added })

/-- `clone`: lfu_cache.rs 18-38. The encoder is iterated in the order of its `HashMap`, which is not specified: `order` is
any permutation of the entries. -/
def clone (order : List (V × Nat) → List (V × Nat)) (c : LFUni V) : CM (LFUni V) := do
  let dec ← LFUCache.with_capacity c.size
  let dec ← dec.setAll ((order (c.lfu_cache_encoder.values.map fun p => (p.1, p.2.value))).map fun p => (p.2, p.1))
  let enc ← LFUCache.with_capacity 1
  return { c with lfu_cache_encoder := enc, lfu_cache_decoder := dec }

/-- What a `LFUniCache` is after being serialised and deserialised: the derived impls of lfu_cache.rs 5-16. -/
def wire (oe : List (V × ValueCounter Nat) → List (V × ValueCounter Nat)) (od : List (Nat × ValueCounter V) → List (Nat × ValueCounter V)) (c : LFUni V) : LFUni V :=
  { c with lfu_cache_encoder := c.lfu_cache_encoder.wire oe, lfu_cache_decoder := c.lfu_cache_decoder.wire od }

end LFUni

/-! ### The derived cache of an entry: omnipaxos_macros/src/lib.rs 62-200 -/

/-- The cache of one annotated field: `cache(lru)` (the default) or `cache(lfu)`. -/
inductive FieldCache (V : Type) where
  | lru (c : LRUni V)
  | lfu (c : LFUni V)

/-- The attributes of one annotated field: `size`, the largest value of `encoding`, `cache`. -/
structure FieldAttr where
  size : Nat := 255
  max : Nat := 255
  lfu : Bool := false
deriving DecidableEq, Repr

namespace FieldCache
variable {V : Type} [DecidableEq V]

/-- `#cache_types::new(#cache_sizes)`. -/
def new (a : FieldAttr) : CM (FieldCache V) :=
  if a.lfu then do let c ← LFUni.new a.max a.size; return .lfu c else do let c ← LRUni.new a.max a.size; return .lru c

def try_encode (v : V) : FieldCache V → CM (MaybeEncoded V × FieldCache V)
  | .lru c => do let (r, c) ← c.try_encode v; return (r, .lru c)
  | .lfu c => do let (r, c) ← c.try_encode v; return (r, .lfu c)

def decode (r : MaybeEncoded V) : FieldCache V → CM (V × FieldCache V)
  | .lru c => do let (v, c) ← c.decode r; return (v, .lru c)
  | .lfu c => do let (v, c) ← c.decode r; return (v, .lfu c)

def clone (order : List (V × Nat) → List (V × Nat)) : FieldCache V → CM (FieldCache V)
  | .lru c => do let c ← c.clone; return .lru c
  | .lfu c => do let c ← c.clone order; return .lfu c

/-- Serialised and deserialised. -/
def wire (hint : Nat → Option Nat) (oe : List (V × ValueCounter Nat) → List (V × ValueCounter Nat)) (od : List (Nat × ValueCounter V) → List (Nat × ValueCounter V)) :
    FieldCache V → CM (FieldCache V)
  | .lru c => do let c ← c.wire hint; return .lru c
  | .lfu c => .ok (.lfu (c.wire oe od))

end FieldCache

/-- An entry: the values of its annotated fields, and the rest (the fields without `#[unicache]`). All annotated fields
have one type of values here (think of the disjoint union of the real ones). -/
structure UEntry (V R : Type) where
  fields : List V
  rest : R
deriving DecidableEq, Repr

/-- `EncodeResult`. -/
structure UEncoded (V R : Type) where
  fields : List (MaybeEncoded V)
  rest : R
deriving DecidableEq, Repr

/-- The derived cache: one field cache per annotated field. -/
abbrev UCache (V : Type) := List (FieldCache V)

namespace UCache
variable {V R : Type} [DecidableEq V]

/-- `UniCache::new`: lib.rs 174-178. -/
def new : List FieldAttr → CM (UCache V)
  | [] => .ok []
  | a :: as => do let c ← FieldCache.new a; let cs ← new as; return c :: cs

def encodeFields : UCache V → List V → CM (List (MaybeEncoded V) × UCache V)
  | c :: cs, v :: vs => do
    let (r, c) ← c.try_encode v
    let (rs, cs) ← encodeFields cs vs
    return (r :: rs, c :: cs)
  | cs, _ => .ok ([], cs)

/-- `UniCache::try_encode`: lib.rs 180-184. -/
def try_encode (c : UCache V) (e : UEntry V R) : CM (UEncoded V R × UCache V) := do
  let (fs, c) ← c.encodeFields e.fields
  return (⟨fs, e.rest⟩, c)

def decodeFields : UCache V → List (MaybeEncoded V) → CM (List V × UCache V)
  | c :: cs, r :: rs => do
    let (v, c) ← c.decode r
    let (vs, cs) ← decodeFields cs rs
    return (v :: vs, c :: cs)
  | cs, _ => .ok ([], cs)

/-- `UniCache::decode`: lib.rs 186-191. -/
def decode (c : UCache V) (e : UEncoded V R) : CM (UEntry V R × UCache V) := do
  let (fs, c) ← c.decodeFields e.fields
  return (⟨fs, e.rest⟩, c)

/-- The derived `Clone`. -/
def clone (order : List (V × Nat) → List (V × Nat)) : UCache V → CM (UCache V)
  | [] => .ok []
  | c :: cs => do let c ← c.clone order; let cs ← clone order cs; return c :: cs

/-- The derived `Serialize` and `Deserialize`: lib.rs 165-169. Every hash map is written in an order of its own; the fields are numbered from the last. -/
def wire (hint : Nat → Option Nat) (oe : Nat → List (V × ValueCounter Nat) → List (V × ValueCounter Nat)) (od : Nat → List (Nat × ValueCounter V) → List (Nat × ValueCounter V)) :
    UCache V → CM (UCache V)
  | [] => .ok []
  | c :: cs => do let c ← c.wire hint (oe cs.length) (od cs.length); let cs ← wire hint oe od cs; return c :: cs

/-- Encoding a stream of entries. -/
def encodeAll (c : UCache V) : List (UEntry V R) → CM (List (UEncoded V R) × UCache V)
  | [] => .ok ([], c)
  | e :: es => do
    let (x, c) ← c.try_encode e
    let (xs, c) ← c.encodeAll es
    return (x :: xs, c)

/-- `decode_entries`: internal_storage.rs 271-279. -/
def decodeAll (c : UCache V) : List (UEncoded V R) → CM (List (UEntry V R) × UCache V)
  | [] => .ok ([], c)
  | x :: xs => do
    let (e, c) ← c.decode x
    let (es, c) ← c.decodeAll xs
    return (e :: es, c)

end UCache

/-! ### The leader's batch with UniCache -/

/-- The fields of `StateCache` that the leader's batching uses with UniCache: state_cache.rs 9-35. -/
structure UBatch (V R : Type) where
  batch_size : Nat
  batched_entries : List (UEntry V R) := []
  batched_processed_by_leader : List (UEncoded V R) := []
  unicache : UCache V

namespace UBatch
variable {V R : Type} [DecidableEq V]

/-- What an `AcceptDecide` carries, beside it the entries that the leader writes to its own log: the `AcceptedMetaData` of
`flush_if_full_batch` (internal_storage.rs 237-253). -/
abbrev Flushed (V R : Type) := Option (List (UEntry V R) × List (UEncoded V R))

/-- `take_batched_entries` and `take_batched_processed`: state_cache.rs 114-121. -/
def take (b : UBatch V R) : Flushed V R × UBatch V R :=
  (some (b.batched_entries, b.batched_processed_by_leader), { b with batched_entries := [], batched_processed_by_leader := [] })

/-- `append_entries` as the leader calls it: state_cache.rs 77-90, 103-110, with `flush_if_full_batch` (the leader's promise
is its own ballot); `append_entry` (65-73) is the call with one entry. -/
def append_entries (b : UBatch V R) (es : List (UEntry V R)) : CM (Flushed V R × UBatch V R) := do
  let (xs, c) ← b.unicache.encodeAll es
  let b := { b with unicache := c, batched_processed_by_leader := b.batched_processed_by_leader ++ xs,
                    batched_entries := b.batched_entries ++ es }
  if b.batched_entries.length ≥ b.batch_size then return b.take else return (none, b)

/-- `flush_batch_and_get_entries`: internal_storage.rs 291-300 (flush timeout, `accept_stopsign_leader`). -/
def flush (b : UBatch V R) : Flushed V R × UBatch V R := if b.batched_entries.isEmpty then (none, b) else b.take

/-- `get_unicache`: internal_storage.rs 526-528, called by `send_accsync` (leader.rs 183) whatever the batch holds. -/
def get_unicache (order : List (V × Nat) → List (V × Nat)) (b : UBatch V R) : CM (UCache V) := b.unicache.clone order

end UBatch

end Omni
