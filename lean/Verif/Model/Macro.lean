import Verif.Model.UniCache
/-
The derive macros `Entry` and `UniCacheEntry`: /repo/omnipaxos_macros/src/lib.rs, the part that reads the annotated struct and
chooses the types, caches and sizes of the generated code. What the generated code then does is in Model/UniCache.

The input is the syntax tree that syn returns, as far as the macro looks at it: types and identifiers are strings, the items
within `unicache(..)` are already split. An item whose argument does not parse is `malformed`. Generics are left out (they are
only passed on).
-/
namespace Omni.Derive

/-- What stops the expansion of the macro (a compile error at the user). -/
inductive Stop where
  /-- `field.ident.as_ref().unwrap()` on a tuple struct -/
  | unnamed
  /-- `panic!("Invalid cache type")` -/
  | cacheType
  /-- ``panic!("Found unexpected attribute `..`")`` -/
  | attribute
  /-- `panic!("Expected a valid attribute ..")` -/
  | malformed
  /-- `expect("Expected type")` -/
  | snapshot
  /-- `todo!()` for enums, `unreachable!()` for unions -/
  | notStruct
deriving DecidableEq, Repr

abbrev DM (α : Type) := Except Stop α

/-- The cache implementations: lib.rs 114-118. -/
inductive Kind where
  | lru
  | lfu
deriving DecidableEq, Repr

/-- One item of `#[unicache(..)]`. -/
inductive Item where
  | size (n : Nat)
  | cache (id : String)
  | encoding (ty : String)
  /-- one of the three names with an argument that does not parse -/
  | malformed
  /-- any other name -/
  | other (path : String)
deriving DecidableEq, Repr

/-- An attribute of a field: its path, and its items (read only if the path is `unicache`). -/
structure Attr where
  path : String
  items : List Item := []
deriving DecidableEq, Repr

/-- A field of the struct; a field of a tuple struct has no name. -/
structure Field where
  name : Option String
  ty : String
  attrs : List Attr := []
deriving DecidableEq, Repr

/-- An attribute of the struct: its path, and the type in parentheses if there is one. -/
structure TopAttr where
  path : String
  ty : Option String
deriving DecidableEq, Repr

inductive Data where
  | struct (fields : List Field)
  | enum
  | union
deriving DecidableEq, Repr

structure Input where
  name : String
  attrs : List TopAttr := []
  data : Data
deriving DecidableEq, Repr

/-- What the macro remembers while it reads the items of one field. -/
structure Reading where
  encoding : Option String
  size : Option Nat
  cache : Option Kind
deriving DecidableEq, Repr

/-- The closure given to `parse_nested_meta`: lib.rs 98-128. -/
def readItem (r : Reading) : Item → DM Reading
  | .size n => .ok { r with size := some n }
  | .cache id =>
    if id = "lru" then .ok { r with cache := some .lru }
    else if id = "lfu" then .ok { r with cache := some .lfu }
    else .error .cacheType
  | .encoding ty => .ok { r with encoding := some ty }
  | .malformed => .error .malformed
  | .other _ => .error .attribute

/-- `parse_nested_meta`: the items from left to right. -/
def readItems (r : Reading) : List Item → DM Reading
  | [] => .ok r
  | i :: is => do readItems (← readItem r i) is

/-- What the macro generates for one field. -/
inductive Out where
  /-- `name: cache<ty, encoding>`, created by `cache::new(size)` -/
  | encodable (name ty encoding : String) (size : Nat) (cache : Kind)
  | plain (name ty : String)
deriving DecidableEq, Repr

/-- One turn of the loop: lib.rs 89-146. `cache_type` is declared in front of the loop (line 71), and `take().or_else(..)` (line
    132) puts a value into it, so that it is handed on to the next turn. -/
def readField (cache_type : Option Kind) (f : Field) : DM (Out × Option Kind) :=
  match f.name with
  | none => .error .unnamed
  | some name =>
    match f.attrs.find? (fun a => a.path == "unicache") with
    | none => .ok (.plain name f.ty, cache_type)
    | some a => do
      let r ← readItems ⟨none, none, cache_type⟩ a.items
      let cache := r.cache.getD .lru
      return (.encodable name f.ty (r.encoding.getD "u8") (r.size.getD 255) cache, some cache)

/-- The loop over the fields: lib.rs 88-147. -/
def readFields (cache_type : Option Kind) : List Field → DM (List Out)
  | [] => .ok []
  | f :: fs => do
    let (o, cache_type) ← readField cache_type f
    let os ← readFields cache_type fs
    return o :: os

/-- `get_snapshot_type`: lib.rs 206-221. -/
def snapshotType : List TopAttr → DM String
  | [] => .ok "NoSnapshot"
  | a :: as =>
    if a.path = "snapshot" then
      match a.ty with
      | some t => .ok t
      | none => .error .snapshot
    else snapshotType as

/-- The generated code: `type Snapshot`, the fields in their order, the name of the cache struct (`suffix`: lib.rs 202-204). -/
structure Generated where
  snapshot : String
  fields : List Out
  cacheName : String
deriving DecidableEq, Repr

/-- `unicache_entry_derive`: lib.rs 62-200. -/
def uniCacheEntry (i : Input) : DM Generated := do
  let snapshot ← snapshotType i.attrs
  match i.data with
  | .struct fields => do
    let os ← readFields none fields
    return ⟨snapshot, os, i.name ++ "Cache"⟩
  | _ => .error .notStruct

/-- `entry_derive`: lib.rs 17-35; the result is `type Snapshot`. -/
def entry (i : Input) : DM String := snapshotType i.attrs

/-- The largest value of an encoding type; other types do not compile or are left out. -/
def maxOf : String → Option Nat
  | "u8" => some 255
  | "u16" => some 65535
  | "u32" => some 4294967295
  | "u64" => some 18446744073709551615
  | _ => none

/-- The caches that the generated `new` creates (lib.rs 174-178), as the argument of `UCache.new`. -/
def attrsOf : List Out → Option (List FieldAttr)
  | [] => some []
  | .plain _ _ :: os => attrsOf os
  | .encodable _ _ e n k :: os => do
    let m ← maxOf e
    let as ← attrsOf os
    return ⟨n, m, k == .lfu⟩ :: as

/-! The generated `try_encode` and `decode`, which access the fields by name. (Model/UniCache has the same code on the list of annotated
fields and the rest.) All fields have one type of values here; think of the disjoint union of the real ones. -/

def Out.name : Out → String
  | .encodable n _ _ _ _ | .plain n _ => n

def Out.annotated : Out → Bool
  | .encodable _ _ _ _ _ => true
  | .plain _ _ => false

/-- `field_names`, `encodable_field_names`, `non_encodable_field_names`: lib.rs 95, 134, 142. -/
def names (os : List Out) : List String := os.map Out.name
def encodableNames (os : List Out) : List String := (os.filter fun o => o.annotated).map Out.name
def plainNames (os : List Out) : List String := (os.filter fun o => !o.annotated).map Out.name

/-- A place of the tuple `EncodeResult`: lib.rs 137, 144. -/
inductive Slot (V : Type) where
  | field (m : MaybeEncoded V)
  | plain (v : V)
deriving DecidableEq, Repr

def Slot.field? {V : Type} : Slot V → Option (MaybeEncoded V)
  | .field m => some m
  | .plain _ => none

def Slot.plain? {V : Type} : Slot V → Option V
  | .plain v => some v
  | .field _ => none

variable {V : Type} [DecidableEq V]

/-- The generated `try_encode`: lib.rs 180-184. `entry` gives the value of each field; the variables bound by the `let`s are an association list. -/
def tryEncode (os : List Out) (c : UCache V) (entry : String → V) : CM (List (Slot V) × UCache V) := do
  let (rs, c) ← c.encodeFields ((encodableNames os).map entry)
  let vars := (encodableNames os).zip (rs.map Slot.field) ++ (plainNames os).zip ((plainNames os).map fun n => .plain (entry n))
  return ((names os).filterMap fun n => vars.lookup n, c)

/-- The generated `decode`: lib.rs 186-191. The pattern binds the places of the tuple to the names of the fields; the result is the struct
    literal. (That each place has the right kind is a matter of types in Rust.) -/
def decode (os : List Out) (c : UCache V) (t : List (Slot V)) : CM (List (String × V) × UCache V) := do
  let vars := (names os).zip t
  let (vs, c) ← c.decodeFields ((encodableNames os).filterMap fun n => (vars.lookup n).bind Slot.field?)
  return ((encodableNames os).zip vs ++ (plainNames os).filterMap (fun n => ((vars.lookup n).bind Slot.plain?).map fun v => (n, v)), c)

/-- Encoding a stream of entries, and decoding it. -/
def encodeAll (os : List Out) (c : UCache V) : List (String → V) → CM (List (List (Slot V)) × UCache V)
  | [] => .ok ([], c)
  | e :: es => do
    let (t, c) ← tryEncode os c e
    let (ts, c) ← encodeAll os c es
    return (t :: ts, c)

def decodeAll (os : List Out) (c : UCache V) : List (List (Slot V)) → CM (List (List (String × V)) × UCache V)
  | [] => .ok ([], c)
  | t :: ts => do
    let (e, c) ← decode os c t
    let (es, c) ← decodeAll os c ts
    return (e :: es, c)

end Omni.Derive
