import Verif.Model.Macro
/-
What the documentation of `derive(UniCacheEntry)` says an annotated struct means (lib.rs 37-61), one field at a time.
-/
namespace Omni.Derive

/-- The items of the field's `unicache` attribute; `none` if it has none. -/
def Field.unicache (f : Field) : Option (List Item) := (f.attrs.find? (fun a => a.path == "unicache")).map (·.items)

/-- `size(n)`; the last one if there are several. -/
def sizeIn (is : List Item) : Option Nat := is.reverse.findSome? fun | .size n => some n | _ => none
/-- `encoding(T)` -/
def encodingIn (is : List Item) : Option String := is.reverse.findSome? fun | .encoding t => some t | _ => none
/-- `cache(lru)` or `cache(lfu)` -/
def cacheIn (is : List Item) : Option Kind :=
  is.reverse.findSome? fun | .cache id => if id = "lfu" then some .lfu else some .lru | _ => none

/-- The item is one of those in the documentation. -/
def Item.Documented : Item → Prop
  | .size _ | .encoding _ => True
  | .cache id => id = "lru" ∨ id = "lfu"
  | .malformed | .other _ => False

/-- The field has a name, and its annotation consists of documented items. -/
def Field.Documented (f : Field) : Prop := f.name ≠ none ∧ ∀ is, f.unicache = some is → ∀ i ∈ is, i.Documented

/-- What the field is to become, with `k` as the cache unless it names one itself. -/
def Field.meaning (k : Kind) (f : Field) : Out :=
  match f.unicache with
  | none => .plain (f.name.getD "") f.ty
  | some is => .encodable (f.name.getD "") f.ty ((encodingIn is).getD "u8") ((sizeIn is).getD 255) ((cacheIn is).getD k)

/-- The documented meaning: "The default is `lru`". -/
def Field.documented (f : Field) : Out := f.meaning .lru

/-- The cache that a field names. -/
def Field.names (f : Field) : Option Kind := f.unicache.bind cacheIn

/-- The cache named by the last of the fields that name one. -/
def lastNamed (fs : List Field) : Option Kind := fs.reverse.findSome? Field.names

end Omni.Derive
