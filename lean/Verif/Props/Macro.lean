import Verif.Proof.MacroRun
/-
C85: the derive macros give each field what its own attributes say.
-/
namespace Omni

open Derive

/-- The struct of the documentation (lib.rs 49-58). -/
def Derive.person : Input := ⟨"Person", [⟨"derive", none⟩, ⟨"snapshot", some "PersonSnapshot"⟩], .struct
  [⟨some "id", "u64", []⟩,
   ⟨some "first_name", "String", [⟨"unicache", [.encoding "u8"]⟩]⟩,
   ⟨some "last_name", "String", [⟨"doc", []⟩, ⟨"unicache", [.encoding "u64", .size 100]⟩]⟩,
   ⟨some "job", "String", [⟨"unicache", [.encoding "u64", .size 20, .cache "lru"]⟩]⟩]⟩

/-- The same, with the policy of the first name stated. -/
def Derive.person' : Input := ⟨"Person", [], .struct
  [⟨some "id", "u64", []⟩,
   ⟨some "first_name", "String", [⟨"unicache", [.encoding "u8", .cache "lfu"]⟩]⟩,
   ⟨some "last_name", "String", [⟨"unicache", [.encoding "u64", .size 100]⟩]⟩,
   ⟨some "job", "String", [⟨"unicache", [.encoding "u64", .size 20, .cache "lru"]⟩]⟩]⟩

/-- C85: exactly the structs with named fields and documented annotations are accepted; everything else stops the compilation. -/
theorem C85_accepted (i : Input) : (∃ g, uniCacheEntry i = .ok g) ↔
    (∀ a, i.attrs.find? (fun a => a.path == "snapshot") = some a → a.ty ≠ none) ∧ ∃ fs, i.data = .struct fs ∧ ∀ f ∈ fs, f.Documented := by
  have hs : (∃ s, snapshotType i.attrs = .ok s) ↔
      ∀ a, i.attrs.find? (fun a => a.path == "snapshot") = some a → a.ty ≠ none := by
    rw [snapshotType_eq]
    cases h : i.attrs.find? (fun a => a.path == "snapshot") with
    | none => simp
    | some a => cases h1 : a.ty <;> simp [h1]
  rw [← hs]
  constructor
  · rintro ⟨g, hg⟩
    obtain ⟨s, fs, os, h1, h2, h3, -⟩ := uniCacheEntry_ok.1 hg
    exact ⟨⟨s, h1⟩, fs, h2, readFields_documented h3⟩
  · rintro ⟨⟨s, h1⟩, fs, h2, h3⟩
    obtain ⟨os, h4, -⟩ := readFields_ok h3 none
    exact ⟨_, uniCacheEntry_ok.2 ⟨s, fs, os, h1, h2, h4, rfl⟩⟩

/-- C85: what is generated for each field. Name, type, encoding and size are as documented; the cache is the field's own if it
    names one, otherwise that of the last field before it that names one, otherwise LRU. -/
theorem C85_fields {i : Input} {g : Generated} {fs : List Field} (h : uniCacheEntry i = .ok g) (hd : i.data = .struct fs) :
    g.fields.length = fs.length ∧
    ∀ (n : Nat) (f : Field), fs[n]? = some f → g.fields[n]? = some (f.meaning ((lastNamed (fs.take n)).getD .lru)) := by
  obtain ⟨s, fs', os, -, h2, h3, rfl⟩ := uniCacheEntry_ok.1 h
  obtain rfl : fs = fs' := by rw [hd] at h2; exact Data.struct.inj h2
  obtain ⟨os', h4, h5, h6⟩ := readFields_ok (readFields_documented h3) none
  obtain rfl : os = os' := by rw [h3] at h4; exact Except.ok.inj h4
  refine ⟨h5, fun n f hf => ?_⟩
  have h7 := h6 n f hf
  rw [Option.or_none] at h7
  exact h7

/-- C85: every field becomes what the documentation says, if and only if no annotated field that leaves out `cache` comes after
    a field whose cache is LFU, with none that names LRU between them.

    Missing for the full claim: without the condition it is false (`C85_false_default`). -/
theorem C85_documented_partial {i : Input} {g : Generated} {fs : List Field} (h : uniCacheEntry i = .ok g) (hd : i.data = .struct fs) :
    g.fields = fs.map Field.documented ↔
    ∀ (n : Nat) (f : Field), fs[n]? = some f → f.unicache ≠ none → f.names = none → lastNamed (fs.take n) ≠ some .lfu := by
  obtain ⟨hl, hf⟩ := C85_fields h hd
  have key : ∀ (f : Field) (k : Kind), f.meaning k = f.documented ↔ (f.unicache ≠ none → f.names = none → k ≠ .lfu) := by
    intro f k
    simp only [Field.documented, Field.meaning, Field.names]
    cases f.unicache with
    | none => simp
    | some is =>
      simp only [Option.bind_some]
      cases cacheIn is with
      | some c => simp
      | none => cases k <;> simp
  have hk : ∀ o : Option Kind, o.getD .lru ≠ .lfu ↔ o ≠ some .lfu := by
    intro o
    rcases o with _ | (_ | _) <;> simp
  constructor
  · intro he n f hn h1 h2
    have h3 := hf n f hn
    rw [he, List.getElem?_map, hn, Option.map_some, Option.some.injEq] at h3
    exact (hk _).1 ((key f _).1 h3.symm h1 h2)
  · intro hc
    apply List.ext_getElem?
    intro n
    cases hn : fs[n]? with
    | none =>
      have h1 : fs.length ≤ n := List.getElem?_eq_none_iff.1 hn
      rw [List.getElem?_eq_none (by omega), List.getElem?_eq_none (by rw [List.length_map]; omega)]
    | some f =>
      rw [hf n f hn, List.getElem?_map, hn, Option.map_some]
      exact congrArg some ((key f _).2 fun h1 h2 => (hk _).2 (hc n f hn h1 h2))

/-- C85: in particular the claim holds of all structs that use the default policy only, or LRU only. -/
theorem C85_lru_partial {i : Input} {g : Generated} {fs : List Field} (h : uniCacheEntry i = .ok g) (hd : i.data = .struct fs)
    (hl : ∀ f ∈ fs, f.names ≠ some .lfu) : g.fields = fs.map Field.documented := by
  refine (C85_documented_partial h hd).2 fun n f _ _ _ he => ?_
  obtain ⟨x, hx, hx'⟩ := List.exists_of_findSome?_eq_some he
  exact hl x (List.mem_of_mem_take (List.mem_reverse.1 hx)) hx'

/-- C85: the snapshot type is that of the first `snapshot` attribute, `NoSnapshot` if there is none, for both macros. -/
theorem C85_snapshot {i : Input} {g : Generated} (h : uniCacheEntry i = .ok g) : entry i = .ok g.snapshot ∧
    match i.attrs.find? (fun a => a.path == "snapshot") with
    | none => g.snapshot = "NoSnapshot"
    | some a => a.ty = some g.snapshot := by
  obtain ⟨s, fs, os, h1, -, -, rfl⟩ := uniCacheEntry_ok.1 h
  refine ⟨h1, ?_⟩
  rw [snapshotType_eq] at h1
  cases h2 : i.attrs.find? (fun a => a.path == "snapshot") with
  | none => rw [h2] at h1; exact (Except.ok.inj h1).symm
  | some a =>
    rw [h2] at h1
    cases h3 : a.ty with
    | none => simp only [h3] at h1; cases h1
    | some t => simp only [h3] at h1; exact h3.trans (congrArg some (Except.ok.inj h1))

/-- C85 is false: after a field with `cache(lfu)`, a field without `cache` gets an LFU cache, not the documented default LRU. -/
theorem C85_false_default : ∃ (i : Input) (g : Generated) (fs : List Field), uniCacheEntry i = .ok g ∧ i.data = .struct fs ∧
    (∀ f ∈ fs, f.Documented) ∧ g.fields ≠ fs.map Field.documented ∧
    g.fields[2]? = some (.encodable "last_name" "String" "u64" 100 .lfu) ∧
    (fs.map Field.documented)[2]? = some (.encodable "last_name" "String" "u64" 100 .lru) ∧
    attrsOf g.fields = some [⟨255, 255, true⟩, ⟨100, 18446744073709551615, true⟩, ⟨20, 18446744073709551615, false⟩] := by
  refine ⟨person', _, _, rfl, rfl, ?_, ?_, ?_, ?_, ?_⟩
  · exact readFields_documented (ct := none) rfl
  all_goals decide +kernel

/-- C85, the generated code: whatever the annotations are (of sizes that their encoding types can count), two equal new caches made by the
    generated `new` agree: any stream of entries is encoded without panic, and decoding gives back the value of every field, annotated
    or not, of every entry. -/
theorem C85_generated {V : Type} [DecidableEq V] {i : Input} {g : Generated} (h : uniCacheEntry i = .ok g) (hn : (names g.fields).Nodup)
    {as : List FieldAttr} (ha : attrsOf g.fields = some as) (hf : ∀ a ∈ as, a.Fits) (es : List (String → V)) :
    ∃ c : UCache V, UCache.new as = .ok c ∧ ∃ ts c1 c2 ds, encodeAll g.fields c es = .ok (ts, c1) ∧ decodeAll g.fields c ts = .ok (ds, c2) ∧
      ds.length = es.length ∧ ∀ (k : Nat) (e : String → V) (d : List (String × V)), es[k]? = some e → ds[k]? = some d →
        ∀ fs f n, i.data = .struct fs → f ∈ fs → f.name = some n → d.lookup n = some (e n) := by
  obtain ⟨c, h1, h2, h3⟩ := UCache.sync_new (V := V) hf
  have hl : c.length = (encodableNames g.fields).length := by
    rw [← attrsOf_length ha, ← h3, UCache.attrs, List.length_map]
  obtain ⟨ts, c1, c2, ds, k1, k2, k3, k4⟩ := stream hn h2 hl es
  refine ⟨c, h1, ts, c1, c2, ds, k1, k2, k3, fun k e d he hd fs f n hfs hfm hfn => k4 k e d he hd n ?_⟩
  obtain ⟨j, hj⟩ := List.getElem?_of_mem hfm
  have hm := List.mem_of_getElem? ((C85_fields h hfs).2 j f hj)
  refine List.mem_map.2 ⟨_, hm, ?_⟩
  simp only [Field.meaning, hfn]
  cases f.unicache <;> rfl

/-- Two people with the same first name: the second time it is sent as one number, and `id`, which is not annotated, stays where it is. -/
example : ∃ g as c, uniCacheEntry person' = .ok g ∧ (names g.fields).Nodup ∧ attrsOf g.fields = some as ∧ (∀ a ∈ as, a.Fits) ∧
    UCache.new as = .ok c ∧
    (encodeAll g.fields c [fun n => if n = "first_name" then 7 else if n = "id" then 1 else 0, fun n => if n = "first_name" then 7 else if n = "id" then 2 else 5]).map (·.1) =
      .ok [[.plain 1, .field (.notEncoded 7), .field (.notEncoded 0), .field (.notEncoded 0)],
        [.plain 2, .field (.encoded 1), .field (.notEncoded 5), .field (.notEncoded 5)]] := by
  refine ⟨_, _, _, rfl, ?_, rfl, ?_, rfl, rfl⟩ <;> decide +kernel

/-- The struct of the documentation meets the conditions: it is accepted, and each field is as documented. -/
example : ∃ g fs, uniCacheEntry person = .ok g ∧ person.data = .struct fs ∧ (∀ f ∈ fs, f.names ≠ some .lfu) ∧
    g.snapshot = "PersonSnapshot" ∧ g.cacheName = "PersonCache" ∧
    attrsOf g.fields = some [⟨255, 255, false⟩, ⟨100, 18446744073709551615, false⟩, ⟨20, 18446744073709551615, false⟩] := by
  refine ⟨_, _, rfl, rfl, ?_, ?_, ?_, ?_⟩ <;> decide +kernel

/-- Enums, tuple structs, unknown policies and unknown attributes are refused. -/
example : uniCacheEntry ⟨"E", [], .enum⟩ = .error .notStruct ∧ uniCacheEntry ⟨"E", [], .struct [⟨none, "u8", []⟩]⟩ = .error .unnamed ∧
    uniCacheEntry ⟨"E", [], .struct [⟨some "x", "u8", [⟨"unicache", [.cache "fifo"]⟩]⟩]⟩ = .error .cacheType ∧
    uniCacheEntry ⟨"E", [], .struct [⟨some "x", "u8", [⟨"unicache", [.other "sizes"]⟩]⟩]⟩ = .error .attribute :=
  ⟨rfl, rfl, rfl, rfl⟩

end Omni
