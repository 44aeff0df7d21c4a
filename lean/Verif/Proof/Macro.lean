import Verif.Spec.Macro
/-
How the derive macros read the annotations.
-/
namespace Omni.Derive

theorem readItems_ok {is : List Item} (h : ∀ i ∈ is, i.Documented) (r : Reading) :
    readItems r is = .ok ⟨(encodingIn is).or r.encoding, (sizeIn is).or r.size, (cacheIn is).or r.cache⟩ := by
  induction is generalizing r with
  | nil => rfl
  | cons i is ih =>
    have hi := h i (List.mem_cons_self ..)
    have ih := ih fun j hj => h j (List.mem_cons_of_mem _ hj)
    cases i with
    | size n =>
      simp only [readItems, readItem]
      refine (ih _).trans ?_
      simp [encodingIn, sizeIn, cacheIn, List.findSome?_append]
    | encoding t =>
      simp only [readItems, readItem]
      refine (ih _).trans ?_
      simp [encodingIn, sizeIn, cacheIn, List.findSome?_append]
    | cache id =>
      rcases hi with rfl | rfl
      · simp only [readItems, readItem]
        refine (ih _).trans ?_
        simp [encodingIn, sizeIn, cacheIn, List.findSome?_append]
      · simp only [readItems, readItem]
        refine (ih _).trans ?_
        simp [encodingIn, sizeIn, cacheIn, List.findSome?_append]
    | malformed => exact hi.elim
    | other p => exact hi.elim

/-- What `readField` makes of a documented field. -/
theorem readField_ok {f : Field} (h : f.Documented) (ct : Option Kind) :
    ∃ ct', readField ct f = .ok (f.meaning (ct.getD .lru), ct') ∧ ct'.getD .lru = (f.names.or ct).getD .lru := by
  obtain ⟨hn, hd⟩ := h
  obtain ⟨name, hname⟩ := Option.ne_none_iff_exists'.1 hn
  cases ha : f.attrs.find? (fun a => a.path == "unicache") with
  | none =>
    have hu : f.unicache = none := by simp only [Field.unicache, ha, Option.map_none]
    refine ⟨ct, ?_, ?_⟩
    · simp only [readField, hname, ha, Field.meaning, hu, Option.getD_some]
    · simp only [Field.names, hu, Option.bind_none, Option.none_or]
  | some a =>
    have hu : f.unicache = some a.items := by simp only [Field.unicache, ha, Option.map_some]
    have hr := readItems_ok (hd _ hu) ⟨none, none, ct⟩
    have hk : ((cacheIn a.items).or ct).getD .lru = (cacheIn a.items).getD (ct.getD .lru) := by
      cases cacheIn a.items <;> rfl
    refine ⟨some (((cacheIn a.items).or ct).getD .lru), ?_, ?_⟩
    · simp only [readField, hname, ha]
      rw [hr]
      simp only [Field.meaning, hu, hname, Option.or_none, Option.getD_some, ← hk]
      rfl
    · simp only [Field.names, hu, Option.bind_some, Option.getD_some]

theorem lastNamed_cons (f : Field) (fs : List Field) : lastNamed (f :: fs) = (lastNamed fs).or f.names := by
  simp only [lastNamed, List.reverse_cons, List.findSome?_append]
  cases h : f.names <;> simp [List.findSome?, h]

theorem readFields_ok {fs : List Field} (h : ∀ f ∈ fs, f.Documented) (ct : Option Kind) :
    ∃ os, readFields ct fs = .ok os ∧ os.length = fs.length ∧
      ∀ (i : Nat) (f : Field), fs[i]? = some f → os[i]? = some (f.meaning (((lastNamed (fs.take i)).or ct).getD .lru)) := by
  induction fs generalizing ct with
  | nil => exact ⟨[], rfl, rfl, fun i f hf => by simp at hf⟩
  | cons f fs ih =>
    obtain ⟨ct', h1, h2⟩ := readField_ok (h f (List.mem_cons_self ..)) ct
    obtain ⟨os, h3, h4, h5⟩ := ih (fun g hg => h g (List.mem_cons_of_mem _ hg)) ct'
    refine ⟨f.meaning (ct.getD .lru) :: os, ?_, by simp only [List.length_cons, h4], ?_⟩
    · simp only [readFields, h1]
      show (do let os ← readFields ct' fs; return f.meaning (ct.getD .lru) :: os : DM (List Out)) = _
      rw [h3]
      rfl
    · intro i g hg
      cases i with
      | zero =>
        simp only [List.getElem?_cons_zero, Option.some.injEq] at hg ⊢
        subst hg
        simp [lastNamed]
      | succ i =>
        simp only [List.getElem?_cons_succ] at hg ⊢
        rw [h5 i g hg, List.take_succ_cons, lastNamed_cons]
        congr 2
        cases h6 : lastNamed (fs.take i) with
        | some k => rfl
        | none => simpa using h2

theorem readItems_documented {is : List Item} {r r' : Reading} (h : readItems r is = .ok r') : ∀ i ∈ is, i.Documented := by
  induction is generalizing r with
  | nil => intro i hi; simp at hi
  | cons i is ih =>
    simp only [readItems] at h
    cases h1 : readItem r i with
    | error e => rw [h1] at h; cases h
    | ok r1 =>
      rw [h1] at h
      intro j hj
      rcases List.mem_cons.1 hj with rfl | hj
      · cases j with
        | size | encoding => trivial
        | malformed | other => simp [readItem] at h1
        | cache id =>
          simp only [readItem] at h1
          split at h1
          · exact .inl ‹_›
          · split at h1
            · exact .inr ‹_›
            · cases h1
      · exact ih h j hj

theorem readField_documented {f : Field} {ct : Option Kind} {r : Out × Option Kind} (h : readField ct f = .ok r) : f.Documented := by
  simp only [readField] at h
  cases hn : f.name with
  | none => rw [hn] at h; cases h
  | some name =>
    refine ⟨by rw [hn]; exact Option.some_ne_none _, fun is his => ?_⟩
    rw [hn] at h
    cases ha : f.attrs.find? (fun a => a.path == "unicache") with
    | none => simp only [Field.unicache, ha, Option.map_none] at his; cases his
    | some a =>
      simp only [Field.unicache, ha, Option.map_some, Option.some.injEq] at his
      subst his
      simp only [ha] at h
      cases h1 : readItems ⟨none, none, ct⟩ a.items with
      | error e => rw [h1] at h; cases h
      | ok r1 => exact readItems_documented h1

theorem readFields_documented {fs : List Field} {ct : Option Kind} {os : List Out} (h : readFields ct fs = .ok os) :
    ∀ f ∈ fs, f.Documented := by
  induction fs generalizing ct os with
  | nil => intro f hf; simp at hf
  | cons f fs ih =>
    simp only [readFields] at h
    cases h1 : readField ct f with
    | error e => rw [h1] at h; cases h
    | ok r =>
      rw [h1] at h
      cases h2 : readFields r.2 fs with
      | error e => 
        have h : (do let os ← readFields r.2 fs; return r.1 :: os : DM (List Out)) = .ok os := h
        rw [h2] at h; cases h
      | ok os' =>
        intro g hg
        rcases List.mem_cons.1 hg with rfl | hg
        · exact readField_documented h1
        · exact ih h2 g hg

theorem snapshotType_eq (as : List TopAttr) : snapshotType as =
    match as.find? (fun a => a.path == "snapshot") with
    | none => .ok "NoSnapshot"
    | some a => match a.ty with | some t => .ok t | none => .error .snapshot := by
  induction as with
  | nil => rfl
  | cons a as ih =>
    by_cases h : a.path = "snapshot"
    · simp only [snapshotType, h, if_true, List.find?, beq_self_eq_true]
      cases a.ty <;> rfl
    · have h1 : (a.path == "snapshot") = false := by simpa using h
      simp only [snapshotType, if_neg h, List.find?, h1, ih]

theorem uniCacheEntry_ok {i : Input} {g : Generated} : uniCacheEntry i = .ok g ↔
    ∃ s fs os, snapshotType i.attrs = .ok s ∧ i.data = .struct fs ∧ readFields none fs = .ok os ∧ g = ⟨s, os, i.name ++ "Cache"⟩ := by
  constructor
  · intro h
    simp only [uniCacheEntry] at h
    cases h1 : snapshotType i.attrs with
    | error e => rw [h1] at h; cases h
    | ok s =>
      rw [h1] at h
      cases h2 : i.data with
      | enum => rw [h2] at h; cases h
      | union => rw [h2] at h; cases h
      | struct fs =>
        rw [h2] at h
        cases h3 : readFields none fs with
        | error e =>
          have h : (do let os ← readFields none fs; return ⟨s, os, i.name ++ "Cache"⟩ : DM Generated) = .ok g := h
          rw [h3] at h; cases h
        | ok os =>
          have h : (do let os ← readFields none fs; return ⟨s, os, i.name ++ "Cache"⟩ : DM Generated) = .ok g := h
          rw [h3] at h
          exact ⟨s, fs, os, rfl, rfl, h3, by cases h; rfl⟩
  · rintro ⟨s, fs, os, h1, h2, h3, rfl⟩
    simp only [uniCacheEntry, h1, h2]
    show (do let os ← readFields none fs; return ⟨s, os, i.name ++ "Cache"⟩ : DM Generated) = _
    rw [h3]
    rfl

end Omni.Derive
