import Verif.Proof.Macro
import Verif.Proof.UniEntry
/-
The generated code of a derived cache: what it encodes it decodes.
-/
namespace Omni.Derive
variable {V : Type} [DecidableEq V]

theorem lookup_zip_map {β : Type} (f : String → β) {ns : List String} {n : String} (h : n ∈ ns) : (ns.zip (ns.map f)).lookup n = some (f n) := by
  induction ns with
  | nil => cases h
  | cons m ns ih =>
    simp only [List.map_cons, List.zip_cons_cons, List.lookup_cons]
    by_cases hm : n = m
    · subst hm; simp
    · have : (n == m) = false := by simpa using hm
      rw [this]
      exact ih ((List.mem_cons.1 h).resolve_left hm)

theorem lookup_zip_none {β : Type} {ns : List String} {xs : List β} {n : String} (h : n ∉ ns) : (ns.zip xs).lookup n = none := by
  induction ns generalizing xs with
  | nil => rfl
  | cons m ns ih =>
    cases xs with
    | nil => rfl
    | cons x xs =>
      simp only [List.mem_cons, not_or] at h
      have : (n == m) = false := by simpa using h.1
      simp only [List.zip_cons_cons, List.lookup_cons, this]
      exact ih h.2

theorem lookup_append' {β : Type} (a b : List (String × β)) (n : String) : (a ++ b).lookup n = (a.lookup n).or (b.lookup n) := by
  induction a with
  | nil => rfl
  | cons x a ih =>
    obtain ⟨k, v⟩ := x
    simp only [List.cons_append, List.lookup_cons]
    cases n == k with
    | true => rfl
    | false => exact ih

theorem exists_map {β : Type} [Inhabited β] {ns : List String} (h : ns.Nodup) (xs : List β) (hl : xs.length = ns.length) :
    ∃ f : String → β, xs = ns.map f := by
  induction ns generalizing xs with
  | nil => exact ⟨fun _ => default, List.length_eq_zero_iff.1 hl⟩
  | cons n ns ih =>
    cases xs with
    | nil => cases hl
    | cons x xs =>
      obtain ⟨h1, h2⟩ := List.nodup_cons.1 h
      obtain ⟨f, hf⟩ := ih h2 xs (Nat.succ.inj hl)
      refine ⟨fun m => if m = n then x else f m, ?_⟩
      rw [List.map_cons, if_pos rfl, hf]
      congr 1
      exact List.map_congr_left fun m hm => by rw [if_neg]; rintro rfl; exact h1 hm

theorem encodable_nodup {os : List Out} (h : (names os).Nodup) : (encodableNames os).Nodup :=
  h.sublist (List.filter_sublist.map _)

theorem inj_of_nodup_map {α : Type} {f : α → String} {l : List α} (h : (l.map f).Nodup) {a b : α} (ha : a ∈ l) (hb : b ∈ l) (he : f a = f b) :
    a = b := by
  induction l with
  | nil => cases ha
  | cons x l ih =>
    rw [List.map_cons, List.nodup_cons] at h
    rcases List.mem_cons.1 ha with ha1 | ha1 <;> rcases List.mem_cons.1 hb with hb1 | hb1
    · exact ha1.trans hb1.symm
    · subst ha1; exact absurd (he ▸ List.mem_map_of_mem hb1) h.1
    · subst hb1; exact absurd (he ▸ List.mem_map_of_mem ha1) h.1
    · exact ih h.2 ha1 hb1

theorem plain_not_encodable {os : List Out} (h : (names os).Nodup) {n : String} (hn : n ∈ plainNames os) : n ∉ encodableNames os := by
  intro he
  simp only [plainNames, encodableNames, List.mem_map, List.mem_filter] at hn he
  obtain ⟨a, ⟨ha, ha1⟩, ha2⟩ := hn
  obtain ⟨b, ⟨hb, hb1⟩, hb2⟩ := he
  have : a = b := inj_of_nodup_map h ha hb (ha2.trans hb2.symm)
  subst this
  rw [hb1] at ha1
  cases ha1

theorem mem_names {os : List Out} {n : String} (h : n ∈ names os) : n ∈ encodableNames os ∨ n ∈ plainNames os := by
  simp only [plainNames, encodableNames, names, List.mem_map, List.mem_filter] at h ⊢
  obtain ⟨o, ho, rfl⟩ := h
  cases hb : o.annotated
  · exact .inr ⟨o, ⟨ho, by rw [hb]; rfl⟩, rfl⟩
  · exact .inl ⟨o, ⟨ho, hb⟩, rfl⟩

theorem encodable_sub {os : List Out} {n : String} (h : n ∈ encodableNames os) : n ∈ names os :=
  (List.filter_sublist.map _).subset h

theorem plain_sub {os : List Out} {n : String} (h : n ∈ plainNames os) : n ∈ names os :=
  (List.filter_sublist.map _).subset h

theorem filterMap_some {α β : Type} {f : α → Option β} {g : α → β} {l : List α} (h : ∀ a ∈ l, f a = some (g a)) : l.filterMap f = l.map g := by
  induction l with
  | nil => rfl
  | cons a l ih =>
    rw [List.filterMap_cons, h a (List.mem_cons_self ..), List.map_cons, ih fun b hb => h b (List.mem_cons_of_mem _ hb)]

theorem attrsOf_length {os : List Out} {as : List FieldAttr} (h : attrsOf os = some as) : as.length = (encodableNames os).length := by
  induction os generalizing as with
  | nil => cases h; rfl
  | cons o os ih =>
    cases o with
    | plain n t => exact ih h
    | encodable n t e s k =>
      simp only [attrsOf, Option.bind_eq_bind, Option.bind_eq_some_iff] at h
      obtain ⟨m, -, as', h1, h2⟩ := h
      cases h2
      show as'.length + 1 = _
      rw [ih h1]
      rfl

theorem encodeFields_length {c c' : UCache V} {vs : List V} {rs : List (MaybeEncoded V)} (hl : vs.length = c.length)
    (h : c.encodeFields vs = .ok (rs, c')) : rs.length = vs.length := by
  induction c generalizing vs rs c' with
  | nil =>
    cases vs with
    | nil => cases h; rfl
    | cons => cases hl
  | cons a c ih =>
    cases vs with
    | nil => cases hl
    | cons v vs =>
      simp only [UCache.encodeFields] at h
      cases h1 : a.try_encode v with
      | error e => rw [h1] at h; cases h
      | ok x =>
        cases h2 : UCache.encodeFields c vs with
        | error e => simp [h1, h2, bind, Except.bind] at h
        | ok y =>
          simp only [h1, h2, bind, Except.bind, pure, Except.pure, Except.ok.injEq, Prod.mk.injEq] at h
          rw [← h.1, List.length_cons, List.length_cons, ih (Nat.succ.inj hl) h2]

/-- One entry. -/
theorem step {os : List Out} (hn : (names os).Nodup) {l f : UCache V} (h : UCache.Sync l f) (hl : l.length = (encodableNames os).length)
    (e : String → V) : ∃ t l' f' d, tryEncode os l e = .ok (t, l') ∧ decode os f t = .ok (d, f') ∧ UCache.Sync l' f' ∧
      l'.length = l.length ∧ (∀ n ∈ names os, d.lookup n = some (e n)) ∧ t.length = os.length := by
  obtain ⟨rs, l', f', h1, h2, h3, h4⟩ := h.fields ((encodableNames os).map e) (by rw [List.length_map, hl])
  have hr := encodeFields_length (by rw [List.length_map, hl]) h1
  rw [List.length_map] at hr
  haveI : Inhabited (MaybeEncoded V) := ⟨.encoded 0⟩
  obtain ⟨g, rfl⟩ := exists_map (encodable_nodup hn) rs hr
  let s : String → Slot V := fun n => if n ∈ encodableNames os then .field (g n) else .plain (e n)
  have ht : tryEncode os l e = .ok ((names os).map s, l') := by
    simp only [tryEncode, h1, bind, Except.bind, pure, Except.pure, Except.ok.injEq, Prod.mk.injEq, and_true]
    refine filterMap_some fun n hm => ?_
    rw [lookup_append', List.map_map]
    rcases mem_names hm with hm | hm
    · rw [lookup_zip_map _ hm]
      show some _ = some _
      simp only [s, if_pos hm, Function.comp]
    · have hne := plain_not_encodable hn hm
      rw [lookup_zip_none hne, Option.none_or, lookup_zip_map _ hm]
      simp only [s, if_neg hne]
  have hv : ∀ n ∈ names os, ((names os).zip ((names os).map s)).lookup n = some (s n) := fun n hm => lookup_zip_map s hm
  have hd : decode os f ((names os).map s) =
      .ok ((encodableNames os).zip ((encodableNames os).map e) ++ (plainNames os).map fun n => (n, e n), f') := by
    have e1 : ((encodableNames os).filterMap fun n => (((names os).zip ((names os).map s)).lookup n).bind Slot.field?) =
        (encodableNames os).map g := filterMap_some fun n hm => by
      rw [hv n (encodable_sub hm), Option.bind_some]
      simp only [s, if_pos hm, Slot.field?]
    have e2 : ((plainNames os).filterMap fun n => ((((names os).zip ((names os).map s)).lookup n).bind Slot.plain?).map fun v => (n, v)) =
        (plainNames os).map fun n => (n, e n) := filterMap_some fun n hm => by
      rw [hv n (plain_sub hm), Option.bind_some]
      simp only [s, if_neg (plain_not_encodable hn hm), Slot.plain?, Option.map_some]
    simp only [decode, e1, e2, h2, bind, Except.bind, pure, Except.pure]
  refine ⟨_, _, _, _, ht, hd, h3, ?_, ?_, by simp [names]⟩
  · have := congrArg List.length h4
    simpa [UCache.attrs] using this
  · intro n hm
    rw [lookup_append']
    rcases mem_names hm with hm | hm
    · rw [lookup_zip_map _ hm]; rfl
    · rw [lookup_zip_none (plain_not_encodable hn hm), Option.none_or]
      have : ((plainNames os).map fun n => (n, e n)) = (plainNames os).zip ((plainNames os).map e) := by
        generalize plainNames os = ps
        induction ps with
        | nil => rfl
        | cons p ps ih => simp only [List.map_cons, List.zip_cons_cons, ih]
      rw [this, lookup_zip_map _ hm]

/-- A stream of entries. -/
theorem stream {os : List Out} (hn : (names os).Nodup) {l f : UCache V} (h : UCache.Sync l f) (hl : l.length = (encodableNames os).length)
    (es : List (String → V)) : ∃ ts l' f' ds, encodeAll os l es = .ok (ts, l') ∧ decodeAll os f ts = .ok (ds, f') ∧
      ds.length = es.length ∧ ∀ (i : Nat) (e : String → V) (d : List (String × V)), es[i]? = some e → ds[i]? = some d →
        ∀ n ∈ names os, d.lookup n = some (e n) := by
  induction es generalizing l f with
  | nil => exact ⟨[], l, f, [], rfl, rfl, rfl, fun i e d h => by simp at h⟩
  | cons e es ih =>
    obtain ⟨t, l1, f1, d, h1, h2, h3, h4, h5, -⟩ := step hn h hl e
    obtain ⟨ts, l2, f2, ds, k1, k2, k3, k4⟩ := ih h3 (h4.trans hl)
    refine ⟨t :: ts, l2, f2, d :: ds, by simp [encodeAll, h1, k1, bind, Except.bind, pure, Except.pure],
      by simp [decodeAll, h2, k2, bind, Except.bind, pure, Except.pure], by simp only [List.length_cons, k3], fun i e' d' he hd => ?_⟩
    cases i with
    | zero => cases he; cases hd; exact h5
    | succ i => exact k4 i e' d' he hd

end Omni.Derive
