import Verif.Spec.Storage
import Verif.Model.Internal
/-
The write calls a server makes, as a chain of disk states: each call respects the log bounds of the state it finds, as long as
it leaves no StopSign behind.
-/
namespace Omni

variable {E S : Type}

/-- The log bounds of a storage. -/
def Mem.bounds (m : Mem E S) : LogBounds := ⟨m.trimmed_idx, m.compacted_idx, m.trimmed_idx + m.log.length⟩

/-- The call takes `m` to `m'`, is one write, and is within the bounds if `m'` has no StopSign. -/
def Fits (m : Mem E S) (c : StorageCall E S) (m' : Mem E S) : Prop :=
  m.call c = some m' ∧ c.OneWrite ∧ (m'.stopsign = none → m.bounds.calls [c] = some m'.bounds)

/-- `calls` and the states they left (both latest first) lead from `d0` to `m`. -/
def Chain (d0 : Mem E S) : List (StorageCall E S) → List (Mem E S) → Mem E S → Prop
  | [], [], m => m = d0
  | c :: cs, t :: ts, m => m = t ∧ ∃ p, Chain d0 cs ts p ∧ Fits p c t
  | _, _, _ => False

/-- From `i` to `j` there was one write call. -/
def IStore.Wrote (i j : IStore E S) : Prop :=
  j.trail = j.storage :: i.trail ∧ ∃ c, j.calls = c :: i.calls ∧ Fits i.storage c j.storage

theorem Chain.cons {d0 : Mem E S} {i j : IStore E S} (h : Chain d0 i.calls i.trail i.storage) (hw : i.Wrote j) :
    Chain d0 j.calls j.trail j.storage := by
  obtain ⟨h1, c, h2, h3⟩ := hw
  rw [h1, h2]
  exact ⟨rfl, _, h, h3⟩

theorem Fits.append (m : Mem E S) (es : List E) : Fits m (.one (.appendEntries es)) { m with log := m.log ++ es } := by
  refine ⟨rfl, trivial, fun _ => ?_⟩
  simp [LogBounds.calls, LogBounds.op, Mem.bounds, Nat.add_assoc]

theorem Fits.promise (m : Mem E S) (n : Ballot) : Fits m (.one (.setPromise n)) { m with n_prom := some n } := ⟨rfl, trivial, fun _ => rfl⟩

theorem Fits.decided (m : Mem E S) (k : Nat) : Fits m (.one (.setDecidedIndex k)) { m with ld := k } := ⟨rfl, trivial, fun _ => rfl⟩

theorem Fits.stopsign (m : Mem E S) (ss : Option StopSign) : Fits m (.one (.setStopsign ss)) { m with stopsign := ss } :=
  ⟨rfl, trivial, fun _ => rfl⟩

theorem LogBounds.ops_append (b : LogBounds) (l r : List (StorageOp E S)) :
    b.ops (l ++ r) = (b.ops l).bind fun b' => b'.ops r := by
  induction l generalizing b with
  | nil => rfl
  | cons o l ih =>
    simp only [List.cons_append, LogBounds.ops]
    cases b.op o with
    | none => rfl
    | some b' => exact ih b'

/-- The calls of a chain are within the bounds if no StopSign was left behind. -/
theorem Chain.bounds {d0 : Mem E S} {cs : List (StorageCall E S)} {ts : List (Mem E S)} {m : Mem E S} (h : Chain d0 cs ts m)
    (hs : ∀ t ∈ ts, t.stopsign = none) :
    d0.calls cs.reverse = some m ∧ d0.bounds.calls cs.reverse = some m.bounds := by
  induction cs generalizing ts m with
  | nil =>
    cases ts with
    | nil => cases h; exact ⟨rfl, rfl⟩
    | cons t ts => exact h.elim
  | cons c cs ih =>
    cases ts with
    | nil => exact h.elim
    | cons t ts =>
      obtain ⟨rfl, p, hp, hc, -, hb⟩ := h
      obtain ⟨h1, h2⟩ := ih hp fun t ht => hs t (List.mem_cons_of_mem _ ht)
      have h3 := hb (hs _ List.mem_cons_self)
      have a1 : ∀ (m : Mem E S) (l : List (StorageCall E S)) p, m.calls l = some p → m.calls (l ++ [c]) = p.call c := by
        intro m l
        induction l generalizing m with
        | nil =>
          intro p e; cases e
          simp only [List.nil_append, Mem.calls]
          cases m.call c <;> rfl
        | cons x l ih =>
          intro p e
          simp only [Mem.calls, List.cons_append] at e ⊢
          cases hx : m.call x with
          | none => rw [hx] at e; cases e
          | some q => rw [hx] at e; exact ih q p e
      have a2 : ∀ (b : LogBounds) (l : List (StorageCall E S)) p, b.calls l = some p → b.calls (l ++ [c]) = p.calls [c] := by
        intro b l
        induction l generalizing b with
        | nil => intro p e; cases e; rfl
        | cons x l ih =>
          intro p e
          cases x with
          | one o =>
            simp only [LogBounds.calls, List.cons_append] at e ⊢
            cases hx : b.op o with
            | none => rw [hx] at e; cases e
            | some q => rw [hx] at e; exact ih q p e
          | atomically o =>
            simp only [LogBounds.calls, List.cons_append] at e ⊢
            cases hx : b.ops o with
            | none => rw [hx] at e; cases e
            | some q => rw [hx] at e; exact ih q p e
      rw [List.reverse_cons]
      exact ⟨by rw [a1 _ _ _ h1, hc], by rw [a2 _ _ _ h2, h3]⟩

theorem Chain.oneWrite {d0 : Mem E S} {cs : List (StorageCall E S)} {ts : List (Mem E S)} {m : Mem E S} (h : Chain d0 cs ts m) :
    ∀ c ∈ cs, c.OneWrite := by
  induction cs generalizing ts m with
  | nil => nofun
  | cons c cs ih =>
    cases ts with
    | nil => exact h.elim
    | cons t ts =>
      obtain ⟨-, p, hp, -, hc, -⟩ := h
      intro x hx
      rcases List.mem_cons.1 hx with rfl | hx
      · exact hc
      · exact ih hp x hx

end Omni
