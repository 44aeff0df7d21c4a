import Verif.Spec.Errors
/-
C86: loading a configuration, and the causes of its errors.
-/
namespace Omni

/-- C86: `with_toml` returns the configuration in the file if it is valid, and otherwise says which of the three steps failed, and how. -/
theorem C86_with_toml (read : String → Except Foreign String) (parse : String → Except Foreign OmniPaxosConfig) (p : String) :
    (∀ c, withToml read parse p = .ok c ↔ ∃ t, read p = .ok t ∧ parse t = .ok c ∧ c.validate = .ok ()) ∧
    (∀ e, withToml read parse p = .error (.readFile e) ↔ read p = .error e) ∧
    (∀ e, withToml read parse p = .error (.parse e) ↔ ∃ t, read p = .ok t ∧ parse t = .error e) ∧
    ∀ e, withToml read parse p = .error (.invalidConfig e) ↔ ∃ t c, read p = .ok t ∧ parse t = .ok c ∧ c.validate = .error e := by
  cases h1 : read p with
  | error e =>
    have hw : withToml read parse p = .error (.readFile e) := by simp only [withToml, h1]
    rw [hw]
    simp
  | ok t =>
    cases h2 : parse t with
    | error e =>
      have hw : withToml read parse p = .error (.parse e) := by simp only [withToml, h1, h2]
      rw [hw]
      simp [h2]
    | ok c =>
      cases h3 : c.validate with
      | error e =>
        have hw : withToml read parse p = .error (.invalidConfig e) := by simp only [withToml, h1, h2, h3]
        rw [hw]
        refine ⟨fun c' => ⟨nofun, ?_⟩, fun _ => by simp, fun _ => by simp [h2], fun e' => by simp [h2, h3]⟩
        rintro ⟨_, ht, hc, h⟩
        cases ht
        rw [h2] at hc
        cases hc
        rw [h3] at h
        cases h
      | ok u =>
        have hw : withToml read parse p = .ok c := by simp only [withToml, h1, h2, h3]
        rw [hw]
        refine ⟨fun c' => ⟨?_, ?_⟩, fun _ => by simp, fun _ => by simp [h2], fun e' => by simp [h2, h3]⟩
        · intro h
          cases h
          exact ⟨t, rfl, h2, h3⟩
        · rintro ⟨_, ht, hc, -⟩
          cases ht
          rw [h2] at hc
          cases hc
          rfl

/-- C86: the causes of an error come to an end if and only if the error is not an invalid configuration.

    Missing for the full claim (they always do): it is false for invalid configurations (`C86_false_chain`). -/
theorem C86_chain_partial (e : LoadError) : (AnyError.config e).ChainEnds ↔ ∀ c, e ≠ .invalidConfig c := by
  have hf : ∀ f : Foreign, (AnyError.foreign f).ChainEnds := by
    intro f
    induction f with
    | leaf m => exact ⟨1, rfl⟩
    | caused m f ih => obtain ⟨n, hn⟩ := ih; exact ⟨n + 1, hn⟩
  constructor
  · rintro ⟨n, hn⟩ c rfl
    induction n with
    | zero => cases hn
    | succ n ih => exact ih hn
  · intro h
    cases e with
    | readFile f => obtain ⟨n, hn⟩ := hf f; exact ⟨n + 1, hn⟩
    | parse f => obtain ⟨n, hn⟩ := hf f; exact ⟨n + 1, hn⟩
    | invalidConfig c => exact absurd rfl (h c)

/-- C86 is false: `source` of an invalid configuration is the error itself (errors.rs 39), so that it is its own n-th cause for every n. With
    a file that names one node only, `with_toml` returns such an error. -/
theorem C86_false_chain : ∃ (read : String → Except Foreign String) (parse : String → Except Foreign OmniPaxosConfig) (e : LoadError),
    withToml read parse "node.toml" = .error e ∧ e = .invalidConfig .needMoreThanOneNode ∧ (∀ n, (AnyError.config e).cause n = some (.config e)) ∧
    ¬ (AnyError.config e).ChainEnds := by
  refine ⟨fun _ => .ok "nodes = [1]", fun _ => .ok ⟨{ configuration_id := 1, nodes := [1] }, { pid := 1 }⟩, _, rfl, rfl, fun n => ?_, fun h => ?_⟩
  · induction n with
    | zero => rfl
    | succ n ih => exact ih
  · exact (C86_chain_partial _).1 h _ rfl

/-- A missing file: two errors, then the end. -/
example : withToml (fun _ => .error (.leaf "not found")) (fun _ => .error (.leaf "")) "x" = .error (.readFile (.leaf "not found")) ∧
    (AnyError.config (.readFile (.leaf "not found"))).cause 1 = some (.foreign (.leaf "not found")) ∧
    (AnyError.config (.readFile (.leaf "not found"))).cause 2 = none := ⟨rfl, rfl, rfl⟩

/-- A valid file. -/
example : ∃ c, withToml (fun _ => .ok "t") (fun _ => .ok ⟨{ configuration_id := 1, nodes := [1, 2] }, { pid := 1 }⟩) "x" = .ok c := ⟨_, rfl⟩

end Omni
