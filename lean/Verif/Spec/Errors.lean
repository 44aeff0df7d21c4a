import Verif.Model.Errors
/-
Vocabulary for the errors of configurations.
-/
namespace Omni

/-- The error that is reached by asking `n` times for the source. -/
def AnyError.cause : Nat → AnyError → Option AnyError
  | 0, e => some e
  | n + 1, e => e.source.bind (AnyError.cause n)

/-- Who prints an error with all its causes comes to an end. -/
def AnyError.ChainEnds (e : AnyError) : Prop := ∃ n, e.cause n = none

end Omni
