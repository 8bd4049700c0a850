import Mathlib.Logic.Function.Iterate

/-! # The sequence of values that a generator gives -/

namespace Sprout.DrawSpec

variable {γ ρ : Type}

/-- the first `n` values and the generator after them; `none` if one of the calls fails -/
def take (call : γ → Option (ρ × γ)) : ℕ → γ → Option (List ρ × γ)
  | 0, g => some ([], g)
  | n + 1, g =>
    match call g with
    | none => none
    | some (x, g') =>
      match take call n g' with
      | none => none
      | some (xs, g'') => some (x :: xs, g'')

end Sprout.DrawSpec
