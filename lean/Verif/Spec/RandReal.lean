import Verif.Model.RandReal

/-! # The sequence of results of an engine -/

namespace Sprout.RandReal

variable {σ : Type}

/-- the state after `n` calls of the engine -/
def after (E : Engine σ) (s : σ) : ℕ → σ
  | 0 => s
  | n + 1 => after E (E.gen s).2 n

/-- the result of the call after `n` calls -/
def draw (E : Engine σ) (s : σ) (n : ℕ) : ℤ := (E.gen (after E s n)).1

end Sprout.RandReal
