import Mathlib.Algebra.Order.Archimedean.Real.Basic
import Mathlib.Data.Int.Log
import Mathlib.Tactic.Ring
import Mathlib.Tactic.Linarith
import Mathlib.Tactic.Positivity
import Mathlib.Tactic.NormNum

/-!
# Floating types

A binary floating type is given by its precision `p`, the exponent `emin` of its smallest positive (subnormal) value,
the exponent `emax` at which values overflow, and its rounding, about which nothing is assumed but that it chooses a
nearest value, so that it may break ties as it likes.

Values are a NaN (the sign and the payload of which are not modelled), the infinities, the zeros and the others.
-/

namespace Sprout

open Classical

/-- `m · 2 ^ e` with an integer `m` of `p` bits and an exponent at least `emin` -/
def Rep (p : ℕ) (emin : ℤ) (x : ℝ) : Prop :=
  ∃ m e : ℤ, emin ≤ e ∧ |m| < 2 ^ p ∧ x = (m : ℝ) * (2 : ℝ) ^ e

/-- binary floating type with rounding to a nearest value; `float`, `double` and `long double` have
`p = 24, 53, 64` (or `113`), `emin = -149, -1074, -16445`, `emax = 128, 1024, 16384` -/
structure Fmt where
  p : ℕ
  emin : ℤ
  emax : ℤ
  rnd : ℝ → ℝ
  two_le_p : 2 ≤ p
  emin_le : emin ≤ 2 - 2 * (p : ℤ)
  p_lt_emax : (p : ℤ) < emax
  rnd_rep : ∀ x, Rep p emin (rnd x)
  rnd_near : ∀ x y, Rep p emin y → |rnd x - x| ≤ |y - x|

/-- values of floating type; `num` is only used with nonzero numbers -/
inductive FV
  | nan
  | inf (neg : Bool)
  | zero (neg : Bool)
  | num (x : ℝ)

namespace FV

/-- the real number; `0` for NaN and infinities, for which it is not used -/
def val : FV → ℝ
  | num x => x
  | _ => 0

/-- the sign -/
noncomputable def sgn : FV → Bool
  | nan => false
  | inf s => s
  | zero s => s
  | num x => decide (x < 0)

/-- `isfinite` (`sprout/math/isfinite.hpp`, 30-37) -/
def isFin : FV → Bool
  | nan => false
  | inf _ => false
  | _ => true

/-- unary `-` -/
def neg : FV → FV
  | nan => nan
  | inf s => inf (!s)
  | zero s => zero (!s)
  | num x => num (-x)

/-- `fabs` (`sprout/math/fabs.hpp`, 35-58) -/
noncomputable def abs : FV → FV
  | nan => nan
  | inf _ => inf false
  | zero _ => zero false
  | num x => num |x|

/-- the order, with the infinities at the ends, of which NaN is no part -/
def lt : FV → FV → Prop
  | nan, _ => False
  | _, nan => False
  | inf s, inf t => s = true ∧ t = false
  | inf s, _ => s = true
  | _, inf t => t = false
  | a, b => a.val < b.val

/-- `==` -/
def eq : FV → FV → Prop
  | nan, _ => False
  | _, nan => False
  | inf s, inf t => s = t
  | inf _, _ => False
  | _, inf _ => False
  | a, b => a.val = b.val

/-- `<=` -/
def le (a b : FV) : Prop := a.lt b ∨ a.eq b

end FV

namespace Fmt

variable (F : Fmt)

/-- the value nearest to a real number, the sign of a zero being given; infinite from `2 ^ emax` -/
noncomputable def ofReal (s : Bool) (r : ℝ) : FV :=
  if F.rnd r = 0 then .zero s
  else if (2 : ℝ) ^ F.emax ≤ |F.rnd r| then .inf (decide (r < 0))
  else .num (F.rnd r)

/-- conversion of an integer -/
noncomputable def ofInt (n : ℤ) : FV := F.ofReal false n

/-- `a + b`: of zeros of different signs, and of opposite numbers, the positive zero -/
noncomputable def add : FV → FV → FV
  | .nan, _ => .nan
  | _, .nan => .nan
  | .inf s, .inf t => if s = t then .inf s else .nan
  | .inf s, _ => .inf s
  | _, .inf t => .inf t
  | .zero s, .zero t => .zero (s && t)
  | a, b => F.ofReal (decide (a.val + b.val < 0)) (a.val + b.val)

/-- `a - b` -/
noncomputable def sub (a b : FV) : FV := F.add a b.neg

/-- `a * b` -/
noncomputable def mul : FV → FV → FV
  | .nan, _ => .nan
  | _, .nan => .nan
  | .inf _, .zero _ => .nan
  | .zero _, .inf _ => .nan
  | .inf s, b => .inf (s != b.sgn)
  | a, .inf t => .inf (a.sgn != t)
  | a, b => F.ofReal (a.sgn != b.sgn) (a.val * b.val)

/-- `a / b`; division by zero, which is undefined in a constant expression, is as in IEC 60559 -/
noncomputable def div : FV → FV → FV
  | .nan, _ => .nan
  | _, .nan => .nan
  | .inf _, .inf _ => .nan
  | .zero _, .zero _ => .nan
  | .inf s, b => .inf (s != b.sgn)
  | a, .inf t => .zero (a.sgn != t)
  | a, .zero t => .inf (a.sgn != t)
  | a, b => F.ofReal (a.sgn != b.sgn) (a.val / b.val)

/-- conversion from another floating type -/
noncomputable def cvt : FV → FV
  | .num x => F.ofReal (decide (x < 0)) x
  | a => a

/-- `numeric_limits<T>::epsilon()` -/
noncomputable def eps : FV := .num ((2 : ℝ) ^ (1 - (F.p : ℤ)))

/-- the values of the type: nonzero numbers are representable and do not overflow -/
def Has : FV → Prop
  | .num x => x ≠ 0 ∧ Rep F.p F.emin x ∧ |x| < (2 : ℝ) ^ F.emax
  | _ => True

/-- the values of the type are also values of the other -/
def Sub (G : Fmt) : Prop := F.p ≤ G.p ∧ G.emin ≤ F.emin ∧ F.emax ≤ G.emax

end Fmt

/-- conversion of a floating value to an integer type of the range from `lo` to `hi`: the fraction is discarded, and the
behaviour is undefined unless the result is in the range -/
noncomputable def toInteger (lo hi : ℤ) : FV → Option ℤ
  | .nan => none
  | .inf _ => none
  | v =>
    if v.val < 0 then (if lo ≤ ⌈v.val⌉ ∧ ⌈v.val⌉ ≤ hi then some ⌈v.val⌉ else none)
    else (if lo ≤ ⌊v.val⌋ ∧ ⌊v.val⌋ ≤ hi then some ⌊v.val⌋ else none)

end Sprout
