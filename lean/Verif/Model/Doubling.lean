import Verif.Basic

/-!
# The "doubling recursion" schema

Most of Sprout's forward-iterator algorithms are written as the pair of functions

```
X_impl_1(cur, n) = finished(cur) ? cur : n == 1 ? step(cur)
                 : X_impl_1(X_impl_1(cur, n / 2), n - n / 2)
X_impl(cur, n)   = finished(cur) ? cur : X_impl(X_impl_1(cur, n), n * 2)
```

(e.g. sprout/algorithm/find_if.hpp lines 55-90) so that the recursion depth is logarithmic.
`fin cur = some r` says: `cur` is finished and the function returns `r`
(mostly `r = cur`; `search_one` and `strstr_one` rewrite the state, see there).
The C++ counter `n` is a `difference_type`; here it is unbounded.
-/

namespace Sprout

variable {σ : Type}

/-- `X_impl_1`. -/
def dbl1 (fin : σ → Option σ) (step : σ → Option σ) (cur : σ) (n : Nat) : Option σ :=
  match fin cur with
  | some r => some r
  | none =>
    if n = 1 then step cur
    else do
      let c ← dbl1 fin step cur (n / 2)
      dbl1 fin step c (n - n / 2)
partial_fixpoint

/-- `X_impl`. -/
def dbl (fin : σ → Option σ) (step : σ → Option σ) (cur : σ) (n : Nat) : Option σ :=
  match fin cur with
  | some r => some r
  | none => do
    let c ← dbl1 fin step cur n
    dbl fin step c (n * 2)
partial_fixpoint

/-- The common special case: finished states are returned unchanged. -/
def finIf (p : σ → Bool) (s : σ) : Option σ := if p s then some s else none

end Sprout
