import Verif.Model.RandArith

/-!
# `poisson_distribution` (`sprout/random/poisson_distribution.hpp`)

`U` stands for `uniform_01<RealType>()(eng)` (C127): the value drawn and the engine afterwards.
Two versions exist: with a reference to the engine (C++14, `do_invert`, `do_generate`) and for
constant engines (`invert`, `generate`). For the second the recursion without the workaround macro
(lines 291-324) is modelled; the workaround (236-289) differs by a limit of the depth only.
`none` = undefined behaviour, failed assertion or no termination.
-/

namespace Sprout.RandDist.Poisson
open Arith
variable {R E : Type} [Arith R]

/-- lines 30-42: the table of ten logarithms of factorials (digits as in the source) -/
def table : List Rat :=
  [0, 0, 69314718055994529 / 10 ^ 17, 17917594692280550 / 10 ^ 16, 31780538303479458 / 10 ^ 16,
   47874917427820458 / 10 ^ 16, 65792512120101012 / 10 ^ 16, 85251613610654147 / 10 ^ 16,
   10604602902745251 / 10 ^ 15, 12801827480081469 / 10 ^ 15]

/-- lines 120-127 -/
structure Ptrd (R : Type) where
  v_r : R
  a : R
  b : R
  smu : R
  inv_alpha : R

/-- lines 164-166: the members -/
structure PDist (R : Type) where
  mean : R
  ptrd : Ptrd R
  expMean : R

/-- lines 129-131: `use_inversion_check` -/
def useInversion (mean : R) : Bool := lt mean (lit 10)

/-- lines 132-143: `init_ptrd_1`, `init_ptrd_2` -/
def initPtrd1 (smu : R) : Ptrd R :=
  let b : R := lit (931 / 1000) + lit (253 / 100) * smu
  ⟨lit (9277 / 10000) - lit (36224 / 10000) / (b - lit 2), -lit (59 / 1000) + lit (2483 / 100000) * b, b, smu,
    lit (11239 / 10000) + lit (11328 / 10000) / (b - lit (34 / 10))⟩

/-- lines 144-148: `init_ptrd` -/
def initPtrd (mean : R) : Ptrd R :=
  if useInversion mean then ⟨lit 0, lit 0, lit 0, lit 0, lit 0⟩ else initPtrd1 (sqrt mean)

/-- lines 149-153: `init_exp_mean` -/
def initExpMean (mean : R) : R := if useInversion mean then exp (-mean) else lit 0

/-- lines 337-341: the constructor with its assertion -/
def make (mean : R) : Option (PDist R) :=
  if lt (lit 0) mean then some ⟨mean, initPtrd mean, initExpMean mean⟩ else none

/-- lines 347-349: `mean()`, which has the type `result_type`, the integer type -/
def meanFn (T : IntTy) (d : PDist R) : Option Int := toInt T d.mean

/-- lines 154-156: `log_factorial`; reading behind the table is undefined behaviour -/
def logFactorial (k : Int) : Option R := if 0 ≤ k then (table[k.toNat]?).map lit else none

/-- lines 176-181 (`do_invert`) and 184-188 (`invert_2`): the same steps -/
def invertLoop (T : IntTy) (mean u : R) (x : Int) (p : R) : Option Int :=
  if lt p u then do
    let x' ← incr T x
    invertLoop T mean (u - p) x' (p * mean / lit x')
  else some x
partial_fixpoint

/-- lines 172-182 `do_invert` and 189-196 `invert`: one value is drawn -/
def invert (T : IntTy) (U : E → R × E) (d : PDist R) (e : E) : Option (Int × E) := do
  let r := U e
  let x ← invertLoop T d.mean r.1 0 d.expMean
  return (x, r.2)

/-- lines 203 and 230: the value of the immediate acceptance -/
def direct (d : PDist R) (u : R) : R :=
  floor ((lit 2 * d.ptrd.a / (lit (1 / 2) - abs u) + d.ptrd.b) * u + d.mean + lit (445 / 1000))

/-- lines 219-220 and 293-294: the final test. The second operand of `||` is evaluated whenever the
first is false, also for `k >= 10`. -/
def accept (T : IntTy) (d : PDist R) (k v : R) : Option Bool :=
  if le (lit 10) k && le (log (v * d.ptrd.smu))
      ((k + lit (1 / 2)) * log (d.mean / k) - d.mean - lit (91893853320467267 / 10 ^ 17) + k
        - (lit 1 / lit 12 - (lit 1 / lit 360 - lit 1 / (lit 1260 * k * k)) / (k * k)) / k) then some true
  else if le (lit 0) k then do
    let i ← toInt T k
    let f ← logFactorial i
    some (le (log v) (k * log d.mean - d.mean - f))
  else some false

/-- lines 213-224 and 292-308: what follows once `u` and `v` are known. `some none` = the next round. -/
def tail (T : IntTy) (d : PDist R) (u v : R) : Option (Option Int) := do
  let us : R := lit (1 / 2) - abs u
  if lt us (lit (13 / 1000)) && lt us v then some none
  else
    let k := floor ((lit 2 * d.ptrd.a / us + d.ptrd.b) * u + d.mean + lit (445 / 1000))
    let acc ← accept T d k (v * d.ptrd.inv_alpha / (d.ptrd.a / (us * us) + d.ptrd.b))
    if acc then
      let i ← toInt T k
      some (some i)
    else some none

/-- lines 209-210: `u` in the third case -/
def foldU (d : PDist R) (v : R) : R :=
  let u := v / d.ptrd.v_r - lit (93 / 100)
  (if lt u (lit 0) then -lit (1 / 2) else lit (1 / 2)) - u

/-- lines 199-225: one round of `do_generate` -/
def round (T : IntTy) (U : E → R × E) (d : PDist R) (e : E) : Option (Option Int × E) :=
  let r := U e
  if le r.1 (lit (86 / 100) * d.ptrd.v_r) then do
    let i ← toInt T (direct d (r.1 / d.ptrd.v_r - lit (43 / 100)))
    some (some i, r.2)
  else if le d.ptrd.v_r r.1 then do
    let w := U r.2
    let x ← tail T d (w.1 - lit (1 / 2)) r.1
    some (x, w.2)
  else do
    let w := U r.2
    let x ← tail T d (foldU d r.1) (w.1 * d.ptrd.v_r)
    some (x, w.2)

/-- lines 309-324: one round of `generate`. In the third case (`generate_1_3`, 310-312) the value drawn
is not multiplied by `v_r`. -/
def roundConst (T : IntTy) (U : E → R × E) (d : PDist R) (e : E) : Option (Option Int × E) :=
  let r := U e
  if le r.1 (lit (86 / 100) * d.ptrd.v_r) then do
    let i ← toInt T (direct d (r.1 / d.ptrd.v_r - lit (43 / 100)))
    some (some i, r.2)
  else if le d.ptrd.v_r r.1 then do
    let w := U r.2
    let x ← tail T d (w.1 - lit (1 / 2)) r.1
    some (x, w.2)
  else do
    let w := U r.2
    let x ← tail T d (foldU d r.1) w.1
    some (x, w.2)

/-- lines 365-370: `operator()(Engine&)` -/
def call (T : IntTy) (U : E → R × E) (d : PDist R) (e : E) : Option (Int × E) :=
  if useInversion d.mean then invert T U d e else rounds (round T U d) e

/-- lines 371-376: `operator()(Engine const&)` -/
def callConst (T : IntTy) (U : E → R × E) (d : PDist R) (e : E) : Option (Int × E) :=
  if useInversion d.mean then invert T U d e else rounds (roundConst T U d) e

end Sprout.RandDist.Poisson
