import Verif.Model.RandArith

/-!
# `binomial_distribution` (`sprout/random/binomial_distribution.hpp`)

`U` stands for `uniform_01<RealType>()(eng)` (C127). Two versions: with a reference to the engine
(C++14: `invert(t, p, eng)` lines 214-229, `generate_cxx14`) and for constant engines (`invert`, `generate`).
For the second the recursion without the workaround macro (lines 553-680) is modelled; the workaround
(347-551) takes the same steps but throws an exception when the depth of the recursion exceeds a limit;
this is not modelled. Not modelled either: `param(parm)` and `init` (696-703, 743-747), the streams and the
promotion of an `IntType` narrower than `int`. `none` = undefined behaviour, failed assertion or no termination.
-/

namespace Sprout.RandDist.Binomial
open Arith
variable {R E : Type} [Arith R]

/-- lines 32-40, 45: an array of ten elements of which six are given -/
def table : List Rat := [1, 1, 2, 6, 24, 120, 0, 0, 0, 0]

/-- lines 68-79 -/
structure Btrd (R : Type) where
  r : R
  nr : R
  npq : R
  b : R
  a : R
  c : R
  alpha : R
  v_r : R
  u_rv_r : R

/-- lines 205-209: the members -/
structure BDist (R : Type) where
  t : Int
  p : R
  m : Int
  btrd : Btrd R
  q_n : R

/-- lines 143-145: `init_p` -/
def initP (p : R) : R := if lt (lit (1 / 2)) p then lit 1 - p else p

/-- lines 146-148: `init_m` -/
def initM (T : IntTy) (t : Int) (p : R) : Option Int := do
  let t1 ← incr T t
  toInt T (lit t1 * initP p)

/-- lines 149-185: `init_btrd_1` ... `init_btrd_6`; `t1` is `t + 1` -/
def initBtrd1 (t t1 : Int) (p : R) : Btrd R :=
  let r := p / (lit 1 - p)
  let nr := lit t1 * r
  let npq := lit t * p * (lit 1 - p)
  let sq := sqrt npq
  let b : R := lit (115 / 100) + lit (253 / 100) * sq
  let v_r : R := lit (92 / 100) - lit (42 / 10) / b
  ⟨r, nr, npq, b, -lit (873 / 10000) + lit (248 / 10000) * b + lit (1 / 100) * p, lit t * p + lit (1 / 2),
    (lit (283 / 100) + lit (51 / 10) / b) * sq, v_r, lit (86 / 100) * v_r⟩

/-- line 709: `btrd_type()` -/
def zeroBtrd : Btrd R := ⟨lit 0, lit 0, lit 0, lit 0, lit 0, lit 0, lit 0, lit 0, lit 0⟩

/-- lines 189-191: `init_q_n` -/
def initQn (t : Int) (p : R) : R := pow (lit 1 - initP p) (lit t)

/-- lines 713-719: the constructor with its assertions -/
def make (T : IntTy) (t : Int) (p : R) : Option (BDist R) := do
  if 0 ≤ t ∧ (le (lit 0) p && le p (lit 1)) = true then
    let t1 ← incr T t
    let m ← initM T t p
    some ⟨t, p, m, if m < 11 then zeroBtrd else initBtrd1 t t1 (initP p), if m < 11 then initQn t p else lit 0⟩
  else none

/-- lines 730-732: `p()`, which has the type `result_type`, the integer type -/
def pFn (T : IntTy) (d : BDist R) : Option Int := toInt T d.p

/-- lines 195-203: `fc` -/
def fc (k : Int) : Option R :=
  if k < 10 then (if 0 ≤ k then (table[k.toNat]?).map lit else none)
  else
    let i : R := lit 1 / lit (k + 1 : Int)
    some ((lit 1 / lit 12 - (lit 1 / lit 360 - lit 1 / lit 1260 * (i * i)) * (i * i)) * i)

/-- lines 223-228 and 301-306 (`invert_4`): the same steps -/
def invertLoop (T : IntTy) (s a u : R) (x : Int) (r : R) : Option Int :=
  if lt r u then do
    let x' ← incr T x
    invertLoop T s a (u - r) x' ((a / lit x' - s) * r)
  else some x
partial_fixpoint

/-- lines 214-229 and 307-331: inversion; one value is drawn -/
def invert (T : IntTy) (U : E → R × E) (d : BDist R) (p : R) (e : E) : Option (Int × E) := do
  let q := lit 1 - p
  let s := p / q
  let t1 ← incr T d.t
  let w := U e
  let x ← invertLoop T s (lit t1 * s) w.1 0 d.q_n
  return (x, w.2)

/-- lines 258-262 and 264-268: `do { ++i; f = f * (nr / i - r); } while (i != k);` -/
def product (T : IntTy) (nr r : R) (i k : Int) (f : R) : Option R := do
  let i' ← incr T i
  let f' := f * (nr / lit i' - r)
  if i' = k then some f' else product T nr r i' k f'
partial_fixpoint

/-- lines 256-274: the test near the mode -/
def near (T : IntTy) (d : BDist R) (v : R) (k : Int) : Option Bool :=
  if d.m < k then do
    let f ← product T d.btrd.nr d.btrd.r d.m k (lit 1)
    some (le v f)
  else if k < d.m then do
    let v' ← product T d.btrd.nr d.btrd.r k d.m v
    some (le v' (lit 1))
  else some (le v (lit 1))

/-- lines 585-600: `generate_7_1` and `generate_7_2`, which both run until `i == k`;
`f` is the factor that is multiplied -/
def productConst (T : IntTy) (nr r : R) (i k : Int) (f : R) : Option R :=
  if i ≠ k then do
    let i' ← incr T i
    productConst T nr r i' k (f * (nr / lit i' - r))
  else some f
partial_fixpoint

/-- lines 577-608: `generate_7` and `generate_7_3` -/
def nearConst (T : IntTy) (d : BDist R) (v : R) (k : Int) : Option Bool :=
  if d.m < k then do
    let m1 ← incr T d.m
    let f ← productConst T d.btrd.nr d.btrd.r m1 k (lit 1 * (d.btrd.nr / lit m1 - d.btrd.r))
    some (le v f)
  else if k < d.m then do
    let k1 ← incr T k
    let v' ← productConst T d.btrd.nr d.btrd.r k1 k (v * (d.btrd.nr / lit k1 - d.btrd.r))
    some (le v' (lit 1))
  else some (le v (lit 1))

/-- lines 276-295 and 555-576: the test far from the mode; `v` is the logarithm already -/
def far (d : BDist R) (v : R) (k : Int) (km : R) : Option Bool := do
  let rho := (km / d.btrd.npq) * (((km / lit 3 + lit (625 / 1000)) * km + lit 1 / lit 6) / d.btrd.npq + lit (1 / 2))
  let t := -km * km / (lit 2 * d.btrd.npq)
  if lt v (t - rho) then some true
  else if lt (t + rho) v then some false
  else
    let nm := d.t - d.m + 1
    let nk := d.t - k + 1
    let f1 ← fc d.m
    let f2 ← fc (d.t - d.m)
    let f3 ← fc k
    let f4 ← fc (d.t - k)
    let h := (lit d.m + lit (1 / 2)) * log (lit (d.m + 1 : Int) / (d.btrd.r * lit nm)) + f1 + f2
    some (le v (h + lit (d.t + 1 : Int) * log (lit nm / lit nk)
      + (lit k + lit (1 / 2)) * log (lit nk * d.btrd.r / lit (k + 1 : Int)) - f3 - f4))

/-- lines 238 and 658: the value of the immediate acceptance -/
def direct (d : BDist R) (u : R) : R :=
  floor ((lit 2 * d.btrd.a / (lit (1 / 2) - abs u) + d.btrd.b) * u + d.btrd.c)

/-- lines 248-296 and 609-637: what follows once `u` and `v` are known; `nr` is the test near the mode.
`some none` = the next round. -/
def tail (nr : R → Int → Option Bool) (T : IntTy) (d : BDist R) (u v : R) : Option (Option Int) := do
  let us : R := lit (1 / 2) - abs u
  let k ← toInt T (floor ((lit 2 * d.btrd.a / us + d.btrd.b) * u + d.btrd.c))
  if k < 0 ∨ d.t < k then some none
  else
    let v' := v * d.btrd.alpha / (d.btrd.a / (us * us) + d.btrd.b)
    let km := (k - d.m).natAbs
    let acc ← if km ≤ 15 then nr v' k else far d (log v') k (lit (km : Int))
    if acc then some (some k) else some none

/-- lines 244-245 and 650 -/
def foldU (d : BDist R) (v : R) : R :=
  let u := v / d.btrd.v_r - lit (93 / 100)
  (if lt u (lit 0) then -lit (1 / 2) else lit (1 / 2)) - u

/-- lines 233-297 and 638-675: one round -/
def round (nr : R → Int → Option Bool) (T : IntTy) (U : E → R × E) (d : BDist R) (e : E) : Option (Option Int × E) :=
  let r := U e
  if le r.1 d.btrd.u_rv_r then do
    let i ← toInt T (direct d (r.1 / d.btrd.v_r - lit (43 / 100)))
    some (some i, r.2)
  else if le d.btrd.v_r r.1 then do
    let w := U r.2
    let x ← tail nr T d (w.1 - lit (1 / 2)) r.1
    some (x, w.2)
  else do
    let w := U r.2
    let x ← tail nr T d (foldU d r.1) (w.1 * d.btrd.v_r)
    some (x, w.2)

/-- lines 332-345 and 682-695, 751, 753: `t - result` -/
def flip (t : Int) (r : Option (Int × E)) : Option (Int × E) := do
  let x ← r
  return (t - x.1, x.2)

/-- lines 748-756: `operator()(Engine&)` -/
def call (T : IntTy) (U : E → R × E) (d : BDist R) (e : E) : Option (Int × E) :=
  if d.m < 11 then
    if lt (lit (1 / 2)) d.p then flip d.t (invert T U d (lit 1 - d.p) e) else invert T U d d.p e
  else if lt (lit (1 / 2)) d.p then flip d.t (rounds (round (near T d) T U d) e)
  else rounds (round (near T d) T U d) e

/-- lines 757-765: `operator()(Engine const&)` -/
def callConst (T : IntTy) (U : E → R × E) (d : BDist R) (e : E) : Option (Int × E) :=
  if d.m < 11 then
    if lt (lit (1 / 2)) d.p then flip d.t (invert T U d (lit 1 - d.p) e) else invert T U d d.p e
  else if lt (lit (1 / 2)) d.p then flip d.t (rounds (round (nearConst T d) T U d) e)
  else rounds (round (nearConst T d) T U d) e

end Sprout.RandDist.Binomial
