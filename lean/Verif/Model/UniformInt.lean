import Verif.Model.ConstMod

/-!
# Model of `uniform_int_distribution` and `uniform_smallint` for engines with integral results

The engine is its result type, its bounds, and the list of the numbers it is going to produce. `none` is undefined behaviour or a list
that is too short (or a loop that does not end). Not modelled: engines with floating-point results, streams.
-/

namespace Sprout.UInt

/-- `subtract<T>::operator()` (signed_unsigned_tools.hpp 20-40); the result type is `make_unsigned<T>` -/
def subtract (T : CInt) (x y : Int) : Option Int :=
  if T.sg then
    if 0 ≤ y then T.uns.ar (T.uns.conv x - T.uns.conv y)
    else if 0 ≤ x then do
      let s ← T.arith (y + 1)
      let n ← T.arith (-s)
      let t ← T.uns.arith (T.uns.conv x + T.uns.conv n)
      T.uns.ar (t + 1)
    else do
      let d ← T.arith (x - y)
      some (T.uns.conv d)
  else T.ar (x - y)

/-- `add<T1, T2>::operator()` (signed_unsigned_tools.hpp 42-66); `T1` is unsigned, the result type is `T2` -/
def add (T1 T2 : CInt) (x y : Int) : Option Int :=
  if T2.sg then
    if 0 ≤ y then T2.ar (T2.conv x + y)
    else do
      let s ← T2.arith (y + 1)
      let n ← T2.arith (-s)
      let c := T1.conv n
      if c ≤ x then do
        let a ← T1.arith (x - c)
        let b ← T1.arith (a - 1)
        some (T2.conv b)
      else T2.ar (T2.conv x + y)
  else T2.ar (T2.conv x + y)

/-- an engine: `result_type`, `min()`, `max()` -/
structure Engine where
  T : CInt
  min : Int
  max : Int

/-- the common type of two unsigned types, before promotion -/
def wider (U V : CInt) : CInt := if U.w < V.w then V else U

/-- the loop `while (mult <= limit)` (uniform_int_distribution.hpp 69-75; without C++14 constexpr 360-390 and 325-346); on the left the early
`return` in line 72 -/
def lowDigits (E : Engine) (U : CInt) (range brange limit : Int) (result mult : Int) (l : List Int) :
    Option ((Int × List Int) ⊕ (Int × Int × List Int)) :=
  if mult ≤ limit then
    match l with
    | [] => none
    | v :: l => do
      let d ← subtract E.T v E.min
      let p ← (wider E.T.uns U).arith (d * mult)
      let result ← U.ar (result + U.conv p)
      let a ← U.arith (mult * U.conv brange)
      let s ← U.arith (range - mult)
      let s ← U.arith (s + 1)
      if a = s then some (.inl (result, l))
      else do
        let b ← U.arith (U.conv brange + 1)
        let mult ← U.ar (mult * b)
        lowDigits E U range brange limit result mult l
  else some (.inr (result, mult, l))

/-- `limit` (uniform_int_distribution.hpp 59-66) -/
def limitOf (U : CInt) (range brange : Int) : Option Int := do
  let b ← U.arith (U.conv brange + 1)
  if range = U.max then do
    let q ← U.div range b
    let r ← U.rem range b
    if r = U.conv brange then U.ar (U.conv q + 1) else some (U.conv q)
  else do
    let s ← U.arith (range + 1)
    let q ← U.div s b
    some (U.conv q)

/-- `bucket_size` (uniform_int_distribution.hpp 95-103) -/
def bucketOf (B : CInt) (range brange : Int) : Option Int := do
  let b ← B.arith (B.conv range + 1)
  if brange = B.max then do
    let q ← B.div brange b
    let r ← B.rem brange b
    if r = B.conv range then B.ar (B.conv q + 1) else some (B.conv q)
  else do
    let s ← B.arith (brange + 1)
    let q ← B.div s b
    some (B.conv q)

/-- the loop of the third branch (uniform_int_distribution.hpp 104-109) -/
def buckets (E : Engine) (T : CInt) (mn range bucket : Int) : List Int → Option (Int × List Int)
  | [] => none
  | v :: l => do
    let d ← subtract E.T v E.min
    let q ← E.T.uns.div d bucket
    let result := E.T.uns.conv q
    if result ≤ E.T.uns.conv range then do
      let r ← add E.T.uns T result mn
      some (r, l)
    else buckets E T mn range bucket l

/-- one number of the engine, minus the minimum, plus `min_value` (uniform_int_distribution.hpp 52-55, with one draw 421-434) -/
def direct (E : Engine) (T : CInt) (mn : Int) : List Int → Option (Int × List Int)
  | [] => none
  | v :: l => do
    let d ← subtract E.T v E.min
    let r ← add E.T.uns T d mn
    some (r, l)

mutual

/-- `generate_uniform_int_cxx14(eng, min_value, max_value, true_type)` (uniform_int_distribution.hpp 35-112) with `twice = true`; without C++14
constexpr (`generate_uniform_int` 530-737, or 135-489) `eng` is called once in the branch `brange == range`: `twice = false` -/
def gen (twice : Bool) (E : Engine) (T : CInt) (mn mx : Int) (l : List Int) : Option (Int × List Int) := do
  let range ← subtract T mx mn
  let brange ← subtract E.T E.max E.min
  if range = 0 then some (mn, l)
  else if brange = range then
    if twice then
      match l with
      | [] => none
      | v :: l => do
        let _ ← subtract E.T v E.min
        direct E T mn l
    else direct E T mn l
  else if brange < range then gen2 twice E T mn range brange l
  else do
    let bucket ← bucketOf E.T.uns range brange
    buckets E T mn range bucket l
partial_fixpoint

/-- the loop of the second branch (uniform_int_distribution.hpp 57-93) -/
def gen2 (twice : Bool) (E : Engine) (T : CInt) (mn range brange : Int) (l : List Int) : Option (Int × List Int) := do
  let U := T.uns
  let limit ← limitOf U range brange
  match ← lowDigits E U range brange limit 0 1 l with
  | .inl (result, l) => some (T.conv result, l)
  | .inr (result, mult, l) => do
    let q ← U.div range mult
    let (inc, l) ← gen twice E U 0 (U.conv q) l
    let m ← U.div U.max mult
    if m < inc then gen2 twice E T mn range brange l
    else do
      let inc ← U.ar (inc * mult)
      let result ← U.ar (result + inc)
      if result < inc then gen2 twice E T mn range brange l
      else if range < result then gen2 twice E T mn range brange l
      else do
        let r ← add U T result mn
        some (r, l)
partial_fixpoint

end

/-- `uniform_smallint::generate(eng, true_type)` (uniform_smallint.hpp 95-111; without C++14 constexpr, with `base_unsigned` for `base_result` in
the last line, 124-183): `cxx14` tells which -/
def smallint (cxx14 : Bool) (E : Engine) (T : CInt) (mn mx : Int) : List Int → Option (Int × List Int)
  | [] => none
  | v :: l => do
    let range ← subtract T mx mn
    let base ← subtract T (T.conv E.max) (T.conv E.min)
    let baseRange := E.T.uns.conv base
    let val ← subtract E.T v E.min
    if baseRange ≤ range then do
      let r ← add T.uns T (T.uns.conv val) mn
      some (r, l)
    else if cxx14 then do
      let m ← E.T.arith (E.T.conv range + 1)
      let q ← E.T.uns.rem val (if E.T.w < 32 then m else E.T.uns.conv m)
      let r ← add T.uns T (T.uns.conv q) mn
      some (r, l)
    else do
      let m ← E.T.uns.arith (E.T.uns.conv range + 1)
      let q ← E.T.uns.rem val m
      let r ← add T.uns T (T.uns.conv q) mn
      some (r, l)

end Sprout.UInt
