import Verif.Model.CInt

/-!
# sprout/random/detail/const_mod.hpp and linear_congruential.hpp

Integer values as in `Verif.Model.CInt`; `none` is undefined behaviour or a failed assertion. `m != 0` is required by the
`static_assert` in line 30 (so the branches for `m == 0` are dead). Streams and seed sequences are not modelled.
-/

namespace Sprout.CInt

/-- an arithmetic result that is stored in a `T` -/
def ar (T : CInt) (x : Int) : Option Int := (T.arith x).map T.conv

/-- `std::make_unsigned<T>::type` -/
def uns (T : CInt) : CInt := ⟨T.w, false⟩

instance (T : CInt) : Decidable T.Std := by unfold Std; infer_instance

end Sprout.CInt

namespace Sprout.CMod

/-- `((unsigned_m() - 1) & unsigned_m()) == 0` (const_mod.hpp 60-62, 174) -/
def pow2 (m : Int) : Bool := (m.toNat - 1) &&& m.toNat == 0

/-- `e & (unsigned_m() - 1)` for the value `e` of an unsigned expression, converted to `T` (const_mod.hpp 175, 180, 187, 196) -/
def andMask (T : CInt) (m e : Int) : Int := T.conv ((e.toNat &&& (m.toNat - 1) : Nat) : Int)

/-- `const_mod::apply` (const_mod.hpp 173-178) -/
def apply (T : CInt) (m x : Int) : Option Int :=
  if pow2 m then some (andMask T m (T.uns.conv x)) else (T.rem x m).map T.conv

/-- `const_mod::add` (const_mod.hpp 179-185) -/
def add (T : CInt) (m x c : Int) : Option Int :=
  if pow2 m then do
    let s ← T.uns.arith (T.uns.conv x + T.uns.conv c)
    some (andMask T m s)
  else if c = 0 then some x
  else do
    let d ← T.arith (m - c)
    if x < d then T.ar (x + c) else T.ar (x - d)

/-- `const_mod::sub` (const_mod.hpp 57-59) -/
def sub (T : CInt) (m a b : Int) : Option Int :=
  if a < b then do
    let d ← T.arith (b - a)
    T.ar (m - d)
  else T.ar (a - b)

/-- `const_mod::mult_small` (const_mod.hpp 39-41) -/
def multSmall (T : CInt) (m a x : Int) : Option Int := do
  let p ← T.arith (a * x)
  (T.rem p m).map T.conv

/-- `const_mod::mult_schrage` and `mult_schrage_1` (const_mod.hpp 42-49) -/
def multSchrage (T : CInt) (m a value : Int) : Option Int := do
  let q ← (T.div m a).map T.conv
  let r ← (T.rem m a).map T.conv
  if r < q then do
    let v1 ← T.rem value q
    let p1 ← T.ar (a * v1)
    let v2 ← T.div value q
    let p2 ← T.ar (r * v2)
    sub T m p1 p2
  else none

/-- `const_mod::mult_general` (const_mod.hpp 50-56); `std::uintmax_t` has 64 bits. Where it is "not implemented" the assertion
fails (with assertions disabled the value is 0). -/
def multGeneral (T : CInt) (m a b : Int) : Option Int :=
  if m ≤ (2 ^ 64 - 1) / m then some (T.conv ((a % 2 ^ 64) * (b % 2 ^ 64) % 2 ^ 64 % m)) else none

/-- `const_mod::mult` (const_mod.hpp 186-194) -/
def mult (T : CInt) (m a x : Int) : Option Int :=
  if pow2 m then do
    let p ← T.uns.arith (T.uns.conv a * T.uns.conv x)
    some (andMask T m p)
  else if a = 0 then some 0
  else if a = 1 then some x
  else do
    let q ← T.div T.max a
    if m ≤ q then multSmall T m a x
    else do
      let r ← T.rem m a
      let q ← T.div m a
      if T.sg ∧ r < q then multSchrage T m a x else multGeneral T m a x

/-- `const_mod::mult_add` (const_mod.hpp 195-201) -/
def multAdd (T : CInt) (m a x c : Int) : Option Int :=
  if pow2 m then do
    let p ← T.uns.arith (T.uns.conv a * T.uns.conv x)
    let s ← T.uns.arith (p + T.uns.conv c)
    some (andMask T m s)
  else if a = 0 then some c
  else do
    let d ← T.arith (T.max - c)
    let q ← T.div d a
    if m ≤ q then do
      let p ← T.arith (a * x)
      let s ← T.arith (p + c)
      (T.rem s m).map T.conv
    else do
      let p ← mult T m a x
      add T m p c

/-- `const_mod::pow_1` (const_mod.hpp 33-38) -/
def pow1 (T : CInt) (m a : Int) (e : Nat) (result : Int) : Option Int :=
  if e ≠ 0 then do
    let a2 ← mult T m a a
    let r ← (if e % 2 = 1 then mult T m result a else some result)
    pow1 T m a2 (e / 2) r
  else some result
partial_fixpoint

/-- `const_mod::pow` (const_mod.hpp 202-204) -/
def pow (T : CInt) (m a : Int) (e : Nat) : Option Int := pow1 T m a e 1

/-- `invert_euclidian_1`, `_2`, `_3` (const_mod.hpp 138-146), one round -/
def invertLoop (T : CInt) (m l1 l2 n p : Int) : Option Int := do
  let q ← T.div p n
  let t ← T.arith (q * l2)
  let l1 ← T.ar (l1 + t)
  let t ← T.arith (q * n)
  let p ← T.ar (p - t)
  if p = 0 then some l2
  else do
    let q ← T.div n p
    let t ← T.arith (q * l1)
    let l2 ← T.ar (l2 + t)
    let t ← T.arith (q * p)
    let n ← T.ar (n - t)
    if n = 0 then T.ar (m - l1)
    else invertLoop T m l1 l2 n p
partial_fixpoint

/-- `const_mod::invert` and `invert_euclidian` (const_mod.hpp 147-151, 205-210) -/
def invert (T : CInt) (m x : Int) : Option Int :=
  if x = 0 then some 0
  else if 0 < x then (if x = 1 then some 1 else invertLoop T m 0 1 x m)
  else none

end Sprout.CMod

namespace Sprout.Lcg
open CMod

/-- `static_min`, `static_max` (linear_congruential.hpp 47-52), `m != 0` -/
def staticMin (c : Int) : Int := if c = 0 then 1 else 0
def staticMax (m : Int) : Int := m - 1

/-- `init_seed` (linear_congruential.hpp 54-65) -/
def initSeed (T : CInt) (c m x0 : Int) : Option Int := do
  let x ← (T.rem x0 m).map T.conv
  let x ← (if x ≤ 0 ∧ x ≠ 0 then T.ar (x + m) else some x)
  let x := if c = 0 ∧ x = 0 then 1 else x
  if staticMin c ≤ x ∧ x ≤ staticMax m then some x else none

/-- both `operator()` (linear_congruential.hpp 84-89, 204-210): the result, which is also the new state -/
def next (T : CInt) (a c m x : Int) : Option Int := multAdd T m a x c

/-- the loop of `discard` (linear_congruential.hpp 90-124, 223-240): `(a_zm1_over_gcd, a_km1_over_gcd)` -/
def discardLoop (T : CInt) (m g : Int) (e : Nat) (az ak : Int) : Option Int :=
  if e ≠ 0 then do
    let az' ← (if e % 2 = 1 then do
        let p ← mult T m az ak
        let s ← add T m az ak
        multAdd T m g p s
      else some az)
    let p ← mult T m ak ak
    let s ← add T m ak ak
    let ak' ← multAdd T m g p s
    discardLoop T m g (e / 2) az' ak'
  else some az
partial_fixpoint

/-- both `discard` (linear_congruential.hpp 125-162, 211-247): the new state -/
def discard (T : CInt) (a c m x : Int) (z : Nat) : Option Int := do
  let b ← T.ar (a - 1)
  let bInv ← invert T m b
  let g ← mult T m b bInv
  if g = 1 then do
    let az ← pow T m a z
    let d ← T.ar (az - 1)
    let k ← mult T m c bInv
    let k ← mult T m k d
    multAdd T m az x k
  else do
    let f ← (T.div b g).map T.conv
    let az ← discardLoop T m g z 0 f
    let u ← multAdd T m g az 1
    let f ← (T.div b g).map T.conv
    let i ← invert T m f
    let k ← mult T m c az
    let k ← mult T m i k
    multAdd T m u x k

end Sprout.Lcg

namespace Sprout.Rand48

/-- `lcf_type` (linear_congruential.hpp 303-308) -/
def a : Int := 0x5DEECE66D
def c : Int := 0xB
def m : Int := 2 ^ 48

/-- `cnv` and the constructors (linear_congruential.hpp 316-318, 333-338): the initial state -/
def seed (x0 : Int) : Option Int :=
  Lcg.initSeed .uint64 c m (((x0.toNat <<< 16) ||| 0x330e : Nat) : Int)

/-- both `operator()` (linear_congruential.hpp 326-331, 345-350): result and new state -/
def next (x : Int) : Option (Int × Int) := do
  let y ← Lcg.next .uint64 a c m x
  some ((((CInt.uint32.conv y).toNat >>> 17 : Nat) : Int), y)

def staticMax : Int := 0x7FFFFFFF

end Sprout.Rand48
