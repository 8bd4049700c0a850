import Verif.Basic

/-!
# mersenne_twister_engine

`sprout/random/mersenne_twister.hpp`. `UIntType` is an unsigned type of `W` bits, at least as wide as `int` (`W >= 32`: no
integral promotion); shifting by `W` or more is undefined behaviour. Two configurations: with C++14 constexpr `operator()`
(455-466) calls `do_twist` (375-402) and `==` (482-487) calls `do_equal_impl` (423-438); without it the const `operator()`
(474-479) calls `twist` and `generate` (273-374) and `==` (492-497) calls `equal_impl` (251-272).

Simplifications: `std::size_t` is unbounded (indices are at most `2n`); in `init_seed_1` the index is added in `W` bits (the sum is
masked with `2^w - 1`, `w <= W`); a `for` loop over `j = a .. b-1` is a fold over the list of the indices; a parameter pack is the
list of its elements, the recursion on its size a recursion on the number of elements still missing; streams are the list of the
numbers written to or read from them. `low_bits_mask_t<w>::sig_bits` (detail/integer/integer_mask.hpp 30-52) is `2^w - 1`.
-/

namespace Sprout
namespace Mt

/-- the template parameters (mersenne_twister.hpp 26-30); `W` is the width of `UIntType` -/
structure Par (W : Nat) where
  w : Nat
  n : Nat
  m : Nat
  r : Nat
  a : BitVec W
  u : Nat
  d : BitVec W
  s : Nat
  b : BitVec W
  t : Nat
  c : BitVec W
  l : Nat
  f : BitVec W

/-- the members `x_`, `i_` (mersenne_twister.hpp 86-88) -/
structure Eng (W : Nat) where
  x : List (BitVec W)
  i : Nat
  deriving DecidableEq, Repr

variable {W : Nat}

/-- `x << k` -/
def shl (x : BitVec W) (k : Nat) : Option (BitVec W) := if k < W then some (x <<< k) else none

/-- `x >> k` -/
def shr (x : BitVec W) (k : Nat) : Option (BitVec W) := if k < W then some (x >>> k) else none

/-- `static_max()` (mersenne_twister.hpp 61-63) -/
def maxv (P : Par W) : BitVec W := BitVec.ofNat W (2 ^ P.w - 1)

/-- `upper_mask` (mersenne_twister.hpp 52, 376, 404) -/
def upper (P : Par W) : Option (BitVec W) := shl (~~~0#W) P.r

/-- `init_seed_1` (mersenne_twister.hpp 65-82); the first argument is `n - (sizeof...(Args) + 1)` -/
def initSeed1 (P : Par W) : Nat → BitVec W → List (BitVec W) → Option (List (BitVec W))
  | 0, value, args => some (args ++ [value])
  | k + 1, value, args =>
    if P.w < 2 then none else do
      let h ← shr value (P.w - 2)
      initSeed1 P k ((P.f * (value ^^^ h) + BitVec.ofNat W (args.length + 1)) &&& maxv P) (args ++ [value])

/-- `init_seed` (mersenne_twister.hpp 83-85); no overload of `init_seed_1` for `n = 0` -/
def initSeed (P : Par W) (value : BitVec W) : Option (List (BitVec W)) :=
  if P.n = 0 then none else initSeed1 P (P.n - 1) (value &&& maxv P) []

/-- the constructor from a value (mersenne_twister.hpp 445-448) -/
def seed (P : Par W) (value : BitVec W) : Option (Eng W) := do
  let x ← initSeed P value
  some ⟨x, P.n⟩

/-- the default constructor (mersenne_twister.hpp 50, 440-443) -/
def default (P : Par W) : Option (Eng W) := seed P 5489

/-- `for (std::size_t j = a; j < b; ++j)` -/
def forLoop {σ : Type} (a b : Nat) (body : σ → Nat → Option σ) (s : σ) : Option σ :=
  (List.range' a (b - a)).foldlM body s

/-- one assignment of `do_twist`: `x_[j] = x_[jm] ^ (y >> 1) ^ ((x_[j1] & 1) * a)` (mersenne_twister.hpp 382-383 and the like) -/
def twistAt (P : Par W) (x : List (BitVec W)) (j j1 jm : Nat) : Option (List (BitVec W)) := do
  let um ← upper P
  let xj ← rd x j
  let xj1 ← rd x j1
  let y := (xj &&& um) ||| (xj1 &&& ~~~um)
  let xm ← rd x jm
  let h ← shr y 1
  wr x j (xm ^^^ h ^^^ ((xj1 &&& 1#W) * P.a))

/-- `do_twist` (mersenne_twister.hpp 375-402) -/
def doTwist (P : Par W) (e : Eng W) : Option (Eng W) := do
  let ex1 := (P.n - P.m) % 6
  let ex2 := (P.m - 1) % 6
  let x ← forLoop 0 (P.n - P.m - ex1) (fun x j => twistAt P x j (j + 1) (j + P.m)) e.x
  let x ← forLoop (P.n - P.m - ex1) (P.n - P.m) (fun x j => twistAt P x j (j + 1) (j + P.m)) x
  let x ← forLoop (P.n - P.m) (P.n - 1 - ex2) (fun x j => twistAt P x j (j + 1) (j - (P.n - P.m))) x
  let x ← forLoop (P.n - 1 - ex2) (P.n - 1) (fun x j => twistAt P x j (j + 1) (j - (P.n - P.m))) x
  let x ← twistAt P x (P.n - 1) 0 (P.m - 1)
  some ⟨x, 0⟩

/-- the tempering in `operator()` (mersenne_twister.hpp 461-465) -/
def temper (P : Par W) (z : BitVec W) : Option (BitVec W) := do
  let h ← shr z P.u
  let z := z ^^^ (h &&& P.d)
  let h ← shl z P.s
  let z := z ^^^ (h &&& P.b)
  let h ← shl z P.t
  let z := z ^^^ (h &&& P.c)
  let h ← shr z P.l
  some (z ^^^ h)

/-- `operator()` (mersenne_twister.hpp 455-466) -/
def next (P : Par W) (e : Eng W) : Option (BitVec W × Eng W) := do
  let e ← (if e.i = P.n then doTwist P e else some e)
  let z ← rd e.x e.i
  let z ← temper P z
  some (z, ⟨e.x, e.i + 1⟩)

/-- `k` calls of `operator()`: the values and the engine afterwards -/
def draw (P : Par W) : Nat → Eng W → Option (List (BitVec W) × Eng W)
  | 0, e => some ([], e)
  | k + 1, e => do
    let (v, e) ← next P e
    let (vs, e) ← draw P k e
    some (v :: vs, e)

/-! ### Equality -/

/-- `rewind_find`, `rewind_find_1` (mersenne_twister.hpp 94-104): `last` is a position in `back` -/
def rewindFind (P : Par W) (x back : List (BitVec W)) (last size i : Nat) : Option (BitVec W) :=
  let index := (i + P.n - size + P.n - 1) % P.n
  if index < P.n - size then rd x index
  else if last < P.n - 1 - index then none else rd back (last - (P.n - 1 - index))

/-- undoing the multiplication by the matrix (mersenne_twister.hpp 406-411, 413-418; also 199-201, 240-242) -/
def untwist (P : Par W) (y : BitVec W) : Option (BitVec W) := do
  let top ← (if P.w < 1 then none else shl 1#W (P.w - 1))
  if y &&& top ≠ 0#W then do
    let h ← shl (y ^^^ P.a) 1
    some (h ||| 1#W)
  else shl y 1

/-- `do_rewind` (mersenne_twister.hpp 403-422) -/
def doRewind (P : Par W) (x back : List (BitVec W)) (last z : Nat) : Option (List (BitVec W)) := do
  let um ← upper P
  let x1 ← rd x (P.m - 1)
  let x2 ← rd x (P.n - 1)
  let y0 ← untwist P (x1 ^^^ x2)
  let (back, _) ← forLoop 0 z (fun (back, y0) sz => do
    let v1 ← rewindFind P x back last sz (P.m - 1)
    let v2 ← rewindFind P x back last sz (P.n - 1)
    let y1 ← untwist P (v1 ^^^ v2)
    let back ← (if last < sz then none else wr back (last - sz) ((y0 &&& um) ||| (y1 &&& ~~~um)))
    some (back, y1)) (back, y0)
  some back

/-- `for (...; ++j) { if (p) return false; }`: the conjunction of the tests, in order -/
def allLoop (a b : Nat) (p : Nat → Option Bool) : Option Bool :=
  forLoop a b (fun ok j => if ok then p j else some false) true

/-- `do_equal_impl` (mersenne_twister.hpp 423-438), called with `e.i <= o.i` -/
def doEqualImpl (P : Par W) (e o : Eng W) : Option Bool := do
  let off := o.i - e.i
  let same ← allLoop 0 (P.n - off) (fun j => do
    let v1 ← rd e.x j
    let v2 ← rd o.x (j + off)
    some (v1 == v2))
  if same then do
    let back ← doRewind P e.x (List.replicate P.n 0#W) (P.n - 1) off
    allLoop 0 off (fun j => do
      let v1 ← rd back (j + P.n - off)
      let v2 ← rd o.x j
      some (v1 == v2))
  else some false

/-- `operator==` (mersenne_twister.hpp 482-487) -/
def eqOp (P : Par W) (l r : Eng W) : Option Bool := if l.i < r.i then doEqualImpl P l r else doEqualImpl P r l

/-! ### The configuration without C++14 constexpr -/

namespace Cxx11

/-- `generate_impl_1` .. `generate_impl_4` (mersenne_twister.hpp 273-284) -/
def temper (P : Par W) (z : BitVec W) : Option (BitVec W) := do
  let h ← shr z P.u
  let z1 := h &&& P.d
  let h ← shl z1 P.s
  let z2 := h &&& P.b
  let h ← shl z2 P.t
  let z3 := h &&& P.c
  let h ← shr z3 P.l
  some (z ^^^ (z1 ^^^ (z2 ^^^ (z3 ^^^ h))))

/-- the new word in `twist_1` .. `twist_5` (mersenne_twister.hpp 302, 321, 337, 353, 369): `>>` binds more tightly than `|` -/
def word (P : Par W) (x : List (BitVec W)) (j j1 jm : Nat) : Option (BitVec W) := do
  let um ← upper P
  let xj ← rd x j
  let xj1 ← rd x j1
  let xm ← rd x jm
  let h ← shr (xj1 &&& ~~~um) 1
  some (xm ^^^ ((xj &&& um) ||| h) ^^^ ((xj1 &&& 1#W) * P.a))

/-- `twist` (mersenne_twister.hpp 298-374): all words are made from the old ones -/
def twist (P : Par W) (e : Eng W) : Option (Eng W) := do
  let ex1 := (P.n - P.m) % 6
  let ex2 := (P.m - 1) % 6
  let low := fun (args : List (BitVec W)) j => do
    let v ← word P e.x j (j + 1) (j + P.m)
    some (args ++ [v])
  let high := fun (args : List (BitVec W)) j => do
    let v ← word P e.x j (j + 1) (j - (P.n - P.m))
    some (args ++ [v])
  let args ← forLoop 0 (P.n - P.m - ex1) low []
  let args ← forLoop (P.n - P.m - ex1) (P.n - P.m) low args
  let args ← forLoop (P.n - P.m) (P.n - 1 - ex2) high args
  let args ← forLoop (P.n - 1 - ex2) (P.n - 1) high args
  let v ← word P e.x (P.n - 1) 0 (P.m - 1)
  some ⟨args ++ [v], 0⟩

/-- the const `operator()` (mersenne_twister.hpp 285-297, 474-479) -/
def next (P : Par W) (e : Eng W) : Option (BitVec W × Eng W) := do
  let e ← (if e.i = P.n then twist P e else some e)
  let z ← rd e.x e.i
  let z ← temper P z
  some (z, ⟨e.x, e.i + 1⟩)

/-- `rewind_2`, `rewind_3`, `rewind_4` (mersenne_twister.hpp 148-233) for `i < z`: the index `i` is not advanced, so the recursion ends
when the pack has `n` elements; the first argument is the number of elements still missing -/
def rewind2 (P : Par W) (x data : List (BitVec W)) (last i : Nat) : Nat → BitVec W → List (BitVec W) → Option (List (BitVec W))
  | 0, _, args => some args
  | k + 1, y0, args => do
    let v1 ← rewindFind P x data last i (P.m - 1)
    let v2 ← rewindFind P x data last i (P.n - 1)
    let y1 ← untwist P (v1 ^^^ v2)
    let um ← upper P
    rewind2 P x data last i k y1 (((y0 &&& um) ||| (y1 &&& ~~~um)) :: args)

/-- `rewind`, `rewind_1` (mersenne_twister.hpp 234-250) for `z > 0` -/
def rewind (P : Par W) (x data : List (BitVec W)) (last : Nat) : Option (List (BitVec W)) := do
  let x1 ← rd x (P.m - 1)
  let x2 ← rd x (P.n - 1)
  let y0 ← untwist P (x1 ^^^ x2)
  rewind2 P x data last 0 P.n y0 []

end Cxx11

/-! ### Streams -/

/-- `operator<<` (mersenne_twister.hpp 514-532): the numbers written. The array `data` is uninitialised before the first loop; what the
loop does not write is `junk`. -/
def write (P : Par W) (e : Eng W) (junk : List (BitVec W)) : Option (List (BitVec W)) := do
  let data ← forLoop 0 e.i (fun data i => do
    let v ← rd e.x i
    wr data (i + P.n - e.i) v) junk
  let data ← (if e.i ≠ P.n then Cxx11.rewind P e.x data (P.n - e.i - 1) else some data)
  let d0 ← rd data 0
  forLoop 0 e.i (fun out i => do
    let v ← rd data i
    some (out ++ [v])) [d0]

/-- `operator>>` (mersenne_twister.hpp 502-513): the engine read, if there are enough numbers -/
def read (P : Par W) (inp : List (BitVec W)) : Option (Eng W) :=
  if P.n ≤ inp.length then some ⟨inp.take P.n, P.n⟩ else none

/-! ### The predefined engines -/

/-- `mt11213b` (mersenne_twister.hpp 650-665); `W` is the width of `std::uint_fast32_t`, 32 or 64 -/
def mt11213b (W : Nat) : Par W :=
  ⟨32, 351, 175, 19, BitVec.ofNat W 0xccab8ee7, 11, BitVec.ofNat W 0xffffffff, 7, BitVec.ofNat W 0x31b6ab00, 15,
   BitVec.ofNat W 0xffe50000, 17, BitVec.ofNat W 1812433253⟩

/-- `mt19937` (mersenne_twister.hpp 669-684) -/
def mt19937 (W : Nat) : Par W :=
  ⟨32, 624, 397, 31, BitVec.ofNat W 0x9908b0df, 11, BitVec.ofNat W 0xffffffff, 7, BitVec.ofNat W 0x9d2c5680, 15,
   BitVec.ofNat W 0xefc60000, 18, BitVec.ofNat W 1812433253⟩

/-- `mt19937_64` (mersenne_twister.hpp 688-703) -/
def mt19937_64 : Par 64 :=
  ⟨64, 312, 156, 31, 0xb5026f5aa96619e9#64, 29, 0x5555555555555555#64, 17, 0x71d67fffeda60000#64, 37, 0xfff7eee000000000#64, 43,
   6364136223846793005#64⟩

end Mt
end Sprout
