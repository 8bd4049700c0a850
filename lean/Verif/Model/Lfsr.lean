import Verif.Model.Mt

/-!
# Model of `linear_feedback_shift_engine`, `xor_combine_engine` and `taus88`

`UIntType` is an unsigned type of `W` bits. `none` is undefined behaviour. For types narrower than `int` the expressions are evaluated in `int`
and truncated; with the admitted shifts nothing overflows and the result is the same. Not modelled: streams, seed sequences.
-/

namespace Sprout.Lfsr
open Mt (shl shr)

/-- the template parameters -/
structure Par where
  w : Nat
  k : Nat
  q : Nat
  s : Nat

/-- the `static_assert`s (linear_feedback_shift.hpp 38-42) and that a word fits into the type -/
structure Par.Ok (P : Par) (W : Nat) : Prop where
  wW : P.w ≤ W
  q0 : 0 < P.q
  kw : P.k < P.w
  qk : 2 * P.q < P.k
  s0 : 0 < P.s
  sk : P.s ≤ P.k - P.q

/-- `wordmask()` (linear_feedback_shift.hpp 51-53) -/
def wordmask (W : Nat) (P : Par) : BitVec W := BitVec.ofNat W (2 ^ P.w - 1)

/-- `init_seed` and `init_seed_1` (linear_feedback_shift.hpp 54-59); `1 << (w - k)` is an `int` -/
def initSeed {W : Nat} (P : Par) (x0 : BitVec W) : Option (BitVec W) :=
  let x := x0 &&& wordmask W P
  if P.w - P.k < 31 then
    let one : BitVec W := BitVec.ofNat W (2 ^ (P.w - P.k))
    some (if x < one then x + one else x)
  else none

/-- both `operator()` (linear_feedback_shift.hpp 125-131): the result, which is also the new state -/
def next {W : Nat} (P : Par) (x : BitVec W) : Option (BitVec W) := do
  let m ← shl (wordmask W P) (P.w - P.k)
  let a ← shl (x &&& (m &&& wordmask W P)) P.s
  let l ← shl x P.q
  let b ← shr ((l ^^^ x) &&& wordmask W P) (P.k - P.s)
  some (a ^^^ b)

/-- `max()` (linear_feedback_shift.hpp 47-49, 122-124) -/
def staticMax (W : Nat) (P : Par) : BitVec W := wordmask W P

end Sprout.Lfsr

namespace Sprout.XorCombine
open Mt (shl shr)

/-- an engine: `operator()`, `min()`, `max()` -/
structure Gen (W : Nat) (σ : Type) where
  next : σ → Option (BitVec W × σ)
  min : BitVec W
  max : BitVec W

/-- `operator()`, `min()`, `max()` (xor_combine.hpp 47-55, 109-120); both engines have the same result type -/
def gen {W : Nat} {σ τ : Type} (g : Gen W σ) (s1 : Nat) (h : Gen W τ) (s2 : Nat) : Gen W (σ × τ) where
  next := fun (s, t) => do
    let (v1, s) ← g.next s
    let (v2, t) ← h.next t
    let a ← shl v1 s1
    let b ← shl v2 s2
    some (a ^^^ b, s, t)
  min := if h.min < g.min then h.min else g.min
  max := if g.max < h.max then h.max else g.max

/-- `linear_feedback_shift_engine` as an engine (linear_feedback_shift.hpp 119-131) -/
def lfsr (W : Nat) (P : Lfsr.Par) : Gen W (BitVec W) where
  next := fun x => (Lfsr.next P x).map fun y => (y, y)
  min := 0#W
  max := Lfsr.staticMax W P

/-- `taus88` (taus88.hpp 21-31) -/
def P1 : Lfsr.Par := ⟨32, 31, 13, 12⟩
def P2 : Lfsr.Par := ⟨32, 29, 2, 4⟩
def P3 : Lfsr.Par := ⟨32, 28, 3, 17⟩
def taus88 : Gen 32 ((BitVec 32 × BitVec 32) × BitVec 32) := gen (gen (lfsr 32 P1) 0 (lfsr 32 P2) 0) 0 (lfsr 32 P3) 0

/-- the constructor from a value (xor_combine.hpp 61-63) -/
def taus88Seed (x : BitVec 32) : Option ((BitVec 32 × BitVec 32) × BitVec 32) := do
  let s1 ← Lfsr.initSeed P1 x
  let s2 ← Lfsr.initSeed P2 x
  let s3 ← Lfsr.initSeed P3 x
  some ((s1, s2), s3)

end Sprout.XorCombine
