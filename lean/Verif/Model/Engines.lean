import Verif.Model.ConstMod
import Verif.Model.UniformInt

/-!
# Model of the smaller engines: inversive congruential, additive combination, xor combination, shuffled order

`none` is undefined behaviour or a failed assertion. Streams are in `Model/NumIo`.
-/

namespace Sprout.Ice
open CMod

/-- `static_min`, `static_max` (inversive_congruential.hpp 42-47) -/
def staticMin (b : Int) : Int := if b = 0 then 1 else 0
def staticMax (p : Int) : Int := p - 1

/-- `init_seed` (inversive_congruential.hpp 48-59) for `p != 0` -/
def initSeed (T : CInt) (b p x0 : Int) : Option Int := do
  let x ← (T.rem x0 p).map T.conv
  let x ← (if x ≤ 0 ∧ x ≠ 0 then T.ar (x + p) else some x)
  let x := if b = 0 ∧ x = 0 then 1 else x
  if staticMin b ≤ x ∧ x ≤ staticMax p then some x else none

/-- both `operator()` (inversive_congruential.hpp 126-134): the result, which is also the new state -/
def next (T : CInt) (a b p x : Int) : Option Int := do
  let i ← invert T p x
  multAdd T p a i b

end Sprout.Ice

namespace Sprout.Additive

/-- an engine: its state and `operator()` -/
abbrev Gen (σ : Type) := σ → Option (Int × σ)

/-- `operator()` (additive_combine.hpp 53-65, 125-135); `T` is the result type of the first engine, `m1` its modulus. In C++11 mode the
conversion of the second number to `T` is missing; it does not matter if both engines have the same result type. -/
def combine (T : CInt) (m1 v1 v2 : Int) : Option Int := do
  let v2 := T.conv v2
  let d ← T.arith (v1 - v2)
  if v2 < v1 then some (T.conv d)
  else do
    let s ← T.arith (d + m1)
    T.ar (s - 1)

def next {σ τ : Type} (T : CInt) (m1 : Int) (g : Gen σ) (h : Gen τ) : Gen (σ × τ) := fun (s, t) => do
  let (v1, s) ← g s
  let (v2, t) ← h t
  let r ← combine T m1 v1 v2
  some (r, s, t)

/-- `min`, `max` (additive_combine.hpp 119-124) -/
def min : Int := 1
def max (m1 : Int) : Int := m1 - 1

end Sprout.Additive

namespace Sprout.ShuffleOrder
open UInt

/-- `member_type`: engine, table, last number (shuffle_order.hpp 41-43) -/
structure St (σ : Type) where
  rng : σ
  v : List Int
  y : Int

/-- `init_member_1` (shuffle_order.hpp 113-130; for large `k` 83-111): the first argument is `k - sizeof...(Args)` -/
def fill {σ : Type} (g : Additive.Gen σ) : Nat → σ → List Int → Option (St σ)
  | 0, s, args => do
    let (y, s) ← g s
    some ⟨s, args, y⟩
  | n + 1, s, args => do
    let (x, s) ← g s
    fill g n s (args ++ [x])

/-- `init_member` (shuffle_order.hpp 131-139) -/
def init {σ : Type} (g : Additive.Gen σ) (k : Nat) (s : σ) : Option (St σ) := fill g k s []

/-- the index `j` (shuffle_order.hpp 171-176, 230-236); `k` is a `std::size_t` of 64 bits; a failed assertion is `none` -/
def index (T : CInt) (k : Nat) (brange off : Int) : Option Int :=
  if k = 1 then some 0
  else if brange < T.uns.max / k then do
    let b ← T.uns.arith (brange + 1)
    if b = 0 then none else some (T.uns.conv (k * off % 2 ^ 64 / b))
  else if brange < (2 ^ 64 - 1) / k then
    if (brange + 1) % 2 ^ 64 = 0 then none else some (T.uns.conv (off * k % 2 ^ 64 / ((brange + 1) % 2 ^ 64)))
  else none

/-- `operator()` (shuffle_order.hpp 153-178, 226-247); `E` holds result type, `min()` and `max()` of the base engine -/
def next {σ : Type} (E : Engine) (k : Nat) (g : Additive.Gen σ) (st : St σ) : Option (Int × St σ) := do
  let brange ← subtract E.T E.max E.min
  let off ← subtract E.T st.y E.min
  let j ← index E.T k brange off
  let y ← rd st.v j.toNat
  let (x, s) ← g st.rng
  let v ← wr st.v j.toNat x
  some (y, ⟨s, v, y⟩)

end Sprout.ShuffleOrder
