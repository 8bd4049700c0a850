import Verif.Model.StaticInt

/-!
# Index sequences

`sprout/index_tuple/integer_range.hpp`, `integer_n.hpp`, `make_integer_sequence.hpp`, `index_range.hpp`, `index_n.hpp`,
`make_index_tuple.hpp`. A sequence `integer_sequence<T, Is...>` is the list of its values; `none` is an instantiation that does
not compile: a failed `static_assert`, an undefined constant expression or a narrowing template argument.
`index_t` is `ptrdiff_t` (64 bits, signed), `uindex_t` is `size_t` (index_t.hpp 19-20).
-/

namespace Sprout
namespace IndexSeq

/-- `std::make_signed<T>` -/
def sgnT (T : CInt) : CInt := ⟨T.w, true⟩
/-- `std::make_unsigned<T>` -/
def unsT (T : CInt) : CInt := ⟨T.w, false⟩

/-- a template argument of type `T` whose expression has type `P` (after promotion) and exact value `x` -/
def targ (P T : CInt) (x : Int) : Option Int := do
  let v ← P.arith x
  StaticInt.icon T v

/-- `integer_range_default_step<T, First, Last>` (integer_range.hpp 18-22) -/
def defaultStep (first last : Int) : Int := if first ≤ last then 1 else -1

/-- the tail argument `First + (N - 1) * Step` (integer_range.hpp 73); `(N - 1) * Step` has the unsigned type (or `int`), so has the sum -/
def tailArg (T : CInt) (first step : Int) (n : Nat) : Option Int := do
  let p ← (unsT T).arith (((n - 1 : Nat) : Int) * step)
  targ (unsT T) T (first + p)

/-- `integer_range_dispatch<T, First, Step, N>` (integer_range.hpp 40-75) with `integer_range_next_even` (26-31) and
`integer_range_next_odd` (33-38) -/
def dispatch (T : CInt) (first step : Int) (n : Nat) : Option (List Int) :=
  if n = 0 then some []
  else if n = 1 then some [first]
  else if n % 2 = 0 then do
    let is ← dispatch T first step (n / 2)
    let next ← targ (unsT T) T (((n / 2 : Nat) : Int) * step)
    let js ← is.mapM fun i => targ T T (i + next)
    some (is ++ js)
  else do
    let is ← dispatch T first step (n / 2)
    let next ← targ (unsT T) T (((n / 2 : Nat) : Int) * step)
    let tail ← tailArg T first step n
    let js ← is.mapM fun i => targ T T (i + next)
    some (is ++ js ++ [tail])
termination_by n
decreasing_by all_goals omega

/-- the number of elements (integer_range.hpp 85): the difference is computed in `T`, cast to the signed type, and the quotient is
narrowed to the unsigned one -/
def rangeN (T : CInt) (first last step : Int) : Option Int := do
  let d ← T.arith (last - first)
  let a ← (sgnT T).arith (if step > 0 then step - 1 else step + 1)
  let b ← (sgnT T).arith ((sgnT T).conv d + a)
  let q ← (sgnT T).div b step
  StaticInt.icon (unsT T) q

/-- `integer_range<T, First, Last, Step>` (integer_range.hpp 76-121), with its `static_assert` -/
def integerRange (T : CInt) (first last step : Int) : Option (List Int) :=
  if (first < last ∧ step > 0) ∨ (first > last ∧ step < 0) ∨ first = last then do
    let n ← rangeN T first last step
    dispatch T first step n.toNat
  else none

/-- `integer_n_impl<T, I, N>` (integer_n.hpp 36-70) with `integer_n_next_even` (22-27), `integer_n_next_even_odd` (29-34) -/
def integerN (i : Int) (n : Nat) : List Int :=
  if n = 0 then []
  else if n = 1 then [i]
  else if n % 2 = 0 then integerN i (n / 2) ++ integerN i (n / 2)
  else integerN i (n / 2) ++ integerN i (n / 2) ++ [i]
termination_by n
decreasing_by all_goals omega

/-- `make_integer_sequence<T, N>` (make_integer_sequence.hpp 17-26) -/
def makeIntegerSequence (T : CInt) (n : Int) : Option (List Int) := integerRange T 0 n (defaultStep 0 n)

/-- `index_range<First, Last, Step>` (index_range.hpp 23-27, 35-42) -/
def indexRange (first last : Int) (step : Int := defaultStep first last) : Option (List Int) :=
  integerRange CInt.int64 first last step

/-- `make_index_tuple<N>` (make_index_tuple.hpp 22-23, 28-34) -/
def makeIndexTuple (n : Int) : Option (List Int) := makeIntegerSequence CInt.int64 n

end IndexSeq
end Sprout
