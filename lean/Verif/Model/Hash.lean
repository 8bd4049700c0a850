import Verif.Basic

/-!
# Hash values

Models of `sprout/functional/hash/*.hpp` and the functions `hash_value` of the classes (`sprout/array/hash.hpp`,
`sprout/string/hash.hpp`, `sprout/utility/pair/hash.hpp`, `sprout/tuple/tuple/hash.hpp`, `sprout/variant/hash.hpp`, …).

`std::size_t` has `w` bits; its values are natural numbers below `2 ^ w`. `h` is `to_hash` of the elements. What does not compile or
is undefined is `none`.
-/

namespace Sprout
namespace Hash
variable {α β : Type}

/-- `hash_combine_impl(seed, v)`: hash_combine.hpp 23-27; `x` is `to_hash(v)` -/
def combine (w seed x : Nat) : Nat :=
  seed ^^^ ((x + 0x9e3779b9 + (seed <<< 6) % 2 ^ w + seed >>> 2) % 2 ^ w)

/-- `hash_combine_impl(seed, head, tail...)` (28-32) after the hash values of the arguments -/
def combineAll (w : Nat) : Nat → List Nat → Option Nat
  -- `hash_combine_impl(seed)` (18-22) has a template parameter that cannot be deduced
  | _, [] => none
  | seed, [x] => some (combine w seed x)
  | seed, x :: y :: l => combineAll w (combine w seed x) (y :: l)

/-- `hash_values(args...)`: hash_values.hpp 20-24 -/
def hashValues (w : Nat) (xs : List Nat) : Option Nat := combineAll w 0 xs

/-- `hash_range(seed, first, last)`: hash_range.hpp 23-42; `accumulate` is a left fold -/
def hashRange (w : Nat) (h : α → Nat) (seed : Nat) (l : List α) : Nat := l.foldl (fun s v => combine w s (h v)) seed

/-- `hash_value` of array, string, string_view, valarray, sub_array, uuid, std::array: `hash_range(v)` (hash_range.hpp 43-58) -/
def hashSeq (w : Nat) (h : α → Nat) (l : List α) : Nat := hashRange w h 0 l

/-- `hash_value` of pair, complex, rational, div_t: `hash_values(first, second)` -/
def hashPair (w : Nat) (h : α → Nat) (k : β → Nat) (x : α × β) : Option Nat := hashValues w [h x.1, k x.2]

/-- `hash_value` of `tuple<Types...>` (tuple/tuple/hash.hpp 20-40), given the hash values of the elements -/
def hashTuple (w : Nat) (xs : List Nat) : Option Nat := hashValues w xs

/-- `hash_value(variant)`: variant/hash.hpp 34-41; `x` is the hash value of the active value -/
def hashVariant (w x which : Nat) : Option Nat := combineAll w x [which]

/-- `hash_value_impl` of an integral type not longer than `size_t`: hash_value.hpp 116-120 -/
def hashInt (w : Nat) (v : Int) : Nat := (v % 2 ^ w).toNat

/-- the value of an expression of the signed type with `b` bits -/
def signed (b : Nat) (x : Int) : Option Int := if -2 ^ (b - 1) ≤ x ∧ x < 2 ^ (b - 1) then some x else none

/-- `hash_value_signed_2` (48-61), with the shift `k * w`: sums are of the type `T` of `val`, which has `b` bits -/
def hashSigned2 (b w : Nat) (val positive : Int) : Nat → Nat → Option Nat
  | 0, seed => do
    let s ← signed b (val + ((seed <<< 6) % 2 ^ w : Nat))
    let s ← signed b (s + (seed >>> 2 : Nat))
    some (seed ^^^ (s % 2 ^ w).toNat)
  | k + 1, seed => do
    let s ← signed b (positive / (2 : Int) ^ ((k + 1) * w) + ((seed <<< 6) % 2 ^ w : Nat))
    let s ← signed b (s + (seed >>> 2 : Nat))
    hashSigned2 b w val positive k (seed ^^^ (s % 2 ^ w).toNat)

/-- `hash_value_signed`: 62-76; `digits` of a signed type is `b - 1` -/
def hashSigned (b w : Nat) (val : Int) : Option Nat := do
  let positive ← if val < 0 then signed b (-1 - val) else some val
  hashSigned2 b w val positive ((b - 1 - 1) / w) 0

/-- `hash_value_unsigned_2`: 78-90; sums are modulo `2 ^ b` -/
def hashUnsigned2 (b w val : Nat) : Nat → Nat → Nat
  | 0, seed => seed ^^^ ((val + (seed <<< 6) % 2 ^ w + seed >>> 2) % 2 ^ b % 2 ^ w)
  | k + 1, seed =>
    hashUnsigned2 b w val k (seed ^^^ ((val / 2 ^ ((k + 1) * w) + (seed <<< 6) % 2 ^ w + seed >>> 2) % 2 ^ b % 2 ^ w))

/-- `hash_value_unsigned`: 91-104 -/
def hashUnsigned (b w val : Nat) : Nat := hashUnsigned2 b w val ((b - 1) / w) 0

/-- `hash_value_pointer`: 106-114, for an address -/
def hashPointer (w x : Nat) : Nat := (x + x >>> 3) % 2 ^ w

end Hash
end Sprout
