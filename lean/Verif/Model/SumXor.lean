import Verif.Model.Numeric
import Verif.Model.StaticInt

/-!
# Byte sums

`sprout/checksum/sum.hpp`, `sprout/checksum/xor.hpp`. `size_t` and `unsigned long long` have 64 bits, so `sum_type` is `size_t`.
A range of input is the list of bytes that `bytes_iterator` delivers (modelled in `Model/Adaptor.lean`); the `const` and the mutating
versions of the member functions compute the same state. The overloads for `wchar_t`, `char16_t` and `char32_t` literals
(sum.hpp 147-160 and the like) pass the wide pointer to `char_traits<char>::length` and are left out.
-/

namespace Sprout
namespace SumXor

/-- `sum_basic<Bits>`: the state is `sum_` (sum.hpp 32-44) -/
structure Sum where
  sum : Nat
  deriving DecidableEq

/-- the additions of `sum_type` -/
def add (s b : Nat) : Nat := (s + b) % 2 ^ 64

/-- one call of a processing member -/
inductive Call
  /-- `process_byte(b)` -/
  | byte (b : Nat)
  /-- `process_block(first, last)`; also `process_range` and `process_bytes` -/
  | block (m : List Nat) (first last : Nat)
  /-- the same with input iterators -/
  | blockIn (m : List Nat) (first last : Nat)

/-- `c_process_bytes(buffer, byte_count)` (sum.hpp 88-91): up to `next(buffer, byte_count)` -/
def bytes (m : List Nat) (first n : Nat) : Call := .block m first (first + n)

/-- `c_process_range` (sum.hpp 92-95) -/
def range (m : List Nat) : Call := .block m 0 m.length

/-- the processing members (sum.hpp 46-53, 66-111) with the operation of the accumulation -/
def process (op : Nat → Nat → Nat) (s : Sum) : Call → Option Sum
  | .byte b => some ⟨op s.sum b⟩
  | .block m f l => do
    let r ← accumulateRa m f l s.sum op
    some ⟨r⟩
  | .blockIn m f l => do
    let r ← accumulateIn m f l s.sum op
    some ⟨r⟩

/-- a sequence of calls -/
def processAll (op : Nat → Nat → Nat) (s : Sum) : List Call → Option Sum
  | [] => some s
  | c :: cs => do
    let t ← process op s c
    processAll op t cs

/-- `sum_basic<Bits>::checksum` (sum.hpp 113-115): the value type is `uint_t<Bits>::least` (line 36) -/
def checksum (L : Nat) (n : Int) (s : Sum) : Option Nat := do
  let t ← StaticInt.uintT L n
  some (s.sum &&& (t.cint L).max.toNat)

/-- `sum_basic<Bits>()` and then calls, and then `operator()`; `Bits` must be a multiple of 8 (sum.hpp 34) -/
def sumOf (L : Nat) (n : Int) (init : Nat) (cs : List Call) : Option Nat :=
  if n % 8 = 0 then do
    let s ← processAll add ⟨init⟩ cs
    checksum L n s
  else none

/-- `xor8` (xor.hpp 27-109) -/
def xorOf (init : Nat) (cs : List Call) : Option Nat := do
  let s ← processAll (fun a b => a ^^^ b) ⟨init⟩ cs
  some (s.sum &&& 0xFF)

end SumXor
end Sprout
