import Verif.Model.Cstring
import Verif.Model.Moves

/-!
# sprout/cstring, the writing functions: strcpy, strncpy, strcat, strncat, memcpy, memmove, memset

For the `str*` functions source and destination are separate blocks (ISO C forbids overlap); for `memcpy`
and `memmove` there is one block with two positions. The returned pointer is always the first argument and is
left out; the functions return the destination block.
-/

namespace Sprout.Cstr

/-- `while ((*s1++ = *s2++)) ;` (sprout/cstring/strcpy.hpp 19-20, strcat.hpp 21-22) -/
def copyLoop (dst src : List Int) (s1 s2 : Nat) : Option (List Int) := do
  let x ← rd src s2
  let dst ← wr dst s1 x
  if x = 0 then some dst else copyLoop dst src (s1 + 1) (s2 + 1)
partial_fixpoint

/-- `sprout::strcpy` (strcpy.hpp 15-36) -/
def strcpy := copyLoop

/-- `while (n) { --n; if (!(*s1++ = *s2++)) break; }` (strncpy.hpp 21-26, strncat.hpp 24-29);
returns the block, `s1` and `n` -/
def copyLoopN (dst src : List Int) (s1 s2 : Nat) : Nat → Option (List Int × Nat × Nat)
  | 0 => some (dst, s1, 0)
  | n + 1 => do
    let x ← rd src s2
    let dst ← wr dst s1 x
    if x = 0 then some (dst, s1 + 1, n) else copyLoopN dst src (s1 + 1) (s2 + 1) n

/-- `while (n) { --n; *s1++ = value_type(); }` (strncpy.hpp 27-30) -/
def zeroLoop (dst : List Int) (s1 : Nat) : Nat → Option (List Int)
  | 0 => some dst
  | n + 1 => do
    let dst ← wr dst s1 0
    zeroLoop dst (s1 + 1) n

/-- `sprout::strncpy` (strncpy.hpp 16-46) -/
def strncpy (dst src : List Int) (s1 s2 n : Nat) : Option (List Int) := do
  let r ← copyLoopN dst src s1 s2 n
  zeroLoop r.1 r.2.1 r.2.2

/-- `while (*s1++) ;` (strcat.hpp 19-20): leaves `s1` one past the terminator -/
def skipPast (dst : List Int) (s1 : Nat) : Option Nat := do
  let x ← rd dst s1
  if x ≠ 0 then skipPast dst (s1 + 1) else some (s1 + 1)
partial_fixpoint

/-- `sprout::strcat` (strcat.hpp 15-38) -/
def strcat (dst src : List Int) (s1 s2 : Nat) : Option (List Int) := do
  let s1 ← skipPast dst s1
  copyLoop dst src s1 s2

/-- `while (*s1) { ++s1; }` (strncat.hpp 21-23) -/
def skipTo (dst : List Int) (s1 : Nat) : Option Nat := do
  let x ← rd dst s1
  if x ≠ 0 then skipTo dst (s1 + 1) else some s1
partial_fixpoint

/-- `sprout::strncat` (strncat.hpp 16-46): the final `*s1 = value_type()` is executed after the loop in any case -/
def strncat (dst src : List Int) (s1 s2 n : Nat) : Option (List Int) := do
  let s1 ← skipTo dst s1
  let r ← copyLoopN dst src s1 s2 n
  wr r.1 r.2.1 0

/-- `sprout::memcpy` (memcpy.hpp 19-36): `copy(s2, s2 + n, s1)` -/
def memcpy (m : List Nat) (s1 s2 n : Nat) : Option (List Nat) := do
  let r ← copy m s2 (s2 + n) s1
  some r.1

/-- `sprout::memmove` (memmove.hpp 19-36): `copy_backward(s2, s2 + n, s1)` -/
def memmove (m : List Nat) (s1 s2 n : Nat) : Option (List Nat) := do
  let r ← copyBackward m s2 (s2 + n) s1
  some r.1

/-- `sprout::fill` on `n` elements (sprout/algorithm/cxx14/fill.hpp 17-23) -/
def fillN (m : List Nat) (s v : Nat) : Nat → Option (List Nat)
  | 0 => some m
  | n + 1 => do
    let m ← wr m s v
    fillN m (s + 1) v n

/-- `sprout::memset` (memset.hpp 19-36): `static_cast<unsigned char>(c)` -/
def memset (m : List Nat) (s : Nat) (c : Int) (n : Nat) : Option (List Nat) := fillN m s (c % 256).toNat n

end Sprout.Cstr
