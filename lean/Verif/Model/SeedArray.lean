import Verif.Basic
import Verif.Model.Mt

/-!
# `seed_array` (`sprout/random/seed_array.hpp`)

`std::uint_least32_t` has 32 bits, `std::uint_least64_t` and `std::size_t` 64; positions and sizes are natural numbers (no
container comes near 2⁶⁴). The elements that are generated are `std::uint_least32_t` too, the container of the result is an
array. A position outside of the array is undefined behaviour (`none`). `param` (331-351) is not modelled.
-/

namespace Sprout.SeedArray
open Mt (forLoop)

abbrev Word := BitVec 32

/-- lines 38-45: `seed_array_init::operator()`: `x` is converted to 64 bits, since the other operand has that type -/
def initWord (x : Int) : Word := BitVec.ofInt 32 ((x % 2 ^ 64) % (2 * 2 ^ 32))

/-- lines 59-62 and 264-271: the constructors; `fixed::transform` into an array of `N` elements (C107) leaves out what has no
place and leaves the default where the range is too short -/
def make (N : Nat) (xs : List Int) : List Word := ((xs.map initWord).take N) ++ List.replicate (N - xs.length) 0

/-- lines 81-83 -/
def tp (x : Word) : Word := x ^^^ (x >>> 27)

/-- lines 84-91 -/
def tval (n : Nat) : Nat :=
  if n ≥ 623 then 11 else if n ≥ 68 then 7 else if n ≥ 39 then 5 else if n ≥ 7 then 3 else (n - 1) / 2

/-- lines 291-295: what is added to `r1` -/
def addend (v : List Word) (n s k : Nat) : Option Word :=
  if k = 0 then some (BitVec.ofNat 32 s)
  else if k ≤ s then (rd v (k - 1)).map fun w => BitVec.ofNat 32 (k % n + w.toNat)
  else some (BitVec.ofNat 32 (k % n))

/-- lines 285-299: one round of the first loop -/
def body1 (v : List Word) (n s p q : Nat) (x : List Word) (k : Nat) : Option (List Word) := do
  let a ← rd x (k % n)
  let b ← rd x ((k + p) % n)
  let c ← rd x ((k + n - 1) % n)
  let r1 := 1664525 * tp (a ^^^ b ^^^ c)
  let add ← addend v n s k
  let r2 := r1 + add
  let y ← rd x ((k + p) % n)
  let x ← wr x ((k + p) % n) (y + r1)
  let z ← rd x ((k + q) % n)
  let x ← wr x ((k + q) % n) (z + r2)
  wr x (k % n) r2

/-- lines 300-310: one round of the second loop -/
def body2 (n p q : Nat) (x : List Word) (k : Nat) : Option (List Word) := do
  let a ← rd x (k % n)
  let b ← rd x ((k + p) % n)
  let c ← rd x ((k + n - 1) % n)
  let r3 := 1566083941 * tp (a + b + c)
  let r4 := r3 - BitVec.ofNat 32 (k % n)
  let y ← rd x ((k + p) % n)
  let x ← wr x ((k + p) % n) (y ^^^ r3)
  let z ← rd x ((k + q) % n)
  let x ← wr x ((k + q) % n) (z ^^^ r4)
  wr x (k % n) r4

/-- lines 272-311: `generate(begin, end)` on a range of `n` elements -/
def generate (v : List Word) (n : Nat) : Option (List Word) :=
  if n = 0 then some []
  else do
    let s := v.length
    let m := max (s + 1) n
    let t := tval n
    let p := (n - t) / 2
    let q := p + t
    let x ← forLoop 0 m (body1 v n s p q) (List.replicate n 0x8b8b8b8b)
    forLoop m (m + n) (body2 n p q) x

/-- lines 92-121: `set2`, `set2_impl` -/
def set2 (x : List Word) (kpn kqn kn : Nat) (r3 d : Word) : Option (List Word) :=
  let r4 := r3 - d
  (List.range x.length).mapM fun i =>
    if i = kn then some r4
    else (rd x i).map fun y => y ^^^ (if i = kpn then r3 else 0) ^^^ (if i = kqn then r4 else 0)

/-- lines 122-151: `set1`, `set1_impl` -/
def set1 (x : List Word) (kpn kqn kn : Nat) (r1 d : Word) : Option (List Word) :=
  let r2 := r1 + d
  (List.range x.length).mapM fun i =>
    if i = kn then some r2
    else (rd x i).map fun y => y + (if i = kpn then r1 else 0) + (if i = kqn then r2 else 0)

/-- lines 152-170: `gen2` -/
def gen2 (n m p q : Nat) (x : List Word) (k : Nat) : Option (List Word) :=
  if k < m + n then do
    let a ← rd x (k % n)
    let b ← rd x ((k + p) % n)
    let c ← rd x ((k + n - 1) % n)
    let x ← set2 x ((k + p) % n) ((k + q) % n) (k % n) (1566083941 * tp (a + b + c)) (BitVec.ofNat 32 (k % n))
    gen2 n m p q x (k + 1)
  else some x
  termination_by m + n - k

/-- lines 171-189: `gen1_2` (`k` is positive) -/
def gen1_2 (n m p q : Nat) (x : List Word) (k : Nat) : Option (List Word) :=
  if k < m then do
    let a ← rd x (k % n)
    let b ← rd x ((k + p) % n)
    let c ← rd x ((k - 1) % n)
    let x ← set1 x ((k + p) % n) ((k + q) % n) (k % n) (1664525 * tp (a ^^^ b ^^^ c)) (BitVec.ofNat 32 (k % n))
    gen1_2 n m p q x (k + 1)
  else some x
  termination_by m - k

/-- lines 190-208: `gen1_1` (`k` is positive) -/
def gen1_1 (v : List Word) (n s p q : Nat) (x : List Word) (k : Nat) : Option (List Word) :=
  if k ≤ s then do
    let a ← rd x (k % n)
    let b ← rd x ((k + p) % n)
    let c ← rd x ((k - 1) % n)
    let w ← rd v (k - 1)
    let x ← set1 x ((k + p) % n) ((k + q) % n) (k % n) (1664525 * tp (a ^^^ b ^^^ c)) (BitVec.ofNat 32 (k % n + w.toNat))
    gen1_1 v n s p q x (k + 1)
  else some x
  termination_by s + 1 - k

/-- lines 209-220: `gen1_0` -/
def gen1_0 (n s p q : Nat) (x : List Word) : Option (List Word) := do
  let a ← rd x 0
  let b ← rd x p
  let c ← rd x (n - 1)
  set1 x p q 0 (1664525 * tp (a ^^^ b ^^^ c)) (BitVec.ofNat 32 s)

/-- lines 221-254 and 312-323: `generate(result)` with `gen`, `gen_impl` for an array of `n` elements -/
def generateConst (v : List Word) (n : Nat) : Option (List Word) :=
  if n = 0 then some []
  else do
    let s := v.length
    let m := max (s + 1) n
    let t := tval n
    let p := (n - t) / 2
    let q := (n - t) / 2 + t
    let x ← gen1_0 n s p q (List.replicate n 0x8b8b8b8b)
    let x ← gen1_1 v n s p q x 1
    let x ← gen1_2 n m p q x (s + 1)
    gen2 n m p q x m

end Sprout.SeedArray
