import Verif.Model.Find
import Verif.Model.Lex

/-!
# sprout/cstring: strlen, strchr, strrchr, strcmp, strncmp, strspn, strcspn, strpbrk, strstr, memcmp, memchr

A pointer is a position in a memory block of code units (`Int`, so that plain `char` may be signed).
A string function may only be given positions from which a terminator `0` is reachable; reading outside
the block is UB (`none`). In this header family the "finished" test itself reads memory, so the doubling
recursion is restated with a test that may be UB: `fin cur = none` is UB, `some none` means not finished,
`some (some r)` means finished with result `r`.

Simplifications: `std::size_t` / `difference_type` counters are unbounded; computing (not dereferencing)
a pointer beyond its block is not treated as UB (`ptr_index(s, n)`, `sprout::next`); the conversion of the
`int` argument `c` of `strchr`/`strrchr`/`memchr` to the character type is left to the caller. Null is `none`
in the inner `Option Nat`.
-/

namespace Sprout.Cstr

section Doubling
variable {σ : Type}

/-- `X_impl_1` with a reading test (e.g. sprout/cstring/strchr.hpp 21-39) -/
def sdbl1 (fin : σ → Option (Option σ)) (step : σ → Option σ) (cur : σ) (n : Nat) : Option σ := do
  match ← fin cur with
  | some r => some r
  | none =>
    if n = 1 then step cur
    else do
      let c ← sdbl1 fin step cur (n / 2)
      sdbl1 fin step c (n - n / 2)
partial_fixpoint

/-- `X_impl` with a reading test (e.g. sprout/cstring/strchr.hpp 40-56) -/
def sdbl (fin : σ → Option (Option σ)) (step : σ → Option σ) (cur : σ) (n : Nat) : Option σ := do
  match ← fin cur with
  | some r => some r
  | none => do
    let c ← sdbl1 fin step cur n
    sdbl fin step c (n * 2)
partial_fixpoint
end Doubling

/-- `!*it` -/
def atEnd (m : List Int) (p : Nat) : Option Bool := do
  let x ← rd m p
  some (x == 0)

/-- `str_find_check(found)` (sprout/cstring/detail/str.hpp 15-21) -/
def findCheck (m : List Int) (found : Nat) : Option (Option Nat) := do
  let e ← atEnd m found
  some (if e then none else some found)

/-- `str_find_check(found, value)` (detail/str.hpp 22-29) -/
def findCheckV (m : List Int) (found : Nat) (value : Int) : Option (Option Nat) := do
  let x ← rd m found
  some (if !(x == value) && x == 0 then none else some found)

/-- finished test `flag || !*cur`, the state returned unchanged -/
def finFlag (m : List Int) {σ : Type} (flag : σ → Bool) (pos : σ → Nat) (s : σ) : Option (Option σ) :=
  if flag s then some (some s)
  else do
    let e ← atEnd m (pos s)
    some (if e then some s else none)

/-- `detail::strlen` (sprout/cstring/strlen.hpp 23-64) -/
def strlen (m : List Int) (s : Nat) : Option Nat := do
  let r ← sdbl (finFlag m (fun _ => false) Prod.fst) (fun s : Nat × Nat => some (s.1 + 1, s.2 + 1)) (s, 0) 1
  some r.2

/-- `strlen(s, n)` (strlen.hpp 76-82): `distance` from `s` to `find(s, s + n, '\0')`, random access -/
def strlenN (m : List Int) (s n : Nat) : Option Nat := do
  let f ← findValRa m s (s + n) 0
  some (f - s)

/-- `detail::strchr` (sprout/cstring/strchr.hpp 21-62) -/
def strchrPos (m : List Int) (s : Nat) (value : Int) : Option Nat := do
  let r ← sdbl (finFlag m Prod.snd Prod.fst)
    (fun s : Nat × Bool => do
      let x ← rd m s.1
      some (if x == value then (s.1, true) else (s.1 + 1, false))) (s, false) 1
  some r.1

/-- `sprout::strchr` (strchr.hpp 71-96) -/
def strchr (m : List Int) (s : Nat) (c : Int) : Option (Option Nat) := do
  let f ← strchrPos m s c
  findCheckV m f c

/-- `detail::strrchr`, `sprout::strrchr` (sprout/cstring/strrchr.hpp 20-100): state (current, last found) -/
def strrchr (m : List Int) (s : Nat) (value : Int) : Option (Option Nat) := do
  let r ← sdbl (finFlag m (fun _ => false) Prod.fst)
    (fun s : Nat × Nat => do
      let x ← rd m s.1
      some (if x == value then (s.1 + 1, s.1) else (s.1 + 1, s.2))) (s, s) 1
  let y ← rd m r.2
  some (if y == value then some r.2 else if value == 0 then some r.1 else none)

/-- finished test of `strcmp_impl` (sprout/cstring/strcmp.hpp 38): `get<2> || !*get<1> || !*get<0>` -/
def finCmp (m1 m2 : List Int) (s : Nat × Nat × Int) : Option (Option (Nat × Nat × Int)) :=
  if s.2.2 ≠ 0 then some (some s)
  else do
    let e2 ← atEnd m2 s.2.1
    if e2 then some (some s)
    else do
      let e1 ← atEnd m1 s.1
      some (if e1 then some s else none)

/-- `detail::strcmp` (strcmp.hpp 22-76): characters are compared with `<` of the character type -/
def strcmp (m1 m2 : List Int) (s1 s2 : Nat) : Option Int := do
  let r ← sdbl (finCmp m1 m2)
    (fun s => do
      let x ← rd m1 s.1
      let y ← rd m2 s.2.1
      some (if x < y then (s.1, s.2.1, -1) else if y < x then (s.1, s.2.1, 1) else (s.1 + 1, s.2.1 + 1, 0)))
    (s1, s2, 0) 1
  let e2 ← atEnd m2 r.2.1
  let e1 ← atEnd m1 r.1
  some (if e2 then (if e1 then 0 else 1) else if e1 then -1 else r.2.2)

/-- `tristate_lexicographical_compare_2_impl_ra` with delimiters `'\0'` and `less<>`
(sprout/algorithm/tristate_lexicographical_compare.hpp 121-147). `*first1` is read in every branch of the leaf. -/
def tri2 (m1 m2 : List Int) (i j size : Nat) (found : Int) : Option Int :=
  if found ≠ 2 then some found
  else if size = 1 then do
    let y ← rd m2 j
    let x ← rd m1 i
    some (if y == 0 then (if x == 0 then 0 else 1)
      else if x == 0 || decide (x < y) then -1
      else if y < x then 1 else 2)
  else do
    let r ← tri2 m1 m2 i j (size / 2) 2
    tri2 m1 m2 (i + size / 2) (j + size / 2) (size - size / 2) r
partial_fixpoint

/-- `sprout::strncmp` (sprout/cstring/strncmp.hpp 25-44) through
`tristate_lexicographical_compare_2` (tristate_lexicographical_compare.hpp 148-168) and
`..._impl_ra_check` (24-34) with both distances `n` -/
def strncmp (m1 m2 : List Int) (s1 s2 n : Nat) : Option Int := do
  let found ← if n = 0 then some 2 else tri2 m1 m2 s1 s2 n 2
  some (if found ≠ 2 then found else 0)

/-- `detail::strspn` / `detail::strcspn` (sprout/cstring/strspn.hpp 23-66, strcspn.hpp 23-66);
`neg` is the `!` of `strcspn` -/
def spanGen (neg : Bool) (m1 m2 : List Int) (s1 s2 : Nat) : Option Nat := do
  let r ← sdbl (finFlag m1 (fun s => s.2.2) Prod.fst)
    (fun s : Nat × Nat × Bool => do
      let x ← rd m1 s.1
      let f ← strchrPos m2 s2 x
      let e ← atEnd m2 f
      some (if (if neg then e else !e) then (s.1 + 1, s.2.1 + 1, false) else (s.1, s.2.1, true)))
    (s1, 0, false) 1
  some r.2.1

/-- `sprout::strspn` (strspn.hpp 74-86) -/
def strspn := spanGen false
/-- `sprout::strcspn` (strcspn.hpp 74-86) -/
def strcspn := spanGen true

/-- `detail::strpbrk` and `sprout::strpbrk` (sprout/cstring/strpbrk.hpp 22-101) -/
def strpbrk (m1 m2 : List Int) (s1 s2 : Nat) : Option (Option Nat) := do
  let r ← sdbl (finFlag m1 Prod.snd Prod.fst)
    (fun s : Nat × Bool => do
      let x ← rd m1 s.1
      let f ← strchr m2 s2 x
      some (if f.isSome then (s.1, true) else (s.1 + 1, false)))
    (s1, false) 1
  findCheck m1 r.1

/-- finished test of `strstr_one_impl` (sprout/cstring/strstr.hpp 31-33): rewrites the state -/
def finOne (m1 m2 : List Int) (first1 : Nat) (s : Nat × Nat × Bool) : Option (Option (Nat × Nat × Bool)) :=
  if s.2.2 then some (some s)
  else do
    let e2 ← atEnd m2 s.2.1
    if e2 then some (some (first1, s.2.1, true))
    else do
      let e1 ← atEnd m1 s.1
      some (if e1 then some (s.1, s.2.1, true) else none)

/-- `detail::strstr_one` (strstr.hpp 23-71) -/
def strstrOne (m1 m2 : List Int) (s1 s2 : Nat) : Option Nat := do
  let r ← sdbl (finOne m1 m2 s1)
    (fun s => do
      let x ← rd m1 s.1
      let y ← rd m2 s.2.1
      some (if !(x == y) then (s.1 + 1, s.2.1, true) else (s.1 + 1, s.2.1 + 1, false)))
    (s1, s2, false) 1
  some r.1

/-- `detail::strstr` with `strstr_impl_fork` (strstr.hpp 73-128) -/
def strstrPos (m1 m2 : List Int) (s1 s2 : Nat) : Option Nat := do
  let e ← atEnd m2 s2
  if e then some s1
  else do
    let r ← sdbl (finFlag m1 Prod.snd Prod.fst)
      (fun s : Nat × Bool => do
        let f ← strstrOne m1 m2 s.1 s2
        if f = s.1 then some (f, true)
        else do
          let e ← atEnd m1 f
          some (if e then (f, true) else (s.1 + 1, false)))
      (s1, false) 1
    some r.1

/-- `sprout::strstr` (strstr.hpp 137-167) -/
def strstr (m1 m2 : List Int) (s1 s2 : Nat) : Option (Option Nat) := do
  let f ← strstrPos m1 m2 s1 s2
  findCheck m1 f

/-- `sprout::memcmp` (sprout/cstring/memcmp.hpp 20-48): bytes are `unsigned char` -/
def memcmp (m1 m2 : List Nat) (s1 s2 n : Nat) : Option Int :=
  triCompareRa (fun x y => decide (x < y)) m1 m2 s1 (s1 + n) s2 (s2 + n)

/-- `sprout::memchr` (sprout/cstring/memchr.hpp 31-50, 69-86) -/
def memchr (m : List Nat) (s c n : Nat) : Option (Option Nat) := do
  let f ← findValRa m s (s + n) c
  some (if f = s + n then none else some f)

end Sprout.Cstr
