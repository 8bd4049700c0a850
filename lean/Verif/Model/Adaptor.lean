import Verif.Model.CInt

/-!
# Iterator adaptors with random access

The underlying ranges are the blocks `xs`, `ys`, …; an iterator into a block is a position `0 … length`; leaving this interval is
undefined (`none`). `difference_type` is `ptrdiff_t` with 64 bits; positions fit in, and overflow is modelled where the code
computes other values than positions.

`operator++`, `operator--` and `next()`, `prev()` do the same in all classes but `step_iterator`; they are modelled once.
Postfix operators are copies followed by these. `operator>`, `<=`, `>=` and `!=` are derived from `<` and `==` in all classes.
-/

namespace Sprout.Adaptor
variable {α β γ : Type}

/-- `p + n` for a pointer or random access iterator into a block of `len` elements -/
def padd (len p : Nat) (n : Int) : Option Nat := if 0 ≤ (p : Int) + n ∧ (p : Int) + n ≤ len then some ((p : Int) + n).toNat else none

/-- `p[n]`: `*(p + n)` -/
def pindex (xs : List α) (p : Nat) (n : Int) : Option α := do
  let q ← padd xs.length p n
  rd xs q

/-- the test whether `a + b` is above the range (utility/limited.hpp 24) -/
def plusAbove (T : CInt) (a b : Int) : Option Bool :=
  if a > 0 ∧ b > 0 then (T.arith (T.max - a)).map (fun d => decide (d < b)) else some false

/-- the test whether `a + b` is below the range (utility/limited.hpp 26) -/
def plusBelow (T : CInt) (a b : Int) : Option Bool :=
  if a < 0 ∧ b < 0 then (T.arith (T.min - a)).map (fun d => decide (d > b)) else some false

/-- `limited::plus` for operands of signed type `T` (utility/limited.hpp 20-30) -/
def limitedPlus (T : CInt) (a b : Int) : Option Int :=
  (plusAbove T a b).bind fun c1 => if c1 then some T.max
  else (plusBelow T a b).bind fun c2 => if c2 then some T.min
  else T.arith (a + b)

/-- `lim / x + (lim % x ? 1 : 0)` -/
def limitedQuot (T : CInt) (lim x : Int) : Option Int := do
  let q ← T.div lim x
  let r ← T.rem lim x
  T.arith (q + if r = 0 then 0 else 1)

/-- the four tests (utility/limited.hpp 40, 42, 44, 46) -/
def mulTest1 (T : CInt) (a b : Int) : Option Bool :=
  if a > 0 ∧ b > 0 then (limitedQuot T T.max a).map (fun q => decide (q ≤ b)) else some false
@[inherit_doc mulTest1]
def mulTest2 (T : CInt) (a b : Int) : Option Bool :=
  if a > 0 ∧ b < 0 then (limitedQuot T T.min b).map (fun q => decide (q ≤ a)) else some false
@[inherit_doc mulTest1]
def mulTest3 (T : CInt) (a b : Int) : Option Bool :=
  if a < 0 ∧ b > 0 then (limitedQuot T T.min a).map (fun q => decide (q ≤ b)) else some false
@[inherit_doc mulTest1]
def mulTest4 (T : CInt) (a b : Int) : Option Bool :=
  if a < 0 ∧ b < 0 then ((limitedQuot T T.min b).bind (fun q => T.arith (-q))).map (fun q => decide (q ≥ a)) else some false

/-- `limited::multiplies` for operands of signed type `T` (utility/limited.hpp 35-49) -/
def limitedMul (T : CInt) (a b : Int) : Option Int :=
  (mulTest1 T a b).bind fun c => if c then some T.max
  else (mulTest2 T a b).bind fun c => if c then some T.min
  else (mulTest3 T a b).bind fun c => if c then some T.min
  else (mulTest4 T a b).bind fun c => if c then some T.max
  else T.arith (a * b)

/-! ### `reverse_iterator`: state `current` -/

/-- `operator*` (iterator/reverse_iterator.hpp 61-63) -/
def revDeref (xs : List α) (c : Nat) : Option α := do
  let p ← padd xs.length c (-1)
  rd xs p
/-- `operator++`, `next` (67-70, 104-106) -/
def revNext (xs : List α) (c : Nat) : Option Nat := padd xs.length c (-1)
/-- `operator--`, `prev` (76-79, 107-109) -/
def revPrev (xs : List α) (c : Nat) : Option Nat := padd xs.length c 1
/-- `operator+` (85-87) -/
def revAdd (xs : List α) (c : Nat) (n : Int) : Option Nat := padd xs.length c (-n)
/-- `operator-` (88-90) -/
def revSub (xs : List α) (c : Nat) (n : Int) : Option Nat := padd xs.length c n
/-- `operator[]` (101-103) -/
def revIndex (xs : List α) (c : Nat) (n : Int) : Option α := do
  let p ← padd xs.length c (-(n + 1))
  rd xs p
/-- `operator==` (119-123) -/
def revEq (a b : Nat) : Bool := a == b
/-- `operator<` (129-133) -/
def revLt (a b : Nat) : Bool := decide (a < b)
/-- `operator-` (149-153) -/
def revDiff (a b : Nat) : Option Int := some ((b : Int) - a)

/-! ### `transform_iterator` over one range: state `current`; `indexed_iterator`, `replace_if_iterator`, `clamp_iterator`,
`valued_iterator` move in the same way -/

/-- `operator*` (iterator/transform_iterator.hpp, second class) -/
def mapDeref (f : α → β) (xs : List α) (c : Nat) : Option β := (rd xs c).map f
/-- `operator[]` -/
def mapIndex (f : α → β) (xs : List α) (c : Nat) (n : Int) : Option β := (pindex xs c n).map f
/-- `operator++`, `next` -/
def mapNext (xs : List α) (c : Nat) : Option Nat := padd xs.length c 1
/-- `operator--`, `prev` -/
def mapPrev (xs : List α) (c : Nat) : Option Nat := padd xs.length c (-1)
/-- `operator+` -/
def mapAdd (xs : List α) (c : Nat) (n : Int) : Option Nat := padd xs.length c n
/-- `operator-` -/
def mapSub (xs : List α) (c : Nat) (n : Int) : Option Nat := padd xs.length c (-n)
/-- `operator==`, compares `base()` -/
def mapEq (a b : Nat) : Bool := a == b
/-- `operator<`, compares `base()` -/
def mapLt (a b : Nat) : Bool := decide (a < b)
/-- `operator-` -/
def mapDiff (a b : Nat) : Option Int := some ((a : Int) - b)

/-! ### `transform_iterator` over two ranges: state `current`, `current2` -/

/-- `operator*` (iterator/transform_iterator.hpp 109-111) -/
def zipDeref (f : α → β → γ) (xs : List α) (ys : List β) (s : Nat × Nat) : Option γ := do
  let x ← rd xs s.1
  let y ← rd ys s.2
  some (f x y)
/-- `operator[]` (153-155) -/
def zipIndex (f : α → β → γ) (xs : List α) (ys : List β) (s : Nat × Nat) (n : Int) : Option γ := do
  let x ← pindex xs s.1 n
  let y ← pindex ys s.2 n
  some (f x y)
/-- `operator+` (137-139); `operator++`, `next` (115-119, 156-158) add 1, `operator--`, `prev` (126-130, 159-161) subtract 1 -/
def zipAdd (xs : List α) (ys : List β) (s : Nat × Nat) (n : Int) : Option (Nat × Nat) := do
  let c1 ← padd xs.length s.1 n
  let c2 ← padd ys.length s.2 n
  some (c1, c2)
/-- `operator-` (140-142) -/
def zipSub (xs : List α) (ys : List β) (s : Nat × Nat) (n : Int) : Option (Nat × Nat) := do
  let c1 ← padd xs.length s.1 (-n)
  let c2 ← padd ys.length s.2 (-n)
  some (c1, c2)
/-- `operator==`, compares `base()` only -/
def zipEq (a b : Nat × Nat) : Bool := a.1 == b.1
/-- `operator<` -/
def zipLt (a b : Nat × Nat) : Bool := decide (a.1 < b.1)
/-- `operator-` -/
def zipDiff (a b : Nat × Nat) : Option Int := some ((a.1 : Int) - b.1)

/-! ### `joint_iterator`: state `current1`, `current2`; `last1` is the end of `xs`, `first2` the beginning of `ys` -/

/-- `is_in_left` (iterator/joint_iterator.hpp 103-105) -/
def jInLeft (xs : List α) (s : Nat × Nat) : Bool := s.1 != xs.length
/-- `operator*` (106-108) -/
def jDeref (xs ys : List α) (s : Nat × Nat) : Option α := if jInLeft xs s then rd xs s.1 else rd ys s.2
/-- `operator++`, `next` (112-119, 165-169) -/
def jNext (xs ys : List α) (s : Nat × Nat) : Option (Nat × Nat) :=
  if jInLeft xs s then (padd xs.length s.1 1).map (·, s.2) else (padd ys.length s.2 1).map (s.1, ·)
/-- `operator--`, `prev` (129-136, 170-174) -/
def jPrev (xs ys : List α) (s : Nat × Nat) : Option (Nat × Nat) :=
  if s.2 = 0 then (padd xs.length s.1 (-1)).map (·, s.2) else (padd ys.length s.2 (-1)).map (s.1, ·)
/-- `operator+`: `advance_impl`, `advance_impl_posite`, `advance_impl_negate` (49-68, 146-148) -/
def jAdd (xs ys : List α) (s : Nat × Nat) (n : Int) : Option (Nat × Nat) :=
  if n ≥ 0 then
    if jInLeft xs s then
      let d : Int := xs.length - s.1
      if n > d then (padd ys.length s.2 (n - d)).map (xs.length, ·) else (padd xs.length s.1 n).map (·, s.2)
    else (padd ys.length s.2 n).map (s.1, ·)
  else if s.2 = 0 then (padd xs.length s.1 n).map (·, s.2)
  else
    let d : Int := -s.2
    if ¬n > d then (padd xs.length s.1 (n - d)).map (·, 0) else (padd ys.length s.2 n).map (s.1, ·)
/-- `operator-` (149-151) -/
def jSub (xs ys : List α) (s : Nat × Nat) (n : Int) : Option (Nat × Nat) := jAdd xs ys s (-n)
/-- `operator[]` (162-164) -/
def jIndex (xs ys : List α) (s : Nat × Nat) (n : Int) : Option α := do
  let t ← jAdd xs ys s n
  jDeref xs ys t
/-- `operator==` (194-200) -/
def jEq (a b : Nat × Nat) : Bool := a.1 == b.1 && a.2 == b.2
/-- `operator<` (216-225) -/
def jLt (xs : List α) (a b : Nat × Nat) : Bool :=
  if jInLeft xs a && jInLeft xs b then decide (a.1 < b.1)
  else if !jInLeft xs a && !jInLeft xs b then decide (a.2 < b.2)
  else jInLeft xs a
/-- `operator-` (267-277) -/
def jDiff (xs : List α) (a b : Nat × Nat) : Option Int :=
  if jInLeft xs a && jInLeft xs b then some ((a.1 : Int) - b.1)
  else if !jInLeft xs a && !jInLeft xs b then some ((a.2 : Int) - b.2)
  else if jInLeft xs a then limitedPlus .int64 ((xs.length : Int) - a.1) b.2
  else limitedPlus .int64 a.2 ((xs.length : Int) - b.1)

/-! ### `alternate_iterator`: state `current1`, `current2`, `in_left` -/

/-- `operator*` (iterator/alternate_iterator.hpp 85-87) -/
def altDeref (xs ys : List α) (s : Nat × Nat × Bool) : Option α := if s.2.2 then rd xs s.1 else rd ys s.2.1
/-- `operator++`, `next` (91-100, 152-156) -/
def altNext (xs ys : List α) (s : Nat × Nat × Bool) : Option (Nat × Nat × Bool) :=
  if s.2.2 then some (s.1, s.2.1, false)
  else do
    let c1 ← padd xs.length s.1 1
    let c2 ← padd ys.length s.2.1 1
    some (c1, c2, true)
/-- `operator--`, `prev` (112-121, 157-161) -/
def altPrev (xs ys : List α) (s : Nat × Nat × Bool) : Option (Nat × Nat × Bool) :=
  if s.2.2 then do
    let c1 ← padd xs.length s.1 (-1)
    let c2 ← padd ys.length s.2.1 (-1)
    some (c1, c2, false)
  else some (s.1, s.2.1, true)
/-- `operator+`: `advance_impl`, `advance_impl_1` (49-54, 133-135) -/
def altAdd (xs ys : List α) (s : Nat × Nat × Bool) (n : Int) : Option (Nat × Nat × Bool) := do
  let n := n + if !s.2.2 then 1 else 0
  let c1 ← padd xs.length s.1 (n.tdiv 2)
  let c2 ← padd ys.length s.2.1 (n.tdiv 2)
  some (c1, c2, n.tmod 2 == 0)
/-- `operator-` (136-138) -/
def altSub (xs ys : List α) (s : Nat × Nat × Bool) (n : Int) : Option (Nat × Nat × Bool) := altAdd xs ys s (-n)
/-- `operator[]` (149-151) -/
def altIndex (xs ys : List α) (s : Nat × Nat × Bool) (n : Int) : Option α := do
  let t ← altAdd xs ys s n
  altDeref xs ys t
/-- `operator==` (179-185) -/
def altEq (a b : Nat × Nat × Bool) : Bool := a.1 == b.1 && a.2.2 == b.2.2
/-- `operator<` (201-207) -/
def altLt (a b : Nat × Nat × Bool) : Bool := decide (a.1 < b.1) || (a.1 == b.1 && a.2.2 && !b.2.2)
/-- `operator-` (245-255) -/
def altDiff (a b : Nat × Nat × Bool) : Option Int := do
  let d ← limitedMul .int64 ((a.1 : Int) - b.1) 2
  limitedPlus .int64 d (if a.2.2 then (if b.2.2 then 0 else 1) else (if b.2.2 then 1 else 0))

/-! ### `size_enum_iterator<Iterator, true>`: state `current`, `is_sep`; `size x` is `sprout::size(x)` -/

/-- `operator*` (iterator/size_enum_iterator.hpp 196-198) -/
def seDeref (size : α → Int) (sep : Int) (xs : List α) (s : Nat × Bool) : Option Int := if s.2 then some sep else (rd xs s.1).map size
/-- `operator++`, `next` (202-210, 259-264) -/
def seNext (xs : List α) (s : Nat × Bool) : Option (Nat × Bool) := if s.2 then (padd xs.length s.1 1).map (·, false) else some (s.1, true)
/-- `operator--`, `prev` (221-229, 265-270) -/
def sePrev (xs : List α) (s : Nat × Bool) : Option (Nat × Bool) := if s.2 then some (s.1, false) else (padd xs.length s.1 (-1)).map (·, true)
/-- a `bool` in arithmetic -/
def b2i (b : Bool) : Int := if b then 1 else 0
/-- `operator+` (240-242); the third argument `x % 2` is converted to `bool` -/
def seAdd (xs : List α) (s : Nat × Bool) (n : Int) : Option (Nat × Bool) :=
  (padd xs.length s.1 ((n + b2i s.2).tdiv 2)).map (·, (n + b2i s.2).tmod 2 != 0)
/-- `operator-` (243-245) -/
def seSub (xs : List α) (s : Nat × Bool) (n : Int) : Option (Nat × Bool) :=
  (padd xs.length s.1 (-(n - b2i s.2).tdiv 2)).map (·, (n - b2i s.2).tmod 2 != 0)
/-- `operator[]` (256-258) -/
def seIndex (size : α → Int) (xs : List α) (s : Nat × Bool) (n : Int) : Option Int := (pindex xs s.1 ((n + b2i s.2).tdiv 2)).map size
/-- `operator==` (284-291) -/
def seEq (a b : Nat × Bool) : Bool := a.1 == b.1 && a.2 == b.2
/-- `operator<` (308-317) -/
def seLt (a b : Nat × Bool) : Bool := decide (a.1 < b.1) || (a.1 == b.1 && !a.2 && b.2)
/-- `operator-` (363-376) -/
def seDiff (a b : Nat × Bool) : Option Int :=
  some ((a.1 : Int) - b.1 + if a.2 then (if b.2 then 0 else -1) else (if b.2 then 1 else 0))

/-! ### `insert_range_iterator`: state `current1`, `current2`; `ys` is inserted in `xs` at `pos`.
`operator+` is not modelled: it calls a constructor with six arguments that does not exist (iterator/insert_range_iterator.hpp
54, 58, 62, 66) -/

/-- `is_in_base` (iterator/insert_range_iterator.hpp 105-107) -/
def irInBase (pos : Nat) (ys : List α) (s : Nat × Nat) : Bool := s.1 != pos || s.2 == ys.length
/-- `operator*` (108-110) -/
def irDeref (xs ys : List α) (pos : Nat) (s : Nat × Nat) : Option α := if irInBase pos ys s then rd xs s.1 else rd ys s.2
/-- `operator++`, `next` (114-121, 167-171) -/
def irNext (xs ys : List α) (pos : Nat) (s : Nat × Nat) : Option (Nat × Nat) :=
  if irInBase pos ys s then (padd xs.length s.1 1).map (·, s.2) else (padd ys.length s.2 1).map (s.1, ·)
/-- `operator--`, `prev` (131-138, 172-176) -/
def irPrev (xs ys : List α) (pos : Nat) (s : Nat × Nat) : Option (Nat × Nat) :=
  if s.1 ≠ pos ∨ s.2 = 0 then (padd xs.length s.1 (-1)).map (·, s.2) else (padd ys.length s.2 (-1)).map (s.1, ·)
/-- `operator==` (198-204) -/
def irEq (a b : Nat × Nat) : Bool := a.1 == b.1 && a.2 == b.2
/-- `operator<` (220-229) -/
def irLt (pos : Nat) (ys : List α) (a b : Nat × Nat) : Bool :=
  if irInBase pos ys a && irInBase pos ys b then decide (a.1 < b.1)
  else if !irInBase pos ys a && !irInBase pos ys b then decide (a.2 < b.2)
  else irInBase pos ys a
/-- `operator-` (267-277) -/
def irDiff (a b : Nat × Nat) : Option Int := limitedPlus .int64 ((a.1 : Int) - b.1) ((a.2 : Int) - b.2)

/-! ### `step_iterator` -/

/-- members `current`, `wid`, `back`, `is_last`; `last` is only stored -/
structure Step where
  current : Nat
  wid : Int
  back : Nat
  isLast : Bool
  deriving DecidableEq

/-- the constructor from a position and `last`, with `get_back` (iterator/step_iterator.hpp 38-40, 68-71) -/
def stMake (xs : List α) (it : Nat) (wid : Int) (last : Nat) : Option Step := do
  if wid = 0 then none
  else do
    let back ← padd xs.length it ((((last : Int) - it) - 1).tdiv wid * wid)
    some ⟨it, wid, back, it == last⟩
/-- `next_distance` (41-46) -/
def stDist (s : Step) (n : Int) : Int :=
  if n ≥ 0 then min ((s.back : Int) - s.current) (n * s.wid)
  else if s.isLast then 0
  else max (-((s.back : Int) - s.current)) (n * s.wid)
/-- `operator+`, `operator+=` (55-58, 131-133, 137-141); `next` adds 1 (150-152), `prev` adds -1 (153-155) -/
def stAdd (xs : List α) (s : Step) (n : Int) : Option Step :=
  (padd xs.length s.current (stDist s n)).map fun c => ⟨c, s.wid, s.back, stDist s n == 0⟩
/-- `operator-`, `operator-=` (134-136, 142-146) -/
def stSub (xs : List α) (s : Step) (n : Int) : Option Step := stAdd xs s (-n)
/-- `operator++` (101-107) -/
def stIncr (xs : List α) (s : Step) : Option Step :=
  let s := if s.current = s.back then { s with isLast := true } else s
  (padd xs.length s.current (stDist s 1)).map fun c => { s with current := c }
/-- `operator--` (116-122) -/
def stDecr (xs : List α) (s : Step) : Option Step :=
  (padd xs.length s.current (stDist s (-1))).map fun c =>
    let s := { s with current := c }
    if s.current ≠ s.back then { s with isLast := false } else s
/-- `operator*` (95-97) -/
def stDeref (xs : List α) (s : Step) : Option α := rd xs s.current
/-- `operator[]` (147-149) -/
def stIndex (xs : List α) (s : Step) (n : Int) : Option α := pindex xs s.current (n * s.wid)
/-- `operator==` (174-178) -/
def stEq (a b : Step) : Bool := a.current == b.current && a.isLast == b.isLast
/-- `operator<` (184-188) -/
def stLt (a b : Step) : Bool := decide (a.current < b.current) || (a.current == b.current && !a.isLast && b.isLast)
/-- `operator-` (204-208) -/
def stDiff (a b : Step) : Option Int :=
  some (((a.current : Int) - b.current).tdiv a.wid + (if a.isLast then 1 else 0) - (if b.isLast then 1 else 0))

/-! ### `bytes_iterator`: state `it_`, `i_`; `size()` is of type `size_t`, so that all operands are converted to it -/

/-- conversion to `size_t` -/
def toU (x : Int) : Int := x % 2 ^ 64
/-- conversion to `ptrdiff_t` -/
def toS (x : Int) : Int := CInt.int64.conv x
/-- `operator*` (iterator/bytes_iterator.hpp 110-112) -/
def byDeref (byte : α → Int → Option β) (xs : List α) (s : Nat × Int) : Option β := do
  let x ← rd xs s.1
  byte x s.2
/-- `operator++`, `next` (66-69, 98-100, 113-117) -/
def byNext (sz : Nat) (xs : List α) (s : Nat × Int) : Option (Nat × Int) :=
  (if toU (s.2 + 1) / sz = 0 then some s.1 else padd xs.length s.1 1).map (·, toS (toU (s.2 + 1) % sz))
/-- `operator--`, `prev` (70-73, 101-103, 123-127) -/
def byPrev (sz : Nat) (xs : List α) (s : Nat × Int) : Option (Nat × Int) :=
  (if toU (s.2 - 1 + 1 - sz) / sz = 0 then some s.1 else padd xs.length s.1 (-1)).map (·, toS (toU (toU (s.2 - 1) % sz + sz)))
/-- the new `it_` (74-78) -/
def byAddIt (sz : Nat) (xs : List α) (p : Nat) (i : Int) : Option Nat :=
  if i ≥ 0 then padd xs.length p (toS (toU i / sz)) else padd xs.length p (toS (toU (i + 1 - sz) / sz))
/-- the new `i_` (79-82) -/
def byAddIx (sz : Nat) (i : Int) : Int := if i ≥ 0 then toS (toU i % sz) else toS (toU (toU i % sz + sz))
/-- `operator+` (74-83, 133-135) -/
def byAdd (sz : Nat) (xs : List α) (s : Nat × Int) (n : Int) : Option (Nat × Int) := (byAddIt sz xs s.1 (s.2 + n)).map (·, byAddIx sz (s.2 + n))
/-- `operator-` (136-138) -/
def bySub (sz : Nat) (xs : List α) (s : Nat × Int) (n : Int) : Option (Nat × Int) := byAdd sz xs s (-n)
/-- `operator[]` (149-151) -/
def byIndex (byte : α → Int → Option β) (sz : Nat) (xs : List α) (s : Nat × Int) (n : Int) : Option β := do
  let t ← byAdd sz xs s n
  byDeref byte xs t
/-- `operator==` (154-158) -/
def byEq (a b : Nat × Int) : Bool := a.1 == b.1 && a.2 == b.2
/-- `operator<` (164-168) -/
def byLt (a b : Nat × Int) : Bool := decide (a.1 < b.1) || (a.1 == b.1 && decide (a.2 < b.2))
/-- `operator-` (184-188) -/
def byDiff (sz : Nat) (a b : Nat × Int) : Option Int := some (toS (toU (toU (toU ((a.1 : Int) - b.1) * sz) + toU (a.2 - b.2))))

end Sprout.Adaptor
