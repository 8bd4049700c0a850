import Verif.Model.StringSearch
import Verif.Model.Moves
import Verif.Model.Exn

/-!
# `basic_string` (sprout/string/string.hpp)

The members of `basic_string_impl` (string.hpp 130-131) are the array `elems` of `N + 1` characters and the length `len`.
A pointer argument is a position `s` in a block `ms` (another object); functions whose argument points into the string itself
have the suffix `Self`. The outcome is undefined behaviour, an exception, or the new value of the string; what the string is
left as after an exception is not represented. `size_type` has 64 bits.
-/

namespace Sprout.Str
open Spec.Str (npos)

structure BStr where
  elems : List Int
  len : Nat
  deriving DecidableEq, Repr

namespace BStr

/-- `max_size()` = `static_size` = `N` (string.hpp 264, 540-542) -/
def maxSize (x : BStr) : Nat := x.elems.length - 1

/-- values of `size_type` -/
def wrap (n : Nat) : Nat := n % 2 ^ 64

/-! ### comparison -/

/-- `compare(pos1, n1, s, n2)` (string.hpp 877-883) -/
def compare (x : BStr) (pos1 n1 : Nat) (ms : List Int) (s n2 : Nat) : Option (Ret Int) :=
  if ¬x.len < pos1 then (compareImpl x.elems ms 0 pos1 (min n1 (x.len - pos1)) s n2).map Ret.ret
  else some (.throw .outOfRange)

/-- `compare(pos1, n1, str, pos2, n2)` (string.hpp 869-876) -/
def compareSub (x : BStr) (pos1 n1 : Nat) (y : BStr) (pos2 n2 : Nat) : Option (Ret Int) :=
  if ¬y.len < pos2 then compare x pos1 n1 y.elems pos2 (min n2 (y.len - pos2))
  else some (.throw .outOfRange)

/-- `compare(str)` (string.hpp 851-855) -/
def compareStr (x y : BStr) : Option (Ret Int) := compare x 0 x.len y.elems 0 y.len

/-- `compare(s)` (string.hpp 856-859) -/
def compareC (x : BStr) (ms : List Int) (s : Nat) : Option (Ret Int) := do
  let n ← Cstr.strlen ms s
  compare x 0 x.len ms s n

/-- the value of a comparison, tested -/
def test (r : Option (Ret Int)) (p : Int → Bool) : Option (Ret Bool) := do
  match ← r with
  | .ret v => some (.ret (p v))
  | .throw e => some (.throw e)

/-- `operator==` (sprout/string/comparison.hpp 24-28) -/
def eq (x y : BStr) : Option (Ret Bool) := test (compareStr x y) (fun v => v == 0)
/-- `operator!=` (comparison.hpp 39-43) -/
def ne (x y : BStr) : Option (Ret Bool) := test (compareStr x y) (fun v => !(v == 0))
/-- `operator<` (comparison.hpp 54-58) -/
def lt (x y : BStr) : Option (Ret Bool) := test (compareStr x y) (fun v => decide (v < 0))
/-- `operator>` (comparison.hpp 69-73) -/
def gt (x y : BStr) : Option (Ret Bool) := lt y x
/-- `operator<=` (comparison.hpp 84-88) -/
def le (x y : BStr) : Option (Ret Bool) := test (compareStr y x) (fun v => !decide (v < 0))
/-- `operator>=` (comparison.hpp 99-103) -/
def ge (x y : BStr) : Option (Ret Bool) := test (compareStr x y) (fun v => !decide (v < 0))
/-- `operator==(string, T const*)`, `operator==(T const*, string)` (comparison.hpp 29-38) -/
def eqC (x : BStr) (ms : List Int) (s : Nat) : Option (Ret Bool) := test (compareC x ms s) (fun v => v == 0)
/-- `operator<(string, T const*)` (comparison.hpp 59-63) -/
def ltC (x : BStr) (ms : List Int) (s : Nat) : Option (Ret Bool) := test (compareC x ms s) (fun v => decide (v < 0))
/-- `operator<(T const*, string)` (comparison.hpp 64-68), also `operator>(string, T const*)` (74-78) -/
def cLt (ms : List Int) (s : Nat) (x : BStr) : Option (Ret Bool) := test (compareC x ms s) (fun v => decide (0 < v))

/-! ### modifiers -/

/-- `traits_type::move(s1, s2, n)` (char_traits.hpp 116-119) between different objects: `copy_backward`, the last character
first -/
def moveFrom (m ms : List Int) (d s : Nat) : Nat → Option (List Int)
  | 0 => some m
  | n + 1 => do
    let x ← rd ms (s + n)
    let m ← wr m (d + n) x
    moveFrom m ms d s n

/-- `traits_type::move(s1, s2, n)` within the string -/
def moveSelf (m : List Int) (d s n : Nat) : Option (List Int) := (copyBackward m s (s + n) (d + n)).map Prod.fst

/-- `traits_type::assign(s, n, a)` (char_traits.hpp 124-127): `fill` -/
def fill (m : List Int) (d : Nat) : Nat → Int → Option (List Int)
  | 0, _ => some m
  | n + 1, v => do
    let m ← wr m d v
    fill m (d + 1) n v

/-- `put_terminator` (string.hpp 297-303) -/
def putTerminator (x : BStr) (n : Nat) : Option BStr := do
  if n < x.len then
    let e ← fill x.elems n (x.len - n) 0
    some ⟨e, n⟩
  else some ⟨x.elems, n⟩

/-- a modified array, then `put_terminator(n); return *this;` -/
def finish (x : BStr) (e : Option (List Int)) (n : Nat) : Option (Ret BStr) := do
  let e ← e
  let y ← putTerminator ⟨e, x.len⟩ n
  some (.ret y)

/-- `lengthcheck(n)` (string.hpp 291-296), then the rest -/
def lengthcheck (x : BStr) (n : Nat) (rest : Option (Ret BStr)) : Option (Ret BStr) :=
  if n > maxSize x then some (.throw .lengthError) else rest

/-- `maxcheck(n)` (string.hpp 285-290), then the rest -/
def maxcheck (x : BStr) (n : Nat) (rest : Option (Ret BStr)) : Option (Ret BStr) :=
  if n > maxSize x then some (.throw .outOfRange) else rest

/-- `resize(n, c)` (string.hpp 543-550) -/
def resize (x : BStr) (n : Nat) (c : Int) : Option (Ret BStr) :=
  lengthcheck x n (finish x (if n > x.len then fill x.elems x.len (n - x.len) c else some x.elems) n)

/-- `clear()` (string.hpp 559-562) -/
def clear (x : BStr) : Option BStr := putTerminator x 0

/-- `pop_back()` (string.hpp 695-698) -/
def popBack (x : BStr) : Option BStr := putTerminator x (wrap (x.len + (2 ^ 64 - 1)))

/-- `append(s, n)` (string.hpp 620-626) -/
def append (x : BStr) (ms : List Int) (s n : Nat) : Option (Ret BStr) :=
  lengthcheck x (wrap (x.len + n)) (finish x (moveFrom x.elems ms x.len s n) (wrap (x.len + n)))

/-- `append(s, n)` with `s` pointing into the string -/
def appendSelf (x : BStr) (s n : Nat) : Option (Ret BStr) :=
  lengthcheck x (wrap (x.len + n)) (finish x (moveSelf x.elems x.len s n) (wrap (x.len + n)))

/-- `append(s)` (string.hpp 627-630) -/
def appendC (x : BStr) (ms : List Int) (s : Nat) : Option (Ret BStr) := do
  let n ← Cstr.strlen ms s
  append x ms s n

/-- `append(n, c)` (string.hpp 631-637) -/
def appendFill (x : BStr) (n : Nat) (c : Int) : Option (Ret BStr) :=
  lengthcheck x (wrap (x.len + n)) (finish x (fill x.elems x.len n c) (wrap (x.len + n)))

/-- `push_back(c)` (string.hpp 648-651) -/
def pushBack (x : BStr) (c : Int) : Option (Ret BStr) := appendFill x 1 c

/-- `rlen` of `append(str, pos, n)`, `assign(str, pos, n)` (string.hpp 614-617, 661-664) -/
def rlen (y : BStr) (pos n : Nat) : Nat := if n ≠ npos then min n (y.len - pos) else y.len - pos

/-- `append(str)` (string.hpp 605-609) -/
def appendStr (x y : BStr) : Option (Ret BStr) := append x y.elems 0 y.len

/-- `append(str, pos, n)` (string.hpp 610-619) with `rangecheck` (893-897) -/
def appendSub (x y : BStr) (pos n : Nat) : Option (Ret BStr) :=
  if pos ≥ y.len then some (.throw .outOfRange) else append x y.elems pos (rlen y pos n)

/-- `assign(s, n)` (string.hpp 667-673) -/
def assign (x : BStr) (ms : List Int) (s n : Nat) : Option (Ret BStr) :=
  lengthcheck x n (finish x (moveFrom x.elems ms 0 s n) n)

/-- `assign(s, n)` with `s` pointing into the string -/
def assignSelf (x : BStr) (s n : Nat) : Option (Ret BStr) := lengthcheck x n (finish x (moveSelf x.elems 0 s n) n)

/-- `assign(s)` (string.hpp 674-677) -/
def assignC (x : BStr) (ms : List Int) (s : Nat) : Option (Ret BStr) := do
  let n ← Cstr.strlen ms s
  assign x ms s n

/-- `assign(n, c)` (string.hpp 678-684) -/
def assignFill (x : BStr) (n : Nat) (c : Int) : Option (Ret BStr) := maxcheck x n (finish x (fill x.elems 0 n c) n)

/-- `assign(str, pos, n)` (string.hpp 657-666) -/
def assignSub (x y : BStr) (pos n : Nat) : Option (Ret BStr) :=
  if pos ≥ y.len then some (.throw .outOfRange) else assign x y.elems pos (rlen y pos n)

/-- `assign(str)`, `operator=(str)` (string.hpp 652-656, 430-438) -/
def assignStr (x y : BStr) : Option (Ret BStr) := assignSub x y 0 npos

/-- the loop of the iterator versions of `assign`, `append` for forward iterators (string.hpp 322-324, 346-348); the source are
the characters `ds` -/
def storeLoop (m : List Int) (it : Nat) : List Int → Option (List Int × Nat)
  | [] => some (m, it)
  | c :: ds => do
    let m ← wr m it c
    storeLoop m (it + 1) ds

/-- the loop of the versions for input iterators (string.hpp 308-313, 332-337) -/
def storeLoopChecked (N : Nat) (m : List Int) (it : Nat) : List Int → Option (Ret (List Int × Nat))
  | [] => some (.ret (m, it))
  | c :: ds =>
    if it > N then some (.throw .lengthError)
    else do
      let m ← wr m it c
      storeLoopChecked N m (it + 1) ds

/-- `assign(first, last)` for forward iterators (string.hpp 317-327) -/
def assignFwd (x : BStr) (ds : List Int) : Option (Ret BStr) :=
  lengthcheck x ds.length (do
    let r ← storeLoop x.elems 0 ds
    finish x (some r.1) r.2)

/-- `append(first, last)` for forward iterators (string.hpp 341-351) -/
def appendFwd (x : BStr) (ds : List Int) : Option (Ret BStr) :=
  lengthcheck x (wrap (x.len + ds.length)) (do
    let r ← storeLoop x.elems x.len ds
    finish x (some r.1) (x.len + (r.2 - x.len)))

/-- `assign(first, last)` for input iterators (string.hpp 304-316) -/
def assignInput (x : BStr) (ds : List Int) : Option (Ret BStr) := do
  match ← storeLoopChecked (maxSize x) x.elems 0 ds with
  | .ret r => finish x (some r.1) r.2
  | .throw e => some (.throw e)

/-- `append(first, last)` for input iterators (string.hpp 328-340) -/
def appendInput (x : BStr) (ds : List Int) : Option (Ret BStr) := do
  match ← storeLoopChecked (maxSize x) x.elems x.len ds with
  | .ret r => finish x (some r.1) (x.len + (r.2 - x.len))
  | .throw e => some (.throw e)

/-- `operator>>=(T const&)` (string.hpp 1148-1155); the character is given by value -/
def prependChar (x : BStr) (c : Int) : Option (Ret BStr) :=
  lengthcheck x (wrap (x.len + 1)) (finish x (do
    let m ← moveSelf x.elems 1 0 x.len
    fill m 0 1 c) (wrap (x.len + 1)))

/-- `operator>>=(T const&)` for a reference to the element `i` of the string itself -/
def prependRef (x : BStr) (i : Nat) : Option (Ret BStr) :=
  lengthcheck x (wrap (x.len + 1)) (finish x (do
    let m ← moveSelf x.elems 1 0 x.len
    let c ← rd m i
    fill m 0 1 c) (wrap (x.len + 1)))

/-- `operator>>=(basic_string const&)`, `operator>>=(initializer_list)`, and after `length` `operator>>=(T const*)`
(string.hpp 1156-1181) -/
def prepend (x : BStr) (ms : List Int) (s n : Nat) : Option (Ret BStr) :=
  lengthcheck x (wrap (x.len + n)) (finish x (do
    let m ← moveSelf x.elems n 0 x.len
    moveFrom m ms 0 s n) (wrap (x.len + n)))

/-- `operator>>=` of the string with itself (string.hpp 1165-1173): the source of the second `move` is the array already
modified -/
def prependSelf (x : BStr) : Option (Ret BStr) :=
  lengthcheck x (wrap (x.len + x.len)) (finish x (do
    let m ← moveSelf x.elems x.len 0 x.len
    moveSelf m 0 0 x.len) (wrap (x.len + x.len)))

/-- `swap_ranges(first1, first1 + n, first2)` (sprout/algorithm/cxx14/swap_ranges.hpp 20-30) between two arrays -/
def swapRanges (a b : List Int) (i : Nat) : Nat → Option (List Int × List Int)
  | 0 => some (a, b)
  | n + 1 => do
    let x ← rd a i
    let y ← rd b i
    let a ← wr a i y
    let b ← wr b i x
    swapRanges a b (i + 1) n

/-- `swap(other)` (string.hpp 700-706): the first `max_size()` characters and the lengths -/
def swap (x y : BStr) : Option (BStr × BStr) := do
  let r ← swapRanges y.elems x.elems 0 (maxSize y)
  some (⟨r.2, y.len⟩, ⟨r.1, x.len⟩)

/-! ### access, constructors, substrings -/

/-- `at(i)` (string.hpp 576-587) -/
def atPos (x : BStr) (i : Nat) : Option (Ret Int) :=
  if i < x.len then (rd x.elems i).map Ret.ret else some (.throw .outOfRange)

/-- `copy(s, n, pos)` (string.hpp 728-734) to position `s` of the block `m`, another object: the block and the
number of characters. (All characters are read before the first is written; with different objects that makes no difference.) -/
def copyTo (x : BStr) (m : List Int) (s n pos : Nat) : Option (Ret (List Int × Nat)) :=
  if pos ≥ x.len then some (.throw .outOfRange)
  else do
    let cs ← (List.range (min n (x.len - pos))).mapM (fun i => rd x.elems (pos + i))
    let r ← storeLoop m s cs
    some (.ret (r.1, min n (x.len - pos)))

/-- one character of the pack expansion in the constructors of `basic_string_impl` (string.hpp 143-147): element `i` of an
array initialised with `k` elements, of which those from `n` on are null; the others, up to `N`, are value-initialised -/
def elem (ms : List Int) (pos n k i : Nat) : Option Int :=
  if i < k then (if i < n then rd ms (i + pos) else some 0) else some 0

/-- the array built by a constructor of `basic_string_impl` with `k` indices (string.hpp 138-193) -/
def build (ms : List Int) (pos n k N : Nat) : Option (List Int) := (List.range (N + 1)).mapM (elem ms pos n k)

/-- `basic_string(str)` for a shorter type (string.hpp 356-362), `N2 = maxSize y` -/
def ofShorter (N : Nat) (y : BStr) : Option BStr := do
  let e ← build y.elems 0 y.len (maxSize y) N
  some ⟨e, y.len⟩

/-- `basic_string(str, pos, n)` (string.hpp 363-375): `min(n, str.size() - pos)` in `size_type` -/
def ofSub (N : Nat) (y : BStr) (pos n : Nat) : Option BStr := do
  let e ← build y.elems pos (min n (wrap (y.len + (2 ^ 64 - pos)))) (maxSize y) N
  some ⟨e, min n (wrap (y.len + (2 ^ 64 - pos)))⟩

/-- the checked constructor (string.hpp 150-163): `basic_string(s)`, `basic_string(s, n)`, `basic_string(il)` -/
def ofChecked (N : Nat) (ms : List Int) (s n : Nat) : Option (Ret BStr) := do
  let e ← build ms s n N N
  some (if ¬N < n then .ret ⟨e, n⟩ else .throw .lengthError)

/-- `basic_string(s)` (string.hpp 390-395), `from_c_str(s)` (269-271) -/
def ofC (N : Nat) (ms : List Int) (s : Nat) : Option (Ret BStr) := do
  let n ← Cstr.strlen ms s
  ofChecked N ms s n

/-- `basic_string(s, n)` (string.hpp 396-401), `from_c_str(s, n)` (266-268): `min(n, length(s))` characters -/
def ofCn (N : Nat) (ms : List Int) (s n : Nat) : Option (Ret BStr) := do
  let l ← Cstr.strlen ms s
  ofChecked N ms s (min n l)

/-- `basic_string(arr)` for an array of `N2` characters (string.hpp 376-382) -/
def ofArray (N : Nat) (arr : List Int) : Option BStr := do
  let l ← Cstr.strlenN arr 0 (arr.length - 1)
  let e ← build arr 0 l (arr.length - 1) N
  some ⟨e, l⟩

/-- `basic_string(n, c)` (string.hpp 402-407) -/
def ofFill (N n : Nat) (c : Int) : Option (Ret BStr) :=
  some (if ¬N < n then .ret ⟨(List.range (N + 1)).map (fun i => if i < N then (if i < n then c else 0) else 0), n⟩
    else .throw .lengthError)

/-- `substr(pos, n)` (string.hpp 845-850) -/
def substr (x : BStr) (pos n : Nat) : Option (Ret BStr) :=
  if ¬x.len < pos then ofCn (maxSize x) x.elems pos (min n (x.len - pos)) else some (.throw .outOfRange)

/-- one character of `string_concat`, `string_rshift` (concat.hpp 99-102, shift_concat.hpp 74-77) and then of
`raw_construct` (string.hpp 194-205) -/
def concatElem (x y : BStr) (total i : Nat) : Option Int := do
  let c ← if i < x.len then rd x.elems i else if i < x.len + y.len then rd y.elems (i - x.len) else some 0
  some (if i < total then c else 0)

/-- `operator+` (sprout/string/concat.hpp 88-104, 148-156): `N1 + N2` characters are given, the last is value-initialised -/
def concat (x y : BStr) : Option BStr := do
  let e ← (List.range (maxSize x + maxSize y)).mapM (concatElem x y (x.len + y.len))
  some ⟨e ++ [0], x.len + y.len⟩

/-- `operator<<` (sprout/string/shift_concat.hpp 63-79, 119-127) with `checked_length` (20-25) -/
def shiftConcat (x y : BStr) : Option (Ret BStr) :=
  if ¬x.len + y.len ≤ maxSize x then some (.throw .lengthError)
  else do
    let e ← (List.range (maxSize x)).mapM (concatElem x y (x.len + y.len))
    some (.ret ⟨e ++ [0], x.len + y.len⟩)

/-- `operator>>` (shift_concat.hpp 173-189): the right operand in front -/
def shiftPrepend (x y : BStr) : Option (Ret BStr) :=
  if ¬y.len + x.len ≤ maxSize x then some (.throw .lengthError)
  else do
    let e ← (List.range (maxSize x)).mapM (concatElem y x (y.len + x.len))
    some (.ret ⟨e ++ [0], y.len + x.len⟩)

end BStr
end Sprout.Str
