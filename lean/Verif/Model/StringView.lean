import Verif.Model.StringClass

/-!
# `basic_string_view` (sprout/utility/string_view/string_view.hpp)

The members (string_view.hpp 79-80) are a pointer, here a position `ptr` in the block `m`, and a length. Two views may point into
different blocks. `size_type` has 64 bits. The search functions of the class (263-358) pass their arguments to the functions
of `string_detail` (Model/StringSearch).
-/

namespace Sprout.Str
open Spec.Str (npos)

structure SView where
  ptr : Nat
  len : Nat
  deriving DecidableEq, Repr

namespace SView

/-- `basic_string_view(str)` (93-95) -/
def ofC (m : List Int) (s : Nat) : Option SView := do
  let n ← Cstr.strlen m s
  some ⟨s, n⟩

/-- `basic_string_view(basic_string const&)` (96-99); the block is the array of the string -/
def ofStr (x : BStr) : SView := ⟨0, x.len⟩

/-- `at(i)` (204-209) -/
def atPos (v : SView) (m : List Int) (i : Nat) : Option (Ret Int) :=
  if i < v.len then (rd m (v.ptr + i)).map Ret.ret else some (.throw .outOfRange)

/-- `remove_prefix(n)` of a variable (226-233) -/
def removePrefix (v : SView) (n : Nat) : SView :=
  let n := if n > v.len then v.len else n
  ⟨v.ptr + n, v.len - n⟩

/-- `remove_prefix(n)` of a constant (234-239) -/
def removePrefixC (v : SView) (n : Nat) : SView :=
  if n > v.len then ⟨v.ptr + v.len, 0⟩ else ⟨v.ptr + n, v.len - n⟩

/-- `remove_suffix(n)` of a variable (240-246) -/
def removeSuffix (v : SView) (n : Nat) : SView :=
  let n := if n > v.len then v.len else n
  ⟨v.ptr, v.len - n⟩

/-- `remove_suffix(n)` of a constant (247-252) -/
def removeSuffixC (v : SView) (n : Nat) : SView :=
  if n > v.len then ⟨v.ptr, 0⟩ else ⟨v.ptr, v.len - n⟩

/-- `find(str, pos)` (263-266) -/
def find (v : SView) (m : List Int) (w : SView) (mw : List Int) (pos : Nat) : Option Nat :=
  findImpl m mw v.ptr v.len w.ptr pos w.len

/-- `rfind(str, pos)` (279-282) -/
def rfind (v : SView) (m : List Int) (w : SView) (mw : List Int) (pos : Nat) : Option Nat :=
  rfindImpl m mw v.ptr v.len w.ptr pos w.len

/-- `find_first_of(str, pos)` (295-298) -/
def findFirstOf (v : SView) (m : List Int) (w : SView) (mw : List Int) (pos : Nat) : Option Nat :=
  findFirstOfImpl m mw v.ptr v.len w.ptr pos w.len

/-- `find_last_of(str, pos)` (311-314) -/
def findLastOf (v : SView) (m : List Int) (w : SView) (mw : List Int) (pos : Nat) : Option Nat :=
  findLastOfImpl m mw v.ptr v.len w.ptr pos w.len

/-- `find_first_not_of(str, pos)` (327-330) -/
def findFirstNotOf (v : SView) (m : List Int) (w : SView) (mw : List Int) (pos : Nat) : Option Nat :=
  findFirstNotOfImpl m mw v.ptr v.len w.ptr pos w.len

/-- `find_last_not_of(str, pos)` (343-346) -/
def findLastNotOf (v : SView) (m : List Int) (w : SView) (mw : List Int) (pos : Nat) : Option Nat :=
  findLastNotOfImpl m mw v.ptr v.len w.ptr pos w.len

/-- `rangecheck(pos)` (439-444) and `copy(s, n, pos)` (359-365) to a block `md`; the number of characters and the block -/
def copyTo (v : SView) (m md : List Int) (s n pos : Nat) : Option (Ret (List Int × Nat)) :=
  if pos ≥ v.len then some (.throw .outOfRange)
  else do
    let xs ← (List.range (min n (v.len - pos))).mapM (fun i => rd m (v.ptr + pos + i))
    let (md, _) ← BStr.storeLoop md s xs
    some (.ret (md, min n (v.len - pos)))

/-- `substr(pos, n)` (366-373); the second call has `n ≠ npos`, sizes being less -/
def substr (v : SView) (pos n : Nat) : Ret SView :=
  if ¬v.len < pos then
    if n = npos then .ret ⟨v.ptr + pos, v.len - pos⟩ else .ret ⟨v.ptr + pos, n⟩
  else .throw .outOfRange

/-- `compare(pos1, n1, s, n2)` (397-403) -/
def compare (v : SView) (m : List Int) (pos1 n1 : Nat) (ms : List Int) (s n2 : Nat) : Option (Ret Int) :=
  if ¬v.len < pos1 then (compareImpl m ms v.ptr pos1 (min n1 (v.len - pos1)) s n2).map Ret.ret
  else some (.throw .outOfRange)

/-- `compare(pos1, n1, str, pos2, n2)` (390-396) -/
def compareSub (v : SView) (m : List Int) (pos1 n1 : Nat) (w : SView) (mw : List Int) (pos2 n2 : Nat) : Option (Ret Int) :=
  if ¬w.len < pos2 then compare v m pos1 n1 mw (w.ptr + pos2) (min n2 (w.len - pos2))
  else some (.throw .outOfRange)

/-- `compare(str)` (374-377) -/
def compareView (v : SView) (m : List Int) (w : SView) (mw : List Int) : Option (Ret Int) := compare v m 0 v.len mw w.ptr w.len

/-- `compare(s)` (378-381) -/
def compareC (v : SView) (m ms : List Int) (s : Nat) : Option (Ret Int) := do
  let n ← Cstr.strlen ms s
  compare v m 0 v.len ms s n

/-- `operator==` (sprout/utility/string_view/comparison.hpp 24-28) -/
def eq (v : SView) (m : List Int) (w : SView) (mw : List Int) : Option (Ret Bool) := BStr.test (compareView v m w mw) (fun r => r == 0)

/-- `operator<` (comparison.hpp 54-58) -/
def lt (v : SView) (m : List Int) (w : SView) (mw : List Int) : Option (Ret Bool) :=
  BStr.test (compareView v m w mw) (fun r => decide (r < 0))

/-- `starts_with(c)` (404-407) -/
def startsWithChar (v : SView) (m : List Int) (c : Int) : Option Bool :=
  if v.len ≠ 0 then (rd m v.ptr).map (fun x => c == x) else some false

/-- `starts_with(str)` (408-411) -/
def startsWith (v : SView) (m : List Int) (w : SView) (mw : List Int) : Option Bool :=
  if v.len ≥ w.len then (traitsCompare m mw v.ptr w.ptr w.len).map (fun r => r == 0) else some false

/-- `ends_with(c)` (412-415) -/
def endsWithChar (v : SView) (m : List Int) (c : Int) : Option Bool :=
  if v.len ≠ 0 then (rd m (v.ptr + (v.len - 1))).map (fun x => c == x) else some false

/-- `ends_with(str)` (416-419) -/
def endsWith (v : SView) (m : List Int) (w : SView) (mw : List Int) : Option Bool :=
  if v.len ≥ w.len then (traitsCompare m mw (v.ptr + v.len - w.len) w.ptr w.len).map (fun r => r == 0) else some false

/-- `to_string<N>()` (420-424), also the conversion (430-433) -/
def toStr (N : Nat) (v : SView) (m : List Int) : Option (Ret BStr) := BStr.ofCn N m v.ptr v.len

end SView
end Sprout.Str
