import Verif.Model.Exn
import Verif.Model.Find
import Verif.Model.MinMax
import Verif.Model.Numeric

/-!
# valarray and its subsets

sprout/valarray: an array of `N` elements and a size. Positions and sizes are natural numbers below 2^64 (no sum or product of
positions wraps); where a distance is converted to `size_type` it does wrap. Iterators are positions in the block of the `N` elements.
A subset (`slice_array`, …) refers to a valarray: what is modelled is the map from its indexes to positions, and the block read or
written. The copy and move assignment of `valarray` (valarray.hpp 228-239) name the members `array_` and `size_` of `valarray`, which
do not exist: they cannot be compiled.
-/

namespace Sprout.Valarray

variable {α β γ : Type}

/-- `valarray_impl`: `array_`, `size_` (valarray.hpp 78-79) -/
structure VA (α : Type) where
  elems : List α
  len : Nat
  deriving DecidableEq

/-- a pack expansion over the indexes below `n` -/
def pack (n : Nat) (f : Nat → Option α) : Option (List α) := (List.range n).mapM f

/-- a difference converted to `size_type` -/
def toSize (i : Int) : Nat := (i % 2 ^ 64).toNat

/-- `checked_size` (valarray.hpp 71-76), `lengthcheck` (168-173) -/
def checkedSize (N n : Nat) : Ret Nat := if N ≥ n then .ret n else .throw .lengthError

/-- an exception thrown by an initialiser -/
def Ret.then {α β : Type} (r : Ret α) (f : α → β) : Ret β :=
  match r with
  | .ret a => .ret (f a)
  | .throw e => .throw e

section construct
variable [Inhabited α]

/-- the default constructor (valarray.hpp 81-83, 176) -/
def empty0 (N : Nat) : VA α := ⟨List.replicate N default, 0⟩

/-- the constructor from a size (valarray.hpp 84-86, 177-179) -/
def ofSize (N n : Nat) : Ret (VA α) := Ret.then (checkedSize N n) fun s => ⟨List.replicate N default, s⟩

/-- the constructor from a value and a size (valarray.hpp 87-98, 180-185) -/
def ofValue (N : Nat) (value : α) (n : Nat) : Ret (VA α) :=
  Ret.then (checkedSize N n) fun s => ⟨(List.range N).map fun i => if i < n then value else default, s⟩

/-- the constructor from an iterator and a size (valarray.hpp 99-110): from a pointer (186-191), an initializer list (194-199), the
subsets (200-226); the elements are read first -/
def ofIter (N : Nat) (first : Nat → Option α) (n : Nat) : Option (Ret (VA α)) := do
  let a ← pack N fun i => if i < n then first i else some default
  some (Ret.then (checkedSize N n) fun s => ⟨a, s⟩)

/-- `raw_construct` (valarray.hpp 113-125, 155-161); disabled for more than `N` values -/
def raw (N n : Nat) (args : List α) : Option (VA α) :=
  if args.length ≤ N then
    some ⟨(List.range N).map fun i => if i < args.length then (if i < n then args.getD i default else default) else default, n⟩
  else none

/-- `make_valarray<T, N>(args...)` (make_valarray.hpp 27-62, with valarray.hpp 640-645), `to_valarray` (671-704) -/
def make (N : Nat) (args : List α) : Option (VA α) := raw N args.length args

/-- `container_complate` of a valarray (detail/container_complate.hpp 20-35, 65-80; the offset is 0): the values, then the old elements;
`remake` is `raw_construct` (valarray/container.hpp 37-42) -/
def complate (c : VA α) (args : List α) : Option (VA α) :=
  if c.elems.length = args.length then raw c.elems.length c.len args
  else if args.length < c.elems.length then do
    let x ← c.elems[args.length]?
    complate c (args ++ [x])
  else none
  termination_by c.elems.length - args.length
  decreasing_by simp; omega

/-- the pack expansion of the fixed algorithms for random access iterators: `g` where the test holds, else the old element; then `remake`
to a valarray of `N` elements and of size `len` -/
def packRa (N len : Nat) (old : Nat → Option α) (test : Nat → Bool) (g : Nat → Option α) : Option (VA α) := do
  let args ← pack N fun i => if test i then g i else old i
  raw N len args

end construct

/-! ## element access -/

/-- `operator[]` (valarray.hpp 284-291) -/
def get (v : VA α) (i : Nat) : Option α := v.elems[i]?
/-- `at` (valarray.hpp 532-543), `rangecheck` (578-582) -/
def at' (v : VA α) (i : Nat) : Option (Ret α) := if i < v.len then (get v i).map .ret else some (.throw .outOfRange)
/-- `front` (valarray.hpp 544-551) -/
def front (v : VA α) : Option α := v.elems[0]?
/-- `back` (valarray.hpp 552-559): the index wraps if there is no element -/
def back (v : VA α) : Option α := get v (toSize (v.len - 1))
/-- `nth` (valarray.hpp 585-596) -/
def nth (v : VA α) (i : Nat) : Ret Nat := if i < v.len then .ret i else .throw .outOfRange
/-- `empty` (valarray.hpp 527-530) -/
def empty (v : VA α) : Bool := v.len != 0
/-- the elements from `begin()` to `end()` (valarray.hpp 474-489) -/
def range (v : VA α) : Option (List α) := pack v.len fun i => v.elems[i]?
/-- the elements from `rbegin()` to `rend()` (valarray.hpp 490-505): `rend() - size()`, whose base is `size()` after the beginning -/
def rrange (v : VA α) : Option (List α) := pack v.len fun i => v.elems[v.len - 1 - i]?

/-! ## members -/

section members
variable [Inhabited α]

/-- `operator=` from a value (valarray.hpp 240-244), `fill`, `assign` (457-460, 465-468): the whole block -/
def fill (v : VA α) (x : α) : VA α := ⟨v.elems.map fun _ => x, v.len⟩
/-- `resize` (valarray.hpp 449-454) -/
def resize (v : VA α) (n : Nat) (x : α) : Ret (VA α) :=
  Ret.then (checkedSize v.elems.length n) fun _ => ⟨v.elems.map fun _ => x, n⟩
/-- `sum` (valarray.hpp 410-413) -/
def sum (plus : α → α → α) (v : VA α) : Option α := accumulateRa v.elems 0 v.len default plus
/-- `min` (valarray.hpp 414-417) -/
def min (lt : α → α → Bool) (v : VA α) : Option α := do v.elems[← minElementRa lt v.elems 0 v.len]?
/-- `max` (valarray.hpp 418-421) -/
def max (lt : α → α → Bool) (v : VA α) : Option α := do v.elems[← maxElementRa lt v.elems 0 v.len]?

/-- `shift` (valarray.hpp 422-428), with `fixed::copy` (algorithm/fixed/copy.hpp 29-61) and `fixed::copy_backward`
(copy_backward.hpp 29-64) -/
def shift (v : VA α) (i : Int) : Option (VA α) :=
  let N := v.elems.length
  if i > 0 then
    if i ≤ N then
      packRa N v.len (fun j => v.elems[j]?) (fun j => j < v.len ∧ j < toSize (v.len - i)) fun j => v.elems[i.toNat + j]?
    else none
  else if i < 0 then
    if 0 ≤ v.len + i then
      packRa N v.len (fun j => v.elems[j]?) (fun j => j < v.len ∧ j + v.len ≥ v.len ∧ j + toSize (v.len + i) ≥ v.len) fun j =>
        if 0 ≤ (v.len + i) + (j - v.len) then v.elems[((v.len + i) + (j - v.len)).toNat]? else none
    else none
  else some v

/-- `fixed::rotate` (algorithm/fixed/rotate.hpp 22-26, rotate_copy.hpp 29-70); `m` is the position of `middle` -/
def rotate (v : VA α) (m : Nat) : Option (VA α) :=
  let half := toSize (v.len - m)
  packRa v.elems.length v.len (fun j => v.elems[j]?) (fun j => j < v.len ∧ j < v.len) fun j =>
    if j < half then v.elems[m + j]? else v.elems[j - half]?

/-- `cshift` (valarray.hpp 429-435) -/
def cshift (v : VA α) (i : Int) : Option (VA α) :=
  if i > 0 then if i ≤ v.elems.length then rotate v i.toNat else none
  else if i < 0 then if 0 ≤ v.len + i then rotate v (v.len + i).toNat else none
  else some v

/-- `fixed::transform` to the valarray itself (algorithm/fixed/transform.hpp 31-63): `operator-`, `operator~` (valarray.hpp 336-343),
`apply` (436-448), the operators with a value (arithmetic.hpp 31-40, …; bitwise.hpp), the functions of trigonometric.hpp,
hyperbolic.hpp, exponential.hpp, power.hpp -/
def transform (f : α → α) (v : VA α) : Option (VA α) :=
  packRa v.elems.length v.len (fun j => v.elems[j]?) (fun j => j < v.len ∧ j < v.len) fun j => v.elems[j]?.map f

/-- `fixed::transform` of two ranges to the left operand (transform.hpp 109-145): the operators of arithmetic.hpp (28-30, …), bitwise.hpp -/
def transform2 (f : α → α → α) (v w : VA α) : Option (VA α) :=
  packRa v.elems.length v.len (fun j => v.elems[j]?) (fun j => j < v.len ∧ j < v.len) fun j => do
    let x ← v.elems[j]?
    let y ← w.elems[j]?
    some (f x y)

/-- `atan2`, `hypot`, `pow`, `log_a` of two valarrays (trigonometric.hpp 200-203, power.hpp 174-177, 192-195, 216-219): the second range
begins at `y.end()` -/
def transform2End (f : α → α → α) (v w : VA α) : Option (VA α) :=
  packRa v.elems.length v.len (fun j => v.elems[j]?) (fun j => j < v.len ∧ j < v.len) fun j => do
    let x ← v.elems[j]?
    let y ← w.elems[w.len + j]?
    some (f x y)

end members

/-- `fixed::transform` to a `sized_pit` (sized_pit/sized_pit.hpp 52-54, 75-80, container.hpp 29-48): `operator!` (valarray.hpp 344-348),
comparison and logical operators with a value (comparison.hpp, logical.hpp); the block has as many elements as that of `v` -/
def transformTo [Inhabited β] (f : α → β) (v : VA α) : Option (VA β) :=
  packRa v.elems.length v.len (fun _ => some default) (fun j => j < v.len ∧ j < v.len) fun j => v.elems[j]?.map f

/-- comparison and logical operators of two valarrays (comparison.hpp 32-36, …, logical.hpp 26-30) -/
def transformTo2 [Inhabited β] (f : α → α → β) (v w : VA α) : Option (VA β) :=
  packRa v.elems.length v.len (fun _ => some default) (fun j => j < v.len ∧ j < v.len) fun j => do
    let x ← v.elems[j]?
    let y ← w.elems[j]?
    some (f x y)

/-- whether `T& op= U` or `T const& op= U` can be compiled, for arithmetic types -/
inductive Ref | mut | const
  deriving DecidableEq

/-- a call of `binder2nd` (functional/bind2nd.hpp 47-66): the argument is passed on as `U const&` -/
def binder2ndArg (_ : Ref) : Ref := .const

/-- `for_each` with `bind2nd` of an assignment operator (functional/multiplies_assign.hpp 21-33): without overload if the operand is
const; the computed assignments of a value (valarray.hpp 350-399) -/
def computedValue (op : α → α → α) (v : VA α) (x : α) : Option (VA α) :=
  match binder2ndArg .mut with
  | .mut => some ⟨v.elems.mapIdx fun i y => if i < v.len then op y x else y, v.len⟩
  | .const => none

/-! ## subsets -/

/-- `slice_array`, `gslice_array`, `mask_array`, `indirect_array`: size and the position of the element of an index -/
structure Subset where
  size : Nat
  pos : Nat → Option Nat

/-- `slice_array` (slice_array.hpp 63-71, 194-209) -/
def slice (start size stride : Nat) : Subset := ⟨size, fun i => some (start + stride * i)⟩

/-- `slice_array::at` (slice_array.hpp 210-213) -/
def sliceAt (start stride : Nat) (v : VA α) (i : Nat) : Option (Ret α) := at' v (start + stride * i)

/-- `partial_sum_impl_1` with `multiplies` to a valarray (numeric/fixed/partial_sum.hpp 100-130) -/
def psum1 (c : VA Nat) : List Nat → Nat → List Nat → Option (VA Nat)
  | [], value, args =>
    if c.elems.length = args.length + 1 then raw c.elems.length c.len (args ++ [value]) else complate c (args ++ [value])
  | x :: xs, value, args =>
    if c.elems.length = args.length + 1 then raw c.elems.length c.len (args ++ [value])
    else if args.length + 1 < c.len then psum1 c xs (value * x) (args ++ [value])
    else complate c (args ++ [value])

/-- `partial_sum` (partial_sum.hpp 131-175) -/
def psum (c : VA Nat) (xs : List Nat) : Option (VA Nat) :=
  if c.elems.length = 0 then raw c.elems.length c.len []
  else match xs with
    | [] => complate c []
    | x :: xs => psum1 c xs x []

/-- `size_` of a gslice_array: the partial products from the end (gslice_array.hpp 84-92; range/adaptor/reversed.hpp, copied.hpp) -/
def gsizes (sizes : VA Nat) : Option (VA Nat) := do
  let r ← rrange sizes
  let p ← psum sizes r
  let q ← rrange p
  packRa sizes.elems.length sizes.len (fun j => sizes.elems[j]?) (fun j => j < sizes.len ∧ j < q.length) fun j => q[j]?

/-- `index_impl` (gslice_array.hpp 94-108): `first1` to `last1` and from `first2` on -/
def indexImpl (i : Nat) : List Nat → List Nat → Option Nat
  | s :: ss, d :: ds => if s = 0 then none else (indexImpl (i % s) ss ds).map (d * (i / s) + ·)
  | [], d :: _ => some (d * i)
  | _, [] => none

/-- `index` (gslice_array.hpp 109-113); `sz` is `size_`, `total` its front, `N` the size of the block of the valarray -/
def gindex (N start total : Nat) (sz : List Nat) (strides : VA Nat) (i : Nat) : Option Nat :=
  if i < total then (indexImpl i sz.tail strides.elems).map (start + ·) else some N

/-- `gslice_array` on a valarray of `N` elements (gslice_array.hpp 80-113, 240-252) -/
def gslice (N start : Nat) (sizes strides : VA Nat) : Option Subset := do
  let sz ← gsizes sizes
  let total ← front sz
  let l ← range sz
  some ⟨total, gindex N start total l strides⟩

/-- `mask_index_impl` (detail/algorithm/mask_index.hpp 23-55) -/
def maskIndexImpl (res : VA Nat) : List Bool → Nat → List Nat → Option (VA Nat)
  | [], _, args => if res.elems.length = args.length then raw res.elems.length res.len args else complate res args
  | b :: bs, n, args =>
    if res.elems.length = args.length then raw res.elems.length res.len args
    else if args.length < res.len then
      if b then maskIndexImpl res bs (n + 1) (args ++ [n]) else maskIndexImpl res bs (n + 1) args
    else complate res args

/-- `mask_array` on a valarray of `N` elements (mask_array.hpp 40, 49-57, 180-194) -/
def mask (N : Nat) (m : VA Bool) : Option (Ret Subset) := do
  let cnt ← countIfRa m.elems 0 m.len (· == true)
  match ofSize (if m.elems.length < N then m.elems.length else N) cnt with
  | .throw e => some (.throw e)
  | .ret res =>
    let l ← range m
    let ix ← maskIndexImpl res l 0 []
    some (.ret ⟨ix.len, fun i => ix.elems[i]?⟩)

/-- `indirect_array` (indirect_array.hpp 44-48, 172-186) -/
def indirect (ix : VA Nat) : Subset := ⟨ix.len, fun i => ix.elems[i]?⟩

/-- `at` of `gslice_array` (gslice_array.hpp 253-256) -/
def gsliceAt (s : Subset) (v : VA α) (i : Nat) : Option (Ret α) := do at' v (← s.pos i)

/-- `at` of `mask_array`, `indirect_array` (mask_array.hpp 195-198, indirect_array.hpp 187-190) -/
def indexesAt (ix : VA Nat) (v : VA α) (i : Nat) : Option (Ret α) := do
  match ← at' ix i with
  | .ret j => at' v j
  | .throw e => some (.throw e)

/-- `operator[]`, and `*it` of an `index_iterator` (iterator/index_iterator.hpp 135-137, functional/subscript.hpp) -/
def Subset.read (s : Subset) (m : List α) (i : Nat) : Option α := do m[← s.pos i]?

/-- `front` of the subsets -/
def Subset.front (s : Subset) (m : List α) : Option α := s.read m 0
/-- `back` of the subsets: the index wraps if there is no element -/
def Subset.back (s : Subset) (m : List α) : Option α := s.read m (toSize (s.size - 1))
/-- `nth` of the subsets (slice_array.hpp 223-228, gslice_array.hpp 266-271, mask_array.hpp 208-213, indirect_array.hpp 200-205) -/
def Subset.nth (s : Subset) (i : Nat) : Ret Nat := if i < s.size then .ret i else .throw .outOfRange

/-- the elements from `begin()` to `end()` -/
def Subset.range (s : Subset) (m : List α) : Option (List α) := pack s.size (s.read m)

/-- the constructor of a valarray from a subset (valarray.hpp 200-226), `operator[]` of a const valarray (293-326) -/
def ofSubset [Inhabited α] (N : Nat) (s : Subset) (m : List α) : Option (Ret (VA α)) := ofIter N (s.read m) s.size

/-- `copy` to the positions of a subset, from index `k` on (algorithm/cxx14/copy.hpp 23-31) -/
def copyTo (pos : Nat → Option Nat) : Nat → List α → List α → Option (List α)
  | _, [], m => some m
  | k, x :: xs, m => do
    let j ← pos k
    let m ← wr m j x
    copyTo pos (k + 1) xs m

/-- `operator=` from a valarray (slice_array.hpp 83-87, gslice_array.hpp 124-128, mask_array.hpp 68-72, indirect_array.hpp 60-64); the
block of the valarray referred to -/
def Subset.assign (s : Subset) (m : List α) (w : VA α) : Option (List α) := do copyTo s.pos 0 (← Valarray.range w) m

/-- `fill` (algorithm/cxx14/fill.hpp 18-24) of the indexes from `k` on -/
def fillTo (pos : Nat → Option Nat) (x : α) : Nat → Nat → List α → Option (List α)
  | _, 0, m => some m
  | k, n + 1, m => do
    let j ← pos k
    let m ← wr m j x
    fillTo pos x (k + 1) n m

/-- `operator=` from a value (slice_array.hpp 88-91, gslice_array.hpp 129-132, mask_array.hpp 73-76, indirect_array.hpp 65-68) -/
def Subset.assignValue (s : Subset) (m : List α) (x : α) : Option (List α) := fillTo s.pos x 0 s.size m

/-- the loop of the computed assignments -/
def computeTo (op : α → α → α) (pos : Nat → Option Nat) : Nat → List α → List α → Option (List α)
  | _, [], m => some m
  | k, x :: xs, m => do
    let j ← pos k
    let y ← m[j]?
    let m ← wr m j (op y x)
    computeTo op pos (k + 1) xs m

/-- the computed assignments from a valarray (slice_array.hpp 92-171, gslice_array.hpp 133-212, mask_array.hpp 77-156,
indirect_array.hpp 69-148) -/
def Subset.compute (op : α → α → α) (s : Subset) (m : List α) (w : VA α) : Option (List α) := do
  computeTo op s.pos 0 (← Valarray.range w) m

/-- `operator=` from a `slice_array<T, N2>`, another valarray's (slice_array.hpp 77-82): a template is no copy assignment operator. For
`N2 = N` the implicit one is the better overload, which copies the members `arr_` (a pointer, utility/value_holder/value_holder.hpp
119-150, 226-230) and `slice_`; the block stays as it is -/
def sliceAssign (N N2 : Nat) (s : Subset) (m : List α) (t : Subset) (m2 : List α) : Option (List α) :=
  if N2 = N then some m else do copyTo s.pos 0 (← t.range m2) m

/-- `operator=` from a `gslice_array<T, N2, M2>`, `mask_array<T, N2, M2>`, `indirect_array<T, N2, M2>` (gslice_array.hpp 118-123,
mask_array.hpp 62-67, indirect_array.hpp 54-59). For the same type the implicit copy assignment operator is the better overload; it
needs the copy assignment of `valarray`, which cannot be compiled -/
def indexedAssign (same : Bool) (s : Subset) (m : List α) (t : Subset) (m2 : List α) : Option (List α) :=
  if same then none else do copyTo s.pos 0 (← t.range m2) m

/-- `operator=` of a valarray from a subset, of another block (valarray.hpp 252-282) -/
def assignSubset (v : VA α) (s : Subset) (m : List α) : Option (Ret (VA α)) :=
  match checkedSize v.elems.length s.size with
  | .throw e => some (.throw e)
  | .ret n => do
    let xs ← s.range m
    let e ← copyTo some 0 xs v.elems
    some (.ret ⟨e, n⟩)

/-- `operator=` of a valarray from an initializer list (valarray.hpp 245-251) -/
def assignList (v : VA α) (l : List α) : Option (Ret (VA α)) :=
  match checkedSize v.elems.length l.length with
  | .throw e => some (.throw e)
  | .ret n => do
    let e ← copyTo some 0 l v.elems
    some (.ret ⟨e, n⟩)

end Sprout.Valarray
