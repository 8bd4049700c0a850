import Verif.Model.IndexSeq

/-!
# Algorithms and operations on lists of types

`sprout/type/algorithm/*.hpp`, `sprout/tpp/algorithm/*.hpp`, `sprout/type/operation/*.hpp`, `sprout/type/iterator/*.hpp`,
`sprout/type/type_tuple_decl.hpp`, `sprout/tuple/operation/*.hpp`, `sprout/tuple/algorithm/copy.hpp`.

A type is an element of `α`; a predicate metafunction is a `Bool` function (with `std::is_same<_, T>` for the `_same` forms).
A class template specialization that does not compile (an element out of range, an endless recursion, a narrowing template argument) is
`none`; in a constant expression `A::value && B::value` or `c ? A::value : B::value` all the named classes are instantiated.
-/

namespace Sprout
namespace TypeList

variable {α β : Type}

/-- the shape common to `all_of_impl`, `any_of_impl`, `none_of_impl` (all_of.hpp 20-50, any_of.hpp 20-50, none_of.hpp 20-50), the `_same`
forms (all_of_same.hpp, any_of_same.hpp, none_of_same.hpp 19-49) and `one_of_impl_1` (one_of.hpp 20-50): a leaf for `Pivot == 0`,
else the halves `[First, First + Pivot)` and `[First + Pivot, Last)` -/
def pivotTree (leaf : α → β) (op : β → β → β) (l : List α) (first last pivot : Nat) : Option β :=
  if pivot = 0 then do
    let x ← l[first]?
    some (leaf x)
  else do
    let u ← pivotTree leaf op l first (first + pivot) (pivot / 2)
    let v ← pivotTree leaf op l (first + pivot) last ((last - first - pivot) / 2)
    some (op u v)
partial_fixpoint

/-- `types::all_of` (all_of.hpp 51-66); `types::all_of_same` with `p x = is_same<x, T>` -/
def allOf (p : α → Bool) (l : List α) : Option Bool :=
  if l.length = 0 then some true else pivotTree p (· && ·) l 0 l.length (l.length / 2)

/-- `types::any_of` (any_of.hpp 51-66), `types::any_of_same`, `types::contains` (contains.hpp 20-23), `contains_if` (contains_if.hpp 20-23) -/
def anyOf (p : α → Bool) (l : List α) : Option Bool :=
  if l.length = 0 then some false else pivotTree p (· || ·) l 0 l.length (l.length / 2)

/-- `types::none_of` (none_of.hpp 51-66), `types::none_of_same` -/
def noneOf (p : α → Bool) (l : List α) : Option Bool :=
  if l.length = 0 then some true else pivotTree (fun x => !p x) (· && ·) l 0 l.length (l.length / 2)

/-- `one_of_impl` (one_of.hpp 51-85; one_of_same.hpp 50-84) -/
def oneOfImpl (p : α → Bool) (l : List α) (first last pivot : Nat) : Option Bool :=
  if pivot = 0 then do
    let x ← l[first]?
    some (p x)
  else do
    let u ← oneOfImpl p l first (first + pivot) (pivot / 2)
    let v1 ← pivotTree (fun x => !p x) (· && ·) l (first + pivot) last ((last - first - pivot) / 2)
    let v ← oneOfImpl p l (first + pivot) last ((last - first - pivot) / 2)
    some (if u then v1 else v)
partial_fixpoint

/-- `types::one_of` (one_of.hpp 86-101), `types::one_of_same` (one_of_same.hpp 85-100): the empty list yields `true_type` -/
def oneOf (p : α → Bool) (l : List α) : Option Bool :=
  if l.length = 0 then some true else oneOfImpl p l 0 l.length (l.length / 2)

/-- `count_if_impl` (count_if.hpp 20-51; count.hpp 20-51) -/
def countImpl (p : α → Bool) (l : List α) (first size : Nat) : Option Nat :=
  if size = 1 then do
    let x ← l[first]?
    some (if p x then 1 else 0)
  else do
    let u ← countImpl p l first (size / 2)
    let v ← countImpl p l (first + size / 2) (size - size / 2)
    some (u + v)
partial_fixpoint

/-- `types::count_if`, `types::count` (count_if.hpp 52-67; count.hpp 52-67) -/
def countIf (p : α → Bool) (l : List α) : Option Nat := if l.length = 0 then some 0 else countImpl p l 0 l.length

/-- `find_index_if_impl` (find_index_if.hpp 20-57; find_index.hpp 20-57) -/
def findImpl (p : α → Bool) (l : List α) (first last pivot found : Nat) : Option Nat :=
  if found ≠ first then some found
  else if pivot = 0 then do
    let x ← l[first]?
    some (if p x then first else last)
  else do
    let f ← findImpl p l first (first + pivot) (pivot / 2) first
    findImpl p l (first + pivot) last ((last - first - pivot) / 2) f
partial_fixpoint

/-- `types::find_index_if`, `types::find_index` (find_index_if.hpp 58-73; find_index.hpp 58-73) -/
def findIndexIf (p : α → Bool) (l : List α) : Option Nat :=
  if l.length = 0 then some 0 else findImpl p l 0 l.length (l.length / 2) 0

/-- `find_index_result::is_found` (detail/find_index_result.hpp 19-25) -/
def isFound (p : α → Bool) (l : List α) : Option Bool := do
  let i ← findIndexIf p l
  some (i != l.length)

/-- `fold_impl` (fold.hpp 19-50) -/
def foldImpl (op : β → α → β) (l : List α) (t : β) (first last pivot : Nat) : Option β :=
  if pivot = 0 then do
    let x ← l[first]?
    some (op t x)
  else do
    let u ← foldImpl op l t first (first + pivot) (pivot / 2)
    foldImpl op l u (first + pivot) last ((last - first - pivot) / 2)
partial_fixpoint

/-- `types::fold`, `types::accumulate` (fold.hpp 51-66; accumulate.hpp 20-23) -/
def fold (op : β → α → β) (l : List α) (t : β) : Option β :=
  if l.length = 0 then some t else foldImpl op l t 0 l.length (l.length / 2)

/-- `partial_sum_impl` (partial_sum.hpp 21-34); `acc` are the `Types...` so far -/
def partialSumImpl (op : α → α → α) (l : List α) : Nat → Nat → α → List α → Option (List α)
  | _, 0, t, acc => some (acc ++ [t])
  | i, n + 1, t, acc => do
    let x ← l[i]?
    partialSumImpl op l (i + 1) n (op t x) (acc ++ [t])

/-- `types::partial_sum` (partial_sum.hpp 36-51) -/
def partialSum (op : α → α → α) (l : List α) : Option (List α) :=
  if l.length = 0 then some [] else do
    let x ← l[0]?
    partialSumImpl op l 1 (l.length - 1) x []

/-- `types::transform` with one tuple (transform.hpp 46-49, map_types.hpp 40-46) -/
def transform1 {γ : Type} (f : α → γ) (l : List α) : List γ := l.map f

/-- `types::transform` with two tuples (transform.hpp 22-45): the indexes are those of the first tuple -/
def transform2 {γ : Type} (f : α → β → γ) (l : List α) (r : List β) : Option (List γ) :=
  (List.range l.length).mapM fun i => do
    let x ← l[i]?
    let y ← r[i]?
    some (f x y)

/-- `lower_bound_index_impl` (lower_bound_index.hpp 22-58); `c x` is `Compare(x, T)` -/
def lowerImpl (c : α → Bool) (l : List α) (first last : Nat) : Option Nat :=
  if last - first = 0 then some last
  else if last - first = 1 then do
    let x ← l[first]?
    some (if c x then last else first)
  else do
    let x ← l[first + (last - first) / 2]?
    if c x then lowerImpl c l (first + (last - first) / 2) last
    else lowerImpl c l first (first + (last - first) / 2)
partial_fixpoint

/-- `types::lower_bound_index` (lower_bound_index.hpp 63-66) -/
def lowerBoundIndex (lt : α → β → Bool) (l : List α) (t : β) : Option Nat := lowerImpl (fun x => lt x t) l 0 l.length

/-- `types::upper_bound_index` (upper_bound_index.hpp 22-66): the same recursion with `!Compare(T, x)` -/
def upperBoundIndex (lt : β → α → Bool) (l : List α) (t : β) : Option Nat := lowerImpl (fun x => !lt t x) l 0 l.length

/-! ## parameter packs (`tpp`) -/

/-- the shape common to `tpp::detail::all_of_impl`, `any_of_impl`, `none_of_impl`, `one_of_impl_1`, `min_element_impl`, `max_element_impl`
(tpp/algorithm/all_of.hpp 20-30, any_of.hpp 20-30, none_of.hpp 20-30, one_of.hpp 20-30, min_element.hpp 25-35, max_element.hpp 25-35) -/
def midTree (leaf : α → β) (op : β → β → β) (l : List α) (first last : Nat) : Option β :=
  if last - first = 1 then do
    let x ← l[first]?
    some (leaf x)
  else do
    let u ← midTree leaf op l first ((first + last) / 2)
    let v ← midTree leaf op l ((first + last) / 2) last
    some (op u v)
partial_fixpoint

/-- `tpp::all_of_c` (tpp/algorithm/all_of.hpp 35-49) -/
def tppAllOf (l : List Bool) : Option Bool := if l.length = 0 then some true else midTree id (· && ·) l 0 l.length
/-- `tpp::any_of_c` (tpp/algorithm/any_of.hpp 35-49) -/
def tppAnyOf (l : List Bool) : Option Bool := if l.length = 0 then some false else midTree id (· || ·) l 0 l.length
/-- `tpp::none_of_c` (tpp/algorithm/none_of.hpp 35-49) -/
def tppNoneOf (l : List Bool) : Option Bool := if l.length = 0 then some true else midTree (!·) (· && ·) l 0 l.length

/-- `tpp::detail::one_of_impl` (tpp/algorithm/one_of.hpp 32-43) -/
def tppOneOfImpl (l : List Bool) (first last : Nat) : Option Bool :=
  if last - first = 1 then l[first]?
  else do
    let u ← tppOneOfImpl l first ((first + last) / 2)
    let v1 ← midTree (!·) (· && ·) l ((first + last) / 2) last
    let v ← tppOneOfImpl l ((first + last) / 2) last
    some (if u then v1 else v)
partial_fixpoint

/-- `tpp::one_of_c` (tpp/algorithm/one_of.hpp 48-62) -/
def tppOneOf (l : List Bool) : Option Bool := if l.length = 0 then some false else tppOneOfImpl l 0 l.length

/-- `tpp::max_element` (tpp/algorithm/max_element.hpp 20-43): the type with the largest `value`; an empty pack recurs for ever -/
def tppMax (val : α → Int) (l : List α) : Option α := midTree id (fun t u => if val t < val u then u else t) l 0 l.length
/-- `tpp::min_element` (tpp/algorithm/min_element.hpp 20-43) -/
def tppMin (val : α → Int) (l : List α) : Option α := midTree id (fun t u => if val u < val t then u else t) l 0 l.length

/-! ## operations -/

/-- a specialization `Class<Types...>` of a tuple class; integer sequences are not modelled here -/
structure Tup (κ α : Type) where
  cls : κ
  elems : List α
  deriving DecidableEq

variable {κ : Type}

/-- `rebind_types<Tuple>::apply<Types...>` (rebind_types.hpp) -/
def Tup.rebind (t : Tup κ α) (l : List α) : Tup κ α := ⟨t.cls, l⟩

/-- `joint_types<Tuple>::apply<Tup>` for tuple classes (joint_types.hpp, `joint_types_default_apply<.., true, false, false>`) -/
def jointTypes (t u : Tup κ α) : Tup κ α := ⟨t.cls, t.elems ++ u.elems⟩

/-- `tuple_cat_impl` (type/operation/tuple_cat.hpp 27-54), with the halves of the list in place of the index tuples;
`e` is the class of `type_tuple` -/
def tupleCat (e : κ) (ts : List (Tup κ α)) : Tup κ α :=
  if ts.length = 0 then ⟨e, []⟩
  else if h : ts.length = 1 then ts[0]
  else jointTypes (tupleCat e (ts.take (ts.length / 2))) (tupleCat e (ts.drop (ts.length / 2)))
termination_by ts.length
decreasing_by all_goals (simp only [List.length_take, List.length_drop]; omega)

/-- `types::append_back` (append_back.hpp 19-22) -/
def appendBack (e : κ) (t : Tup κ α) (us : List (Tup κ α)) : Tup κ α := tupleCat e (t :: us)
/-- `types::append_front` (append_front.hpp 21-27) -/
def appendFront (e : κ) (t : Tup κ α) (us : List (Tup κ α)) : Tup κ α := tupleCat e (t.rebind [] :: (us ++ [t]))
/-- `types::push_back` (type/operation/push_back.hpp 20-23) -/
def pushBack (e : κ) (t : Tup κ α) (xs : List α) : Tup κ α := tupleCat e [t, ⟨e, xs⟩]
/-- `types::push_front` (type/operation/push_front.hpp 22-28) -/
def pushFront (e : κ) (t : Tup κ α) (xs : List α) : Tup κ α := tupleCat e [t.rebind [], ⟨e, xs⟩, t]
/-- `types::assign` (type/operation/assign.hpp 21-27) -/
def assign (e : κ) (t u : Tup κ α) : Tup κ α := tupleCat e [t.rebind [], u]

/-- `tuple_element<Indexes, Tuple>::type...` for a sequence of indexes of type `index_t`, converted to `size_t` -/
def elements (l : List α) (is : List Int) : Option (List α) := is.mapM fun i => if i < 0 then none else l[i.toNat]?

/-- `types::pop_back` (type/operation/pop_back.hpp 22-38; type_tuple_decl.hpp `pop_back`), `tuples::pop_back`
(tuple/operation/pop_back.hpp 23-49): `size - 1` wraps for an empty tuple and is narrowed to `index_t` -/
def popBack (l : List α) : Option (List α) := do
  let n ← StaticInt.icon CInt.int64 (CInt.uint64.conv ((l.length : Int) - 1))
  let is ← IndexSeq.makeIndexTuple n
  elements l is

/-- `types::pop_front` (type/operation/pop_front.hpp 20-23, pop_front_types.hpp 17-44): a specialization for a head and a tail, else
`index_range<1, 0>` -/
def popFront (l : List α) : Option (List α) :=
  match l with
  | _ :: t => some t
  | [] => do
    let is ← IndexSeq.indexRange 1 0
    elements ([] : List α) is

/-- `tuples::pop_front` (tuple/operation/pop_front.hpp 23-49), the values -/
def tuplesPopFront (l : List α) : Option (List α) := do
  let is ← IndexSeq.indexRange 1 l.length
  elements l is

/-- `tuples::copy` (tuple/algorithm/copy.hpp 31-77), the values -/
def tuplesCopy (t input : List α) : Option (List α) :=
  if t.length > input.length then do
    let is1 ← IndexSeq.indexRange input.length t.length
    let is2 ← IndexSeq.makeIndexTuple input.length
    let a ← elements input is2
    let b ← elements t is1
    some (a ++ b)
  else do
    let is ← IndexSeq.makeIndexTuple t.length
    elements input is

/-- `types::at` (type/operation/at.hpp 20-23), `types::front` (front.hpp 19-22) -/
def at' (l : List α) (i : Nat) : Option α := l[i]?
/-- `types::back` (type/operation/back.hpp 20-23): `size - 1` wraps -/
def back (l : List α) : Option α := l[(CInt.uint64.conv ((l.length : Int) - 1)).toNat]?

/-! ## iterators -/

/-- instantiating `index_iterator<Tuple, Index>` (type/iterator/index_iterator.hpp 18-32): it names `tuple_element<Index, Tuple>::type` -/
def complete (l : List α) (i : Int) : Bool := decide (0 ≤ i) && decide (i < l.length)

/-- `types::deref` (type/iterator/deref.hpp 17-20) -/
def deref (l : List α) (i : Int) : Option α := if complete l i then l[i.toNat]? else none
/-- `types::next` (type/iterator/next.hpp 17-21): `Iterator::next` -/
def next (l : List α) (i : Int) : Option Int := if complete l i then some (i + 1) else none
/-- `types::prev` (type/iterator/prev.hpp 17-21): `Iterator::prev` -/
def prev (l : List α) (i : Int) : Option Int := if complete l i then some (i - 1) else none
/-- `types::advance` (type/iterator/advance.hpp 17-20) -/
def advance (l : List α) (i d : Int) : Option Int := if complete l i then some (i + d) else none

/-- `distance_impl` (type/iterator/distance.hpp 21-49) -/
def distanceImpl (l : List α) (first last : Int) (n : Int) : Option Int :=
  if first = last then some n
  else do
    let f ← next l first
    distanceImpl l f last (n + 1)
partial_fixpoint

/-- `types::distance` (type/iterator/distance.hpp 51-54) -/
def distance (l : List α) (first last : Int) : Option Int := distanceImpl l first last 0

end TypeList
end Sprout
