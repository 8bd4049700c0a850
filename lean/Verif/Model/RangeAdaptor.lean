import Verif.Model.Adaptor

/-!
# Range adaptors

A range is an iterator class together with the iterators `first` and `last`. An iterator class is given by the outcomes of
its operators (`none`: undefined). Ranges of contiguous elements are positions in a block. `sprout::next(it, n)` and
`sprout::size(range)` are `it + n` and `last - first` as for random access iterators. Temporaries of the pipe live to the end
of the full expression and iterators are copied into the results, so that lifetimes are not modelled.
-/

namespace Sprout.RangeAdaptor
open Adaptor
variable {σ τ α β γ : Type}

/-- a range (range/range_container.hpp 27-59) with the operators of its iterator class -/
structure Rng (σ α : Type) where
  /-- `*it` -/
  deref : σ → Option α
  /-- `++it` -/
  next : σ → Option σ
  /-- `it == it2` -/
  eq : σ → σ → Bool
  /-- `it + n` -/
  add : σ → Int → Option σ
  /-- `it - it2` -/
  diff : σ → σ → Option Int
  first : σ
  last : σ

/-- `for (auto x : range)`: the values met between the two iterators -/
def walk (r : Rng σ α) (a : σ) : Option (List α) := do
  if r.eq a r.last then some []
  else do
    let x ← r.deref a
    let a' ← r.next a
    let l ← walk r a'
    some (x :: l)
partial_fixpoint

/-- the values of a range -/
def values (r : Rng σ α) : Option (List α) := walk r r.first

/-- `size` (range/range_container.hpp 79-81) -/
def size (r : Rng σ α) : Option Int := r.diff r.last r.first
/-- `empty` (range/range_container.hpp 82-84) -/
def empty (r : Rng σ α) : Bool := r.eq r.first r.last
/-- `operator[]` (range/range_container.hpp 86-88) -/
def index (r : Rng σ α) (i : Nat) : Option α := do
  let p ← r.add r.first i
  r.deref p
/-- `back` (range/range_container.hpp 97-99); `size() - 1` is of type `size_t` and becomes a `ptrdiff_t` -/
def back (r : Rng σ α) : Option α := do
  let n ← size r
  let p ← r.add r.first (toS (toU (n - 1)))
  r.deref p

/-- the elements `f … l` of a block -/
def block (xs : List α) (f l : Nat) : Rng Nat α where
  deref := rd xs
  next p := padd xs.length p 1
  eq a b := a == b
  add := padd xs.length
  diff a b := some ((a : Int) - b)
  first := f
  last := l

/-! ### parts of a range -/

/-- `dropped` (range/adaptor/dropped.hpp 67-80) -/
def dropped (d : Int) (r : Rng σ α) : Option (Rng σ α) := do
  let n ← size r
  let f ← r.add r.first (min d n)
  some { r with first := f }

/-- `taken` (range/adaptor/taken.hpp 67-80) -/
def taken (d : Int) (r : Rng σ α) : Option (Rng σ α) := do
  let n ← size r
  let l ← r.add r.first (min d n)
  some { r with last := l }

/-- `dropped_end` (range/adaptor/dropped_end.hpp 67-80); `-size` is of type `size_t` and becomes a `ptrdiff_t` -/
def droppedEnd (d : Int) (r : Rng σ α) : Option (Rng σ α) := do
  let n ← size r
  let l ← r.add r.last (max d (toS (toU (-n))))
  some { r with last := l }

/-- `taken_end` (range/adaptor/taken_end.hpp 67-80) -/
def takenEnd (d : Int) (r : Rng σ α) : Option (Rng σ α) := do
  let n ← size r
  let f ← r.add r.last (max d (toS (toU (-n))))
  some { r with first := f }

/-- `offset` with two distances (range/adaptor/offset.hpp 91-109) -/
def offset (b e : Int) (r : Rng σ α) : Option (Rng σ α) := do
  let n ← size r
  let f ← r.add r.first (min b n)
  let l ← r.add r.last (max e (min (toS (toU (b - n))) 0))
  some { r with first := f, last := l }

/-- `offset` with one distance (range/adaptor/offset.hpp 115-127) -/
def offset1 (b : Int) (r : Rng σ α) : Option (Rng σ α) := do
  let n ← size r
  let f ← r.add r.first (min b n)
  some { r with first := f }

/-- `window` with two distances (range/adaptor/window.hpp 91-107) -/
def window (f l : Int) (r : Rng σ α) : Option (Rng σ α) := do
  let n ← size r
  let a ← r.add r.first (min f n)
  let b ← r.add r.first (min l n)
  some { r with first := a, last := b }

/-- `window` with one distance (range/adaptor/window.hpp 112-125) -/
def window1 (f : Int) (r : Rng σ α) : Option (Rng σ α) := do
  let n ← size r
  let a ← r.add r.first (min f n)
  some { r with first := a }

/-- `sized<N>` (range/adaptor/sized.hpp 38-45) -/
def sized (N : Nat) (r : Rng σ α) : Option (Rng σ α) := do
  let n ← size r
  if (N : Int) < n then do
    let l ← r.add r.first N
    some { r with last := l }
  else some r

/-! ### other iterators -/

/-- `reversed` (range/adaptor/reversed.hpp 43-48) with `reverse_iterator` (iterator/reverse_iterator.hpp 61-70, 85-87, 119-123,
149-153) -/
def reversed (r : Rng σ α) : Rng σ α where
  deref c := (r.add c (-1)).bind r.deref
  next c := r.add c (-1)
  eq := r.eq
  add c n := r.add c (-n)
  diff a b := r.diff b a
  first := r.last
  last := r.first

/-- `transformed` with a unary function (range/adaptor/transformed.hpp 86-91), also `replaced` (range/adaptor/replaced.hpp 51-56),
`replaced_if` (range/adaptor/replaced_if.hpp 51-56), `clamped` for iterators to constants (range/adaptor/clamped.hpp 49-59,
iterator/clamp_iterator.hpp 79-120, 137-174), `to_upper` and `to_lower` (range/adaptor/to_upper.hpp 51-56, to_lower.hpp 51-56);
`transform_iterator` (iterator/transform_iterator.hpp) -/
def transformed (f : α → β) (r : Rng σ α) : Rng σ β where
  deref c := (r.deref c).map f
  next := r.next
  eq := r.eq
  add := r.add
  diff := r.diff
  first := r.first
  last := r.last

/-- the function of `clamped`: `sprout::clamp` (algorithm/clamp.hpp 22-27) -/
def clampFn (comp : α → α → Bool) (low up : α) (x : α) : α := if comp x low then low else if comp up x then up else x
/-- the function of `replaced_if`: `replace_if_transform` as in iterator/replace_if_iterator.hpp -/
def replaceFn (p : α → Bool) (v : α) (x : α) : α := if p x then v else x

/-- `transformed` with a second range and a binary function (range/adaptor/transformed.hpp 54-59; iterator/transform_iterator.hpp
109-161, comparisons of `base()` only) -/
def transformed2 (f : α → β → γ) (r : Rng σ α) (s : Rng τ β) : Rng (σ × τ) γ where
  deref c := (r.deref c.1).bind fun x => (s.deref c.2).map (f x)
  next c := (r.next c.1).bind fun a => (s.next c.2).map (a, ·)
  eq a b := r.eq a.1 b.1
  add c n := (r.add c.1 n).bind fun a => (s.add c.2 n).map (a, ·)
  diff a b := r.diff a.1 b.1
  first := (r.first, s.first)
  last := (r.last, s.last)

/-- `jointed` (range/adaptor/jointed.hpp 51-56) with `joint_iterator` (iterator/joint_iterator.hpp 49-68, 103-119, 146-148,
194-200, 267-277) -/
def jointed (r : Rng σ α) (s : Rng τ α) : Rng (σ × τ) α where
  deref c := if !r.eq c.1 r.last then r.deref c.1 else s.deref c.2
  next c := if !r.eq c.1 r.last then (r.next c.1).map (·, c.2) else (s.next c.2).map (c.1, ·)
  eq a b := r.eq a.1 b.1 && s.eq a.2 b.2
  add c n :=
    if n ≥ 0 then
      if !r.eq c.1 r.last then (r.diff r.last c.1).bind fun d =>
        if n > d then (s.add c.2 (n - d)).map (r.last, ·) else (r.add c.1 n).map (·, c.2)
      else (s.add c.2 n).map (c.1, ·)
    else if s.eq c.2 s.first then (r.add c.1 n).map (·, c.2)
    else (s.diff c.2 s.first).bind fun d =>
      if ¬n > -d then (r.add c.1 (n + d)).map (·, s.first) else (s.add c.2 n).map (c.1, ·)
  diff a b :=
    if !r.eq a.1 r.last && !r.eq b.1 r.last then r.diff a.1 b.1
    else if r.eq a.1 r.last && r.eq b.1 r.last then s.diff a.2 b.2
    else if !r.eq a.1 r.last then (r.diff r.last a.1).bind fun x => (s.diff b.2 s.first).bind fun y => limitedPlus .int64 x y
    else (s.diff a.2 s.first).bind fun x => (r.diff r.last b.1).bind fun y => limitedPlus .int64 x y
  first := (r.first, s.first)
  last := (r.last, s.last)

/-- a range of `alternate_iterator` (iterator/alternate_iterator.hpp 49-54, 85-100, 133-135, 179-185, 245-255) -/
def altRng (r : Rng σ α) (s : Rng τ α) (e1 : σ) (e2 : τ) : Rng (σ × τ × Bool) α where
  deref c := if c.2.2 then r.deref c.1 else s.deref c.2.1
  next c :=
    if c.2.2 then some (c.1, c.2.1, false)
    else (r.next c.1).bind fun a => (s.next c.2.1).map fun b => (a, b, true)
  eq a b := r.eq a.1 b.1 && a.2.2 == b.2.2
  add c n :=
    let k := n + if !c.2.2 then 1 else 0
    (r.add c.1 (k.tdiv 2)).bind fun a => (s.add c.2.1 (k.tdiv 2)).map fun b => (a, b, k.tmod 2 == 0)
  diff a b := (r.diff a.1 b.1).bind fun d => (limitedMul .int64 d 2).bind fun d =>
    limitedPlus .int64 d (if a.2.2 then (if b.2.2 then 0 else 1) else (if b.2.2 then 1 else 0))
  first := (r.first, s.first, true)
  last := (e1, e2, true)

/-- `alternated` (range/adaptor/alternated.hpp 53-61) -/
def alternated (r : Rng σ α) (s : Rng τ α) : Option (Rng (σ × τ × Bool) α) := do
  let n ← size r
  let m ← size s
  let e1 ← r.add r.first (min n m)
  let e2 ← s.add s.first (min n m)
  some (altRng r s e1 e2)

/-- `moved` (range/adaptor/moved.hpp 43-48); moving is copying the value -/
def moved (r : Rng σ α) : Rng σ α := { r with first := r.last, last := r.first }

/-! ### an adaptor for a part of the range -/

/-- `adapted_dropped` (range/adaptor/adapted_dropped.hpp 66-75) -/
def adaptedDropped (ad : Rng σ α → Option (Rng τ α)) (d : Int) (r : Rng σ α) : Option (Rng (σ × τ) α) := do
  let t ← taken d r
  let x ← dropped d r
  let y ← ad x
  some (jointed t y)
/-- `adapted_taken` (range/adaptor/adapted_taken.hpp 66-75) -/
def adaptedTaken (ad : Rng σ α → Option (Rng τ α)) (d : Int) (r : Rng σ α) : Option (Rng (τ × σ) α) := do
  let x ← taken d r
  let y ← ad x
  let t ← dropped d r
  some (jointed y t)
/-- `adapted_dropped_end` (range/adaptor/adapted_dropped_end.hpp 66-75) -/
def adaptedDroppedEnd (ad : Rng σ α → Option (Rng τ α)) (d : Int) (r : Rng σ α) : Option (Rng (τ × σ) α) := do
  let x ← droppedEnd d r
  let y ← ad x
  let t ← takenEnd d r
  some (jointed y t)
/-- `adapted_taken_end` (range/adaptor/adapted_taken_end.hpp 66-75) -/
def adaptedTakenEnd (ad : Rng σ α → Option (Rng τ α)) (d : Int) (r : Rng σ α) : Option (Rng (σ × τ) α) := do
  let t ← droppedEnd d r
  let x ← takenEnd d r
  let y ← ad x
  some (jointed t y)
/-- `adapted_window` (range/adaptor/adapted_window.hpp 96-107) -/
def adaptedWindow (ad : Rng σ α → Option (Rng τ α)) (f l : Int) (r : Rng σ α) : Option (Rng ((σ × τ) × σ) α) := do
  let t ← taken f r
  let x ← window f l r
  let y ← ad x
  let u ← dropped l r
  some (jointed (jointed t y) u)
/-- `adapted_offset` (range/adaptor/adapted_offset.hpp 96-107) -/
def adaptedOffset (ad : Rng σ α → Option (Rng τ α)) (b e : Int) (r : Rng σ α) : Option (Rng ((σ × τ) × σ) α) := do
  let t ← taken b r
  let x ← offset b e r
  let y ← ad x
  let u ← takenEnd e r
  some (jointed (jointed t y) u)

/-! ### chains -/

/-- `apply_adaptors_impl` as seen from its own trailing return type: only the first two overloads are declared there, and a
qualified name is not looked up again (range/adaptor/piped.hpp 23-36) -/
def applyDeclared {ρ : Type} (r : ρ) : List (ρ → Option ρ) → Option ρ
  | [] => some r
  | [a] => a r
  | _ => none
/-- `apply_adaptors_impl`, `apply_adaptors`, `operator|` with a `pipe_holder` (range/adaptor/piped.hpp 23-77, 128-134); the adaptors
are taken of one type -/
def piped {ρ : Type} (r : ρ) : List (ρ → Option ρ) → Option ρ
  | [] => some r
  | [a] => a r
  | a :: t => (a r).bind fun x => applyDeclared x t

end Sprout.RangeAdaptor
