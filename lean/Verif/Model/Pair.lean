/-!
# Pairs (`sprout/utility/pair/pair_decl.hpp`, `pair.hpp`, `comparison.hpp`, `tuple.hpp`, `sprout/utility/swap.hpp`)

Simplifications: the conversions of the elements are functions; one that does not exist makes the program ill-formed (`none`). The two objects
of an exchange are different. Comparisons of elements are functions with values in `Bool`.
-/

namespace Sprout.PairM

variable {α β γ δ : Type}

/-- `pair` (pair_decl.hpp 25-32) -/
structure Pair (α β : Type) where
  first : α
  second : β
  deriving DecidableEq

/-- `pair(U&& x, V&& y)` (pair_decl.hpp 46-59) -/
def mk2 (f : γ → Option α) (g : δ → Option β) (x : γ) (y : δ) : Option (Pair α β) := do
  let a ← f x
  let b ← g y
  some ⟨a, b⟩

/-- `pair(pair<U, V> const&)` (pair_decl.hpp 60-79) and `operator=(pair<U, V> const&)` (106-139) -/
def ofPair (f : γ → Option α) (g : δ → Option β) (p : Pair γ δ) : Option (Pair α β) := mk2 f g p.first p.second

/-- `pair(tuple<U, V> const&)`, `pair(tuple<U, V>&&)` (pair.hpp 51-68) -/
def ofTuple (f : γ → Option α) (g : δ → Option β) (t : γ × δ) : Option (Pair α β) := mk2 f g t.1 t.2

/-- `operator=(tuple<U, V>&&)` (pair.hpp 80-89) -/
def assignMove (f : γ → Option α) (g : δ → Option β) (_ : Pair α β) (t : γ × δ) : Option (Pair α β) := do
  let a ← f t.1
  let b ← g t.2
  some ⟨a, b⟩

/-- `operator=(tuple<U, V> const&)` (pair.hpp 70-79): both from the element 0; `h` is the assignment of a `U` to the second element -/
def assignConst (f : γ → Option α) (h : γ → Option β) (_ : Pair α β) (t : γ × δ) : Option (Pair α β) := do
  let a ← f t.1
  let b ← h t.1
  some ⟨a, b⟩

/-- `tuple_get<I>` (tuple.hpp 37-58, 92-108) for elements of one type -/
def get (p : Pair α α) : Nat → Option α
  | 0 => some p.first
  | 1 => some p.second
  | _ => none

/-- `operator==` (comparison.hpp 15-19) -/
def eq (e1 : α → α → Bool) (e2 : β → β → Bool) (x y : Pair α β) : Bool := e1 x.first y.first && e2 x.second y.second

/-- `operator!=` (20-24) -/
def ne (e1 : α → α → Bool) (e2 : β → β → Bool) (x y : Pair α β) : Bool := !eq e1 e2 x y

/-- `operator<` (25-29) -/
def lt (l1 : α → α → Bool) (l2 : β → β → Bool) (x y : Pair α β) : Bool :=
  l1 x.first y.first || (!l1 y.first x.first && l2 x.second y.second)

/-- `operator>` (30-34) -/
def gt (l1 : α → α → Bool) (l2 : β → β → Bool) (x y : Pair α β) : Bool := lt l1 l2 y x

/-- `operator<=` (35-39) -/
def le (l1 : α → α → Bool) (l2 : β → β → Bool) (x y : Pair α β) : Bool := !lt l1 l2 y x

/-- `operator>=` (40-44) -/
def ge (l1 : α → α → Bool) (l2 : β → β → Bool) (x y : Pair α β) : Bool := !lt l1 l2 x y

/-- `swap_impl` of scalars (swap.hpp 21-27): the objects `a`, `b` and afterwards -/
def swapScalar (a b : α) : α × α :=
  let temp := a
  let a := b
  let b := temp
  (a, b)

/-- `swap` of pairs (pair_decl.hpp 156-165, 177-183), the elements being exchanged by `s1` and `s2` -/
def swapPair (s1 : α → α → α × α) (s2 : β → β → β × β) (x y : Pair α β) : Pair α β × Pair α β :=
  let (a, b) := s1 x.first y.first
  let (c, d) := s2 x.second y.second
  (⟨a, c⟩, ⟨b, d⟩)

/-- `swap_impl` of arrays (swap.hpp 35-43): the loop from `i`, `n` times; reading past the end is `none` -/
def swapArrFrom (s : α → α → α × α) : Nat → Nat → List α → List α → Option (List α × List α)
  | 0, _, a, b => some (a, b)
  | n + 1, i, a, b => do
    let x ← a[i]?
    let y ← b[i]?
    let r := s x y
    swapArrFrom s n (i + 1) (a.set i r.1) (b.set i r.2)

/-- `swap` of arrays of `N` elements -/
def swapArr (s : α → α → α × α) (N : Nat) (a b : List α) : Option (List α × List α) := swapArrFrom s N 0 a b

end Sprout.PairM
