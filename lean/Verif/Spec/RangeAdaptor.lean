import Verif.Model.RangeAdaptor

/-!
# What a range denotes

`Fwd r l`: stepping through `r` meets the elements of `l`. `Ra r l`: also sums and differences of iterators are those of
positions in `l`.
-/

namespace Sprout.Spec
open RangeAdaptor
variable {σ α : Type}

/-- the position `i` in `l` is the iterator `pos i` -/
structure FwdAt (r : Rng σ α) (l : List α) (pos : Nat → σ) : Prop where
  first : r.first = pos 0
  deref : ∀ (i : Nat) (h : i < l.length), r.deref (pos i) = some l[i]
  next : ∀ i : Nat, i < l.length → r.next (pos i) = some (pos (i + 1))
  eqLast : ∀ i : Nat, i ≤ l.length → r.eq (pos i) r.last = decide (i = l.length)

structure RaAt (r : Rng σ α) (l : List α) (pos : Nat → σ) : Prop extends FwdAt r l pos where
  last : r.last = pos l.length
  eq : ∀ i j : Nat, i ≤ l.length → j ≤ l.length → r.eq (pos i) (pos j) = decide (i = j)
  add : ∀ (i : Nat) (n : Int) (k : Nat), i ≤ l.length → k ≤ l.length → (i : Int) + n = k → r.add (pos i) n = some (pos k)
  diff : ∀ i j : Nat, j ≤ i → i ≤ l.length → r.diff (pos i) (pos j) = some ((i : Int) - j)

def Fwd (r : Rng σ α) (l : List α) : Prop := ∃ pos, FwdAt r l pos
def Ra (r : Rng σ α) (l : List α) : Prop := ∃ pos, RaAt r l pos

/-- the outcome is a range that denotes `l` -/
def OutRa (o : Option (Rng σ α)) (l : List α) : Prop := ∃ r, o = some r ∧ Ra r l
def OutFwd (o : Option (Rng σ α)) (l : List α) : Prop := ∃ r, o = some r ∧ Fwd r l

/-- elements of two lists in turn, as long as there are both -/
def alternate : List α → List α → List α
  | x :: xs, y :: ys => x :: y :: alternate xs ys
  | _, _ => []

end Sprout.Spec
