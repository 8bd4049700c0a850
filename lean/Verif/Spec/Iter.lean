import Verif.Basic

/-!
# What the operations of iterators should do

A sequence `xs` is presented by the states of an iterator type: `At s k` says that `s` stands at position `k` of the sequence
(position `xs.length`: the end). `none` is undefined behaviour.
-/

namespace Sprout.Spec
variable {S α : Type}

/-- `*s` is the element at the position -/
def IterDeref (deref : S → Option α) (xs : List α) (At : S → Nat → Prop) : Prop :=
  ∀ s k, At s k → ∀ h : k < xs.length, deref s = some xs[k]

/-- `++s`, `next(s)` go one element on -/
def IterNext (next : S → Option S) (xs : List α) (At : S → Nat → Prop) : Prop :=
  ∀ s k, At s k → k < xs.length → ∃ s', next s = some s' ∧ At s' (k + 1)

/-- `--s`, `prev(s)` go one element back -/
def IterPrev (prev : S → Option S) (At : S → Nat → Prop) : Prop :=
  ∀ s k, At s (k + 1) → ∃ s', prev s = some s' ∧ At s' k

/-- `s + n` goes `n` elements on, `n` of either sign: `s + (j - k)` leads from position `k` to position `j` -/
def IterAdd (add : S → Int → Option S) (xs : List α) (At : S → Nat → Prop) : Prop :=
  ∀ s k j, At s k → j ≤ xs.length → ∃ s', add s ((j : Int) - k) = some s' ∧ At s' j

/-- `s - n` goes `n` elements back: `s - (k - j)` leads from position `k` to position `j` -/
def IterSub (sub : S → Int → Option S) (xs : List α) (At : S → Nat → Prop) : Prop :=
  ∀ s k j, At s k → j ≤ xs.length → ∃ s', sub s ((k : Int) - j) = some s' ∧ At s' j

/-- `s - t` is the difference of the positions -/
def IterDiff (diff : S → S → Option Int) (At : S → Nat → Prop) : Prop :=
  ∀ s k t l, At s k → At t l → diff s t = some ((k : Int) - l)

/-- `s < t` compares positions -/
def IterLt (lt : S → S → Bool) (At : S → Nat → Prop) : Prop := ∀ s k t l, At s k → At t l → (lt s t = true ↔ k < l)

/-- `s == t` compares positions -/
def IterEq (eq : S → S → Bool) (At : S → Nat → Prop) : Prop := ∀ s k t l, At s k → At t l → (eq s t = true ↔ k = l)

/-- `s[n]` is the element `n` positions on -/
def IterIndex (index : S → Int → Option α) (xs : List α) (At : S → Nat → Prop) : Prop :=
  ∀ s k j, At s k → ∀ h : j < xs.length, index s ((j : Int) - k) = some xs[j]

/-- the elements of two sequences in turn, up to the end of the shorter one -/
def interleave : List α → List α → List α
  | x :: xs, y :: ys => x :: y :: interleave xs ys
  | _, _ => []

/-- every `w`-th element (`w > 0`), from the first on -/
def everyNth (w : Nat) (xs : List α) : List α := (List.range ((xs.length + w - 1) / w)).filterMap (fun k => xs[k * w]?)

/-- the elements whose predecessor stands in the relation `p` to them -/
def seconds (p : α → α → Bool) : List α → List α
  | x :: y :: r => if p x y then y :: seconds p (y :: r) else seconds p (y :: r)
  | _ => []

/-- the first element and the elements whose predecessor stands in the relation `p` to them (as `boost::adaptors::adjacent_filtered`) -/
def adjFilter (p : α → α → Bool) : List α → List α
  | [] => []
  | x :: r => x :: seconds p (x :: r)

/-- `n` steps -/
def steps (f : S → Option S) : Nat → S → Option S
  | 0, s => some s
  | n + 1, s => (f s).bind (steps f n)

/-- from `s`, `t` is reached by `d` steps and not before -/
inductive Walk (f : S → Option S) (t : S) : Nat → S → Prop
  | done : Walk f t 0 t
  | step {s s' : S} {d : Nat} (h : s ≠ t) (h' : f s = some s') (w : Walk f t d s') : Walk f t (d + 1) s

end Sprout.Spec
