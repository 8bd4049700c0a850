import Verif.Model.Bind

/-!
# What a bind expression means

Written with expressions as trees, independently of the index computations of bind.hpp.
-/

namespace Sprout.BindSpec

open Bind (Passed Kind Bound)

variable {α : Type}

/-- arguments of `bind`: a value, `ref` of a variable with a value, the argument number `k` of the call (from 0), all arguments from number
`k` on, a nested bind expression -/
inductive Expr (α : Type)
  | val (a : α)
  | ref (a : α)
  | arg (k : Nat)
  | tail (k : Nat)
  | app (k : Kind) (f : List (Passed α) → Option α) (es : List (Expr α))

mutual
/-- the arguments an expression stands for in a call with the arguments `xs` -/
def vals (xs : List α) : Expr α → Option (List α)
  | .val a => some [a]
  | .ref a => some [a]
  | .arg k => (xs[k]?).map fun x => [x]
  | .tail k => if k ≤ xs.length then some (xs.drop k) else none
  | .app _ f es => do
    let l ← valsList xs es
    (f (l.map .val)).map fun x => [x]
/-- the arguments a list of expressions stands for -/
def valsList (xs : List α) : List (Expr α) → Option (List α)
  | [] => some []
  | e :: es => do
    let a ← vals xs e
    let b ← valsList xs es
    some (a ++ b)
end

/-- **the value of `bind(f, e1, …)(x1, …)`**: `f` of what the expressions stand for -/
def eval (f : List (Passed α) → Option α) (es : List (Expr α)) (xs : List α) : Option α := do
  let l ← valsList xs es
  f (l.map .val)

mutual
/-- the object made for an expression -/
def build : Expr α → Bound α
  | .val a => .val a
  | .ref a => .ref a
  | .arg k => .ph (k + 1)
  | .tail k => .va k
  | .app k f es => Bind.mk k f (buildList es)
/-- the objects made for expressions -/
def buildList : List (Expr α) → List (Bound α)
  | [] => []
  | e :: es => build e :: buildList es
end

/-- the number of arguments an expression stands for in a call with `n` arguments -/
def size (n : Nat) : Expr α → Nat
  | .tail k => n - k
  | _ => 1

def isTail : Expr α → Bool
  | .tail _ => true
  | _ => false

def isRef : Expr α → Bool
  | .ref _ => true
  | _ => false

/-- the unnumbered placeholder `_` -/
def isPos : Bind.Arg α → Bool
  | .pos => true
  | _ => false

/-- with a fixed result type -/
def isRes : Kind → Bool
  | .resBinder => true
  | .resCbinder => true
  | _ => false

/-- callable as const only -/
def isConst : Kind → Bool
  | .cbinder => true
  | .resCbinder => true
  | _ => false

mutual
/-- conditions for a call of the object (const if `c`) with `n` arguments: tails begin in the arguments, there are less than 2^64
arguments for each function; no tails in `bind<R>`; no `ref` in const objects `bind` -/
def ok (n : Nat) (c : Bool) : Expr α → Prop
  | .tail k => k ≤ n
  | .app k _ es => (es.map (size n)).sum < 2 ^ 64 ∧ (isRes k = true → ∀ e ∈ es, isTail e = false)
      ∧ (isRes k = false → (c || isConst k) = true → ∀ e ∈ es, isRef e = false) ∧ okList n (c || isConst k) es
  | _ => True
/-- for all expressions of a list -/
def okList (n : Nat) (c : Bool) : List (Expr α) → Prop
  | [] => True
  | e :: es => ok n c e ∧ okList n c es
end

end Sprout.BindSpec
