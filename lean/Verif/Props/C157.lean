import Verif.Model.CompPair
import Mathlib.Tactic.Common

/-!
# C157: compressed pairs

A compressed pair behaves as a pair, whichever of its types are empty. An empty type has one value.
-/

namespace Sprout

open CompPair

variable {α β : Type}

/-- there is a version for every combination that occurs -/
theorem C157_switch (same e1 e2 : Bool) : (switch same e1 e2).isSome = true ↔ (same = true → e1 = e2) := by
  revert same e1 e2
  decide

/-- the values given are those returned. What is missing is a second type that is empty where the first is not, see `C157_empty_second_refuted`. -/
theorem C157_values_partial (same e1 e2 : Bool) (v : Nat) (hv : switch same e1 e2 = some v) (hne : ¬(same = false ∧ e1 = false ∧ e2 = true))
    (d1 : Option α) (d2 : Option β) (x : α) (y : β) : ∃ s, mk2 d1 d2 v x y = some s ∧ first v s = some x ∧ second v s = some y := by
  revert hv
  cases same <;> cases e1 <;> cases e2 <;> intro hv <;> simp [switch] at hv hne <;> subst hv <;>
    cases d1 <;> cases d2 <;>
    simp [mk2, layout, setFirst, setSecond, firstBase, secondBase, put, dflt, first, second, CompPair.read]

/-- `swap` exchanges the values, those of empty types being equal -/
theorem C157_swap_partial (same e1 e2 : Bool) (v : Nat) (hv : switch same e1 e2 = some v) (hne : ¬(same = false ∧ e1 = false ∧ e2 = true))
    (h1 : e1 = true → Subsingleton α) (h2 : e2 = true → Subsingleton β) (d1 : Option α) (d2 : Option β) (x x' : α) (y y' : β) (s t : St α β)
    (hs : mk2 d1 d2 v x y = some s) (ht : mk2 d1 d2 v x' y' = some t) :
    ∃ s' t', swap v s t = some (s', t') ∧ first v s' = some x' ∧ second v s' = some y' ∧ first v t' = some x ∧ second v t' = some y := by
  have q1 : e1 = true → x = x' := fun h => (h1 h).elim x x'
  have q2 : e2 = true → y = y' := fun h => (h2 h).elim y y'
  revert hv hs ht
  cases same <;> cases e1 <;> cases e2 <;> intro hv <;> simp [switch] at hv hne q1 q2 <;> subst hv <;>
    cases d1 <;> cases d2 <;>
    simp only [mk2, layout, setFirst, setSecond, firstBase, secondBase, put, dflt, Option.map_some, Option.bind_eq_bind, Option.bind_some,
      if_true, if_false, Option.some.injEq, Bool.false_eq_true] <;>
    rintro rfl rfl <;>
    simp [swap, swapCell, first, second, firstBase, secondBase, CompPair.read, *]

/-- a pair of which only the second type is empty cannot be constructed: it is derived from the first type -/
theorem C157_empty_second_refuted (d1 : Option α) (d2 : Option β) (x : α) (y : β) :
    ∃ v, switch false false true = some v ∧ mk2 d1 d2 v x y = none := by
  refine ⟨2, rfl, ?_⟩
  cases d1 <;> simp [mk2, layout, setFirst, setSecond, firstBase, secondBase, put, dflt]

/-- given the first value only, the second is that of default-initialisation, or the same if the types are the same -/
theorem C157_single (same e1 e2 : Bool) (v : Nat) (hv : switch same e1 e2 = some v) (hne : ¬(same = false ∧ e1 = false ∧ e2 = true))
    (d1 : Option α) (d2 : Option β) (c : α → β) (x : α) :
    ∃ s, mk1 d1 d2 c v x = some s ∧ first v s = some x ∧ second v s = if same then some (c x) else d2 := by
  revert hv
  cases same <;> cases e1 <;> cases e2 <;> intro hv <;> simp [switch] at hv hne <;> subst hv <;>
    cases d1 <;> cases d2 <;>
    simp [mk1, layout, setFirst, setSecond, firstBase, secondBase, put, dflt, first, second, CompPair.read]

/-- so that the second element of `compressed_pair<int, long>(1)` must not be read: it is not initialised to zero, as it is without arguments -/
theorem C157_single_refuted (c : Int → Int) : ∃ v s, switch false false false = some v ∧ mk1 (none : Option Int) (none : Option Int) c v 1 = some s ∧
    second v s = none := ⟨0, _, rfl, rfl, rfl⟩

/-- an empty first type -/
example : ∃ s, mk2 (some ()) (none : Option Nat) 1 () 7 = some s ∧ second 1 s = some 7 := ⟨_, rfl, rfl⟩

end Sprout
