import Verif.Spec.Lex

/-!
# C standard string functions (ISO C 7.21) on the contents of a string

`cs` is the list of characters before the terminator; the terminator itself is part of the string for
`strchr` / `strrchr`, so those are stated on `cs ++ [0]`.
-/

namespace Sprout.Spec.Cstr

/-- pointer to the first occurrence, or null; `none` is null -/
def First (t : List Int) (p : Int → Prop) : Option Nat → Prop
  | some k => (∃ x, t[k]? = some x ∧ p x) ∧ ∀ j x, j < k → t[j]? = some x → ¬ p x
  | none => ∀ x ∈ t, ¬ p x

/-- pointer to the last occurrence, or null -/
def Last (t : List Int) (c : Int) : Option Nat → Prop
  | some k => t[k]? = some c ∧ ∀ j, k < j → t[j]? ≠ some c
  | none => c ∉ t

/-- length of the longest initial segment all of whose characters satisfy `p` -/
def Span (t : List Int) (p : Int → Prop) (n : Nat) : Prop :=
  n ≤ t.length ∧ (∀ j x, j < n → t[j]? = some x → p x) ∧ ∀ x, t[n]? = some x → ¬ p x

/-- first occurrence of the string `ds` in the string `cs`, or null -/
def FirstSub (cs ds : List Int) : Option Nat → Prop
  | some k => k ≤ cs.length ∧ ds <+: cs.drop k ∧ ∀ j, j < k → ¬ ds <+: cs.drop j
  | none => ∀ j, j ≤ cs.length → ¬ ds <+: cs.drop j

/-- three-way comparison result: the sign tells the dictionary order of the characters, compared through `key` -/
def Cmp {α : Type} (key : α → Nat) (a b : List α) (r : Int) : Prop :=
  (r < 0 ↔ LexLt (fun x y => decide (key x < key y)) a b) ∧
  (r > 0 ↔ LexLt (fun x y => decide (key x < key y)) b a) ∧
  (r = 0 ↔ a.map key = b.map key)

/-- ISO C compares characters "interpreted as `unsigned char`" -/
def asUChar (x : Int) : Nat := (x % 256).toNat

end Sprout.Spec.Cstr
