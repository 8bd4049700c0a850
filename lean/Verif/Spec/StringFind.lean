/-!
# Searching in strings ([string.find], [string.compare])

`cs` is the content of the string searched, `ds` the sequence of characters given.
-/

namespace Sprout.Spec.Str

/-- `npos`: the largest value of a 64-bit `size_t` -/
def npos : Nat := 2 ^ 64 - 1

/-- the least position with the property, or `npos` -/
def Lowest (P : Nat → Prop) (r : Nat) : Prop := (P r ∧ ∀ i, i < r → ¬P i) ∨ (r = npos ∧ ∀ i, ¬P i)

/-- the greatest position with the property, or `npos` -/
def Highest (P : Nat → Prop) (r : Nat) : Prop := (P r ∧ ∀ i, r < i → ¬P i) ∨ (r = npos ∧ ∀ i, ¬P i)

/-- `ds` occurs in `cs` at position `i` -/
def OccursAt (cs ds : List Int) (i : Nat) : Prop :=
  i + ds.length ≤ cs.length ∧ ∀ j, j < ds.length → cs[i + j]? = ds[j]?

/-- the character at position `i` is among the `ds` -/
def OneOf (cs ds : List Int) (i : Nat) : Prop := ∃ c, cs[i]? = some c ∧ c ∈ ds

/-- there is a character at position `i` and it is not among the `ds` -/
def NotOneOf (cs ds : List Int) (i : Nat) : Prop := ∃ c, cs[i]? = some c ∧ c ∉ ds

end Sprout.Spec.Str
