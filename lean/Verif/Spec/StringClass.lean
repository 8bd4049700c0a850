import Verif.Spec.StringFind

/-!
# What a `basic_string<char, N>` represents
-/

namespace Sprout.Spec.Str

/-- the array of `N + 1` characters with the length `len` represents the string `cs`: it begins with `cs`, all other
characters are null -/
structure Represents (N : Nat) (elems : List Int) (len : Nat) (cs : List Int) : Prop where
  size : elems.length = N + 1
  len : len = cs.length
  fits : cs.length ≤ N
  chars : ∀ i, i < cs.length → elems[i]? = cs[i]?
  nulls : ∀ i, cs.length ≤ i → i ≤ N → elems[i]? = some 0

/-- `ds` is stored at position `s` of the block `m` -/
def StoredAt (m : List Int) (s : Nat) (ds : List Int) : Prop := ∀ i, i < ds.length → m[s + i]? = ds[i]?

/-- the result of a three-way comparison: negative, positive or 0 as `cs` is lexicographically less than, greater than or equal
to `ds` -/
def Cmp3 (cs ds : List Int) (r : Int) : Prop := (r < 0 ↔ cs < ds) ∧ (0 < r ↔ ds < cs) ∧ (r = 0 ↔ cs = ds)

end Sprout.Spec.Str
