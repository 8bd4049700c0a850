import Verif.Model.ForwardClist

/-! # Linked lists -/

namespace Sprout
namespace Clist

/-- From `a`, the items of the list follow one another, and the last is followed by none. -/
def Chain (h : Nat → Option Nat) : Nat → List Nat → Prop
  | a, [] => h a = none
  | a, b :: l => h a = some b ∧ Chain h b l

/-- the states agree except at the items of the list -/
def SameBut (h h' : Nat → Option Nat) (l : List Nat) : Prop := ∀ a, a ∉ l → h' a = h a

end Clist
end Sprout
