import Verif.Model.SumXor

/-! # Specification of the byte sums -/

namespace Sprout
namespace Spec
open SumXor

/-- the bytes a call adds; the positions must denote a range of the block -/
def fed : Call → Option (List Nat)
  | .byte b => some [b]
  | .block m f l => if f ≤ l ∧ l ≤ m.length then some ((m.drop f).take (l - f)) else none
  | .blockIn m f l => if f ≤ l ∧ l ≤ m.length then some ((m.drop f).take (l - f)) else none

/-- the message of a sequence of calls -/
def Message (cs : List Call) (msg : List Nat) : Prop :=
  ∃ parts : List (List Nat), List.Forall₂ (fun c p => fed c = some p) cs parts ∧ msg = parts.flatten

end Spec
end Sprout
