import Verif.Model.OptionalT

/-!
# What `optional` should do

An optional is a value of `Option α`.
-/

namespace Sprout
namespace Spec
open Opt
variable {H P α : Type}

/-- `o` holds `x` -/
def Holds (p : Policy H P α) (o : O H) : Option α → Prop
  | none => o.init = false
  | some a => o.init = true ∧ p.ref o.val = some a

/-- what a holder must satisfy: a holder constructed from the referent of another one has the same referent -/
structure HolderLaws (p : Policy H P α) : Prop where
  again : ∀ h a, p.ref h = some a → ∃ b, p.adr h = some b ∧ p.ref (p.hold b) = some a
  ptr : ∀ h a, p.ref h = some a → p.ptr h = true

/-- equality of optional values -/
def optEq (eqv : α → α → Bool) : Option α → Option α → Bool
  | none, none => true
  | some a, some b => eqv a b
  | _, _ => false

/-- order of optional values: nothing comes first -/
def optLt (ltv : α → α → Bool) : Option α → Option α → Bool
  | none, some _ => true
  | some a, some b => ltv a b
  | _, none => false

end Spec
end Sprout
