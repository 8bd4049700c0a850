import Verif.Model.VariantT

/-!
# What `variant` should do

A variant holds a value of one of its alternatives.
-/

namespace Sprout
namespace Spec
open Var
variable {τ V : Type}

/-- `x` holds the value `v` of the alternative number `i`, whose type is `t` -/
def VHolds (ts : List τ) (x : Variant V) (i : Nat) (t : τ) (v : V) : Prop :=
  x.which = i ∧ x.tuple.length = ts.length ∧ ts[i]? = some t ∧ x.tuple[i]? = some v

/-- the order of indexed values: by the index, then by the value -/
def sumLt (ts : List τ) (ltv : τ → V → V → Bool) (a b : Nat × V) : Bool :=
  decide (a.1 < b.1) || (a.1 == b.1 && (ts[a.1]?.elim false fun t => ltv t a.2 b.2))

end Spec
end Sprout
