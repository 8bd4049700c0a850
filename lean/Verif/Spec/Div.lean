import Verif.Model.Div

/-! # Specification of the C division -/

namespace Sprout
namespace Spec

/-- `q` and `r` are the quotient truncated towards zero and its remainder -/
def Truncated (n d q r : Int) : Prop :=
  q * d + r = n ∧ r.natAbs < d.natAbs ∧ (0 ≤ n → 0 ≤ r) ∧ (n ≤ 0 → r ≤ 0)

end Spec
end Sprout
