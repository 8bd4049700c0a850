import Verif.Proofs.Bits

/-! # C22: popcount and parity count set bits -/

namespace Sprout
open Spec
variable {w : Nat}

/-- `popcount(x)` is the number of one bits, for every width (and the recursion terminates). -/
theorem C22_popcount (x : BitVec w) : popcount x = some (ones x) := popcount_eq _ x rfl

example : popcount 0xF1#8 = some 5 := C22_popcount _
example : popcount 0xFFFFFFFFFFFFFFFF#64 = some 64 := C22_popcount _

/-- `parity(x)` is the number of one bits mod 2, for every width `8 * 2^k`; no shift is undefined. -/
theorem C22_parity (hw : Width w) (x : BitVec w) : parity x = some (ones x % 2) := parity_eq hw x

example : parity 0xF1#8 = some 1 := C22_parity ⟨0, rfl⟩ _
example : parity 0x8000000000000001#64 = some 0 := C22_parity ⟨3, rfl⟩ _

/-- hence `parity(x) = popcount(x) mod 2` -/
theorem C22_parity_popcount (hw : Width w) (x : BitVec w) : parity x = (popcount x).map (· % 2) := by
  rw [C22_parity hw, C22_popcount]; rfl

example : parity 0x7#16 = (popcount 0x7#16).map (· % 2) := C22_parity_popcount ⟨1, rfl⟩ _

end Sprout
