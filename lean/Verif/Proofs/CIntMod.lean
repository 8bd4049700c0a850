import Verif.Model.CInt
import Mathlib.Data.Int.ModEq

/-! # Conversions to an integer type and congruences -/

namespace Sprout

theorem CInt.conv_modEq (T : CInt) (x : Int) : T.conv x ≡ x [ZMOD 2 ^ T.w] := by
  unfold CInt.conv
  have := (Int.mod_modEq (x - T.min) (2 ^ T.w)).add_right T.min
  simpa using this

theorem CInt.conv_congr (T : CInt) {x y : Int} (h : x ≡ y [ZMOD 2 ^ T.w]) : T.conv x = T.conv y := by
  unfold CInt.conv
  rw [(h.sub_right T.min : _ % _ = _ % _)]

end Sprout
