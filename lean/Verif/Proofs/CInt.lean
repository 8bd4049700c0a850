import Verif.Model.CInt
import Mathlib.Algebra.Order.Ring.Int
import Mathlib.Tactic.Linarith

/-! # Lemmas about C++ integer arithmetic -/

namespace Sprout.CInt

theorem Std.bounds {T : CInt} (h : T.Std) :
    127 ≤ T.max ∧ T.min ≤ 0 ∧ (T.w < 32 → -2 ^ 31 ≤ T.min ∧ T.max < 2 ^ 31) ∧ (T.sg = true → T.min = -T.max - 1) ∧
      (T.sg = false → T.min = 0) ∧ (2 : Int) ^ T.w = T.max - T.min + 1 := by
  obtain ⟨w, sg⟩ := T
  simp only [Std, max, min] at *
  rcases h with rfl | rfl | rfl | rfl <;> cases sg <;> simp

theorem arith_ok {T : CInt} (hT : T.Std) {x : Int} (hx : T.Has x) : T.arith x = some x := by
  obtain ⟨h1, h2, h3, h4, h5, h6⟩ := hT.bounds
  unfold arith
  split
  · rename_i hw
    obtain ⟨h7, h8⟩ := h3 hw
    unfold Has at hx
    rw [if_pos (by omega)]
  · split
    · rfl
    · rename_i hs
      rw [h6, h5 (by simpa using hs)]
      rw [Has, h5 (by simpa using hs)] at hx
      rw [Int.emod_eq_of_lt (by omega) (by omega)]

theorem conv_ok {T : CInt} (hT : T.Std) {x : Int} (hx : T.Has x) : T.conv x = x := by
  obtain ⟨h1, h2, h3, h4, h5, h6⟩ := hT.bounds
  unfold conv
  rw [h6]
  unfold Has at hx
  rw [Int.emod_eq_of_lt (by omega) (by omega)]
  omega

theorem div_ok {T : CInt} (hT : T.Std) {x y : Int} (hx0 : 0 ≤ x) (hx : x ≤ T.max) (hy : 0 < y) : T.div x y = some (x / y) := by
  obtain ⟨h1, h2, -⟩ := hT.bounds
  rw [div, if_neg (by omega), Int.tdiv_eq_ediv_of_nonneg hx0, arith_ok hT]
  have := Int.ediv_nonneg hx0 (by omega : 0 ≤ y)
  have := Int.ediv_le_self y hx0
  unfold Has
  omega

/-- `static_cast<T>(-1)` -/
theorem conv_neg_one {T : CInt} (hT : T.Std) : T.conv (-1) = if T.sg then -1 else T.max := by
  obtain ⟨h1, h2, h3, h4, h5, h6⟩ := hT.bounds
  split
  · rename_i hs
    exact conv_ok hT (by unfold Has; have := h4 hs; omega)
  · rename_i hs
    have := h5 (by simpa using hs)
    rw [conv, h6, this]
    rw [show (-1 : Int) - 0 = T.max + (T.max - 0 + 1) * (-1) by omega, Int.add_mul_emod_self_left,
      Int.emod_eq_of_lt (by omega) (by omega)]
    omega

end Sprout.CInt
