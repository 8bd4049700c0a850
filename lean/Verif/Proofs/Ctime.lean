import Verif.Model.Ctime
import Verif.Spec.Calendar
import Verif.Proofs.CInt

/-! Lemmas for C70. -/

namespace Sprout.Ctime
open CInt Spec

theorem daysUp_closed (n : Nat) :
    daysUp (n + 1) = 365 * (n + 1) + (n : Int) / 4 - (n : Int) / 100 + (n : Int) / 400 + 1 := by
  induction n with
  | zero => decide
  | succ n ih =>
    rw [daysUp, ih]
    simp only [yearLen, Leap]
    push_cast
    split <;> omega

theorem daysToMonth_closed (y : Int) (m : Nat) (h1 : 1 ≤ m) (h2 : m ≤ 12) :
    daysToMonth y m = if m ≤ 2 then 31 * ((m : Int) - 1) else
      (367 * ((m : Int) - 2)) / 12 + 29 + (if Leap y then 1 else 0) := by
  have hm : m = 1 ∨ m = 2 ∨ m = 3 ∨ m = 4 ∨ m = 5 ∨ m = 6 ∨ m = 7 ∨ m = 8 ∨ m = 9 ∨ m = 10 ∨ m = 11 ∨ m = 12 := by omega
  rcases hm with h | h | h | h | h | h | h | h | h | h | h | h <;> subst h <;>
    by_cases hl : Leap y <;> simp [daysToMonth, monthLen, hl]

theorem daysUp_1970 : daysUp 1970 = 719528 := by
  rw [daysUp_closed 1969]; decide

theorem daysToYear_1970 : daysToYear 1970 = 719528 := by
  have h : (1970 : Int).toNat = 1970 := by decide
  rw [daysToYear, if_pos (by decide), h, daysUp_1970]

theorem int32_std : int32.Std := by simp [Std, int32]
theorem int64_std : int64.Std := by simp [Std, int64]

theorem i32 {x : Int} (h1 : -2147483648 ≤ x) (h2 : x ≤ 2147483647) : int32.arith x = some x :=
  arith_ok int32_std (by simp only [Has, CInt.min, CInt.max, int32]; norm_num; omega)
theorem i64 {x : Int} (h1 : -9223372036854775808 ≤ x) (h2 : x ≤ 9223372036854775807) : int64.arith x = some x :=
  arith_ok int64_std (by simp only [Has, CInt.min, CInt.max, int64]; norm_num; omega)
theorem d32 {x y : Int} (h1 : 0 ≤ x) (h2 : x ≤ 2147483647) (hy : 0 < y) : int32.div x y = some (x / y) :=
  div_ok int32_std h1 (by simp only [CInt.max, int32]; norm_num; omega) hy

theorem toTimeTImpl_eq {y m d hh mm ss : Int} (hy0 : 0 ≤ y) (hy : y ≤ 5883516) (hm0 : 0 ≤ m) (hm : m ≤ 12)
    (hd0 : -2 ^ 30 ≤ d) (hd : d ≤ 2 ^ 30) (hhh : int32.Has hh) (hmm : int32.Has mm) (hs : int32.Has ss) :
    toTimeTImpl y m d hh mm ss =
      some ((y / 4 - y / 100 + y / 400 + 367 * m / 12 + d + y * 365 - 719499) * 86400 + hh * 3600 + mm * 60 + ss) := by
  simp only [Has, CInt.min, CInt.max, int32] at hhh hmm hs
  norm_num at hhh hmm hs
  unfold toTimeTImpl
  rw [d32 hy0 (by omega) (by omega), d32 hy0 (by omega) (by omega), d32 hy0 (by omega) (by omega)]
  simp only [Option.bind_eq_bind, Option.bind_some]
  rw [i32 (by omega) (by omega), Option.bind_some, i32 (by omega) (by omega), Option.bind_some,
    i32 (x := 367 * m) (by omega) (by omega), Option.bind_some, d32 (by omega) (by omega) (by omega), Option.bind_some,
    i32 (by omega) (by omega), Option.bind_some, i32 (by omega) (by omega), Option.bind_some,
    i32 (x := y * 365) (by omega) (by omega), Option.bind_some]
  rw [i64 (by omega) (by omega), Option.bind_some, i64 (by omega) (by omega), Option.bind_some,
    i64 (by omega) (by omega), Option.bind_some, i64 (by omega) (by omega), Option.bind_some,
    i64 (by omega) (by omega), Option.bind_some, i64 (by omega) (by omega), Option.bind_some,
    i64 (by omega) (by omega), Option.bind_some, i64 (by omega) (by omega)]
  refine congrArg some ?_
  omega

theorem daysToYear_closed {y : Int} (h : 0 ≤ y) :
    daysToYear y = if y = 0 then 0 else 365 * y + (y - 1) / 4 - (y - 1) / 100 + (y - 1) / 400 + 1 := by
  obtain ⟨n, rfl⟩ : ∃ n : Nat, y = n := ⟨y.toNat, by omega⟩
  rw [daysToYear, if_pos (by omega), Int.toNat_natCast]
  cases n with
  | zero => rfl
  | succ n =>
    rw [daysUp_closed, if_neg (by omega)]
    push_cast
    omega

theorem leap_step (y : Int) : (y / 4 - y / 100 + y / 400 : Int) =
    (y - 1) / 4 - (y - 1) / 100 + (y - 1) / 400 + (if Leap y then 1 else 0) := by
  by_cases hl : Leap y
  · rw [if_pos hl]; unfold Leap at hl; omega
  · rw [if_neg hl]; unfold Leap at hl; omega

theorem days_early {y : Int} {m : Nat} (hm0 : 1 ≤ m) (h2 : m ≤ 2) (hy0 : 1 ≤ y) (d : Int) :
    (y - 1) / 4 - (y - 1) / 100 + (y - 1) / 400 + 367 * ((m : Int) + 10) / 12 + d + (y - 1) * 365 - 719499 =
      dayNumber y m d := by
  rw [dayNumber, daysToYear_1970, daysToMonth_closed y m hm0 (by omega), daysToYear_closed (by omega), if_neg (by omega),
    if_pos h2]
  have : m = 1 ∨ m = 2 := by omega
  rcases this with rfl | rfl <;> push_cast <;> omega

theorem days_late {y : Int} {m : Nat} (h2 : ¬m ≤ 2) (hm : m ≤ 12) (hy0 : 0 ≤ y) (d : Int) :
    y / 4 - y / 100 + y / 400 + 367 * ((m : Int) - 2) / 12 + d + y * 365 - 719499 = dayNumber y m d := by
  rw [dayNumber, daysToYear_1970, daysToMonth_closed y m (by omega) hm, daysToYear_closed (by omega), if_neg h2]
  by_cases hz : y = 0
  · subst hz
    have : Leap 0 := by decide
    rw [if_pos rfl, if_pos this]
    omega
  · rw [if_neg hz, leap_step]
    generalize (if Leap y then (1 : Int) else 0) = l
    omega

end Sprout.Ctime
