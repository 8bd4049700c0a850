import Verif.Model.Limits
import Mathlib.Data.Int.Basic
import Mathlib.Tactic.Ring

/-!
# C163: limits of integer types

Refuted: those of `char32_t` are cast to `char16_t`.
-/

namespace Sprout
open Limits

/-- the values of a type: all integers that fit in its bits -/
def HasValue (P : Platform) (t : Ty) (x : Int) : Prop :=
  if isSigned P t then -2 ^ (P.bits t - 1) ≤ x ∧ x < 2 ^ (P.bits t - 1) else 0 ≤ x ∧ x < 2 ^ P.bits t

/-- a platform in which `bool` has one bit and all types have some -/
def Platform.Ok (P : Platform) : Prop := P.bits .bool = 1 ∧ ∀ t, 1 ≤ P.bits t

/-- `m` and `M` are the least and the greatest value -/
def IsLimits (P : Platform) (t : Ty) (m M : Int) : Prop :=
  HasValue P t m ∧ HasValue P t M ∧ ∀ x, HasValue P t x → m ≤ x ∧ x ≤ M

/-- the full statement -/
def C163_statement : Prop := ∀ P : Platform, Platform.Ok P → ∀ t, IsLimits P t (Limits.min P t) (Limits.max P t) ∧ lowest P t = Limits.min P t

private theorem pow_split (n : Nat) (h : 1 ≤ n) : (2 : Int) ^ n = 2 * 2 ^ (n - 1) := by
  conv_lhs => rw [show n = n - 1 + 1 by omega, Int.pow_succ]
  omega

/-- a value of the type is not changed by the conversion -/
private theorem cast_value (P : Platform) (t : Ty) (h : 1 ≤ P.bits t) (x : Int) (hx : HasValue P t x) : castTo P t x = x := by
  unfold HasValue at hx
  unfold castTo
  have hs := pow_split _ h
  split
  · rename_i h1
    simp only [h1, if_true] at hx
    rw [show ((2 ^ P.bits t : Int)) = ((2 ^ P.bits t : Nat) : Int) by push_cast; rfl] at *
    have hn : (2 ^ P.bits t : Nat) = 2 * 2 ^ (P.bits t - 1) := by
      conv_lhs => rw [show P.bits t = P.bits t - 1 + 1 by omega, Nat.pow_succ]
      omega
    have hc : ((2 ^ (P.bits t - 1) : Nat) : Int) = 2 ^ (P.bits t - 1) := by push_cast; rfl
    apply Int.bmod_eq_of_le <;> omega
  · rename_i h1
    simp only [h1] at hx
    exact Int.emod_eq_of_lt hx.1 hx.2

private theorem pow_pos' (n : Nat) : (0 : Int) < 2 ^ n := Int.pow_pos (by omega)

private theorem macro_limits (P : Platform) (t : Ty) : IsLimits P t (macroMin P t) (macroMax P t) := by
  have h1 := pow_pos' (P.bits t - 1)
  have h2 := pow_pos' (P.bits t)
  unfold IsLimits HasValue macroMin macroMax
  cases isSigned P t
  · simp only [Bool.false_eq_true, if_false]
    refine ⟨⟨by omega, by omega⟩, ⟨by omega, by omega⟩, fun x hx => ⟨by omega, by omega⟩⟩
  · simp only [if_true]
    refine ⟨⟨by omega, by omega⟩, ⟨by omega, by omega⟩, fun x hx => ⟨by omega, by omega⟩⟩

/-- the limits of all types but `char32_t`. What is missing is that type, see `C163_char32_refuted`. -/
theorem C163_partial (P : Platform) (hP : Platform.Ok P) (t : Ty) (ht : t ≠ .char32) :
    IsLimits P t (Limits.min P t) (Limits.max P t) ∧ lowest P t = Limits.min P t := by
  have hm : Limits.min P t = macroMin P t := by
    have h := cast_value P t (hP.2 t) (macroMin P t) (macro_limits P t).1
    cases t <;> simp_all [Limits.min, macroMin, isSigned, leastMin]
  have hM : Limits.max P t = macroMax P t := by
    have h := cast_value P t (hP.2 t) (macroMax P t) (macro_limits P t).2.1
    have hb := hP.1
    cases t <;> simp_all [Limits.max, macroMax, isSigned, leastMax]
  rw [hm, hM]
  refine ⟨macro_limits P t, ?_⟩
  rw [← hm]
  cases t <;> rfl

/-- the limits of `char32_t` are those of `char16_t`, so the greatest value is not 4294967295 but 65535 -/
theorem C163_char32_refuted (P : Platform) (hP : Platform.Ok P) (h : P.bits .char16 < P.bits .char32) :
    Limits.max P .char32 = 2 ^ P.bits .char16 - 1 ∧ ¬ IsLimits P .char32 (Limits.min P .char32) (Limits.max P .char32) := by
  have h16 := pow_pos' (P.bits .char16)
  have hlt : (2 : Int) ^ P.bits .char16 < 2 ^ P.bits .char32 := by
    have : 2 ^ P.bits .char16 < 2 ^ P.bits .char32 := Nat.pow_lt_pow_right (by omega) h
    exact_mod_cast this
  have e : Limits.max P .char32 = 2 ^ P.bits .char16 - 1 := by
    have hd : (2 : Int) ^ P.bits .char32 = 2 ^ P.bits .char16 * 2 ^ (P.bits .char32 - P.bits .char16) := by
      rw [← Int.pow_add]
      congr 1
      omega
    have hi : ((2 : Int) ^ P.bits .char32 - 1) % 2 ^ P.bits .char16 = 2 ^ P.bits .char16 - 1 := by
      rw [hd, show (2 : Int) ^ P.bits .char16 * 2 ^ (P.bits .char32 - P.bits .char16) - 1 =
        (2 ^ P.bits .char16 - 1) + 2 ^ P.bits .char16 * (2 ^ (P.bits .char32 - P.bits .char16) - 1) by ring, Int.add_mul_emod_self_left]
      exact Int.emod_eq_of_lt (by omega) (by omega)
    simp only [Limits.max, castTo, isSigned, leastMax, Bool.false_eq_true, if_false, hi]
    exact Int.emod_eq_of_lt (by omega) (by omega)
  refine ⟨e, fun hl => ?_⟩
  have := (hl.2.2 (2 ^ P.bits .char32 - 1) (by simp only [HasValue, isSigned, Bool.false_eq_true, if_false]; omega)).2
  rw [e] at this
  omega

/-- a common platform -/
def lp64 : Platform := ⟨fun
  | .bool => 1
  | .char | .schar | .uchar => 8
  | .short | .ushort | .char16 => 16
  | .int | .uint | .char32 | .wchar => 32
  | _ => 64, true, true⟩

/-- so the full statement does not hold -/
theorem C163_false : ¬ C163_statement := by
  intro h
  have hP : Platform.Ok lp64 := ⟨rfl, fun t => by cases t <;> decide⟩
  exact (C163_char32_refuted lp64 hP (by decide)).2 (h lp64 hP .char32).1

example : Limits.max lp64 .char32 = 65535 ∧ Limits.max lp64 .int = 2147483647 ∧ Limits.min lp64 .schar = -128 ∧ Limits.max lp64 .bool = 1 := by decide

end Sprout
