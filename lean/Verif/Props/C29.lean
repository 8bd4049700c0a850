import Verif.Proofs.Gcd
import Verif.Spec.Gcd

/-!
# C29: gcd

The binary algorithm for the unsigned built-in types of any width, the signed built-in types through `abs`, and the
Euclidean algorithm for the other integer types (`IntTy`: any two's complement width, or unbounded).
-/

namespace Sprout
open Spec

theorem isGcd_gcd (a b : Int) : IsGcd a b (Int.gcd a b : Int) := by
  refine ⟨by omega, Int.gcd_dvd_left _ _, Int.gcd_dvd_right _ _, fun d h1 h2 => ?_⟩
  have h := Int.dvd_coe_gcd h1 h2
  exact ⟨h, fun hne => Int.le_of_dvd (by omega) h⟩

/-- the gcd is unique -/
theorem isGcd_unique {a b g h : Int} (hg : IsGcd a b g) (hh : IsGcd a b h) : g = h :=
  Int.dvd_antisymm hg.1 hh.1 (hh.2.2.2 g hg.2.1 hg.2.2.1).1 (hg.2.2.2 h hh.2.1 hh.2.2.1).1

/-- `gcd` of the unsigned built-in types: always defined, and the greatest common divisor -/
theorem C29_gcd_unsigned {w : Nat} (u v : BitVec w) :
    ∃ g, gcdUnsigned u v = some g ∧ IsGcd u.toNat v.toNat g.toNat := by
  obtain ⟨g, h1, h2⟩ := gcdUnsigned_eq u v
  refine ⟨g, h1, ?_⟩
  rw [h2]
  exact isGcd_gcd u.toNat v.toNat

/-- `gcd` of the signed built-in types: for all arguments whose absolute values are representable -/
theorem C29_gcd_signed {w : Nat} {a b : BitVec w} (ha : (IntTy.signed w).fits a.toInt.natAbs = true)
    (hb : (IntTy.signed w).fits b.toInt.natAbs = true) :
    ∃ g, gcdSigned a b = some g ∧ IsGcd a.toInt b.toInt g.toInt := by
  obtain ⟨u, h1, h2⟩ := absSigned_eq ha
  obtain ⟨v, h3, h4⟩ := absSigned_eq hb
  obtain ⟨g, h5, h6⟩ := gcdUnsigned_eq u v
  refine ⟨g, by rw [gcdSigned, h1, h3]; exact h5, ?_⟩
  rw [h2, h4] at h6
  have hbound : 2 * g.toNat < 2 ^ w := by
    simp only [IntTy.signed, decide_eq_true_eq] at ha hb
    have hw : 2 * 2 ^ (w - 1) = 2 ^ w ∨ w = 0 := by
      cases w with
      | zero => exact Or.inr rfl
      | succ w => left; rw [Nat.add_sub_cancel, Nat.pow_succ, Nat.mul_comm]
    rcases hw with hw | hw
    · rw [h6]
      by_cases h0 : a.toInt.natAbs = 0
      · rw [h0, Nat.gcd_zero_left]; omega
      · have := Nat.gcd_le_left b.toInt.natAbs (Nat.pos_of_ne_zero h0)
        omega
    · subst hw
      have := g.isLt
      simp at this ⊢; omega
  have : g.toInt = g.toNat := by rw [BitVec.toInt_eq_toNat_cond, if_pos hbound]
  rw [this, h6]
  exact isGcd_gcd a.toInt b.toInt

/-- the Euclidean algorithm (`gcd_integer`), over every integer type -/
theorem C29_gcd_integer (T : IntTy) {a b : Int} (ha : T.fits a.natAbs = true) (hb : T.fits b.natAbs = true) :
    ∃ g, gcdInteger T a b = some g ∧ IsGcd a b g :=
  ⟨_, gcdInteger_eq ha hb, isGcd_gcd a b⟩

/-- `gcd_euclidean` by itself gives the greatest common divisor up to sign -/
theorem C29_gcd_euclidean (T : IntTy) {a b : Int} (ha : T.fits a.natAbs = true) (hb : T.fits b.natAbs = true) :
    ∃ g, gcdEuclidean T a b = some g ∧ IsGcd a b g.natAbs := by
  obtain ⟨g, h1, h2⟩ := gcdEuclidean_eq (T := T) _ a b rfl ha hb
  exact ⟨g, h1, by rw [h2]; exact isGcd_gcd a b⟩

/-- and for unsigned types exactly -/
theorem C29_gcd_euclidean_unsigned {w : Nat} (a b : BitVec w) :
    ∃ g, gcdEuclideanU a b = some g ∧ IsGcd a.toNat b.toNat g.toNat := by
  obtain ⟨g, h1, h2⟩ := gcdEuclideanU_eq _ a b rfl
  exact ⟨g, h1, by rw [h2]; exact isGcd_gcd a.toNat b.toNat⟩

/-- the precondition is needed: the smallest `int` has no representable absolute value -/
theorem C29_min_undefined : gcdSigned (0x80000000#32) 6#32 = none := by decide

/-- non-vacuity: `gcd(-12, 18) = 6` -/
example : ∃ g, gcdSigned (-12#32) 18#32 = some g ∧ IsGcd (-12) 18 g.toInt :=
  C29_gcd_signed (w := 32) (a := -12#32) (b := 18#32) (by decide) (by decide)
example : ∃ g, gcdInteger (IntTy.signed 64) (-12) 18 = some g ∧ IsGcd (-12) 18 g := C29_gcd_integer _ rfl rfl
example : IsGcd (-12) 18 6 := by
  refine ⟨by decide, by decide, by decide, fun d h1 h2 => ?_⟩
  have : d ∣ 6 := by have := Int.dvd_add h1 h2; simpa using this
  exact ⟨this, fun _ => Int.le_of_dvd (by decide) this⟩

end Sprout
