import Verif.Proofs.Gcd
import Verif.Props.C29

/-! # C30: lcm -/

namespace Sprout
open Spec

theorem isLcm_lcm (a b : Int) : IsLcm a b (Int.lcm a b : Int) := by
  refine ⟨by omega, Int.dvd_lcm_left _ _, Int.dvd_lcm_right _ _, fun m h1 h2 => ?_⟩
  have h := Int.coe_lcm_dvd h1 h2
  exact ⟨h, fun hm => Int.le_of_dvd hm h⟩

theorem lcmEuclidean_eq {T : IntTy} {a b : Int} (ha : T.fits a.natAbs = true) (hb : T.fits b.natAbs = true)
    (hl : T.fits (Int.lcm a b : Int) = true) :
    ∃ l, lcmEuclidean T a b = some l ∧ l.natAbs = Int.lcm a b := by
  obtain ⟨g, h1, h2⟩ := gcdEuclidean_eq (T := T) _ a b rfl ha hb
  rw [lcmEuclidean, h1]
  simp only [Option.bind_eq_bind, Option.bind_some]
  by_cases hg : g = 0
  · rw [if_neg (by simpa using hg)]
    refine ⟨0, rfl, ?_⟩
    rw [hg] at h2
    have := Int.gcd_eq_zero_iff.1 h2.symm
    rw [this.1, this.2]; rfl
  · rw [if_pos hg, IntTy.div, if_neg hg, IntTy.chk, if_pos (T.convex _ a (natAbs_tdiv_le a g) ha)]
    simp only [Option.bind_some]
    have e : (a.tdiv g * b).natAbs = Int.lcm a b := by
      rw [Int.natAbs_mul, Int.natAbs_tdiv, h2, Int.lcm_def, Nat.lcm, Int.gcd_def]
      exact Nat.div_mul_right_comm (Nat.gcd_dvd_left _ _) _
    rw [IntTy.chk, if_pos (T.convex _ (Int.lcm a b : Int) (by rw [e]; simp) (by simpa using hl))]
    exact ⟨_, rfl, e⟩

/-- `lcm` of signed types: the least common multiple, whenever it and the absolute values of the arguments are
representable -/
theorem C30_lcm_signed (T : IntTy) {a b : Int} (ha : T.fits a.natAbs = true) (hb : T.fits b.natAbs = true)
    (hl : T.fits (Int.lcm a b : Int) = true) :
    ∃ l, lcmInteger T a b = some l ∧ IsLcm a b l ∧ ((a = 0 ∨ b = 0) → l = 0) ∧
      ∀ g, IsGcd a b g → g * l = (a * b).natAbs := by
  obtain ⟨l, h1, h2⟩ := lcmEuclidean_eq ha hb hl
  refine ⟨(Int.lcm a b : Int), ?_, isLcm_lcm a b, ?_, fun g hg => ?_⟩
  · rw [lcmInteger, h1]
    simp only [Option.bind_eq_bind, Option.bind_some]
    by_cases h0 : l < 0
    · rw [if_pos h0, show -l = (Int.lcm a b : Int) by omega, IntTy.chk, if_pos hl]
    · rw [if_neg h0]; congr 1; omega
  · rintro (h | h) <;> rw [h] <;> simp
  · rw [isGcd_unique hg (isGcd_gcd a b), Int.natAbs_mul, ← Int.gcd_mul_lcm]; push_cast; rfl

/-- `lcm` of unsigned types of any width: the least common multiple, whenever it is representable -/
theorem C30_lcm_unsigned {w : Nat} (a b : BitVec w) (hl : Nat.lcm a.toNat b.toNat < 2 ^ w) :
    ∃ l, lcmUnsigned a b = some l ∧ IsLcm a.toNat b.toNat l.toNat ∧ ((a = 0 ∨ b = 0) → l = 0) ∧
      ∀ g, IsGcd a.toNat b.toNat g → g * l.toNat = a.toNat * b.toNat := by
  obtain ⟨g, h1, h2⟩ := gcdEuclideanU_eq _ a b rfl
  have key : ∃ l, lcmUnsigned a b = some l ∧ l.toNat = Nat.lcm a.toNat b.toNat := by
    rw [lcmUnsigned, h1]
    simp only [Option.bind_eq_bind, Option.bind_some]
    by_cases hg : g = 0
    · rw [if_neg (by simpa using hg)]
      refine ⟨0, rfl, ?_⟩
      rw [hg] at h2
      have := Nat.gcd_eq_zero_iff.1 (show Nat.gcd a.toNat b.toNat = 0 by rw [← h2]; simp)
      rw [this.1, this.2]; simp
    · rw [if_pos hg]
      refine ⟨_, rfl, ?_⟩
      rw [BitVec.toNat_mul, BitVec.toNat_udiv, h2, Nat.div_mul_right_comm (Nat.gcd_dvd_left _ _)]
      exact Nat.mod_eq_of_lt hl
  obtain ⟨l, e1, e2⟩ := key
  refine ⟨l, e1, ?_, ?_, fun g' hg' => ?_⟩
  · rw [e2]; exact isLcm_lcm a.toNat b.toNat
  · intro h
    apply BitVec.eq_of_toNat_eq
    rw [e2]
    rcases h with h | h <;> rw [h] <;> simp
  · rw [isGcd_unique hg' (isGcd_gcd _ _), e2]
    have := Nat.gcd_mul_lcm a.toNat b.toNat
    rw [Int.gcd_natCast_natCast]
    exact_mod_cast this

/-- without representability the unsigned result is the least common multiple modulo `2^w` -/
theorem C30_lcm_unsigned_mod {w : Nat} (a b : BitVec w) :
    ∃ l, lcmUnsigned a b = some l ∧ l.toNat = Nat.lcm a.toNat b.toNat % 2 ^ w := by
  obtain ⟨g, h1, h2⟩ := gcdEuclideanU_eq _ a b rfl
  rw [lcmUnsigned, h1]
  simp only [Option.bind_eq_bind, Option.bind_some]
  by_cases hg : g = 0
  · rw [if_neg (by simpa using hg)]
    refine ⟨0, rfl, ?_⟩
    rw [hg] at h2
    have := Nat.gcd_eq_zero_iff.1 (show Nat.gcd a.toNat b.toNat = 0 by rw [← h2]; simp)
    rw [this.1, this.2]; simp
  · rw [if_pos hg]
    refine ⟨_, rfl, ?_⟩
    rw [BitVec.toNat_mul, BitVec.toNat_udiv, h2, Nat.div_mul_right_comm (Nat.gcd_dvd_left _ _)]
    rfl

/-- non-vacuity: `lcm(-4, 6) = 12` -/
example : ∃ l, lcmInteger (IntTy.signed 8) (-4) 6 = some l ∧ IsLcm (-4) 6 l := by
  obtain ⟨l, h1, h2, -⟩ := C30_lcm_signed (IntTy.signed 8) (a := -4) (b := 6) (by decide) (by decide) (by decide)
  exact ⟨l, h1, h2⟩
example : ∃ l, lcmUnsigned 200#8 150#8 = some l ∧ l.toNat = 600 % 256 := C30_lcm_unsigned_mod 200#8 150#8

end Sprout
