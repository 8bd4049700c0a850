import Verif.Model.Complex

/-!
# C85: complex arithmetic
-/

namespace Sprout
open Cplx

/-- the complex number -/
def Cplx.toC (z : Cplx) : ℂ := ⟨z.re, z.im⟩

theorem Cplx.toC_inj {z w : Cplx} (h : z.toC = w.toC) : z = w := by
  cases z; cases w
  simp only [toC, Complex.mk.injEq] at h
  rw [h.1, h.2]

theorem Cplx.cnorm_toC (z : Cplx) : z.cnorm = Complex.normSq z.toC := by simp [cnorm, toC, Complex.normSq_apply]

theorem C85_add (z w : Cplx) (x : ℝ) : (add z w).toC = z.toC + w.toC ∧ (addCT z x).toC = z.toC + x ∧ (addTC x z).toC = x + z.toC := by
  refine ⟨?_, ?_, ?_⟩ <;> apply Complex.ext <;> simp [add, addCT, addTC, toC]

theorem C85_sub (z w : Cplx) (x : ℝ) : (sub z w).toC = z.toC - w.toC ∧ (subCT z x).toC = z.toC - x ∧ (subTC x z).toC = x - z.toC := by
  refine ⟨?_, ?_, ?_⟩ <;> apply Complex.ext <;> simp [sub, subCT, subTC, toC]

theorem C85_mul (z w : Cplx) (x : ℝ) : (mul z w).toC = z.toC * w.toC ∧ (mulCT z x).toC = z.toC * x ∧ (mulTC x z).toC = x * z.toC := by
  refine ⟨?_, ?_, ?_⟩ <;> apply Complex.ext <;> simp [mul, mulCT, mulTC, toC]

example : mul ⟨1, 2⟩ ⟨3, -1⟩ = ⟨5, 5⟩ := by simp only [mul]; norm_num

/-- Quotients are exact if the divisor is not zero. -/
theorem C85_div (z w : Cplx) (x : ℝ) (hw : w.toC ≠ 0) (hx : x ≠ 0) :
    (div z w).toC = z.toC / w.toC ∧ (divCT z x).toC = z.toC / x ∧ (divTC x w).toC = x / w.toC := by
  have hn : cnorm w ≠ 0 := by rw [cnorm_toC]; exact fun h => hw (Complex.normSq_eq_zero.mp h)
  refine ⟨?_, ?_, ?_⟩
  · rw [eq_div_iff hw]
    obtain ⟨n, e⟩ : ∃ n, n = cnorm w := ⟨_, rfl⟩
    rw [← e] at hn
    apply Complex.ext <;> simp only [div, toC, Complex.mul_re, Complex.mul_im, ← e] <;> field_simp <;> rw [e, cnorm] <;> ring
  · apply Complex.ext <;> simp [divCT, toC, Complex.div_ofReal_re, Complex.div_ofReal_im]
  · rw [eq_div_iff hw]
    obtain ⟨n, e⟩ : ∃ n, n = cnorm w := ⟨_, rfl⟩
    rw [← e] at hn
    apply Complex.ext <;> simp only [divTC, toC, Complex.mul_re, Complex.mul_im, ← e, Complex.ofReal_re, Complex.ofReal_im]
    · field_simp
      rw [e, cnorm]
      ring
    · ring

example : div ⟨5, 5⟩ ⟨3, -1⟩ = ⟨1, 2⟩ := by simp only [div, cnorm]; norm_num

theorem C85_sign_eq (z w : Cplx) (x : ℝ) : (pos z).toC = z.toC ∧ (neg z).toC = -z.toC ∧ (conj z).toC = starRingEnd ℂ z.toC ∧ (perp z).toC = Complex.I * z.toC ∧
    (eq z w ↔ z.toC = w.toC) ∧ (eqCT z x ↔ z.toC = x) ∧ (eqTC x z ↔ (x : ℂ) = z.toC) ∧
    (ne z w ↔ z.toC ≠ w.toC) ∧ (neCT z x ↔ z.toC ≠ x) ∧ (neTC x z ↔ (x : ℂ) ≠ z.toC) := by
  have h1 : eq z w ↔ z.toC = w.toC := by rw [Complex.ext_iff]; rfl
  have h2 : eqCT z x ↔ z.toC = x := by rw [Complex.ext_iff]; rfl
  have h3 : eqTC x z ↔ (x : ℂ) = z.toC := by rw [Complex.ext_iff]; rfl
  refine ⟨rfl, ?_, ?_, ?_, h1, h2, h3, not_congr h1, not_congr h2, not_congr h3⟩ <;> apply Complex.ext <;> simp [neg, conj, perp, toC]

/-- Compound assignment of a complex number, also of the object itself -/
theorem C85_assign (z : Cplx) (a : CArg) : assign z a = a.get z ∧ (addAssign z a).toC = z.toC + (a.get z).toC ∧
    (subAssign z a).toC = z.toC - (a.get z).toC ∧ (mulAssign z a).toC = z.toC * (a.get z).toC ∧
    ((a.get z).toC ≠ 0 → (divAssign z a).toC = z.toC / (a.get z).toC) := by
  refine ⟨?_, ?_, ?_, ?_, fun h => ?_⟩
  · cases a <;> rfl
  · cases a <;> apply Complex.ext <;> simp [addAssign, CArg.get, toC]
  · cases a <;> apply Complex.ext <;> simp [subAssign, CArg.get, toC]
  · exact (C85_mul z (a.get z) 0).1
  · exact (C85_div z (a.get z) 1 h one_ne_zero).1

/-- Assignment and compound assignment of a real number. *Partial*: for `*=` and `/=` the argument is not a reference to the real
part of the object. -/
theorem C85_assign_real_partial (z : Cplx) (a : Arg) : (assignT z a).toC = a.get z ∧ (addAssignT z a).toC = z.toC + a.get z ∧
    (subAssignT z a).toC = z.toC - a.get z ∧
    (a ≠ .reOf → (mulAssignT z a).toC = z.toC * a.get z ∧ (divAssignT z a).toC = z.toC / a.get z) := by
  refine ⟨?_, ?_, ?_, fun h => ?_⟩
  · cases a <;> apply Complex.ext <;> simp [assignT, Arg.get, toC]
  · cases a <;> apply Complex.ext <;> simp [addAssignT, Arg.get, toC]
  · cases a <;> apply Complex.ext <;> simp [subAssignT, Arg.get, toC]
  · constructor <;> cases a <;> first | exact absurd rfl h | apply Complex.ext <;>
      simp [mulAssignT, divAssignT, Arg.get, toC, Complex.div_ofReal_re, Complex.div_ofReal_im]

/-- `z *= z.real()` is right only if the imaginary part is zero or the real part is 0 or 1, … -/
theorem C85_mul_assign_refuted (z : Cplx) : (mulAssignT z .reOf).toC = z.toC * z.re ↔ z.im = 0 ∨ z.re = 0 ∨ z.re = 1 := by
  rw [Complex.ext_iff]
  simp only [mulAssignT, Arg.get, toC, Complex.mul_re, Complex.mul_im, Complex.ofReal_re, Complex.ofReal_im]
  constructor
  · rintro ⟨-, h⟩
    have : z.im * (z.re * (z.re - 1)) = 0 := by linarith
    rcases mul_eq_zero.mp this with h | h
    · exact Or.inl h
    · rcases mul_eq_zero.mp h with h | h
      · exact Or.inr (Or.inl h)
      · exact Or.inr (Or.inr (by linarith))
  · rintro (h | h | h) <;> simp [h]

/-- … `z /= z.real()` only if the imaginary part is zero or the real part is 1. -/
theorem C85_div_assign_refuted (z : Cplx) (h0 : z.re ≠ 0) : (divAssignT z .reOf).toC = z.toC / z.re ↔ z.im = 0 ∨ z.re = 1 := by
  rw [Complex.ext_iff, Complex.div_ofReal_re, Complex.div_ofReal_im]
  simp only [divAssignT, Arg.get, toC, true_and]
  rw [div_self h0, div_one, eq_div_iff h0]
  constructor
  · intro h
    have : z.im * (z.re - 1) = 0 := by linarith
    rcases mul_eq_zero.mp this with h | h
    · exact Or.inl h
    · exact Or.inr (by linarith)
  · rintro (h | h) <;> simp [h]

example : mulAssignT ⟨2, 3⟩ .reOf = ⟨4, 12⟩ ∧ mulCT ⟨2, 3⟩ 2 = ⟨4, 6⟩ := by constructor <;> simp [mulAssignT, mulCT, Arg.get] <;> norm_num

/-- `begin()` and `end()` enclose the two parts; `cbegin()` and `cend()` enclose nothing. -/
theorem C85_range (z : Cplx) : between z begin' end' = [z.re, z.im] := rfl

theorem C85_cend_refuted (z : Cplx) : between z cbegin cend = [] := rfl

end Sprout
