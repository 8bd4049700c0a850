import Verif.Model.Quaternion
import Verif.Props.C85
import Mathlib.Algebra.Quaternion

/-!
# C86: quaternions
-/

namespace Sprout
open Quat
open scoped Quaternion

/-- `a + b i + c j + d k` -/
def quat (a b c d : ℝ) : ℍ[ℝ] := ⟨a, b, c, d⟩

/-- the quaternion -/
def Quat.toQ (q : Quat) : ℍ[ℝ] := ⟨q.a, q.b, q.c, q.d⟩

/-- a complex number as a quaternion -/
def Cplx.toQ (z : Cplx) : ℍ[ℝ] := ⟨z.re, z.im, 0, 0⟩

namespace Quaternions

theorem toQ_inj {q r : Quat} (h : q.toQ = r.toQ) : q = r := by
  cases q; cases r
  rw [Quaternion.ext_iff] at h
  simp only [toQ] at h
  obtain ⟨h1, h2, h3, h4⟩ := h
  rw [h1, h2, h3, h4]

theorem q_re (q : Quat) : q.toQ.re = q.a := rfl
theorem q_imI (q : Quat) : q.toQ.imI = q.b := rfl
theorem q_imJ (q : Quat) : q.toQ.imJ = q.c := rfl
theorem q_imK (q : Quat) : q.toQ.imK = q.d := rfl
theorem c_re (q : Cplx) : q.toQ.re = q.re := rfl
theorem c_imI (q : Cplx) : q.toQ.imI = q.im := rfl
theorem c_imJ (q : Cplx) : q.toQ.imJ = 0 := rfl
theorem c_imK (q : Cplx) : q.toQ.imK = 0 := rfl

theorem toQ_ne {q : Quat} (h : q.toQ ≠ 0) : q.a * q.a + q.b * q.b + q.c * q.c + q.d * q.d ≠ 0 := by
  intro e
  apply h
  have ha : q.a = 0 := by nlinarith [mul_self_nonneg q.a, mul_self_nonneg q.b, mul_self_nonneg q.c, mul_self_nonneg q.d]
  have hb : q.b = 0 := by nlinarith [mul_self_nonneg q.a, mul_self_nonneg q.b, mul_self_nonneg q.c, mul_self_nonneg q.d]
  have hc : q.c = 0 := by nlinarith [mul_self_nonneg q.a, mul_self_nonneg q.b, mul_self_nonneg q.c, mul_self_nonneg q.d]
  have hd : q.d = 0 := by nlinarith [mul_self_nonneg q.a, mul_self_nonneg q.b, mul_self_nonneg q.c, mul_self_nonneg q.d]
  ext <;> simp [toQ, ha, hb, hc, hd]

/-- the greatest absolute value, found from left to right -/
theorem foldl_absMax (r : List ℝ) (x : ℝ) : (∀ y ∈ x :: r, |y| ≤ |r.foldl (fun m y => if |m| < |y| then y else m) x|) ∧
    r.foldl (fun m y => if |m| < |y| then y else m) x ∈ x :: r := by
  induction r generalizing x with
  | nil => simp
  | cons y r ih =>
    rw [List.foldl_cons]
    split
    · rename_i h
      obtain ⟨h1, h2⟩ := ih y
      refine ⟨fun z hz => ?_, List.mem_cons_of_mem _ h2⟩
      rcases List.mem_cons.mp hz with rfl | hz
      · exact h.le.trans (h1 y (by simp))
      · exact h1 z hz
    · rename_i h
      obtain ⟨h1, h2⟩ := ih x
      refine ⟨fun z hz => ?_, ?_⟩
      · rcases List.mem_cons.mp hz with rfl | hz
        · exact h1 z (by simp)
        · rcases List.mem_cons.mp hz with rfl | hz
          · exact (not_lt.mp h).trans (h1 x (by simp))
          · exact h1 z (by simp [hz])
      · rcases List.mem_cons.mp h2 with h2 | h2
        · rw [h2]; simp
        · simp [h2]

theorem absMax_ne {xs : List ℝ} {x : ℝ} (hx : x ∈ xs) (h0 : x ≠ 0) : absMax xs ≠ 0 := by
  cases xs with
  | nil => simp at hx
  | cons y r =>
    have := (foldl_absMax r y).1 x hx
    rw [absMax]
    intro e
    rw [e] at this
    exact h0 (abs_eq_zero.mp (le_antisymm this (abs_nonneg x)))

end Quaternions

open Quaternions

/-- The constructors of the general template, … -/
theorem C86_make (a b c d : ℝ) (z w : Cplx) (q : Quat) : (make false a b c d).toQ = quat a b c d ∧ (makeC z w).toQ = quat z.re z.im w.re w.im ∧
    makeC (c1 q) (c2 q) = q ∧ (unreal false q).toQ = q.toQ.im := ⟨rfl, rfl, rfl, rfl⟩

/-- … but those of the specialisations for `float`, `double` and `long double` ignore the second component, -/
theorem C86_make_refuted (a b c d : ℝ) : (make true a b c d).toQ = quat a b c d ↔ a = b := by
  rw [Quaternion.ext_iff]; simp [make, toQ, quat]

/-- so that every function that returns a quaternion made from components gives one with equal first components: sums are right only
if these of the exact sum happen to be equal. -/
theorem C86_float_refuted (q r : Quat) : ((add true q r).toQ = q.toQ + r.toQ ↔ q.a + r.a = q.b + r.b) ∧ ((neg true q).toQ = -q.toQ ↔ q.a = q.b) ∧
    ((conj true q).toQ = star q.toQ ↔ q.a = -q.b) ∧ ((unreal true q).toQ = q.toQ.im ↔ q.b = 0) ∧
    ((mul true q r).toQ = q.toQ * r.toQ ↔ (q.toQ * r.toQ).re = (q.toQ * r.toQ).imI) := by
  refine ⟨?_, ?_, ?_, ?_, ?_⟩
  · rw [Quaternion.ext_iff]; simp [add, make, q_re, q_imI, q_imJ, q_imK]
  · rw [Quaternion.ext_iff]; simp [neg, make, q_re, q_imI, q_imJ, q_imK]
  · rw [Quaternion.ext_iff]; simp [conj, make, q_re, q_imI, q_imJ, q_imK]
  · rw [Quaternion.ext_iff]; simp [unreal, make, q_re, q_imI, q_imJ, q_imK, eq_comm]
  · rw [Quaternion.ext_iff]; simp [mul, make, q_re, q_imI, q_imJ, q_imK]

/-- Arithmetic of the general template. *Partial*: real minus quaternion, complex minus quaternion and real divided by quaternion are wrong. -/
theorem C86_arithmetic_partial (q r : Quat) (z : Cplx) (x : ℝ) :
    (add false q r).toQ = q.toQ + r.toQ ∧ (addTQ false x q).toQ = x + q.toQ ∧ (addQT false q x).toQ = q.toQ + x ∧
    (addCQ false z q).toQ = z.toQ + q.toQ ∧ (addQC false q z).toQ = q.toQ + z.toQ ∧
    (sub false q r).toQ = q.toQ - r.toQ ∧ (subQT false q x).toQ = q.toQ - x ∧ (subQC false q z).toQ = q.toQ - z.toQ ∧
    (mul false q r).toQ = q.toQ * r.toQ ∧ (mulTQ false x q).toQ = x * q.toQ ∧ (mulQT false q x).toQ = q.toQ * x ∧
    (divQT false q x).toQ = q.toQ / x ∧ (neg false q).toQ = -q.toQ ∧ (conj false q).toQ = star q.toQ := by
  refine ⟨?_, ?_, ?_, ?_, ?_, ?_, ?_, ?_, ?_, ?_, ?_, ?_, ?_, ?_⟩
  on_goal 12 => rw [div_eq_mul_inv, ← Quaternion.coe_inv]
  all_goals
    apply Quaternion.ext <;>
    simp [add, addTQ, addQT, addCQ, addQC, sub, subQT, subQC, mul, mulTQ, mulQT, divQT, neg, conj, make, q_re, q_imI, q_imJ, q_imK, c_re, c_imI, c_imJ, c_imK, div_eq_mul_inv, -Quaternion.coe_inv]

example : mul false ⟨1, 2, 3, 4⟩ ⟨5, 6, 7, 8⟩ = ⟨-60, 12, 30, 24⟩ := by simp only [mul, make]; norm_num

/-- Real minus quaternion does not change the sign of the imaginary components, complex minus quaternion not that of the last two. -/
theorem C86_sub_refuted (q : Quat) (z : Cplx) (x : ℝ) : ((subTQ false x q).toQ = x - q.toQ ↔ q.b = 0 ∧ q.c = 0 ∧ q.d = 0) ∧
    ((subCQ false z q).toQ = z.toQ - q.toQ ↔ q.c = 0 ∧ q.d = 0) := by
  constructor
  · rw [Quaternion.ext_iff]; simp [subTQ, make, q_re, q_imI, q_imJ, q_imK, self_eq_neg]
  · rw [Quaternion.ext_iff]; simp [subCQ, make, q_re, q_imI, q_imJ, q_imK, c_re, c_imI, c_imJ, c_imK, self_eq_neg]

/-- Real divided by quaternion divides by every component. -/
theorem C86_div_refuted : (divTQ false 1 ⟨1, 1, 1, 1⟩).toQ * (⟨1, 1, 1, 1⟩ : Quat).toQ ≠ 1 ∧ (divTQ false 1 ⟨1, 1, 1, 1⟩).toQ ≠ (⟨1, 1, 1, 1⟩ : Quat).toQ⁻¹ := by
  have h : (divTQ false 1 ⟨1, 1, 1, 1⟩).toQ * (⟨1, 1, 1, 1⟩ : Quat).toQ ≠ 1 := by
    rw [Ne, Quaternion.ext_iff]
    simp [divTQ, make, q_re, q_imI, q_imJ, q_imK]
  refine ⟨h, fun e => h ?_⟩
  rw [e]
  refine inv_mul_cancel₀ fun e => ?_
  have := congrArg (·.re) e
  simp [q_re] at this

/-- Comparison -/
theorem C86_eq (q r : Quat) (z : Cplx) (x : ℝ) : (eq q r ↔ q.toQ = r.toQ) ∧ (eqTQ x q ↔ (x : ℍ[ℝ]) = q.toQ) ∧ (eqCQ z q ↔ z.toQ = q.toQ) := by
  refine ⟨?_, ?_, ?_⟩ <;> rw [Quaternion.ext_iff] <;> simp [eq, eqTQ, eqCQ, q_re, q_imI, q_imJ, q_imK, c_re, c_imI, c_imJ, c_imK, eq_comm]

/-- The norm of the general template is the sum of the squares, … -/
theorem C86_norm (q : Quat) : Quat.norm false q = q.a ^ 2 + q.b ^ 2 + q.c ^ 2 + q.d ^ 2 := by
  simp only [Quat.norm, mul, conj, make]; simp; ring

/-- … that of the specialisations is not: that of `i` is zero. -/
theorem C86_norm_refuted (q : Quat) : Quat.norm true q = q.a ^ 2 - q.a * q.b + q.c ^ 2 + q.d ^ 2 ∧ Quat.norm true ⟨0, 1, 0, 0⟩ = 0 := by
  constructor <;> simp only [Quat.norm, mul, conj, make] <;> simp <;> ring

theorem C86_sup_l1 (q : Quat) : sup q = max (max |q.a| |q.b|) (max |q.c| |q.d|) ∧ l1 q = |q.a| + |q.b| + |q.c| + |q.d| := by
  constructor
  · obtain ⟨h1, h2⟩ := foldl_absMax [q.b, q.c, q.d] q.a
    apply le_antisymm
    · rw [sup, absMax]
      simp only [List.mem_cons, List.not_mem_nil, or_false] at h2
      rcases h2 with h | h | h | h <;> rw [h] <;> simp
    · exact max_le (max_le (h1 _ (by simp)) (h1 _ (by simp))) (max_le (h1 _ (by simp)) (h1 _ (by simp)))
  · simp only [l1, List.foldl_cons, List.foldl_nil, abs_zero, zero_add, abs_abs]
    rw [abs_of_nonneg (add_nonneg (abs_nonneg q.a) (abs_nonneg q.b)), abs_of_nonneg (add_nonneg (add_nonneg (abs_nonneg q.a) (abs_nonneg q.b)) (abs_nonneg q.c))]

/-- Powers with exponent from 0 on of the general template -/
theorem C86_pow (q : Quat) (n : Nat) : (pow false q n).toQ = q.toQ ^ n := by
  induction n using Nat.strongRecOn with
  | ind n ih =>
    rw [pow]
    have hm : ∀ l r : Quat, (mul false l r).toQ = l.toQ * r.toQ := fun l r => (C86_arithmetic_partial l r ⟨0, 0⟩ 0).2.2.2.2.2.2.2.2.1
    split
    · rename_i h
      simp only
      split
      · rename_i h2
        rw [hm, hm, ih _ (by omega), ← pow_add, ← pow_succ]
        congr 1
        omega
      · rw [hm, ih _ (by omega), ← pow_add]
        congr 1
        omega
    · split
      · rename_i h; rw [h, pow_one]
      · rw [show n = 0 by omega, pow_zero]
        rfl

example : pow false ⟨0, 1, 0, 0⟩ 6 = ⟨-1, 0, 0, 0⟩ := by
  apply toQ_inj
  rw [C86_pow]
  have : (⟨0, 1, 0, 0⟩ : Quat).toQ ^ 2 = -1 := by rw [sq]; ext <;> simp [q_re, q_imI, q_imJ, q_imK]
  rw [show 6 = 2 * 3 by rfl, pow_mul, this]
  ext <;> simp [toQ] <;> norm_num

/-- In the specialisations `pow(q, 0)` is `1 + i`. -/
theorem C86_pow_refuted (q : Quat) : (pow true q 0).toQ = quat 1 1 0 0 := by
  rw [pow]; rfl

/-- Quaternions given by angles have the right norm. -/
theorem C86_creation (rho alpha t1 t2 r2 : ℝ) : Quat.norm false (semipolar false rho alpha t1 t2) = rho ^ 2 ∧ Quat.norm false (spherical false rho alpha t1 t2) = rho ^ 2 ∧
    Quat.norm false (multipolar false rho t1 r2 t2) = rho ^ 2 + r2 ^ 2 := by
  have e : ∀ t : ℝ, Real.cos t ^ 2 = 1 - Real.sin t ^ 2 := fun t => by rw [← Real.sin_sq_add_cos_sq t]; ring
  refine ⟨?_, ?_, ?_⟩ <;> rw [C86_norm] <;> simp only [semipolar, spherical, multipolar, mulTQ, make, Bool.false_eq_true, if_false] <;> ring_nf <;> simp only [e] <;> ring

/-- Compound assignment is right in the general template and the specialisations, also if the argument is the object itself.
*Partial*: multiplication by a reference to a component of the object (see `C86_mul_assign_refuted`). -/
theorem C86_assign_partial (q r : Quat) (z : Cplx) (x : ℝ) :
    (addAssignT q x).toQ = q.toQ + x ∧ (addAssignC q z).toQ = q.toQ + z.toQ ∧ (addAssign q r).toQ = q.toQ + r.toQ ∧
    (subAssignT q x).toQ = q.toQ - x ∧ (subAssignC q z).toQ = q.toQ - z.toQ ∧ (subAssign q r).toQ = q.toQ - r.toQ ∧
    (∀ a, (mulAssignT q a).toQ = q.toQ * (a.get q : ℝ)) ∧ (mulAssignTF q (.val x)).toQ = q.toQ * x ∧ (mulAssignC q z).toQ = q.toQ * z.toQ ∧ (mulAssign q r).toQ = q.toQ * r.toQ ∧
    (x ≠ 0 → (divAssignT q x).toQ = q.toQ / x) := by
  refine ⟨?_, ?_, ?_, ?_, ?_, ?_, fun a => ?_, ?_, ?_, ?_, fun h => ?_⟩
  on_goal 11 => rw [div_eq_mul_inv, ← Quaternion.coe_inv]
  all_goals
    apply Quaternion.ext <;>
    simp [addAssignT, addAssignC, addAssign, subAssignT, subAssignC, subAssign, mulAssignT, mulAssignTF, mulAssignC, mulAssign, divAssignT, Arg.get,
      q_re, q_imI, q_imJ, q_imK, c_re, c_imI, c_imJ, c_imK, div_eq_mul_inv, -Quaternion.coe_inv]

/-- `q *= q[0]` of the specialisations multiplies the other components by the square of the first one. -/
theorem C86_mul_assign_refuted : mulAssignTF ⟨2, 1, 1, 1⟩ .compA = ⟨4, 4, 4, 4⟩ ∧ mulAssignT ⟨2, 1, 1, 1⟩ .compA = ⟨4, 2, 2, 2⟩ := by
  constructor
  · simp [mulAssignTF, Arg.get]; norm_num
  · simp [mulAssignT, Arg.get]; norm_num

/-- Division by a complex number or quaternion that is not zero -/
theorem C86_div_assign (q r : Quat) (z : Cplx) (hr : r.toQ ≠ 0) (hz : z.toQ ≠ 0) : (divAssign q r).toQ = q.toQ / r.toQ ∧ (divAssignF q r).toQ = q.toQ / r.toQ ∧
    (divAssignC q z).toQ = q.toQ / z.toQ ∧ (divAssignCF q z).toQ = q.toQ / z.toQ := by
  have e : ∀ q r : Quat, r.toQ ≠ 0 → (divAssign q r).toQ = q.toQ / r.toQ := fun q r hr => by
    have hn := toQ_ne hr
    obtain ⟨n, en⟩ : ∃ n, n = r.a * r.a + r.b * r.b + r.c * r.c + r.d * r.d := ⟨_, rfl⟩
    rw [eq_div_iff hr]
    rw [← en] at hn
    apply Quaternion.ext <;> simp only [divAssign, numer, Quaternion.re_mul, Quaternion.imI_mul, Quaternion.imJ_mul, Quaternion.imK_mul, q_re, q_imI, q_imJ, q_imK, ← en] <;>
      field_simp <;> rw [en] <;> ring
  have f : ∀ q r : Quat, r.toQ ≠ 0 → divAssignF q r = divAssign q r := fun q r hr => by
    have hn := toQ_ne hr
    have hm : absMax [r.a, r.b, r.c, r.d] ≠ 0 := by
      by_contra h0
      apply hn
      have : ∀ x ∈ [r.a, r.b, r.c, r.d], x = 0 := fun x hx => by
        by_contra hx0
        exact absMax_ne hx hx0 h0
      simp [this]
    obtain ⟨n, en⟩ : ∃ n, n = r.a * r.a + r.b * r.b + r.c * r.c + r.d * r.d := ⟨_, rfl⟩
    obtain ⟨m, em⟩ : ∃ m, m = absMax [r.a, r.b, r.c, r.d] := ⟨_, rfl⟩
    rw [← em] at hm
    rw [← en] at hn
    have es : (((0 + r.a * (1 / m) * (r.a * (1 / m))) + r.b * (1 / m) * (r.b * (1 / m))) + r.c * (1 / m) * (r.c * (1 / m))) + r.d * (1 / m) * (r.d * (1 / m)) = n / (m * m) := by
      rw [en]; field_simp; ring
    simp only [divAssignF, divAssign, numer, ← em, ← en, es]
    congr 1 <;> field_simp
  have g : ∀ z : Cplx, z.toQ = (makeC z ⟨0, 0⟩).toQ := fun z => rfl
  have hz' := toQ_ne (q := makeC z ⟨0, 0⟩) hz
  refine ⟨e q r hr, by rw [f q r hr, e q r hr], ?_, ?_⟩
  · rw [g z, ← e q (makeC z ⟨0, 0⟩) hz]
    congr 1
    simp [divAssignC, divAssign, numer, makeC]
  · rw [g z, ← e q (makeC z ⟨0, 0⟩) hz, ← f q (makeC z ⟨0, 0⟩) hz]
    congr 1
    have hm : absMax [z.re, z.im] = absMax [z.re, z.im, 0, 0] := by
      simp only [absMax, List.foldl_cons, List.foldl_nil, abs_zero]
      have h0 : ∀ m : ℝ, (if |m| < 0 then (0 : ℝ) else m) = m := fun m => if_neg (not_lt.mpr (abs_nonneg m))
      rw [h0, h0]
    simp [divAssignCF, divAssignF, numer, makeC, hm]

example : divAssignF ⟨-60, 12, 30, 24⟩ ⟨5, 6, 7, 8⟩ = ⟨1, 2, 3, 4⟩ := by
  apply toQ_inj
  have h : (⟨5, 6, 7, 8⟩ : Quat).toQ ≠ 0 := fun e => by
    have := congrArg (·.re) e
    simp [q_re] at this
  rw [(C86_div_assign _ _ ⟨1, 0⟩ h (fun e => by have := congrArg (·.re) e; simp [c_re] at this)).2.1, div_eq_iff h]
  ext <;> simp [q_re, q_imI, q_imJ, q_imK] <;> norm_num

end Sprout
