import Verif.Model.Float

/-! # Comparisons of floating values, case by case

The equivalences are not proved by definition, so that simplification also rewrites the instances of `Decidable`. -/

namespace Sprout.FV

@[simp] theorem eq_nan_left (y : FV) : (nan).eq y ↔ False := by constructor <;> intro h <;> cases y <;> simp_all [eq]
@[simp] theorem eq_nan_right (x : FV) : x.eq nan ↔ False := by constructor <;> intro h <;> cases x <;> simp_all [eq]
@[simp] theorem eq_inf_inf (s t : Bool) : (inf s).eq (inf t) ↔ s = t := by constructor <;> intro h <;> simp_all [eq]
@[simp] theorem eq_inf_zero (s t : Bool) : (inf s).eq (zero t) ↔ False := by constructor <;> intro h <;> simp_all [eq]
@[simp] theorem eq_inf_num (s : Bool) (y : ℝ) : (inf s).eq (num y) ↔ False := by constructor <;> intro h <;> simp_all [eq]
@[simp] theorem eq_zero_inf (s t : Bool) : (zero s).eq (inf t) ↔ False := by constructor <;> intro h <;> simp_all [eq]
@[simp] theorem eq_num_inf (x : ℝ) (t : Bool) : (num x).eq (inf t) ↔ False := by constructor <;> intro h <;> simp_all [eq]
@[simp] theorem eq_zero_zero (s t : Bool) : (zero s).eq (zero t) ↔ True := by constructor <;> intro h <;> simp_all [eq, val]
@[simp] theorem eq_zero_num (s : Bool) (y : ℝ) : (zero s).eq (num y) ↔ y = 0 := by
  constructor <;> intro h <;> simp_all [eq, val]
@[simp] theorem eq_num_zero (x : ℝ) (t : Bool) : (num x).eq (zero t) ↔ x = 0 := by
  constructor <;> intro h <;> simp_all [eq, val]
@[simp] theorem eq_num_num (x y : ℝ) : (num x).eq (num y) ↔ x = y := by constructor <;> intro h <;> simp_all [eq, val]

@[simp] theorem lt_nan_left (y : FV) : (nan).lt y ↔ False := by constructor <;> intro h <;> cases y <;> simp_all [lt]
@[simp] theorem lt_nan_right (x : FV) : x.lt nan ↔ False := by constructor <;> intro h <;> cases x <;> simp_all [lt]
@[simp] theorem lt_inf_inf (s t : Bool) : (inf s).lt (inf t) ↔ s = true ∧ t = false := by
  constructor <;> intro h <;> simp_all [lt]
@[simp] theorem lt_inf_zero (s t : Bool) : (inf s).lt (zero t) ↔ s = true := by constructor <;> intro h <;> simp_all [lt]
@[simp] theorem lt_inf_num (s : Bool) (y : ℝ) : (inf s).lt (num y) ↔ s = true := by
  constructor <;> intro h <;> simp_all [lt]
@[simp] theorem lt_zero_inf (s t : Bool) : (zero s).lt (inf t) ↔ t = false := by constructor <;> intro h <;> simp_all [lt]
@[simp] theorem lt_num_inf (x : ℝ) (t : Bool) : (num x).lt (inf t) ↔ t = false := by
  constructor <;> intro h <;> simp_all [lt]
@[simp] theorem lt_zero_zero (s t : Bool) : (zero s).lt (zero t) ↔ False := by constructor <;> intro h <;> simp_all [lt, val]
@[simp] theorem lt_zero_num (s : Bool) (y : ℝ) : (zero s).lt (num y) ↔ 0 < y := by
  constructor <;> intro h <;> simp_all [lt, val]
@[simp] theorem lt_num_zero (x : ℝ) (t : Bool) : (num x).lt (zero t) ↔ x < 0 := by
  constructor <;> intro h <;> simp_all [lt, val]
@[simp] theorem lt_num_num (x y : ℝ) : (num x).lt (num y) ↔ x < y := by constructor <;> intro h <;> simp_all [lt, val]

theorem le_iff (x y : FV) : x.le y ↔ x.lt y ∨ x.eq y := by constructor <;> intro h <;> simpa [le] using h

end Sprout.FV
