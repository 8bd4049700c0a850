import Verif.Model.Curve
import Mathlib.Analysis.Calculus.Deriv.Pow
import Mathlib.Analysis.Calculus.Deriv.Prod
import Mathlib.Analysis.Calculus.Deriv.Add
import Mathlib.Analysis.Calculus.Deriv.Mul
import Mathlib.Analysis.Convex.Hull
import Mathlib.Analysis.Convex.Combination

/-!
# C144: Bézier curves and Catmull-Rom splines
-/

namespace Sprout

open Curve

/-- de Casteljau: points are replaced by those that divide the segments between neighbours in the ratio `t : 1 - t`, until there is
one -/
noncomputable def casteljau (t : ℝ) : List (ℝ × ℝ) → ℝ × ℝ
  | [] => 0
  | [p] => p
  | p :: q :: rest => casteljau t (List.zipWith (fun a b => (1 - t) • a + t • b) (p :: q :: rest) (q :: rest))
termination_by l => l.length
decreasing_by simp

/-- **`bezier`** of 3 to 6 points is the Bézier curve with these control points; other numbers are not supported -/
theorem C144_bezier (p : List (ℝ × ℝ)) (t : ℝ) :
    bezier p t = if 3 ≤ p.length ∧ p.length ≤ 6 then some (casteljau t p) else none := by
  match p with
  | [] => rfl
  | [_] => rfl
  | [_, _] => rfl
  | [p0, p1, p2] =>
    simp only [bezier, bezierN, casteljau, bezier2, pow2, List.zipWith, List.length]
    norm_num
    ext <;> simp <;> ring
  | [p0, p1, p2, p3] =>
    simp only [bezier, bezierN, casteljau, bezier3, pow2, pow3, List.zipWith, List.length]
    norm_num
    ext <;> simp <;> ring
  | [p0, p1, p2, p3, p4] =>
    simp only [bezier, bezierN, casteljau, bezier4, pow2, pow3, pow4, List.zipWith, List.length]
    norm_num
    ext <;> simp <;> ring
  | [p0, p1, p2, p3, p4, p5] =>
    simp only [bezier, bezierN, casteljau, bezier5, pow2, pow3, pow4, pow5, List.zipWith, List.length]
    norm_num
    ext <;> simp <;> ring
  | p0 :: p1 :: p2 :: p3 :: p4 :: p5 :: p6 :: rest =>
    rw [if_neg (by simp)]
    unfold bezier bezierN
    rw [if_neg (by simp)]
    split <;> simp_all

/-- `bezier<N>` uses the first `N + 1` points -/
theorem C144_bezierN (N : ℕ) (p : List (ℝ × ℝ)) (t : ℝ) (h : 2 ≤ N) (h5 : N ≤ 5) :
    bezierN N p t = if N < p.length then some (casteljau t (p.take (N + 1))) else none := by
  split_ifs with hp
  · have hl : (p.take (N + 1)).length = N + 1 := by simp; omega
    have := C144_bezier (p.take (N + 1)) t
    rw [if_pos (by omega), bezier, if_neg (by omega), hl] at this
    rw [← this]
    obtain rfl | rfl | rfl | rfl : N = 2 ∨ N = 3 ∨ N = 4 ∨ N = 5 := by omega
    · match p with | _ :: _ :: _ :: _ => rfl
    · match p with | _ :: _ :: _ :: _ :: _ => rfl
    · match p with | _ :: _ :: _ :: _ :: _ :: _ => rfl
    · match p with | _ :: _ :: _ :: _ :: _ :: _ :: _ => rfl
  · unfold bezierN
    split <;> simp_all <;> omega

theorem casteljau_hull (t : ℝ) (h0 : 0 ≤ t) (h1 : t ≤ 1) (s : Set (ℝ × ℝ)) (hs : Convex ℝ s) (p : List (ℝ × ℝ)) (hp : p ≠ [])
    (h : ∀ x ∈ p, x ∈ s) : casteljau t p ∈ s := by
  induction n : p.length generalizing p with
  | zero => exact absurd (List.length_eq_zero_iff.1 n) hp
  | succ n ih =>
    match p, n with
    | [p], _ => rw [casteljau]; exact h p (by simp)
    | p :: q :: rest, n =>
      rw [casteljau]
      refine ih _ (by simp) ?_ (by simp at n ⊢; omega)
      intro x hx
      rw [List.mem_iff_getElem] at hx
      obtain ⟨i, hi, rfl⟩ := hx
      rw [List.getElem_zipWith]
      exact hs (h _ (List.getElem_mem _)) (h _ (List.mem_cons_of_mem _ (List.getElem_mem _))) (by linarith) h0 (by ring)

/-- **The curve stays in the convex hull** of its control points -/
theorem C144_bezier_hull (p : List (ℝ × ℝ)) (t : ℝ) (x : ℝ × ℝ) (h0 : 0 ≤ t) (h1 : t ≤ 1) (h : bezier p t = some x) :
    x ∈ convexHull ℝ {q | q ∈ p} := by
  rw [C144_bezier] at h
  split_ifs at h with hl
  cases h
  exact casteljau_hull t h0 h1 _ (convex_convexHull ℝ _) p (by rintro rfl; simp at hl) fun x hx => subset_convexHull ℝ _ hx

/-- it begins at the first point and ends at the last one -/
theorem C144_bezier_ends (p : List (ℝ × ℝ)) (h : 3 ≤ p.length ∧ p.length ≤ 6) (hp : p ≠ []) :
    bezier p 0 = some (p.head hp) ∧ bezier p 1 = some (p.getLast hp) := by
  match p with
  | [p0, p1, p2] => constructor <;> simp [bezier, bezierN, bezier2, pow2]
  | [p0, p1, p2, p3] => constructor <;> simp [bezier, bezierN, bezier3, pow2, pow3]
  | [p0, p1, p2, p3, p4] => constructor <;> simp [bezier, bezierN, bezier4, pow2, pow3, pow4]
  | [p0, p1, p2, p3, p4, p5] => constructor <;> simp [bezier, bezierN, bezier5, pow2, pow3, pow4, pow5]
  | p0 :: p1 :: p2 :: p3 :: p4 :: p5 :: p6 :: rest => simp at h; omega

/-- reversing the points reverses the curve -/
theorem C144_bezier_reverse (p : List (ℝ × ℝ)) (t : ℝ) : bezier p.reverse (1 - t) = bezier p t := by
  match p with
  | [] => rfl
  | [_] => rfl
  | [_, _] => rfl
  | [p0, p1, p2] => simp [bezier, bezierN, bezier2, pow2]; constructor <;> ring
  | [p0, p1, p2, p3] => simp [bezier, bezierN, bezier3, pow2, pow3]; constructor <;> ring
  | [p0, p1, p2, p3, p4] => simp [bezier, bezierN, bezier4, pow2, pow3, pow4]; constructor <;> ring
  | [p0, p1, p2, p3, p4, p5] => simp [bezier, bezierN, bezier5, pow2, pow3, pow4, pow5]; constructor <;> ring
  | p0 :: p1 :: p2 :: p3 :: p4 :: p5 :: p6 :: rest =>
    rw [C144_bezier, C144_bezier, if_neg (by simp), if_neg (by simp)]

/-- the tangents at both ends point to the next control point: for the cubic curve, three times the difference -/
theorem C144_bezier_tangent (p0 p1 p2 p3 : ℝ × ℝ) :
    HasDerivAt (fun t => bezier3 p0 p1 p2 p3 t) ((3 : ℝ) • (p1 - p0)) 0 ∧ HasDerivAt (fun t => bezier3 p0 p1 p2 p3 t) ((3 : ℝ) • (p3 - p2)) 1 := by
  have key : ∀ a b c d s : ℝ, HasDerivAt (fun t : ℝ => pow3 (1 - t) * a + 3 * t * pow2 (1 - t) * b + 3 * pow2 t * (1 - t) * c + pow3 t * d)
      (3 * (1 - s) ^ 2 * (b - a) + 6 * s * (1 - s) * (c - b) + 3 * s ^ 2 * (d - c)) s := by
    intro a b c d s
    have e : (fun t : ℝ => pow3 (1 - t) * a + 3 * t * pow2 (1 - t) * b + 3 * pow2 t * (1 - t) * c + pow3 t * d)
        = fun t => (-a + 3 * b - 3 * c + d) * t ^ 3 + (3 * a - 6 * b + 3 * c) * t ^ 2 + (-3 * a + 3 * b) * t + a := by
      funext t; simp only [pow3, pow2]; ring
    rw [e]
    have := ((((hasDerivAt_id s).pow 3).const_mul (-a + 3 * b - 3 * c + d)).add
      (((hasDerivAt_id s).pow 2).const_mul (3 * a - 6 * b + 3 * c))).add ((hasDerivAt_id s).const_mul (-3 * a + 3 * b))
    have := this.add_const a
    exact HasDerivAt.congr_deriv this (by simp; ring)
  constructor
  · have := (key p0.1 p1.1 p2.1 p3.1 0).prodMk (key p0.2 p1.2 p2.2 p3.2 0)
    exact HasDerivAt.congr_deriv this (by ext <;> simp)
  · have := (key p0.1 p1.1 p2.1 p3.1 1).prodMk (key p0.2 p1.2 p2.2 p3.2 1)
    exact HasDerivAt.congr_deriv this (by ext <;> simp)

/-! ## splines -/

theorem catmull1_deriv (p0 p1 p2 p3 s : ℝ) : HasDerivAt (catmull1 p0 p1 p2 p3)
    (3 * ((-p0 + 3 * p1 - 3 * p2 + p3) / 2) * s ^ 2 + 2 * ((2 * p0 - 5 * p1 + 4 * p2 - p3) / 2) * s + (-p0 + p2) / 2) s := by
  have e : catmull1 p0 p1 p2 p3 = fun t => (-p0 + 3 * p1 - 3 * p2 + p3) / 2 * t ^ 3 + (2 * p0 - 5 * p1 + 4 * p2 - p3) / 2 * t ^ 2
      + (-p0 + p2) / 2 * t + p1 := by
    funext t; simp only [catmull1, pow3, pow2]; ring
  rw [e]
  have := (((((hasDerivAt_id s).pow 3).const_mul ((-p0 + 3 * p1 - 3 * p2 + p3) / 2)).add
    (((hasDerivAt_id s).pow 2).const_mul ((2 * p0 - 5 * p1 + 4 * p2 - p3) / 2))).add ((hasDerivAt_id s).const_mul ((-p0 + p2) / 2))).add_const p1
  exact HasDerivAt.congr_deriv this (by simp; ring)

theorem catmullStart1_deriv (p0 p1 p2 s : ℝ) : HasDerivAt (catmullStart1 p0 p1 p2)
    (2 * ((p0 - 2 * p1 + p2) / 2) * s + (-3 * p0 + 4 * p1 - p2) / 2) s := by
  have e : catmullStart1 p0 p1 p2 = fun t => (p0 - 2 * p1 + p2) / 2 * t ^ 2 + (-3 * p0 + 4 * p1 - p2) / 2 * t + p0 := by
    funext t; simp only [catmullStart1, pow2]; ring
  rw [e]
  have := ((((hasDerivAt_id s).pow 2).const_mul ((p0 - 2 * p1 + p2) / 2)).add
    ((hasDerivAt_id s).const_mul ((-3 * p0 + 4 * p1 - p2) / 2))).add_const p0
  exact HasDerivAt.congr_deriv this (by simp; ring)

theorem catmullEnd1_deriv (p0 p1 p2 s : ℝ) : HasDerivAt (catmullEnd1 p0 p1 p2)
    (2 * ((p0 - 2 * p1 + p2) / 2) * s + (-p0 + p2) / 2) s := by
  have e : catmullEnd1 p0 p1 p2 = fun t => (p0 - 2 * p1 + p2) / 2 * t ^ 2 + (-p0 + p2) / 2 * t + p1 := by
    funext t; simp only [catmullEnd1, pow2]; ring
  rw [e]
  have := ((((hasDerivAt_id s).pow 2).const_mul ((p0 - 2 * p1 + p2) / 2)).add
    ((hasDerivAt_id s).const_mul ((-p0 + p2) / 2))).add_const p1
  exact HasDerivAt.congr_deriv this (by simp; ring)

/-- **`catmull_rom_spline`** goes from the second point to the third one; its velocity there is half the difference of the neighbours -/
theorem C144_catmull (p0 p1 p2 p3 : ℝ × ℝ) :
    catmull p0 p1 p2 p3 0 = p1 ∧ catmull p0 p1 p2 p3 1 = p2
      ∧ HasDerivAt (catmull p0 p1 p2 p3) ((1 / 2 : ℝ) • (p2 - p0)) 0 ∧ HasDerivAt (catmull p0 p1 p2 p3) ((1 / 2 : ℝ) • (p3 - p1)) 1 := by
  refine ⟨?_, ?_, ?_, ?_⟩
  · simp [catmull, catmull1, pow3, pow2]
  · ext <;> simp [catmull, catmull1, pow3, pow2] <;> ring
  · have := (catmull1_deriv p0.1 p1.1 p2.1 p3.1 0).prodMk (catmull1_deriv p0.2 p1.2 p2.2 p3.2 0)
    exact HasDerivAt.congr_deriv this (by ext <;> simp <;> ring)
  · have := (catmull1_deriv p0.1 p1.1 p2.1 p3.1 1).prodMk (catmull1_deriv p0.2 p1.2 p2.2 p3.2 1)
    exact HasDerivAt.congr_deriv this (by ext <;> simp <;> ring)

/-- it is the only cubic with these values and velocities: the coefficients are determined -/
theorem C144_catmull_unique (p0 p1 p2 p3 a b c d : ℝ) (h0 : d = p1) (h1 : a + b + c + d = p2) (v0 : c = (p2 - p0) / 2)
    (v1 : 3 * a + 2 * b + c = (p3 - p1) / 2) (t : ℝ) : a * t ^ 3 + b * t ^ 2 + c * t + d = catmull1 p0 p1 p2 p3 t := by
  have ha : a = (-p0 + 3 * p1 - 3 * p2 + p3) / 2 := by linarith
  have hb : b = (2 * p0 - 5 * p1 + 4 * p2 - p3) / 2 := by linarith
  simp only [catmull1, pow3, pow2]
  rw [ha, hb, h0, v0]; ring

/-- `catmull_rom_spline_start` goes from the first point to the second one, `catmull_rom_spline_end` from the second to the third; at
the inner point the velocity is that of the neighbouring pieces -/
theorem C144_catmull_start_end (p0 p1 p2 : ℝ × ℝ) :
    (catmullStart p0 p1 p2 0 = p0 ∧ catmullStart p0 p1 p2 1 = p1 ∧ HasDerivAt (catmullStart p0 p1 p2) ((1 / 2 : ℝ) • (p2 - p0)) 1)
    ∧ (catmullEnd p0 p1 p2 0 = p1 ∧ catmullEnd p0 p1 p2 1 = p2 ∧ HasDerivAt (catmullEnd p0 p1 p2) ((1 / 2 : ℝ) • (p2 - p0)) 0) := by
  refine ⟨⟨?_, ?_, ?_⟩, ?_, ?_, ?_⟩
  · simp [catmullStart, catmullStart1, pow2]
  · ext <;> simp [catmullStart, catmullStart1, pow2] <;> ring
  · have := (catmullStart1_deriv p0.1 p1.1 p2.1 1).prodMk (catmullStart1_deriv p0.2 p1.2 p2.2 1)
    exact HasDerivAt.congr_deriv this (by ext <;> simp <;> ring)
  · simp [catmullEnd, catmullEnd1, pow2]
  · ext <;> simp [catmullEnd, catmullEnd1, pow2] <;> ring
  · have := (catmullEnd1_deriv p0.1 p1.1 p2.1 0).prodMk (catmullEnd1_deriv p0.2 p1.2 p2.2 0)
    exact HasDerivAt.congr_deriv this (by ext <;> simp <;> ring)

/-- **The pieces join smoothly**: `start p0 p1 p2`, `catmull p0 p1 p2 p3`, `catmull p1 p2 p3 p4`, `end p2 p3 p4` -/
theorem C144_catmull_join (p0 p1 p2 p3 p4 : ℝ × ℝ) :
    (catmullStart p0 p1 p2 1 = catmull p0 p1 p2 p3 0 ∧ deriv (catmullStart p0 p1 p2) 1 = deriv (catmull p0 p1 p2 p3) 0)
    ∧ (catmull p0 p1 p2 p3 1 = catmull p1 p2 p3 p4 0 ∧ deriv (catmull p0 p1 p2 p3) 1 = deriv (catmull p1 p2 p3 p4) 0)
    ∧ (catmull p1 p2 p3 p4 1 = catmullEnd p2 p3 p4 0 ∧ deriv (catmull p1 p2 p3 p4) 1 = deriv (catmullEnd p2 p3 p4) 0) := by
  obtain ⟨a0, a1, a2, a3⟩ := C144_catmull p0 p1 p2 p3
  obtain ⟨b0, b1, b2, b3⟩ := C144_catmull p1 p2 p3 p4
  obtain ⟨⟨s0, s1, s2⟩, -⟩ := C144_catmull_start_end p0 p1 p2
  obtain ⟨-, e0, e1, e2⟩ := C144_catmull_start_end p2 p3 p4
  refine ⟨⟨by rw [s1, a0], by rw [s2.deriv, a2.deriv]⟩, ⟨by rw [a1, b0], by rw [a3.deriv, b2.deriv]⟩, by rw [b1, e0],
    by rw [b3.deriv, e2.deriv]⟩

/-- **With integral coordinates** the spline does not reach the third point: the division by 2 (catmull_rom_spline.hpp 29-31) discards
the fraction -/
theorem C144_catmull_int_refuted : ¬ ∀ p0 p1 p2 p3 : ℤ, catmullInt1 p0 p1 p2 p3 1 = p2 := by
  intro h
  have := h 0 0 1 1
  norm_num [catmullInt1, pow2, pow3, show Int.tdiv 3 2 = 1 by decide, show Int.tdiv 1 2 = 0 by decide] at this

/-- it does if all of the coordinates are even -/
theorem C144_catmull_int_partial (p0 p1 p2 p3 : ℤ) (t : ℝ) :
    catmullInt1 (2 * p0) (2 * p1) (2 * p2) (2 * p3) t = catmull1 (2 * p0) (2 * p1) (2 * p2) (2 * p3) t := by
  have key : ∀ z : ℤ, (2 * z).tdiv 2 = z := fun z => Int.mul_tdiv_cancel_left z (by norm_num)
  unfold catmullInt1 catmull1
  rw [show -(2 * p0) + 3 * (2 * p1) - 3 * (2 * p2) + 2 * p3 = 2 * (-p0 + 3 * p1 - 3 * p2 + p3) by ring,
    show 2 * (2 * p0) - 5 * (2 * p1) + 4 * (2 * p2) - 2 * p3 = 2 * (2 * p0 - 5 * p1 + 4 * p2 - p3) by ring,
    show -(2 * p0) + 2 * p2 = 2 * (-p0 + p2) by ring, key, key, key]
  push_cast
  ring

example : bezier [(0, 0), (1, 2), (2, 0)] (1 / 2) = some (1, 1) := by
  norm_num [bezier, bezierN, bezier2, pow2]
example : catmull (0, 0) (1, 1) (2, 1) (3, 0) (1 / 2) = (3 / 2, 9 / 8) := by
  norm_num [catmull, catmull1, pow2, pow3]

end Sprout
