import Verif.Model.DarkObj
import Verif.Proofs.DarkVec

/-!
# Lemmas about the objects of the ray tracer
-/

namespace Sprout.Dark
open Geo

variable {M : Type}

theorem pointAt_p (r : Ray) (t : ℝ) : (pointAt r t).p = along r.pos.p r.dir.p t := by
  simp only [pointAt, add, scale, Vec.p, along, mul, Prod.mk_add_mk, mul_comm]

/-- `b` of `intersect_2` -/
def Sphere.b (s : Sphere M) (r : Ray) : ℝ := -dot (sub r.pos s.pos) r.dir

/-- `det_sq` of `intersect_3` -/
def Sphere.D (s : Sphere M) (r : Ray) : ℝ := s.b r * s.b r - lengthSq (sub r.pos s.pos) + s.rad * s.rad

theorem Sphere.distSq_along (s : Sphere M) (r : Ray) (hd : Norm1 r.dir.p) (t : ℝ) :
    distSq (along r.pos.p r.dir.p t) s.pos.p = (t - s.b r) ^ 2 - s.D r + s.rad ^ 2 := by
  simp only [distSq, along, Norm1, Geo.inner, Vec.p, mul, Prod.mk_add_mk, Prod.mk_sub_mk, Sphere.D, Sphere.b, lengthSq, dot, sub] at *
  linear_combination t ^ 2 * hd

theorem Sphere.rad_sq_pos (s : Sphere M) (r : Ray) (hd : Norm1 r.dir.p) (h : 0 < s.D r) : 0 < s.rad ^ 2 := by
  have h1 := outer_self (sub r.pos s.pos).p r.dir.p hd
  have h2 : 0 ≤ Geo.inner (outer (sub r.pos s.pos).p r.dir.p) (outer (sub r.pos s.pos).p r.dir.p) := by
    unfold Geo.inner; nlinarith [mul_self_nonneg (outer (sub r.pos s.pos).p r.dir.p).1, mul_self_nonneg (outer (sub r.pos s.pos).p r.dir.p).2.1,
      mul_self_nonneg (outer (sub r.pos s.pos).p r.dir.p).2.2]
  unfold Sphere.D Sphere.b at h
  rw [dot_eq, lengthSq_eq] at h
  nlinarith

/-- the ray enters the ball after its start -/
def Sphere.Hit (s : Sphere M) (r : Ray) : Prop := 0 < s.D r ∧ 0 < s.b r + Real.sqrt (s.D r)

/-- the distance that is reported -/
noncomputable def Sphere.distOf (s : Sphere M) (r : Ray) : ℝ :=
  if s.b r - Real.sqrt (s.D r) < 0 then s.b r + Real.sqrt (s.D r) else s.b r - Real.sqrt (s.D r)

theorem Sphere.hit_iff (s : Sphere M) (r : Ray) (hd : Norm1 r.dir.p) :
    s.Hit r ↔ ∃ t > 0, distSq (along r.pos.p r.dir.p t) s.pos.p < s.rad ^ 2 := by
  simp only [s.distSq_along r hd]
  unfold Sphere.Hit
  set D := s.D r
  set b := s.b r
  constructor
  · rintro ⟨hD, h2⟩
    have hs := Real.sq_sqrt hD.le
    have hs0 := Real.sqrt_pos.2 hD
    set q := Real.sqrt D
    rcases lt_or_ge 0 b with hb | hb
    · exact ⟨b, hb, by nlinarith⟩
    · refine ⟨(b + q) / 2, by linarith, ?_⟩
      have : ((b + q) / 2 - b) ^ 2 < q ^ 2 := by nlinarith
      linarith
  · rintro ⟨t, ht, h⟩
    have hD : 0 < D := by nlinarith [sq_nonneg (t - b)]
    have hs := Real.sq_sqrt hD.le
    have hs0 := Real.sqrt_pos.2 hD
    set q := Real.sqrt D
    refine ⟨hD, ?_⟩
    by_contra hc
    have : q ≤ t - b - 0 := by linarith
    nlinarith

theorem Sphere.dist_facts (s : Sphere M) (r : Ray) (hd : Norm1 r.dir.p) (h : s.Hit r) :
    0 ≤ s.distOf r ∧ distSq (along r.pos.p r.dir.p (s.distOf r)) s.pos.p = s.rad ^ 2 ∧
      (∀ t, 0 ≤ t → t < s.distOf r → distSq (along r.pos.p r.dir.p t) s.pos.p ≠ s.rad ^ 2) ∧
      (distSq r.pos.p s.pos.p < s.rad ^ 2 ↔ 0 < s.distOf r - s.b r) ∧ s.distOf r - s.b r ≠ 0 := by
  have h0 : distSq r.pos.p s.pos.p = (0 - s.b r) ^ 2 - s.D r + s.rad ^ 2 := by
    rw [← s.distSq_along r hd]; congr 1
    simp [along, mul, Vec.p]
  rw [h0]
  simp only [s.distSq_along r hd]
  unfold Sphere.distOf
  obtain ⟨hD, h2⟩ := h
  set D := s.D r
  set b := s.b r
  have hs := Real.sq_sqrt hD.le
  have hs0 := Real.sqrt_pos.2 hD
  set q := Real.sqrt D
  split
  · rename_i hc
    refine ⟨h2.le, by nlinarith, ?_, ?_, by intro e; linarith⟩
    · intro t ht0 ht e
      have hl : 0 < b + q - t := by linarith
      have hr : 0 < t - (b - q) := by linarith
      nlinarith [mul_pos hl hr]
    · constructor
      · intro _; linarith
      · intro _
        have hl : 0 < b + q := h2
        have hr : 0 < q - b := by linarith
        nlinarith [mul_pos hl hr]
  · rename_i hc
    have hc' : 0 ≤ b - q := not_lt.1 hc
    refine ⟨hc', by nlinarith, ?_, ?_, by intro e; linarith⟩
    · intro t ht0 ht e
      have hl : 0 < b - q - t := by linarith
      have hr : 0 < b + q - t := by linarith
      nlinarith [mul_pos hl hr]
    · constructor
      · intro e; nlinarith
      · intro e; linarith

/-- the outer normal of the point that is reported -/
theorem Sphere.normal_eq (s : Sphere M) (r : Ray) (hd : Norm1 r.dir.p) (h : s.Hit r) :
    ∃ n, normalize (sub (pointAt r (s.distOf r)) s.pos) = some n ∧ Norm1 n.p ∧
      mul |s.rad| n.p = (pointAt r (s.distOf r)).p - s.pos.p ∧ |s.rad| * dot n r.dir = s.distOf r - s.b r ∧ 0 < |s.rad| := by
  obtain ⟨_, hq, _, _, _⟩ := s.dist_facts r hd h
  have hr := s.rad_sq_pos r hd h.1
  have hra : 0 < |s.rad| := abs_pos.2 fun e => by rw [e] at hr; norm_num at hr
  set w := sub (pointAt r (s.distOf r)) s.pos with hw
  have hwp : w.p = (pointAt r (s.distOf r)).p - s.pos.p := rfl
  have hl : lengthSq w = s.rad ^ 2 := by rw [lengthSq_eq, hwp, pointAt_p]; exact hq
  have hlen : length w = |s.rad| := by unfold length; rw [hl, Real.sqrt_sq_eq_abs]
  have hne : length w ≠ 0 := by rw [hlen]; exact hra.ne'
  refine ⟨_, if_neg hne, ?_, ?_, ?_, hra⟩
  · have := length_mul_self w
    unfold lengthSq at this
    simp only [Norm1, Geo.inner, Vec.p]
    field_simp
    linarith
  · rw [← hwp, ← hlen]
    simp only [mul, Vec.p, Prod.mk.injEq]
    exact ⟨by field_simp, by field_simp, by field_simp⟩
  · rw [← hlen]
    have : length w * dot ⟨w.x / length w, w.y / length w, w.z / length w⟩ r.dir = dot w r.dir := by
      simp only [dot]; field_simp
    rw [this, hw]
    have hd' : r.dir.x * r.dir.x + r.dir.y * r.dir.y + r.dir.z * r.dir.z = 1 := hd
    simp only [dot, sub, pointAt, add, scale, Sphere.b]
    linear_combination s.distOf r * hd'

theorem Sphere.intersect_hit (s : Sphere M) (r : Ray) (h : s.Hit r) {n : Vec}
    (hn : normalize (sub (pointAt r (s.distOf r)) s.pos) = some n) :
    s.intersect r = (s.mat (atan2 n.z n.x / Real.pi) (atan2 n.y (Real.sqrt (n.x * n.x + n.z * n.z)) / (Real.pi / 2))).map fun m =>
      ⟨true, s.distOf r, pointAt r (s.distOf r), if dot n r.dir > 0 then negate n else n, m, decide (dot n r.dir > 0)⟩ := by
  obtain ⟨hD, h2⟩ := h
  have hz : zweitens (decide (s.D r > 0)) (s.b r) (if s.D r > 0 then Real.sqrt (s.D r) else 0) =
      (if s.b r - Real.sqrt (s.D r) < 0 then -1 else 1, true, s.distOf r) := by
    have hD' : s.D r > 0 := hD
    have h2' : s.b r + Real.sqrt (s.D r) > 0 := h2
    simp only [zweitens, zweitens1, Sphere.distOf, hD', h2', decide_true, if_true]
  unfold Sphere.intersect Sphere.intersect1 Sphere.intersect2 Sphere.intersect3
  change s.intersect4 r (zweitens (decide (s.D r > 0)) (s.b r) (if s.D r > 0 then Real.sqrt (s.D r) else 0)) = _
  rw [hz]
  simp only [Sphere.intersect4, Sphere.drittens, if_true, Sphere.drittens1, hn, Option.bind_eq_bind, Option.bind_some,
    Sphere.intersect5, Sphere.intersect6]
  rcases s.mat _ _ with _ | m
  · rfl
  · simp only [Option.bind_some, Option.map_some, decide_eq_true_eq]

theorem Sphere.intersect_miss (s : Sphere M) (r : Ray) (h : ¬ s.Hit r) :
    s.intersect r = (s.mat (atan2 1 1 / Real.pi) (atan2 1 (Real.sqrt (1 * 1 + 1 * 1)) / (Real.pi / 2))).map fun m =>
      ⟨false, -1, ⟨0, 0, 0⟩, if dot ⟨1, 1, 1⟩ r.dir > 0 then negate ⟨1, 1, 1⟩ else ⟨1, 1, 1⟩, m, decide (dot ⟨1, 1, 1⟩ r.dir > 0)⟩ := by
  have hz : (zweitens (decide (s.D r > 0)) (s.b r) (if s.D r > 0 then Real.sqrt (s.D r) else 0)).2 = (false, -1) := by
    unfold zweitens zweitens1
    by_cases hD : s.D r > 0
    · have h2 : ¬ s.b r + Real.sqrt (s.D r) > 0 := fun h2 => h ⟨hD, h2⟩
      simp only [hD, h2, decide_true, if_true, if_false, decide_false]
    · simp [hD]
  unfold Sphere.intersect Sphere.intersect1 Sphere.intersect2 Sphere.intersect3
  change s.intersect4 r (zweitens (decide (s.D r > 0)) (s.b r) (if s.D r > 0 then Real.sqrt (s.D r) else 0)) = _
  simp only [Sphere.intersect4, Sphere.drittens, hz, Option.bind_eq_bind, Option.bind_some, Bool.false_eq_true, if_false,
    Sphere.intersect5, Sphere.intersect6]
  rcases s.mat _ _ with _ | m
  · rfl
  · simp only [Option.bind_some, Option.map_some, decide_eq_true_eq]

/-- the direction with the argument of `(x, y)` -/
theorem atan2_spec (y x : ℝ) : x = Real.sqrt (x * x + y * y) * Real.cos (atan2 y x) ∧ y = Real.sqrt (x * x + y * y) * Real.sin (atan2 y x) := by
  have hn : ‖(⟨x, y⟩ : ℂ)‖ = Real.sqrt (x * x + y * y) := by
    rw [Complex.norm_def, Complex.normSq_mk]
  unfold atan2
  rw [← hn]
  exact ⟨(Complex.norm_mul_cos_arg ⟨x, y⟩).symm, (Complex.norm_mul_sin_arg ⟨x, y⟩).symm⟩

theorem atan2_range (y x : ℝ) : -Real.pi < atan2 y x ∧ atan2 y x ≤ Real.pi := ⟨Complex.neg_pi_lt_arg _, Complex.arg_le_pi _⟩

theorem atan2_range_half (y x : ℝ) (h : 0 ≤ x) : -(Real.pi / 2) ≤ atan2 y x ∧ atan2 y x ≤ Real.pi / 2 := by
  have := Complex.abs_arg_le_pi_div_two_iff (z := ⟨x, y⟩)
  exact abs_le.1 (this.2 h)

/-- the spherical coordinates of a unit vector -/
theorem spherical (n : Vec) (hn : Norm1 n.p) :
    let u := atan2 n.z n.x / Real.pi
    let v := atan2 n.y (Real.sqrt (n.x * n.x + n.z * n.z)) / (Real.pi / 2)
    n.p = (Real.cos (Real.pi / 2 * v) * Real.cos (Real.pi * u), Real.sin (Real.pi / 2 * v), Real.cos (Real.pi / 2 * v) * Real.sin (Real.pi * u)) ∧
      -1 < u ∧ u ≤ 1 ∧ -1 ≤ v ∧ v ≤ 1 := by
  intro u v
  have hpi := Real.pi_pos
  have hu : Real.pi * u = atan2 n.z n.x := by simp only [u]; field_simp
  have hv : Real.pi / 2 * v = atan2 n.y (Real.sqrt (n.x * n.x + n.z * n.z)) := by simp only [v]; field_simp
  have hw : 0 ≤ n.x * n.x + n.z * n.z := by nlinarith [mul_self_nonneg n.x, mul_self_nonneg n.z]
  set w := Real.sqrt (n.x * n.x + n.z * n.z) with hwd
  have hww : w * w = n.x * n.x + n.z * n.z := Real.mul_self_sqrt hw
  have hn' : n.x * n.x + n.y * n.y + n.z * n.z = 1 := hn
  have h1 : Real.sqrt (w * w + n.y * n.y) = 1 := by rw [hww, show n.x * n.x + n.z * n.z + n.y * n.y = 1 by linarith, Real.sqrt_one]
  obtain ⟨a1, a2⟩ := atan2_spec n.y w
  obtain ⟨b1, b2⟩ := atan2_spec n.z n.x
  rw [h1, one_mul] at a1 a2
  rw [← hwd] at b1 b2
  refine ⟨?_, ?_, ?_, ?_, ?_⟩
  · rw [hu, hv, ← a1, ← a2, ← b1, ← b2]; rfl
  · have := (atan2_range n.z n.x).1
    rw [lt_div_iff₀ hpi]; linarith
  · have := (atan2_range n.z n.x).2
    rw [div_le_iff₀ hpi]; linarith
  · have := (atan2_range_half n.y w (Real.sqrt_nonneg _)).1
    rw [le_div_iff₀ (by positivity)]; linarith
  · have := (atan2_range_half n.y w (Real.sqrt_nonneg _)).2
    rw [div_le_iff₀ (by positivity)]; linarith

theorem inner_self_eq_zero {a : P} (h : Geo.inner a a = 0) : a = 0 := by
  obtain ⟨x, y, z⟩ := a
  simp only [Geo.inner] at h
  have hx := mul_self_nonneg x
  have hy := mul_self_nonneg y
  have hz := mul_self_nonneg z
  simp only [Prod.mk_eq_zero]
  exact ⟨mul_self_eq_zero.1 (by linarith), mul_self_eq_zero.1 (by linarith), mul_self_eq_zero.1 (by linarith)⟩

/-- a vector of the plane spanned by `a` and `b` -/
theorem exists_coords {a b w : P} (hN : outer b a ≠ 0) (hw : Geo.inner w (outer b a) = 0) : ∃ α β, w = mul α a + mul β b := by
  have hS : Geo.inner (outer b a) (outer b a) ≠ 0 := fun e => hN (inner_self_eq_zero e)
  refine ⟨Geo.inner (outer b w) (outer b a) / Geo.inner (outer b a) (outer b a),
    Geo.inner (outer w a) (outer b a) / Geo.inner (outer b a) (outer b a), ?_⟩
  obtain ⟨a1, a2, a3⟩ := a
  obtain ⟨b1, b2, b3⟩ := b
  obtain ⟨w1, w2, w3⟩ := w
  simp only [outer, Geo.inner, mul, Prod.mk_add_mk, Prod.mk.injEq] at *
  refine ⟨?_, ?_, ?_⟩
  · rw [div_mul_eq_mul_div, div_mul_eq_mul_div, ← add_div, eq_div_iff hS]
    linear_combination (b2 * a3 - b3 * a2) * hw
  · rw [div_mul_eq_mul_div, div_mul_eq_mul_div, ← add_div, eq_div_iff hS]
    linear_combination (b3 * a1 - b1 * a3) * hw
  · rw [div_mul_eq_mul_div, div_mul_eq_mul_div, ← add_div, eq_div_iff hS]
    linear_combination (b1 * a2 - b2 * a1) * hw

theorem coords_unique {a b : P} (hN : outer b a ≠ 0) {α β α' β' : ℝ} (h : mul α a + mul β b = mul α' a + mul β' b) : α = α' ∧ β = β' := by
  have hS : Geo.inner (outer b a) (outer b a) ≠ 0 := fun e => hN (inner_self_eq_zero e)
  obtain ⟨a1, a2, a3⟩ := a
  obtain ⟨b1, b2, b3⟩ := b
  simp only [outer, Geo.inner, mul, Prod.mk_add_mk, Prod.mk.injEq] at *
  obtain ⟨h1, h2, h3⟩ := h
  constructor
  · refine mul_left_cancel₀ hS ?_
    linear_combination (b2 * (b1 * a2 - b2 * a1) - b3 * (b3 * a1 - b1 * a3)) * (-h1) + (b3 * (b2 * a3 - b3 * a2) - b1 * (b1 * a2 - b2 * a1)) * (-h2) +
      (b1 * (b3 * a1 - b1 * a3) - b2 * (b2 * a3 - b3 * a2)) * (-h3)
  · refine mul_left_cancel₀ hS ?_
    linear_combination (a2 * (b1 * a2 - b2 * a1) - a3 * (b3 * a1 - b1 * a3)) * h1 + (a3 * (b2 * a3 - b3 * a2) - a1 * (b1 * a2 - b2 * a1)) * h2 +
      (a1 * (b3 * a1 - b1 * a3) - a2 * (b2 * a3 - b3 * a2)) * h3

/-- the triangle in coordinates of its sides -/
theorem inTriangle_iff {v0 v1 v2 q : P} (hN : outer (v2 - v0) (v1 - v0) ≠ 0) {α β : ℝ}
    (h : q - v0 = mul α (v1 - v0) + mul β (v2 - v0)) : InTriangle v0 v1 v2 q ↔ 0 ≤ α ∧ 0 ≤ β ∧ 0 ≤ 1 - α - β := by
  constructor
  · rintro ⟨u, v, w, hu, hv, hw, hs, rfl⟩
    have : mul u v0 + mul v v1 + mul w v2 - v0 = mul v (v1 - v0) + mul w (v2 - v0) := by
      have : u = 1 - v - w := by linarith
      subst this
      refine Prod.ext ?_ (Prod.ext ?_ ?_) <;> simp only [mul, Prod.fst_add, Prod.snd_add, Prod.fst_sub, Prod.snd_sub] <;> ring
    rw [this] at h
    obtain ⟨rfl, rfl⟩ := coords_unique hN h
    exact ⟨hv, hw, by linarith⟩
  · rintro ⟨ha, hb, hc⟩
    refine ⟨1 - α - β, α, β, hc, ha, hb, by ring, ?_⟩
    rw [sub_eq_iff_eq_add] at h
    rw [h]
    refine Prod.ext ?_ (Prod.ext ?_ ?_) <;> simp only [mul, Prod.fst_add, Prod.snd_add, Prod.fst_sub, Prod.snd_sub] <;> ring

end Sprout.Dark
