import Verif.Proofs.DarkVec

/-!
# C136: vectors, reflection and refraction of the ray tracer
-/

namespace Sprout
open Dark Geo

/-- the operations are those of the vector space and its scalar product -/
theorem C136_arithmetic (a b : Vec) (k : ℝ) :
    (add a b).p = a.p + b.p ∧ (sub a b).p = a.p - b.p ∧ (scale a k).p = mul k a.p ∧ (negate a).p = -a.p ∧
      dot a b = Geo.inner a.p b.p ∧ lengthSq a = Geo.inner a.p a.p ∧ 0 ≤ length a ∧ length a ^ 2 = Geo.inner a.p a.p := by
  refine ⟨rfl, rfl, ?_, rfl, rfl, rfl, length_nonneg a, ?_⟩
  · simp only [Vec.p, scale, mul, mul_comm]
  · rw [sq, length_mul_self]; rfl

/-- `normalize` gives the unit vector of the same direction, for every vector but zero. -/
theorem C136_normalize (v : Vec) (h : v.p ≠ 0) :
    ∃ u k, normalize v = some u ∧ Norm1 u.p ∧ 0 < k ∧ u.p = mul k v.p := by
  have h0 : v ≠ ⟨0, 0, 0⟩ := by rintro rfl; exact h rfl
  have hl := length_pos h0
  refine ⟨_, 1 / length v, normalize_eq h0, ?_, by positivity, ?_⟩
  · have := length_mul_self v
    unfold lengthSq at this
    simp only [Norm1, Geo.inner, Vec.p]
    field_simp
    linarith
  · simp only [Vec.p, mul, div_eq_mul_inv, one_mul, mul_comm]

/-- the zero vector has no direction -/
theorem C136_normalize_zero (v : Vec) (h : v.p = 0) : normalize v = none := by
  have : v = ⟨0, 0, 0⟩ := Vec.p_inj h
  exact if_pos (length_eq_zero.2 this)

/-- `resize(v, k)` has length `|k|` and the direction of `v`, the opposite one for `k < 0`. -/
theorem C136_resize (v : Vec) (k : ℝ) (h : v.p ≠ 0) (hk : k ≠ 0) :
    ∃ u c, resize v k = some u ∧ Geo.inner u.p u.p = k ^ 2 ∧ 0 < c ∧ u.p = mul (k * c) v.p := by
  have h0 : v ≠ ⟨0, 0, 0⟩ := by rintro rfl; exact h rfl
  have hl := length_pos h0
  refine ⟨_, 1 / length v, (if_neg hk).trans (normalizeImpl_eq (div_ne_zero hl.ne' hk)), ?_, by positivity, ?_⟩
  · have := length_mul_self v
    unfold lengthSq at this
    simp only [Geo.inner, Vec.p]
    field_simp
    linarith
  · simp only [Vec.p, mul]
    refine Prod.ext ?_ (Prod.ext ?_ ?_) <;> (simp only; field_simp)

/-- Reflection at the plane with the unit normal `n`: the component along `n` changes its sign, the rest stays, and so does the length. -/
theorem C136_reflect (i n : Vec) (hn : Norm1 n.p) :
    Geo.inner (reflect i n).p n.p = -Geo.inner i.p n.p ∧ outer (reflect i n).p n.p = outer i.p n.p ∧
      Geo.inner (reflect i n).p (reflect i n).p = Geo.inner i.p i.p ∧ reflect (reflect i n) n = i := by
  simp only [Norm1, Geo.inner, Vec.p, reflect, sub, scale, dot, outer, Prod.mk.injEq] at *
  refine ⟨?_, ⟨?_, ?_, ?_⟩, ?_, ?_⟩
  · linear_combination -2 * (i.x * n.x + i.y * n.y + i.z * n.z) * hn
  · ring
  · ring
  · ring
  · linear_combination 4 * (i.x * n.x + i.y * n.y + i.z * n.z) ^ 2 * hn
  · refine Vec.ext ?_ ?_ ?_
    · linear_combination 4 * n.x * (i.x * n.x + i.y * n.y + i.z * n.z) * hn
    · linear_combination 4 * n.y * (i.x * n.x + i.y * n.y + i.z * n.z) * hn
    · linear_combination 4 * n.z * (i.x * n.x + i.y * n.y + i.z * n.z) * hn

/-- Total reflection: if the sine of the angle of incidence exceeds `eta`, the result is the zero vector. -/
theorem C136_refract_total (i n : Vec) (eta : ℝ) (hi : Norm1 i.p) (hn : Norm1 n.p)
    (h : eta ^ 2 < Geo.inner (outer i.p n.p) (outer i.p n.p)) : refract i n eta = some ⟨0, 0, 0⟩ := by
  rw [outer_self _ _ hn, hi] at h
  refine if_pos ?_
  rw [dot_eq]
  linarith

/-- Snell's law: for unit vectors and an index `eta > 0`, unless there is total reflection, the refracted ray is the unit vector `r` with
`eta (r × n) = i × n` that goes away from the normal, and the only one. -/
theorem C136_refract (i n : Vec) (eta : ℝ) (hi : Norm1 i.p) (hn : Norm1 n.p) (he : 0 < eta)
    (h : Geo.inner (outer i.p n.p) (outer i.p n.p) ≤ eta ^ 2) (r : Vec) :
    refract i n eta = some r ↔ Norm1 r.p ∧ mul eta (outer r.p n.p) = outer i.p n.p ∧ Geo.inner r.p n.p ≤ 0 := by
  have hL := outer_self i.p n.p hn
  rw [hi] at hL
  set t := -dot i n with ht
  set k := eta * eta + t * t - 1 with hk
  have hk0 : 0 ≤ k := by rw [hL, ← dot_eq] at h; rw [hk, ht]; nlinarith
  have hs := Real.mul_self_sqrt hk0
  have hs0 := Real.sqrt_nonneg k
  set s := Real.sqrt k with hsd
  have hr : refract i n eta = some (scale (add i (scale n (t - s))) (1 / eta)) := by
    unfold refract refractImpl refractImpl1
    rw [← ht, ← hk, if_neg (not_lt.2 hk0), if_neg he.ne']
  rw [hr, Option.some.injEq]
  have hin : i.x * i.x + i.y * i.y + i.z * i.z = 1 := hi
  have hnn : n.x * n.x + n.y * n.y + n.z * n.z = 1 := hn
  have htd : i.x * n.x + i.y * n.y + i.z * n.z = -t := by rw [ht]; unfold dot; ring
  constructor
  · rintro rfl
    simp only [Norm1, Geo.inner, Vec.p, scale, add, outer, mul, Prod.mk.injEq]
    refine ⟨?_, ⟨?_, ?_, ?_⟩, ?_⟩
    · have e2 : (i.x + n.x * (t - s)) ^ 2 + (i.y + n.y * (t - s)) ^ 2 + (i.z + n.z * (t - s)) ^ 2 = eta * eta := by
        linear_combination hin + (t - s) ^ 2 * hnn + 2 * (t - s) * htd + hs + hk
      field_simp
      linarith
    · field_simp; ring
    · field_simp; ring
    · field_simp; ring
    · have e1 : (i.x + n.x * (t - s)) * n.x + (i.y + n.y * (t - s)) * n.y + (i.z + n.z * (t - s)) * n.z = -s := by
        linear_combination htd + (t - s) * hnn
      have : (i.x + n.x * (t - s)) * (1 / eta) * n.x + (i.y + n.y * (t - s)) * (1 / eta) * n.y + (i.z + n.z * (t - s)) * (1 / eta) * n.z
          = -s * (1 / eta) := by rw [← e1]; ring
      rw [this]
      have : 0 ≤ s * (1 / eta) := by positivity
      linarith
  · rintro ⟨hru, hro, hrn⟩
    have hw : outer (mul eta r.p - i.p) n.p = 0 := by
      have e1 := congrArg Prod.fst hro
      have e2 := congrArg (fun q => q.2.1) hro
      have e3 := congrArg (fun q => q.2.2) hro
      simp only [outer, mul, Vec.p, Prod.mk_sub_mk, Prod.mk_eq_zero] at *
      exact ⟨by linarith, by linarith, by linarith⟩
    have hp := parallel_of_outer hn hw
    -- the component of `eta r` along `n`
    have hL2 := outer_self (mul eta r.p) n.p hn
    have hrr : r.x * r.x + r.y * r.y + r.z * r.z = 1 := hru
    have ho2 : Geo.inner (outer (mul eta r.p) n.p) (outer (mul eta r.p) n.p) = 1 - t * t := by
      have : outer (mul eta r.p) n.p = outer i.p n.p := by
        rw [← hro]; simp only [outer, mul, Prod.mk.injEq]; exact ⟨by ring, by ring, by ring⟩
      rw [this, hL, ← dot_eq, ht]; ring
    have hq : Geo.inner (mul eta r.p) n.p = -s := by
      have hneg : Geo.inner (mul eta r.p) n.p ≤ 0 := by
        have : Geo.inner (mul eta r.p) n.p = eta * Geo.inner r.p n.p := by simp only [Geo.inner, mul]; ring
        rw [this]; nlinarith
      have hsq : Geo.inner (mul eta r.p) n.p * Geo.inner (mul eta r.p) n.p = s * s := by
        have e : Geo.inner (mul eta r.p) (mul eta r.p) = eta * eta := by
          simp only [Geo.inner, mul, Vec.p]; linear_combination eta * eta * hrr
        rw [ho2, e] at hL2
        rw [hs]; linarith
      nlinarith
    have hd : Geo.inner (mul eta r.p - i.p) n.p = t - s := by
      have : Geo.inner (mul eta r.p - i.p) n.p = Geo.inner (mul eta r.p) n.p - Geo.inner i.p n.p := by
        simp only [Geo.inner, Prod.fst_sub, Prod.snd_sub]; ring
      rw [this, hq, ← dot_eq, ht]; ring
    rw [hd] at hp
    have e1 := congrArg Prod.fst hp
    have e2 := congrArg (fun q => q.2.1) hp
    have e3 := congrArg (fun q => q.2.2) hp
    simp only [mul, Vec.p, Prod.mk_sub_mk] at e1 e2 e3
    refine Vec.ext ?_ ?_ ?_
    · simp only [scale, add]; field_simp; linarith
    · simp only [scale, add]; field_simp; linarith
    · simp only [scale, add]; field_simp; linarith

/-- what is wanted of `cross` -/
def CrossFull : Prop := ∀ a b : Vec, (cross a b).p = outer a.p b.p

/-- It is not the vector product, not even perpendicular to its arguments: the product of the first two axes is `(0, -1, 1)`. -/
theorem C136_cross_refuted : ¬ CrossFull ∧ ∃ a b : Vec, dot (cross a b) b ≠ 0 := by
  constructor
  · intro h
    have := h ⟨1, 0, 0⟩ ⟨0, 1, 0⟩
    simp [cross, Vec.p, outer] at this
  · refine ⟨⟨1, 0, 0⟩, ⟨0, 1, 0⟩, ?_⟩
    norm_num [cross, dot]

/-- The first and the third component are right, the second one is the negative of the third. So it is the vector product exactly for
the pairs whose vector product is perpendicular to `(0, 1, 1)`. -/
theorem C136_cross_partial (a b : Vec) :
    (cross a b).p = ((outer a.p b.p).1, -(outer a.p b.p).2.2, (outer a.p b.p).2.2) ∧
      ((cross a b).p = outer a.p b.p ↔ Geo.inner (outer a.p b.p) (0, 1, 1) = 0) := by
  have h : (cross a b).p = ((outer a.p b.p).1, -(outer a.p b.p).2.2, (outer a.p b.p).2.2) := by
    simp only [cross, Vec.p, outer, Prod.mk.injEq, and_true, true_and]; ring
  refine ⟨h, ?_⟩
  rw [h, Prod.ext_iff, Prod.ext_iff]
  simp only [Geo.inner, true_and, and_true, mul_zero, zero_add, mul_one]
  constructor <;> intro e <;> linarith

/-- the start of a ray with a unit direction is moved by `2 ^ -44` along the ray -/
theorem C136_detached (p d : Vec) (hd : Norm1 d.p) :
    ∃ r, makeDetachedRay p d = some r ∧ r.dir = d ∧ r.pos.p = along p.p d.p (1 / 2 ^ 44) := by
  have he : epsilon * 256 = 1 / 2 ^ 44 := by unfold epsilon; norm_num
  have hres : resize d (epsilon * 256) = some ⟨d.x / (1 / (1 / 2 ^ 44)), d.y / (1 / (1 / 2 ^ 44)), d.z / (1 / (1 / 2 ^ 44))⟩ := by
    rw [he, resize, if_neg (by positivity), length_unit hd, normalizeImpl_eq (by positivity)]
  refine ⟨_, by unfold makeDetachedRay detachPosition; rw [hres]; rfl, rfl, ?_⟩
  simp only [add, Vec.p, along, mul, Prod.mk_add_mk, one_div, inv_inv, Prod.mk.injEq]
  exact ⟨by ring, by ring, by ring⟩

/-- a ray that meets a surface of index 5/4 at the angle with sine 3/5 and cosine 4/5; and total reflection -/
example : refract ⟨3 / 5, -4 / 5, 0⟩ ⟨0, 1, 0⟩ (3 / 5) = some ⟨1, 0, 0⟩ ∧ refract ⟨3 / 5, -4 / 5, 0⟩ ⟨0, 1, 0⟩ (1 / 2) = some ⟨0, 0, 0⟩ := by
  constructor
  · norm_num [refract, refractImpl, refractImpl1, dot, scale, add]
  · norm_num [refract, refractImpl, refractImpl1, dot]

/-- a mirror, and the length of (2, 3, 6) -/
example : reflect ⟨3, -4, 5⟩ ⟨0, 1, 0⟩ = ⟨3, 4, 5⟩ ∧ normalize ⟨2, 3, 6⟩ = some ⟨2 / 7, 3 / 7, 6 / 7⟩ := by
  constructor
  · norm_num [reflect, dot, scale, sub]
  · have : Real.sqrt 49 = 7 := by rw [show (49 : ℝ) = 7 ^ 2 by norm_num]; exact Real.sqrt_sq (by norm_num)
    norm_num [normalize, normalizeImpl, length, lengthSq, this]

end Sprout
