import Verif.Proofs.DarkObj
import Verif.Props.C136
import Mathlib.Tactic.FinCases

/-!
# C137: intersections of rays with spheres, planes, triangles and lists of objects
-/

namespace Sprout
open Dark Geo

variable {M : Type}

/-- Sphere, for rays of unit direction: there is an intersection if and only if the ray passes through the interior of the ball after its
start. -/
theorem C137_sphere_hit (s : Sphere M) (r : Ray) (hd : Norm1 r.dir.p) (h : Isect M) (e : s.intersect r = some h) :
    h.does = true ↔ ∃ t > 0, distSq (along r.pos.p r.dir.p t) s.pos.p < s.rad ^ 2 := by
  rw [← s.hit_iff r hd]
  by_cases hh : s.Hit r
  · obtain ⟨n, hn, _⟩ := s.normal_eq r hd hh
    rw [s.intersect_hit r hh hn, Option.map_eq_some_iff] at e
    obtain ⟨m, _, rfl⟩ := e
    exact ⟨fun _ => hh, fun _ => rfl⟩
  · rw [s.intersect_miss r hh, Option.map_eq_some_iff] at e
    obtain ⟨m, _, rfl⟩ := e
    exact ⟨fun c => absurd c (by simp), fun c => absurd c hh⟩

/-- The intersection is the first point of the ray on the sphere; the normal is the unit normal there, turned against the ray;
`is_from_inside` says whether the ray starts in the interior. -/
theorem C137_sphere_point (s : Sphere M) (r : Ray) (hd : Norm1 r.dir.p) (h : Isect M) (e : s.intersect r = some h) (hit : h.does = true) :
    0 ≤ h.dist ∧ h.point.p = along r.pos.p r.dir.p h.dist ∧ distSq h.point.p s.pos.p = s.rad ^ 2 ∧
      (∀ t, 0 ≤ t → t < h.dist → distSq (along r.pos.p r.dir.p t) s.pos.p ≠ s.rad ^ 2) ∧
      Norm1 h.normal.p ∧ Geo.inner h.normal.p r.dir.p < 0 ∧
      (h.inside = true ↔ distSq r.pos.p s.pos.p < s.rad ^ 2) ∧
      h.point.p - s.pos.p = mul (if h.inside then -|s.rad| else |s.rad|) h.normal.p := by
  have hh : s.Hit r := (s.hit_iff r hd).2 ((C137_sphere_hit s r hd h e).1 hit)
  obtain ⟨n, hn, hn1, hnp, hnd, hra⟩ := s.normal_eq r hd hh
  obtain ⟨f1, f2, f3, f4, f5⟩ := s.dist_facts r hd hh
  rw [s.intersect_hit r hh hn, Option.map_eq_some_iff] at e
  obtain ⟨m, _, rfl⟩ := e
  have hpos : dot n r.dir > 0 ↔ 0 < s.distOf r - s.b r := by
    rw [← hnd]
    exact ⟨fun h => mul_pos hra h, fun h => (pos_iff_pos_of_mul_pos h).1 hra⟩
  have hne : dot n r.dir ≠ 0 := fun e => by rw [e, mul_zero] at hnd; exact f5 hnd.symm
  refine ⟨f1, pointAt_p r _, by rw [pointAt_p]; exact f2, f3, ?_, ?_, ?_, ?_⟩
  · dsimp only
    split
    · simpa [Norm1, Geo.inner, negate, Vec.p] using hn1
    · exact hn1
  · dsimp only
    split
    · rename_i h
      have : Geo.inner (negate n).p r.dir.p = -dot n r.dir := by simp only [Geo.inner, negate, Vec.p, dot]; ring
      rw [this]; linarith
    · rename_i h
      rw [← dot_eq]
      exact lt_of_le_of_ne (not_lt.1 h) hne
  · simp only [decide_eq_true_eq]
    rw [hpos, f4]
  · dsimp only
    rw [← hnp]
    by_cases h : dot n r.dir > 0
    · simp [h, mul, negate, Vec.p]
    · simp [h]

/-- The material is evaluated at the spherical coordinates of the outer normal, `u` in `(-1, 1]` around the axis and `v` in `[-1, 1]` from
pole to pole. -/
theorem C137_sphere_material (s : Sphere M) (r : Ray) (hd : Norm1 r.dir.p) (h : Isect M) (e : s.intersect r = some h) (hit : h.does = true) :
    ∃ u v : ℝ, s.mat u v = some h.mat ∧ -1 < u ∧ u ≤ 1 ∧ -1 ≤ v ∧ v ≤ 1 ∧ h.point.p - s.pos.p =
      mul |s.rad| (Real.cos (Real.pi / 2 * v) * Real.cos (Real.pi * u), Real.sin (Real.pi / 2 * v), Real.cos (Real.pi / 2 * v) * Real.sin (Real.pi * u)) := by
  have hh : s.Hit r := (s.hit_iff r hd).2 ((C137_sphere_hit s r hd h e).1 hit)
  obtain ⟨n, hn, hn1, hnp, hnd, hra⟩ := s.normal_eq r hd hh
  rw [s.intersect_hit r hh hn, Option.map_eq_some_iff] at e
  obtain ⟨m, hm, rfl⟩ := e
  obtain ⟨g1, g2, g3, g4, g5⟩ := spherical n hn1
  exact ⟨_, _, hm, g2, g3, g4, g5, by rw [← g1, hnp]⟩

/-- the sphere fails only if its material does -/
theorem C137_sphere_total (s : Sphere M) (r : Ray) (hd : Norm1 r.dir.p) (hm : ∀ u v, (s.mat u v).isSome) : (s.intersect r).isSome := by
  by_cases hh : s.Hit r
  · obtain ⟨n, hn, _⟩ := s.normal_eq r hd hh
    rw [s.intersect_hit r hh hn, Option.isSome_map]; exact hm _ _
  · rw [s.intersect_miss r hh, Option.isSome_map]; exact hm _ _

/-- the unit vector of an axis -/
def axisOf : Axis → P
  | .x => (1, 0, 0)
  | .y => (0, 1, 0)
  | .z => (0, 0, 1)

/-- what is wanted of a plane: a hit is a point of the ray after its start -/
def PlaneFull : Prop := ∀ (M : Type) (p : Plane M) (r : Ray) (h : Isect M), p.intersect r = some h →
  (h.does = true ↔ ∃ t > 0, Geo.inner (along r.pos.p r.dir.p t) (axisOf p.axis) = p.val)

/-- A ray that starts on the plane and goes up hits it. -/
theorem C137_plane_refuted : ¬ PlaneFull := by
  intro h
  have := h Unit ⟨.y, 0, fun _ _ => some (), .both⟩ ⟨⟨0, 0, 0⟩, ⟨0, 1, 0⟩⟩ ⟨true, 0, ⟨0, 0, 0⟩, ⟨0, -1, 0⟩, (), false⟩
    (by norm_num [Plane.intersect, Plane.intersect1, Plane.intersect2, Plane.intersect3, Plane.intersect4, Plane.intersect5, Plane.material,
      coord, pointAt, add, scale, (by decide : ¬ Axis.y = Axis.x)])
  obtain ⟨t, ht, e⟩ := this.1 rfl
  simp [along, mul, Vec.p, Geo.inner, axisOf] at e
  linarith

theorem coord_eq (a : Axis) (v : Vec) : coord a v = Geo.inner v.p (axisOf a) := by
  cases a <;> simp [coord, Geo.inner, Vec.p, axisOf]

theorem Plane.intersect_eq (p : Plane M) (r : Ray) : p.intersect r =
    let x := Geo.inner r.pos.p (axisOf p.axis)
    let d := Geo.inner r.dir.p (axisOf p.axis)
    let does := decide ((x > p.val ∧ d < 0) ∨ (x ≤ p.val ∧ d > 0))
    let dist := if does then (x - p.val) / -d else -1
    let q := if does then pointAt r dist else ⟨0, 0, 0⟩
    (p.material q).map fun m => ⟨does, dist, q,
      if p.axis = .x then ⟨if x > p.val then 1 else -1, 0, 0⟩
        else if p.axis = .y then ⟨0, if x > p.val then 1 else -1, 0⟩ else ⟨0, 0, if x > p.val then 1 else -1⟩, m,
      match p.face with
      | .both => false
      | .negative => decide (d > 0)
      | .positive => decide (d < 0)
      | .same_as_direction => decide ((p.val > 0 ∧ d < 0) ∨ (p.val < 0 ∧ d > 0))⟩ := by
  unfold Plane.intersect Plane.intersect1 Plane.intersect2 Plane.intersect3 Plane.intersect4 Plane.intersect5
  simp only [coord_eq]
  by_cases hx : Geo.inner r.pos.p (axisOf p.axis) > p.val
  · have hx' : ¬ Geo.inner r.pos.p (axisOf p.axis) ≤ p.val := not_le.2 hx
    simp only [hx, hx', if_true, true_and, false_and, or_false, show (1 : ℤ) > 0 by decide, show ¬ (1 : ℤ) < 0 by decide]
    rcases p.material _ with _ | m <;> rfl
  · have hx' : Geo.inner r.pos.p (axisOf p.axis) ≤ p.val := not_lt.1 hx
    simp only [hx, hx', if_false, true_and, false_and, false_or, show ¬ (-1 : ℤ) > 0 by decide, show (-1 : ℤ) < 0 by decide]
    rcases p.material _ with _ | m <;> rfl

/-- For a ray that does not start on the plane: it hits the plane if and only if it meets it after its start. The point is the only
common point, the normal the unit vector along the axis that is turned against the ray. -/
theorem C137_plane_partial (p : Plane M) (r : Ray) (h : Isect M) (e : p.intersect r = some h)
    (hpos : Geo.inner r.pos.p (axisOf p.axis) ≠ p.val) :
    (h.does = true ↔ ∃ t > 0, Geo.inner (along r.pos.p r.dir.p t) (axisOf p.axis) = p.val) ∧
      (h.does = true → 0 < h.dist ∧ h.point.p = along r.pos.p r.dir.p h.dist ∧
        (∀ t, Geo.inner (along r.pos.p r.dir.p t) (axisOf p.axis) = p.val ↔ t = h.dist) ∧
        (h.normal.p = axisOf p.axis ∨ h.normal.p = -axisOf p.axis) ∧ Geo.inner h.normal.p r.dir.p < 0) := by
  rw [Plane.intersect_eq] at e
  have hal : ∀ t, Geo.inner (along r.pos.p r.dir.p t) (axisOf p.axis) =
      Geo.inner r.pos.p (axisOf p.axis) + t * Geo.inner r.dir.p (axisOf p.axis) := by
    intro t; simp only [along, mul, Geo.inner, Prod.fst_add, Prod.snd_add]; ring
  simp only [hal]
  set x := Geo.inner r.pos.p (axisOf p.axis) with hx
  set d := Geo.inner r.dir.p (axisOf p.axis) with hd
  simp only at e
  rw [Option.map_eq_some_iff] at e
  obtain ⟨m, -, rfl⟩ := e
  have hiff : ((x > p.val ∧ d < 0) ∨ (x ≤ p.val ∧ d > 0)) ↔ ∃ t > 0, x + t * d = p.val := by
    constructor
    · rintro (⟨a, b⟩ | ⟨a, b⟩)
      · exact ⟨(x - p.val) / -d, div_pos (by linarith) (by linarith), by have := b.ne; field_simp; ring⟩
      · have : x < p.val := lt_of_le_of_ne a hpos
        exact ⟨(p.val - x) / d, div_pos (by linarith) b, by field_simp; ring⟩
    · rintro ⟨t, ht, e⟩
      rcases lt_or_gt_of_ne hpos with a | a
      · refine Or.inr ⟨a.le, ?_⟩
        by_contra hc
        nlinarith
      · refine Or.inl ⟨a, ?_⟩
        by_contra hc
        nlinarith
  refine ⟨by simpa only [decide_eq_true_eq] using hiff, ?_⟩
  simp only [decide_eq_true_eq]
  intro hc
  simp only [hc, if_true]
  have hd0 : d ≠ 0 := by rcases hc with ⟨_, b⟩ | ⟨_, b⟩ <;> [exact b.ne; exact b.ne']
  refine ⟨?_, pointAt_p r _, ?_, ?_, ?_⟩
  · rcases hc with ⟨a, b⟩ | ⟨a, b⟩
    · exact div_pos (by linarith) (by linarith)
    · have : x < p.val := lt_of_le_of_ne a hpos
      exact div_pos_of_neg_of_neg (by linarith) (by linarith)
  · intro t
    rw [eq_div_iff (neg_ne_zero.2 hd0)]
    constructor <;> intro h <;> linarith
  · by_cases hg : x > p.val
    · left; cases ha : p.axis <;> simp [hg, axisOf, Vec.p]
    · right; cases ha : p.axis <;> simp [hg, axisOf, Vec.p]
  · have hdc : d = Geo.inner r.dir.p (axisOf p.axis) := hd
    by_cases hg : x > p.val
    · have hdn : d < 0 := by rcases hc with ⟨_, b⟩ | ⟨a, _⟩ <;> [exact b; linarith]
      cases ha : p.axis <;> rw [ha] at hdc <;> simp [hg, axisOf, Vec.p, Geo.inner] at hdc ⊢ <;> linarith
    · have hdn : d > 0 := by rcases hc with ⟨a, _⟩ | ⟨_, b⟩ <;> [exact absurd a hg; exact b]
      cases ha : p.axis <;> rw [ha] at hdc <;> simp [hg, axisOf, Vec.p, Geo.inner] at hdc ⊢ <;> linarith

/-- A ray that starts on the plane hits it, at distance 0, exactly if it goes in the positive direction of the axis. -/
theorem C137_plane_on (p : Plane M) (r : Ray) (h : Isect M) (e : p.intersect r = some h)
    (hpos : Geo.inner r.pos.p (axisOf p.axis) = p.val) :
    (h.does = true ↔ 0 < Geo.inner r.dir.p (axisOf p.axis)) ∧ (h.does = true → h.dist = 0) := by
  rw [Plane.intersect_eq] at e
  simp only [hpos, gt_iff_lt, lt_irrefl, false_and, false_or, le_refl, true_and, sub_self, zero_div] at e
  rw [Option.map_eq_some_iff] at e
  obtain ⟨m, -, rfl⟩ := e
  simp only [decide_eq_true_eq, ite_eq_left_iff]
  exact ⟨trivial, fun h c => absurd h c⟩

/-- Which side is the inside: none, or the one below, or the one above, or the one where the origin is. -/
theorem C137_plane_inside (p : Plane M) (r : Ray) (h : Isect M) (e : p.intersect r = some h) :
    h.inside = true ↔ match p.face with
      | .both => False
      | .negative => 0 < Geo.inner r.dir.p (axisOf p.axis)
      | .positive => Geo.inner r.dir.p (axisOf p.axis) < 0
      | .same_as_direction => p.val * Geo.inner r.dir.p (axisOf p.axis) < 0 := by
  rw [Plane.intersect_eq] at e
  simp only at e
  rw [Option.map_eq_some_iff] at e
  obtain ⟨m, -, rfl⟩ := e
  cases p.face
  · simp
  · simp
  · simp
  · simp only [decide_eq_true_eq, mul_neg_iff, gt_iff_lt]

/-- The material is evaluated at the two other coordinates of the point. -/
theorem C137_plane_material (p : Plane M) (r : Ray) (h : Isect M) (e : p.intersect r = some h) :
    some h.mat = match p.axis with
      | .x => p.mat h.point.z h.point.y
      | .y => p.mat h.point.x h.point.z
      | .z => p.mat h.point.x h.point.y := by
  rw [Plane.intersect_eq] at e
  simp only at e
  rw [Option.map_eq_some_iff] at e
  obtain ⟨m, hm, rfl⟩ := e
  unfold Plane.material at hm
  cases ha : p.axis <;> simp [ha] at hm ⊢ <;> exact hm.symm

/-- the plane fails only if its material does -/
theorem C137_plane_total (p : Plane M) (r : Ray) (hm : ∀ u v, (p.mat u v).isSome) : (p.intersect r).isSome := by
  rw [Plane.intersect_eq]
  simp only [Option.isSome_map]
  unfold Plane.material
  split
  · exact hm _ _
  · split <;> exact hm _ _

/-- the vector product of the sides of a triangle -/
def triNormal (v0 v1 v2 : Vec) : P := outer (v2.p - v0.p) (v1.p - v0.p)

/-- what is wanted of a triangle that is not degenerate, for rays of unit direction not parallel to its plane -/
def TriangleFull : Prop := ∀ (M : Type) (mat : Image M) (v0 v1 v2 : Vec) (r : Ray), triNormal v0 v1 v2 ≠ 0 →
  Norm1 r.dir.p → Geo.inner r.dir.p (triNormal v0 v1 v2) ≠ 0 → (mat 0 0).isSome →
  ∃ h, (makeTriangle mat v0 v1 v2).bind (fun t => t.intersect r) = some h ∧
    (h.does = true ↔ ∃ t, 0 ≤ t ∧ InTriangle v0.p v1.p v2.p (along r.pos.p r.dir.p t)) ∧
    (h.does = true → InTriangle v0.p v1.p v2.p h.point.p)

/-- No triangle in a horizontal plane can be made: its normal is zero divided by zero. -/
theorem C137_triangle_horizontal (mat : Image M) (v0 v1 v2 : Vec) (h1 : v1.y = v0.y) (h2 : v2.y = v0.y) :
    makeTriangle mat v0 v1 v2 = none := by
  have : cross (sub v2 v0) (sub v1 v0) = ⟨0, 0, 0⟩ := by simp [cross, sub, h1, h2]
  unfold makeTriangle
  rw [this, show Dark.normalize ⟨0, 0, 0⟩ = none from if_pos (length_eq_zero.2 rfl)]
  rfl

/-- Where a triangle can be made, the points reported need not lie on it: of the triangle in the plane `z = 0` a point with `z = 1/4`. -/
theorem C137_triangle_wrong : ∃ t h, makeTriangle (fun _ _ => some ()) ⟨0, 0, 0⟩ ⟨1, 0, 0⟩ ⟨0, 1, 0⟩ = some t ∧
    t.intersect ⟨⟨1 / 4, 1 / 4, -1⟩, ⟨0, 0, 1⟩⟩ = some h ∧ h.does = true ∧ h.point = ⟨1 / 4, 1 / 4, 1 / 4⟩ := by
  have h2 : (0 : ℝ) < Real.sqrt 2 := by positivity
  have hc : cross (sub ⟨0, 1, 0⟩ ⟨0, 0, 0⟩) (sub ⟨1, 0, 0⟩ ⟨0, 0, 0⟩) = ⟨0, 1, -1⟩ := by norm_num [cross, sub]
  have hl : length ⟨0, 1, -1⟩ = Real.sqrt 2 := by unfold length lengthSq; congr 1; norm_num
  have hn : Dark.normalize ⟨0, 1, -1⟩ = some ⟨0 / Real.sqrt 2, 1 / Real.sqrt 2, -1 / Real.sqrt 2⟩ := by
    unfold Dark.normalize; rw [hl]; exact normalizeImpl_eq h2.ne'
  refine ⟨⟨fun _ _ => some (), ⟨0, 0, 0⟩, ⟨1, 0, 0⟩, ⟨0, 1, 0⟩, ⟨0 / Real.sqrt 2, 1 / Real.sqrt 2, -1 / Real.sqrt 2⟩⟩,
    ⟨true, 5 / 4, ⟨1 / 4, 1 / 4, 1 / 4⟩, ⟨0 / Real.sqrt 2, 1 / Real.sqrt 2, -1 / Real.sqrt 2⟩, (), false⟩, ?_, ?_, rfl, rfl⟩
  · unfold makeTriangle; rw [hc, hn]; rfl
  · have hk : dot (sub ⟨0, 0, 0⟩ ⟨1 / 4, 1 / 4, -1⟩) ⟨0 / Real.sqrt 2, 1 / Real.sqrt 2, -1 / Real.sqrt 2⟩ /
        dot ⟨0, 0, 1⟩ ⟨0 / Real.sqrt 2, 1 / Real.sqrt 2, -1 / Real.sqrt 2⟩ = 5 / 4 := by
      simp only [dot, sub]; field_simp; norm_num
    have hv : dot ⟨0, 0, 1⟩ ⟨0 / Real.sqrt 2, 1 / Real.sqrt 2, -1 / Real.sqrt 2⟩ ≠ 0 := by
      simp only [dot]; field_simp; norm_num
    have hlen : length ⟨0, 0, 5 / 4⟩ = 5 / 4 := by
      unfold length
      rw [show lengthSq ⟨0, 0, 5 / 4⟩ = (5 / 4) ^ 2 by norm_num [lengthSq], Real.sqrt_sq (by norm_num)]
    unfold Triangle.intersect Triangle.intersect1
    dsimp only
    rw [if_neg hv, hk]
    unfold Triangle.intersect2 Triangle.intersect3 Triangle.intersect4 Triangle.intersect5
    have w : ∀ d0 d1 : Vec, 0 ≤ (d0.y * d1.x - d0.x * d1.y) →
        Triangle.within (M := Unit) ⟨fun _ _ => some (), ⟨0, 0, 0⟩, ⟨1, 0, 0⟩, ⟨0, 1, 0⟩, ⟨0 / Real.sqrt 2, 1 / Real.sqrt 2, -1 / Real.sqrt 2⟩⟩ d0 d1 = true := by
      intro d0 d1 h
      unfold Triangle.within
      rw [decide_eq_true_eq]
      have : dot (cross d0 d1) ⟨0 / Real.sqrt 2, 1 / Real.sqrt 2, -1 / Real.sqrt 2⟩ = 2 * (d0.y * d1.x - d0.x * d1.y) / Real.sqrt 2 := by
        simp only [dot, cross]; ring
      rw [ge_iff_le, this]
      positivity
    rw [w, w, w]
    · norm_num [hlen, pointAt, add, scale]
    · norm_num [sub, add, scale]
    · norm_num [sub, add, scale]
    · norm_num [sub, add, scale]

theorem C137_triangle_refuted : ¬ TriangleFull := by
  intro h
  obtain ⟨x, e, _⟩ := h Unit (fun _ _ => some ()) ⟨0, 0, 0⟩ ⟨1, 0, 0⟩ ⟨0, 0, 1⟩ ⟨⟨0, 1, 0⟩, ⟨0, -1, 0⟩⟩
    (by norm_num [triNormal, outer, Vec.p]) (by norm_num [Norm1, Geo.inner, Vec.p]) (by norm_num [triNormal, outer, Vec.p, Geo.inner]) rfl
  rw [C137_triangle_horizontal (fun _ _ => some ()) ⟨0, 0, 0⟩ ⟨1, 0, 0⟩ ⟨0, 0, 1⟩ rfl rfl] at e
  exact absurd e (by simp)

/-- For triangles whose normal is perpendicular to `(0, 1, 1)` all is as wanted. -/
theorem C137_triangle_partial (mat : Image M) (v0 v1 v2 : Vec) (r : Ray) (hN : triNormal v0 v1 v2 ≠ 0)
    (hd : Norm1 r.dir.p) (hp : Geo.inner r.dir.p (triNormal v0 v1 v2) ≠ 0) (hm : (mat 0 0).isSome)
    (h011 : Geo.inner (triNormal v0 v1 v2) (0, 1, 1) = 0) :
    ∃ h, (makeTriangle mat v0 v1 v2).bind (fun t => t.intersect r) = some h ∧
      (h.does = true ↔ ∃ t, 0 ≤ t ∧ InTriangle v0.p v1.p v2.p (along r.pos.p r.dir.p t)) ∧
      (h.does = true → InTriangle v0.p v1.p v2.p h.point.p ∧ h.point.p = along r.pos.p r.dir.p h.dist ∧ Norm1 h.normal.p ∧
        ∃ k > 0, h.normal.p = mul k (triNormal v0 v1 v2)) := by
  have hcr : cross (sub v2 v0) (sub v1 v0) = ⟨(triNormal v0 v1 v2).1, (triNormal v0 v1 v2).2.1, (triNormal v0 v1 v2).2.2⟩ :=
    Vec.p_inj ((C136_cross_partial (sub v2 v0) (sub v1 v0)).2.2 h011)
  set N := triNormal v0 v1 v2 with hNd
  set c := cross (sub v2 v0) (sub v1 v0) with hc
  have hcp : c.p = N := by rw [hcr]; rfl
  have hc0 : c ≠ ⟨0, 0, 0⟩ := fun e => hN (by rw [← hcp, e]; rfl)
  have hL := length_pos hc0
  have hn := normalize_eq hc0
  set L := length c with hLd
  obtain ⟨m, hm⟩ := Option.isSome_iff_exists.1 hm
  set n : Vec := ⟨c.x / L, c.y / L, c.z / L⟩ with hnd
  have hdn : ∀ w : Vec, dot w n = Geo.inner w.p N / L := by
    intro w; rw [← hcp]; simp only [dot, Geo.inner, Vec.p, hnd]; field_simp
  set D := Geo.inner r.dir.p N with hDd
  set k := Geo.inner (sub v0 r.pos).p N / D with hk
  set q := add r.pos (scale r.dir k) with hq
  have hqp : q.p = along r.pos.p r.dir.p k := pointAt_p r k
  have hplane : ∀ t, Geo.inner (along r.pos.p r.dir.p t - v0.p) N = (t - k) * D := by
    intro t
    have : Geo.inner (along r.pos.p r.dir.p t - v0.p) N = t * D - Geo.inner (sub v0 r.pos).p N := by
      simp only [hDd, along, mul, Geo.inner, Vec.p, sub, Prod.mk_add_mk, Prod.mk_sub_mk]; ring
    rw [this, hk]; field_simp
  obtain ⟨α, β, hab⟩ := exists_coords (a := v1.p - v0.p) (b := v2.p - v0.p) (w := q.p - v0.p) hN (by rw [hqp]; exact (hplane k).trans (by ring))
  have hin := inTriangle_iff hN hab
  have hl2 : N.1 * N.1 + N.2.1 * N.2.1 + N.2.2 * N.2.2 = L * L := by
    rw [hLd, length_mul_self, ← hcp]; rfl
  have hx := congrArg Prod.fst hab
  have hy := congrArg (fun a => a.2.1) hab
  have hz := congrArg (fun a => a.2.2) hab
  simp only [Vec.p, mul, Prod.mk_add_mk, Prod.mk_sub_mk] at hx hy hz
  -- the three tests
  have hw : ∀ (d0 d1 : Vec) (x : ℝ), (cross d0 d1).p = mul x N →
      Triangle.within (M := M) ⟨mat, v0, v1, v2, n⟩ d0 d1 = decide (0 ≤ x) := by
    intro d0 d1 x e
    unfold Triangle.within
    have : dot (cross d0 d1) n = x * L := by
      rw [hdn, e]
      simp only [mul, Geo.inner]
      field_simp
      linear_combination x * hl2
    rw [decide_eq_decide, this]
    exact ⟨fun h => nonneg_of_mul_nonneg_left h hL, fun h => mul_nonneg h hL.le⟩
  have hNc : N = (c.x, c.y, c.z) := hcp.symm
  have qx : q.x = v0.x + (α * (v1.x - v0.x) + β * (v2.x - v0.x)) := by linarith
  have qy : q.y = v0.y + (α * (v1.y - v0.y) + β * (v2.y - v0.y)) := by linarith
  have qz : q.z = v0.z + (α * (v1.z - v0.z) + β * (v2.z - v0.z)) := by linarith
  have w0 := hw (sub q v0) (sub v1 v0) β (by
    rw [hNc, hc]; simp only [cross, sub, Vec.p, mul, qx, qy, qz, Prod.mk.injEq]; exact ⟨by ring, by ring, by ring⟩)
  have w1 := hw (sub q v1) (sub v2 v1) (1 - α - β) (by
    rw [hNc, hc]; simp only [cross, sub, Vec.p, mul, qx, qy, qz, Prod.mk.injEq]; exact ⟨by ring, by ring, by ring⟩)
  have w2 := hw (sub q v2) (sub v0 v2) α (by
    rw [hNc, hc]; simp only [cross, sub, Vec.p, mul, qx, qy, qz, Prod.mk.injEq]; exact ⟨by ring, by ring, by ring⟩)
  have hdoes : (decide (k ≥ 0) && decide (0 ≤ β) && decide (0 ≤ 1 - α - β) && decide (0 ≤ α)) = true ↔ 0 ≤ k ∧ InTriangle v0.p v1.p v2.p q.p := by
    rw [hin]; simp only [Bool.and_eq_true, decide_eq_true_eq]; tauto
  set does := (decide (k ≥ 0) && decide (0 ≤ β) && decide (0 ≤ 1 - α - β) && decide (0 ≤ α)) with hdo
  refine ⟨⟨does, if does then length (scale r.dir k) else -1, if does then pointAt r (if does then length (scale r.dir k) else -1) else ⟨0, 0, 0⟩,
    n, m, false⟩, ?_, ?_, ?_⟩
  · have hmk : makeTriangle mat v0 v1 v2 = some ⟨mat, v0, v1, v2, n⟩ := by unfold makeTriangle; rw [← hc, hn]; rfl
    rw [hmk, Option.bind_some]
    unfold Triangle.intersect Triangle.intersect1
    dsimp only
    have hvn : dot r.dir n ≠ 0 := by rw [hdn]; exact div_ne_zero hp hL.ne'
    have hkk : dot (sub v0 r.pos) n / dot r.dir n = k := by
      rw [hdn, hdn, hk, div_div_div_cancel_right₀ hL.ne']
    rw [if_neg hvn, hkk]
    unfold Triangle.intersect2 Triangle.intersect3 Triangle.intersect4 Triangle.intersect5
    dsimp only
    rw [← hq, w0, w1, w2, hm]
    rfl
  · rw [hdoes]
    constructor
    · rintro ⟨h0, h1⟩; exact ⟨k, h0, by rw [← hqp]; exact h1⟩
    · rintro ⟨t, h0, h1⟩
      have : t = k := by
        obtain ⟨u, v, w, -, -, -, hs, e⟩ := h1
        have h2 := hplane t
        rw [e] at h2
        have : Geo.inner (mul u v0.p + mul v v1.p + mul w v2.p - v0.p) N = 0 := by
          have hu : u = 1 - v - w := by linarith
          rw [hu, hNd]
          simp only [triNormal, outer, mul, Geo.inner, Prod.fst_add, Prod.snd_add, Prod.fst_sub, Prod.snd_sub]; ring
        rw [this] at h2
        rcases mul_eq_zero.1 h2.symm with h3 | h3
        · linarith
        · exact absurd h3 hp
      subst this
      exact ⟨h0, by rw [hqp]; exact h1⟩
  · intro hd1
    obtain ⟨hk0, hi⟩ := hdoes.1 hd1
    have hlen : length (scale r.dir k) = k := by
      unfold length
      have : lengthSq (scale r.dir k) = k ^ 2 := by
        have hd' : r.dir.x * r.dir.x + r.dir.y * r.dir.y + r.dir.z * r.dir.z = 1 := hd
        simp only [lengthSq, scale]; linear_combination k ^ 2 * hd'
      rw [this, Real.sqrt_sq hk0]
    dsimp only at hd1 ⊢
    simp only [hd1, if_true, hlen]
    refine ⟨hi, pointAt_p r k, ?_, 1 / L, by positivity, ?_⟩
    · rw [Norm1, ← dot_eq, hdn, ← hcp]
      have : Geo.inner n.p c.p = lengthSq c / L := by simp only [Geo.inner, hnd, Vec.p, lengthSq]; ring
      rw [this, ← length_mul_self, ← hLd]; field_simp
    · rw [← hcp]; simp only [hnd, Vec.p, mul, div_eq_mul_inv, one_mul, mul_comm]

/-- Lists: the nearest of the intersections, the first one of equally near ones, the result of the first object if there is none. -/
theorem C137_list (objs : List (Obj M)) (r : Ray) (rs : List (Isect M)) (hne : objs ≠ [])
    (h : objs.map (fun f => f r) = rs.map some) :
    ∃ i, ∃ hi : i < rs.length, intersectList objs r = some rs[i] ∧
      ((rs[i].does = true ∧ ∀ j, ∀ hj : j < rs.length, rs[j].does = true → rs[i].dist ≤ rs[j].dist ∧ (j < i → rs[i].dist < rs[j].dist)) ∨
        (i = 0 ∧ ∀ j, ∀ hj : j < rs.length, rs[j].does = false)) := by
  have hlen : objs.length = rs.length := by simpa using congrArg List.length h
  have hget : ∀ i (hi : i < rs.length), ∃ f, objs[i]? = some f ∧ f r = some rs[i] := by
    intro i hi
    have hi' : i < objs.length := by omega
    refine ⟨objs[i], List.getElem?_eq_getElem hi', ?_⟩
    have := congrArg (fun l => l[i]?) h
    simpa [hi, hi'] using this
  have key : ∀ n, ∀ hn : n < rs.length, ∃ i, ∃ hi : i ≤ n, intersectListImpl objs r n = some rs[i] ∧
      ((rs[i].does = true ∧ ∀ j, ∀ hj : j ≤ n, rs[j].does = true → rs[i].dist ≤ rs[j].dist ∧ (j < i → rs[i].dist < rs[j].dist)) ∨
        (i = 0 ∧ ∀ j, ∀ hj : j ≤ n, rs[j].does = false)) := by
    intro n
    induction n with
    | zero =>
      intro hn
      obtain ⟨f, h1, h2⟩ := hget 0 hn
      refine ⟨0, le_refl 0, by unfold intersectListImpl; rw [h1]; exact h2, ?_⟩
      cases hd : rs[0].does
      · right
        refine ⟨rfl, fun j hj => ?_⟩
        obtain rfl : j = 0 := by omega
        exact hd
      · left
        refine ⟨rfl, fun j hj _ => ?_⟩
        obtain rfl : j = 0 := by omega
        exact ⟨le_refl _, fun c => absurd c (by omega)⟩
    | succ n ih =>
      intro hn
      obtain ⟨i, hi, e, hcase⟩ := ih (by omega)
      obtain ⟨f, h1, h2⟩ := hget (n + 1) hn
      have hstep : intersectListImpl objs r (n + 1) = some (comp rs[n + 1] rs[i]) := by
        unfold intersectListImpl; rw [h1]; simp [h2, e]
      rw [hstep]
      cases hd : rs[n + 1].does
      · refine ⟨i, by omega, by simp [comp, hd], ?_⟩
        rcases hcase with ⟨hc1, hc2⟩ | ⟨hc1, hc2⟩
        · left
          refine ⟨hc1, fun j hj hjd => ?_⟩
          rcases Nat.lt_or_ge n j with hlt | hle
          · obtain rfl : j = n + 1 := by omega
            rw [hd] at hjd; exact absurd hjd (by simp)
          · exact hc2 j hle hjd
        · right
          refine ⟨hc1, fun j hj => ?_⟩
          rcases Nat.lt_or_ge n j with hlt | hle
          · obtain rfl : j = n + 1 := by omega
            exact hd
          · exact hc2 j hle
      · rcases hcase with ⟨hc1, hc2⟩ | ⟨hc1, hc2⟩
        · by_cases hlt : rs[n + 1].dist < rs[i].dist
          · refine ⟨n + 1, le_refl _, by simp [comp, hd, hc1, hlt], Or.inl ⟨hd, fun j hj hjd => ?_⟩⟩
            rcases Nat.lt_or_ge n j with hj' | hle
            · obtain rfl : j = n + 1 := by omega
              exact ⟨le_refl _, fun c => absurd c (by omega)⟩
            · have := (hc2 j hle hjd).1
              exact ⟨by linarith, fun _ => by linarith⟩
          · refine ⟨i, by omega, by simp [comp, hd, hc1, hlt], Or.inl ⟨hc1, fun j hj hjd => ?_⟩⟩
            rcases Nat.lt_or_ge n j with hj' | hle
            · obtain rfl : j = n + 1 := by omega
              exact ⟨not_lt.1 hlt, fun c => absurd c (by omega)⟩
            · exact hc2 j hle hjd
        · subst hc1
          have h0 : rs[0].does = false := hc2 0 (by omega)
          refine ⟨n + 1, le_refl _, by simp [comp, hd, h0], Or.inl ⟨hd, fun j hj hjd => ?_⟩⟩
          rcases Nat.lt_or_ge n j with hj' | hle
          · obtain rfl : j = n + 1 := by omega
            exact ⟨le_refl _, fun c => absurd c (by omega)⟩
          · rw [hc2 j hle] at hjd; exact absurd hjd (by simp)
  have hpos : 0 < rs.length := by
    rw [← hlen]; exact List.length_pos_iff.2 hne
  obtain ⟨i, hi, e, hcase⟩ := key (rs.length - 1) (by omega)
  refine ⟨i, by omega, by unfold intersectList; rw [hlen]; exact e, ?_⟩
  rcases hcase with ⟨hc1, hc2⟩ | ⟨hc1, hc2⟩
  · exact Or.inl ⟨hc1, fun j hj => hc2 j (by omega)⟩
  · exact Or.inr ⟨hc1, fun j hj => hc2 j (by omega)⟩

/-- a ray along the third axis meets the unit sphere at the origin from outside and from inside; a list of two spheres -/
example : ∃ h h' : Isect Unit, Sphere.intersect ⟨⟨0, 0, 0⟩, 1, fun _ _ => some ()⟩ ⟨⟨0, 0, -3⟩, ⟨0, 0, 1⟩⟩ = some h ∧
    h.does = true ∧ h.dist = 2 ∧ h.inside = false ∧ h.normal = ⟨0, 0, -1⟩ ∧
    Sphere.intersect ⟨⟨0, 0, 0⟩, 1, fun _ _ => some ()⟩ ⟨⟨0, 0, 0⟩, ⟨0, 0, 1⟩⟩ = some h' ∧
    h'.does = true ∧ h'.dist = 1 ∧ h'.inside = true ∧ h'.normal = ⟨0, 0, -1⟩ := by
  have h1 : Dark.normalize ⟨0, 0, -1⟩ = some ⟨0, 0, -1⟩ := by norm_num [Dark.normalize, normalizeImpl, length, lengthSq]
  have h2 : Dark.normalize ⟨0, 0, 1⟩ = some ⟨0, 0, 1⟩ := by norm_num [Dark.normalize, normalizeImpl, length, lengthSq]
  refine ⟨⟨true, 2, ⟨0, 0, -1⟩, ⟨0, 0, -1⟩, (), false⟩, ⟨true, 1, ⟨0, 0, 1⟩, ⟨0, 0, -1⟩, (), true⟩, ?_, rfl, rfl, rfl, rfl, ?_, rfl, rfl, rfl, rfl⟩
  · norm_num [Sphere.intersect, Sphere.intersect1, Sphere.intersect2, Sphere.intersect3, Sphere.intersect4, Sphere.intersect5,
      Sphere.intersect6, Sphere.drittens, Sphere.drittens1, zweitens, zweitens1, sub, dot, lengthSq, pointAt, add, scale, h1]
  · norm_num [Sphere.intersect, Sphere.intersect1, Sphere.intersect2, Sphere.intersect3, Sphere.intersect4, Sphere.intersect5,
      Sphere.intersect6, Sphere.drittens, Sphere.drittens1, zweitens, zweitens1, sub, dot, lengthSq, pointAt, add, scale, h2, negate]

/-- a triangle in the plane `x = 0` satisfies the condition of `C137_triangle_partial` -/
example : triNormal ⟨0, 0, 0⟩ ⟨0, 1, 0⟩ ⟨0, 0, 1⟩ = (-1, 0, 0) ∧ Geo.inner (triNormal ⟨0, 0, 0⟩ ⟨0, 1, 0⟩ ⟨0, 0, 1⟩) (0, 1, 1) = 0 := by
  constructor <;> norm_num [triNormal, outer, Vec.p, Geo.inner]

end Sprout
