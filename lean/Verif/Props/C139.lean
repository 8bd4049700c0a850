import Verif.Proofs.DarkRender

/-!
# C139: camera, renderer and pixels of the ray tracer
-/

namespace Sprout
open Dark Geo

/-- the side of the picture that has length 1 in the view plane -/
def refSide : ViewRef → ℕ → ℕ → ℕ
  | .long_side, w, h => max w h
  | .short_side, w, h => min w h
  | .width, w, _ => w
  | .height, _, h => h

/-- the horizontal direction of the picture -/
noncomputable def horizontal (c : P) : P := mul (1 / Real.sqrt (c.1 * c.1 + c.2.2 * c.2.2)) (c.2.2, 0, -c.1)

/-- The ray of a pixel: it starts at the camera, has a unit direction, and goes through the point of the view plane at the distance `far`
towards the fixation point, displaced by `(x - w / 2) / side` and `(h / 2 - y) / side`, rotated. The pixels are squares. -/
theorem C139_camera (m : Camera) (x y w h : ℕ) (hw : 0 < w) (hh : 0 < h) (hf : 0 < m.far)
    (hl : (m.fix.x, m.fix.z) ≠ (m.pos.x, m.pos.z)) :
    ∃ r c, m.call x y w h = some r ∧ r.pos = m.pos ∧ Norm1 r.dir.p ∧
      (∃ k > 0, c = mul k (m.fix.p - m.pos.p)) ∧ Geo.inner c c = m.far ^ 2 ∧ Norm1 (horizontal c) ∧ Geo.inner (horizontal c) c = 0 ∧
      Geo.inner (horizontal c) (0, 1, 0) = 0 ∧
      ∃ k > 0, ∃ u v : ℝ, u * refSide m.ref w h = x - w / 2 ∧ v * refSide m.ref w h = h / 2 - y ∧
        mul k r.dir.p = c + mul (u * Real.cos m.rotate - v * Real.sin m.rotate) (horizontal c) +
          mul (u * Real.sin m.rotate + v * Real.cos m.rotate) (0, 1, 0) := by
  have hw' : (0 : ℝ) < w := by exact_mod_cast hw
  have hh' : (0 : ℝ) < h := by exact_mod_cast hh
  set D := sub m.fix m.pos with hD
  have hD2 : 0 < D.x * D.x + D.z * D.z := by
    rcases eq_or_ne D.x 0 with hx | hx
    · have hz : D.z ≠ 0 := by
        intro hz
        apply hl
        simp only [hD, sub] at hx hz
        rw [Prod.mk.injEq]; exact ⟨by linarith, by linarith⟩
      have := mul_self_pos.2 hz
      nlinarith [mul_self_nonneg D.x]
    · have := mul_self_pos.2 hx
      nlinarith [mul_self_nonneg D.z]
  have hD0 : D ≠ ⟨0, 0, 0⟩ := by rintro e; rw [e] at hD2; norm_num at hD2
  have hlen := length_pos hD0
  set K := length D / m.far with hK
  have hK0 : 0 < K := div_pos hlen hf
  set c : Vec := ⟨D.x / K, D.y / K, D.z / K⟩ with hc
  have hres : resize D m.far = some c := by
    unfold resize; rw [if_neg hf.ne', normalizeImpl_eq hK0.ne']
  set L := Real.sqrt (c.x * c.x + c.z * c.z) with hL
  have hcc : 0 < c.x * c.x + c.z * c.z := by
    have : c.x * c.x + c.z * c.z = (D.x * D.x + D.z * D.z) / (K * K) := by simp only [hc]; field_simp
    rw [this]; exact div_pos hD2 (mul_pos hK0 hK0)
  have hL0 : 0 < L := Real.sqrt_pos.2 hcc
  have hLL : L * L = c.x * c.x + c.z * c.z := Real.mul_self_sqrt hcc.le
  have hview : ∃ u v : ℝ, u * refSide m.ref w h = x - w / 2 ∧ v * refSide m.ref w h = h / 2 - y ∧
      m.view x y w h = m.transform c u v := by
    unfold Camera.view
    rw [if_neg (by omega)]
    split
    · rename_i hcond
      have hs : refSide m.ref w h = w := by
        cases hr : m.ref <;> simp [hr] at hcond <;> simp [refSide] <;> omega
      refine ⟨(x : ℝ) / w - 0.5, -(((y : ℝ) / h - 0.5) * ((h : ℝ) / w)), ?_, ?_, ?_⟩
      · rw [hs]; field_simp; ring
      · rw [hs]; field_simp; ring
      · unfold Camera.referenceWidth; rw [← hD, hres]; rfl
    · rename_i hcond
      have hs : refSide m.ref w h = h := by
        cases hr : m.ref <;> simp [hr] at hcond <;> simp [refSide] <;> omega
      refine ⟨((x : ℝ) / w - 0.5) * ((w : ℝ) / h), -((y : ℝ) / h - 0.5), ?_, ?_, ?_⟩
      · rw [hs]; field_simp; ring
      · rw [hs]; field_simp; ring
      · unfold Camera.referenceHeight; rw [← hD, hres]; rfl
  obtain ⟨u, v, hu, hv, hview⟩ := hview
  set U := u * Real.cos m.rotate - v * Real.sin m.rotate with hU
  set V := u * Real.sin m.rotate + v * Real.cos m.rotate with hV
  set q : Vec := add c ⟨c.z * U / L, V, -c.x * U / L⟩ with hq
  have htr : m.transform c u v = some q := by
    unfold Camera.transform transform1; rw [← hL, if_neg hL0.ne']
  have hq0 : q ≠ ⟨0, 0, 0⟩ := by
    intro e
    have e1 := congrArg Vec.x e
    have e3 := congrArg Vec.z e
    simp only [hq, add] at e1 e3
    have : c.x * (c.x + c.z * U / L) + c.z * (c.z + -c.x * U / L) = 0 := by rw [e1, e3]; ring
    have h2 : c.x * (c.x + c.z * U / L) + c.z * (c.z + -c.x * U / L) = c.x * c.x + c.z * c.z := by field_simp; ring
    linarith
  have hql := length_pos hq0
  refine ⟨⟨m.pos, ⟨q.x / length q, q.y / length q, q.z / length q⟩⟩, c.p, ?_, rfl, ?_, ⟨1 / K, by positivity, ?_⟩, ?_, ?_, ?_, ?_,
    length q, hql, u, v, hu, hv, ?_⟩
  · unfold Camera.call; rw [hview, htr]; simp only [Option.bind_eq_bind, Option.bind_some]; rw [normalize_eq hq0]; rfl
  · have := length_mul_self q
    unfold lengthSq at this
    unfold Norm1 Geo.inner Vec.p
    simp only
    field_simp
    nlinarith
  · simp only [Vec.p, hc, mul, hD, sub, Prod.mk_sub_mk, Prod.mk.injEq]
    exact ⟨by ring, by ring, by ring⟩
  · have h1 := length_mul_self D
    unfold lengthSq at h1
    have h2 : m.far * K = length D := by rw [hK]; field_simp
    simp only [Geo.inner, Vec.p, hc]
    have : D.x / K * (D.x / K) + D.y / K * (D.y / K) + D.z / K * (D.z / K) = (D.x * D.x + D.y * D.y + D.z * D.z) / (K * K) := by field_simp
    rw [this, ← h1, ← h2]; field_simp
  · unfold Norm1 horizontal
    simp only [Geo.inner, mul, Vec.p]
    rw [← hL]
    field_simp
    nlinarith
  · simp only [horizontal, Geo.inner, mul, Vec.p]; ring
  · simp only [horizontal, Geo.inner, mul, Vec.p]; ring
  · have hx : length q * (q.x / length q) = q.x := by field_simp
    have hy : length q * (q.y / length q) = q.y := by field_simp
    have hz : length q * (q.z / length q) = q.z := by field_simp
    simp only [mul, Vec.p, hx, hy, hz, horizontal, Prod.mk_add_mk, ← hL, Prod.mk.injEq]
    simp only [hq, add]
    exact ⟨by field_simp; ring, by ring, by field_simp; ring⟩

/-- what is wanted of the vertical direction of the picture: it is perpendicular to the direction of the view -/
def CameraFull : Prop := ∀ (m : Camera) (x w h : ℕ) (a b : Vec), 0 < w → 0 < h → m.rotate = 0 → m.ref = .width →
  m.view x 0 w h = some a → m.view x h w h = some b → Geo.inner (a.p - b.p) (m.fix.p - m.pos.p) = 0

/-- A camera that looks up or down has a view plane that is not perpendicular to its direction; one that looks straight up or down
divides by zero. -/
theorem C139_camera_refuted : ¬ CameraFull ∧
    ∀ (m : Camera) (x y w h : ℕ), m.fix.x = m.pos.x → m.fix.z = m.pos.z → m.call x y w h = none := by
  constructor
  · intro hf
    have hlen : length ⟨3, 4, 0⟩ = 5 := by
      unfold length lengthSq
      rw [show (3 * 3 + 4 * 4 + 0 * 0 : ℝ) = 5 * 5 by norm_num]
      exact Real.sqrt_mul_self (by norm_num)
    have h3 : Real.sqrt (3 * 3) = 3 := Real.sqrt_mul_self (by norm_num)
    have hres : resize ⟨3, 4, 0⟩ 5 = some ⟨3, 4, 0⟩ := by
      unfold resize; rw [if_neg (by norm_num), hlen, normalizeImpl_eq (by norm_num)]; norm_num
    have := hf ⟨5, .width, ⟨0, 0, 0⟩, ⟨3, 4, 0⟩, 0⟩ 1 2 2 ⟨3, 4 + 1 / 2, 0⟩ ⟨3, 4 - 1 / 2, 0⟩ (by norm_num) (by norm_num) rfl rfl
      (by norm_num [Camera.view, Camera.referenceWidth, sub, hres, Camera.transform, transform1, h3, add])
      (by norm_num [Camera.view, Camera.referenceWidth, sub, hres, Camera.transform, transform1, h3, add])
    norm_num [Geo.inner, Vec.p] at this
  · intro m x y w h h1 h2
    have hv : m.view x y w h = none := by
      have key : ∀ u v, (do let c ← resize (sub m.fix m.pos) m.far; m.transform c u v) = none := by
        intro u v
        cases hr : resize (sub m.fix m.pos) m.far with
        | none => rfl
        | some c =>
          have hx : c.x = 0 := by
            unfold resize normalizeImpl at hr
            split at hr
            · exact absurd hr (by simp)
            · split at hr
              · exact absurd hr (by simp)
              · rw [Option.some.injEq] at hr; rw [← hr]; simp [sub, h1]
          have hz : c.z = 0 := by
            unfold resize normalizeImpl at hr
            split at hr
            · exact absurd hr (by simp)
            · split at hr
              · exact absurd hr (by simp)
              · rw [Option.some.injEq] at hr; rw [← hr]; simp [sub, h2]
          simp [Camera.transform, transform1, hx, hz]
      unfold Camera.view Camera.referenceWidth Camera.referenceHeight
      split
      · rfl
      · split
        · exact key _ _
        · exact key _ _
    unfold Camera.call
    rw [hv]
    rfl

/-- For a camera that looks horizontally, the view plane is perpendicular to its direction. -/
theorem C139_camera_partial (m : Camera) (x w h : ℕ) (hy : m.fix.y = m.pos.y) (a b : Vec)
    (ha : m.view x 0 w h = some a) (hb : m.view x h w h = some b) (hr : m.rotate = 0) : Geo.inner (a.p - b.p) (m.fix.p - m.pos.p) = 0 := by
  have key : ∀ y (a : Vec), m.view x y w h = some a → ∃ c u v, resize (sub m.fix m.pos) m.far = some c ∧ m.transform c u v = some a ∧
      (u = (x : ℝ) / w - 0.5 ∧ ((m.ref = .long_side ∧ w ≥ h) ∨ (m.ref = .short_side ∧ w < h) ∨ m.ref = .width) ∨
        u = ((x : ℝ) / w - 0.5) * ((w : ℝ) / h) ∧ ¬ ((m.ref = .long_side ∧ w ≥ h) ∨ (m.ref = .short_side ∧ w < h) ∨ m.ref = .width)) := by
    intro y a ha
    unfold Camera.view Camera.referenceWidth Camera.referenceHeight at ha
    split at ha
    · exact absurd ha (by simp)
    · split at ha
      · rename_i hc
        simp only [Option.bind_eq_bind, Option.bind_eq_some_iff] at ha
        obtain ⟨c, h1, h2⟩ := ha
        exact ⟨c, _, _, h1, h2, Or.inl ⟨rfl, hc⟩⟩
      · rename_i hc
        simp only [Option.bind_eq_bind, Option.bind_eq_some_iff] at ha
        obtain ⟨c, h1, h2⟩ := ha
        exact ⟨c, _, _, h1, h2, Or.inr ⟨rfl, hc⟩⟩
  obtain ⟨c, u, v, h1, h2, hu⟩ := key 0 a ha
  obtain ⟨c', u', v', h1', h2', hu'⟩ := key h b hb
  rw [h1, Option.some.injEq] at h1'
  subst h1'
  have huu : u = u' := by
    rcases hu with ⟨e, hc⟩ | ⟨e, hc⟩ <;> rcases hu' with ⟨e', hc'⟩ | ⟨e', hc'⟩
    · rw [e, e']
    · exact absurd hc hc'
    · exact absurd hc' hc
    · rw [e, e']
  subst huu
  unfold Camera.transform transform1 at h2 h2'
  split at h2
  · exact absurd h2 (by simp)
  · rename_i hl
    rw [if_neg hl, Option.some.injEq] at h2'
    rw [Option.some.injEq] at h2
    rw [← h2, ← h2']
    simp only [hr, Real.cos_zero, Real.sin_zero, mul_one, mul_zero, sub_zero, zero_add, add, Vec.p, Geo.inner, Prod.mk_sub_mk, hy]
    ring

/-- what is wanted of the pixels: the picture is symmetric about the direction of the view -/
def CenteredFull : Prop := ∀ (m : Camera) (x y w h : ℕ) (a b : Vec), x < w → y < h → m.far ≠ 0 →
  m.view x y w h = some a → m.view (w - 1 - x) (h - 1 - y) w h = some b →
  ∃ k, a.p + b.p = mul k (m.fix.p - m.pos.p)

/-- The rays go through the corners of the pixels, not through their centres: a picture of a single pixel does not show the fixation
point. -/
theorem C139_center_refuted : ¬ CenteredFull := by
  intro hf
  have hlen : length ⟨0, 0, 1⟩ = 1 := length_unit (by norm_num [Norm1, Geo.inner, Vec.p])
  have hres : resize ⟨0, 0, 1⟩ 1 = some ⟨0, 0, 1⟩ := by
    unfold resize; rw [if_neg (by norm_num), hlen, normalizeImpl_eq (by norm_num)]; norm_num
  have hv : Camera.view ⟨1, .width, ⟨0, 0, 0⟩, ⟨0, 0, 1⟩, 0⟩ 0 0 1 1 = some ⟨-1 / 2, 1 / 2, 1⟩ := by
    norm_num [Camera.view, Camera.referenceWidth, sub, hres, Camera.transform, transform1, add]
  obtain ⟨k, hk⟩ := hf ⟨1, .width, ⟨0, 0, 0⟩, ⟨0, 0, 1⟩, 0⟩ 0 0 1 1 _ _ (by norm_num) (by norm_num) (by norm_num) hv hv
  have := congrArg Prod.fst hk
  norm_num [Vec.p, mul] at this

/-- The colours at infinity are in `[0, 1]`. -/
theorem C139_gradation (d : Vec) (h : Norm1 d.p) : Within 1 (directionGradation d) := by
  unfold Norm1 Geo.inner Vec.p at h
  simp only at h
  have hx := mul_self_nonneg d.x
  have hy := mul_self_nonneg d.y
  have hz := mul_self_nonneg d.z
  have key : ∀ t : ℝ, t * t ≤ 1 → 0 ≤ 0.5 + t * 0.5 ∧ 0.5 + t * 0.5 ≤ 1 := by
    intro t ht
    have h1 : -1 ≤ t := by nlinarith
    have h2 : t ≤ 1 := by nlinarith
    constructor <;> norm_num <;> linarith
  exact ⟨key _ (by linarith), key _ (by linarith), key _ (by linarith)⟩

/-- Only rays of unit direction are traced: whatever succeeds and is bounded for those is rendered successfully and in bounds, at every
depth. -/
theorem C139_render (B : ℝ) (hB : 0 ≤ B) (s : Scene)
    (h : ∀ r : Ray, Norm1 r.dir.p → ∃ i c, s.objs r = some i ∧ s.lights i s.objs = some c ∧
      (i.does = true → Norm1 i.normal.p ∧ 0 ≤ i.mat.reflection ∧ 0 ≤ i.mat.alpha ∧ i.mat.reflection + i.mat.alpha ≤ 1 ∧ Within B c))
    (hinf : ∀ d : Vec, Norm1 d.p → Within B (s.inf d)) (depth : ℕ) (refr : ℝ) (r : Ray) (hrefr : 0 < refr) (hr : Norm1 r.dir.p) :
    ∃ c, s.render depth refr r = some c ∧ Within B c := by
  have hs : Sane s := by
    intro r hr i hi hd
    obtain ⟨i', c, h1, h2, h3⟩ := h r hr
    rw [hi, Option.some.injEq] at h1
    subst h1
    exact (h3 hd).1
  have ht := render_total s hs (fun r hr => by obtain ⟨i, c, h1, -⟩ := h r hr; rw [h1]; rfl)
    (fun r hr i hi => by
      obtain ⟨i', c, h1, h2, -⟩ := h r hr
      rw [hi, Option.some.injEq] at h1
      subst h1
      rw [h2]; rfl) depth refr r hrefr hr
  obtain ⟨c, hc⟩ := Option.isSome_iff_exists.1 ht
  refine ⟨c, hc, render_within hB s hs ?_ hinf depth refr r hrefr hr c hc⟩
  intro r hr i hi hd
  obtain ⟨i', c, h1, h2, h3⟩ := h r hr
  rw [hi, Option.some.injEq] at h1
  subst h1
  obtain ⟨_, a, b, e, f⟩ := h3 hd
  refine ⟨a, b, e, fun c' hc' => ?_⟩
  rw [h2, Option.some.injEq] at hc'
  rw [← hc']; exact f

/-- Whitted's equation at a surface that reflects and transmits: the light there, the ray in the direction of the mirror image, and the
refracted ray, weighted by the material. -/
theorem C139_whitted (s : Scene) (depth : ℕ) (refr : ℝ) (r : Ray) (i : Isect Mat) (c : Col) (hrefr : 0 < refr) (hr : Norm1 r.dir.p)
    (hi : s.objs r = some i) (hd : i.does = true) (hn : Norm1 i.normal.p) (hc : s.lights i s.objs = some c)
    (hρ : epsilon < i.mat.reflection) (hα : epsilon < i.mat.alpha) (hη : epsilon < i.mat.refraction)
    (eta : ℝ) (heta : eta = if i.inside then refr / i.mat.refraction else i.mat.refraction / refr) :
    ∃ m : Ray, makeDetachedRay i.point (reflect r.dir i.normal) = some m ∧
      (eta ^ 2 < Geo.inner (outer r.dir.p i.normal.p) (outer r.dir.p i.normal.p) →
        ∀ cm, s.render depth refr m = some cm →
          s.render (depth + 1) refr r = some ((c.mul (1 - i.mat.reflection - i.mat.alpha)).add (cm.mul (i.mat.reflection + i.mat.alpha)))) ∧
      (Geo.inner (outer r.dir.p i.normal.p) (outer r.dir.p i.normal.p) ≤ eta ^ 2 →
        ∃ t : Ray, makeDetachedRay i.point t.dir = some t ∧ Norm1 t.dir.p ∧ mul eta (outer t.dir.p i.normal.p) = outer r.dir.p i.normal.p ∧
          Geo.inner t.dir.p i.normal.p ≤ 0 ∧
          ∀ cm ct, s.render depth refr m = some cm → s.render depth (if i.inside then 1 else i.mat.refraction) t = some ct →
            s.render (depth + 1) refr r = some (((c.mul (1 - i.mat.reflection - i.mat.alpha)).add (cm.mul i.mat.reflection)).add (ct.mul i.mat.alpha))) := by
  have hpos : 0 < i.mat.refraction := lt_trans epsilon_pos hη
  have heta0 : 0 < eta := by
    rw [heta]; split
    · exact div_pos hrefr hpos
    · exact div_pos hpos hrefr
  have hwe : whittedEta i refr = some eta := by
    unfold whittedEta
    rw [heta]
    cases i.inside
    · simp [hrefr.ne']
    · simp
  obtain ⟨q, hq⟩ := detach_some i.point _ (reflect_unit hr hn)
  have hm : makeDetachedRay i.point (reflect r.dir i.normal) = some ⟨q, reflect r.dir i.normal⟩ := by
    unfold makeDetachedRay; rw [hq]; rfl
  have hmir : whittedMirror (some (s.render depth)) r i refr = s.render depth refr ⟨q, reflect r.dir i.normal⟩ := by
    unfold whittedMirror
    simp only
    rw [if_pos ⟨hd, hρ⟩, hq]
    rfl
  refine ⟨_, hm, ?_, ?_⟩
  · intro htot cm hcm
    have ht := C136_refract_total r.dir i.normal eta hr hn htot
    have htr : whittedTransmit (some (s.render depth)) r i refr = some (⟨0, 0, 0⟩, true) := by
      unfold whittedTransmit whittedTransmit1
      simp only
      rw [if_pos ⟨hd, hα, hη⟩, hwe]
      simp only [Option.bind_eq_bind, Option.bind_some, ht]
      rw [if_pos ((isZero_iff _).2 rfl)]
    simp only [Scene.render, Scene.shade, hi, hc, hmir, hcm, htr, Option.bind_eq_bind, Option.bind_some, Option.some.injEq]
    simp [whittedColor, hd, Col.adds, Col.add, Col.mul]
  · intro hle
    obtain ⟨d, hdr⟩ : ∃ d, refract r.dir i.normal eta = some d := by
      rcases refract_cases hr hn heta0 with h | ⟨d, h, -⟩
      · exact ⟨_, h⟩
      · exact ⟨_, h⟩
    obtain ⟨h1, h2, h3⟩ := (C136_refract r.dir i.normal eta hr hn heta0 hle d).1 hdr
    obtain ⟨q', hq'⟩ := detach_some i.point d h1
    refine ⟨⟨q', d⟩, by unfold makeDetachedRay; rw [hq']; rfl, h1, h2, h3, ?_⟩
    intro cm ct hcm hct
    have htr : whittedTransmit (some (s.render depth)) r i refr = some (ct, false) := by
      unfold whittedTransmit whittedTransmit1
      simp only
      rw [if_pos ⟨hd, hα, hη⟩, hwe]
      simp only [Option.bind_eq_bind, Option.bind_some, hdr, unit_not_zero h1, hq', Bool.false_eq_true, if_false]
      cases hin : i.inside
      · rw [hin] at hct
        simp only [Bool.false_eq_true, if_false] at hct ⊢
        rw [hct]; rfl
      · rw [hin] at hct
        simp only [if_true] at hct ⊢
        rw [hct]; rfl
    simp only [Scene.render, Scene.shade, hi, hc, hmir, hcm, htr, Option.bind_eq_bind, Option.bind_some, Option.some.injEq]
    simp [whittedColor, hd, Col.adds, Col.add, Col.mul]

/-- A surface that neither reflects nor transmits shows the light there, and beyond the maximal depth nothing is added to it. -/
theorem C139_diffuse (s : Scene) (depth : ℕ) (refr : ℝ) (r : Ray) (i : Isect Mat) (c : Col)
    (hi : s.objs r = some i) (hd : i.does = true) (hc : s.lights i s.objs = some c)
    (h : depth = 0 ∨ i.mat.reflection ≤ epsilon ∧ (i.mat.alpha ≤ epsilon ∨ i.mat.refraction ≤ epsilon)) :
    s.render depth refr r = some (c.mul (1 - i.mat.reflection - i.mat.alpha)) := by
  cases depth with
  | zero =>
    simp only [Scene.render, Scene.shade, hi, hc, whittedMirror, whittedTransmit, Option.bind_eq_bind, Option.bind_some, Option.some.injEq]
    simp [whittedColor, hd, Col.adds, Col.add, Col.mul]
  | succ d =>
    obtain ⟨h1, h2⟩ := h.resolve_left (by omega)
    have hm : whittedMirror (some (s.render d)) r i refr = some ⟨0, 0, 0⟩ := by
      unfold whittedMirror; simp only; rw [if_neg (fun hc => absurd hc.2 (not_lt.2 h1))]
    have ht : whittedTransmit (some (s.render d)) r i refr = some (⟨0, 0, 0⟩, false) := by
      unfold whittedTransmit; simp only
      rw [if_neg]
      rintro ⟨-, c1, c2⟩
      rcases h2 with h2 | h2
      · exact absurd c1 (not_lt.2 h2)
      · exact absurd c2 (not_lt.2 h2)
    simp only [Scene.render, Scene.shade, hi, hc, hm, ht, Option.bind_eq_bind, Option.bind_some, Option.some.injEq]
    simp [whittedColor, hd, Col.adds, Col.add, Col.mul]

/-- what is wanted of total reflection: the whole transmitted part goes to the reflected ray -/
def TotalFull : Prop := ∀ (s : Scene) (depth : ℕ) (refr : ℝ) (r m : Ray) (i : Isect Mat) (c cm : Col),
  s.objs r = some i → i.does = true → s.lights i s.objs = some c → epsilon < i.mat.alpha → epsilon < i.mat.refraction → 0 ≤ i.mat.reflection →
  refract r.dir i.normal (if i.inside then refr / i.mat.refraction else i.mat.refraction / refr) = some ⟨0, 0, 0⟩ → 0 < refr →
  makeDetachedRay i.point (reflect r.dir i.normal) = some m → s.render depth refr m = some cm →
  s.render (depth + 1) refr r = some ((c.mul (1 - i.mat.reflection - i.mat.alpha)).add (cm.mul (i.mat.reflection + i.mat.alpha)))

/-- Without reflection, total reflection is black: the reflected ray is not traced. -/
theorem C139_total_refuted : ¬ TotalFull := by
  intro hf
  have he := epsilon_pos
  have he1 : epsilon < 1 / 2 := by unfold epsilon; norm_num
  set mt : Mat := ⟨⟨1, 1, 1⟩, 0, 1, 1⟩ with hmt
  set hit : Isect Mat := ⟨true, 1, ⟨0, 0, 0⟩, ⟨0, 1, 0⟩, mt, false⟩ with hhit
  set miss : Isect Mat := ⟨false, 1, ⟨0, 0, 0⟩, ⟨0, 1, 0⟩, mt, false⟩ with hmiss
  set s : Scene := ⟨fun r => if r.dir.y < 0 then some hit else some miss, fun _ _ => some ⟨1, 1, 1⟩, fun _ => ⟨1, 1, 1⟩⟩ with hs
  set r : Ray := ⟨⟨0, 0, 0⟩, ⟨4 / 5, -3 / 5, 0⟩⟩ with hr
  have hrd : Norm1 r.dir.p := by norm_num [Norm1, Geo.inner, Vec.p, hr]
  have hnn : Norm1 hit.normal.p := by norm_num [Norm1, Geo.inner, Vec.p, hhit]
  obtain ⟨m, hm, hmd⟩ := detached_ray hit.point _ (reflect_unit hrd hnn)
  have hmy : ¬ m.dir.y < 0 := by rw [hmd]; norm_num [reflect, sub, scale, dot, hr, hhit]
  have hrefr : refract r.dir hit.normal (1 / 2) = some ⟨0, 0, 0⟩ := by
    refine C136_refract_total _ _ _ hrd hnn ?_
    norm_num [Geo.inner, outer, Vec.p, hr, hhit]
  have hobj : s.objs r = some hit := by simp only [hs, hr]; norm_num
  have hobjm : s.objs m = some miss := by simp only [hs]; rw [if_neg hmy]
  have h0 : s.render 0 2 m = some ⟨1, 1, 1⟩ := by
    simp only [Scene.render, Scene.shade, hobjm, Option.bind_eq_bind, Option.bind_some, whittedMirror, whittedTransmit]
    simp [whittedColor, hmiss, hs]
  have h1 := hf s 0 2 r m hit ⟨1, 1, 1⟩ ⟨1, 1, 1⟩ hobj rfl rfl (by simp only [hhit, hmt]; linarith) (by simp only [hhit, hmt]; linarith)
    (by simp only [hhit, hmt]; norm_num) (by simpa [hhit, hmt] using hrefr) (by norm_num) hm h0
  have hre : s.render (0 + 1) 2 r = s.shade (some (s.render 0)) 2 r := rfl
  have hmir : whittedMirror (some (s.render 0)) r hit 2 = some ⟨0, 0, 0⟩ := by
    unfold whittedMirror; simp only
    rw [if_neg]
    rintro ⟨-, hc⟩
    simp only [hhit, hmt] at hc; linarith
  have htr : whittedTransmit (some (s.render 0)) r hit 2 = some (⟨0, 0, 0⟩, true) := by
    have hwe : whittedEta hit 2 = some (1 / 2) := by simp [whittedEta, hhit, hmt]
    unfold whittedTransmit whittedTransmit1
    simp only
    rw [if_pos ⟨rfl, by simp only [hhit, hmt]; linarith, by simp only [hhit, hmt]; linarith⟩, hwe]
    simp only [Option.bind_eq_bind, Option.bind_some, hrefr]
    rw [if_pos ((isZero_iff _).2 rfl)]
  have hlights : s.lights hit s.objs = some ⟨1, 1, 1⟩ := rfl
  rw [hre] at h1
  simp only [Scene.shade, hobj, hlights, hmir, htr, Option.bind_eq_bind, Option.bind_some, Option.some.injEq] at h1
  have := congrArg Col.r h1
  norm_num [whittedColor, hhit, hmt, Col.adds, Col.add, Col.mul] at this

/-- what is wanted at the exit from a material with the index `n` into the vacuum: refraction with the ratio `1 / n` -/
def ExitFull : Prop := ∀ (f : ℝ → Ray → Option Col) (r t : Ray) (i : Isect Mat) (c : Col), Norm1 r.dir.p → Norm1 i.normal.p →
  i.does = true → i.inside = true → epsilon < i.mat.alpha → epsilon < i.mat.refraction →
  refract r.dir i.normal (1 / i.mat.refraction) = some t.dir → t.dir ≠ ⟨0, 0, 0⟩ → makeDetachedRay i.point t.dir = some t → f 1 t = some c →
  whittedTransmit (some f) r i i.mat.refraction = some (c, false)

/-- A ray that has entered a material carries its index, and leaves it straight on: the indices before and after are taken to be equal. -/
theorem C139_exit (f : ℝ → Ray → Option Col) (r : Ray) (i : Isect Mat) (hr : Norm1 r.dir.p) (hn : Norm1 i.normal.p) (hd : i.does = true)
    (hin : i.inside = true) (hα : epsilon < i.mat.alpha) (hη : epsilon < i.mat.refraction) (hneg : Geo.inner r.dir.p i.normal.p ≤ 0) :
    ∃ t, makeDetachedRay i.point r.dir = some t ∧ whittedTransmit (some f) r i i.mat.refraction = (f 1 t).map fun c => (c, false) := by
  have hpos : 0 < i.mat.refraction := lt_trans epsilon_pos hη
  have href : refract r.dir i.normal 1 = some r.dir := by
    refine (C136_refract r.dir i.normal 1 hr hn one_pos ?_ r.dir).2 ⟨hr, by simp [mul], hneg⟩
    rw [outer_self _ _ hn, hr]
    nlinarith [mul_self_nonneg (Geo.inner r.dir.p i.normal.p)]
  obtain ⟨q, hq⟩ := detach_some i.point _ hr
  refine ⟨⟨q, r.dir⟩, by unfold makeDetachedRay; rw [hq]; rfl, ?_⟩
  have hwe : whittedEta i i.mat.refraction = some 1 := by simp [whittedEta, hin, hpos.ne']
  unfold whittedTransmit whittedTransmit1
  simp only
  rw [if_pos ⟨hd, hα, hη⟩, hwe]
  simp only [Option.bind_eq_bind, Option.bind_some, href, unit_not_zero hr, hq, Bool.false_eq_true, if_false, hin, if_true]
  cases f 1 ⟨q, r.dir⟩ <;> rfl

/-- So Snell's law does not hold at the exit. -/
theorem C139_exit_refuted : ¬ ExitFull := by
  intro hf
  have he1 : epsilon < 1 / 2 := by unfold epsilon; norm_num
  set i : Isect Mat := ⟨true, 1, ⟨0, 0, 0⟩, ⟨0, 1, 0⟩, ⟨⟨1, 1, 1⟩, 0, 1, 4 / 3⟩, true⟩ with hi
  set r : Ray := ⟨⟨0, 0, 0⟩, ⟨3 / 5, -4 / 5, 0⟩⟩ with hr
  have hrd : Norm1 r.dir.p := by norm_num [Norm1, Geo.inner, Vec.p, hr]
  have hnn : Norm1 i.normal.p := by norm_num [Norm1, Geo.inner, Vec.p, hi]
  have hd : Norm1 (⟨4 / 5, -3 / 5, 0⟩ : Vec).p := by norm_num [Norm1, Geo.inner, Vec.p]
  obtain ⟨t, ht, htd⟩ := detached_ray i.point _ hd
  have href : refract r.dir i.normal (1 / i.mat.refraction) = some t.dir := by
    rw [htd]
    refine (C136_refract r.dir i.normal _ hrd hnn (by norm_num [hi]) ?_ _).2 ⟨hd, ?_, ?_⟩
    · norm_num [Geo.inner, outer, Vec.p, hr, hi]
    · norm_num [mul, outer, Vec.p, hr, hi]
    · norm_num [Geo.inner, Vec.p, hi]
  have h1 := hf (fun _ q => some ⟨q.dir.x, 0, 0⟩) r t i ⟨4 / 5, 0, 0⟩ hrd hnn rfl rfl (by simp only [hi]; linarith) (by simp only [hi]; linarith) href
    (by rw [htd]; intro h; have := congrArg Vec.x h; norm_num at this) (by rw [htd]; exact ht) (by rw [htd])
  obtain ⟨t', ht', h2⟩ := C139_exit (fun _ q => some ⟨q.dir.x, 0, 0⟩) r i hrd hnn rfl rfl (by simp only [hi]; linarith) (by simp only [hi]; linarith)
    (by norm_num [Geo.inner, Vec.p, hi, hr])
  obtain ⟨t'', ht'', e⟩ := detached_ray i.point _ hrd
  rw [ht', Option.some.injEq] at ht''
  subst ht''
  rw [h1] at h2
  simp only [Option.map_some, Option.some.injEq, Prod.mk.injEq, and_true, e] at h2
  have := congrArg Col.r h2
  norm_num [hr] at this

/-- what is wanted for a ray that meets nothing: the colour at infinity -/
def MissFull : Prop := ∀ (s : Scene) (depth : ℕ) (refr : ℝ) (r : Ray) (i : Isect Mat),
  s.objs r = some i → i.does = false → s.render depth refr r = some (s.inf r.dir)

/-- The lights are calculated even then, at the point `(0, 0, 0)` of the failed intersection; a point light there divides by zero. -/
theorem C139_miss_refuted : ¬ MissFull := by
  intro hf
  have := hf ⟨fun _ => some ⟨false, -1, ⟨0, 0, 0⟩, ⟨1, 1, 1⟩, ⟨⟨0, 0, 0⟩, 0, 0, 1⟩, false⟩, pointLight ⟨0, 0, 0⟩ ⟨1, 1, 1⟩, uniformColor ⟨0, 0, 0⟩⟩ 0 1
    ⟨⟨0, 0, 0⟩, ⟨1, 0, 0⟩⟩ _ rfl rfl
  have hz : Dark.normalize ⟨0, 0, 0⟩ = none := C136_normalize_zero _ rfl
  simp [Scene.render, Scene.shade, pointLight, sub, hz] at this

/-- If the lights can be calculated, it is the colour at infinity. -/
theorem C139_miss_partial (s : Scene) (depth : ℕ) (refr : ℝ) (r : Ray) (i : Isect Mat) (hi : s.objs r = some i) (hd : i.does = false)
    (hl : (s.lights i s.objs).isSome) : s.render depth refr r = some (s.inf r.dir) := by
  obtain ⟨c, hc⟩ := Option.isSome_iff_exists.1 hl
  cases depth <;> simp [Scene.render, Scene.shade, hi, hc, whittedMirror, whittedTransmit, whittedColor, hd]

/-- The pixel in column `i` of line `j` is the colour of the ray for `(x + i, y + j)`. -/
theorem C139_generate (mx : ℕ) (tr : ℕ → ℕ → Option Col) (x y cols rows : ℕ) (p : List (List (ℕ × ℕ × ℕ))) (h : generate mx tr x y cols rows = some p) :
    p.length = rows ∧ ∀ j, ∀ hj : j < p.length, p[j].length = cols ∧
      ∀ i, ∀ hi : i < p[j].length, ∃ c, tr (x + i) (y + j) = some c ∧ p[j][i] = toRgb mx c := by
  have key : ∀ {α : Type} (f : ℕ → Option α) (n : ℕ) (l : List α), (List.range n).mapM f = some l →
      l.length = n ∧ ∀ i, ∀ hi : i < l.length, f i = some l[i] := by
    intro α f n
    induction n with
    | zero => intro l h; simp at h; subst h; simp
    | succ n ih =>
      intro l h
      rw [List.range_succ, List.mapM_append] at h
      simp only [Option.bind_eq_bind, Option.bind_eq_some_iff, Option.pure_def, Option.some.injEq, List.mapM_cons, List.mapM_nil] at h
      obtain ⟨l1, h1, l2, ⟨a, ha, _, rfl, rfl⟩, rfl⟩ := h
      obtain ⟨hl, hg⟩ := ih l1 h1
      refine ⟨by simp [hl], ?_⟩
      intro i hi
      by_cases hin : i < l1.length
      · rw [List.getElem_append_left hin]; exact hg i hin
      · have : i = n := by simp at hi; omega
        subst this
        rw [List.getElem_append_right (by omega)]
        simp [hl, ha]
  obtain ⟨h1, h2⟩ := key _ _ _ h
  refine ⟨h1, fun j hj => ?_⟩
  obtain ⟨h3, h4⟩ := key _ _ _ (h2 j hj)
  refine ⟨h3, fun i hi => ?_⟩
  have := h4 i hi
  rw [Option.map_eq_some_iff] at this
  obtain ⟨c, hc, e⟩ := this
  exact ⟨c, hc, e.symm⟩

/-- a sphere or a plane whose materials are given everywhere and do not reflect and transmit more than there is -/
inductive Solid
  | sphere (s : Sphere Mat)
  | plane (p : Plane Mat)

/-- the object and its material -/
noncomputable def Solid.obj : Solid → Obj Mat
  | .sphere s => s.intersect
  | .plane p => p.intersect

def Solid.mat : Solid → Image Mat
  | .sphere s => s.mat
  | .plane p => p.mat

/-- Pictures of spheres and planes in ambient and parallel light never fail: every pixel of a camera that does not look straight up or
down has a colour. -/
theorem C139_scene (solids : List Solid) (hne : solids ≠ []) (hmat : ∀ o ∈ solids, ∀ u v, (o.mat u v).isSome)
    (ls : List Light) (hls : ls ≠ []) (hl : ∀ l ∈ ls, (∃ c, l = ambientLight c) ∨ ∃ d c, d ≠ ⟨0, 0, 0⟩ ∧ l = parallelLight d c) (inf : Vec → Col)
    (m : Camera) (x y w h depth : ℕ) (hw : 0 < w) (hh : 0 < h) (hf : 0 < m.far) (hfix : (m.fix.x, m.fix.z) ≠ (m.pos.x, m.pos.z)) :
    (Scene.trace ⟨intersectList (solids.map Solid.obj), lightList ls, inf⟩ m x y w h depth).isSome := by
  have hobj : ∀ r : Ray, Norm1 r.dir.p → ∃ rs : List (Isect Mat), (solids.map Solid.obj).map (fun f => f r) = rs.map some ∧
      ∀ i ∈ rs, i.does = true → Norm1 i.normal.p := by
    intro r hr
    have h1 : ∀ o ∈ solids, ∃ i, o.obj r = some i ∧ (i.does = true → Norm1 i.normal.p) := by
      intro o ho
      cases o with
      | sphere s =>
        obtain ⟨i, hi⟩ := Option.isSome_iff_exists.1 (C137_sphere_total s r hr (hmat _ ho))
        exact ⟨i, hi, fun hd => (C137_sphere_point s r hr i hi hd).2.2.2.2.1⟩
      | plane p =>
        obtain ⟨i, hi⟩ := Option.isSome_iff_exists.1 (C137_plane_total p r (hmat _ ho))
        refine ⟨i, hi, fun _ => ?_⟩
        unfold Plane.intersect Plane.intersect1 Plane.intersect2 Plane.intersect3 Plane.intersect4 Plane.intersect5 at hi
        simp only [Option.bind_eq_bind, Option.bind_eq_some_iff, Option.some.injEq] at hi
        obtain ⟨mt, -, rfl⟩ := hi
        simp only [Norm1, Geo.inner, Vec.p]
        split <;> [skip; split] <;> split <;> norm_num
    clear hne hmat
    induction solids with
    | nil => exact ⟨[], rfl, by simp⟩
    | cons o os ih =>
      obtain ⟨rs, e1, e2⟩ := ih (fun o ho => h1 o (List.mem_cons_of_mem _ ho))
      obtain ⟨i, hi, hn⟩ := h1 o (by simp)
      refine ⟨i :: rs, by simp only [List.map_cons, hi, e1], ?_⟩
      intro j hj
      rcases List.mem_cons.1 hj with rfl | hj
      · exact hn
      · exact e2 j hj
  have hlist : ∀ r : Ray, Norm1 r.dir.p → ∃ i, intersectList (solids.map Solid.obj) r = some i ∧ (i.does = true → Norm1 i.normal.p) := by
    intro r hr
    obtain ⟨rs, e1, e2⟩ := hobj r hr
    obtain ⟨k, hk, e, -⟩ := C137_list (solids.map Solid.obj) r rs (by simpa using hne) e1
    exact ⟨_, e, e2 _ (List.getElem_mem hk)⟩
  have hlight : ∀ i, (lightList ls i (intersectList (solids.map Solid.obj))).isSome := by
    intro i
    have h1 : ∀ l ∈ ls, ∃ c, l i (intersectList (solids.map Solid.obj)) = some c := by
      intro l hlm
      rcases hl l hlm with ⟨c, rfl⟩ | ⟨d, c, hd, rfl⟩
      · exact ⟨_, rfl⟩
      · unfold parallelLight
        obtain ⟨u, _, hu, hu1, -⟩ := C136_normalize d (fun e => hd (Vec.p_inj e))
        obtain ⟨r, hr, hrd⟩ := detached_ray i.point u hu1
        obtain ⟨j, hj, -⟩ := hlist r (by rw [hrd]; exact hu1)
        simp only [hu, hr, hj, Option.bind_eq_bind, Option.bind_some]
        exact ⟨_, rfl⟩
    have h2 : ∃ cs : List Col, ls.map (fun l => l i (intersectList (solids.map Solid.obj))) = cs.map some := by
      clear hls hl
      induction ls with
      | nil => exact ⟨[], rfl⟩
      | cons l ls ih =>
        obtain ⟨cs, e⟩ := ih (fun l hl => h1 l (List.mem_cons_of_mem _ hl))
        obtain ⟨c, hc⟩ := h1 l (by simp)
        exact ⟨c :: cs, by simp only [List.map_cons, hc, e]⟩
    obtain ⟨cs, hcs⟩ := h2
    rw [(C138_light_list ls i _ cs hcs).1 hls]
    rfl
  obtain ⟨r, c, hcall, -, hrd, -⟩ := C139_camera m x y w h hw hh hf hfix
  unfold Scene.trace
  rw [hcall]
  simp only [Option.bind_eq_bind, Option.bind_some]
  refine render_total _ ?_ ?_ ?_ depth 1 r one_pos hrd
  · intro r hr i hi hd
    obtain ⟨j, hj, hn⟩ := hlist r hr
    simp only at hi
    rw [hi, Option.some.injEq] at hj
    subst hj
    exact hn hd
  · intro r hr
    obtain ⟨j, hj, -⟩ := hlist r hr
    simp only [hj, Option.isSome_some]
  · intro r hr i _
    exact hlight i

/-- non-vacuity: the middle of the picture is the fixation point -/
example : Camera.call ⟨1, .long_side, ⟨0, 0, -1⟩, ⟨0, 0, 0⟩, 0⟩ 2 1 4 2 = some ⟨⟨0, 0, -1⟩, ⟨0, 0, 1⟩⟩ := by
  have hlen : length ⟨0, 0, 1⟩ = 1 := length_unit (by norm_num [Norm1, Geo.inner, Vec.p])
  have hres : resize ⟨0, 0, 1⟩ 1 = some ⟨0, 0, 1⟩ := by
    unfold resize; rw [if_neg (by norm_num), hlen, normalizeImpl_eq (by norm_num)]; norm_num
  have hnor : Dark.normalize ⟨0, 0, 1⟩ = some ⟨0, 0, 1⟩ := by
    unfold Dark.normalize; rw [hlen, normalizeImpl_eq (by norm_num)]; norm_num
  norm_num [Camera.call, Camera.view, Camera.referenceWidth, sub, hres, Camera.transform, transform1, add, hnor]

/-- non-vacuity: a floor that is a mirror reflects the sky -/
example : ∃ s : Scene, s.render 1 1 ⟨⟨0, 1, 0⟩, ⟨0, -1, 0⟩⟩ = some ⟨3 / 4, 3 / 4, 3 / 4⟩ ∧ s.render 0 1 ⟨⟨0, 1, 0⟩, ⟨0, -1, 0⟩⟩ = some ⟨1 / 4, 1 / 4, 1 / 4⟩ := by
  have he1 : epsilon < 1 / 2 := by unfold epsilon; norm_num
  have he0 := epsilon_pos
  set i : Isect Mat := ⟨true, 1, ⟨0, 0, 0⟩, ⟨0, 1, 0⟩, ⟨⟨1, 1, 1⟩, 1 / 2, 0, 1⟩, false⟩ with hi
  set n : Isect Mat := ⟨false, -1, ⟨0, 0, 0⟩, ⟨0, 1, 0⟩, ⟨⟨1, 1, 1⟩, 1 / 2, 0, 1⟩, false⟩ with hn
  obtain ⟨q, hq⟩ := detach_some ⟨0, 0, 0⟩ ⟨0, 1, 0⟩ (by norm_num [Norm1, Geo.inner, Vec.p])
  have hre : reflect ⟨0, -1, 0⟩ ⟨0, 1, 0⟩ = ⟨0, 1, 0⟩ := by norm_num [reflect, sub, scale, dot]
  refine ⟨⟨fun r => if r.dir.y < 0 then some i else some n, ambientLight ⟨1 / 2, 1 / 2, 1 / 2⟩, uniformColor ⟨1, 1, 1⟩⟩, ?_, ?_⟩
  · have hlt : ¬ (1 : ℝ) / 2 ≤ epsilon := by linarith
    have h0 : ¬ epsilon < 0 := by linarith
    norm_num [Scene.render, Scene.shade, whittedMirror, whittedTransmit, hi, hn, ambientLight, Col.filter, whittedColor, hre, hq, he1, h0,
      Col.adds, Col.add, Col.mul, uniformColor]
  · norm_num [Scene.render, Scene.shade, whittedMirror, whittedTransmit, hi, ambientLight, Col.filter, whittedColor,
      Col.adds, Col.add, Col.mul]

/-- non-vacuity: a picture of 2 by 1 pixels, starting at line 1 -/
example : generate 255 (fun x y => some ⟨x, y, 0⟩) 0 1 2 1 = some [[(0, 255, 0), (255, 255, 0)]] := by
  norm_num [generate, generateLine, List.range_succ, toRgb, toUnit]

end Sprout
