import Verif.Model.DarkRender
import Verif.Props.C138

/-!
# Lemmas for C139
-/

namespace Sprout.Dark
open Geo

/-- a colour with components between 0 and `B` -/
def Within (B : ℝ) (c : Col) : Prop := (0 ≤ c.r ∧ c.r ≤ B) ∧ (0 ≤ c.g ∧ c.g ≤ B) ∧ (0 ≤ c.b ∧ c.b ≤ B)

theorem within_black {B : ℝ} (hB : 0 ≤ B) : Within B ⟨0, 0, 0⟩ := ⟨⟨le_refl _, hB⟩, ⟨le_refl _, hB⟩, ⟨le_refl _, hB⟩⟩

theorem reflect_unit {d n : Vec} (hd : Norm1 d.p) (hn : Norm1 n.p) : Norm1 (reflect d n).p := by
  have := (C136_reflect d n hn).2.2.1
  unfold Norm1 at *
  rw [this, hd]

theorem refract_cases {d n : Vec} {eta : ℝ} (hd : Norm1 d.p) (hn : Norm1 n.p) (he : 0 < eta) :
    refract d n eta = some ⟨0, 0, 0⟩ ∨ ∃ r, refract d n eta = some r ∧ Norm1 r.p := by
  by_cases h : eta ^ 2 < Geo.inner (outer d.p n.p) (outer d.p n.p)
  · exact Or.inl (C136_refract_total d n eta hd hn h)
  · right
    have h' := not_lt.1 h
    have : ∃ r, refract d n eta = some r := by
      rw [outer_self _ _ hn, hd] at h'
      unfold refract refractImpl refractImpl1
      rw [if_neg, if_neg he.ne']
      · exact ⟨_, rfl⟩
      · rw [dot_eq]; nlinarith
    obtain ⟨r, hr⟩ := this
    exact ⟨r, hr, ((C136_refract d n eta hd hn he h' r).1 hr).1⟩

theorem isZero_iff (v : Vec) : isZero v = true ↔ v = ⟨0, 0, 0⟩ := by
  unfold isZero
  constructor
  · intro h
    simp only [Bool.and_eq_true, beq_iff_eq] at h
    exact Vec.ext h.1.1 h.1.2 h.2
  · rintro rfl; simp

theorem unit_not_zero {v : Vec} (h : Norm1 v.p) : isZero v = false := by
  rw [← Bool.not_eq_true, isZero_iff]
  rintro rfl
  unfold Norm1 Geo.inner Vec.p at h
  norm_num at h

theorem detach_some (p d : Vec) (hd : Norm1 d.p) : ∃ q, detachPosition p d = some q := by
  obtain ⟨r, hr, -⟩ := detached_ray p d hd
  unfold makeDetachedRay at hr
  cases h : detachPosition p d with
  | none => rw [h] at hr; exact absurd hr (by simp)
  | some q => exact ⟨q, rfl⟩

/-- what the objects of a scene do with rays of unit direction -/
def Sane (s : Scene) : Prop := ∀ r : Ray, Norm1 r.dir.p → ∀ i, s.objs r = some i → i.does = true → Norm1 i.normal.p

/-- the possible cases of the refracted ray -/
theorem transmit_cases {s : Scene} (hs : Sane s) {f : ℝ → Ray → Option Col} {r : Ray} (hr : Norm1 r.dir.p) {i : Isect Mat}
    (hi : s.objs r = some i) {refr : ℝ} (hrefr : 0 < refr) :
    whittedTransmit (some f) r i refr = some (⟨0, 0, 0⟩, false) ∨
      (i.does = true ∧ i.mat.alpha > epsilon ∧ whittedTransmit (some f) r i refr = some (⟨0, 0, 0⟩, true)) ∨
      (i.does = true ∧ i.mat.alpha > epsilon ∧ ∃ n' > 0, ∃ q : Ray, Norm1 q.dir.p ∧ whittedTransmit (some f) r i refr = (f n' q).map fun c => (c, false)) := by
  unfold whittedTransmit
  by_cases hc : i.does = true ∧ i.mat.alpha > epsilon ∧ i.mat.refraction > epsilon
  · simp only [hc, and_self, if_true, gt_iff_lt]
    right
    have hn := hs r hr i hi hc.1
    have hpos : 0 < i.mat.refraction := lt_trans epsilon_pos hc.2.2
    have : ∃ eta > 0, whittedEta i refr = some eta := by
      unfold whittedEta
      cases i.inside
      · exact ⟨_, div_pos hpos hrefr, by simp [hrefr.ne']⟩
      · exact ⟨_, div_pos hrefr hpos, by simp⟩
    obtain ⟨eta, he, hee⟩ := this
    rw [hee]
    simp only [Option.bind_eq_bind, Option.bind_some, true_and]
    rcases refract_cases hr hn he with h0 | ⟨d, h0, hd⟩
    · left
      rw [h0]
      simp only [Option.bind_some, whittedTransmit1]
      rw [if_pos ((isZero_iff _).2 rfl)]
    · right
      rw [h0]
      simp only [Option.bind_some, whittedTransmit1, unit_not_zero hd, Bool.false_eq_true, if_false]
      obtain ⟨q, hq⟩ := detach_some i.point d hd
      cases hin : i.inside
      · refine ⟨i.mat.refraction, hpos, ⟨q, d⟩, hd, ?_⟩
        simp only [hq, Bool.false_eq_true, if_false, Option.bind_eq_bind, Option.bind_some]
        cases f i.mat.refraction ⟨q, d⟩ <;> rfl
      · refine ⟨1, one_pos, ⟨q, d⟩, hd, ?_⟩
        simp only [hq, if_true, Option.bind_eq_bind, Option.bind_some]
        cases f 1 ⟨q, d⟩ <;> rfl
  · left
    simp only
    rw [if_neg hc]

theorem mirror_cases {s : Scene} (hs : Sane s) {f : ℝ → Ray → Option Col} {r : Ray} (hr : Norm1 r.dir.p) {i : Isect Mat}
    (hi : s.objs r = some i) {refr : ℝ} :
    whittedMirror (some f) r i refr = some ⟨0, 0, 0⟩ ∨
      (i.does = true ∧ ∃ q : Ray, Norm1 q.dir.p ∧ whittedMirror (some f) r i refr = f refr q) := by
  unfold whittedMirror
  by_cases hc : i.does = true ∧ i.mat.reflection > epsilon
  · right
    have hn := hs r hr i hi hc.1
    have hd := reflect_unit hr hn
    obtain ⟨q, hq⟩ := detach_some i.point _ hd
    refine ⟨hc.1, ⟨q, reflect r.dir i.normal⟩, hd, ?_⟩
    simp only
    rw [if_pos hc, hq]
    rfl
  · left
    simp only
    rw [if_neg hc]

/-- rendering succeeds if hitting and lighting succeed -/
theorem render_total (s : Scene) (hs : Sane s) (h1 : ∀ r : Ray, Norm1 r.dir.p → (s.objs r).isSome)
    (h2 : ∀ r : Ray, Norm1 r.dir.p → ∀ i, s.objs r = some i → (s.lights i s.objs).isSome) :
    ∀ (d : ℕ) (refr : ℝ) (r : Ray), 0 < refr → Norm1 r.dir.p → (s.render d refr r).isSome := by
  intro d
  induction d with
  | zero =>
    intro refr r _ hr
    obtain ⟨i, hi⟩ := Option.isSome_iff_exists.1 (h1 r hr)
    obtain ⟨c, hc⟩ := Option.isSome_iff_exists.1 (h2 r hr i hi)
    simp [Scene.render, Scene.shade, hi, hc, whittedMirror, whittedTransmit]
  | succ d ih =>
    intro refr r hrefr hr
    obtain ⟨i, hi⟩ := Option.isSome_iff_exists.1 (h1 r hr)
    obtain ⟨c, hc⟩ := Option.isSome_iff_exists.1 (h2 r hr i hi)
    have hm : ∃ m, whittedMirror (some (s.render d)) r i refr = some m := by
      rcases mirror_cases hs (f := s.render d) hr hi (refr := refr) with h | ⟨-, q, hq, h⟩
      · exact ⟨_, h⟩
      · rw [h]; exact Option.isSome_iff_exists.1 (ih refr q hrefr hq)
    have ht : ∃ t, whittedTransmit (some (s.render d)) r i refr = some t := by
      rcases transmit_cases hs (f := s.render d) hr hi hrefr with h | ⟨-, -, h⟩ | ⟨-, -, n', hn', q, hq, h⟩
      · exact ⟨_, h⟩
      · exact ⟨_, h⟩
      · obtain ⟨x, hx⟩ := Option.isSome_iff_exists.1 (ih n' q hn' hq)
        rw [h, hx]; exact ⟨_, rfl⟩
    obtain ⟨m, hm⟩ := hm
    obtain ⟨t, ht⟩ := ht
    simp [Scene.render, Scene.shade, hi, hc, hm, ht]

theorem mix_within {B x y z a b : ℝ} (ha : 0 ≤ a) (hb : 0 ≤ b) (hab : a + b ≤ 1) (hx : 0 ≤ x ∧ x ≤ B) (hy : 0 ≤ y ∧ y ≤ B) (hz : 0 ≤ z ∧ z ≤ B) :
    0 ≤ x * (1 - a - b) + y * a + z * b ∧ x * (1 - a - b) + y * a + z * b ≤ B := by
  have hc : 0 ≤ 1 - a - b := by linarith
  constructor
  · have := mul_nonneg hx.1 hc
    have := mul_nonneg hy.1 ha
    have := mul_nonneg hz.1 hb
    linarith
  · have h1 := mul_le_mul_of_nonneg_right hx.2 hc
    have h2 := mul_le_mul_of_nonneg_right hy.2 ha
    have h3 := mul_le_mul_of_nonneg_right hz.2 hb
    nlinarith

theorem color_within {B : ℝ} (hB : 0 ≤ B) (inf : Vec → Col) (r : Ray) (i : Isect Mat) (c m t : Col) (b : Bool)
    (hinf : i.does = false → Within B (inf r.dir))
    (h : i.does = true → 0 ≤ i.mat.reflection ∧ 0 ≤ i.mat.alpha ∧ i.mat.reflection + i.mat.alpha ≤ 1 ∧ Within B c)
    (hm : Within B m) (ht : Within B t) : Within B (whittedColor inf r i c m (t, b)) := by
  unfold whittedColor
  cases hd : i.does
  · simpa using hinf hd
  · obtain ⟨h1, h2, h3, h4⟩ := h hd
    simp only [if_true, Col.adds, Col.add, Col.mul]
    cases b
    · simp only [Bool.not_false, if_true]
      exact ⟨mix_within h1 h2 h3 h4.1 hm.1 ht.1, mix_within h1 h2 h3 h4.2.1 hm.2.1 ht.2.1, mix_within h1 h2 h3 h4.2.2 hm.2.2 ht.2.2⟩
    · simp only [Bool.not_true, Bool.false_eq_true, if_false, mul_zero, add_zero]
      have key : ∀ x y : ℝ, 0 ≤ x ∧ x ≤ B → 0 ≤ y ∧ y ≤ B → 0 ≤ x * (1 - i.mat.reflection - i.mat.alpha) + y * (i.mat.reflection + i.mat.alpha) ∧
          x * (1 - i.mat.reflection - i.mat.alpha) + y * (i.mat.reflection + i.mat.alpha) ≤ B := by
        intro x y hx hy
        have := mix_within h1 h2 h3 hx hy hy
        constructor <;> linarith
      exact ⟨key _ _ h4.1 hm.1, key _ _ h4.2.1 hm.2.1, key _ _ h4.2.2 hm.2.2⟩

theorem render_within {B : ℝ} (hB : 0 ≤ B) (s : Scene) (hs : Sane s)
    (hmat : ∀ r : Ray, Norm1 r.dir.p → ∀ i, s.objs r = some i → i.does = true →
      0 ≤ i.mat.reflection ∧ 0 ≤ i.mat.alpha ∧ i.mat.reflection + i.mat.alpha ≤ 1 ∧ ∀ c, s.lights i s.objs = some c → Within B c)
    (hinf : ∀ d : Vec, Norm1 d.p → Within B (s.inf d)) :
    ∀ (d : ℕ) (refr : ℝ) (r : Ray), 0 < refr → Norm1 r.dir.p → ∀ c, s.render d refr r = some c → Within B c := by
  intro d
  induction d with
  | zero =>
    intro refr r _ hr c hc
    simp only [Scene.render, Scene.shade, whittedMirror, whittedTransmit, Option.bind_eq_bind, Option.bind_eq_some_iff, Option.some.injEq] at hc
    obtain ⟨i, hi, x, hx, _, rfl, _, rfl, rfl⟩ := hc
    refine color_within hB _ _ _ _ _ _ _ (fun _ => hinf _ hr) (fun hd => ?_) (within_black hB) (within_black hB)
    obtain ⟨a, b, c, e⟩ := hmat r hr i hi hd
    exact ⟨a, b, c, e x hx⟩
  | succ d ih =>
    intro refr r hrefr hr c hc
    simp only [Scene.render, Scene.shade, Option.bind_eq_bind, Option.bind_eq_some_iff, Option.some.injEq] at hc
    obtain ⟨i, hi, x, hx, m, hm, t, ht, rfl⟩ := hc
    obtain ⟨t, b⟩ := t
    have wm : Within B m := by
      rcases mirror_cases hs (f := s.render d) hr hi (refr := refr) with h | ⟨-, q, hq, h⟩
      · rw [h, Option.some.injEq] at hm; rw [← hm]; exact within_black hB
      · rw [h] at hm; exact ih refr q hrefr hq m hm
    have wt : Within B t := by
      rcases transmit_cases hs (f := s.render d) hr hi hrefr with h | ⟨-, -, h⟩ | ⟨-, -, n', hn', q, hq, h⟩
      · rw [h, Option.some.injEq, Prod.mk.injEq] at ht; rw [← ht.1]; exact within_black hB
      · rw [h, Option.some.injEq, Prod.mk.injEq] at ht; rw [← ht.1]; exact within_black hB
      · rw [h, Option.map_eq_some_iff] at ht
        obtain ⟨y, hy, e⟩ := ht
        rw [Prod.mk.injEq] at e
        rw [← e.1]
        exact ih n' q hn' hq y hy
    refine color_within hB _ _ _ _ _ _ _ (fun _ => hinf _ hr) (fun hd => ?_) wm wt
    obtain ⟨a, b, c, e⟩ := hmat r hr i hi hd
    exact ⟨a, b, c, e x hx⟩

end Sprout.Dark
