import Mathlib.Analysis.Real.Sqrt
import Verif.Model.MathSqrt
import Verif.Proofs.MathTables
import Verif.Proofs.FloatSimp
import Verif.Proofs.MathMod

/-! # Lemmas on Newton's method for square roots under rounding -/

namespace Sprout

open Classical FV Fmt

/-- a wide range of exponents, as all the usual formats have: 24, 53, 64 or 113 bits with a least exponent -149, -1074,
-16445, -16494 and a greatest 128, 1024, 16384, 16384 -/
structure Fmt.Wide (C : Fmt) : Prop where
  p8 : 8 ≤ C.p
  emin : C.emin ≤ -4 * C.p
  emax : 4 * (C.p : ℤ) ≤ C.emax

theorem wide_float : Fmt.float.Wide := ⟨by decide, by decide, by decide⟩
theorem wide_double : Fmt.double.Wide := ⟨by decide, by decide, by decide⟩
theorem wide_extended : Fmt.extended.Wide := ⟨by decide, by decide, by decide⟩
theorem wide_quad : Fmt.quad.Wide := ⟨by decide, by decide, by decide⟩

/-- half of a number which is not too small -/
theorem Rep.half {p : ℕ} {emin : ℤ} {z : ℝ} (h : Rep p emin z) (h1 : (2 : ℝ) ^ (emin + p) ≤ |z|) : Rep p emin (z / 2) := by
  obtain ⟨m, e, he, hm, rfl⟩ := h
  have hp : (0 : ℝ) < (2 : ℝ) ^ e := by positivity
  have hc : emin < e := by
    have hm' : |(m : ℝ)| < (2 : ℝ) ^ (p : ℤ) := by
      rw [zpow_natCast]; exact_mod_cast hm
    rw [abs_mul, abs_of_pos hp] at h1
    have h2 : |(m : ℝ)| * (2 : ℝ) ^ e < (2 : ℝ) ^ ((p : ℤ) + e) := by
      rw [zpow_add₀ (by norm_num)]; exact mul_lt_mul_of_pos_right hm' hp
    have h3 := (zpow_lt_zpow_iff_right₀ (by norm_num : (1 : ℝ) < 2)).1 (lt_of_le_of_lt h1 h2)
    omega
  exact ⟨m, e - 1, by omega, hm, by rw [zpow_sub_one₀ (by norm_num)]; ring⟩

theorem Rep.double {p : ℕ} {emin : ℤ} {z : ℝ} (h : Rep p emin z) : Rep p emin (2 * z) := by
  obtain ⟨m, e, he, hm, rfl⟩ := h
  exact ⟨m, e + 1, by omega, hm, by rw [zpow_add_one₀ (by norm_num)]; ring⟩

/-- the neighbours of a normal number `m * 2 ^ e` -/
structure Place (p : ℕ) (emin : ℤ) (k : ℝ) (e : ℤ) : Prop where
  above : ∀ z, Rep p emin z → k < z → k + (2 : ℝ) ^ e ≤ z
  below : ∀ z, Rep p emin z → z < k → z ≤ k - (2 : ℝ) ^ e / 2
  pred : Rep p emin (k - (2 : ℝ) ^ e)
  low : (2 : ℝ) ^ ((p : ℤ) - 1 + e) ≤ k
  high : k < (2 : ℝ) ^ ((p : ℤ) + e)

theorem Rep.place {p : ℕ} {emin : ℤ} {k : ℝ} (h : Rep p emin k) (hp : 2 ≤ p) (h1 : (2 : ℝ) ^ (emin + p) ≤ k) :
    ∃ e, emin < e ∧ Place p emin k e := by
  have hk : 0 < k := lt_of_lt_of_le (by positivity) h1
  have hl := abs_lt_two_zpow_log (ne_of_gt hk)
  rw [abs_of_pos hk] at hl
  set e := Int.log 2 k + 1 - (p : ℤ) with he
  have hlow : (2 : ℝ) ^ ((p : ℤ) - 1 + e) ≤ k := by
    rw [show (p : ℤ) - 1 + e = Int.log 2 k by omega]; exact hl.1
  have hhigh : k < (2 : ℝ) ^ ((p : ℤ) + e) := by
    rw [show (p : ℤ) + e = Int.log 2 k + 1 by omega]; exact hl.2
  have hem : emin < e := by
    have := (zpow_lt_zpow_iff_right₀ (by norm_num : (1 : ℝ) < 2)).1 (lt_of_le_of_lt h1 hl.2)
    omega
  have hpe : (0 : ℝ) < (2 : ℝ) ^ e := by positivity
  obtain ⟨m, hm⟩ := h.grid' hlow
  have hsplit : (2 : ℝ) ^ ((p : ℤ) + e) = (2 : ℝ) ^ p * (2 : ℝ) ^ e := by rw [zpow_add₀ (by norm_num), zpow_natCast]
  have hm0 : 0 < m := by
    by_contra hc
    have : (m : ℝ) ≤ 0 := by exact_mod_cast not_lt.1 hc
    nlinarith
  have hmp : m < 2 ^ p := by
    rw [hm, hsplit] at hhigh
    exact_mod_cast lt_of_mul_lt_mul_right hhigh (le_of_lt hpe)
  have hhalf : (2 : ℝ) ^ (e - 1) = (2 : ℝ) ^ e / 2 := by rw [zpow_sub_one₀ (by norm_num)]; ring
  refine ⟨e, hem, ?_, ?_, ?_, hlow, hhigh⟩
  · intro z hz hkz
    obtain ⟨b, hb⟩ := hz.grid' (le_trans hlow (le_of_lt hkz))
    rw [hm, hb] at hkz
    have h2 : m < b := by exact_mod_cast lt_of_mul_lt_mul_right hkz (le_of_lt hpe)
    have h3 : (m : ℝ) + 1 ≤ b := by exact_mod_cast h2
    rw [hm, hb]
    nlinarith
  · intro z hz hkz
    rcases le_or_gt ((2 : ℝ) ^ ((p : ℤ) - 1 + (e - 1))) z with hc | hc
    · obtain ⟨b, hb⟩ := hz.grid' hc
      rw [hhalf] at hb
      have h2 : (b : ℝ) < 2 * m := by
        by_contra h4
        have := mul_le_mul_of_nonneg_right (not_lt.1 h4) (show 0 ≤ (2 : ℝ) ^ e / 2 by positivity)
        linarith
      have h2' : b < 2 * m := by exact_mod_cast h2
      have h3 : (b : ℝ) + 1 ≤ 2 * m := by exact_mod_cast h2'
      rw [hm, hb]
      nlinarith
    · have h2 : (2 : ℝ) ^ ((p : ℤ) - 1 + (e - 1)) = (2 : ℝ) ^ ((p : ℤ) - 1 + e) / 2 := by
        rw [show (p : ℤ) - 1 + (e - 1) = ((p : ℤ) - 1 + e) - 1 by ring, zpow_sub_one₀ (by norm_num)]; ring
      have h3 : (2 : ℝ) ^ e ≤ (2 : ℝ) ^ ((p : ℤ) - 1 + e) := zpow_le_zpow_right₀ (by norm_num) (by omega)
      linarith
  · refine ⟨m - 1, e, by omega, ?_, by rw [hm]; push_cast; ring⟩
    rw [abs_of_nonneg (by omega)]
    omega

namespace MathSqrt

variable {C : Fmt}

/-- what is known of a root `R` of the argument -/
structure Root (C : Fmt) (x R : ℝ) : Prop where
  w : C.Wide
  pos : 0 < R
  sq : x = R * R
  eta : (2 : ℝ) ^ C.emin ≤ C.u * C.u * R
  max : x < (2 : ℝ) ^ C.emax

theorem u_small (w : C.Wide) : C.u ≤ 1 / 256 := by
  have := w.p8
  calc C.u ≤ (2 : ℝ) ^ (-8 : ℤ) := zpow_le_zpow_right₀ (by norm_num) (by omega)
    _ = 1 / 256 := by norm_num

theorem Root.mk' (w : C.Wide) {x : ℝ} (hx : 0 < x) (hr : Rep C.p C.emin x) (hb : |x| < (2 : ℝ) ^ C.emax) :
    Root C x (Real.sqrt x) := by
  have hR := Real.sqrt_pos.2 hx
  have hs := Real.mul_self_sqrt (le_of_lt hx)
  refine ⟨w, hR, hs.symm, ?_, by rwa [abs_of_pos hx] at hb⟩
  have hx1 : (2 : ℝ) ^ C.emin ≤ x := by
    obtain ⟨m, e, he, hm, rfl⟩ := hr
    have hp : (0 : ℝ) < (2 : ℝ) ^ e := by positivity
    have hm0 : 0 < m := by
      by_contra hc
      have : (m : ℝ) ≤ 0 := by exact_mod_cast not_lt.1 hc
      nlinarith
    have hm1 : (1 : ℝ) ≤ m := by exact_mod_cast hm0
    have := zpow_le_zpow_right₀ (by norm_num : (1 : ℝ) ≤ 2) he
    nlinarith
  have h4 : (2 : ℝ) ^ C.emin ≤ (C.u * C.u) * (C.u * C.u) := by
    unfold u
    simp only [← zpow_add₀ (show (2 : ℝ) ≠ 0 by norm_num)]
    exact zpow_le_zpow_right₀ (by norm_num) (by have := w.emin; omega)
  have hη : (0 : ℝ) < (2 : ℝ) ^ C.emin := by positivity
  have hu := u_pos (F := C)
  apply le_of_sq_le_sq _ (by positivity)
  calc ((2 : ℝ) ^ C.emin) ^ 2 = (2 : ℝ) ^ C.emin * (2 : ℝ) ^ C.emin := by ring
    _ ≤ ((C.u * C.u) * (C.u * C.u)) * x := mul_le_mul h4 hx1 (le_of_lt hη) (by positivity)
    _ = (C.u * C.u * Real.sqrt x) ^ 2 := by rw [mul_pow, _root_.sq (Real.sqrt x), hs]; ring

/-- one step, of real numbers -/
noncomputable def stepR (C : Fmt) (x s : ℝ) : ℝ := C.rnd (C.rnd (x / s) + s) / 2

theorem Root.u_le {x R : ℝ} (H : Root C x R) : C.u ≤ 1 / 256 := u_small H.w

/-- normal numbers begin far below the root -/
theorem Root.normal {x R : ℝ} (H : Root C x R) : (2 : ℝ) ^ (C.emin + C.p) ≤ C.u * R := by
  have e : (2 : ℝ) ^ (C.emin + C.p) * C.u = (2 : ℝ) ^ C.emin := by
    unfold u
    rw [← zpow_add₀ (by norm_num)]
    congr 1
    ring
  have hu := u_pos (F := C)
  have := H.eta
  rw [← e] at this
  exact le_of_mul_le_mul_right (by linarith) hu

theorem Root.normal' {x R : ℝ} (H : Root C x R) : (2 : ℝ) ^ (C.emin + C.p - 1) ≤ C.u * R :=
  le_trans (zpow_le_zpow_right₀ (by norm_num) (by omega)) H.normal

/-- the quotient -/
theorem Root.quot {x R : ℝ} (H : Root C x R) {s : ℝ} (hs : 0 < s) :
    (1 - C.u) * (x / s) - C.u * C.u * R / 2 ≤ C.rnd (x / s) ∧ C.rnd (x / s) ≤ (1 + C.u) * (x / s) + C.u * C.u * R / 2 := by
  have hx : 0 < x := by rw [H.sq]; exact mul_pos H.pos H.pos
  have h := rnd_err (F := C) (x / s)
  rw [abs_of_pos (div_pos hx hs), abs_le] at h
  have := H.eta
  constructor <;> linarith [h.1, h.2]

/-- the sum -/
theorem Root.sum {x R : ℝ} (H : Root C x R) {s : ℝ} (hs : 0 < s) :
    2 * (1 - C.u) * R - C.u * C.u * R / 2 ≤ C.rnd (x / s) + s ∧
    (1 - C.u) * (C.rnd (x / s) + s) ≤ C.rnd (C.rnd (x / s) + s) ∧
    C.rnd (C.rnd (x / s) + s) ≤ (1 + C.u) * (C.rnd (x / s) + s) := by
  have hu := u_pos (F := C)
  have hu8 := H.u_le
  have hR := H.pos
  have h1 : 2 * R ≤ x / s + s := by
    rw [H.sq, div_add' _ _ _ (ne_of_gt hs), le_div_iff₀ hs]
    nlinarith [sq_nonneg (R - s)]
  have h2 := (H.quot hs).1
  have h3 : 2 * (1 - C.u) * R - C.u * C.u * R / 2 ≤ C.rnd (x / s) + s := by
    have : (1 - C.u) * (2 * R) ≤ (1 - C.u) * (x / s + s) := mul_le_mul_of_nonneg_left h1 (by linarith)
    nlinarith
  have h4 : R ≤ C.rnd (x / s) + s := by
    have : C.u * C.u * R ≤ C.u * R := by nlinarith [mul_pos hu hR]
    have : C.u * R ≤ 1 / 256 * R := mul_le_mul_of_nonneg_right hu8 (le_of_lt hR)
    linarith
  have h5 := rnd_rel (F := C) (x := C.rnd (x / s) + s) (by
    rw [abs_of_pos (by linarith)]
    refine le_trans H.normal' (le_trans ?_ h4)
    nlinarith)
  rw [abs_of_pos (show 0 < C.rnd (x / s) + s by linarith), abs_le] at h5
  exact ⟨h3, by linarith [h5.1], by linarith [h5.2]⟩

theorem Root.lower {x R : ℝ} (H : Root C x R) {s : ℝ} (hs : 0 < s) : (1 - 2 * C.u) * R ≤ stepR C x s := by
  obtain ⟨h1, h2, -⟩ := H.sum hs
  have hu := u_pos (F := C)
  have hu8 := H.u_le
  have hR := H.pos
  unfold stepR
  have h3 : (1 - C.u) * (2 * (1 - C.u) * R - C.u * C.u * R / 2) ≤ (1 - C.u) * (C.rnd (x / s) + s) :=
    mul_le_mul_of_nonneg_left h1 (by linarith)
  have h4 : 2 * (1 - 2 * C.u) ≤ (1 - C.u) * (2 * (1 - C.u) - C.u * C.u / 2) := by nlinarith [mul_pos hu hu]
  have := mul_le_mul_of_nonneg_right h4 (le_of_lt hR)
  linarith

theorem Root.upper {x R : ℝ} (H : Root C x R) {s : ℝ} (hs : 0 < s) (h : s ≤ stepR C x s) : s ≤ (1 + 2 * C.u) * R := by
  obtain ⟨-, -, h2⟩ := H.sum hs
  have h3 := (H.quot hs).2
  have hu := u_pos (F := C)
  have hu8 := H.u_le
  have hR := H.pos
  by_contra hc
  rw [not_le] at hc
  unfold stepR at h
  have hsR : R ≤ s := by nlinarith [mul_pos hu hR]
  have hq : x / s < (1 - 2 * C.u + 4 * C.u * C.u) * R := by
    rw [div_lt_iff₀ hs, H.sq]
    have h5 : (1 : ℝ) ≤ (1 - 2 * C.u + 4 * C.u * C.u) * (1 + 2 * C.u) := by nlinarith [mul_pos hu (mul_pos hu hu)]
    have h6 : (1 - 2 * C.u + 4 * C.u * C.u) * R * ((1 + 2 * C.u) * R) < (1 - 2 * C.u + 4 * C.u * C.u) * R * s :=
      mul_lt_mul_of_pos_left hc (mul_pos (by nlinarith) hR)
    have h7 := mul_le_mul_of_nonneg_right h5 (le_of_lt (mul_pos hR hR))
    linarith
  have h8 : 2 * s ≤ (1 + C.u) * ((1 + C.u) * (x / s) + C.u * C.u * R / 2 + s) := by
    have : (1 + C.u) * (C.rnd (x / s) + s) ≤ (1 + C.u) * ((1 + C.u) * (x / s) + C.u * C.u * R / 2 + s) :=
      mul_le_mul_of_nonneg_left (by linarith) (by linarith)
    linarith
  have h9 : (1 + C.u) * (1 + C.u) * (x / s) ≤ (1 + C.u) * (1 + C.u) * ((1 - 2 * C.u + 4 * C.u * C.u) * R) :=
    mul_le_mul_of_nonneg_left (le_of_lt hq) (by positivity)
  have h10 : (1 - C.u) * ((1 + 2 * C.u) * R) < (1 - C.u) * s := mul_lt_mul_of_pos_left hc (by linarith)
  have h11 : (1 + C.u) * (1 + C.u) * (1 - 2 * C.u + 4 * C.u * C.u) + (1 + C.u) * (C.u * C.u / 2) ≤ (1 - C.u) * (1 + 2 * C.u) := by
    have hu2 := mul_pos hu hu
    have hu3 := mul_pos hu hu2
    nlinarith [mul_pos hu hu3]
  have := mul_le_mul_of_nonneg_right h11 (le_of_lt hR)
  linarith

/-- a step is computed without overflow -/
theorem Root.step_val {x R : ℝ} (H : Root C x R) {s : ℝ} (hs : (1 - 2 * C.u) * R ≤ s) (hs2 : s ≤ (2 : ℝ) ^ (C.emax - 1))
    {xv sv : FV} (hx : Val xv x) (hv : Val sv s) : Val (step C xv sv) (stepR C x s) ∧ Rep C.p C.emin (stepR C x s) := by
  have hu := u_pos (F := C)
  have hu8 := H.u_le
  have hR := H.pos
  have hs0 : 0 < s := lt_of_lt_of_le (mul_pos (by linarith) hR) hs
  have hx0 : 0 < x := by rw [H.sq]; exact mul_pos hR hR
  have hE : 32 ≤ C.emax := by have := H.w.emax; have := H.w.p8; omega
  have hz := C.emin_le_zero
  have hp4 : (0 : ℝ) < (2 : ℝ) ^ (C.emax - 2) := by positivity
  have e1 : (2 : ℝ) ^ (C.emax - 1) = 2 * (2 : ℝ) ^ (C.emax - 2) := by
    rw [show C.emax - 1 = (C.emax - 2) + 1 by ring, zpow_add_one₀ (by norm_num)]; ring
  have e2 : (2 : ℝ) ^ C.emax = 4 * (2 : ℝ) ^ (C.emax - 2) := by
    rw [show C.emax = (C.emax - 2) + 1 + 1 by ring, zpow_add_one₀ (by norm_num), zpow_add_one₀ (by norm_num)]; ring_nf
  have h2R : 2 * R ≤ (2 : ℝ) ^ (C.emax - 2) := by
    apply le_of_sq_le_sq _ (le_of_lt hp4)
    have h16 : (16 : ℝ) ≤ (2 : ℝ) ^ (C.emax - 2) := by
      calc (16 : ℝ) = (2 : ℝ) ^ (4 : ℤ) := by norm_num
        _ ≤ _ := zpow_le_zpow_right₀ (by norm_num) (by omega)
    have := H.max
    rw [H.sq, e2] at this
    nlinarith
  have hq : |x / s| ≤ (2 : ℝ) ^ (C.emax - 2) := by
    rw [abs_of_pos (div_pos hx0 hs0)]
    refine le_trans ?_ h2R
    rw [div_le_iff₀ hs0, H.sq]
    nlinarith [mul_pos hR hR]
  have rq := rnd_abs_le (F := C) hq (Rep.two_zpow _ (by omega) C.one_le_p)
  have v1 : Val (C.div xv sv) (C.rnd (x / s)) := div_val hx hv (ne_of_gt hs0) (by linarith)
  have hq0 := rnd_nonneg (F := C) (le_of_lt (div_pos hx0 hs0))
  have hp := H.w.p8
  have h3 : |(3 : ℤ)| < 2 ^ C.p := by
    calc |(3 : ℤ)| < 2 ^ 2 := by norm_num
      _ ≤ 2 ^ C.p := pow_le_pow_right₀ (by norm_num) (by omega)
  have ht : |C.rnd (x / s) + s| ≤ 3 * (2 : ℝ) ^ (C.emax - 2) := by
    rw [abs_of_pos (by linarith)]
    rw [abs_of_nonneg hq0] at rq
    linarith
  have rt := rnd_abs_le (F := C) ht ⟨3, C.emax - 2, by omega, h3, by norm_num⟩
  have v2 : Val (C.add (C.div xv sv) sv) (C.rnd (C.rnd (x / s) + s)) := add_val v1 hv (by linarith)
  have hlow := H.lower hs0
  have hrep : Rep C.p C.emin (stepR C x s) := by
    unfold stepR at hlow ⊢
    refine (C.rnd_rep _).half ?_
    refine le_trans H.normal ?_
    rw [abs_of_nonneg (by nlinarith [mul_pos hu hR])]
    nlinarith [mul_pos hu hR]
  refine ⟨?_, hrep⟩
  have hlt : |C.rnd (C.rnd (C.rnd (x / s) + s) / 2)| < (2 : ℝ) ^ C.emax := by
    unfold stepR at hrep
    rw [rnd_of_rep hrep, abs_div, abs_of_pos (show (0 : ℝ) < 2 by norm_num)]
    linarith [abs_nonneg (C.rnd (C.rnd (x / s) + s))]
  have v3 := div_val (F := C) v2 (Val.num (show (2 : ℝ) ≠ 0 by norm_num)) (by norm_num) hlt
  unfold stepR at hrep ⊢
  rw [rnd_of_rep hrep] at v3
  exact v3

/-- The recursion ends, at a value from which it does not descend. -/
theorem Root.loop {x R : ℝ} (H : Root C x R) {Inv : ℝ → Prop}
    (h1 : ∀ s, Inv s → Rep C.p C.emin s ∧ (1 - 2 * C.u) * R ≤ s ∧ s ≤ (2 : ℝ) ^ (C.emax - 1))
    (h2 : ∀ s, Inv s → stepR C x s < s → Inv (stepR C x s)) {xv : FV} (hx : Val xv x) (n : ℕ) :
    ∀ (s : ℝ) (sv : FV), Inv s → s ≤ n * (2 : ℝ) ^ C.emin → Val sv s →
      ∃ v r, sqrtImpl2 C xv (step C xv sv) sv = some v ∧ Val v r ∧ Inv r ∧ r ≤ stepR C x r := by
  induction n with
  | zero =>
    intro s sv hs hn hv
    obtain ⟨-, h, -⟩ := h1 s hs
    have hu8 := H.u_le
    have := mul_pos (show 0 < 1 - 2 * C.u by linarith) H.pos
    simp at hn
    linarith
  | succ n ih =>
    intro s sv hs hn hv
    obtain ⟨hr, hlo, hhi⟩ := h1 s hs
    obtain ⟨v', r'⟩ := H.step_val hlo hhi hx hv
    rw [sqrtImpl2.eq_def, v'.lt_iff hv]
    by_cases hc : stepR C x s < s
    · rw [if_neg (not_not.2 hc)]
      refine ih _ _ (h2 s hs hc) ?_ v'
      obtain ⟨a, ha⟩ := hr.multiple
      obtain ⟨b, hb⟩ := r'.multiple
      rw [hb] at hc ⊢
      rw [ha] at hc hn
      have hp : (0 : ℝ) < (2 : ℝ) ^ C.emin := by positivity
      have c1 : b < a := by exact_mod_cast lt_of_mul_lt_mul_right hc (le_of_lt hp)
      have c2 : a ≤ ((n + 1 : ℕ) : ℤ) := by
        have : (a : ℝ) ≤ ((n + 1 : ℕ) : ℝ) := le_of_mul_le_mul_right hn hp
        exact_mod_cast this
      have c3 : b ≤ (n : ℤ) := by push_cast at c2; omega
      have c4 : (b : ℝ) ≤ n := by exact_mod_cast c3
      exact mul_le_mul_of_nonneg_right c4 (le_of_lt hp)
    · rw [if_pos hc]
      exact ⟨sv, s, rfl, hv, hs, not_lt.1 hc⟩

/-- the first step from a large argument, which is added to 1, halves it -/
theorem first_step (w : C.Wide) {x : ℝ} (hr : Rep C.p C.emin x) (hx : (2 : ℝ) ^ (C.emax - 1) ≤ x) (hb : x < (2 : ℝ) ^ C.emax)
    {xv : FV} (hv : Val xv x) : Val (step C xv xv) (x / 2) ∧ Rep C.p C.emin (x / 2) := by
  have hp := w.p8
  have hE := w.emax
  have hz := C.emin_le_zero
  have h4 : (4 : ℝ) ≤ x := by
    refine le_trans ?_ hx
    calc (4 : ℝ) = (2 : ℝ) ^ (2 : ℤ) := by norm_num
      _ ≤ _ := zpow_le_zpow_right₀ (by norm_num) (by omega)
  have hx0 : 0 < x := by linarith
  have h1 : x / x = 1 := div_self (ne_of_gt hx0)
  have v1 : Val (C.div xv xv) 1 := by
    have := div_val (F := C) hv hv (ne_of_gt hx0) (by
      rw [h1, rnd_of_rep C.rep_one, abs_one]; exact MathRound.one_lt_emax C)
    rwa [h1, rnd_of_rep C.rep_one] at this
  obtain ⟨e, he, P⟩ := hr.place (by omega) (le_trans (zpow_le_zpow_right₀ (by norm_num) (by have := w.emin; omega)) hx)
  have he2 : 2 ≤ e := by
    have := (zpow_lt_zpow_iff_right₀ (by norm_num : (1 : ℝ) < 2)).1 (lt_of_le_of_lt hx P.high)
    omega
  have h2e : (4 : ℝ) ≤ (2 : ℝ) ^ e := by
    calc (4 : ℝ) = (2 : ℝ) ^ (2 : ℤ) := by norm_num
      _ ≤ _ := zpow_le_zpow_right₀ (by norm_num) he2
  have hrn : C.rnd (1 + x) = x := by
    have hn := C.rnd_near (1 + x) x hr
    rw [show x - (1 + x) = -1 by ring, abs_neg, abs_one, abs_le] at hn
    by_contra hne
    rcases lt_or_gt_of_ne hne with h | h
    · have := P.below _ (C.rnd_rep _) h
      linarith [hn.1]
    · have := P.above _ (C.rnd_rep _) h
      linarith [hn.2]
  have v2 : Val (C.add (C.div xv xv) xv) x := by
    have := add_val (F := C) v1 hv (by rwa [hrn, abs_of_pos hx0])
    rwa [hrn] at this
  have hh : Rep C.p C.emin (x / 2) := hr.half (by
    rw [abs_of_pos hx0]
    exact le_trans (zpow_le_zpow_right₀ (by norm_num) (by have := w.emin; omega)) hx)
  have v3 := div_val (F := C) v2 (Val.num (show (2 : ℝ) ≠ 0 by norm_num)) (by norm_num) (by
    rw [rnd_of_rep hh, abs_of_pos (by linarith)]; linarith)
  rw [rnd_of_rep hh] at v3
  exact ⟨v3, hh⟩

/-- the whole computation, with an invariant -/
theorem sqrtImpl_inv {x : ℝ} (w : C.Wide) (hx0 : 0 < x) (hr : Rep C.p C.emin x) (hb : |x| < (2 : ℝ) ^ C.emax) {P : ℝ → Prop}
    (h0 : P x ∨ x ≤ 1) (h1 : P 1 ∨ 1 < x) (h2 : 4 ≤ x → P (x / 2)) (hstep : ∀ s, 0 < s → Rep C.p C.emin s → P s → P (stepR C x s)) :
    ∃ v r, sqrtImpl C (.num x) = some v ∧ Val v r ∧ Rep C.p C.emin r ∧ (1 - 2 * C.u) * Real.sqrt x ≤ r ∧
      r ≤ (1 + 2 * C.u) * Real.sqrt x ∧ P r ∧ r ≤ stepR C x r := by
  have H := Root.mk' w hx0 hr hb
  have hu := u_pos (F := C)
  have hu8 := H.u_le
  have hR := H.pos
  have hxv : Val (.num x) x := Val.num (ne_of_gt hx0)
  have hb' := H.max
  have hp := w.p8
  have hE := w.emax
  set R := Real.sqrt x
  let Inv : ℝ → Prop := fun s => Rep C.p C.emin s ∧ (1 - 2 * C.u) * R ≤ s ∧ s ≤ (2 : ℝ) ^ (C.emax - 1) ∧ P s
  have i1 : ∀ s, Inv s → Rep C.p C.emin s ∧ (1 - 2 * C.u) * R ≤ s ∧ s ≤ (2 : ℝ) ^ (C.emax - 1) := fun s h => ⟨h.1, h.2.1, h.2.2.1⟩
  have i2 : ∀ s, Inv s → stepR C x s < s → Inv (stepR C x s) := by
    rintro s ⟨a, b, c, d⟩ hlt
    have hs0 : 0 < s := lt_of_lt_of_le (mul_pos (by linarith) hR) b
    exact ⟨(H.step_val b c hxv (Val.num (ne_of_gt hs0))).2, H.lower hs0, by linarith, hstep s hs0 a d⟩
  have run : ∀ s sv, Inv s → Val sv s → ∃ v r, sqrtImpl2 C (.num x) (step C (.num x) sv) sv = some v ∧ Val v r ∧
      Rep C.p C.emin r ∧ (1 - 2 * C.u) * R ≤ r ∧ r ≤ (1 + 2 * C.u) * R ∧ P r ∧ r ≤ stepR C x r := by
    intro s sv hs hv
    have hη : (0 : ℝ) < (2 : ℝ) ^ C.emin := by positivity
    obtain ⟨n, hn⟩ := exists_nat_ge (s / (2 : ℝ) ^ C.emin)
    obtain ⟨v, r, a, b, c, d⟩ := H.loop i1 i2 hxv n s sv hs (by rwa [div_le_iff₀ hη] at hn) hv
    have hr0 : 0 < r := lt_of_lt_of_le (mul_pos (by linarith) hR) c.2.1
    exact ⟨v, r, a, b, c.1, c.2.1, H.upper hr0 d, c.2.2.2, d⟩
  have hone : (1 : ℝ) ≤ (2 : ℝ) ^ (C.emax - 1) := by
    calc (1 : ℝ) = (2 : ℝ) ^ (0 : ℤ) := by norm_num
      _ ≤ _ := zpow_le_zpow_right₀ (by norm_num) (by omega)
  unfold sqrtImpl sqrtImpl1
  rw [show (FV.num 1).lt (.num x) ↔ 1 < x from (Val.num one_ne_zero).lt_iff hxv]
  by_cases hc : 1 < x
  · rw [if_pos hc]
    have hRx : R ≤ x := by
      rw [H.sq] at hc ⊢
      have : 1 < R := by nlinarith
      nlinarith
    rcases le_or_gt x ((2 : ℝ) ^ (C.emax - 1)) with hm | hm
    · exact run x _ ⟨hr, by nlinarith, hm, h0.resolve_right (by linarith)⟩ hxv
    · obtain ⟨f1, f2⟩ := first_step w hr (le_of_lt hm) hb' hxv
      rw [sqrtImpl2.eq_def, f1.lt_iff hxv, if_neg (not_not.2 (by linarith))]
      have h16 : (16 : ℝ) ≤ x := by
        refine le_trans ?_ (le_of_lt hm)
        calc (16 : ℝ) = (2 : ℝ) ^ (4 : ℤ) := by norm_num
          _ ≤ _ := zpow_le_zpow_right₀ (by norm_num) (by omega)
      have hR4 : 4 ≤ R := by
        rw [H.sq] at h16
        nlinarith
      refine run (x / 2) _ ⟨f2, ?_, ?_, h2 (by linarith)⟩ f1
      · have := H.sq
        nlinarith
      · have e1 : (2 : ℝ) ^ C.emax = 2 * (2 : ℝ) ^ (C.emax - 1) := by
          rw [show C.emax = (C.emax - 1) + 1 by ring, zpow_add_one₀ (by norm_num)]; ring_nf
        linarith
  · rw [if_neg hc]
    refine run 1 _ ⟨C.rep_one, ?_, hone, h1.resolve_right hc⟩ (Val.num one_ne_zero)
    have hRx : R ≤ 1 := by
      rw [H.sq] at hc
      nlinarith
    nlinarith

/-- Of a square the steps do not fall below the root. -/
theorem stepR_square (w : C.Wide) {k x s : ℝ} (hk : Rep C.p C.emin k) (hx : x = k * k) (h1 : (2 : ℝ) ^ (C.emin + C.p) ≤ k)
    (hks : k ≤ s) : k ≤ stepR C x s := by
  have hp := w.p8
  have hk0 : 0 < k := lt_of_lt_of_le (by positivity) h1
  have hs0 : 0 < s := by linarith
  obtain ⟨e, he, P⟩ := hk.place (by omega) h1
  have hpe : (0 : ℝ) < (2 : ℝ) ^ e := by positivity
  unfold stepR
  rcases eq_or_lt_of_le hks with rfl | hlt
  · rw [hx, mul_div_assoc, div_self (ne_of_gt hk0), mul_one, rnd_of_rep hk, ← two_mul, rnd_of_rep hk.double]
    linarith
  -- the quotient is at least that much
  have hy : k - (s - k) < x / s := by
    rw [lt_div_iff₀ hs0, hx]
    nlinarith [mul_pos (sub_pos.2 hlt) (sub_pos.2 hlt)]
  have hyk : x / s ≤ k := by
    rw [div_le_iff₀ hs0, hx]
    nlinarith
  have hy0 : 0 < x / s := by rw [hx]; positivity
  have herr : |C.rnd (x / s) - x / s| ≤ (2 : ℝ) ^ e / 2 := by
    refine le_trans (rnd_half (F := C) _) ?_
    have : lastExp C.p C.emin (x / s) ≤ e := by
      unfold lastExp
      refine max_le ?_ (le_of_lt he)
      have hl := abs_lt_two_zpow_log (ne_of_gt hy0)
      rw [abs_of_pos hy0] at hl ⊢
      have := (zpow_lt_zpow_iff_right₀ (by norm_num : (1 : ℝ) < 2)).1 (lt_of_le_of_lt (le_trans hl.1 hyk) P.high)
      omega
    have := zpow_le_zpow_right₀ (by norm_num : (1 : ℝ) ≤ 2) this
    linarith
  rw [abs_le] at herr
  have hsum : 2 * k - (2 : ℝ) ^ e / 2 < C.rnd (x / s) + s := by linarith [herr.1]
  -- rounding of the sum
  by_contra hc
  have hc' : C.rnd (C.rnd (x / s) + s) < 2 * k := by linarith
  have hb := P.below _ ((C.rnd_rep (C.rnd (x / s) + s)).half (by
    have h5 : k ≤ C.rnd (C.rnd (x / s) + s) := le_rnd (by linarith [rnd_nonneg (F := C) (le_of_lt hy0)]) hk
    rw [abs_of_pos (by linarith)]
    linarith)) (by linarith)
  have hn := C.rnd_near (C.rnd (x / s) + s) (2 * k) hk.double
  have h6 : C.rnd (x / s) + s ≤ 2 * k := by
    by_contra h7
    have := le_rnd (F := C) (le_of_lt (not_le.1 h7)) hk.double
    linarith
  rw [abs_of_nonneg (show 0 ≤ 2 * k - (C.rnd (x / s) + s) by linarith)] at hn
  have := neg_abs_le (C.rnd (C.rnd (x / s) + s) - (C.rnd (x / s) + s))
  linarith

/-- Of a square the steps end at the root only. -/
theorem stepR_square_lt (w : C.Wide) {k x s : ℝ} (hk : Rep C.p C.emin k) (hs : Rep C.p C.emin s) (hx : x = k * k)
    (h1 : (2 : ℝ) ^ (C.emin + C.p) ≤ k) (hks : k < s) : stepR C x s < s := by
  have hp := w.p8
  have hk0 : 0 < k := lt_of_lt_of_le (by positivity) h1
  have hs0 : 0 < s := by linarith
  obtain ⟨e, he, P⟩ := hk.place (by omega) h1
  have hpe : (0 : ℝ) < (2 : ℝ) ^ e := by positivity
  have hε := P.above s hs hks
  have hεk : (2 : ℝ) ^ e ≤ k / 2 := by
    have h2 := P.low
    have : (2 : ℝ) ^ (e + 1) ≤ (2 : ℝ) ^ ((C.p : ℤ) - 1 + e) := zpow_le_zpow_right₀ (by norm_num) (by omega)
    rw [zpow_add_one₀ (by norm_num)] at this
    linarith
  have hyk : x / s ≤ k := by
    rw [div_le_iff₀ hs0, hx]
    nlinarith
  -- the quotient is nearer to the number before
  have hy : x / s < k - (2 : ℝ) ^ e / 2 := by
    rw [div_lt_iff₀ hs0, hx]
    nlinarith
  have hq : C.rnd (x / s) ≤ k - (2 : ℝ) ^ e / 2 := by
    apply P.below _ (C.rnd_rep _)
    have hle := rnd_le (F := C) hyk hk
    rcases lt_or_eq_of_le hle with h | h
    · exact h
    · exfalso
      have hn := C.rnd_near (x / s) _ P.pred
      rw [h, abs_of_nonneg (by linarith)] at hn
      rcases le_or_gt (k - (2 : ℝ) ^ e) (x / s) with h3 | h3
      · rw [abs_of_nonpos (by linarith)] at hn
        linarith
      · have := rnd_le (F := C) (le_of_lt h3) P.pred
        linarith
  unfold stepR
  by_contra hc
  have hc' : 2 * s ≤ C.rnd (C.rnd (x / s) + s) := by linarith
  rcases le_or_gt (C.rnd (x / s) + s) (2 * k) with h3 | h3
  · have := rnd_le (F := C) h3 hk.double
    linarith
  · have hn := C.rnd_near (C.rnd (x / s) + s) (2 * k) hk.double
    rw [abs_of_nonpos (show 2 * k - (C.rnd (x / s) + s) ≤ 0 by linarith)] at hn
    have := le_abs_self (C.rnd (C.rnd (x / s) + s) - (C.rnd (x / s) + s))
    linarith

end MathSqrt

end Sprout
