import Verif.Proofs.MathSqrtFloat

/-! # The error of `hypot` -/

namespace Sprout

open Classical FV Fmt

namespace MathSqrt

variable {F C : Fmt}

theorem eta_small (w : C.Wide) : (2 : ℝ) ^ C.emin ≤ C.u * C.u * (C.u * C.u) := by
  have := w.emin
  unfold u
  simp only [← zpow_add₀ (show (2 : ℝ) ≠ 0 by norm_num)]
  exact zpow_le_zpow_right₀ (by norm_num) (by omega)

theorem hypot_sum {u η q k a b : ℝ} (hu : 0 < u) (hu8 : u ≤ 1 / 256) (hη0 : 0 < η) (hηu : η ≤ u / 16777216) (hq0 : 0 ≤ q)
    (hq1 : q ≤ 1) (k0 : 0 ≤ k) (kk1 : k * k ≤ 1) (ke : |k - q| ≤ u * q + η / 2)
    (ae : |a - k * k| ≤ u * (k * k) + η / 2) (be : |b - (1 + a)| ≤ u * (1 + a)) :
    |b - (1 + q * q)| ≤ 21 / 8 * u * (1 + q * q) := by
  rw [abs_le] at ke ae be ⊢
  have e1 : k * k - q * q = (k - q) * (k + q) := by ring
  have kq : k + q ≤ 2 * q + u * q + η / 2 := by linarith [ke.2]
  have hkq0 : 0 ≤ k + q := by linarith
  have e2 : |k * k - q * q| ≤ (u * q + η / 2) * (2 * q + u * q + η / 2) := by
    rw [e1, abs_mul, abs_of_nonneg hkq0]
    refine mul_le_mul ?_ kq hkq0 ?_
    · rw [abs_le]; exact ke
    · positivity
  have e3 : (u * q + η / 2) * (2 * q + u * q + η / 2) ≤ (2 + 1 / 128) * u * (q * q) + u / 1000000 := by
    have q2 : q * q ≤ 1 := mul_le_one₀ hq1 hq0 hq1
    have i1 : u * u * (q * q) ≤ u * (1 / 256) * (q * q) :=
      mul_le_mul_of_nonneg_right (mul_le_mul_of_nonneg_left hu8 (le_of_lt hu)) (mul_nonneg hq0 hq0)
    have i2 : η * q ≤ η := mul_le_of_le_one_right (le_of_lt hη0) hq1
    have i3 : u * (η * q) ≤ 1 * η := mul_le_mul (by linarith) i2 (mul_nonneg (le_of_lt hη0) hq0) (by norm_num)
    have i4 : η * η ≤ η * 1 := mul_le_mul_of_nonneg_left (by linarith) (le_of_lt hη0)
    have i5 := mul_nonneg (le_of_lt hu) (mul_nonneg hq0 hq0)
    nlinarith
  rw [abs_le] at e2
  have hkk : k * k ≤ q * q + 1 / 64 := by
    have q2 : q * q ≤ 1 := mul_le_one₀ hq1 hq0 hq1
    have : (2 + 1 / 128) * u * (q * q) ≤ (2 + 1 / 128) * u * 1 := mul_le_mul_of_nonneg_left q2 (by linarith)
    linarith [e2.2]
  have j1 : u * (k * k) ≤ u * (q * q + 1 / 64) := mul_le_mul_of_nonneg_left hkk (le_of_lt hu)
  have j2 : a ≤ q * q + 1 / 32 := by
    have : u * (k * k) ≤ u * 1 := mul_le_mul_of_nonneg_left kk1 (le_of_lt hu)
    linarith [ae.2]
  have j3 : u * (1 + a) ≤ u * (1 + (q * q + 1 / 32)) := mul_le_mul_of_nonneg_left (by linarith) (le_of_lt hu)
  have q2 : u * (q * q) ≤ u * 1 := mul_le_mul_of_nonneg_left (mul_le_one₀ hq1 hq0 hq1) (le_of_lt hu)
  constructor <;> linarith [e2.1, e2.2, ae.1, ae.2, be.1, be.2]

theorem hypot_root {u S T r : ℝ} (hu : 0 < u) (hu8 : u ≤ 1 / 256) (hT1 : 1 ≤ T) (hS1 : 1 ≤ S)
    (he : |S * S - T * T| ≤ 21 / 8 * u * (T * T)) (h4 : |r - S| ≤ 2 * u * S) : |r - T| ≤ 15 / 4 * u * T := by
  have hTT : 0 < T * T := by nlinarith
  have huu : u * u ≤ u * (1 / 256) := mul_le_mul_of_nonneg_left hu8 (le_of_lt hu)
  have d : |S - T| ≤ 11 / 8 * u * T := by
    rw [abs_le] at he ⊢
    constructor
    · by_contra hc
      have h5 : S < T * (1 - 11 / 8 * u) := by linarith
      have h6 := mul_lt_mul'' h5 h5 (by linarith) (by linarith)
      have h7 : (1 - 11 / 8 * u) * (1 - 11 / 8 * u) ≤ 1 - 21 / 8 * u := by linarith
      have h8 := mul_le_mul_of_nonneg_left h7 (le_of_lt hTT)
      linarith [he.1]
    · by_contra hc
      have h5 : T * (1 + 11 / 8 * u) < S := by linarith
      have h0 : 0 ≤ T * (1 + 11 / 8 * u) := mul_nonneg (by linarith) (by linarith)
      have h6 := mul_lt_mul'' h5 h5 h0 h0
      have h7 : 1 + 21 / 8 * u ≤ (1 + 11 / 8 * u) * (1 + 11 / 8 * u) := by linarith [mul_pos hu hu]
      have h8 := mul_le_mul_of_nonneg_left h7 (le_of_lt hTT)
      linarith [he.2]
  rw [abs_le] at d h4 ⊢
  have h5 : u * S ≤ u * (T + 11 / 8 * u * T) := mul_le_mul_of_nonneg_left (by linarith [d.2]) (le_of_lt hu)
  have h6 : u * (u * T) ≤ 1 / 256 * (u * T) := mul_le_mul_of_nonneg_right hu8 (mul_nonneg (le_of_lt hu) (by linarith))
  have h7 : 0 ≤ u * T := mul_nonneg (le_of_lt hu) (by linarith)
  constructor <;> linarith [d.1, d.2, h4.1, h4.2]

/-- the factor: the root of `1 + q ^ 2`, for the quotient `q` of the arguments -/
theorem hypot_factor (w : C.Wide) {q : ℝ} (hq0 : 0 ≤ q) (hq1 : q ≤ 1) {wv : FV} (hw : Val wv (C.rnd q)) :
    ∃ v r, sqrt C C (C.add (.num 1) (C.mul wv wv)) = some v ∧ Val v r ∧
      |r - Real.sqrt (1 + q * q)| ≤ 15 / 4 * C.u * Real.sqrt (1 + q * q) := by
  have hu := u_pos (F := C)
  have hu8 := u_small w
  have hη := eta_small w
  have hη0 : (0 : ℝ) < (2 : ℝ) ^ C.emin := by positivity
  obtain ⟨u, hue⟩ : ∃ u, u = C.u := ⟨_, rfl⟩
  obtain ⟨η, hηe⟩ : ∃ η, η = (2 : ℝ) ^ C.emin := ⟨_, rfl⟩
  have hηu : η ≤ u / 16777216 := by
    rw [← hue, ← hηe] at hη
    rw [← hue] at hu hu8
    have h1 : u * u ≤ u * (1 / 256) := mul_le_mul_of_nonneg_left hu8 (le_of_lt hu)
    have h2 : u * u ≤ 1 / 65536 := by nlinarith
    have h3 : u * u * (u * u) ≤ (u * (1 / 256)) * (1 / 65536) := mul_le_mul h1 h2 (by positivity) (by positivity)
    linarith
  -- the quotient
  obtain ⟨k, hk⟩ : ∃ k, k = C.rnd q := ⟨_, rfl⟩
  have k0 : 0 ≤ k := by rw [hk]; exact le_rnd hq0 Rep.zero
  have k1 : k ≤ 1 := by rw [hk]; exact rnd_le hq1 C.rep_one
  have ke := rnd_err (F := C) q
  rw [← hk, ← hue, ← hηe, abs_of_nonneg hq0] at ke
  rw [← hk] at hw
  -- its square
  obtain ⟨a, ha⟩ : ∃ a, a = C.rnd (k * k) := ⟨_, rfl⟩
  have kk0 : 0 ≤ k * k := mul_nonneg k0 k0
  have kk1 : k * k ≤ 1 := mul_le_one₀ k1 k0 k1
  have a0 : 0 ≤ a := by rw [ha]; exact le_rnd kk0 Rep.zero
  have a1 : a ≤ 1 := by rw [ha]; exact rnd_le kk1 C.rep_one
  have ae := rnd_err (F := C) (k * k)
  rw [← ha, ← hue, ← hηe, abs_of_nonneg kk0] at ae
  have hmax : (2 : ℝ) < (2 : ℝ) ^ C.emax := by
    have := w.emax
    have := w.p8
    calc (2 : ℝ) = (2 : ℝ) ^ (1 : ℤ) := by norm_num
      _ < _ := zpow_lt_zpow_right₀ (by norm_num) (by omega)
  have av : Val (C.mul wv wv) a := by
    rw [ha]
    refine mul_val hw hw ?_
    rw [← ha, abs_of_nonneg a0]
    linarith
  -- the sum
  obtain ⟨b, hb⟩ : ∃ b, b = C.rnd (1 + a) := ⟨_, rfl⟩
  have b1 : 1 ≤ b := by rw [hb]; exact le_rnd (by linarith) C.rep_one
  have rep2 : Rep C.p C.emin 2 := by
    have := Rep.two_zpow (p := C.p) (emin := C.emin) 1 (by have := w.emin; omega) C.one_le_p
    simpa using this
  have b2 : b ≤ 2 := by rw [hb]; exact rnd_le (by linarith) rep2
  have be := rnd_rel (F := C) (x := 1 + a) (by
    rw [abs_of_pos (by linarith)]
    have h1 : (2 : ℝ) ^ (C.emin + C.p - 1) ≤ (2 : ℝ) ^ (0 : ℤ) := zpow_le_zpow_right₀ (by norm_num) (by
      have := w.emin; omega)
    rw [zpow_zero] at h1
    linarith)
  rw [← hb, ← hue, abs_of_nonneg (show 0 ≤ 1 + a by linarith)] at be
  have bv : Val (C.add (.num 1) (C.mul wv wv)) b := by
    rw [hb]
    refine add_val (Val.num one_ne_zero) av ?_
    rw [← hb, abs_of_nonneg (by linarith)]
    linarith
  have bR : Rep C.p C.emin b := by rw [hb]; exact C.rnd_rep _
  have hbC : C.Has (.num b) := ⟨by linarith, bR, by rw [abs_of_pos (by linarith)]; linarith⟩
  obtain ⟨v, r, h1, h2, h3, h4⟩ := sqrt_inv w (by linarith : 0 < b) hbC
  refine ⟨v, r, ?_, h2, ?_⟩
  · rw [bv.eq_num (by linarith), sqrt_num ⟨le_refl _, le_refl _, le_refl _⟩ (by linarith) hbC, h1, Option.map_some]
    congr 1
    obtain ⟨s, rfl⟩ := h2
    refine cvt_mkv h3 ?_
    have hs2 := Real.mul_self_sqrt (show 0 ≤ b by linarith)
    have hs0 := Real.sqrt_nonneg b
    have hs1 : Real.sqrt b ≤ 3 / 2 := by nlinarith
    rw [abs_le] at h4
    rw [abs_lt]
    constructor <;> nlinarith
  · -- the error
    have he : |b - (1 + q * q)| ≤ 21 / 8 * u * (1 + q * q) := by
      exact hypot_sum (hue ▸ hu) (hue ▸ hu8) (hηe ▸ hη0) hηu hq0 hq1 k0 kk1 ke ae be
    obtain ⟨T, hT⟩ : ∃ T, T = Real.sqrt (1 + q * q) := ⟨_, rfl⟩
    obtain ⟨S, hS⟩ : ∃ S, S = Real.sqrt b := ⟨_, rfl⟩
    have hTT : T * T = 1 + q * q := by rw [hT]; exact Real.mul_self_sqrt (by nlinarith)
    have hSS : S * S = b := by rw [hS]; exact Real.mul_self_sqrt (by linarith)
    have hT1 : 1 ≤ T := by rw [hT]; exact Real.one_le_sqrt.2 (by nlinarith)
    have hS1 : 1 ≤ S := by rw [hS]; exact Real.one_le_sqrt.2 b1
    rw [← hT, ← hue]
    rw [← hS, ← hue] at h4
    rw [← hTT, ← hSS] at he
    rw [← hue] at hu hu8
    exact hypot_root hu hu8 hT1 hS1 he h4

/-- the product of the factor and the larger argument -/
theorem hypotImpl2_val (w : C.Wide) {x y : ℝ} (hx0 : 0 < x) (hy0 : 0 < y) (hyx : y ≤ x)
    (hmax : (1 + 5 * C.u) * Real.sqrt (x * x + y * y) ≤ (1 - C.u) * (2 : ℝ) ^ C.emax) :
    ∃ v r, hypotImpl2 C (.num x) (C.div (.num y) (.num x)) = some v ∧ Val v r ∧
      |r - Real.sqrt (x * x + y * y)| ≤ 5 * C.u * Real.sqrt (x * x + y * y) + (2 : ℝ) ^ C.emin / 2 ∧
      Rep C.p C.emin r ∧ |r| < (2 : ℝ) ^ C.emax := by
  have hu := u_pos (F := C)
  have hu8 := u_small w
  have hq0 : 0 ≤ y / x := le_of_lt (div_pos hy0 hx0)
  have hq1 : y / x ≤ 1 := (div_le_one hx0).2 hyx
  have hw : Val (C.div (.num y) (.num x)) (C.rnd (y / x)) := by
    refine div_val (Val.num (ne_of_gt hy0)) (Val.num (ne_of_gt hx0)) (ne_of_gt hx0) ?_
    have h1 : 0 ≤ C.rnd (y / x) := le_rnd hq0 Rep.zero
    have h2 : C.rnd (y / x) ≤ 1 := rnd_le hq1 C.rep_one
    rw [abs_of_nonneg h1]
    exact lt_of_le_of_lt h2 (MathRound.one_lt_emax C)
  obtain ⟨v, r, h1, h2, h3⟩ := hypot_factor w hq0 hq1 hw
  have hT : Real.sqrt (x * x + y * y) = x * Real.sqrt (1 + y / x * (y / x)) := by
    rw [show x * x + y * y = x * x * (1 + y / x * (y / x)) by field_simp, Real.sqrt_mul (by positivity),
      Real.sqrt_mul_self (le_of_lt hx0)]
  obtain ⟨H, hH⟩ : ∃ H, H = Real.sqrt (x * x + y * y) := ⟨_, rfl⟩
  have hH0 : 0 < H := by rw [hH]; positivity
  have h4 : |x * r - H| ≤ 15 / 4 * C.u * H := by
    rw [hH, hT, ← mul_sub, abs_mul, abs_of_pos hx0]
    calc _ ≤ x * (15 / 4 * C.u * Real.sqrt (1 + y / x * (y / x))) := mul_le_mul_of_nonneg_left h3 (le_of_lt hx0)
      _ = _ := by ring
  rw [← hH] at hmax
  have h5 := abs_le.1 h4
  have hz0 : 0 < x * r := by nlinarith [h5.1]
  have hrep : Rep C.p C.emin ((1 - C.u) * (2 : ℝ) ^ C.emax) := by
    have hE := C.p_lt_emax
    have hem := C.emin_le
    have h2p := C.two_le_p
    refine ⟨2 ^ C.p - 1, C.emax - C.p, by omega, ?_, ?_⟩
    · have : (1 : ℤ) ≤ 2 ^ C.p := one_le_pow₀ (by norm_num)
      rw [abs_of_nonneg (by omega)]
      omega
    · push_cast
      unfold u
      rw [sub_mul, sub_mul, one_mul, one_mul, ← zpow_natCast, ← zpow_add₀ (by norm_num), ← zpow_add₀ (by norm_num)]
      congr 2 <;> ring
  have hzM : x * r ≤ (1 - C.u) * (2 : ℝ) ^ C.emax := by nlinarith [h5.2]
  have hlt : |C.rnd (x * r)| < (2 : ℝ) ^ C.emax := by
    have h6 : 0 ≤ C.rnd (x * r) := le_rnd (le_of_lt hz0) Rep.zero
    have h7 := rnd_le hzM hrep
    rw [abs_of_nonneg h6]
    have : (0 : ℝ) < (2 : ℝ) ^ C.emax := by positivity
    nlinarith
  refine ⟨C.mul (.num x) v, C.rnd (x * r), ?_, mul_val (Val.num (ne_of_gt hx0)) h2 hlt, ?_, C.rnd_rep _, hlt⟩
  · unfold hypotImpl2
    rw [h1]
    rfl
  · have h6 := rnd_err (F := C) (x * r)
    rw [abs_of_pos hz0] at h6
    rw [← hH]
    have h7 : C.u * (x * r) ≤ C.u * (H + 15 / 4 * C.u * H) := mul_le_mul_of_nonneg_left (by linarith [h5.2]) (le_of_lt hu)
    have h8 : C.u * (C.u * H) ≤ 1 / 256 * (C.u * H) := mul_le_mul_of_nonneg_right hu8 (mul_nonneg (le_of_lt hu) (le_of_lt hH0))
    have h9 : 0 ≤ C.u * H := mul_nonneg (le_of_lt hu) (le_of_lt hH0)
    rw [abs_le] at h6 ⊢
    constructor <;> nlinarith [h6.1, h6.2, h5.1, h5.2]

end MathSqrt

end Sprout
