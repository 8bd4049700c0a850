import Verif.Model.Float
import Mathlib.Algebra.Order.Round
import Mathlib.Algebra.Order.Field.Power
import Mathlib.Tactic.FieldSimp

/-! # Lemmas on floating types -/

namespace Sprout

open Classical

namespace Rep

variable {p : ℕ} {emin : ℤ}

theorem zero : Rep p emin 0 := ⟨0, emin, le_refl _, by simp, by simp⟩

theorem neg {x : ℝ} (h : Rep p emin x) : Rep p emin (-x) := by
  obtain ⟨m, e, h1, h2, h3⟩ := h
  exact ⟨-m, e, h1, by simpa using h2, by rw [h3]; push_cast; ring⟩

theorem abs {x : ℝ} (h : Rep p emin x) : Rep p emin |x| := by
  rcases abs_choice x with e | e <;> rw [e]
  exacts [h, h.neg]

/-- powers of two -/
theorem two_zpow (e : ℤ) (h : emin ≤ e) (hp : 1 ≤ p) : Rep p emin ((2 : ℝ) ^ e) :=
  ⟨1, e, h, by
    have : (2 : ℤ) ^ 1 ≤ 2 ^ p := pow_le_pow_right₀ (by norm_num) hp
    simp; omega, by simp⟩

/-- scaling down to any exponent above the least -/
theorem mul_zpow {x : ℝ} (m e : ℤ) (hx : x = m * (2 : ℝ) ^ e) (hm : |m| < 2 ^ p) (k : ℤ) (h : emin ≤ e + k) :
    Rep p emin (x * (2 : ℝ) ^ k) :=
  ⟨m, e + k, h, hm, by rw [hx, zpow_add₀ (by norm_num)]; ring⟩

/-- integers of at most `p` bits, and the power following them -/
theorem int (n : ℤ) (hn : |n| ≤ 2 ^ p) (he : emin ≤ 0) (hp : 1 ≤ p) : Rep p emin (n : ℝ) := by
  rcases lt_or_eq_of_le hn with h | h
  · exact ⟨n, 0, he, h, by simp⟩
  · obtain ⟨q, rfl⟩ : ∃ q, p = q + 1 := ⟨p - 1, by omega⟩
    have h2 : |(2 : ℤ) ^ q| < 2 ^ (q + 1) := by
      rw [abs_of_pos (by positivity), pow_succ]
      have : (0 : ℤ) < 2 ^ q := by positivity
      omega
    rcases abs_choice n with e | e
    · refine ⟨2 ^ q, 1, by omega, h2, ?_⟩
      rw [← e, h]; push_cast; rw [pow_succ]; simp
    · refine ⟨-2 ^ q, 1, by omega, by simpa using h2, ?_⟩
      have : n = -|n| := by omega
      rw [this, h]; push_cast; rw [pow_succ]; simp

/-- a representable number is an integer or a multiple of a negative power of two -/
theorem split {x : ℝ} (h : Rep p emin x) :
    (∃ n : ℤ, x = n) ∨ ∃ (m : ℤ) (k : ℕ), 1 ≤ k ∧ emin ≤ -(k : ℤ) ∧ |m| < 2 ^ p ∧ x = m * ((2 : ℝ) ^ k)⁻¹ := by
  obtain ⟨m, e, h1, h2, h3⟩ := h
  rcases le_or_gt 0 e with he | he
  · left
    obtain ⟨k, rfl⟩ := Int.eq_ofNat_of_zero_le he
    exact ⟨m * 2 ^ k, by rw [h3]; push_cast; simp⟩
  · right
    obtain ⟨k, hk⟩ := Int.eq_ofNat_of_zero_le (show 0 ≤ -e by omega)
    have : e = -(k : ℤ) := by omega
    subst this
    exact ⟨m, k, by omega, by omega, h2, by rw [h3, zpow_neg, zpow_natCast]⟩

/-- the parts of a nonnegative number are representable -/
theorem parts {x : ℝ} (h : Rep p emin x) (hx : 0 ≤ x) (he : emin ≤ 0) (hp : 1 ≤ p) :
    Rep p emin (⌊x⌋ : ℝ) ∧ Rep p emin (x - ⌊x⌋) ∧ (x ≠ ⌊x⌋ → Rep p emin (⌊x⌋ + 1 : ℝ) ∧ (⌊x⌋ + 1 : ℝ) ≤ 2 ^ p) := by
  rcases h.split with ⟨n, hn⟩ | ⟨m, k, hk, h1, h2, h3⟩
  · subst hn
    simp only [Int.floor_intCast, sub_self]
    exact ⟨h, zero, fun hh => absurd rfl hh⟩
  · have hpos : (0 : ℝ) < 2 ^ k := by positivity
    have hm : 0 ≤ m := by
      by_contra hc
      have : (m : ℝ) < 0 := by exact_mod_cast (by omega : m < 0)
      have : x < 0 := by rw [h3]; exact mul_neg_of_neg_of_pos this (by positivity)
      linarith
    have hk2 : (2 : ℤ) ≤ 2 ^ k := by
      calc (2 : ℤ) = 2 ^ 1 := by norm_num
        _ ≤ 2 ^ k := pow_le_pow_right₀ (by norm_num) hk
    have hkp : (0 : ℤ) < 2 ^ k := by omega
    have hdm : m % 2 ^ k + 2 ^ k * (m / 2 ^ k) = m := Int.emod_add_mul_ediv m (2 ^ k)
    have hr0 := Int.emod_nonneg m (ne_of_gt hkp)
    have hr1 := Int.emod_lt_of_pos m hkp
    have hq0 : 0 ≤ m / 2 ^ k := Int.ediv_nonneg hm (le_of_lt hkp)
    generalize m % 2 ^ k = r at hdm hr0 hr1
    generalize m / 2 ^ k = q at hdm hq0
    have hmr : (m : ℝ) = r + 2 ^ k * q := by
      rw [← hdm]; push_cast; ring
    have hxq : x = q + r * ((2 : ℝ) ^ k)⁻¹ := by
      rw [h3, hmr]; field_simp; ring
    have hr0' : (0 : ℝ) ≤ r := by exact_mod_cast hr0
    have hr1' : (r : ℝ) < 2 ^ k := by exact_mod_cast hr1
    have hfl : ⌊x⌋ = q := by
      rw [Int.floor_eq_iff, hxq]
      constructor
      · have : 0 ≤ (r : ℝ) * ((2 : ℝ) ^ k)⁻¹ := by positivity
        linarith
      · have : (r : ℝ) * ((2 : ℝ) ^ k)⁻¹ < 1 := by
          rw [← div_eq_mul_inv, div_lt_one hpos]; exact hr1'
        linarith
    have hqm : 2 * q ≤ m := by nlinarith
    rw [abs_of_nonneg hm] at h2
    have hrm : r ≤ m := by nlinarith
    rw [hfl]
    refine ⟨int q (by rw [abs_of_nonneg hq0]; omega) he hp, ?_, fun _ => ?_⟩
    · refine ⟨r, -(k : ℤ), h1, by rw [abs_of_nonneg hr0]; omega, ?_⟩
      rw [hxq, zpow_neg, zpow_natCast]; ring
    · have : ((q : ℝ) + 1) = ((q + 1 : ℤ) : ℝ) := by push_cast; ring
      rw [this]
      have h2p : (2 : ℤ) ^ 1 ≤ 2 ^ p := pow_le_pow_right₀ (by norm_num) hp
      exact ⟨int (q + 1) (by rw [abs_of_nonneg (by omega)]; omega) he hp, by exact_mod_cast (by omega : q + 1 ≤ 2 ^ p)⟩

end Rep

namespace Fmt

variable (F : Fmt)

theorem emin_le_zero : F.emin ≤ 0 := by have := F.emin_le; have := F.two_le_p; omega

theorem one_le_p : 1 ≤ F.p := by have := F.two_le_p; omega

theorem rep_int (n : ℤ) (hn : |n| ≤ 2 ^ F.p) : Rep F.p F.emin (n : ℝ) :=
  Rep.int n hn F.emin_le_zero F.one_le_p

theorem rep_one : Rep F.p F.emin 1 := by
  have h := F.rep_int 1 (by simp; exact one_le_pow₀ (by norm_num))
  simpa using h

variable {F}

theorem rnd_of_rep {x : ℝ} (h : Rep F.p F.emin x) : F.rnd x = x := by
  have := F.rnd_near x x h
  simp at this
  linarith

theorem rnd_zero : F.rnd 0 = 0 := rnd_of_rep Rep.zero

theorem rnd_mono {x y : ℝ} (h : x ≤ y) : F.rnd x ≤ F.rnd y := by
  by_contra hc
  rw [not_le] at hc
  rcases eq_or_lt_of_le h with e | e
  · rw [e] at hc; exact lt_irrefl _ hc
  have h1 := F.rnd_near x (F.rnd y) (F.rnd_rep y)
  have h2 := F.rnd_near y (F.rnd x) (F.rnd_rep x)
  rcases abs_cases (F.rnd x - x) with ⟨a, _⟩ | ⟨a, _⟩ <;> rcases abs_cases (F.rnd y - x) with ⟨b, _⟩ | ⟨b, _⟩ <;>
    rcases abs_cases (F.rnd y - y) with ⟨c, _⟩ | ⟨c, _⟩ <;> rcases abs_cases (F.rnd x - y) with ⟨d, _⟩ | ⟨d, _⟩ <;>
    rw [a, b] at h1 <;> rw [c, d] at h2 <;> linarith

theorem le_rnd {x y : ℝ} (h : x ≤ y) (hx : Rep F.p F.emin x) : x ≤ F.rnd y := by
  have := rnd_mono (F := F) h
  rwa [rnd_of_rep hx] at this

theorem rnd_le {x y : ℝ} (h : x ≤ y) (hy : Rep F.p F.emin y) : F.rnd x ≤ y := by
  have := rnd_mono (F := F) h
  rwa [rnd_of_rep hy] at this

theorem rnd_nonneg {x : ℝ} (h : 0 ≤ x) : 0 ≤ F.rnd x := le_rnd h Rep.zero

theorem ofReal_rep {s : Bool} {r : ℝ} (h : Rep F.p F.emin r) (hb : |r| < (2 : ℝ) ^ F.emax) :
    F.ofReal s r = if r = 0 then .zero s else .num r := by
  unfold ofReal
  rw [rnd_of_rep h, if_neg (not_le.2 hb)]

theorem ofReal_num {s : Bool} {r : ℝ} (h : Rep F.p F.emin r) (hb : |r| < (2 : ℝ) ^ F.emax) (h0 : r ≠ 0) :
    F.ofReal s r = .num r := by
  rw [ofReal_rep h hb, if_neg h0]

theorem ofReal_zero {s : Bool} : F.ofReal s 0 = .zero s := by
  unfold ofReal
  rw [rnd_zero, if_pos rfl]

/-- conversion of a representable value -/
theorem cvt_num {x : ℝ} (h : Rep F.p F.emin x) (hb : |x| < (2 : ℝ) ^ F.emax) (h0 : x ≠ 0) : F.cvt (.num x) = .num x := by
  simp only [cvt]
  rw [ofReal_num h hb h0]

theorem Sub.rep {G : Fmt} (h : F.Sub G) {x : ℝ} (hx : Rep F.p F.emin x) : Rep G.p G.emin x := by
  obtain ⟨m, e, h1, h2, h3⟩ := hx
  refine ⟨m, e, le_trans h.2.1 h1, lt_of_lt_of_le h2 ?_, h3⟩
  exact pow_le_pow_right₀ (by norm_num) h.1

theorem Sub.lt {G : Fmt} (h : F.Sub G) {x : ℝ} (hx : x < (2 : ℝ) ^ F.emax) : x < (2 : ℝ) ^ G.emax :=
  lt_of_lt_of_le hx (zpow_le_zpow_right₀ (by norm_num) h.2.2)

/-- rounding to an interval between representable numbers -/
theorem two_pow_le_emax {x : ℝ} (h : |x| ≤ 2 ^ F.p) : |x| < (2 : ℝ) ^ F.emax := by
  refine lt_of_le_of_lt h ?_
  rw [← zpow_natCast]
  exact zpow_lt_zpow_right₀ (by norm_num) F.p_lt_emax

/-! ### Rounding to nearest exists -/

/-- exponent of the last bit of the numbers like `x` -/
noncomputable def lastExp (p : ℕ) (emin : ℤ) (x : ℝ) : ℤ := Max.max (Int.log 2 |x| + 1 - p) emin

/-- rounding to the nearest multiple of the last bit -/
noncomputable def nearest (p : ℕ) (emin : ℤ) (x : ℝ) : ℝ :=
  (round (x / (2 : ℝ) ^ lastExp p emin x) : ℝ) * (2 : ℝ) ^ lastExp p emin x

theorem nearest_dist (p : ℕ) (emin : ℤ) (x : ℝ) (n : ℤ) :
    |nearest p emin x - x| ≤ |n * (2 : ℝ) ^ lastExp p emin x - x| := by
  unfold nearest
  generalize lastExp p emin x = k
  have hk : (0 : ℝ) < (2 : ℝ) ^ k := by positivity
  have h := round_le (x / (2 : ℝ) ^ k) n
  have e : ∀ r : ℝ, |r * (2 : ℝ) ^ k - x| = |x / (2 : ℝ) ^ k - r| * (2 : ℝ) ^ k := by
    intro r
    rw [← abs_of_pos hk, ← abs_mul, abs_of_pos hk, abs_sub_comm]
    congr 1
    field_simp
  rw [e, e]
  exact mul_le_mul_of_nonneg_right h (le_of_lt hk)

theorem abs_lt_two_zpow_log {x : ℝ} (hx : x ≠ 0) : (2 : ℝ) ^ Int.log 2 |x| ≤ |x| ∧ |x| < (2 : ℝ) ^ (Int.log 2 |x| + 1) :=
  ⟨by simpa using Int.zpow_log_le_self (b := 2) (by norm_num) (abs_pos.2 hx),
   by simpa using Int.lt_zpow_succ_log_self (b := 2) (by norm_num) |x|⟩

theorem nearest_rep (p : ℕ) (emin : ℤ) (hp : 1 ≤ p) (x : ℝ) : Rep p emin (nearest p emin x) := by
  rcases eq_or_ne x 0 with rfl | hx
  · unfold nearest; simp; exact Rep.zero
  unfold nearest
  have hk : emin ≤ lastExp p emin x := le_max_right _ _
  have hl : Int.log 2 |x| + 1 - p ≤ lastExp p emin x := le_max_left _ _
  generalize lastExp p emin x = k at *
  have hpk : (0 : ℝ) < (2 : ℝ) ^ k := by positivity
  have hle : |x / (2 : ℝ) ^ k| ≤ ((2 ^ p : ℤ) : ℝ) := by
    rw [abs_div, abs_of_pos hpk, div_le_iff₀ hpk]
    refine le_trans (le_of_lt (abs_lt_two_zpow_log hx).2) ?_
    push_cast
    rw [← zpow_natCast, ← zpow_add₀ (by norm_num)]
    exact zpow_le_zpow_right₀ (by norm_num) (by omega)
  have rmono : ∀ {a b : ℝ}, a ≤ b → round a ≤ round b := by
    intro a b h
    rw [round_eq, round_eq]
    exact Int.floor_mono (by linarith)
  have hr : |round (x / (2 : ℝ) ^ k)| ≤ 2 ^ p := by
    rw [abs_le] at hle ⊢
    constructor
    · have := rmono hle.1
      have e : (-((2 ^ p : ℤ) : ℝ)) = ((-(2 ^ p) : ℤ) : ℝ) := by push_cast; ring
      rw [e, round_intCast] at this
      exact this
    · have := rmono hle.2
      rwa [round_intCast] at this
  obtain ⟨m, e, h1, h2, h3⟩ := Rep.int (p := p) (emin := 0) _ hr (le_refl _) hp
  rw [h3]
  exact ⟨m, e + k, by omega, h2, by rw [mul_assoc, ← zpow_add₀ (by norm_num)]⟩

theorem nearest_near (p : ℕ) (emin : ℤ) (hp : 1 ≤ p) (x y : ℝ) (hy : Rep p emin y) :
    |nearest p emin x - x| ≤ |y - x| := by
  rcases eq_or_ne x 0 with rfl | hx
  · unfold nearest; simp
  obtain ⟨m, e, h1, h2, rfl⟩ := hy
  rcases le_or_gt (lastExp p emin x) e with he | he
  · obtain ⟨d, hd⟩ := Int.eq_ofNat_of_zero_le (show 0 ≤ e - lastExp p emin x by omega)
    have h := nearest_dist p emin x (m * 2 ^ d)
    have e' : ((m * 2 ^ d : ℤ) : ℝ) * (2 : ℝ) ^ lastExp p emin x = m * (2 : ℝ) ^ e := by
      have : e = d + lastExp p emin x := by omega
      rw [this, zpow_add₀ (by norm_num)]
      push_cast
      rw [zpow_natCast]
      ring
    rwa [e'] at h
  · have hl : lastExp p emin x = Int.log 2 |x| + 1 - p := by
      unfold lastExp at he ⊢
      rcases max_choice (Int.log 2 |x| + 1 - (p : ℤ)) emin with h | h
      · exact h
      · rw [h] at he; omega
    obtain ⟨h3, _⟩ := abs_lt_two_zpow_log hx
    have hy : |(m : ℝ) * (2 : ℝ) ^ e| ≤ (2 : ℝ) ^ Int.log 2 |x| := by
      rw [abs_mul, abs_of_pos (show (0 : ℝ) < (2 : ℝ) ^ e by positivity)]
      have hm : |(m : ℝ)| ≤ (2 : ℝ) ^ (p : ℤ) := by
        rw [zpow_natCast]; exact_mod_cast le_of_lt h2
      calc |(m : ℝ)| * (2 : ℝ) ^ e ≤ (2 : ℝ) ^ (p : ℤ) * (2 : ℝ) ^ e := by
            exact mul_le_mul_of_nonneg_right hm (by positivity)
        _ = (2 : ℝ) ^ ((p : ℤ) + e) := by rw [zpow_add₀ (by norm_num)]
        _ ≤ _ := zpow_le_zpow_right₀ (by norm_num) (by omega)
    obtain ⟨q, rfl⟩ : ∃ q, p = q + 1 := ⟨p - 1, by omega⟩
    have hg : ((2 ^ q : ℤ) : ℝ) * (2 : ℝ) ^ lastExp (q + 1) emin x = (2 : ℝ) ^ Int.log 2 |x| := by
      rw [hl]; push_cast; rw [← zpow_natCast, ← zpow_add₀ (by norm_num)]; congr 1; omega
    have hyx := abs_le.1 hy
    generalize (2 : ℝ) ^ Int.log 2 |x| = g at *
    generalize (m : ℝ) * (2 : ℝ) ^ e = y at *
    rcases lt_or_gt_of_ne hx with hn | hn
    · refine le_trans (nearest_dist _ emin x (-2 ^ q)) ?_
      have e2 : ((-2 ^ q : ℤ) : ℝ) * (2 : ℝ) ^ lastExp (q + 1) emin x = -g := by
        rw [← hg]; push_cast; ring
      rw [e2]
      have h3' : g ≤ -x := by rwa [← abs_of_neg hn]
      rw [abs_of_nonneg (by linarith), abs_of_nonneg (by linarith)]
      linarith
    · refine le_trans (nearest_dist _ emin x (2 ^ q)) ?_
      rw [hg]
      have h3' : g ≤ x := by rwa [abs_of_pos hn] at h3
      rw [abs_of_nonpos (by linarith), abs_of_nonpos (by linarith)]
      linarith

/-- floating types exist: that of `p` bits with exponents from `emin` to `emax` -/
noncomputable def ieee (p : ℕ) (emin emax : ℤ) (h2 : 2 ≤ p) (h : emin ≤ 2 - 2 * (p : ℤ)) (hm : (p : ℤ) < emax) : Fmt where
  p := p
  emin := emin
  emax := emax
  rnd := nearest p emin
  two_le_p := h2
  emin_le := h
  p_lt_emax := hm
  rnd_rep := nearest_rep p emin (by omega)
  rnd_near := nearest_near p emin (by omega)

/-- `float` -/
noncomputable def float : Fmt := ieee 24 (-149) 128 (by norm_num) (by norm_num) (by norm_num)

/-- `double` -/
noncomputable def double : Fmt := ieee 53 (-1074) 1024 (by norm_num) (by norm_num) (by norm_num)

/-- `long double` of 64 bits -/
noncomputable def extended : Fmt := ieee 64 (-16445) 16384 (by norm_num) (by norm_num) (by norm_num)

/-- `long double` of 113 bits -/
noncomputable def quad : Fmt := ieee 113 (-16494) 16384 (by norm_num) (by norm_num) (by norm_num)

end Fmt

end Sprout
