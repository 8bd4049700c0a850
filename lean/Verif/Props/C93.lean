import Verif.Proofs.MathHypot

/-! # C93: square roots -/

namespace Sprout

open Classical FV Fmt MathSqrt

/-- `sqrt` of a positive number ends and has, in the type of computation, a relative error of at most the epsilon; it is
then rounded to the type of the argument. -/
theorem C93_sqrt_near (F C : Fmt) (hs : F.Sub C) (w : C.Wide) (x : ℝ) (hx0 : 0 < x) (hx : F.Has (.num x)) :
    ∃ v r, sqrt F C (.num x) = some (F.cvt v) ∧ C.Has v ∧ v.isFin ∧ v.val = r ∧
      |r - Real.sqrt x| ≤ (2 : ℝ) ^ (1 - (C.p : ℤ)) * Real.sqrt x := by
  have hxC : C.Has (.num x) := ⟨hx.1, hs.rep hx.2.1, hs.lt hx.2.2⟩
  obtain ⟨v, r, h1, h2, h3, h4⟩ := sqrt_inv w hx0 hxC
  have e : (2 : ℝ) ^ (1 - (C.p : ℤ)) = 2 * C.u := by
    unfold u
    rw [sub_eq_add_neg, zpow_add₀ (by norm_num), zpow_one]
  refine ⟨v, r, by rw [sqrt_num hs hx0 hx, h1]; rfl, ?_, h2.isFin, h2.val, by rw [e]; exact h4⟩
  obtain ⟨s, rfl⟩ := h2
  have hR := Real.sqrt_pos.2 hx0
  have hu8 := u_small w
  refine has_mkv h3 ?_
  rw [abs_le] at h4
  have hr0 : 0 < r := by nlinarith [u_pos (F := C)]
  rw [abs_of_pos hr0]
  have hR2 := Real.mul_self_sqrt (le_of_lt hx0)
  have hb := hxC.2.2
  rw [abs_of_pos hx0] at hb
  have h16 : (16 : ℝ) ≤ (2 : ℝ) ^ C.emax := by
    have := w.emax
    have := w.p8
    calc (16 : ℝ) = (2 : ℝ) ^ (4 : ℤ) := by norm_num
      _ ≤ _ := zpow_le_zpow_right₀ (by norm_num) (by omega)
  have hle : r ≤ 2 * Real.sqrt x := by nlinarith
  apply lt_of_pow_lt_pow_left₀ 2 (by positivity)
  nlinarith

/-- In the type of computation itself the error is at most the epsilon. Missing: the correct rounding which IEC 60559
demands, see `C93_sqrt_refuted`. -/
theorem C93_sqrt_partial (F : Fmt) (w : F.Wide) (x : ℝ) (hx0 : 0 < x) (hx : F.Has (.num x)) :
    ∃ v, sqrt F F (.num x) = some v ∧ F.Has v ∧ v.isFin ∧
      |v.val - Real.sqrt x| ≤ (2 : ℝ) ^ (1 - (F.p : ℤ)) * Real.sqrt x := by
  obtain ⟨v, r, h1, h2, h3, rfl, h5⟩ := C93_sqrt_near F F ⟨le_refl _, le_refl _, le_refl _⟩ w x hx0 hx
  have hc : F.cvt v = v := by
    rw [h2.eq_mkv h3, cvt_mkv h2.rep h2.lt]
  rw [hc] at h1
  exact ⟨v, h1, h2, h3, h5⟩

/-- A type of less than half the precision of the type of computation, as `float`, gets correctly rounded square roots. -/
theorem C93_sqrt_float (F C : Fmt) (hs : F.Sub C) (w : C.Wide) (hF : F.Wide) (hp : 2 * F.p + 5 ≤ C.p) (x : ℝ) (hx0 : 0 < x)
    (hx : F.Has (.num x)) : sqrt F C (.num x) = some (.num (F.rnd (Real.sqrt x))) :=
  sqrt_float hs w hF hp hx0 hx

/-- Square roots of squares are exact. -/
theorem C93_sqrt_exact (F C : Fmt) (hs : F.Sub C) (w : C.Wide) (k : ℝ) (hk0 : 0 < k) (hk : F.Has (.num k))
    (hx : F.Has (.num (k * k))) : sqrt F C (.num (k * k)) = some (.num k) := by
  have hx0 : 0 < k * k := mul_pos hk0 hk0
  have hxC : C.Has (.num (k * k)) := ⟨hx.1, hs.rep hx.2.1, hs.lt hx.2.2⟩
  have hkC : Rep C.p C.emin k := hs.rep hk.2.1
  have hsq : Real.sqrt (k * k) = k := Real.sqrt_mul_self (le_of_lt hk0)
  have H := Root.mk' w hx0 hxC.2.1 hxC.2.2
  have hn := H.normal
  have hu8 := u_small w
  rw [hsq] at hn
  have hn' : (2 : ℝ) ^ (C.emin + C.p) ≤ k := by nlinarith
  obtain ⟨v, r, a1, a2, a3, a4, a5, a6, a7⟩ := sqrtImpl_inv (P := fun s => k ≤ s) w hx0 hxC.2.1 hxC.2.2
    (by
      rcases le_or_gt (k * k) 1 with h | h
      · exact .inr h
      · left
        have : 1 < k := by nlinarith
        nlinarith)
    (by
      rcases le_or_gt (k * k) 1 with h | h
      · left; nlinarith
      · exact .inr h)
    (by
      intro h
      have : 2 ≤ k := by nlinarith
      nlinarith)
    (fun s hs0 hsr hP => stepR_square w hkC rfl hn' hP)
  have hrk : r = k := by
    rcases eq_or_lt_of_le a6 with h | h
    · exact h.symm
    · exact absurd (stepR_square_lt w hkC a3 rfl hn' h) (not_lt.2 a7)
  rw [sqrt_num hs hx0 hx, a1, Option.map_some, a2.eq_num (by rw [hrk]; exact ne_of_gt hk0), hrk,
    cvt_num hk.2.1 hk.2.2 (ne_of_gt hk0)]

/-- special values -/
theorem C93_sqrt_special (F C : Fmt) : sqrt F C .nan = some .nan ∧ sqrt F C (.inf false) = some (.inf false) ∧
    sqrt F C (.inf true) = some .nan ∧ (∀ s, sqrt F C (.zero s) = some (.zero s)) ∧
    (∀ x : ℝ, x < 0 → sqrt F C (.num x) = some .nan) := by
  refine ⟨?_, ?_, ?_, ?_, ?_⟩
  · simp [sqrt, MathClass.isnan]
  · simp [sqrt, MathClass.isnan]
  · simp [sqrt, MathClass.isnan]
  · intro s; simp [sqrt, MathClass.isnan]
  · intro x hx
    simp [sqrt, MathClass.isnan, hx]

/-- The root is not rounded correctly in the type of computation: that of the number before 1 is 1, if the tie 2 - 2 ^ -p
is rounded to even (or up), but the nearest value is the number before 1 itself. -/
theorem C93_sqrt_refuted (F : Fmt) (w : F.Wide) (htie : F.rnd (2 - (2 : ℝ) ^ (-(F.p : ℤ))) = 2) :
    sqrt F F (.num (1 - (2 : ℝ) ^ (-(F.p : ℤ)))) = some (.num 1) ∧
    F.rnd (Real.sqrt (1 - (2 : ℝ) ^ (-(F.p : ℤ)))) = 1 - (2 : ℝ) ^ (-(F.p : ℤ)) := by
  have hu := u_pos (F := F)
  have hu8 := u_small w
  have hp := w.p8
  have hE := w.emin
  show sqrt F F (.num (1 - F.u)) = _ ∧ F.rnd (Real.sqrt (1 - F.u)) = 1 - F.u
  change F.rnd (2 - F.u) = 2 at htie
  have hx0 : 0 < 1 - F.u := by linarith
  have e1 : F.u * 2 ^ F.p = 1 := by
    unfold u
    rw [← zpow_natCast, ← zpow_add₀ (by norm_num)]
    simp
  have hrep : Rep F.p F.emin (1 - F.u) := by
    refine ⟨2 ^ F.p - 1, -F.p, by omega, ?_, ?_⟩
    · have : (1 : ℤ) ≤ 2 ^ F.p := one_le_pow₀ (by norm_num)
      rw [abs_of_nonneg (by omega)]
      omega
    · push_cast
      have : (2 : ℝ) ^ (-(F.p : ℤ)) = F.u := rfl
      rw [this]
      nlinarith
  have hlt : |1 - F.u| < (2 : ℝ) ^ F.emax := by
    rw [abs_of_pos hx0]
    linarith [MathRound.one_lt_emax F]
  have hx : F.Has (.num (1 - F.u)) := ⟨ne_of_gt hx0, hrep, hlt⟩
  have hone : Val (.num 1) 1 := Val.num one_ne_zero
  have hxv : Val (.num (1 - F.u)) (1 - F.u) := Val.num (ne_of_gt hx0)
  constructor
  · rw [sqrt_num ⟨le_refl _, le_refl _, le_refl _⟩ hx0 hx]
    unfold sqrtImpl sqrtImpl1
    rw [if_neg (by rw [hone.lt_iff hxv]; linarith)]
    have H := Root.mk' w hx0 hrep hlt
    have hR1 : Real.sqrt (1 - F.u) ≤ 1 := Real.sqrt_le_one.2 (by linarith)
    obtain ⟨v1, -⟩ := H.step_val (s := 1) (by nlinarith [H.pos]) (by
      calc (1 : ℝ) = (2 : ℝ) ^ (0 : ℤ) := by norm_num
        _ ≤ _ := zpow_le_zpow_right₀ (by norm_num) (by have := w.emax; omega)) hxv hone
    have e2 : stepR F (1 - F.u) 1 = 1 := by
      unfold stepR
      rw [div_one, rnd_of_rep hrep, show 1 - F.u + 1 = 2 - F.u by ring, htie]
      norm_num
    rw [e2] at v1
    rw [sqrtImpl2.eq_def, if_pos (by rw [v1.lt_iff hone]; exact lt_irrefl _), Option.map_some,
      cvt_num F.rep_one (by rw [abs_one]; exact MathRound.one_lt_emax F) one_ne_zero]
  · have hs2 := Real.mul_self_sqrt (le_of_lt hx0)
    have hs0 := Real.sqrt_pos.2 hx0
    set y := Real.sqrt (1 - F.u)
    have hy1 : y < 1 - F.u / 2 := by nlinarith
    have hy2 : 1 - F.u < y := by nlinarith
    have e3 : (2 : ℝ) ^ (-(F.p : ℤ)) = F.u := rfl
    have e4 : (((2 ^ F.p - 1 : ℤ)) : ℝ) * (2 : ℝ) ^ (-(F.p : ℤ)) = 1 - F.u := by
      push_cast
      rw [e3]
      nlinarith
    have h3 := rnd_eq (F := F) (x := y) (m := 2 ^ F.p - 1) (e := -F.p) (by
        have : (2 : ℤ) ^ F.p = 2 * 2 ^ (F.p - 1) := by rw [← pow_succ']; congr 1; omega
        have : (2 : ℤ) ^ 1 ≤ 2 ^ (F.p - 1) := pow_le_pow_right₀ (by norm_num) (by omega)
        omega) (by omega) (by omega) (by
        rw [e4, e3, abs_of_pos (by linarith)]
        linarith)
    rw [h3, e4]

/-- the root of 1 - 2 ^ -53 as a `double` is 1 -/
example : sqrt Fmt.double Fmt.double (.num (1 - (2 : ℝ) ^ (-(53 : ℤ)))) = some (.num 1) := by
  refine (C93_sqrt_refuted Fmt.double wide_double ?_).1
  show nearest 53 (-1074) (2 - (2 : ℝ) ^ (-((53 : ℕ) : ℤ))) = 2
  have hl : Int.log 2 |(2 : ℝ) - (2 : ℝ) ^ (-((53 : ℕ) : ℤ))| = 0 := by
    rw [abs_of_pos (by norm_num)]
    have h1 : (0 : ℤ) ≤ Int.log 2 ((2 : ℝ) - (2 : ℝ) ^ (-((53 : ℕ) : ℤ))) :=
      (Int.zpow_le_iff_le_log (by norm_num) (by norm_num)).1 (by norm_num)
    have h2 : Int.log 2 ((2 : ℝ) - (2 : ℝ) ^ (-((53 : ℕ) : ℤ))) < 1 :=
      (Int.lt_zpow_iff_log_lt (by norm_num) (by norm_num)).1 (by norm_num)
    omega
  unfold nearest lastExp
  rw [hl]
  have e : max (0 + 1 - ((53 : ℕ) : ℤ)) (-1074) = -52 := by norm_num
  rw [e]
  have hr : round (((2 : ℝ) - (2 : ℝ) ^ (-((53 : ℕ) : ℤ))) / (2 : ℝ) ^ (-52 : ℤ)) = 2 ^ 53 := by
    rw [round_eq, Int.floor_eq_iff]
    constructor <;> norm_num
  rw [hr]
  norm_num

/-- 16 has the root 4 -/
example : sqrt Fmt.float Fmt.double (.num 16) = some (.num 4) := by
  have := C93_sqrt_exact Fmt.float Fmt.double (by simp [Fmt.Sub, Fmt.float, Fmt.double, ieee]) wide_double 4 (by norm_num)
    (by exact_mod_cast has_int Fmt.float 4 (by norm_num) (by simp [Fmt.float, ieee]))
    (by norm_num; exact_mod_cast has_int Fmt.float 16 (by norm_num) (by simp [Fmt.float, ieee]))
  norm_num at this
  exact this

/-- `hypot` of an infinity is infinity, also for NaN as the other argument; of NaN otherwise NaN; of a zero the absolute
value of the other argument. -/
theorem C93_hypot_special (F C : Fmt) (x y : FV) (hx : x ≠ .num 0) : (∀ s, hypot F C x (.inf s) = some (.inf false)) ∧
    (∀ s, hypot F C (.inf s) y = some (.inf false)) ∧
    ((∀ s, x ≠ .inf s) → hypot F C x .nan = some .nan ∧ hypot F C .nan x = some .nan) ∧
    ((∀ s, x ≠ .inf s) → ∀ s, hypot F C x (.zero s) = some x.abs ∧ hypot F C (.zero s) x = some x.abs) := by
  refine ⟨?_, ?_, ?_, ?_⟩
  · intro s; cases s <;> simp [hypot]
  · intro s; cases s <;> cases y <;> simp [hypot]
  · intro h
    cases x with
    | nan => simp [hypot, MathClass.isnan]
    | inf s => exact absurd rfl (h s)
    | zero s => simp [hypot, MathClass.isnan]
    | num a => simp [hypot, MathClass.isnan]
  · intro h s
    cases x with
    | nan => simp [hypot, MathClass.isnan, FV.abs]
    | inf s => exact absurd rfl (h s)
    | zero s => simp [hypot, MathClass.isnan, FV.abs]
    | num a =>
      simp only [hypot, MathClass.isnan]
      have h0 : a ≠ 0 := fun h => hx (by rw [h])
      simp [h0, FV.abs]

/-- `hypot` does not depend on the order of its arguments. -/
theorem C93_hypot_comm (F C : Fmt) (hs : F.Sub C) (x y : FV) (hx : F.Has x) (hy : F.Has y) :
    hypot F C x y = hypot F C y x := by
  have hx0 : x ≠ .num 0 := by rintro rfl; exact hx.1 rfl
  have hy0 : y ≠ .num 0 := by rintro rfl; exact hy.1 rfl
  cases x with
  | nan =>
    by_cases h : ∃ s, y = .inf s
    · obtain ⟨s, rfl⟩ := h
      rw [(C93_hypot_special F C .nan .nan hx0).1, (C93_hypot_special F C .nan .nan hx0).2.1]
    · have := (C93_hypot_special F C y .nan hy0).2.2.1 (fun s e => h ⟨s, e⟩)
      rw [this.1, this.2]
  | inf s => rw [(C93_hypot_special F C y y hy0).1, (C93_hypot_special F C y y hy0).2.1]
  | zero s =>
    by_cases h : ∃ s, y = .inf s
    · obtain ⟨s, rfl⟩ := h
      rw [(C93_hypot_special F C .nan _ (by simp)).2.1, (C93_hypot_special F C _ .nan hx0).1]
    · have := (C93_hypot_special F C y .nan hy0).2.2.2 (fun s e => h ⟨s, e⟩) s
      rw [this.1, this.2]
  | num a =>
    cases y with
    | nan =>
      have := (C93_hypot_special F C (.num a) .nan hx0).2.2.1 (fun s e => by simp at e)
      rw [this.1, this.2]
    | inf s => rw [(C93_hypot_special F C _ .nan hx0).1, (C93_hypot_special F C .nan _ (by simp)).2.1]
    | zero s =>
      have := (C93_hypot_special F C (.num a) .nan hx0).2.2.2 (fun s e => by simp at e) s
      rw [this.1, this.2]
    | num b =>
      have ha := hx.1
      have hb := hy.1
      have e0 : ∀ a b : ℝ, F.Has (.num a) → F.Has (.num b) →
          hypot F C (.num a) (.num b) = (hypotImpl1 C (.num |a|) (.num |b|)).map F.cvt := by
        intro a b ha hb
        unfold hypot
        simp only [MathClass.isnan, eq_num_num, eq_num_zero, eq_num_inf, ha.1, hb.1, decide_true, Bool.not_true,
          Bool.false_eq_true, if_false, or_self]
        rw [cvt_num (hs.rep ha.2.1) (hs.lt ha.2.2) ha.1, cvt_num (hs.rep hb.2.1) (hs.lt hb.2.2) hb.1]
        rfl
      rw [e0 _ _ hx hy, e0 _ _ hy hx]
      unfold hypotImpl1
      simp only [lt_num_num]
      rcases lt_trichotomy |a| |b| with h | h | h
      · rw [if_pos h, if_neg (not_lt.2 (le_of_lt h))]
      · rw [h]
      · rw [if_neg (not_lt.2 (le_of_lt h)), if_pos h]

/-- `hypot` of two numbers neither overflows nor underflows unduly: its relative error in the type of computation is at most
5 half epsilons, except for half of the least number, if the exact value is not greater than about the largest number. -/
theorem C93_hypot (F C : Fmt) (hs : F.Sub C) (w : C.Wide) (x y : ℝ) (hx : F.Has (.num x)) (hy : F.Has (.num y))
    (hmax : (1 + 5 * (2 : ℝ) ^ (-(C.p : ℤ))) * Real.sqrt (x * x + y * y) ≤ (1 - (2 : ℝ) ^ (-(C.p : ℤ))) * (2 : ℝ) ^ C.emax) :
    ∃ v, hypot F C (.num x) (.num y) = some (F.cvt v) ∧ C.Has v ∧ v.isFin ∧
      |v.val - Real.sqrt (x * x + y * y)| ≤
        5 * (2 : ℝ) ^ (-(C.p : ℤ)) * Real.sqrt (x * x + y * y) + (2 : ℝ) ^ C.emin / 2 := by
  have hx0 := hx.1
  have hy0 := hy.1
  have hcx : C.cvt (.num x) = .num x := cvt_num (hs.rep hx.2.1) (hs.lt hx.2.2) hx0
  have hcy : C.cvt (.num y) = .num y := cvt_num (hs.rep hy.2.1) (hs.lt hy.2.2) hy0
  have e0 : hypot F C (.num x) (.num y) = (hypotImpl1 C (.num |x|) (.num |y|)).map F.cvt := by
    unfold hypot
    simp only [MathClass.isnan, eq_num_num, eq_num_zero, eq_num_inf, hx0, hy0, decide_true, Bool.not_true,
      Bool.false_eq_true, if_false, or_self]
    rw [hcx, hcy]
    rfl
  have ex : |x| * |x| = x * x := abs_mul_abs_self x
  have ey : |y| * |y| = y * y := abs_mul_abs_self y
  have hax := abs_pos.2 hx0
  have hay := abs_pos.2 hy0
  rw [e0]
  unfold hypotImpl1
  by_cases hlt : |x| < |y|
  · rw [if_pos (by simpa using hlt)]
    obtain ⟨v, r, h1, h2, h3, h4, h5⟩ := hypotImpl2_val (C := C) w hay hax (le_of_lt hlt) (by
      rw [ex, ey, add_comm (y * y)]; exact hmax)
    rw [ex, ey, add_comm (y * y)] at h3
    refine ⟨v, by rw [h1]; rfl, ?_, h2.isFin, by rw [h2.val]; exact h3⟩
    obtain ⟨s, rfl⟩ := h2
    exact has_mkv h4 h5
  · rw [if_neg (by simpa using hlt)]
    obtain ⟨v, r, h1, h2, h3, h4, h5⟩ := hypotImpl2_val (C := C) w hax hay (not_lt.1 hlt) (by
      rw [ex, ey]; exact hmax)
    rw [ex, ey] at h3
    refine ⟨v, by rw [h1]; rfl, ?_, h2.isFin, by rw [h2.val]; exact h3⟩
    obtain ⟨s, rfl⟩ := h2
    exact has_mkv h4 h5

/-- the root of 2 as a `float` -/
example : sqrt Fmt.float Fmt.double (.num 2) = some (.num (Fmt.float.rnd (Real.sqrt 2))) :=
  C93_sqrt_float Fmt.float Fmt.double (by simp [Fmt.Sub, Fmt.float, Fmt.double, ieee]) wide_double wide_float
    (by simp [Fmt.float, Fmt.double, ieee]) 2 (by norm_num)
    (by exact_mod_cast has_int Fmt.float 2 (by norm_num) (by simp [Fmt.float, ieee]))

/-- the hypotenuse of 3 and 4 is near 5 -/
example : ∃ v, hypot Fmt.double Fmt.double (.num 3) (.num 4) = some (Fmt.double.cvt v) ∧ |v.val - 5| ≤ (2 : ℝ) ^ (-48 : ℤ) := by
  have e : Real.sqrt (3 * 3 + 4 * 4) = 5 := by
    rw [show (3 : ℝ) * 3 + 4 * 4 = 5 * 5 by norm_num, Real.sqrt_mul_self (by norm_num)]
  obtain ⟨v, h1, -, -, h2⟩ := C93_hypot Fmt.double Fmt.double ⟨le_refl _, le_refl _, le_refl _⟩ wide_double 3 4
    (by exact_mod_cast has_int Fmt.double 3 (by norm_num) (by simp [Fmt.double, ieee]))
    (by exact_mod_cast has_int Fmt.double 4 (by norm_num) (by simp [Fmt.double, ieee]))
    (by
      rw [e]
      have h1 : (2 : ℝ) ^ (10 : ℤ) ≤ (2 : ℝ) ^ Fmt.double.emax := zpow_le_zpow_right₀ (by norm_num) (by decide)
      have h2 : (2 : ℝ) ^ (-(Fmt.double.p : ℤ)) ≤ (2 : ℝ) ^ (-2 : ℤ) := zpow_le_zpow_right₀ (by norm_num) (by decide)
      norm_num at h1 h2 ⊢
      nlinarith)
  refine ⟨v, h1, ?_⟩
  rw [e] at h2
  refine le_trans h2 ?_
  have h3 : (2 : ℝ) ^ (-(Fmt.double.p : ℤ)) = (2 : ℝ) ^ (-53 : ℤ) := rfl
  have h4 : (2 : ℝ) ^ Fmt.double.emin ≤ (2 : ℝ) ^ (-60 : ℤ) := zpow_le_zpow_right₀ (by norm_num) (by decide)
  rw [h3]
  norm_num at h4 ⊢
  linarith

end Sprout
