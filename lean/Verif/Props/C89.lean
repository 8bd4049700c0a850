import Verif.Model.MathClass
import Verif.Proofs.FloatSimp
import Verif.Proofs.MathRound

/-! # C89: classification, signs, and functions of minimum, maximum and difference -/

namespace Sprout

open Classical MathClass FV Fmt

/-- the class of a value, for a type with the smallest normal number `2 ^ (emin + p - 1)` -/
noncomputable def classOf (F : Fmt) : FV → Class
  | .nan => .nan
  | .inf _ => .infinite
  | .zero _ => .zero
  | .num x => if |x| < (2 : ℝ) ^ (F.emin + F.p - 1) then .subnormal else .normal

namespace MathClass

theorem isnan_eq (v : FV) : isnan v = decide (v = .nan) := by
  cases v <;> simp [isnan]

theorem isinf_eq (v : FV) : isinf v = decide (∃ s, v = .inf s) := by
  cases v with
  | inf s => cases s <;> simp [isinf, FV.neg]
  | _ => simp [isinf, FV.neg]

theorem isfinite_eq (v : FV) : isfinite v = v.isFin := by
  cases v with
  | inf s => cases s <;> simp [isfinite, isnan, isinf, FV.neg, isFin]
  | _ => simp [isfinite, isnan, isinf, FV.neg, isFin]

theorem iszero_eq {F : Fmt} {v : FV} (h : F.Has v) : iszero v = decide (∃ s, v = .zero s) := by
  cases v with
  | num x => have := h.1; simp [iszero, val, this]
  | _ => simp [iszero, val]

theorem signbit_eq (v : FV) (h : ∀ s, v ≠ .zero s) : signbit v = v.sgn := by
  cases v with
  | nan => simp [signbit, isnan, sgn]
  | inf s => cases s <;> simp [signbit, isnan, sgn]
  | zero s => exact absurd rfl (h s)
  | num x =>
    simp [signbit, isnan, sgn]

theorem signbit_zero (s : Bool) : signbit (.zero s) = false := by
  simp [signbit, isnan, val]

theorem sub_or_zero_num (D : Fmt) (x : ℝ) (hx : x ≠ 0) :
    issubnormalOrZero D (.num x) = decide (|x| < (2 : ℝ) ^ (D.emin + D.p - 1)) := by
  unfold issubnormalOrZero minNormal
  simp only [FV.neg, FV.lt_zero_num, FV.lt_num_num]
  have hp : (0 : ℝ) < (2 : ℝ) ^ (D.emin + D.p - 1) := by positivity
  generalize (2 : ℝ) ^ (D.emin + D.p - 1) = m at *
  by_cases h : 0 < x
  · rw [if_pos h, decide_eq_decide, abs_of_pos h]
  · rw [if_neg h, decide_eq_decide, abs_of_nonpos (not_lt.1 h)]
    constructor <;> intro h <;> linarith

end MathClass

/-- the predicates on values -/
theorem C89_classes (F : Fmt) (v : FV) (hv : F.Has v) :
    isnan v = decide (classOf F v = .nan) ∧ isinf v = decide (classOf F v = .infinite) ∧
    iszero v = decide (classOf F v = .zero) ∧ isfinite v = v.isFin := by
  refine ⟨?_, ?_, ?_, isfinite_eq v⟩
  · rw [isnan_eq]; cases v <;> simp [classOf]; split <;> simp
  · rw [isinf_eq]; cases v <;> simp [classOf]; split <;> simp
  · rw [iszero_eq hv]; cases v <;> simp [classOf]; split <;> simp

/-- Subnormal and normal numbers are told apart in types with the smallest normal number of `double` -/
theorem C89_subnormal_partial (F D : Fmt) (h : F.emin + F.p = D.emin + D.p) (v : FV) (hv : F.Has v) :
    fpclassify D v = classOf F v ∧ issubnormal D v = decide (classOf F v = .subnormal) ∧
    isnormal D v = decide (classOf F v = .normal) := by
  have hp : (0 : ℝ) < (2 : ℝ) ^ (D.emin + D.p - 1) := by positivity
  cases v with
  | nan => simp [fpclassify, issubnormal, isnormal, isnan, classOf]
  | inf s =>
    cases s <;> simp [fpclassify, issubnormal, isnormal, isnan, isinf, classOf, FV.neg, issubnormalOrZero, minNormal]
  | zero s =>
    simp [fpclassify, issubnormal, isnormal, isnan, isinf, iszero, classOf, FV.neg, issubnormalOrZero, minNormal, val, hp]
  | num x =>
    have h0 := hv.1
    have e1 : isnan (.num x) = false := by simp [isnan]
    have e2 : isinf (.num x) = false := by simp [isinf, FV.neg]
    have e3 : iszero (.num x) = false := by simp [iszero, val, h0]
    have e4 := sub_or_zero_num D x h0
    rw [← h] at e4
    unfold fpclassify issubnormal isnormal
    rw [e1, e2, e3, e4]
    simp only [classOf]
    by_cases hc : |x| < (2 : ℝ) ^ (F.emin + F.p - 1) <;> simp [hc]

example : fpclassify Fmt.double (.num ((2 : ℝ) ^ (-1030 : ℤ))) = .subnormal := by
  rw [(C89_subnormal_partial Fmt.double Fmt.double rfl (.num _) ⟨by positivity,
    Rep.two_zpow _ (by simp [Fmt.double, ieee]) (by simp [Fmt.double, ieee]), by
      rw [abs_of_pos (by positivity)]
      exact zpow_lt_zpow_right₀ (by norm_num) (by simp [Fmt.double, ieee])⟩).1]
  simp only [classOf]
  rw [if_pos]
  rw [abs_of_pos (by positivity)]
  exact zpow_lt_zpow_right₀ (by norm_num) (by simp [Fmt.double, ieee])

/-- The limit is that of `double` for every type: subnormal numbers of a narrower type, as `float`, are called normal, and
small normal numbers of a wider type, as `long double`, are called subnormal -/
theorem C89_subnormal_refuted (F D : Fmt) :
    (D.emin + D.p < F.emin + F.p → ∃ v, F.Has v ∧ classOf F v = .subnormal ∧ fpclassify D v = .normal ∧
      issubnormal D v = false ∧ isnormal D v = true) ∧
    (F.emin + F.p < D.emin + D.p → D.emin + D.p < F.emax → ∃ v, F.Has v ∧ classOf F v = .normal ∧ fpclassify D v = .subnormal ∧
      issubnormal D v = true ∧ isnormal D v = false) := by
  have hp := F.two_le_p
  have he := F.emin_le
  have hm := F.p_lt_emax
  have key : ∀ e : ℤ, F.emin ≤ e → e < F.emax → ∃ x : ℝ, x = (2 : ℝ) ^ e ∧ F.Has (.num x) ∧
      (∀ k, |x| < (2 : ℝ) ^ k ↔ e < k) := by
    intro e h1 h2
    have hx : (0 : ℝ) < (2 : ℝ) ^ e := by positivity
    have hk : ∀ k, |(2 : ℝ) ^ e| < (2 : ℝ) ^ k ↔ e < k := by
      intro k; rw [abs_of_pos hx]; exact zpow_lt_zpow_iff_right₀ (by norm_num)
    exact ⟨_, rfl, ⟨ne_of_gt hx, Rep.two_zpow e h1 F.one_le_p, (hk _).2 h2⟩, hk⟩
  have fin : ∀ x : ℝ, x ≠ 0 → isnan (.num x) = false ∧ isinf (.num x) = false ∧ iszero (.num x) = false := by
    intro x hx
    refine ⟨by simp [isnan], by simp [isinf, FV.neg], by simp [iszero, val, hx]⟩
  constructor
  · intro h
    obtain ⟨x, _, hv, hk⟩ := key (F.emin + F.p - 2) (by omega) (by omega)
    obtain ⟨e1, e2, e3⟩ := fin x hv.1
    have e4 := sub_or_zero_num D x hv.1
    have c1 : |x| < (2 : ℝ) ^ (F.emin + F.p - 1) := (hk _).2 (by omega)
    have c2 : ¬ |x| < (2 : ℝ) ^ (D.emin + D.p - 1) := fun hh => by have := (hk _).1 hh; omega
    refine ⟨.num x, hv, ?_, ?_, ?_, ?_⟩
    · simp [classOf, c1]
    · simp [fpclassify, e1, e2, e3, e4, c2]
    · simp [issubnormal, e1, e3, e4, c2]
    · simp [isnormal, e1, e2, e4, c2]
  · intro h h'
    obtain ⟨x, _, hv, hk⟩ := key (D.emin + D.p - 2) (by omega) (by omega)
    obtain ⟨e1, e2, e3⟩ := fin x hv.1
    have e4 := sub_or_zero_num D x hv.1
    have c1 : ¬ |x| < (2 : ℝ) ^ (F.emin + F.p - 1) := fun hh => by have := (hk _).1 hh; omega
    have c2 : |x| < (2 : ℝ) ^ (D.emin + D.p - 1) := (hk _).2 (by omega)
    refine ⟨.num x, hv, ?_, ?_, ?_, ?_⟩
    · simp [classOf, c1]
    · simp [fpclassify, e1, e2, e3, e4, c2]
    · simp [issubnormal, e1, e3, e4, c2]
    · simp [isnormal, e1, e2, e4, c2]

example : Fmt.double.emin + Fmt.double.p < Fmt.float.emin + Fmt.float.p ∧
    Fmt.extended.emin + Fmt.extended.p < Fmt.double.emin + Fmt.double.p := by
  simp [Fmt.double, Fmt.float, Fmt.extended, ieee]

/-- the comparison functions, but `islessequal` -/
theorem C89_comparisons (x y : FV) :
    isless x y = decide (x.lt y) ∧ isgreater x y = decide (y.lt x) ∧ isgreaterequal x y = decide (y.le x) ∧
    islessgreater x y = decide (x.lt y ∨ y.lt x) ∧ isunordered x y = decide (x = .nan ∨ y = .nan) := by
  unfold isless isgreater isgreaterequal islessgreater isunordered
  simp only [isnan_eq]
  by_cases hx : x = .nan
  · subst hx
    have a : ¬ FV.lt .nan y := by cases y <;> simp 
    have b : ¬ FV.lt y .nan := by cases y <;> simp 
    have c : ¬ FV.le y .nan := by cases y <;> simp [FV.le_iff]
    simp [a, b, c]
  by_cases hy : y = .nan
  · subst hy
    have a : ¬ FV.lt .nan x := by cases x <;> simp 
    have b : ¬ FV.lt x .nan := by cases x <;> simp 
    have c : ¬ FV.le .nan x := by cases x <;> simp [FV.le_iff]
    simp [a, b, c]
  simp [hx, hy]

/-- `islessequal` of different numbers -/
theorem C89_islessequal_partial (x y : FV) (h : ¬ x.eq y) : islessequal x y = decide (x.le y) := by
  have e : islessequal x y = isless x y := rfl
  rw [e, (C89_comparisons x y).1, decide_eq_decide]
  unfold FV.le
  simp [h]

/-- `islessequal` of equal numbers is false -/
theorem C89_islessequal_refuted (x y : FV) (h : x.eq y) : islessequal x y = false ∧ x.le y := by
  refine ⟨?_, .inr h⟩
  have e : islessequal x y = isless x y := rfl
  rw [e, (C89_comparisons x y).1, decide_eq_false_iff_not]
  cases x <;> cases y <;> simp_all [val]

example : islessequal (.num 1) (.num 1) = false := (C89_islessequal_refuted (.num 1) (.num 1) rfl).1

/-- `fabs` is the absolute value -/
theorem C89_fabs (F : Fmt) (v : FV) (hv : F.Has v) : fabs v = v.abs := by
  have hz := signbit_zero false
  cases v with
  | nan => simp [fabs, isnan, FV.abs]
  | inf s => cases s <;> simp [fabs, isnan, FV.abs, copysign, signbit, FV.neg]
  | zero s => simp [fabs, isnan, FV.abs, val]
  | num x =>
    have h0 := hv.1
    have e := signbit_eq (.num x) (by simp)
    have e1 : isnan (.num x) = false := by simp [isnan]
    have e2 : ¬ (FV.num x).eq (.zero false) := by simp [val, h0]
    unfold fabs copysign
    rw [e1, hz, e, if_neg (by simp), if_neg e2, if_neg e2, if_neg (by simp)]
    simp only [sgn, FV.abs, FV.neg]
    rcases lt_or_gt_of_ne h0 with h | h
    · simp [h, abs_of_neg h]
    · simp [not_lt.2 (le_of_lt h), abs_of_pos h]

/-- `signbit` and `copysign`, but for a negative zero as the sign: the absolute value of the first with the sign of the
second argument -/
theorem C89_copysign_partial (F : Fmt) (x y : FV) (hx : F.Has x) (hy : F.Has y) :
    (y ≠ .zero true → signbit y = y.sgn) ∧
    (y ≠ .zero true ∨ (∃ s, x = .zero s) → copysign x y = if y.sgn then x.abs.neg else x.abs) := by
  have hs : y ≠ .zero true → signbit y = y.sgn := by
    intro h
    by_cases hz : ∃ s, y = .zero s
    · obtain ⟨s, rfl⟩ := hz
      cases s
      · rw [signbit_zero]; rfl
      · exact absurd rfl h
    · exact signbit_eq y (by push Not at hz; exact hz)
  refine ⟨hs, ?_⟩
  intro h
  cases x with
  | nan =>
    cases y <;> simp [copysign, isnan, FV.abs, FV.neg]
  | zero s =>
    cases y with
    | zero t => cases t <;> simp [copysign, val, sgn, FV.abs, FV.neg]
    | num r =>
      have h0 := hy.1
      have := hs (by simp)
      simp [copysign, val, FV.abs, h0, this]
    | nan => simp [copysign, val, FV.abs, signbit, isnan, sgn]
    | inf t => cases t <;> simp [copysign, val, FV.abs, signbit, isnan, sgn]
  | inf s =>
    have hs' := hs (by rcases h with h | ⟨t, ht⟩ <;> simp_all)
    unfold copysign
    rw [hs']
    cases s <;> cases y.sgn <;> simp [isnan, signbit, FV.neg, FV.abs]
  | num r =>
    have hs' := hs (by rcases h with h | ⟨t, ht⟩ <;> simp_all)
    have h0 := hx.1
    have e := signbit_eq (.num r) (by simp)
    have e1 : isnan (.num r) = false := by simp [isnan]
    have e2 : ¬ (FV.num r).eq (.zero false) := by simp [val, h0]
    unfold copysign
    rw [hs', e, e1, if_neg e2, if_neg (by simp)]
    simp only [FV.abs, FV.neg]
    generalize y.sgn = b
    simp only [sgn]
    rcases lt_or_gt_of_ne h0 with h | h
    · cases b <;> simp [h, abs_of_neg h]
    · cases b <;> simp [not_lt.2 (le_of_lt h), abs_of_pos h]

example : copysign (.num 3) (.num (-2)) = .num (-3) := by
  rw [(C89_copysign_partial Fmt.double (.num 3) (.num (-2))
    ⟨by norm_num, by simpa using Fmt.double.rep_int 3 (by simp [Fmt.double, ieee]),
      two_pow_le_emax (by simp [Fmt.double, ieee]; norm_num)⟩
    ⟨by norm_num, by simpa using Fmt.double.rep_int (-2) (by simp [Fmt.double, ieee]),
      two_pow_le_emax (by simp [Fmt.double, ieee]; norm_num)⟩).2 (.inl (by simp))]
  simp [sgn, FV.abs, FV.neg]

/-- The sign of a negative zero is not seen -/
theorem C89_copysign_refuted : signbit (.zero true) = false ∧ copysign (.num 1) (.zero true) = .num 1 ∧
    copysign (.num (-1)) (.zero true) = .num 1 := by
  have h := signbit_zero true
  refine ⟨h, ?_, ?_⟩
  · simp [copysign, val, isnan, h, signbit_eq (.num 1) (by simp), sgn, not_lt.2 (zero_le_one' ℝ)]
  · simp [copysign, val, isnan, h, signbit_eq (.num (-1)) (by simp), sgn, FV.neg]

/-- `fmax` and `fmin` return an argument, the greater or the lesser, and never NaN for a number -/
theorem C89_fmax_fmin (x y : FV) (hx : x ≠ .nan) (hy : y ≠ .nan) :
    (fmax x y = x ∨ fmax x y = y) ∧ x.le (fmax x y) ∧ y.le (fmax x y) ∧
    (fmin x y = x ∨ fmin x y = y) ∧ (fmin x y).le x ∧ (fmin x y).le y ∧
    fmax x .nan = x ∧ fmax .nan x = x ∧ fmin x .nan = x ∧ fmin .nan x = x := by
  have nx : isnan x = false := by rw [isnan_eq]; simp [hx]
  have ny : isnan y = false := by rw [isnan_eq]; simp [hy]
  have nn : isnan .nan = true := by rw [isnan_eq]; simp
  have refl : ∀ v : FV, v ≠ .nan → v.le v := by
    intro v hv; cases v <;> simp_all [FV.le_iff]
  have bot : ∀ v : FV, v ≠ .nan → (FV.inf true).le v := by
    intro v hv
    cases v with
    | inf s => cases s <;> simp [FV.le_iff]
    | _ => simp_all [FV.le_iff]
  have top : ∀ v : FV, v ≠ .nan → v.le (.inf false) := by
    intro v hv
    cases v with
    | inf s => cases s <;> simp [FV.le_iff]
    | _ => simp_all [FV.le_iff]
  have einf : ∀ (v : FV) s, v.eq (.inf s) → v = .inf s := by
    intro v s h; cases v <;> simp_all 
  have nlt : ∀ a b : FV, a ≠ .nan → b ≠ .nan → ¬ a.lt b → b.le a := by
    intro a b ha hb h
    cases a <;> cases b <;> simp_all [FV.le_iff, val]
    case inf.inf s t => cases s <;> cases t <;> simp_all
    case num.num => rw [← le_iff_lt_or_eq]; exact h
    case num.zero => rw [← le_iff_lt_or_eq.trans (or_congr_right eq_comm)] at *; simpa [le_iff_lt_or_eq, eq_comm] using h
    case zero.num => rw [← le_iff_lt_or_eq]; exact h
  refine ⟨?_, ?_, ?_, ?_, ?_, ?_, ?_, ?_, ?_, ?_⟩
  · unfold fmax; rw [nx, ny]; split_ifs <;> simp
  · unfold fmax; simp only [nx, ny, Bool.false_eq_true, if_false]
    split_ifs with h3 h4 h5 h6 h7
    · exact refl x hx
    · exact refl x hx
    · rw [einf x _ h5]; exact bot y hy
    · rw [einf y _ h6]; exact top x hx
    · exact .inl h7
    · exact refl x hx
  · unfold fmax; simp only [nx, ny, Bool.false_eq_true, if_false]
    split_ifs with h3 h4 h5 h6 h7
    · rw [einf y _ h3]; exact bot x hx
    · rw [einf x _ h4]; exact top y hy
    · exact refl y hy
    · exact refl y hy
    · exact refl y hy
    · exact nlt x y hx hy h7
  · unfold fmin; rw [nx, ny]; split_ifs <;> simp
  · unfold fmin; simp only [nx, ny, Bool.false_eq_true, if_false]
    split_ifs with h3 h4 h5 h6 h7
    · exact refl x hx
    · exact refl x hx
    · rw [einf y _ h5]; exact bot x hx
    · rw [einf x _ h6]; exact top y hy
    · exact .inl h7
    · exact refl x hx
  · unfold fmin; simp only [nx, ny, Bool.false_eq_true, if_false]
    split_ifs with h3 h4 h5 h6 h7
    · rw [einf x _ h3]; exact bot y hy
    · rw [einf y _ h4]; exact top x hx
    · exact refl y hy
    · exact refl y hy
    · exact refl y hy
    · exact nlt y x hy hx h7
  · simp [fmax, nn]
  · simp [fmax, nn, nx]
  · simp [fmin, nn]
  · simp [fmin, nn, nx]

example : fmax (.num 2) (.num 3) = .num 3 := by
  simp [fmax, isnan, val, FV.neg]; norm_num

/-- `fdim`: the difference if it is positive, or else zero; but not for two infinities -/
theorem C89_fdim_partial (F : Fmt) (x y : FV) (hx : x ≠ .nan) (hy : y ≠ .nan) (h : ¬ (x = .inf false ∧ y = .inf false)) :
    fdim F x y = if y.lt x then F.sub x y else .zero false := by
  cases x with
  | nan => exact absurd rfl hx
  | inf s =>
    cases y with
    | nan => exact absurd rfl hy
    | inf t => cases s <;> cases t <;> simp_all [fdim, isnan, FV.neg, Fmt.sub, Fmt.add]
    | zero t => cases s <;> simp_all [fdim, isnan, FV.neg, Fmt.sub, Fmt.add]
    | num t => cases s <;> simp_all [fdim, isnan, FV.neg, Fmt.sub, Fmt.add]
  | zero s =>
    cases y with
    | nan => exact absurd rfl hy
    | inf t => cases t <;> simp_all [fdim, isnan, FV.neg, Fmt.sub, Fmt.add]
    | zero t => simp_all [fdim, isnan, FV.neg]
    | num t => simp_all [fdim, isnan, FV.neg]
  | num s =>
    cases y with
    | nan => exact absurd rfl hy
    | inf t => cases t <;> simp_all [fdim, isnan, FV.neg, Fmt.sub, Fmt.add]
    | zero t => simp_all [fdim, isnan, FV.neg]
    | num t => simp_all [fdim, isnan, FV.neg]

/-- The `fdim` of the infinity and itself is infinite -/
theorem C89_fdim_refuted (F : Fmt) : fdim F (.inf false) (.inf false) = .inf false ∧ ¬ (FV.inf false).lt (.inf false) := by
  simp [fdim, isnan]

namespace MathClass

theorem add_any {F : Fmt} (s t : Bool) (a b : ℝ) : ∃ u, F.add (mkv s a) (mkv t b) = F.ofReal u (a + b) := by
  rcases eq_or_ne a 0 with rfl | ha <;> rcases eq_or_ne b 0 with rfl | hb0
  · simp only [mkv_zero, add, add_zero]
    exact ⟨s && t, by rw [ofReal_zero]⟩
  · rw [mkv_zero, mkv_num _ hb0]
    exact ⟨_, rfl⟩
  · rw [mkv_zero, mkv_num _ ha]
    exact ⟨_, rfl⟩
  · rw [mkv_num _ ha, mkv_num _ hb0]
    exact ⟨_, rfl⟩

end MathClass

/-- `fma` is the sum of the rounded product; where the product is exact, it is rounded once -/
theorem C89_fma_partial (F : Fmt) (x y z : FV) (hx : F.Has x) (hy : F.Has y) (hz : F.Has z) :
    fma F x y z = F.add (F.mul x y) z ∧
    (x.isFin → y.isFin → z.isFin → Rep F.p F.emin (x.val * y.val) → |x.val * y.val| < (2 : ℝ) ^ F.emax →
      ∃ u, fma F x y z = F.ofReal u (x.val * y.val + z.val)) := by
  have main : fma F x y z = F.add (F.mul x y) z := by
    unfold fma
    split_ifs with h1 h2 h3 h4 h5 h6
    · rw [isnan_eq, decide_eq_true_eq] at h1; subst h1; cases z <;> simp [Fmt.mul, Fmt.add]
    · rw [isnan_eq, decide_eq_true_eq] at h2; subst h2; cases x <;> cases z <;> simp [Fmt.mul, Fmt.add]
    · rw [isnan_eq, decide_eq_true_eq] at h3; subst h3; cases F.mul x y <;> simp [Fmt.add]
    · rw [isinf_eq, decide_eq_true_eq] at h4
      obtain ⟨⟨s, rfl⟩, h⟩ := h4
      cases y with
      | num r => exact absurd h hy.1
      | zero t => cases z <;> simp [Fmt.mul, Fmt.add]
      | _ => simp  at h
    · rw [isinf_eq, decide_eq_true_eq] at h5
      obtain ⟨⟨s, rfl⟩, h⟩ := h5
      cases x with
      | num r => exact absurd h hx.1
      | zero t => cases z <;> simp [Fmt.mul, Fmt.add]
      | _ => simp  at h
    · obtain ⟨hi, hzi, hs⟩ := h6
      rw [isinf_eq, decide_eq_true_eq] at hzi
      obtain ⟨u, rfl⟩ := hzi
      have zx : ∀ s, x ≠ .zero s := by
        rintro s rfl
        rcases hi with hi | hi
        · simp [isinf_eq] at hi
        · exact h5 ⟨hi, by simp [val]⟩
      have zy : ∀ s, y ≠ .zero s := by
        rintro s rfl
        rcases hi with hi | hi
        · exact h4 ⟨hi, by simp [val]⟩
        · simp [isinf_eq] at hi
      rw [signbit_eq x zx, signbit_eq y zy, signbit_eq (.inf u) (by simp)] at hs
      have hm : F.mul x y = .inf (x.sgn != y.sgn) := by
        rw [isinf_eq, isinf_eq, decide_eq_true_eq, decide_eq_true_eq] at hi
        rw [isnan_eq, decide_eq_true_eq] at h1 h2
        rcases hi with ⟨s, rfl⟩ | ⟨s, rfl⟩
        · cases y with
          | nan => exact absurd rfl h2
          | zero t => exact absurd rfl (zy t)
          | inf t => rfl
          | num r => rfl
        · cases x with
          | nan => exact absurd rfl h1
          | zero t => exact absurd rfl (zx t)
          | inf t => rfl
          | num r => rfl
      rw [hm]
      generalize x.sgn = a at *
      generalize y.sgn = b at *
      simp only [sgn] at hs
      cases a <;> cases b <;> cases u <;> simp_all [Fmt.add]
    · rfl
  refine ⟨main, ?_⟩
  intro fx fy fz hr hl
  rw [main]
  obtain ⟨s, a, rfl, ha, ha'⟩ := hx.cases fx
  obtain ⟨t, b, rfl, hb, hb'⟩ := hy.cases fy
  obtain ⟨u, c, rfl, hc, hc'⟩ := hz.cases fz
  rw [val_mkv, val_mkv] at hr hl
  rw [mul_mkv hr hl, val_mkv, val_mkv, val_mkv]
  exact add_any _ _ _ _

/-- `fma` rounds the product: `(1 + ε) (1 - ε) - 1` is zero instead of `- ε ^ 2` -/
theorem C89_fma_refuted (F : Fmt) (hp : 4 ≤ F.p) :
    ∃ x y z, F.Has x ∧ F.Has y ∧ F.Has z ∧ fma F x y z = .zero false ∧
      x.val * y.val + z.val = -((2 : ℝ) ^ (1 - (F.p : ℤ))) ^ 2 ∧ Rep F.p F.emin (x.val * y.val + z.val) := by
  have he0 : (0 : ℝ) < (2 : ℝ) ^ (1 - (F.p : ℤ)) := by positivity
  have he1 : (2 : ℝ) ^ (1 - (F.p : ℤ)) ≤ 1 / 8 := by
    calc (2 : ℝ) ^ (1 - (F.p : ℤ)) ≤ (2 : ℝ) ^ (-3 : ℤ) := zpow_le_zpow_right₀ (by norm_num) (by omega)
      _ = 1 / 8 := by norm_num
  obtain ⟨q, hq⟩ : ∃ q, F.p = q + 3 := ⟨F.p - 3, by omega⟩
  have hpp : (2 : ℤ) ^ F.p = 8 * 2 ^ q := by rw [hq, pow_add]; ring
  have h2q : (2 : ℤ) ≤ 2 ^ q := by
    calc (2 : ℤ) = 2 ^ 1 := by norm_num
      _ ≤ _ := pow_le_pow_right₀ (by norm_num) (by omega)
  have hem := F.emin_le
  have hone : (4 * 2 ^ q : ℝ) * (2 : ℝ) ^ (1 - (F.p : ℤ)) = 1 := by
    have e : (4 * 2 ^ q : ℝ) = (2 : ℝ) ^ ((q : ℤ) + 2) := by
      rw [zpow_add₀ (by norm_num), zpow_natCast]; norm_num; ring
    rw [e, ← zpow_add₀ (by norm_num), hq]
    have : (q : ℤ) + 2 + (1 - ((q + 3 : ℕ) : ℤ)) = 0 := by push_cast; ring
    rw [this]; simp
  have hrep : ∀ k : ℤ, -1 ≤ k → k ≤ 1 → Rep F.p F.emin (1 + k * (2 : ℝ) ^ (1 - (F.p : ℤ))) := by
    intro k h0 h2
    refine ⟨4 * 2 ^ q + k, 1 - (F.p : ℤ), by omega, by rw [hpp, abs_of_pos (by omega)]; omega, ?_⟩
    push_cast
    rw [add_mul, hone]
  have r1 := hrep 1 (by norm_num) (by norm_num)
  have r2 := hrep (-1) (by norm_num) (by norm_num)
  have r0 := F.rep_one
  have hsq : Rep F.p F.emin (-((2 : ℝ) ^ (1 - (F.p : ℤ))) ^ 2) := by
    refine Rep.neg ?_
    rw [← zpow_natCast, ← zpow_mul]
    exact Rep.two_zpow _ (by push_cast; omega) F.one_le_p
  -- a value between 1 - ε / 2 and 1 rounds to one of the ends
  have hrnd : F.rnd (1 - ((2 : ℝ) ^ (1 - (F.p : ℤ))) ^ 2) = 1 := by
    have hle : F.rnd (1 - ((2 : ℝ) ^ (1 - (F.p : ℤ))) ^ 2) ≤ 1 := rnd_le (by nlinarith) r0
    by_contra hne
    have hlt := lt_of_le_of_ne hle hne
    have hn := F.rnd_near (1 - ((2 : ℝ) ^ (1 - (F.p : ℤ))) ^ 2) 1 r0
    obtain ⟨m, e, h1, h2, h3⟩ := F.rnd_rep (1 - ((2 : ℝ) ^ (1 - (F.p : ℤ))) ^ 2)
    have hge : (1 : ℝ) / 2 ≤ F.rnd (1 - ((2 : ℝ) ^ (1 - (F.p : ℤ))) ^ 2) := by
      refine le_rnd (by nlinarith) ?_
      have := Rep.two_zpow (p := F.p) (emin := F.emin) (-1) (by omega) F.one_le_p
      norm_num at this ⊢; exact this
    rw [h3] at hlt hge hn
    -- the exponent is at least `-p`, so the value is a multiple of `2 ^ (-p)`
    have hex : -(F.p : ℤ) ≤ e := by
      by_contra hc
      have hm : (m : ℝ) < 2 ^ F.p := lt_of_le_of_lt (le_abs_self _) (by exact_mod_cast h2)
      have : (m : ℝ) * (2 : ℝ) ^ e < 1 / 2 := by
        calc (m : ℝ) * (2 : ℝ) ^ e < 2 ^ F.p * (2 : ℝ) ^ e := by exact mul_lt_mul_of_pos_right hm (by positivity)
          _ = (2 : ℝ) ^ ((F.p : ℤ) + e) := by rw [zpow_add₀ (by norm_num), zpow_natCast]
          _ ≤ (2 : ℝ) ^ (-1 : ℤ) := zpow_le_zpow_right₀ (by norm_num) (by omega)
          _ = 1 / 2 := by norm_num
      linarith
    obtain ⟨d, hd⟩ := Int.eq_ofNat_of_zero_le (show 0 ≤ e + F.p by omega)
    have hval : (m : ℝ) * (2 : ℝ) ^ e = ((m * 2 ^ d : ℤ) : ℝ) * (2 : ℝ) ^ (-(F.p : ℤ)) := by
      have : e = d + -(F.p : ℤ) := by omega
      rw [this, zpow_add₀ (by norm_num)]; push_cast; rw [zpow_natCast]; ring
    have hhalf : (2 : ℝ) ^ (-(F.p : ℤ)) = (2 : ℝ) ^ (1 - (F.p : ℤ)) / 2 := by
      have : (1 - (F.p : ℤ)) = -(F.p : ℤ) + 1 := by ring
      rw [this, zpow_add₀ (by norm_num)]; simp
    rw [hval, hhalf] at hlt hn
    generalize (2 : ℝ) ^ (1 - (F.p : ℤ)) = E at *
    have hk : m * 2 ^ d < 8 * 2 ^ q := by
      by_contra hc
      have : (8 * 2 ^ q : ℝ) ≤ ((m * 2 ^ d : ℤ) : ℝ) := by exact_mod_cast (not_lt.1 hc)
      nlinarith
    have hk' : ((m * 2 ^ d : ℤ) : ℝ) ≤ 8 * 2 ^ q - 1 := by exact_mod_cast (by omega : m * 2 ^ d ≤ 8 * 2 ^ q - 1)
    have hv : ((m * 2 ^ d : ℤ) : ℝ) * (E / 2) ≤ 1 - E / 2 := by nlinarith
    have e1 : |(1 : ℝ) - (1 - E ^ 2)| = E ^ 2 := by rw [show (1 : ℝ) - (1 - E ^ 2) = E ^ 2 by ring]; exact abs_of_pos (by positivity)
    rw [e1, abs_of_nonpos (by nlinarith)] at hn
    nlinarith
  push_cast at r1 r2
  have h2e := MathRound.one_lt_emax F
  have h2e' : (2 : ℝ) < (2 : ℝ) ^ F.emax := by
    have := F.p_lt_emax
    calc (2 : ℝ) = (2 : ℝ) ^ (1 : ℤ) := by simp
      _ < _ := zpow_lt_zpow_right₀ (by norm_num) (by omega)
  generalize (2 : ℝ) ^ (1 - (F.p : ℤ)) = E at *
  have a1 : (1 : ℝ) + 1 * E ≠ 0 := by linarith
  have a2 : (1 : ℝ) + -1 * E ≠ 0 := by linarith
  have hx : F.Has (.num (1 + 1 * E)) := ⟨a1, r1, by rw [abs_of_pos (by linarith)]; linarith⟩
  have hy : F.Has (.num (1 + -1 * E)) := ⟨a2, r2, by rw [abs_of_pos (by linarith)]; linarith⟩
  have hz : F.Has (.num (-1)) := ⟨by norm_num, r0.neg, by rw [abs_neg, abs_one]; linarith⟩
  have hv : (1 + 1 * E) * (1 + -1 * E) = 1 - E ^ 2 := by ring
  have hv2 : (1 + 1 * E) * (1 + -1 * E) + -1 = -E ^ 2 := by ring
  refine ⟨_, _, _, hx, hy, hz, ?_, hv2, by simp only [val]; rw [hv2]; exact hsq⟩
  rw [(C89_fma_partial F _ _ _ hx hy hz).1]
  have e1 : F.mul (.num (1 + 1 * E)) (.num (1 + -1 * E)) = .num 1 := by
    show F.ofReal _ ((1 + 1 * E) * (1 + -1 * E)) = _
    rw [hv]
    unfold ofReal
    rw [hrnd, if_neg one_ne_zero, if_neg (by rw [abs_one]; linarith)]
  rw [e1]
  show F.ofReal _ _ = _
  simp only [val]
  norm_num
  exact ofReal_zero

example : 4 ≤ Fmt.float.p ∧ 4 ≤ Fmt.double.p := by simp [Fmt.double, Fmt.float, ieee]

end Sprout
