import Verif.Proofs.StrFloat

/-!
# C103: strings to floating values

`strtof`, `strtod`, `strtold`, `atof`, `stof`, `stod`, `stold` without an end pointer. For decimal numbers without an
exponent the result is within a number of roundings, linear in the number of digits, of the number written; it is the
nearest value if the digits fit the precision and the number of decimals is none or a power of two. Numbers with an
exponent are refuted: the sign of the exponent is reversed, its first digit is skipped if it has no sign.
-/

namespace Sprout

open FV Fmt Spec StrFloat

/-- every decimal number without an exponent within the range -/
theorem C103_decimal_partial (F : Fmt) (L : CInt) (hL : L = CInt.int32 ∨ L = CInt.int64) (hp : 4 ≤ F.p) (d : DecStr) (c : ℤ)
    (w : d.Wf c) (rest : List ℤ) (hlen : d.frac.length < 2 ^ 31)
    (hr : ((2 * (d.D1.length + d.frac.length) + d.frac.length : ℕ) : ℝ) * F.u ≤ 1 / 2)
    (ho : (10 : ℝ) ^ (d.D1.length + d.frac.length) ≤ (2 : ℝ) ^ (F.emax - 2))
    (hu : (2 : ℝ) ^ (F.emin + F.p) ≤ 1 / 10 ^ d.frac.length) :
    ∃ v : FV, strToFloat F L (d.chars ++ c :: rest) = some v ∧ v.isFin = true ∧
      |v.val - d.value| ≤ 2 * ((2 * (d.D1.length + d.frac.length) + d.frac.length : ℕ) : ℝ) * F.u * |d.value| := by
  have he : F.emin + F.p ≤ -(d.frac.length : ℤ) := by
    have h1 : (1 : ℝ) / 10 ^ d.frac.length ≤ (2 : ℝ) ^ (-(d.frac.length : ℤ)) := by
      rw [zpow_neg, zpow_natCast, ← one_div]
      exact one_div_le_one_div_of_le (by positivity) (pow_le_pow_left₀ (by norm_num) (by norm_num) _)
    exact (zpow_le_zpow_iff_right₀ (by norm_num : (1 : ℝ) < 2)).1 (le_trans hu h1)
  obtain ⟨g1, g2⟩ := gr_pow_le _ hr
  have hd : ∀ x ∈ d.D1 ++ d.frac, x < 10 := by
    intro x hx
    rcases List.mem_append.1 hx with h | h
    · exact w.digit1 x h
    · exact w.digit2 x h
  have hlt : (d.mant : ℝ) ≤ 10 ^ (d.D1.length + d.frac.length) := by
    have := evalFrom_lt (d.D1 ++ d.frac) 0 0 hd (by norm_num)
    rw [zero_add, List.length_append] at this
    exact_mod_cast this.le
  have hdig : RE F 1 (digits F (.zero false) (d.D1 ++ d.frac)) (d.mant : ℕ) (2 * (d.D1.length + d.frac.length)) := by
    have := digits_re hp g2 (d.D1 ++ d.frac) (.zero false) 0 0 hd
      ⟨0, le_refl _, by rw [mul_zero]; exact Val.zero _, by rw [mul_zero]; exact Rep.zero .., by simp, by simp⟩
      (by rw [List.length_append]; omega) (le_trans hlt ho)
    rwa [zero_add, List.length_append] at this
  -- the scaling
  have key : ∀ (σ : ℝ) (v : FV), (σ = 1 ∨ σ = -1) → RE F σ v (d.mant : ℕ) (2 * (d.D1.length + d.frac.length)) →
      RE F σ (scale F (decide (-(d.frac.length : ℤ) < 0)) v d.frac.length (F.ofInt 10)) (d.mant / 10 ^ d.frac.length)
        (2 * (d.D1.length + d.frac.length) + d.frac.length) := by
    intro σ v hσ hv
    rcases Nat.eq_zero_or_pos d.frac.length with h0 | h0
    · rw [h0, scale, if_pos rfl]
      rw [h0] at hv
      simpa using hv
    · rw [decide_eq_true (by omega)]
      have := scale_re hσ g2 d.frac.length v (F.ofInt 10) d.mant _ 1 (le_refl _) (by positivity) hv
        (fun _ => by simpa using re_int (F := F) hp (le_refl 10)) (by omega) ?_ (le_trans hlt ho) ?_
      · rwa [mul_one] at this
      · rcases Nat.eq_zero_or_pos d.mant with h | h
        · left; rw [h]; simp
        · right
          rw [mul_one]
          refine le_trans hu ?_
          have : (1 : ℝ) ≤ d.mant := by exact_mod_cast h
          exact div_le_div_of_nonneg_right this (by positivity)
      · rw [mul_one]
        exact le_trans (pow_le_pow_right₀ (by norm_num) (by omega)) ho
  have fin : ∀ (σ : ℝ) (v : FV), (σ = 1 ∨ σ = -1) → d.sgn = σ → RE F σ v (d.mant / 10 ^ d.frac.length)
      (2 * (d.D1.length + d.frac.length) + d.frac.length) → v.isFin = true ∧
      |v.val - d.value| ≤ 2 * ((2 * (d.D1.length + d.frac.length) + d.frac.length : ℕ) : ℝ) * F.u * |d.value| := by
    intro σ v hσ hs hv
    obtain ⟨r, r0, r1, r2, r3, r4⟩ := hv
    refine ⟨r1.isFin, ?_⟩
    rw [r1.val, DecStr.value, hs]
    have ha : (0 : ℝ) ≤ d.mant / 10 ^ d.frac.length := by positivity
    generalize (d.mant / 10 ^ d.frac.length : ℝ) = a at *
    have hab : |σ| = 1 := by rcases hσ with rfl | rfl <;> norm_num
    rw [← mul_sub, abs_mul, abs_mul, hab, one_mul, one_mul, abs_of_nonneg ha]
    generalize hN : 2 * (d.D1.length + d.frac.length) + d.frac.length = N at *
    have hu0 := u_pos (F := F)
    have hNu : (0 : ℝ) ≤ N * F.u := by positivity
    -- a ≤ G r ≤ 2 N u r + r and r ≤ G a
    rw [abs_le]
    constructor
    · -- r ≥ a / G ≥ a (1 - 2 N u)
      have : a * (1 - 2 * N * F.u) ≤ r := by
        rcases le_or_gt (1 - 2 * N * F.u) 0 with h | h
        · nlinarith
        · have h1 : (1 + 2 * N * F.u) * (1 - 2 * N * F.u) ≤ 1 := by nlinarith
          have h2 : a * (1 - 2 * N * F.u) ≤ (1 + 2 * N * F.u) * r * (1 - 2 * N * F.u) :=
            mul_le_mul_of_nonneg_right (le_trans r3 (mul_le_mul_of_nonneg_right g1 r0)) h.le
          nlinarith
      linarith
    · have := le_trans r4 (mul_le_mul_of_nonneg_right g1 ha)
      linarith
  refine ⟨_, strToFloat_eq hL w rest hlen he, ?_⟩
  by_cases hsg : d.sg = [0x2D]
  · rw [if_pos hsg]
    exact fin (-1) _ (Or.inr rfl) (by rw [DecStr.sgn, if_pos hsg]) (key _ _ (Or.inr rfl) hdig.neg)
  · rw [if_neg hsg]
    exact fin 1 _ (Or.inl rfl) (by rw [DecStr.sgn, if_neg hsg]) (key _ _ (Or.inl rfl) hdig)

/-- up to 300 digits, for double -/
theorem C103_double (F : Fmt) (L : CInt) (hL : L = CInt.int32 ∨ L = CInt.int64) (hp : F.p = 53) (hmin : F.emin = -1074)
    (hmax : F.emax = 1024) (d : DecStr) (c : ℤ) (w : d.Wf c) (rest : List ℤ) (h : d.D1.length + d.frac.length ≤ 300) :
    ∃ v : FV, strToFloat F L (d.chars ++ c :: rest) = some v ∧ v.isFin = true ∧
      |v.val - d.value| ≤ 6 * ((d.D1.length + d.frac.length : ℕ) : ℝ) * 2 ^ (-53 : ℤ) * |d.value| := by
  have hu : F.u = 2 ^ (-53 : ℤ) := by unfold u; rw [hp]; rfl
  have h300 : (d.D1.length : ℝ) + d.frac.length ≤ 300 := by exact_mod_cast h
  have h0 : (0 : ℝ) ≤ d.D1.length := by positivity
  have h0' : (0 : ℝ) ≤ d.frac.length := by positivity
  have h10 : (10 : ℝ) ^ 300 ≤ (2 : ℝ) ^ (1000 : ℕ) := by
    have : 10 ^ 300 ≤ 2 ^ 1000 := by decide +kernel
    exact_mod_cast this
  obtain ⟨v, h1, h2, h3⟩ := C103_decimal_partial F L hL (by omega) d c w rest (by omega) (by
      rw [hu]
      push_cast
      norm_num
      linarith) (by
      rw [hmax]
      refine le_trans (pow_le_pow_right₀ (by norm_num) h) (le_trans h10 ?_)
      rw [← zpow_natCast]
      exact zpow_le_zpow_right₀ (by norm_num) (by norm_num)) (by
      rw [hp, hmin]
      rw [le_div_iff₀ (by positivity)]
      have : (10 : ℝ) ^ d.frac.length ≤ (2 : ℝ) ^ (1000 : ℕ) :=
        le_trans (pow_le_pow_right₀ (by norm_num) (by omega)) h10
      rw [← zpow_natCast (2 : ℝ)] at this
      refine le_trans (mul_le_mul_of_nonneg_left this (by positivity)) ?_
      rw [← zpow_add₀ (by norm_num)]
      exact zpow_le_one_of_nonpos₀ (by norm_num) (by norm_num))
  refine ⟨v, h1, h2, le_trans h3 ?_⟩
  rw [hu]
  refine mul_le_mul_of_nonneg_right (mul_le_mul_of_nonneg_right ?_ (by positivity)) (abs_nonneg _)
  push_cast
  linarith

/-- integers of the precision are exact -/
theorem C103_integer (F : Fmt) (L : CInt) (hL : L = CInt.int32 ∨ L = CInt.int64) (hp : 4 ≤ F.p) (d : DecStr) (c : ℤ)
    (w : d.Wf c) (rest : List ℤ) (h0 : d.frac = []) (hm : d.mant ≤ 2 ^ F.p) :
    ∃ v : FV, strToFloat F L (d.chars ++ c :: rest) = some v ∧ v.isFin = true ∧ v.val = d.value := by
  have hd : ∀ x ∈ d.D1 ++ d.frac, x < 10 := by
    intro x hx
    rcases List.mem_append.1 hx with h | h
    · exact w.digit1 x h
    · exact w.digit2 x h
  have hv := digits_exact (F := F) hp (d.D1 ++ d.frac) (.zero false) 0 hd (by simpa using Val.zero false) hm
  have he := F.emin_le
  have hp2 := F.two_le_p
  refine ⟨_, strToFloat_eq hL w rest (by simp [h0]) (by simp [h0]; omega), ?_⟩
  rw [h0, List.length_nil, scale, if_pos rfl]
  rw [h0] at hv
  unfold DecStr.value DecStr.sgn DecStr.mant
  rw [h0, List.length_nil, pow_zero, div_one]
  split_ifs with hs
  · exact ⟨hv.neg.isFin, by rw [hv.neg.val, neg_one_mul]⟩
  · exact ⟨hv.isFin, by rw [hv.val, one_mul]⟩

/-- the nearest value, for digits of the precision and 1, 2, 4, 8 or 16 decimals -/
theorem C103_nearest (F : Fmt) (L : CInt) (hL : L = CInt.int32 ∨ L = CInt.int64) (hp : 4 ≤ F.p) (d : DecStr) (c : ℤ)
    (w : d.Wf c) (rest : List ℤ) (j : ℕ) (h0 : d.frac.length = 2 ^ j) (hlen : d.frac.length < 2 ^ 31) (hm : d.mant ≤ 2 ^ F.p)
    (h5 : 5 ^ d.frac.length < 2 ^ F.p) (h10 : (10 : ℝ) ^ d.frac.length < (2 : ℝ) ^ F.emax)
    (he : F.emin + F.p ≤ -(d.frac.length : ℤ)) :
    ∃ v : FV, strToFloat F L (d.chars ++ c :: rest) = some v ∧ v.isFin = true ∧ v.val = F.rnd d.value := by
  have hd : ∀ x ∈ d.D1 ++ d.frac, x < 10 := by
    intro x hx
    rcases List.mem_append.1 hx with h | h
    · exact w.digit1 x h
    · exact w.digit2 x h
  have hv := digits_exact (F := F) hp (d.D1 ++ d.frac) (.zero false) 0 hd (by simpa using Val.zero false) hm
  have hmr : (d.mant : ℝ) ≤ (2 : ℝ) ^ (F.emax - 1) := by
    have h1 : (d.mant : ℝ) ≤ (2 : ℝ) ^ (F.p : ℤ) := by rw [zpow_natCast]; exact_mod_cast hm
    have := F.p_lt_emax
    exact le_trans h1 (zpow_le_zpow_right₀ (by norm_num) (by omega))
  have hpos : (0 : ℝ) ≤ d.mant := by positivity
  have key : ∀ (v : FV) (a : ℝ), Val v a → |a| = d.mant →
      Val (scale F (decide (-(d.frac.length : ℤ) < 0)) v d.frac.length (F.ofInt 10)) (F.rnd (a / 10 ^ d.frac.length)) := by
    intro v a hva haa
    have hfp : 0 < d.frac.length := by rw [h0]; positivity
    rw [decide_eq_true (by omega), h0]
    have := scale_exact (F := F) j v (F.ofInt 10) a 1 hva (by simpa using (val_int (F := F) hp (le_refl 10)).1)
      (by rw [mul_one, ← h0]; exact h5) (by rw [mul_one, ← h0]; exact h10) (by rw [haa]; exact hmr)
    rwa [mul_one] at this
  refine ⟨_, strToFloat_eq hL w rest hlen he, ?_⟩
  have hval : d.value = d.sgn * d.mant / 10 ^ d.frac.length := by unfold DecStr.value; rw [mul_div_assoc]
  rw [hval]
  unfold DecStr.sgn
  split_ifs with hs
  · have := key _ _ hv.neg (by rw [abs_neg, abs_of_nonneg (by positivity)]; rfl)
    rw [neg_one_mul]
    exact ⟨this.isFin, this.val⟩
  · have := key _ _ hv (by rw [abs_of_nonneg (by positivity)]; rfl)
    rw [one_mul]
    exact ⟨this.isFin, this.val⟩

/-- without digits, zero; the infinity and NaN of the C library are not read -/
theorem C103_inf_refuted (F : Fmt) (L : CInt) : strToFloat F L [0x69, 0x6E, 0x66, 0] = some (.zero false) ∧
    strToFloat F L [0x6E, 0x61, 0x6E, 0] = some (.zero false) := by
  constructor <;>
  · rw [strToFloat, if_neg (by decide +kernel), if_neg (by decide), if_neg (by decide), impl, if_neg (by decide +kernel),
      if_neg (by decide), decimal1, if_pos rfl]

/-- the digit 1 and the end of the mantissa -/
theorem C103.one (F : Fmt) (L : CInt) (hp : 17 ≤ F.p) (s : List ℤ) :
    strToFloat F L (0x31 :: 0x65 :: s) = exponent0 F L (0x65 :: s) (.num 1) 0 := by
  have hv := digits_exact (F := F) (by omega) [1] (.zero false) 0 (by simp) (by simpa using Val.zero false)
    (by have : (1 : ℕ) ≤ 2 ^ F.p := Nat.one_le_two_pow
        simpa [evalFrom] using this)
  have hv' : digit F (.zero false) 0x31 = .num 1 := by
    have : Val (digit F (.zero false) 0x31) 1 := by simpa [digits, evalFrom, digitChar] using hv
    exact this.eq_num one_ne_zero
  rw [strToFloat, if_neg (by decide +kernel), if_neg (by decide), if_neg (by decide), impl, if_pos (by decide +kernel), hv', impl,
    if_neg (by decide +kernel), if_neg (by decide), decimal1, if_neg (by decide), if_neg (by decide)]

/-- `1e5` is 1: the digit after the letter is skipped (cstdlib/str_to_float.hpp 131); `1e-5` is 100000 and `1e+5` is not
greater than 1/2: the sign of the exponent is reversed (104); for `1e` the character after the terminator is read (131) -/
theorem C103_exponent_refuted (F : Fmt) (L : CInt) (hL : L = CInt.int32 ∨ L = CInt.int64) (hp : 17 ≤ F.p) :
    strToFloat F L [0x31, 0x65, 0x35, 0] = some (.num 1) ∧
    strToFloat F L [0x31, 0x65, 0x2D, 0x35, 0] = some (.num 100000) ∧
    (∃ v : FV, strToFloat F L [0x31, 0x65, 0x2B, 0x35, 0] = some v ∧ v.isFin = true ∧ v.val ≤ 1 / 2) ∧
    strToFloat F L [0x31, 0x65, 0] = none := by
  have hemax := F.p_lt_emax
  have hemin := F.emin_le
  have a0 : L.arith 0 = some 0 := by rcases hL with rfl | rfl <;> decide +kernel
  have a5 : L.arith 5 = some 5 := by rcases hL with rfl | rfl <;> decide +kernel
  have a5' : L.arith (-5) = some (-5) := by rcases hL with rfl | rfl <;> decide +kernel
  have hr : ∀ n : ℕ, n ≤ 100000 → F.rnd (n : ℝ) = n ∧ |F.rnd (n : ℝ)| < (2 : ℝ) ^ F.emax := by
    intro n hn
    have h17 : (2 : ℤ) ^ 17 ≤ 2 ^ F.p := pow_le_pow_right₀ (by norm_num) hp
    have hz : |(n : ℤ)| ≤ 2 ^ F.p := by rw [abs_of_nonneg (by omega)]; omega
    have h1 : Rep F.p F.emin ((n : ℤ) : ℝ) := F.rep_int n hz
    rw [Int.cast_natCast] at h1
    rw [rnd_of_rep h1]
    refine ⟨rfl, ?_⟩
    rcases Nat.eq_zero_or_pos n with rfl | h0
    · simp only [Nat.cast_zero, abs_zero]; positivity
    · simpa using (F.has_int n (by omega) hz).2.2
  have mulN : ∀ (v w : FV) (a b : ℕ), Val v a → Val w b → a * b ≤ 100000 → Val (F.mul v w) ((a * b : ℕ) : ℝ) := by
    intro v w a b h h' hab
    obtain ⟨r1, r2⟩ := hr (a * b) hab
    push_cast at r1 r2 ⊢
    have := mul_val h h' r2
    rwa [r1] at this
  have v1 : Val (.num 1) ((1 : ℕ) : ℝ) := by simpa using Val.num (one_ne_zero (α := ℝ))
  have v10 : Val (F.ofInt 10) ((10 : ℕ) : ℝ) := (val_int (F := F) (by omega) (le_refl 10)).1
  have v100 := mulN _ _ _ _ v10 v10 (by norm_num)
  have v10k := mulN _ _ _ _ v100 v100 (by norm_num)
  have e1 : ∀ (neg : Bool), exponent1 F L neg (.num 1) 0 [0x35, 0] 0 =
      some (exponent2 F (.num 1) (if neg then 5 else -5)) := by
    intro neg
    rw [exponent1, if_pos (by decide +kernel)]
    simp only [zero_mul, a0, Option.bind_eq_bind, Option.bind_some]
    rw [show (0 : ℤ) + (0x35 - 0x30) = 5 by norm_num, a5, Option.bind_some, exponent1, if_neg (by decide +kernel)]
    cases neg
    · simp [a5']
    · simp [a5]
  refine ⟨?_, ?_, ?_, ?_⟩
  · rw [C103.one F L hp, exponent0]
    simp only [rd, List.getElem?_cons_zero, List.getElem?_cons_succ, Option.bind_eq_bind, Option.bind_some, List.drop_succ_cons, List.drop_zero]
    rw [if_pos (by decide), if_neg (by decide), exponent1, if_neg (by decide +kernel)]
    simp only [Bool.false_eq_true, if_false, sub_zero, a0, Option.bind_eq_bind, Option.bind_some]
    rw [exponent2, if_pos (by omega), scale, if_pos (by rfl)]
  · rw [C103.one F L hp, exponent0]
    simp only [rd, List.getElem?_cons_zero, List.getElem?_cons_succ, Option.bind_eq_bind, Option.bind_some, List.drop_succ_cons, List.drop_zero]
    rw [if_pos (by decide), if_pos (by trivial), e1, if_pos rfl, exponent2, if_pos (by omega)]
    have h2 := mulN _ _ _ _ v1 v10 (by norm_num)
    have h3 := mulN _ _ _ _ h2 v10k (by norm_num)
    rw [show decide ((5 : ℤ) < 0) = false by decide, show (5 : ℤ).natAbs = 5 from rfl]
    rw [scale, if_neg (by norm_num), if_pos (by norm_num), scale, if_neg (by norm_num), if_neg (by norm_num), scale,
      if_neg (by norm_num), if_pos (by norm_num), scale, if_pos (by norm_num)]
    simp only [Bool.false_eq_true, if_false]
    rw [(h3.congr (by norm_num : _ = (100000 : ℝ))).eq_num (by norm_num)]
  · rw [C103.one F L hp, exponent0]
    simp only [rd, List.getElem?_cons_zero, List.getElem?_cons_succ, Option.bind_eq_bind, Option.bind_some, List.drop_succ_cons, List.drop_zero]
    rw [if_pos (by decide), if_neg (by decide), e1, if_neg (by decide), exponent2, if_pos (by omega)]
    refine ⟨_, rfl, ?_⟩
    rw [show decide ((-5 : ℤ) < 0) = true by decide, show (-5 : ℤ).natAbs = 5 from rfl]
    rw [scale, if_neg (by norm_num), if_pos (by norm_num), scale, if_neg (by norm_num), if_neg (by norm_num), scale,
      if_neg (by norm_num), if_pos (by norm_num), scale, if_pos (by norm_num)]
    simp only [if_true]
    have r1 : Rep F.p F.emin (1 : ℝ) := F.rep_one
    have rh : Rep F.p F.emin ((2 : ℝ) ^ (-1 : ℤ)) := Rep.two_zpow _ (by omega) F.one_le_p
    have rz : Rep F.p F.emin (0 : ℝ) := Rep.zero ..
    have big : (1 : ℝ) < (2 : ℝ) ^ F.emax := one_lt_zpow₀ (by norm_num) (by omega)
    have b1 : F.rnd (((1 : ℕ) : ℝ) / ((10 : ℕ) : ℝ)) ≤ 1 := rnd_le (by norm_num) r1
    have b0 : 0 ≤ F.rnd (((1 : ℕ) : ℝ) / ((10 : ℕ) : ℝ)) := le_rnd (by norm_num) rz
    have d1 := div_val (F := F) v1 v10 (by norm_num) (by rw [abs_of_nonneg b0]; linarith)
    have c1 : F.rnd (F.rnd (((1 : ℕ) : ℝ) / ((10 : ℕ) : ℝ)) / ((10 * 10 * (10 * 10) : ℕ) : ℝ)) ≤ (2 : ℝ) ^ (-1 : ℤ) := by
      refine rnd_le ?_ rh
      rw [div_le_iff₀ (by norm_num)]
      norm_num at b1 ⊢
      linarith
    have c0 : 0 ≤ F.rnd (F.rnd (((1 : ℕ) : ℝ) / ((10 : ℕ) : ℝ)) / ((10 * 10 * (10 * 10) : ℕ) : ℝ)) :=
      le_rnd (by positivity) rz
    have hh : (2 : ℝ) ^ (-1 : ℤ) = 1 / 2 := by norm_num
    have d2 := div_val (F := F) d1 v10k (by norm_num) (by rw [abs_of_nonneg c0]; linarith)
    exact ⟨d2.isFin, by rw [d2.val]; linarith⟩
  · rw [C103.one F L hp, exponent0]
    simp only [rd, List.getElem?_cons_zero, List.getElem?_cons_succ, Option.bind_eq_bind, Option.bind_some, List.drop_succ_cons, List.drop_zero]
    rw [if_pos (by decide), if_neg (by decide), exponent1]

/-- outside the range of exponents the result is the positive infinity, for tiny and for negative numbers also (72):
`1e-9999` and `-1e+9999` -/
theorem C103_range_refuted (number : FV) : exponent2 Fmt.double number 9999 = .inf false ∧
    exponent2 Fmt.double number (-9999) = .inf false := by
  constructor <;>
  · rw [exponent2, if_neg]
    simp [Fmt.double, ieee]

/-- the value of ` -12.5x` -/
example (F : Fmt) (hp : 24 ≤ F.p) : ∃ v : FV, strToFloat F CInt.int64 [0x20, 0x2D, 0x31, 0x32, 0x2E, 0x35, 0x78, 0] = some v ∧
    v.val = -12.5 := by
  have hmin := F.emin_le
  have hmax := F.p_lt_emax
  have h24 : (2 : ℕ) ^ 24 ≤ 2 ^ F.p := Nat.pow_le_pow_right (by norm_num) hp
  obtain ⟨v, h1, -, h3⟩ := C103_nearest F CInt.int64 (Or.inr rfl) (by omega) ⟨[0x20], [0x2D], [1, 2], some [5]⟩ 0x78
    ⟨by simp [Ctype.space], by simp, by simp, by simp [DecStr.frac], by simp, by norm_num, by simp [Ctype.digit], by norm_num, by simp⟩
    [0] 0 (by simp [DecStr.frac]) (by simp [DecStr.frac]) (le_trans (by simp [DecStr.mant, evalFrom, DecStr.frac]) h24)
    (lt_of_lt_of_le (by simp [DecStr.frac]) h24) (by
      refine lt_of_lt_of_le (b := (2 : ℝ) ^ (4 : ℤ)) (by norm_num [DecStr.frac]) (zpow_le_zpow_right₀ (by norm_num) (by omega)))
    (by simp [DecStr.frac]; omega)
  refine ⟨v, h1, ?_⟩
  rw [h3]
  have e : (DecStr.mk [0x20] [0x2D] [1, 2] (some [5])).value = ((-25 : ℤ) : ℝ) * (2 : ℝ) ^ (-1 : ℤ) := by
    norm_num [DecStr.value, DecStr.sgn, DecStr.mant, DecStr.frac, evalFrom]
  rw [e, rnd_of_rep ⟨-25, -1, by omega, lt_of_lt_of_le (by norm_num) (show (2 : ℤ) ^ 24 ≤ 2 ^ F.p by exact_mod_cast h24), rfl⟩]
  norm_num

/-- and within the error bound, `3.14159` -/
example : ∃ v : FV, strToFloat Fmt.double CInt.int64 [0x33, 0x2E, 0x31, 0x34, 0x31, 0x35, 0x39, 0] = some v ∧
    |v.val - 3.14159| ≤ 1 / 10 ^ 13 := by
  obtain ⟨v, h1, -, h3⟩ := C103_double Fmt.double CInt.int64 (Or.inr rfl) (by simp [Fmt.double, ieee]) (by simp [Fmt.double, ieee])
    (by simp [Fmt.double, ieee]) ⟨[], [], [3], some [1, 4, 1, 5, 9]⟩ 0
    ⟨by simp, by simp, by simp, by simp [DecStr.frac], by simp, by norm_num, by simp [Ctype.digit], by norm_num, by simp⟩
    [] (by simp [DecStr.frac])
  refine ⟨v, h1, ?_⟩
  have e : (DecStr.mk [] [] [3] (some [1, 4, 1, 5, 9])).value = 3.14159 := by
    norm_num [DecStr.value, DecStr.sgn, DecStr.mant, DecStr.frac, evalFrom]
  rw [e] at h3
  refine le_trans h3 ?_
  norm_num [DecStr.frac, abs_of_pos]

end Sprout
