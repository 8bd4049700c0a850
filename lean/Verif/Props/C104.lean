import Verif.Proofs.FloatStr2

/-!
# C104: floating values to strings

`to_string` of floating values. The strings of infinities, NaN and zero, and of multiples of 1/64 with one digit before the
point, from 1 to 10 (from -9 to -1), are as of `printf("%f")`. The property is refuted for 41, 1.4, 0.5, -9.5 and, as to
`float_to_string_exp`, for everything: the arguments of the pair in `float_exponent10` are exchanged.
-/

namespace Sprout

open Classical FV Fmt FloatStr MathRound MathClass

/-- the characters of `%f` for a number with one digit `d` before the point and the decimals `v` -/
def fixedStr (negative : Bool) (d v : ℕ) : List ℤ :=
  (if negative then [0x2D] else []) ++ [0x30 + (d : ℤ), 0x2E, 0x30 + (v / 100000 % 10 : ℕ), 0x30 + (v / 10000 % 10 : ℕ),
    0x30 + (v / 1000 % 10 : ℕ), 0x30 + (v / 100 % 10 : ℕ), 0x30 + (v / 10 % 10 : ℕ), 0x30 + (v % 10 : ℕ)]

/-- infinities and NaN -/
theorem C104_special (F C : Fmt) (noerr ndebug : Bool) (maxE10 : ℕ) :
    (∃ s, floatToString F C noerr ndebug maxE10 (.inf false) = some (.ret s) ∧ toList s = [0x69, 0x6E, 0x66]) ∧
    (∃ s, floatToString F C noerr ndebug maxE10 (.inf true) = some (.ret s) ∧ toList s = [0x2D, 0x69, 0x6E, 0x66]) ∧
    (∃ s, floatToString F C noerr ndebug maxE10 .nan = some (.ret s) ∧ toList s = [0x6E, 0x61, 0x6E]) := by
  have i1 : isinf (.inf false) = true := by unfold isinf; rw [decide_eq_true (by simp [eq])]; rfl
  have i2 : isinf (.inf true) = true := by
    unfold isinf; rw [decide_eq_false (by simp [eq]), decide_eq_true (by simp [eq, neg])]; rfl
  have i3 : isinf .nan = false := by unfold isinf; rw [decide_eq_false (by simp [eq]), decide_eq_false (by simp [eq])]; rfl
  have n1 : isnan .nan = true := by unfold isnan; rw [decide_eq_false (by simp [eq])]; rfl
  have n2 : isnan (.inf true) = false := by unfold isnan; rw [decide_eq_true (by simp [eq])]; rfl
  have s1 : signbit (.inf false) = false := by
    unfold signbit; rw [decide_eq_false (by simp [lt, val])]; simp
  have s2 : signbit (.inf true) = true := by
    unfold signbit; rw [n2, decide_eq_true (by simp [lt])]; rfl
  have s3 : signbit .nan = false := by unfold signbit; rw [n1]; rfl
  refine ⟨⟨_, by rw [floatToString, if_pos i1, if_neg (by rw [s1]; simp)], ?_⟩,
    ⟨_, by rw [floatToString, if_pos i2, if_pos s2], ?_⟩,
    ⟨_, by rw [floatToString, if_neg (by rw [i3]; simp), if_pos n1, if_neg (by rw [s3]; simp)], ?_⟩⟩
  all_goals
    rw [toList_raw _ (by omega)]
    rfl

/-- multiples of 1/64, for double; 7 needs the rule for ties -/
theorem C104_dyadic_partial (F C : Fmt) (hs : F.Sub C) (noerr ndebug : Bool) (maxE10 : ℕ) (hE : 4 ≤ maxE10) (hp : F.p = 53)
    (hmin : F.emin ≤ -1074) (negative : Bool) (n : ℕ) (h1 : 64 ≤ n) (h2 : n < if negative then 576 else 640)
    (h7 : n = 448 → F.rnd (7 - (2 : ℝ) ^ (-51 : ℤ)) = 7) :
    ∃ s, floatToString F C noerr ndebug maxE10 (.num ((if negative then -1 else 1) * ((n : ℝ) / 64))) = some (.ret s) ∧
      toList s = fixedStr negative (n / 64) (n % 64 * 15625) := by
  have hn1 : (64 : ℝ) ≤ n := by exact_mod_cast h1
  have h640 : n < 640 := by revert h2; cases negative <;> simp <;> omega
  have hn2 : (n : ℝ) ≤ 639 := by exact_mod_cast (by omega : n ≤ 639)
  have hrep : Rep F.p F.emin ((n : ℝ) / 64) := by
    have := rep_dy (F := F) (m := n) (k := 6) (by omega) (by omega) (by norm_num)
    norm_num at this ⊢
    exact this
  have hb : |(n : ℝ) / 64| < (2 : ℝ) ^ F.emax := by
    rw [abs_of_nonneg (by positivity)]
    have := F.p_lt_emax
    refine lt_of_lt_of_le (b := (2 : ℝ) ^ (4 : ℤ)) ?_ (zpow_le_zpow_right₀ (by norm_num) (by omega))
    norm_num
    linarith
  have hr0 : (0 : ℝ) < (n : ℝ) / 64 := by positivity
  have hpos : Val (.num ((n : ℝ) / 64)) ((n : ℝ) / 64) := Val.num hr0.ne'
  have hneg : Val (.num (-((n : ℝ) / 64))) (-((n : ℝ) / 64)) := Val.num (by linarith)
  obtain ⟨R, hR1, hR2⟩ := roundAt_exact (C := C) (noerr := noerr) hs (by omega) hpos hrep hb (n * 15625)
    (by push_cast; ring) (by rw [hp]; omega) (by omega)
  -- the parts of the number
  have hfl : ⌊(n : ℝ) / 64⌋ = ((n / 64 : ℕ) : ℤ) := by
    have hR : (n : ℝ) = 64 * ((n / 64 : ℕ) : ℝ) + ((n % 64 : ℕ) : ℝ) := by exact_mod_cast (by omega : n = 64 * (n / 64) + n % 64)
    have hm : ((n % 64 : ℕ) : ℝ) ≤ 63 := by exact_mod_cast (by omega : n % 64 ≤ 63)
    have hm0 : (0 : ℝ) ≤ ((n % 64 : ℕ) : ℝ) := by positivity
    rw [Int.floor_eq_iff, Int.cast_natCast]
    constructor <;> linarith
  have hv : ⌊F.rnd (((n : ℝ) / 64 - ⌊(n : ℝ) / 64⌋) * 1000000)⌋ = ((n % 64 * 15625 : ℕ) : ℤ) := by
    have hR : (n : ℝ) = 64 * ((n / 64 : ℕ) : ℝ) + ((n % 64 : ℕ) : ℝ) := by exact_mod_cast (by omega : n = 64 * (n / 64) + n % 64)
    have e : ((n : ℝ) / 64 - ⌊(n : ℝ) / 64⌋) * 1000000 = ((n % 64 * 15625 : ℕ) : ℝ) := by
      rw [hfl, Int.cast_natCast, Nat.cast_mul]
      push_cast
      push_cast at hR
      rw [hR]
      ring_nf
    rw [e, (int_exact (F := F) _ (by rw [hp]; omega)).1, Int.floor_natCast]
  -- the string
  have fin : ∀ (x : FV) (ρ : ℝ), Val x ρ → (ρ < 0 ↔ negative = true) →
      floatRoundAt F C noerr (if x.lt (.zero false) then x.neg else x) 6 = some (.ret R) →
      floatDigitsChecked F C noerr x = some (.ret ((1 : ℕ) : ℤ)) →
      ∃ s, floatToString F C noerr ndebug maxE10 x = some (.ret s) ∧ toList s = fixedStr negative (n / 64) (n % 64 * 15625) := by
    intro x ρ hx hρ hround hdig
    rw [toString_eq (ndebug := ndebug) (maxE10 := maxE10) hs (by omega) hx hR2 hrep hb hr0.le (by linarith) hround hdig, hv]
    obtain ⟨s, s1, s2⟩ := impl_eq (ndebug := ndebug) (F := F) (C := C) (noerr := noerr) (maxE10 := maxE10) (val := R) (negative := decide (ρ < 0))
      (digits := 1) (v := ((n % 64 * 15625 : ℕ) : ℤ)) (dg := fun _ => ((n / 64 : ℕ) : ℤ)) (by omega) (by positivity) (by omega) (by
        intro i hi
        have : i = 0 := by omega
        subst this
        refine ⟨?_, by positivity, by omega⟩
        simpa using digit_small (C := C) (noerr := noerr) hs hp hmin hR2 h1 h640 h7)
    refine ⟨s, s1, ?_⟩
    rw [s2, fixedStr, show decide (ρ < 0) = negative by rw [Bool.eq_iff_iff, decide_eq_true_iff]; exact hρ]
    simp only [List.range_succ, List.range_zero, List.nil_append, List.map_append, List.map_singleton, List.append_assoc, List.singleton_append]
    norm_num
  have hlt1 : ∀ (x : FV) (ρ : ℝ), Val x ρ → (x.lt (.zero false) ↔ ρ < 0) := fun x ρ hx => hx.lt_iff (Val.zero false)
  have hone := digits_one (F := F) (by omega) hpos (by linarith) (by linarith)
  cases negative with
  | false =>
    rw [if_neg (by simp), one_mul]
    refine fin _ _ hpos (by simp; linarith) (by rw [if_neg (by rw [hlt1 _ _ hpos]; linarith)]; exact hR1) ?_
    have hd := digit_small (C := C) (noerr := noerr) hs hp hmin hpos h1 h640 h7
    rw [floatDigitsChecked, floatDigits, if_neg (by rw [hlt1 _ _ hpos]; linarith), if_neg (by rw [hpos.lt_iff (Val.num one_ne_zero)]; linarith), hone]
    change (if _ then _ else bindRet (floatDigitAt F C noerr _ ((1 : ℤ) - 1)) _) = _
    rw [if_neg (by rw [hpos.eq_iff (Val.zero false)]; exact hr0.ne'), sub_self, hd, bind_ret, if_neg (by omega)]
    rfl
  | true =>
    rw [if_pos rfl, neg_one_mul]
    refine fin _ _ hneg (by simp; linarith) (by rw [if_pos (by rw [hlt1 _ _ hneg]; linarith)]; simpa [neg] using hR1) ?_
    obtain ⟨d, hd, hd0⟩ := digit_negative (C := C) (noerr := noerr) hs hp hneg h1 (by simpa using h2)
    have hm1 : ¬ FV.lt (.num (-1)) (.num (-((n : ℝ) / 64))) := by
      rw [(Val.num (show (-1 : ℝ) ≠ 0 by norm_num)).lt_iff hneg]; linarith
    have hone' : floatDigitsImpl F (1, F.ofInt 10) (FV.neg (.num (-((n : ℝ) / 64)))) 1 = some (1, F.ofInt 10) := by
      simpa [neg] using hone
    rw [floatDigitsChecked, floatDigits, if_pos (by rw [hlt1 _ _ hneg]; linarith), if_neg hm1, hone']
    change (if _ then _ else bindRet (floatDigitAt F C noerr _ ((1 : ℤ) - 1)) _) = _
    rw [if_neg (by rw [hneg.eq_iff (Val.zero false)]; linarith), sub_self, hd, bind_ret, if_neg hd0]
    rfl

/-- non-vacuity: 3.140625 of double -/
example : ∃ s, floatToString .double .double false false 308 (.num (201 / 64)) = some (.ret s) ∧
    toList s = [0x33, 0x2E, 0x31, 0x34, 0x30, 0x36, 0x32, 0x35] := by
  have := C104_dyadic_partial .double .double ⟨le_refl _, le_refl _, le_refl _⟩ false false 308 (by norm_num) rfl (le_refl _) false 201
    (by norm_num) (by norm_num) (by norm_num)
  simpa [fixedStr] using this

/-- 0.5 of double becomes ".500000" -/
theorem C104_half_refuted (noerr ndebug : Bool) :
    ∃ s, floatToString .double .double noerr ndebug 308 (.num (1 / 2)) = some (.ret s) ∧
      toList s = [0x2E, 0x35, 0x30, 0x30, 0x30, 0x30, 0x30] := by
  have hp : (24 : ℕ) ≤ Fmt.double.p := by decide
  have hs : Fmt.double.Sub .double := ⟨le_refl _, le_refl _, le_refl _⟩
  have hx : Val (.num (1 / 2)) (1 / 2) := Val.num (by norm_num)
  have hrep : Rep Fmt.double.p Fmt.double.emin (1 / 2 : ℝ) := by
    have := rep_dy (F := .double) (m := 1) (k := 1) hp (by norm_num) (by norm_num)
    norm_num at this ⊢
    exact this
  have hb : |(1 / 2 : ℝ)| < (2 : ℝ) ^ Fmt.double.emax := by
    rw [abs_of_pos (by norm_num)]; linarith [one_lt_emax .double]
  obtain ⟨R, hR1, hR2⟩ := roundAt_exact (C := .double) (noerr := noerr) hs hp hx hrep hb 500000 (by norm_num)
    (by have := p24 hp; omega) (by norm_num)
  have hd : floatDigitAt .double .double noerr (.num (1 / 2)) 0 = some (.ret 0) := by
    rw [digitAt0 hs hp hx (by norm_num) (by norm_num)]
    have r1 : Rep Fmt.double.p Fmt.double.emin (1 / 16 : ℝ) := by
      have := rep_dy (F := .double) (m := 1) (k := 4) hp (by norm_num) (by norm_num)
      norm_num at this ⊢
      exact this
    have r2 : Rep Fmt.double.p Fmt.double.emin (5 / 8 : ℝ) := by
      have := rep_dy (F := .double) (m := 5) (k := 3) hp (by norm_num) (by norm_num)
      norm_num at this ⊢
      exact this
    have b0 : 0 ≤ Fmt.double.rnd (1 / 2 / 10) := le_rnd (by norm_num) Rep.zero
    have b1 : Fmt.double.rnd (1 / 2 / 10) ≤ 1 / 16 := rnd_le (by norm_num) r1
    rw [show ⌊Fmt.double.rnd (1 / 2 / 10)⌋ = 0 from Int.floor_eq_iff.2 ⟨by simpa using b0, by push_cast; linarith⟩, Int.cast_zero, sub_zero]
    have c0 : 0 ≤ Fmt.double.rnd (Fmt.double.rnd (1 / 2 / 10) * 10) := le_rnd (by positivity) Rep.zero
    have c1 : Fmt.double.rnd (Fmt.double.rnd (1 / 2 / 10) * 10) ≤ 5 / 8 := rnd_le (by linarith) r2
    rw [show ⌊Fmt.double.rnd (Fmt.double.rnd (1 / 2 / 10) * 10)⌋ = 0 from Int.floor_eq_iff.2 ⟨by simpa using c0, by push_cast; linarith⟩]
  have hdig : floatDigitsChecked .double .double noerr (.num (1 / 2)) = some (.ret ((0 : ℕ) : ℤ)) := by
    rw [floatDigitsChecked, floatDigits, if_neg (by rw [hx.lt_iff (Val.zero false)]; norm_num),
      if_pos (by rw [hx.lt_iff (Val.num one_ne_zero)]; norm_num)]
    change (if _ then _ else bindRet (floatDigitAt _ _ noerr _ ((1 : ℤ) - 1)) _) = _
    rw [if_neg (by rw [hx.eq_iff (Val.zero false)]; norm_num), sub_self, hd, bind_ret, if_pos rfl]
    rfl
  rw [toString_eq (ndebug := ndebug) (maxE10 := 308) hs hp hx hR2 hrep hb (by norm_num) (by norm_num)
    (by rw [if_neg (by rw [hx.lt_iff (Val.zero false)]; norm_num)]; exact hR1) hdig]
  have hv : ⌊Fmt.double.rnd ((1 / 2 - (⌊(1 / 2 : ℝ)⌋ : ℝ)) * 1000000)⌋ = 500000 := by
    rw [show ⌊(1 / 2 : ℝ)⌋ = 0 by norm_num, show ((1 / 2 - ((0 : ℤ) : ℝ)) * 1000000 : ℝ) = ((500000 : ℕ) : ℝ) by norm_num,
      (int_exact (F := .double) 500000 (by have := p24 hp; omega)).1, Int.floor_natCast]
    rfl
  rw [hv]
  obtain ⟨s, s1, s2⟩ := impl_eq (ndebug := ndebug) (F := .double) (C := .double) (noerr := noerr) (maxE10 := 308) (val := R)
    (negative := decide ((1 / 2 : ℝ) < 0)) (digits := 0) (v := 500000) (dg := fun _ => 0) (by norm_num) (by norm_num) (by norm_num)
    (fun i hi => by omega)
  refine ⟨s, s1, ?_⟩
  rw [s2, decide_eq_false (by norm_num)]
  decide

/-- -9.5 of double becomes "-.500000" -/
theorem C104_negative_refuted (noerr ndebug : Bool) :
    ∃ s, floatToString .double .double noerr ndebug 308 (.num (-(19 / 2))) = some (.ret s) ∧
      toList s = [0x2D, 0x2E, 0x35, 0x30, 0x30, 0x30, 0x30, 0x30] := by
  have hp : (24 : ℕ) ≤ Fmt.double.p := by decide
  have hs : Fmt.double.Sub .double := ⟨le_refl _, le_refl _, le_refl _⟩
  have hx : Val (.num (-(19 / 2))) (-(19 / 2)) := Val.num (by norm_num)
  have hxn : Val (.num (19 / 2)) (19 / 2) := Val.num (by norm_num)
  have hrep : Rep Fmt.double.p Fmt.double.emin (19 / 2 : ℝ) := by
    have := rep_dy (F := .double) (m := 19) (k := 1) hp (by norm_num) (by norm_num)
    norm_num at this ⊢
    exact this
  have hb : |(19 / 2 : ℝ)| < (2 : ℝ) ^ Fmt.double.emax := by
    rw [abs_of_pos (by norm_num)]
    refine lt_of_lt_of_le (b := (2 : ℝ) ^ (4 : ℤ)) (by norm_num) (zpow_le_zpow_right₀ (by norm_num) (by simp [Fmt.double, ieee]))
  obtain ⟨R, hR1, hR2⟩ := roundAt_exact (C := .double) (noerr := noerr) hs hp hxn hrep hb 9500000 (by norm_num)
    (by have := p24 hp; omega) (by norm_num)
  have hd := digit_m95 (C := .double) (noerr := noerr) hs rfl hx
  have hone := digits_one (F := .double) hp hxn (by norm_num) (by norm_num)
  have hone' : floatDigitsImpl .double (1, Fmt.double.ofInt 10) (FV.neg (.num (-(19 / 2)))) 1 = some (1, Fmt.double.ofInt 10) := by
    simpa [neg] using hone
  have hdig : floatDigitsChecked .double .double noerr (.num (-(19 / 2))) = some (.ret ((0 : ℕ) : ℤ)) := by
    rw [floatDigitsChecked, floatDigits, if_pos (by rw [hx.lt_iff (Val.zero false)]; norm_num),
      if_neg (by rw [(Val.num (show (-1 : ℝ) ≠ 0 by norm_num)).lt_iff hx]; norm_num), hone']
    change (if _ then _ else bindRet (floatDigitAt _ _ noerr _ ((1 : ℤ) - 1)) _) = _
    rw [if_neg (by rw [hx.eq_iff (Val.zero false)]; norm_num), sub_self, hd, bind_ret, if_pos rfl]
    rfl
  rw [toString_eq (ndebug := ndebug) (maxE10 := 308) hs hp hx hR2 hrep hb (by norm_num) (by norm_num)
    (by rw [if_pos (by rw [hx.lt_iff (Val.zero false)]; norm_num)]; simpa [neg] using hR1) hdig]
  have hv : ⌊Fmt.double.rnd ((19 / 2 - (⌊(19 / 2 : ℝ)⌋ : ℝ)) * 1000000)⌋ = 500000 := by
    rw [show ⌊(19 / 2 : ℝ)⌋ = 9 by norm_num, show ((19 / 2 - ((9 : ℤ) : ℝ)) * 1000000 : ℝ) = ((500000 : ℕ) : ℝ) by norm_num,
      (int_exact (F := .double) 500000 (by have := p24 hp; omega)).1, Int.floor_natCast]
    rfl
  rw [hv]
  obtain ⟨s, s1, s2⟩ := impl_eq (ndebug := ndebug) (F := .double) (C := .double) (noerr := noerr) (maxE10 := 308) (val := R)
    (negative := decide ((-(19 / 2) : ℝ) < 0)) (digits := 0) (v := 500000) (dg := fun _ => 0) (by norm_num) (by norm_num) (by norm_num)
    (fun i hi => by omega)
  refine ⟨s, s1, ?_⟩
  rw [s2, decide_eq_true (by norm_num)]
  decide

/-- 41 of double becomes "40.000000" -/
theorem C104_41_refuted (noerr ndebug : Bool) :
    ∃ s, floatToString .double .double noerr ndebug 308 (.num 41) = some (.ret s) ∧
      toList s = [0x34, 0x30, 0x2E, 0x30, 0x30, 0x30, 0x30, 0x30, 0x30] := by
  have hp : (24 : ℕ) ≤ Fmt.double.p := by decide
  have hs : Fmt.double.Sub .double := ⟨le_refl _, le_refl _, le_refl _⟩
  have hx : Val (.num 41) 41 := Val.num (by norm_num)
  have h10 := val10 (F := .double) hp
  push_cast at h10
  have hrep : Rep Fmt.double.p Fmt.double.emin (41 : ℝ) := by
    have := rep_dy (F := .double) (m := 41) (k := 0) hp (by norm_num) (by norm_num)
    norm_num at this ⊢
    exact this
  have hb : |(41 : ℝ)| < (2 : ℝ) ^ Fmt.double.emax := by
    rw [abs_of_pos (by norm_num)]
    refine lt_of_lt_of_le (b := (2 : ℝ) ^ (6 : ℤ)) (by norm_num) (zpow_le_zpow_right₀ (by norm_num) (by simp [Fmt.double, ieee]))
  obtain ⟨R, hR1, hR2⟩ := roundAt_exact (C := .double) (noerr := noerr) hs hp hx hrep hb 41000000 (by norm_num)
    (le_trans (by norm_num) (show 2 ^ 53 ≤ 2 ^ Fmt.double.p by rfl)) (by norm_num)
  have e41 : Fmt.double.rnd (41 / 10) = 4616189618054758 * (2 : ℝ) ^ (-50 : ℤ) := by
    have := Fmt.rnd_eq (F := .double) (x := 41 / 10) (m := 4616189618054758) (e := -50) (by norm_num [Fmt.double, ieee]) (by norm_num [Fmt.double, ieee])
      (by simp [Fmt.double, ieee]) (by norm_num [abs_lt])
    exact_mod_cast this
  -- the last digit
  have hd0 : ∀ {y : FV}, Val y 41 → floatDigitAt .double .double noerr y 0 = some (.ret 0) := by
    intro y hy
    rw [digitAt0 hs hp hy (by norm_num) (by norm_num), e41,
      show ⌊(4616189618054758 * (2 : ℝ) ^ (-50 : ℤ))⌋ = 4 from Int.floor_eq_iff.2 ⟨by norm_num, by norm_num⟩]
    have r2 : Rep Fmt.double.p Fmt.double.emin (1 - (2 : ℝ) ^ (-50 : ℤ)) :=
      ⟨2 ^ 50 - 1, -50, by simp [Fmt.double, ieee], by norm_num [Fmt.double, ieee], by norm_num⟩
    have c0 : 0 ≤ Fmt.double.rnd ((4616189618054758 * (2 : ℝ) ^ (-50 : ℤ) - ((4 : ℤ) : ℝ)) * 10) := le_rnd (by norm_num) Rep.zero
    have c1 : Fmt.double.rnd ((4616189618054758 * (2 : ℝ) ^ (-50 : ℤ) - ((4 : ℤ) : ℝ)) * 10) ≤ 1 - (2 : ℝ) ^ (-50 : ℤ) :=
      rnd_le (by norm_num) r2
    have c2 : (0 : ℝ) < (2 : ℝ) ^ (-50 : ℤ) := by positivity
    rw [show ⌊Fmt.double.rnd ((4616189618054758 * (2 : ℝ) ^ (-50 : ℤ) - ((4 : ℤ) : ℝ)) * 10)⌋ = 0 from
      Int.floor_eq_iff.2 ⟨by simpa using c0, by rw [Int.cast_zero]; linarith⟩]
  -- the first digit
  have q0 : 419 / 1024 ≤ Fmt.double.rnd (41 / 100) := le_rnd (by norm_num) (by
    have := rep_dy (F := .double) (m := 419) (k := 10) hp (by norm_num) (by norm_num)
    norm_num at this ⊢
    exact this)
  have q1 : Fmt.double.rnd (41 / 100) ≤ 420 / 1024 := rnd_le (by norm_num) (by
    have := rep_dy (F := .double) (m := 420) (k := 10) hp (by norm_num) (by norm_num)
    norm_num at this ⊢
    exact this)
  have hd1 : ∀ {y : FV}, Val y 41 → floatDigitAt .double .double noerr y 1 = some (.ret 4) := by
    intro y hy
    rw [digitAt1 hs hp hy (by norm_num) (by norm_num),
      show ⌊Fmt.double.rnd (41 / 100)⌋ = 0 from Int.floor_eq_iff.2 ⟨by push_cast; linarith, by push_cast; linarith⟩, Int.cast_zero, sub_zero]
    have c0 : 4 ≤ Fmt.double.rnd (Fmt.double.rnd (41 / 100) * 10) := le_rnd (by linarith) (by
      have := rep_dy (F := .double) (m := 4) (k := 0) hp (by norm_num) (by norm_num)
      norm_num at this ⊢
      exact this)
    have c1 : Fmt.double.rnd (Fmt.double.rnd (41 / 100) * 10) ≤ 9 / 2 := rnd_le (by linarith) (by
      have := rep_dy (F := .double) (m := 9) (k := 1) hp (by norm_num) (by norm_num)
      norm_num at this ⊢
      exact this)
    rw [show ⌊Fmt.double.rnd (Fmt.double.rnd (41 / 100) * 10)⌋ = 4 from Int.floor_eq_iff.2 ⟨by push_cast; linarith, by push_cast; linarith⟩]
  -- the number of digits
  have hone := one_lt_emax .double
  have v1 := div_val (F := .double) hx h10 (by norm_num) (by rw [e41]; rw [abs_of_pos (by positivity)]; exact lt_of_lt_of_le (b := (2 : ℝ) ^ (6 : ℤ)) (by norm_num) (zpow_le_zpow_right₀ (by norm_num) (by simp [Fmt.double, ieee])))
  have h100 := mul_exact (F := .double) (val10 hp) (val10 hp) (by have := p24 hp; omega)
  have v2 := div_val (F := .double) hx h100 (by norm_num) (by
    norm_num at q0 q1 ⊢; rw [abs_of_nonneg (by linarith)]; linarith)
  have hdd : floatDigitsImpl .double (1, Fmt.double.ofInt 10) (.num 41) 1 =
      some (2, Fmt.double.mul (Fmt.double.ofInt 10) (Fmt.double.ofInt 10)) := by
    rw [floatDigitsImpl, if_neg (by rw [v1.lt_iff (Val.num one_ne_zero), e41]; norm_num), floatDigitsImpl1,
      if_neg (by rw [v1.lt_iff (Val.num one_ne_zero), e41]; norm_num), if_pos rfl]
    simp only [Option.bind_eq_bind, Option.bind_some]
    rw [floatDigitsImpl, if_pos (by rw [v2.lt_iff (Val.num one_ne_zero)]; norm_num at q1 ⊢; linarith)]
    rfl
  have hdig : floatDigitsChecked .double .double noerr (.num 41) = some (.ret ((2 : ℕ) : ℤ)) := by
    rw [floatDigitsChecked, floatDigits, if_neg (by rw [hx.lt_iff (Val.zero false)]; norm_num),
      if_neg (by rw [hx.lt_iff (Val.num one_ne_zero)]; norm_num), hdd]
    change (if _ then _ else bindRet (floatDigitAt _ _ noerr _ ((2 : ℤ) - 1)) _) = _
    rw [if_neg (by rw [hx.eq_iff (Val.zero false)]; norm_num), show (2 : ℤ) - 1 = 1 by norm_num, hd1 hx, bind_ret, if_neg (by norm_num)]
    rfl
  rw [toString_eq (ndebug := ndebug) (maxE10 := 308) hs hp hx hR2 hrep hb (by norm_num) (by norm_num)
    (by rw [if_neg (by rw [hx.lt_iff (Val.zero false)]; norm_num)]; exact hR1) hdig]
  have hv : ⌊Fmt.double.rnd ((41 - (⌊(41 : ℝ)⌋ : ℝ)) * 1000000)⌋ = 0 := by
    rw [show ⌊(41 : ℝ)⌋ = 41 by norm_num, show ((41 - ((41 : ℤ) : ℝ)) * 1000000 : ℝ) = 0 by norm_num, rnd_zero, Int.floor_zero]
  rw [hv]
  obtain ⟨s, s1, s2⟩ := impl_eq (ndebug := ndebug) (F := .double) (C := .double) (noerr := noerr) (maxE10 := 308) (val := R)
    (negative := decide ((41 : ℝ) < 0)) (digits := 2) (v := 0) (dg := fun i => if i = 0 then 4 else 0) (by norm_num) (by norm_num)
    (by norm_num) (by
      intro i hi
      interval_cases i
      · refine ⟨?_, by norm_num, by norm_num⟩
        simpa using hd1 hR2
      · refine ⟨?_, by norm_num, by norm_num⟩
        simpa using hd0 hR2)
  refine ⟨s, s1, ?_⟩
  rw [s2, decide_eq_false (by norm_num)]
  decide

/-- 1.4 of double (the nearest to 1.4) becomes "1.399999" -/
theorem C104_14_refuted (noerr ndebug : Bool) :
    ∃ s, floatToString .double .double noerr ndebug 308 (.num (6305039478318694 * (2 : ℝ) ^ (-52 : ℤ))) = some (.ret s) ∧
      toList s = [0x31, 0x2E, 0x33, 0x39, 0x39, 0x39, 0x39, 0x39] := by
  have hp : (24 : ℕ) ≤ Fmt.double.p := by decide
  have hs : Fmt.double.Sub .double := ⟨le_refl _, le_refl _, le_refl _⟩
  have hx : Val (.num (6305039478318694 * (2 : ℝ) ^ (-52 : ℤ))) (6305039478318694 * (2 : ℝ) ^ (-52 : ℤ)) := Val.num (by positivity)
  have hrep : Rep Fmt.double.p Fmt.double.emin (6305039478318694 * (2 : ℝ) ^ (-52 : ℤ)) :=
    ⟨6305039478318694, -52, by simp [Fmt.double, ieee], by norm_num [Fmt.double, ieee], by norm_num⟩
  have hbig : (2 : ℝ) ^ (30 : ℤ) ≤ (2 : ℝ) ^ Fmt.double.emax := zpow_le_zpow_right₀ (by norm_num) (by simp [Fmt.double, ieee])
  have hb : |(6305039478318694 * (2 : ℝ) ^ (-52 : ℤ))| < (2 : ℝ) ^ Fmt.double.emax := by
    rw [abs_of_pos (by positivity)]
    exact lt_of_lt_of_le (by norm_num) hbig
  -- rounding to six decimals
  obtain ⟨p, e, hp6⟩ := pow10_6 (F := .double) hp
  have e1 : Fmt.double.rnd (6305039478318694 * (2 : ℝ) ^ (-52 : ℤ) * ((1000000 : ℕ) : ℝ)) = ((1400000 : ℕ) : ℝ) := by
    have := Fmt.rnd_eq (F := .double) (x := 6305039478318694 * (2 : ℝ) ^ (-52 : ℤ) * ((1000000 : ℕ) : ℝ)) (m := 1400000 * 2 ^ 32) (e := -32)
      (by norm_num [Fmt.double, ieee]) (by norm_num [Fmt.double, ieee]) (by simp [Fmt.double, ieee]) (by norm_num [abs_lt])
    rw [this]
    norm_num
  have hm := mul_val (F := .double) hx hp6 (by rw [e1]; exact lt_of_lt_of_le (by norm_num) hbig)
  rw [e1] at hm
  obtain ⟨w, w1, w2⟩ := round_val (C := .double) (noerr := noerr) hs hm (int_exact 1400000 (by have := p24 hp; omega)).2.2
    (lt_of_lt_of_le (by norm_num) hbig) (by norm_num)
  have e2 : Fmt.double.rnd (((1400000 : ℕ) : ℝ) / ((1000000 : ℕ) : ℝ)) = 6305039478318694 * (2 : ℝ) ^ (-52 : ℤ) := by
    have := Fmt.rnd_eq (F := .double) (x := ((1400000 : ℕ) : ℝ) / ((1000000 : ℕ) : ℝ)) (m := 6305039478318694) (e := -52)
      (by norm_num [Fmt.double, ieee]) (by norm_num [Fmt.double, ieee]) (by simp [Fmt.double, ieee]) (by norm_num [abs_lt])
    rw [this]
    norm_num
  have hR2 := div_val (F := .double) w2 hp6 (by norm_num) (by rw [e2]; exact hb)
  rw [e2] at hR2
  have hR1 : floatRoundAt .double .double noerr (.num (6305039478318694 * (2 : ℝ) ^ (-52 : ℤ))) 6 = some (.ret (Fmt.double.div w p)) := by
    rw [floatRoundAt, e]
    change bindRet (round _ _ noerr (Fmt.double.mul _ p)) _ = _
    rw [w1, bind_ret]
  -- the digit
  have q0 : 143 / 1024 ≤ Fmt.double.rnd (6305039478318694 * (2 : ℝ) ^ (-52 : ℤ) / 10) := le_rnd (by norm_num) (by
    have := rep_dy (F := .double) (m := 143) (k := 10) hp (by norm_num) (by norm_num)
    norm_num at this ⊢
    exact this)
  have q1 : Fmt.double.rnd (6305039478318694 * (2 : ℝ) ^ (-52 : ℤ) / 10) ≤ 144 / 1024 := rnd_le (by norm_num) (by
    have := rep_dy (F := .double) (m := 144) (k := 10) hp (by norm_num) (by norm_num)
    norm_num at this ⊢
    exact this)
  have hd0 : ∀ {y : FV}, Val y (6305039478318694 * (2 : ℝ) ^ (-52 : ℤ)) → floatDigitAt .double .double noerr y 0 = some (.ret 1) := by
    intro y hy
    rw [digitAt0 hs hp hy (by positivity) (by norm_num)]
    generalize Fmt.double.rnd (6305039478318694 * (2 : ℝ) ^ (-52 : ℤ) / 10) = z at q0 q1
    rw [show ⌊z⌋ = 0 from Int.floor_eq_iff.2 ⟨by push_cast; linarith, by push_cast; linarith⟩, Int.cast_zero, sub_zero]
    have c0 : 1 ≤ Fmt.double.rnd (z * 10) := le_rnd (by linarith) Fmt.double.rep_one
    have c1 : Fmt.double.rnd (z * 10) ≤ 3 / 2 := rnd_le (by linarith) (by
      have := rep_dy (F := .double) (m := 3) (k := 1) hp (by norm_num) (by norm_num)
      norm_num at this ⊢
      exact this)
    rw [show ⌊Fmt.double.rnd (z * 10)⌋ = 1 from Int.floor_eq_iff.2 ⟨by push_cast; linarith, by push_cast; linarith⟩]
  have hdig : floatDigitsChecked .double .double noerr (.num (6305039478318694 * (2 : ℝ) ^ (-52 : ℤ))) = some (.ret ((1 : ℕ) : ℤ)) := by
    rw [floatDigitsChecked, floatDigits, if_neg (by rw [hx.lt_iff (Val.zero false)]; norm_num),
      if_neg (by rw [hx.lt_iff (Val.num one_ne_zero)]; norm_num), digits_one (F := .double) hp hx (by norm_num) (by norm_num)]
    change (if _ then _ else bindRet (floatDigitAt _ _ noerr _ ((1 : ℤ) - 1)) _) = _
    rw [if_neg (by rw [hx.eq_iff (Val.zero false)]; norm_num), sub_self, hd0 hx, bind_ret, if_neg (by norm_num)]
    rfl
  rw [toString_eq (ndebug := ndebug) (maxE10 := 308) hs hp hx hR2 hrep hb (by positivity) (by norm_num)
    (by rw [if_neg (by rw [hx.lt_iff (Val.zero false)]; norm_num)]; exact hR1) hdig]
  have hv : ⌊Fmt.double.rnd ((6305039478318694 * (2 : ℝ) ^ (-52 : ℤ) - (⌊(6305039478318694 * (2 : ℝ) ^ (-52 : ℤ))⌋ : ℝ)) * 1000000)⌋ = 399999 := by
    rw [show ⌊(6305039478318694 * (2 : ℝ) ^ (-52 : ℤ))⌋ = 1 from Int.floor_eq_iff.2 ⟨by norm_num, by norm_num⟩]
    have := Fmt.rnd_eq (F := .double) (x := (6305039478318694 * (2 : ℝ) ^ (-52 : ℤ) - ((1 : ℤ) : ℝ)) * 1000000) (m := 6871947673599998) (e := -34)
      (by norm_num [Fmt.double, ieee]) (by norm_num [Fmt.double, ieee]) (by simp [Fmt.double, ieee]) (by norm_num [abs_lt])
    rw [this]
    exact Int.floor_eq_iff.2 ⟨by norm_num, by norm_num⟩
  rw [hv]
  obtain ⟨s, s1, s2⟩ := impl_eq (ndebug := ndebug) (F := .double) (C := .double) (noerr := noerr) (maxE10 := 308) (val := Fmt.double.div w p)
    (negative := decide ((6305039478318694 * (2 : ℝ) ^ (-52 : ℤ)) < 0)) (digits := 1) (v := 399999) (dg := fun _ => 1) (by norm_num) (by norm_num)
    (by norm_num) (by
      intro i hi
      interval_cases i
      refine ⟨?_, by norm_num, by norm_num⟩
      simpa using hd0 hR2)
  refine ⟨s, s1, ?_⟩
  rw [s2, decide_eq_false (by norm_num)]
  decide

/-- `float_exponent10` returns the integral part of its argument, from 1 on -/
theorem C104_exponent_refuted (F : Fmt) (hp : 24 ≤ F.p) (x : ℝ) (h1 : 1 ≤ x) (h2 : x < 2 ^ 31) :
    floatExponent10 F (.num x) = some ⌊x⌋ :=
  exponent10_pos hp (Val.num (by linarith)) h1 h2

/-- below 1, and of zero, `float_exponent10` and `float_to_string_exp` do not end -/
theorem C104_exponent_endless_refuted (F C : Fmt) (noerr ndebug : Bool) (maxE10 : ℕ) (hp : 24 ≤ F.p) (v : FV) (hh : F.Has v) (hv : v.isFin)
    (h0 : 0 ≤ v.val) (h1 : v.val < 1) : floatExponent10 F v = none ∧ floatToStringExp F C noerr ndebug maxE10 v = none := by
  have he := exponent10_neg hp (val_of_has hh hv) h0 h1
  refine ⟨he, ?_⟩
  obtain ⟨i1, i2⟩ := fin_class hv
  rw [floatToStringExp, Option.bind_eq_bind, Option.bind_eq_none_iff]
  intro m _
  rw [if_neg (by simp [i1]), if_neg (by simp [i2]), he]
  rfl

end Sprout
