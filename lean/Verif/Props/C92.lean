import Verif.Proofs.MathTables

/-! # C92: tables of factorials and Bernoulli numbers -/

namespace Sprout

open Classical FV Fmt MathTables

/-- `factorial` of an integer type is the factorial up to the limit, and fails beyond it -/
theorem C92_factorial_int (t : IntTy) (n : ℕ) :
    (n ≤ t.limit → factorialInt t n = some (n.factorial : ℤ) ∧ (n.factorial : ℤ) ≤ t.max) ∧
    (t.limit < n → factorialInt t n = none) := by
  constructor
  · intro h
    have key : ∀ t : IntTy, ∀ k ∈ List.range (t.limit + 1), factorialInt t k = some (k.factorial : ℤ) ∧
        (k.factorial : ℤ) ≤ t.max := by
      intro t
      cases t <;> decide +kernel
    exact key t n (List.mem_range.2 (by omega))
  · intro h
    unfold factorialInt
    rw [if_neg (by omega)]

/-- The limit is the last factorial in range, but for types of four bytes.
Missing: these, see `C92_factorial_limit_refuted`. -/
theorem C92_factorial_limit_partial (t : IntTy) (h4 : t ≠ .s4) (h4' : t ≠ .u4) :
    t.max < ((t.limit + 1).factorial : ℤ) := by
  cases t <;> first | contradiction | decide +kernel

/-- 12! is in the range of types of four bytes but not in their tables -/
theorem C92_factorial_limit_refuted : ∀ t, t = IntTy.s4 ∨ t = IntTy.u4 → (Nat.factorial 12 : ℤ) ≤ t.max ∧
    factorialInt t 12 = none := by
  rintro t (rfl | rfl) <;> decide +kernel

namespace MathTables

theorem rnd_lt_emax' {F : Fmt} (h3 : 3 ≤ F.p) {x : ℝ} (h : |x| ≤ 7 * (2 : ℝ) ^ (F.emax - 3)) :
    |F.rnd x| < (2 : ℝ) ^ F.emax := by
  have h1 := F.p_lt_emax
  have h2 := F.emin_le_zero
  have h7 : |(7 : ℤ)| < 2 ^ F.p := by
    calc |(7 : ℤ)| < 2 ^ 3 := by norm_num
      _ ≤ 2 ^ F.p := pow_le_pow_right₀ (by norm_num) h3
  refine lt_of_le_of_lt (rnd_abs_le h ⟨7, F.emax - 3, by omega, h7, by norm_num⟩) ?_
  have e : (2 : ℝ) ^ F.emax = 8 * (2 : ℝ) ^ (F.emax - 3) := by
    rw [zpow_sub₀ (by norm_num)]; norm_num; ring
  have : (0 : ℝ) < (2 : ℝ) ^ (F.emax - 3) := by positivity
  linarith

/-- `7 * 2 ^ (emax - 3)` of a type of at least the range of `float` -/
theorem seven_le {F : Fmt} (k : ℕ) (h : (k : ℤ) + 3 ≤ F.emax) : (7 : ℝ) * 2 ^ k ≤ 7 * (2 : ℝ) ^ (F.emax - 3) := by
  rw [← zpow_natCast]
  have := zpow_le_zpow_right₀ (by norm_num : (1 : ℝ) ≤ 2) (show (k : ℤ) ≤ F.emax - 3 by omega)
  linarith

/-- the formats the floating types have -/
def HasFormat (F : Fmt) : FloatTy → Prop
  | .float => F.p = 24 ∧ 128 ≤ F.emax
  | .double => F.p = 53 ∧ 1024 ≤ F.emax
  | .longDouble => (F.p = 53 ∨ F.p = 64 ∨ F.p = 113) ∧ 1024 ≤ F.emax

theorem HasFormat.three {F : Fmt} {t : FloatTy} (h : HasFormat F t) : 24 ≤ F.p := by
  cases t <;> simp only [HasFormat] at h <;> omega

theorem HasFormat.emax {F : Fmt} {t : FloatTy} (h : HasFormat F t) : 128 ≤ F.emax := by
  cases t <;> simp only [HasFormat] at h <;> omega

theorem factFloat_good : ∀ k ∈ List.range 35, ∃ d, factFloat[k]? = some d ∧ good 24 k.factorial d = true := by
  decide +kernel

theorem factDouble_good : ∀ p ∈ [53, 64, 113], ∀ k ∈ List.range 171, ∃ d, factDouble[k]? = some d ∧
    good p k.factorial d = true := by
  decide +kernel

theorem fact_bound {F : Fmt} {t : FloatTy} (h : HasFormat F t) {n : ℕ} (hn : n ≤ t.limit) :
    |(n.factorial : ℝ)| ≤ 7 * (2 : ℝ) ^ (F.emax - 3) := by
  rw [abs_of_nonneg (by positivity)]
  cases t with
  | float =>
    have h1 : n.factorial ≤ 7 * 2 ^ 125 := le_trans (Nat.factorial_le hn) (by decide +kernel)
    refine le_trans ?_ (seven_le 125 (by have := h.2; push_cast; omega))
    exact_mod_cast h1
  | double =>
    have h1 : n.factorial ≤ 7 * 2 ^ 1021 := le_trans (Nat.factorial_le hn) (by decide +kernel)
    refine le_trans ?_ (seven_le 1021 (by have := h.2; push_cast; omega))
    exact_mod_cast h1
  | longDouble =>
    have h1 : n.factorial ≤ 7 * 2 ^ 1021 := le_trans (Nat.factorial_le hn) (by decide +kernel)
    refine le_trans ?_ (seven_le 1021 (by have := h.2; push_cast; omega))
    exact_mod_cast h1

end MathTables

/-- `factorial` of a floating type is the correctly rounded factorial, up to the limit, and fails beyond it -/
theorem C92_factorial_float (F : Fmt) (t : FloatTy) (h : HasFormat F t) (n : ℕ) :
    (n ≤ t.limit → factorial F t n = some (.num (F.rnd n.factorial)) ∧ |F.rnd n.factorial| < (2 : ℝ) ^ F.emax) ∧
    (t.limit < n → factorial F t n = none) := by
  constructor
  · intro hn
    have hlt := rnd_lt_emax' (by have := h.three; omega) (fact_bound h hn)
    refine ⟨?_, hlt⟩
    have key : ∃ d, t.table[n]? = some d ∧ good F.p n.factorial d = true := by
      cases t with
      | float => rw [h.1]; exact factFloat_good n (List.mem_range.2 (Nat.lt_succ_of_le hn))
      | double => rw [h.1]; exact factDouble_good 53 (by simp) n (List.mem_range.2 (Nat.lt_succ_of_le hn))
      | longDouble =>
        exact factDouble_good F.p (by have := h.1; simpa using this) n (List.mem_range.2 (Nat.lt_succ_of_le hn))
    obtain ⟨d, h1, h2⟩ := key
    unfold factorial uncheckedFactorial
    rw [if_pos hn, h1, Option.map_some]
    congr 1
    have e := good_rnd h2
    have h0 : F.rnd (n.factorial : ℝ) ≠ 0 := by
      have h1 : (1 : ℝ) ≤ n.factorial := by exact_mod_cast Nat.factorial_pos n
      have := le_rnd h1 F.rep_one
      linarith
    rw [← e] at h0 hlt ⊢
    exact (ofReal_val hlt).eq_num h0
  · intro hn
    unfold factorial
    rw [if_neg (by omega)]

/-- the limits of `float` and `double` are the last factorials which do not overflow.
Missing: `long double`, see `C92_factorial_float_limit_refuted`. -/
theorem C92_factorial_float_limit_partial : (2 : ℝ) ^ 128 ≤ (FloatTy.float.limit + 1).factorial ∧
    (2 : ℝ) ^ 1024 ≤ (FloatTy.double.limit + 1).factorial := by
  have h1 : 2 ^ 128 ≤ (FloatTy.float.limit + 1).factorial := by decide +kernel
  have h2 : 2 ^ 1024 ≤ (FloatTy.double.limit + 1).factorial := by decide +kernel
  exact ⟨by exact_mod_cast h1, by exact_mod_cast h2⟩

/-- 1000! does not overflow in `long double` of 64 or 113 bits, but is not in its table -/
theorem C92_factorial_float_limit_refuted : (Nat.factorial 1000 : ℝ) < (2 : ℝ) ^ 16000 ∧
    factorial extended .longDouble 1000 = none ∧ factorial quad .longDouble 1000 = none := by
  refine ⟨?_, ?_, ?_⟩
  · have : Nat.factorial 1000 < 2 ^ 16000 := by decide +kernel
    exact_mod_cast this
  · exact (if_neg (by decide))
  · exact (if_neg (by decide))

namespace MathTables

/-- the sign of an entry -/
def Entry.sign (a : Entry) : ℤ := if a.neg then -1 else 1

/-- entry `i` of the table is near the Bernoulli number -/
def goodB (i : ℕ) (a : Entry) : Bool :=
  let d := a.den.getD 1
  let m := a.lit.m * 10 ^ a.lit.e
  let f := 10 ^ a.lit.f
  let n := bnum.getD (2 * i) 0
  decide (f ≤ m) && decide (0 < d) && decide (d ≤ 2 ^ 24) && decide (d * f ≤ 100 * m) &&
  decide (m ≤ (if i ≤ 32 then 7 * 2 ^ 125 else 7 * 2 ^ 1021) * f) &&
  (i == 14 || decide (|a.sign * m * bden - n * f * d| * 10 ^ 21 ≤ |n| * f * d))

theorem table_good : ∀ i ∈ List.range 51, ∃ a, bernoulliTable[i]? = some a ∧ goodB i a = true := by
  decide +kernel

theorem eval_val {F : Fmt} (h24 : 24 ≤ F.p) {a : Entry} {L : ℝ} {d : ℕ} (hL : a.lit.val = L) (hd : a.den.getD 1 = d) (h1 : 1 ≤ L)
    (h0 : 0 < d) (hd2 : d ≤ 2 ^ 24) (hLd : (d : ℝ) ≤ 100 * L) (hmax : L ≤ 7 * (2 : ℝ) ^ (F.emax - 3)) :
    ∃ r : ℝ, Val (a.eval F) (a.sign * r) ∧ |r - L / d| ≤ (2 + F.u) * F.u * (L / d) := by
  have hu := u_pos (F := F)
  have hE := F.emin_le
  have hd0 : (0 : ℝ) < d := by exact_mod_cast h0
  have hd1 : (1 : ℝ) ≤ d := by exact_mod_cast h0
  have hsm : (2 : ℝ) ^ (F.emin + F.p - 1) ≤ 1 / 200 := by
    calc (2 : ℝ) ^ (F.emin + F.p - 1) ≤ (2 : ℝ) ^ (-8 : ℤ) := zpow_le_zpow_right₀ (by norm_num) (by omega)
      _ ≤ _ := by norm_num
  have hr := rnd_rel (F := F) (x := L) (by rw [abs_of_pos (by linarith)]; linarith)
  rw [abs_of_pos (show 0 < L by linarith), abs_le] at hr
  have hlt := rnd_lt_emax' (F := F) (by omega) (x := L) (by rwa [abs_of_pos (by linarith)])
  have hv : Val (F.ofReal false a.lit.val) (F.rnd L) := by rw [hL]; exact ofReal_val hlt
  have hl1 : 1 ≤ F.rnd L := le_rnd h1 F.rep_one
  have hq0 : 0 < L / d := by positivity
  have hs : Val (if a.neg then (F.ofReal false a.lit.val).neg else F.ofReal false a.lit.val) (a.sign * F.rnd L) := by
    unfold Entry.sign
    split_ifs
    · exact hv.neg.congr (by push_cast; ring)
    · exact hv.congr (by push_cast; ring)
  unfold Entry.eval
  cases hden : a.den with
  | none =>
    rw [hden] at hd
    simp only [Option.getD_none] at hd
    subst hd
    refine ⟨F.rnd L, hs, ?_⟩
    rw [abs_le]
    push_cast
    rw [div_one]
    have : 0 < F.u * L := by positivity
    constructor <;> nlinarith
  | some d' =>
    rw [hden] at hd
    simp only [Option.getD_some] at hd
    subst hd
    have hrep : Rep F.p F.emin ((d' : ℤ) : ℝ) := F.rep_int d' (by
      rw [Nat.abs_cast]
      exact_mod_cast le_trans hd2 (Nat.pow_le_pow_right (by norm_num) h24))
    have hdv : Val (F.ofInt d') (d' : ℝ) := by
      have h24' : (2 : ℝ) ^ 24 ≤ (2 : ℝ) ^ F.p := pow_le_pow_right₀ (by norm_num) h24
      have hlt : |((d' : ℤ) : ℝ)| < (2 : ℝ) ^ F.emax := two_pow_le_emax (by
        rw [abs_of_pos (by exact_mod_cast h0)]
        refine le_trans ?_ h24'
        exact_mod_cast hd2)
      exact ⟨false, by rw [ofInt_mkv hrep hlt]; simp⟩
    -- the quotient
    have hq : F.rnd L / d' ≤ (1 + F.u) * (L / d') := by
      rw [← mul_div_assoc]
      exact div_le_div_of_nonneg_right (by linarith) (le_of_lt hd0)
    have hq' : (1 - F.u) * (L / d') ≤ F.rnd L / d' := by
      rw [← mul_div_assoc]
      exact div_le_div_of_nonneg_right (by linarith) (le_of_lt hd0)
    have hLd' : 1 / 100 ≤ L / d' := by rw [div_le_div_iff₀ (by norm_num) hd0]; linarith
    have hu4 := u_le (F := F)
    have hqn : (2 : ℝ) ^ (F.emin + F.p - 1) ≤ |F.rnd L / d'| := by
      rw [abs_of_pos (by positivity)]
      nlinarith
    have hr2 := rnd_rel hqn
    rw [abs_of_pos (show 0 < F.rnd L / d' by positivity)] at hr2
    have hlt2 : |F.rnd (a.sign * (F.rnd L / d'))| < (2 : ℝ) ^ F.emax := by
      refine lt_of_le_of_lt (rnd_abs_le (b := |F.rnd L|) ?_ (F.rnd_rep L).abs) hlt
      rw [abs_mul, abs_of_pos (show 0 < F.rnd L / d' by positivity), abs_of_pos (show 0 < F.rnd L by linarith)]
      have hsg : |(a.sign : ℝ)| = 1 := by unfold Entry.sign; split_ifs <;> simp
      rw [hsg, one_mul]
      exact div_le_self (by linarith) hd1
    refine ⟨a.sign * F.rnd (a.sign * (F.rnd L / d')), ?_, ?_⟩
    · have := div_val (F := F) hs hdv (ne_of_gt hd0) (by rwa [mul_div_assoc])
      refine this.congr ?_
      rw [mul_div_assoc, ← mul_assoc]
      have hsg : (a.sign : ℝ) * a.sign = 1 := by unfold Entry.sign; split_ifs <;> simp
      rw [hsg, one_mul]
    · have hx : |a.sign * F.rnd (a.sign * (F.rnd L / d')) - F.rnd L / d'| ≤ F.u * (F.rnd L / d') := by
        unfold Entry.sign
        split_ifs
        · have h3 := rnd_rel (F := F) (x := -(F.rnd L / d')) (by rwa [abs_neg])
          rw [abs_neg, abs_of_pos (show 0 < F.rnd L / d' by positivity)] at h3
          rw [← abs_neg]
          push_cast
          rw [show (-1 : ℝ) * (F.rnd L / d') = -(F.rnd L / d') by ring]
          rw [show -(-1 * F.rnd (-(F.rnd L / ↑d')) - F.rnd L / ↑d') = F.rnd (-(F.rnd L / ↑d')) - -(F.rnd L / ↑d') by ring]
          exact h3
        · push_cast
          rw [one_mul, one_mul]
          exact hr2
      rw [abs_le] at hx ⊢
      have h5 : F.u * (F.rnd L / d') ≤ F.u * ((1 + F.u) * (L / d')) := mul_le_mul_of_nonneg_left hq (le_of_lt hu)
      constructor <;> nlinarith

/-- the parts of an entry as real numbers -/
theorem goodB_spec {i : ℕ} {a : Entry} (h : goodB i a = true) :
    1 ≤ a.lit.val ∧ 0 < a.den.getD 1 ∧ a.den.getD 1 ≤ 2 ^ 24 ∧ ((a.den.getD 1 : ℕ) : ℝ) ≤ 100 * a.lit.val ∧
    (a.lit.val ≤ if i ≤ 32 then 7 * 2 ^ 125 else 7 * 2 ^ 1021) ∧
    (i ≠ 14 → |a.sign * (a.lit.val / ((a.den.getD 1 : ℕ) : ℝ)) - (bnum.getD (2 * i) 0 : ℝ) / bden| * 10 ^ 21 ≤
      |(bnum.getD (2 * i) 0 : ℝ) / bden|) := by
  unfold goodB at h
  simp only [Bool.and_eq_true, Bool.or_eq_true, decide_eq_true_eq, beq_iff_eq] at h
  obtain ⟨⟨⟨⟨⟨h1, h2⟩, h3⟩, h4⟩, h5⟩, h6⟩ := h
  have hf : (0 : ℝ) < (10 : ℝ) ^ a.lit.f := by positivity
  have hd0 : (0 : ℝ) < ((a.den.getD 1 : ℕ) : ℝ) := by exact_mod_cast h2
  have hb0 : (0 : ℝ) < (bden : ℝ) := by
    have : 0 < bden := by decide +kernel
    exact_mod_cast this
  refine ⟨?_, h2, h3, ?_, ?_, ?_⟩
  · unfold Dec.val
    rw [le_div_iff₀ hf, one_mul]
    exact_mod_cast h1
  · unfold Dec.val
    rw [← mul_div_assoc, le_div_iff₀ hf]
    exact_mod_cast h4
  · unfold Dec.val
    rw [div_le_iff₀ hf]
    split_ifs with hi
    · rw [if_pos hi] at h5; exact_mod_cast h5
    · rw [if_neg hi] at h5; exact_mod_cast h5
  · intro hi
    have h7 := h6.resolve_left hi
    generalize bnum.getD (2 * i) 0 = n at h7 ⊢
    generalize a.den.getD 1 = d at h7 hd0 ⊢
    have h8 : |(a.sign : ℝ) * (a.lit.m * 10 ^ a.lit.e) * bden - n * 10 ^ a.lit.f * d| * 10 ^ 21 ≤
        |(n : ℝ)| * 10 ^ a.lit.f * d := by
      have : ((|a.sign * ((a.lit.m * 10 ^ a.lit.e : ℕ) : ℤ) * bden - n * ((10 ^ a.lit.f : ℕ) : ℤ) * d| * 10 ^ 21 : ℤ) : ℝ) ≤
        ((|n| * ((10 ^ a.lit.f : ℕ) : ℤ) * d : ℤ) : ℝ) := by exact_mod_cast h7
      push_cast at this
      norm_num at this ⊢
      exact this
    have e1 : (a.sign : ℝ) * (a.lit.m * 10 ^ a.lit.e) * bden - n * 10 ^ a.lit.f * d =
        (a.sign * (a.lit.val / d) - n / bden) * (10 ^ a.lit.f * d * bden) := by
      unfold Dec.val
      field_simp
    have e2 : |(n : ℝ)| * 10 ^ a.lit.f * d = |(n : ℝ) / bden| * (10 ^ a.lit.f * d * bden) := by
      rw [abs_div, abs_of_pos hb0]
      field_simp
    have hP : (0 : ℝ) < 10 ^ a.lit.f * d * bden := by positivity
    rw [e1, e2, abs_mul, abs_of_pos hP, mul_right_comm] at h8
    exact le_of_mul_le_mul_right h8 hP

theorem bernoulli_real (n : ℕ) (hn : n ≤ 100) : ((bernoulli n : ℚ) : ℝ) = (bnum.getD n 0 : ℝ) / bden := by
  rw [bernoulli_eq n hn]
  push_cast
  rfl

theorem bernoulli_limit_le (t : FloatTy) : t.bernoulliLimit ≤ 100 ∧ t.bernoulliLimit % 2 = 0 := by cases t <;> decide

theorem bernoulliNumber_even {F : Fmt} {t : FloatTy} {n : ℕ} (hn : n ≤ t.bernoulliLimit) (he : n % 2 = 0) :
    bernoulliNumber F t n = bernoulliTable[n / 2]?.map fun a => a.eval F := by
  unfold bernoulliNumber
  rw [if_pos hn, if_neg (by omega), if_neg (by omega), List.getElem?_take_of_lt (by omega)]

/-- the value of an entry in a format -/
theorem entry_val {F : Fmt} {t : FloatTy} (h : HasFormat F t) {n : ℕ} (hn : n ≤ t.bernoulliLimit) (he : n % 2 = 0) {a : Entry}
    (ha : goodB (n / 2) a = true) : ∃ r : ℝ, Val (a.eval F) (a.sign * r) ∧
      |r - a.lit.val / ((a.den.getD 1 : ℕ) : ℝ)| ≤ (2 + F.u) * F.u * (a.lit.val / ((a.den.getD 1 : ℕ) : ℝ)) := by
  obtain ⟨h1, h2, h3, h4, h5, -⟩ := goodB_spec ha
  refine eval_val h.three rfl rfl h1 h2 h3 h4 (le_trans h5 ?_)
  split_ifs with hi
  · exact seven_le 125 (by have := h.emax; push_cast; omega)
  · refine seven_le 1021 ?_
    cases t with
    | float => simp [FloatTy.bernoulliLimit] at hn; omega
    | double => have := h.2; push_cast; omega
    | longDouble => have := h.2; push_cast; omega

end MathTables

/-- `bernoulli_number` is the Bernoulli number but for a relative error of three halves of the epsilon, except for the number 28,
in `float`, `double` and `long double` of 64 bits.
Missing: the number 28, see `C92_bernoulli_refuted`; the literals are too short for `long double` of 113 bits. -/
theorem C92_bernoulli_partial (F : Fmt) (t : FloatTy) (h : HasFormat F t) (hp : F.p ≤ 64) (n : ℕ) (hn : n ≤ t.bernoulliLimit)
    (h28 : n ≠ 28) : ∃ v, bernoulliNumber F t n = some v ∧ v.isFin ∧
      |v.val - ((bernoulli n : ℚ) : ℝ)| ≤ 3 * (2 : ℝ) ^ (-(F.p : ℤ)) * |((bernoulli n : ℚ) : ℝ)| := by
  have hl := bernoulli_limit_le t
  have hu := u_pos (F := F)
  show ∃ v, _ ∧ _ ∧ _ ≤ 3 * F.u * _
  rcases eq_or_ne n 1 with rfl | h1
  · have h2 : F.div (F.ofInt (-1)) (F.ofInt 2) = .num (-1 / 2) := by
      have r1 : Rep F.p F.emin ((-1 : ℤ) : ℝ) := F.rep_int (-1) (by simp; exact one_le_pow₀ (by norm_num))
      have h24 := h.three
      have h4 : (2 : ℝ) ^ 2 ≤ (2 : ℝ) ^ F.p := pow_le_pow_right₀ (by norm_num) (by omega)
      have h4' : (2 : ℤ) ^ 2 ≤ (2 : ℤ) ^ F.p := pow_le_pow_right₀ (by norm_num) (by omega)
      have r2 : Rep F.p F.emin ((2 : ℤ) : ℝ) := F.rep_int 2 (by norm_num; omega)
      rw [ofInt_mkv r1 (two_pow_le_emax (by norm_num; linarith)), ofInt_mkv r2 (two_pow_le_emax (by norm_num; linarith))]
      have hE := F.emin_le
      have r3 : Rep F.p F.emin (-1 / 2 : ℝ) :=
        ⟨-1, -1, by omega, by norm_num; linarith, by norm_num⟩
      have e3 : (((-1 : ℤ) : ℝ) / ((2 : ℤ) : ℝ)) = (-1 / 2 : ℝ) := by norm_num
      have hb3 : |(-1 / 2 : ℝ)| < (2 : ℝ) ^ F.emax := two_pow_le_emax (by rw [abs_of_neg (by norm_num)]; linarith)
      rw [div_mkv (by norm_num) (by rwa [e3]) (by rwa [e3]), e3, mkv_num _ (by norm_num)]
    refine ⟨.num (-1 / 2), ?_, rfl, ?_⟩
    · unfold bernoulliNumber
      rw [if_pos hn, if_pos rfl, h2]
    · rw [bernoulli_one]
      simp only [FV.val]
      norm_num
      exact le_of_lt hu
  rcases Nat.mod_two_eq_zero_or_one n with he | ho
  · obtain ⟨a, ha1, ha2⟩ := table_good (n / 2) (List.mem_range.2 (by omega))
    obtain ⟨r, hv, hr⟩ := entry_val h hn he ha2
    refine ⟨a.eval F, ?_, hv.isFin, ?_⟩
    · rw [bernoulliNumber_even hn he, ha1, Option.map_some]
    · rw [hv.val, bernoulli_real n (by omega)]
      have h6 := (goodB_spec ha2).2.2.2.2.2 (by omega)
      rw [show 2 * (n / 2) = n by omega] at h6
      have hpos : 0 < a.lit.val / ((a.den.getD 1 : ℕ) : ℝ) := by
        have h1 := (goodB_spec ha2).1
        have h2 := (goodB_spec ha2).2.1
        have : (0 : ℝ) < ((a.den.getD 1 : ℕ) : ℝ) := by exact_mod_cast h2
        positivity
      generalize (bnum.getD n 0 : ℝ) / bden = b at h6 ⊢
      generalize a.lit.val / ((a.den.getD 1 : ℕ) : ℝ) = q at h6 hr hpos
      have hu64 : (1 : ℝ) / 10 ^ 21 ≤ F.u / 16 := by
        have : (2 : ℝ) ^ (-(64 : ℕ) : ℤ) ≤ F.u := zpow_le_zpow_right₀ (by norm_num) (by omega)
        norm_num at this
        linarith
      have hu24 : F.u ≤ 1 / 16 := by
        have h24 := h.three
        calc F.u ≤ (2 : ℝ) ^ (-4 : ℤ) := zpow_le_zpow_right₀ (by norm_num) (by omega)
          _ = 1 / 16 := by norm_num
      have hs : |(a.sign : ℝ)| = 1 := by unfold Entry.sign; split_ifs <;> simp
      have t1 : |a.sign * r - a.sign * q| ≤ (2 + F.u) * F.u * q := by
        rw [← mul_sub, abs_mul, hs, one_mul]; exact hr
      have t2 : |a.sign * q - b| ≤ F.u / 16 * |b| := by
        have : |a.sign * q - b| ≤ 1 / 10 ^ 21 * |b| := by
          rw [div_mul_eq_mul_div, one_mul, le_div_iff₀ (by positivity)]; exact h6
        exact le_trans this (mul_le_mul_of_nonneg_right hu64 (abs_nonneg b))
      have t3 : q ≤ |b| + F.u / 16 * |b| := by
        have h7 : |(a.sign : ℝ) * q| = q := by rw [abs_mul, hs, one_mul, abs_of_pos hpos]
        have h8 : |(a.sign : ℝ) * q| ≤ |a.sign * q - b| + |b| := by
          have := abs_add_le (a.sign * q - b) b
          simpa using this
        linarith
      have t4 : |a.sign * r - b| ≤ |a.sign * r - a.sign * q| + |a.sign * q - b| := by
        have := abs_add_le (a.sign * r - a.sign * q) (a.sign * q - b)
        simpa using this
      have hb := abs_nonneg b
      have t5 : (2 + F.u) * F.u * q ≤ (2 + F.u) * F.u * (|b| + F.u / 16 * |b|) :=
        mul_le_mul_of_nonneg_left t3 (by positivity)
      have t6 : (2 + F.u) * F.u * (|b| + F.u / 16 * |b|) + F.u / 16 * |b| ≤ 3 * F.u * |b| := by
        have h9 : (2 + F.u) * (1 + F.u / 16) + 1 / 16 ≤ 3 := by nlinarith
        have := mul_le_mul_of_nonneg_right h9 (show 0 ≤ F.u * |b| by positivity)
        linarith
      linarith
  · refine ⟨.zero false, ?_, rfl, ?_⟩
    · unfold bernoulliNumber
      rw [if_pos hn, if_neg h1, if_pos ho]
    · have hodd : bernoulli n = 0 := bernoulli_eq_zero_of_odd (Nat.odd_iff.2 ho) (by omega)
      rw [hodd]
      simp [FV.val]

/-- beyond the limit `bernoulli_number` fails -/
theorem C92_bernoulli_limit (F : Fmt) (t : FloatTy) (n : ℕ) (hn : t.bernoulliLimit < n) : bernoulliNumber F t n = none := by
  unfold bernoulliNumber
  rw [if_neg (by omega)]

/-- The Bernoulli number 28 is -23749461029 / 870, but the table has the numerator of the number 24 there: the result is a
hundred times too small. -/
theorem C92_bernoulli_refuted (F : Fmt) (t : FloatTy) (h : HasFormat F t) :
    bernoulli 28 = -23749461029 / 870 ∧
    ∃ v, bernoulliNumber F t 28 = some v ∧ v.isFin ∧ |v.val| ≤ |((bernoulli 28 : ℚ) : ℝ)| / 50 := by
  have hb : bernoulli 28 = -23749461029 / 870 := by
    rw [bernoulli_eq 28 (by norm_num)]
    decide +kernel
  have hn : 28 ≤ t.bernoulliLimit := by cases t <;> decide
  refine ⟨hb, ?_⟩
  obtain ⟨a, ha1, ha2⟩ := table_good 14 (by decide)
  obtain ⟨r, hv, hr⟩ := entry_val (n := 28) h hn (by norm_num) ha2
  refine ⟨a.eval F, ?_, hv.isFin, ?_⟩
  · rw [bernoulliNumber_even hn (by norm_num), ha1, Option.map_some]
  · have ha : a = ⟨true, ⟨236364091, 0, 0⟩, some 870⟩ := by
      have : bernoulliTable[14]? = some ⟨true, ⟨236364091, 0, 0⟩, some 870⟩ := by decide
      rw [this] at ha1
      exact (Option.some.inj ha1).symm
    subst ha
    rw [hv.val, hb]
    have hu := u_pos (F := F)
    have hu4 := u_le (F := F)
    simp only [Dec.val, Entry.sign, Option.getD_some] at hr ⊢
    norm_num at hr ⊢
    rw [abs_le] at hr ⊢
    constructor <;> nlinarith [hr.1, hr.2]

/-- the formats of the types -/
example : HasFormat Fmt.float .float ∧ HasFormat double .double ∧ HasFormat extended .longDouble ∧ HasFormat quad .longDouble :=
  ⟨⟨rfl, le_refl _⟩, ⟨rfl, le_refl _⟩, ⟨.inr (.inl rfl), by decide⟩, ⟨.inr (.inr rfl), by decide⟩⟩

example : factorialInt .s8 20 = some 2432902008176640000 ∧ factorialInt .u2 9 = none := by decide +kernel

/-- the number 30 has the right entry 8615841276005 / 14322 -/
example : bernoulli 30 = 8615841276005 / 14322 := by
  rw [bernoulli_eq 30 (by norm_num)]
  decide +kernel

end Sprout
