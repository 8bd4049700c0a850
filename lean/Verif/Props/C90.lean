import Mathlib.Analysis.Complex.ExponentialBounds
import Verif.Proofs.MathLogb

/-! # C90: scaling by powers of two, exponents and significands -/

namespace Sprout

open Classical FV Fmt MathRound MathScale

/-- the product with a power of two, rounded once -/
noncomputable def scaled (F : Fmt) (x : ℝ) (k : ℤ) : FV := F.ofReal (decide (x < 0)) (x * (2 : ℝ) ^ k)

namespace MathScale

theorem scalbn_num (F C : Fmt) (lo : ℤ) {x : ℝ} (h0 : x ≠ 0) {k : ℤ} (hk : k ≠ 0) :
    scalbn F C lo (.num x) k = (powN C lo (.num 2) k).map fun r => F.cvt (C.mul (C.cvt (.num x)) r) := by
  unfold scalbn
  simp [MathClass.isnan, h0, hk]

theorem mul_two (C : Fmt) (x : ℝ) (k : ℤ) : C.mul (.num x) (.num ((2 : ℝ) ^ k)) = scaled C x k := by
  have hp : (0 : ℝ) < (2 : ℝ) ^ k := by positivity
  rw [mul_num, decide_eq_false (not_lt.2 (le_of_lt hp))]
  unfold scaled
  simp

theorem cvt_ofReal (F : Fmt) (s : Bool) (r : ℝ) : F.cvt (F.ofReal s r) = F.ofReal s r := by
  unfold ofReal
  split_ifs with h1 h2
  · rfl
  · rfl
  · exact cvt_num (F.rnd_rep r) (not_le.1 h2) h1

end MathScale

/-- special values and the exponent 0 -/
theorem C90_scalbn_special (F C : Fmt) (lo : ℤ) (v : FV) (k : ℤ) (h : v.isFin = false ∨ v.val = 0 ∨ k = 0) :
    scalbn F C lo v k = some v := by
  unfold scalbn
  cases v with
  | nan => simp [MathClass.isnan]
  | inf s => cases s <;> simp [MathClass.isnan]
  | zero s => simp [MathClass.isnan]
  | num x => rcases h with h | h | h <;> simp_all [MathClass.isnan, isFin, val]

/-- The product is rounded correctly if the power of two is a value of the type and does not overflow. Missing: other
exponents, for which see `C90_scalbn_refuted`. -/
theorem C90_scalbn_partial (F : Fmt) (lo : ℤ) (x : ℝ) (hx : F.Has (.num x)) (k : ℤ) (hl : k ≠ lo)
    (h1 : -F.emax < k) (h2 : k < F.emax) (h3 : F.emin ≤ k) :
    scalbn F F lo (.num x) k = some (scaled F x k) := by
  rcases eq_or_ne k 0 with rfl | hk
  · rw [C90_scalbn_special F F lo _ 0 (by simp)]
    unfold scaled
    rw [zpow_zero, mul_one, ofReal_num hx.2.1 hx.2.2 hx.1]
  · rw [scalbn_num F F lo hx.1 hk, powN_two hl h1 h2 h3, Option.map_some, cvt_num hx.2.1 hx.2.2 hx.1, mul_two]
    unfold scaled
    rw [cvt_ofReal]

/-- Values of a type much narrower than the type of computation (`float` and `double`) are scaled correctly by every
exponent but the least of its type. -/
theorem C90_scalbn_wide_partial (F C : Fmt) (hs : F.Sub C) (hm : F.emax - F.emin < C.emax) (hc : C.emin < -C.emax + 1)
    (hc2 : C.emin + C.p < F.emin - 1) (lo : ℤ) (x : ℝ) (hx : F.Has (.num x)) (k : ℤ) (hl : k ≠ lo) :
    scalbn F C lo (.num x) k = some (scaled F x k) := by
  obtain ⟨h0, hr, hb⟩ := hx
  have hbC := lt_of_lt_of_le hb (zpow_le_zpow_right₀ (by norm_num : (1 : ℝ) ≤ 2) hs.2.2)
  rcases eq_or_ne k 0 with rfl | hk
  · rw [C90_scalbn_special F C lo _ 0 (by simp)]
    unfold scaled
    rw [zpow_zero, mul_one, ofReal_num hr hb h0]
  rw [scalbn_num F C lo h0 hk, cvt_num (hs.rep hr) hbC h0]
  have hkp : (0 : ℝ) < (2 : ℝ) ^ k := by positivity
  have habs : |x * (2 : ℝ) ^ k| = |x| * (2 : ℝ) ^ k := by rw [abs_mul, abs_of_pos hkp]
  have hsg : decide (x * (2 : ℝ) ^ k < 0) = decide (x < 0) := by
    rw [decide_eq_decide]
    constructor
    · intro h; by_contra hc; exact absurd h (not_lt.2 (mul_nonneg (not_lt.1 hc) (le_of_lt hkp)))
    · intro h; exact mul_neg_of_neg_of_pos h hkp
  have hmin : (2 : ℝ) ^ F.emin ≤ |x| := by
    obtain ⟨m, e, he, _, rfl⟩ := hr
    have hm : m ≠ 0 := by rintro rfl; simp at h0
    have h1 : (1 : ℝ) ≤ |(m : ℝ)| := by exact_mod_cast Int.one_le_abs hm
    rw [abs_mul, abs_of_pos (by positivity : (0 : ℝ) < (2 : ℝ) ^ e)]
    calc (2 : ℝ) ^ F.emin ≤ (2 : ℝ) ^ e := zpow_le_zpow_right₀ (by norm_num) he
      _ = 1 * (2 : ℝ) ^ e := by ring
      _ ≤ _ := mul_le_mul_of_nonneg_right h1 (by positivity)
  -- tiny results
  have htiny : |x * (2 : ℝ) ^ k| < (2 : ℝ) ^ (F.emin - 1) → scaled F x k = .zero (decide (x < 0)) := by
    intro h
    unfold scaled ofReal
    rw [rnd_tiny h, if_pos rfl]
  rcases le_or_gt C.emax k with hi | hi
  · -- overflow
    rw [powN_inf hi, Option.map_some]
    have hbig : (2 : ℝ) ^ F.emax ≤ |x * (2 : ℝ) ^ k| := by
      rw [habs]
      calc (2 : ℝ) ^ F.emax ≤ (2 : ℝ) ^ (F.emin + k) := zpow_le_zpow_right₀ (by norm_num) (by omega)
        _ = (2 : ℝ) ^ F.emin * (2 : ℝ) ^ k := zpow_add₀ (by norm_num) _ _
        _ ≤ _ := mul_le_mul_of_nonneg_right hmin (le_of_lt hkp)
    have hrep : Rep F.p F.emin ((2 : ℝ) ^ F.emax) := Rep.two_zpow _
      (by have := F.emin_le_zero; have := F.emax_pos; omega) F.one_le_p
    have hR : (2 : ℝ) ^ F.emax ≤ |F.rnd (x * (2 : ℝ) ^ k)| := by
      rcases lt_or_gt_of_ne h0 with hn | hn
      · have : x * (2 : ℝ) ^ k < 0 := mul_neg_of_neg_of_pos hn hkp
        rw [abs_of_neg this] at hbig
        have := rnd_le (F := F) (x := x * (2 : ℝ) ^ k) (y := -(2 : ℝ) ^ F.emax) (by linarith) hrep.neg
        rw [abs_of_nonpos (by have : (0 : ℝ) < (2 : ℝ) ^ F.emax := by positivity
                              linarith)]
        linarith
      · have : 0 < x * (2 : ℝ) ^ k := mul_pos hn hkp
        rw [abs_of_pos this] at hbig
        exact le_trans (le_rnd hbig hrep) (le_abs_self _)
    have e : C.mul (.num x) (.inf false) = .inf (decide (x < 0)) := by simp [Fmt.mul, sgn]
    rw [e]
    unfold scaled ofReal
    rw [if_neg (by intro h; rw [h] at hR; have : (0 : ℝ) < (2 : ℝ) ^ F.emax := by positivity
                   simp at hR; linarith), if_pos hR, hsg]
    rfl
  rcases le_or_gt k (-C.emax) with hi2 | hi2
  · -- underflow
    rw [powN_tiny hl hi2, Option.map_some, htiny]
    · have e : C.mul (.num x) (.zero false) = .zero (decide (x < 0)) := by
        show C.ofReal (decide (x < 0) != false) (x * 0) = _
        rw [mul_zero, ofReal_zero]; simp
      rw [e]; rfl
    · rw [habs]
      calc |x| * (2 : ℝ) ^ k < (2 : ℝ) ^ F.emax * (2 : ℝ) ^ k := mul_lt_mul_of_pos_right hb hkp
        _ = (2 : ℝ) ^ (F.emax + k) := (zpow_add₀ (by norm_num) _ _).symm
        _ ≤ _ := zpow_le_zpow_right₀ (by norm_num) (by omega)
  rw [powN_two hl hi2 hi (by omega), Option.map_some, mul_two]
  congr 1
  rcases le_or_gt ((2 : ℝ) ^ (C.emin + C.p)) |x * (2 : ℝ) ^ k| with hbg | hsm
  · have hR : Rep C.p C.emin (x * (2 : ℝ) ^ k) := by
      refine hr.scale k hs.1 (le_trans (zpow_le_zpow_right₀ (by norm_num) ?_) hbg)
      have := hs.1; omega
    unfold scaled
    by_cases ho : |x * (2 : ℝ) ^ k| < (2 : ℝ) ^ C.emax
    · rw [ofReal_num hR ho (mul_ne_zero h0 (ne_of_gt hkp))]
      show F.ofReal (decide (x * (2 : ℝ) ^ k < 0)) _ = _
      rw [hsg]
    · have ho' := not_lt.1 ho
      have hrep : Rep F.p F.emin ((2 : ℝ) ^ F.emax) := Rep.two_zpow _
        (by have := F.emin_le_zero; have := F.emax_pos; omega) F.one_le_p
      have hbig : (2 : ℝ) ^ F.emax ≤ |x * (2 : ℝ) ^ k| :=
        le_trans (zpow_le_zpow_right₀ (by norm_num) hs.2.2) ho'
      have hRF : (2 : ℝ) ^ F.emax ≤ |F.rnd (x * (2 : ℝ) ^ k)| := by
        rcases lt_or_gt_of_ne h0 with hn | hn
        · have : x * (2 : ℝ) ^ k < 0 := mul_neg_of_neg_of_pos hn hkp
          rw [abs_of_neg this] at hbig
          have := rnd_le (F := F) (x := x * (2 : ℝ) ^ k) (y := -(2 : ℝ) ^ F.emax) (by linarith) hrep.neg
          rw [abs_of_nonpos (by have : (0 : ℝ) < (2 : ℝ) ^ F.emax := by positivity
                                linarith)]
          linarith
        · have : 0 < x * (2 : ℝ) ^ k := mul_pos hn hkp
          rw [abs_of_pos this] at hbig
          exact le_trans (le_rnd hbig hrep) (le_abs_self _)
      have hF0 : F.rnd (x * (2 : ℝ) ^ k) ≠ 0 := by
        intro h; rw [h] at hRF; have : (0 : ℝ) < (2 : ℝ) ^ F.emax := by positivity
        simp at hRF; linarith
      unfold ofReal
      rw [rnd_of_rep hR, if_neg (mul_ne_zero h0 (ne_of_gt hkp)), if_pos ho', if_neg hF0, if_pos hRF]
      rfl
  · have hsm2 : |x * (2 : ℝ) ^ k| < (2 : ℝ) ^ (F.emin - 1) :=
      lt_trans hsm (zpow_lt_zpow_right₀ (by norm_num) hc2)
    rw [htiny hsm2]
    have hrp : Rep C.p C.emin ((2 : ℝ) ^ (C.emin + C.p)) := Rep.two_zpow _ (by omega) C.one_le_p
    have hle : |C.rnd (x * (2 : ℝ) ^ k)| < (2 : ℝ) ^ (F.emin - 1) := by
      refine lt_of_le_of_lt ?_ (zpow_lt_zpow_right₀ (by norm_num : (1 : ℝ) < 2) hc2)
      rw [abs_lt] at hsm
      rw [abs_le]
      exact ⟨le_rnd (le_of_lt hsm.1) hrp.neg, rnd_le (le_of_lt hsm.2) hrp⟩
    unfold scaled ofReal
    by_cases hz : C.rnd (x * (2 : ℝ) ^ k) = 0
    · rw [if_pos hz]; rfl
    · rw [if_neg hz, if_neg]
      · show F.ofReal (decide (C.rnd (x * (2 : ℝ) ^ k) < 0)) (C.rnd (x * (2 : ℝ) ^ k)) = _
        unfold ofReal
        rw [rnd_tiny hle, if_pos rfl]
        congr 1
        rw [decide_eq_decide]
        rcases lt_or_gt_of_ne h0 with hn | hn
        · have h1 := rnd_le (F := C) (le_of_lt (mul_neg_of_neg_of_pos hn hkp)) Rep.zero
          exact ⟨fun _ => hn, fun _ => lt_of_le_of_ne h1 hz⟩
        · have h1 := rnd_nonneg (F := C) (le_of_lt (mul_pos hn hkp))
          exact ⟨fun h => absurd h (not_lt.2 h1), fun h => absurd h (not_lt.2 (le_of_lt hn))⟩
      · rw [not_le]
        refine lt_of_lt_of_le hle (zpow_le_zpow_right₀ (by norm_num) ?_)
        have := F.emin_le_zero; have := C.emax_pos; omega

/-- Computed in the type itself, powers of two which overflow make the result infinite or zero even if it is a value of
the type, and the least exponent is negated, which overflows. -/
theorem C90_scalbn_refuted (F : Fmt) (lo : ℤ) (hlo : lo < 0) (hl : lo ≠ -F.emax) (h : F.emin ≤ 1 - F.emax) :
    scalbn F F lo (.num (1 / 2)) F.emax = some (.inf false) ∧ scaled F (1 / 2) F.emax = .num ((2 : ℝ) ^ (F.emax - 1)) ∧
    scalbn F F lo (.num 2) (-F.emax) = some (.zero false) ∧ scaled F 2 (-F.emax) = .num ((2 : ℝ) ^ (1 - F.emax)) ∧
    ∀ C, scalbn F C lo (.num 1) lo = none := by
  have hem := F.emax_pos
  have hp2 := F.two_le_p
  have hemin := F.emin_le
  have e1 : (1 / 2 : ℝ) = (2 : ℝ) ^ (-1 : ℤ) := by norm_num
  have c1 : F.cvt (.num (1 / 2)) = .num (1 / 2) := by
    rw [e1]
    refine cvt_num (Rep.two_zpow _ (by omega) F.one_le_p) ?_ (by positivity)
    rw [abs_of_pos (by positivity)]
    exact zpow_lt_zpow_right₀ (by norm_num) (by omega)
  have e2 : (2 : ℝ) = (2 : ℝ) ^ (1 : ℤ) := by norm_num
  have c2 : F.cvt (.num 2) = .num 2 := by
    refine cvt_num (by rw [e2]; exact Rep.two_zpow _ (by omega) F.one_le_p) ?_ (by norm_num)
    rw [abs_of_pos (by norm_num)]
    nth_rw 1 [e2]
    exact zpow_lt_zpow_right₀ (by norm_num) (by omega)
  refine ⟨?_, ?_, ?_, ?_, ?_⟩
  · rw [scalbn_num F F lo (by norm_num) (by omega), powN_inf (le_refl _), Option.map_some, c1]
    simp [Fmt.mul, sgn, Fmt.cvt]
  · unfold scaled
    rw [e1, ← zpow_add₀ (by norm_num), add_comm]
    exact ofReal_zpow (by omega) (by omega)
  · rw [scalbn_num F F lo (by norm_num) (by omega), powN_tiny (Ne.symm hl) (le_refl _), Option.map_some, c2]
    have : F.mul (.num 2) (.zero false) = .zero false := by
      show F.ofReal (decide ((2 : ℝ) < 0) != false) (2 * 0) = _
      rw [mul_zero, ofReal_zero]; norm_num
    rw [this]; rfl
  · unfold scaled
    have e3 : 2 * (2 : ℝ) ^ (-F.emax) = (2 : ℝ) ^ (1 - F.emax) := by
      rw [sub_eq_add_neg, zpow_add₀ (by norm_num), zpow_one]
    rw [e3]
    exact ofReal_zpow (by omega) (by omega)
  · intro C
    rw [scalbn_num F C lo (by norm_num) (by omega), powN_lo hlo]
    rfl

example : scalbn float double minInt (.num 3) 5 = some (scaled float 3 5) := by
  refine C90_scalbn_wide_partial float double ⟨by decide, by decide, by decide⟩ (by decide) (by decide) (by decide) _ _
    ⟨by norm_num, ⟨3, 0, by decide, by decide, by norm_num⟩, ?_⟩ _ (by decide)
  rw [abs_of_pos (by norm_num)]
  calc (3 : ℝ) < (2 : ℝ) ^ (2 : ℤ) := by norm_num
    _ ≤ _ := zpow_le_zpow_right₀ (by norm_num) (by decide)

/-- the exponents of the type are integers of moderate size, and values of the type -/
def Ordinary (F : Fmt) : Prop :=
  -2 ^ F.p < F.emin ∧ F.emax < 2 ^ F.p ∧ -2 ^ 30 < F.emin ∧ F.emax < 2 ^ 30

/-- the logarithm in use is rounded correctly -/
def LogRounds (C : Fmt) (log2 : FV → FV) : Prop :=
  ∀ x : ℝ, 0 < x → C.Has (.num x) → log2 (.num x) = C.ofReal false (Real.logb 2 x)

/-- the function of a number which returns an integer as a floating value -/
def Gives (k : ℤ) (r : Option (Ret FV)) : Prop := ∃ w, r = some (.ret w) ∧ w.isFin ∧ w.val = k

namespace MathScale

theorem rep_exp {F : Fmt} (hF : Ordinary F) {k : ℤ} (h1 : F.emin - 1 ≤ k) (h2 : k ≤ F.emax + 1) :
    Rep F.p F.emin (k : ℝ) ∧ |(k : ℝ)| < (2 : ℝ) ^ F.emax := by
  obtain ⟨a, b, -, -⟩ := hF
  have h : |k| ≤ 2 ^ F.p := by rw [abs_le]; constructor <;> omega
  exact ⟨F.rep_int k h, two_pow_le_emax (by exact_mod_cast h)⟩

theorem isExp_abs {k : ℤ} {x : ℝ} (h : IsExp k x) : IsExp k |x| := by
  unfold IsExp at *; rwa [abs_abs]

theorem logb_exp {k : ℤ} {x : ℝ} (h0 : x ≠ 0) (h : IsExp k x) : (k : ℝ) ≤ Real.logb 2 |x| ∧ Real.logb 2 |x| < k + 1 := by
  have hp : 0 < |x| := abs_pos.2 h0
  constructor
  · rw [Real.le_logb_iff_rpow_le (by norm_num) hp, Real.rpow_intCast]
    exact h.1
  · rw [Real.logb_lt_iff_lt_rpow (by norm_num) hp]
    have : (k : ℝ) + 1 = ((k + 1 : ℤ) : ℝ) := by push_cast; ring
    rw [this, Real.rpow_intCast]
    exact h.2

/-- the value of the logarithm -/
theorem logRounds_value {C : Fmt} {log2 : FV → FV} (hl : LogRounds C log2) {x : ℝ} (hx : C.Has (.num x)) {k : ℤ}
    (hk : IsExp k x) (h1 : Rep C.p C.emin (k : ℝ)) (h2 : Rep C.p C.emin ((k + 1 : ℤ) : ℝ))
    (h3 : |(k : ℝ)| < (2 : ℝ) ^ C.emax) (h4 : |((k + 1 : ℤ) : ℝ)| < (2 : ℝ) ^ C.emax) :
    ∃ l, log2 (.num |x|) = mkv false l ∧ l = C.rnd (Real.logb 2 |x|) ∧ Rep C.p C.emin l ∧ |l| < (2 : ℝ) ^ C.emax ∧
      (k : ℝ) ≤ l ∧ l ≤ k + 1 := by
  obtain ⟨a, b⟩ := logb_exp hx.1 hk
  have c1 := le_rnd a h1
  have c2 := rnd_le (F := C) (y := ((k + 1 : ℤ) : ℝ)) (by push_cast; linarith : Real.logb 2 |x| ≤ ((k + 1 : ℤ) : ℝ)) h2
  have hb : |C.rnd (Real.logb 2 |x|)| < (2 : ℝ) ^ C.emax := by
    rw [abs_lt] at *
    constructor <;> linarith
  have hax : C.Has (.num |x|) := ⟨abs_ne_zero.2 hx.1, hx.2.1.abs, by rw [abs_abs]; exact hx.2.2⟩
  refine ⟨_, ?_, rfl, C.rnd_rep _, hb, c1, by push_cast at c2; linarith⟩
  rw [hl _ (abs_pos.2 hx.1) hax]
  unfold ofReal mkv
  split_ifs with u v w
  · rfl
  · exact absurd v (not_le.2 hb)
  · rfl

end MathScale

/-- If the logarithm is truncated to the exponent or a number next to it, and the power of two with this exponent is
computed without overflow, the exponent is found. -/
theorem C90_logb_near (F C : Fmt) (hs : F.Sub C) (hF : Ordinary F) (noerr : Bool) (log2 : FV → FV) (x : ℝ)
    (hx : F.Has (.num x)) (k t : ℤ) (hk : IsExp k x) (hC : C.Has (log2 (.num |x|))) (hf : (log2 (.num |x|)).isFin)
    (ht : IsTrunc t (log2 (.num |x|)).val) (h1 : t ≤ k + 1) (h2 : k ≤ t + 1)
    (h3 : -C.emax < t) (h4 : t < C.emax) (h5 : C.emin ≤ t) :
    Gives k (logb F C noerr log2 (.num x)) := by
  obtain ⟨e1, e2⟩ := exp_range hx hk
  obtain ⟨a, b, c, d⟩ := id hF
  obtain ⟨s, hs1, hs2⟩ := logb1_start (noerr := noerr) hC hf ht (by rw [abs_lt]; constructor <;> omega)
  have hax : 0 < |x| := abs_pos.2 hx.1
  obtain ⟨r1, r2⟩ := rep_exp hF (k := k) (by omega) (by omega)
  obtain ⟨u, hu⟩ := logb3_eq (C := C) hax (hs.rep hx.2.1.abs) (isExp_abs hk) (by have := hs.2.1; omega)
    (by have := hs.2.2; omega) h1 h2 (hs.rep r1) (hs.lt r2) h5 s
  refine ⟨mkv u k, ?_, isFin_mkv _ _, val_mkv _ _⟩
  have hbr : ∀ {α β : Type} (v : α) (f : α → Option (Ret β)), bindRet (some (.ret v)) f = f v := fun _ _ => rfl
  rw [logb_num hs hx, hs1, hbr]
  unfold logb1
  rw [hs2, hbr, powN_two (by unfold minLong; omega) h3 h4 h5, Option.bind_some, hu, Option.map_some, hbr, cvt_mkv r1 r2]

/-- With a correctly rounded logarithm the exponent is found for all values whose exponent, and the one after it, are
within the range of the type of computation; these are all values of `float`. Missing: the others, for which see
`C90_logb_refuted`. -/
theorem C90_logb_partial (F C : Fmt) (hs : F.Sub C) (hF : Ordinary F) (noerr : Bool) (log2 : FV → FV)
    (hl : LogRounds C log2) (x : ℝ) (hx : F.Has (.num x)) (k : ℤ) (hk : IsExp k x)
    (h1 : -C.emax < k) (h2 : k + 1 < C.emax) (h3 : C.emin ≤ k) : Gives k (logb F C noerr log2 (.num x)) := by
  obtain ⟨e1, e2⟩ := exp_range hx hk
  obtain ⟨r1, r2⟩ := rep_exp hF (k := k) (by omega) (by omega)
  obtain ⟨r3, r4⟩ := rep_exp hF (k := k + 1) (by omega) (by omega)
  have hxC : C.Has (.num x) := ⟨hx.1, hs.rep hx.2.1, hs.lt hx.2.2⟩
  obtain ⟨l, g1, -, g2, g3, g4, g5⟩ := logRounds_value hl hxC hk (hs.rep r1) (hs.rep r3) (hs.lt r2) (hs.lt r4)
  obtain ⟨t, ht⟩ := isTrunc_exists l
  have hh := isTrunc_between ht g4 g5
  refine C90_logb_near F C hs hF noerr log2 x hx k t hk (by rw [g1]; exact has_mkv g2 g3) (by rw [g1]; exact isFin_mkv _ _)
    (by rw [g1, val_mkv]; exact ht) ?_ ?_ ?_ ?_ ?_ <;> omega

/-- so does `ilogb` -/
theorem C90_ilogb (F C : Fmt) (noerr : Bool) (log2 : FV → FV) (i0 inan : ℤ) (x : ℝ) (hx : F.Has (.num x)) (k : ℤ)
    (h : Gives k (logb F C noerr log2 (.num x))) (h1 : minInt ≤ k) (h2 : k ≤ maxInt) :
    ilogb F C noerr log2 i0 inan (.num x) = some (.ret k) := by
  obtain ⟨w, hw, hf, hv⟩ := h
  unfold ilogb
  have h0 := hx.1
  simp only [MathClass.isnan, MathClass.isinf, MathClass.iszero, eq_num_num, eq_num_zero, eq_num_inf, FV.neg, h0,
    decide_true, Bool.not_true, Bool.false_eq_true, if_false, decide_false, Bool.or_self]
  rw [hw]
  show (toInteger minInt maxInt w).map Ret.ret = _
  have : toInteger minInt maxInt w = some k := by
    cases w with
    | nan => simp [isFin] at hf
    | inf s => simp [isFin] at hf
    | zero s =>
      simp only [val] at hv
      have : k = 0 := by exact_mod_cast hv.symm
      subst this
      simp [toInteger, val, minInt, maxInt]
    | num y =>
      simp only [toInteger, hv, Int.ceil_intCast, Int.floor_intCast]
      simp [h1, h2]
  rw [this]; rfl

/-- the special values -/
theorem C90_logb_special (F C : Fmt) (noerr : Bool) (log2 : FV → FV) (i0 inan : ℤ) (s : Bool) :
    logb F C noerr log2 .nan = some (.ret .nan) ∧ logb F C noerr log2 (.inf s) = some (.ret (.inf false)) ∧
    logb F C noerr log2 (.zero s) = some (.ret (.inf true)) ∧
    ilogb F C noerr log2 i0 inan .nan = some (.ret inan) ∧ ilogb F C noerr log2 i0 inan (.inf s) = some (.ret maxInt) ∧
    ilogb F C noerr log2 i0 inan (.zero s) = some (.ret i0) := by
  cases s <;> simp [logb, ilogb, MathClass.isnan, MathClass.isinf, MathClass.iszero, FV.neg]

/-- The correction of the exponent does not end if the logarithm is truncated to a number greater by two or more, nor if
the power of two is infinite or zero. -/
theorem C90_logb_diverges (F C : Fmt) (hs : F.Sub C) (noerr : Bool) (log2 : FV → FV) (x : ℝ)
    (hx : F.Has (.num x)) (k t : ℤ) (hk : IsExp k x) (hC : C.Has (log2 (.num |x|))) (hf : (log2 (.num |x|)).isFin)
    (ht : IsTrunc t (log2 (.num |x|)).val) (hb : |t| < 2 ^ 62)
    (h : k + 2 ≤ t ∨ C.emax ≤ t ∨ t ≤ -C.emax) : logb F C noerr log2 (.num x) = none := by
  obtain ⟨e1, e2⟩ := exp_range hx hk
  obtain ⟨s, hs1, hs2⟩ := logb1_start (noerr := noerr) hC hf ht hb
  have hax : 0 < |x| := abs_pos.2 hx.1
  have hbr : ∀ {α β : Type} (v : α) (f : α → Option (Ret β)), bindRet (some (.ret v)) f = f v := fun _ _ => rfl
  have hmin : C.emin ≤ k := by have := hs.2.1; omega
  have hka := isExp_abs hk
  rw [abs_lt] at hb
  have hne : t ≠ minLong := by unfold minLong; omega
  suffices hm : logb1 C noerr (.num |x|) (mkv s t) = none by
    rw [logb_num hs hx, hs1, hbr, hm]; rfl
  unfold logb1
  rw [hs2, hbr]
  by_cases hi : C.emax ≤ t
  · rw [powN_inf hi, Option.bind_some]
    have e : C.div (.num |x|) (.inf false) = .zero false := by simp [Fmt.div, sgn, not_lt.2 (le_of_lt hax)]
    have e1 : C.mul (.inf false) (.num 2) = .inf false := by simp [Fmt.mul, sgn]
    have e2 : C.div (.inf false) (.num 2) = .inf false := by simp [Fmt.div, sgn]
    unfold logb3
    rw [e, if_pos (by simp), e1, e2, e, logbLo_inf _ hax _ _ (by simp)]
    rfl
  by_cases hi2 : t ≤ -C.emax
  · rw [powN_tiny hne hi2, Option.bind_some]
    have e : C.div (.num |x|) (.zero false) = .inf false := by simp [Fmt.div, sgn, not_lt.2 (le_of_lt hax)]
    have e1 : C.div (.zero false) (.num 2) = .zero false := by
      show C.ofReal (false != decide ((2 : ℝ) < 0)) (0 / 2) = _
      rw [zero_div, ofReal_zero]; norm_num
    have e2 : C.mul (.zero false) (.num 2) = .zero false := by
      show C.ofReal (false != decide ((2 : ℝ) < 0)) (0 * 2) = _
      rw [zero_mul, ofReal_zero]; norm_num
    unfold logb3
    rw [e, if_neg (by simp), if_pos (by simp), e1, e2, e, logbHi_zero _ hax _ _ (by simp)]
    rfl
  have hkt : k + 2 ≤ t := by omega
  have hsmall : ∀ j : ℤ, k + 2 ≤ j → (C.div (.num |x|) (.num ((2 : ℝ) ^ j))).lt (.num 1) := by
    intro j hj
    rw [div_num]
    apply ofReal_lt_one (by positivity)
    have := (sig_bounds hax hka j).2
    rw [zpow_neg, ← div_eq_mul_inv] at this
    refine le_of_lt (lt_of_lt_of_le this ?_)
    rw [show (1 / 2 : ℝ) = (2 : ℝ) ^ (-1 : ℤ) by norm_num]
    exact zpow_le_zpow_right₀ (by norm_num) (by omega)
  rw [powN_two hne (by omega) (by omega) (by omega), Option.bind_some]
  unfold logb3
  rw [if_pos (hsmall t hkt), logbLo_far hax hka hmin]
  · rfl
  · by_cases hc : t + 1 < C.emax
    · exact .inr ⟨t + 1, by omega, hc, mul_step (by omega) hc⟩
    · left
      rw [mul_num, show (2 : ℝ) ^ t * 2 = (2 : ℝ) ^ (t + 1) by rw [zpow_add₀ (by norm_num), zpow_one]]
      exact ofReal_zpow_inf (by omega)
  · rw [div_step (by omega) (by omega)]
    rcases eq_or_lt_of_le hkt with hh | hh
    · rw [← hh, show k + 2 - 1 = k + 1 by ring, div_near hax (hs.rep hx.2.1.abs) hka (by omega) (by omega)]
      simp only [lt_num_num]
      have := (sig_bounds hax hka (k + 1)).2
      rwa [show k - (k + 1) + 1 = 0 by ring, zpow_zero] at this
    · exact hsmall _ (by omega)

/-- Even with a correctly rounded logarithm the exponent is not found, for `F = double`, of the least positive value and,
as its logarithm is rounded up, of the greatest value. -/
theorem C90_logb_refuted (F : Fmt) (hF : Ordinary F) (hm : F.emin ≤ -F.emax) (j : ℕ) (hj : F.emax = 2 ^ j) (noerr : Bool)
    (log2 : FV → FV) (hl : LogRounds F log2) :
    logb F F noerr log2 (.num ((2 : ℝ) ^ F.emin)) = none ∧
    logb F F noerr log2 (.num ((2 : ℝ) ^ F.emax * (1 - (2 : ℝ) ^ (-(F.p : ℤ))))) = none := by
  have hs : F.Sub F := ⟨le_refl _, le_refl _, le_refl _⟩
  have hem := F.emax_pos
  have hp2 := F.two_le_p
  obtain ⟨a, b, c, d⟩ := id hF
  constructor
  · have hpos : (0 : ℝ) < (2 : ℝ) ^ F.emin := by positivity
    have hx : F.Has (.num ((2 : ℝ) ^ F.emin)) := ⟨ne_of_gt hpos, Rep.two_zpow _ (le_refl _) F.one_le_p, by
      rw [abs_of_pos hpos]; exact zpow_lt_zpow_right₀ (by norm_num) (by omega)⟩
    have hk : IsExp F.emin ((2 : ℝ) ^ F.emin) := by
      unfold IsExp; rw [abs_of_pos hpos]
      exact ⟨le_refl _, zpow_lt_zpow_right₀ (by norm_num) (by omega)⟩
    have hlog : Real.logb 2 ((2 : ℝ) ^ F.emin) = F.emin := by
      rw [← Real.rpow_intCast, Real.logb_rpow (by norm_num) (by norm_num)]
    obtain ⟨r1, r2⟩ := rep_exp hF (k := F.emin) (by omega) (by omega)
    have e : log2 (.num |(2 : ℝ) ^ F.emin|) = mkv false (F.emin : ℝ) := by
      rw [abs_of_pos hpos, hl _ hpos hx, hlog, ofReal_mkv r1 r2]
    refine C90_logb_diverges F F hs noerr log2 _ hx F.emin F.emin hk (by rw [e]; exact has_mkv r1 r2)
      (by rw [e]; exact isFin_mkv _ _) (by rw [e, val_mkv]; exact ⟨⟨_, rfl⟩, le_refl _, by linarith, mul_self_nonneg _⟩)
      (by rw [abs_lt]; constructor <;> omega) (.inr (.inr hm))
  · set u : ℝ := (2 : ℝ) ^ (-(F.p : ℤ)) with hu
    have hu0 : 0 < u := by positivity
    have hu1 : u ≤ 1 / 4 := by
      rw [show (1 / 4 : ℝ) = (2 : ℝ) ^ (-2 : ℤ) by norm_num, hu]
      exact zpow_le_zpow_right₀ (by norm_num) (by omega)
    have hE : (0 : ℝ) < (2 : ℝ) ^ F.emax := by positivity
    have hpos : (0 : ℝ) < (2 : ℝ) ^ F.emax * (1 - u) := mul_pos hE (by linarith)
    have hx : F.Has (.num ((2 : ℝ) ^ F.emax * (1 - u))) := by
      refine ⟨ne_of_gt hpos, ⟨2 ^ F.p - 1, F.emax - F.p, by have := F.emin_le_zero; have := F.p_lt_emax; omega, ?_, ?_⟩, ?_⟩
      · have : (1 : ℤ) ≤ 2 ^ F.p := one_le_pow₀ (by norm_num)
        rw [abs_of_nonneg (by omega)]; omega
      · push_cast
        rw [zpow_sub₀ (by norm_num), hu, zpow_neg, zpow_natCast]
        field_simp
      · rw [abs_of_pos hpos]; nlinarith
    have hk : IsExp (F.emax - 1) ((2 : ℝ) ^ F.emax * (1 - u)) := by
      unfold IsExp; rw [abs_of_pos hpos, sub_add_cancel, zpow_sub_one₀ (by norm_num)]
      constructor <;> nlinarith
    have hlog : Real.logb 2 ((2 : ℝ) ^ F.emax * (1 - u)) = F.emax + Real.logb 2 (1 - u) := by
      rw [Real.logb_mul (ne_of_gt hE) (by linarith), ← Real.rpow_intCast, Real.logb_rpow (by norm_num) (by norm_num)]
    have hneg : Real.logb 2 (1 - u) < 0 := Real.logb_neg (by norm_num) (by linarith) (by linarith)
    have hbig : -(2 * u) < Real.logb 2 (1 - u) := by
      rw [Real.logb, lt_div_iff₀ (Real.log_pos (by norm_num))]
      have h1 := Real.one_sub_inv_le_log_of_pos (by linarith : 0 < 1 - u)
      have h2 := Real.log_two_gt_d9
      have h3 : 1 - (1 - u)⁻¹ = -(u / (1 - u)) := by
        have : (1 - u) ≠ 0 := by linarith
        field_simp; ring
      rw [h3] at h1
      have h4 : u / (1 - u) ≤ u * (4 / 3) := by
        rw [div_le_iff₀ (by linarith)]; nlinarith
      nlinarith
    obtain ⟨r1, r2⟩ := rep_exp hF (k := F.emax) (by omega) (by omega)
    obtain ⟨r3, r4⟩ := rep_exp hF (k := F.emax - 1) (by omega) (by omega)
    have hrnd : F.rnd (Real.logb 2 ((2 : ℝ) ^ F.emax * (1 - u))) = F.emax := by
      rw [hlog]
      have hn := F.rnd_near (F.emax + Real.logb 2 (1 - u)) F.emax r1
      have hle := rnd_le (F := F) (x := F.emax + Real.logb 2 (1 - u)) (y := F.emax) (by linarith) r1
      rw [show (F.emax : ℝ) - (F.emax + Real.logb 2 (1 - u)) = -Real.logb 2 (1 - u) by ring, abs_of_pos (neg_pos.2 hneg),
        abs_le] at hn
      by_contra hc
      have hlt := lt_of_le_of_ne hle hc
      have hej : (F.emax : ℝ) = 2 ^ j := by rw [hj]; push_cast; ring
      rw [hej] at hlt
      have h1 := rep_below F.one_le_p (F.rnd_rep _) hlt
      have hj2 : 2 ≤ j := by
        by_contra hc
        have hj' : j = 0 ∨ j = 1 := by omega
        rcases hj' with rfl | rfl <;> norm_num at hj <;> omega
      have h2 : 4 * u ≤ (2 : ℝ) ^ ((j : ℤ) - F.p) := by
        rw [show 4 * u = (2 : ℝ) ^ (2 + -(F.p : ℤ)) by rw [zpow_add₀ (by norm_num), hu]; norm_num]
        exact zpow_le_zpow_right₀ (by norm_num) (by omega)
      rw [hej] at hn
      linarith [hn.1]
    have e : log2 (.num |(2 : ℝ) ^ F.emax * (1 - u)|) = mkv false (F.emax : ℝ) := by
      rw [abs_of_pos hpos, hl _ hpos hx]
      unfold ofReal
      rw [hrnd, if_neg, if_neg (not_le.2 r2), mkv_num]
      all_goals
        have : (0 : ℝ) < F.emax := by exact_mod_cast (by omega : 0 < F.emax)
        exact ne_of_gt this
    refine C90_logb_diverges F F hs noerr log2 _ hx _ F.emax hk (by rw [e]; exact has_mkv r1 r2)
      (by rw [e]; exact isFin_mkv _ _) (by rw [e, val_mkv]; exact ⟨⟨_, rfl⟩, le_refl _, by linarith, mul_self_nonneg _⟩)
      (by rw [abs_lt]; constructor <;> omega) (.inr (.inl (le_refl _)))

example : Ordinary float ∧ Ordinary double ∧ double.emin ≤ -double.emax ∧ double.emax = 2 ^ 10 := by
  refine ⟨⟨?_, ?_, ?_, ?_⟩, ⟨?_, ?_, ?_, ?_⟩, ?_, ?_⟩ <;> decide

/-- the exponent of 3 -/
example (log2 : FV → FV) (hl : LogRounds double log2) : Gives 1 (logb float double false log2 (.num 3)) := by
  have hE : (3 : ℝ) < (2 : ℝ) ^ float.emax := by
    calc (3 : ℝ) < (2 : ℝ) ^ (2 : ℤ) := by norm_num
      _ ≤ _ := zpow_le_zpow_right₀ (by norm_num) (by decide)
  refine C90_logb_partial float double ⟨by decide, by decide, by decide⟩ ?_ false log2 hl 3
    ⟨by norm_num, ⟨3, 0, by decide, by decide, by norm_num⟩, by rwa [abs_of_pos (by norm_num)]⟩ 1 ?_
    (by decide) (by decide) (by decide)
  · refine ⟨?_, ?_, ?_, ?_⟩ <;> decide
  · constructor <;> rw [abs_of_pos (by norm_num)] <;> norm_num

/-- The significand is in the interval from a half to one, and exact, if the power of two with the exponent is a value of
the type. Missing: see `C90_float_sig_exp_refuted`. -/
theorem C90_float_sig_exp_partial (F : Fmt) (il : FV → Option (Ret ℤ)) (x : ℝ) (hx : F.Has (.num x)) (k : ℤ) (hk : IsExp k x)
    (h : il (.num x) = some (.ret k)) (hi : -2 ^ 30 < k ∧ k < 2 ^ 30) (h1 : -F.emax < k + 1) (h2 : k + 1 < F.emax)
    (h3 : F.emin ≤ k + 1) :
    ∃ m, 1 / 2 ≤ |m| ∧ |m| < 1 ∧ x = m * (2 : ℝ) ^ (k + 1) ∧
      floatExponent il (.num x) = some (.ret (k + 1)) ∧ floatSignificand F il (.num x) = some (.ret (.num m)) ∧
      floatSigExp F il (.num x) = some (.ret (.num m, k + 1)) := by
  have h0 := hx.1
  have hp : (0 : ℝ) < (2 : ℝ) ^ (k + 1) := by positivity
  have hab := sig_bounds (abs_pos.2 h0) (isExp_abs hk) (k + 1)
  have habs : |x * (2 : ℝ) ^ (-(k + 1))| = |x| * (2 : ℝ) ^ (-(k + 1)) := by
    rw [abs_mul, abs_of_pos (by positivity : (0 : ℝ) < (2 : ℝ) ^ (-(k + 1)))]
  rw [show k - (k + 1) = -1 by ring, ← habs] at hab
  have hmin := F.emin_le
  have hp2 := F.two_le_p
  have hr : Rep F.p F.emin (x * (2 : ℝ) ^ (-(k + 1))) := by
    refine hx.2.1.scale _ (le_refl _) (le_trans (zpow_le_zpow_right₀ (by norm_num) ?_) hab.1)
    omega
  have hlt : |x * (2 : ℝ) ^ (-(k + 1))| < 1 := by have := hab.2; norm_num at this ⊢; exact this
  have hdiv : F.div (.num x) (.num ((2 : ℝ) ^ (k + 1))) = .num (x * (2 : ℝ) ^ (-(k + 1))) := by
    rw [div_num, show x / (2 : ℝ) ^ (k + 1) = x * (2 : ℝ) ^ (-(k + 1)) by rw [zpow_neg, div_eq_mul_inv]]
    exact ofReal_num hr (lt_trans hlt (one_lt_emax F)) (mul_ne_zero h0 (by positivity))
  have hin : inTo minInt maxInt (k + 1) = some (k + 1) := by
    unfold inTo minInt maxInt; rw [if_pos]; omega
  have hpow : powN F minInt (.num 2) (k + 1) = some (.num ((2 : ℝ) ^ (k + 1))) :=
    powN_two (by unfold minInt; omega) h1 h2 h3
  have hexp : floatExponent il (.num x) = some (.ret (k + 1)) := by
    unfold floatExponent
    simp only [MathClass.isnan, eq_num_num, eq_num_zero, eq_num_inf, h0, decide_true, Bool.not_true, Bool.false_eq_true,
      if_false, or_self]
    rw [h]
    show (inTo minInt maxInt (k + 1)).map Ret.ret = _
    rw [hin]; rfl
  refine ⟨x * (2 : ℝ) ^ (-(k + 1)), by have := hab.1; norm_num at this ⊢; exact this, hlt, ?_, hexp, ?_, ?_⟩
  · rw [mul_assoc, ← zpow_add₀ (by norm_num)]; simp
  · unfold floatSignificand
    simp only [MathClass.isnan, eq_num_num, eq_num_zero, eq_num_inf, h0, decide_true, Bool.not_true, Bool.false_eq_true,
      if_false]
    rw [hexp]
    show (powN F minInt (.num 2) (k + 1)).map _ = _
    rw [hpow, Option.map_some, hdiv]
  · unfold floatSigExp
    simp only [MathClass.isnan, eq_num_num, eq_num_zero, eq_num_inf, h0, decide_true, Bool.not_true, Bool.false_eq_true,
      if_false]
    rw [h]
    show (inTo minInt maxInt (k + 1)).bind _ = _
    rw [hin, Option.bind_some, hpow, Option.map_some, hdiv]

/-- The significand of the numbers in the topmost binade is 0, and that of small subnormal numbers is infinite. -/
theorem C90_float_sig_exp_refuted (F : Fmt) (il : FV → Option (Ret ℤ)) (x : ℝ) (hx : F.Has (.num x)) (hpos : 0 < x) (k : ℤ)
    (h : il (.num x) = some (.ret k)) (hi : -2 ^ 30 < k ∧ k < 2 ^ 30) :
    (k + 1 = F.emax → floatSigExp F il (.num x) = some (.ret (.zero false, k + 1)) ∧
      floatSignificand F il (.num x) = some (.ret (.zero false))) ∧
    (k + 1 ≤ -F.emax → floatSigExp F il (.num x) = some (.ret (.inf false, k + 1)) ∧
      floatSignificand F il (.num x) = some (.ret (.inf false))) := by
  have h0 := hx.1
  have hin : inTo minInt maxInt (k + 1) = some (k + 1) := by
    unfold inTo minInt maxInt; rw [if_pos]; omega
  have hexp : floatExponent il (.num x) = some (.ret (k + 1)) := by
    unfold floatExponent
    simp only [MathClass.isnan, eq_num_num, eq_num_zero, eq_num_inf, h0, decide_true, Bool.not_true, Bool.false_eq_true,
      if_false, or_self]
    rw [h]
    show (inTo minInt maxInt (k + 1)).map Ret.ret = _
    rw [hin]; rfl
  have hall : ∀ r w, powN F minInt (.num 2) (k + 1) = some r → F.div (.num x) r = w →
      floatSigExp F il (.num x) = some (.ret (w, k + 1)) ∧ floatSignificand F il (.num x) = some (.ret w) := by
    intro r w hr hw
    constructor
    · unfold floatSigExp
      simp only [MathClass.isnan, eq_num_num, eq_num_zero, eq_num_inf, h0, decide_true, Bool.not_true, Bool.false_eq_true,
        if_false]
      rw [h]
      show (inTo minInt maxInt (k + 1)).bind _ = _
      rw [hin, Option.bind_some, hr, Option.map_some, hw]
    · unfold floatSignificand
      simp only [MathClass.isnan, eq_num_num, eq_num_zero, eq_num_inf, h0, decide_true, Bool.not_true, Bool.false_eq_true,
        if_false]
      rw [hexp]
      show (powN F minInt (.num 2) (k + 1)).map _ = _
      rw [hr, Option.map_some, hw]
  constructor
  · intro hk
    exact hall _ _ (powN_inf (le_of_eq hk.symm)) (by simp [Fmt.div, sgn, le_of_lt hpos])
  · intro hk
    exact hall _ _ (powN_tiny (by unfold minInt; omega) hk) (by simp [Fmt.div, sgn, le_of_lt hpos])

end Sprout
