import Verif.Proofs.RandReal
import Mathlib.Tactic.NormNum.Pow

/-!
# C128: `generate_canonical`
-/

namespace Sprout

open Classical FV Fmt RandReal MathRound

namespace RandReal

variable {σ : Type}

/-- what `generate_canonical` does with a value of `generate_canonical_impl` between 0 and 1 -/
theorem canonical_of_impl (E : Engine σ) (F : Fmt) (limit : FV) (t t' : σ) (v : FV) (x : ℝ) (hv : Val v x) (h0 : 0 ≤ x) (h1 : x ≤ 1)
    (h : canonicalImpl E F limit t = some (v, t')) :
    ∃ w y, canonical E F limit t = some (w, t') ∧ Val w y ∧ 0 ≤ y ∧ y < 1 ∧ (x < 1 → w = v) ∧ (x = 1 → y = 1 - F.u) := by
  have hle : (FV.zero false).le v := ((Val.zero false).le_iff hv).2 h0
  have hle1 : v.le (.num 1) := (hv.le_iff (Val.num one_ne_zero)).2 h1
  unfold canonical
  rw [h]
  simp only []
  rw [if_neg (not_not.2 hle), if_neg (not_not.2 hle1)]
  by_cases hx : x = 1
  · rw [if_pos ((hv.eq_iff (Val.num one_ne_zero)).2 hx)]
    have hp : (0 : ℝ) < F.u := F.u_pos
    have hul := F.u_le
    have hem := F.emin_le
    have hp2 := F.two_le_p
    have h1e : (1 : ℝ) < (2 : ℝ) ^ F.emax := one_lt_zpow₀ (by norm_num) (by have := F.emax_pos; omega)
    have he2 : (2 : ℝ) ^ (1 - (F.p : ℤ)) / 2 = F.u := by
      unfold u
      rw [show (1 : ℤ) - F.p = -(F.p : ℤ) + 1 by ring, zpow_add₀ (by norm_num)]; ring
    have hru : Rep F.p F.emin F.u := Rep.two_zpow _ (by omega) F.one_le_p
    have hv2 : Val (F.div F.eps (.num 2)) F.u := by
      have := div_val (F := F) (v := F.eps) (w := .num 2) (Val.num (by positivity : (2 : ℝ) ^ (1 - (F.p : ℤ)) ≠ 0))
        (Val.num (two_ne_zero)) two_ne_zero
      rw [he2, rnd_of_rep hru] at this
      exact this (by rw [abs_of_pos hp]; linarith)
    have hr1 : Rep F.p F.emin (1 - F.u) := by
      refine ⟨2 ^ F.p - 1, -(F.p : ℤ), by omega, ?_, ?_⟩
      · have : (1 : ℤ) ≤ 2 ^ F.p := one_le_pow₀ (by norm_num)
        rw [abs_of_nonneg (by omega)]; omega
      · unfold u
        push_cast
        rw [sub_mul, one_mul, zpow_neg, zpow_natCast, mul_inv_cancel₀ (by positivity)]
    have hv3 : Val (F.sub v (F.div F.eps (.num 2))) (1 - F.u) := by
      have := sub_val (F := F) hv hv2
      rw [hx, rnd_of_rep hr1] at this
      exact this (by rw [abs_of_nonneg (by linarith)]; linarith)
    rw [if_neg (fun hc => by
      have := (hv3.eq_iff (Val.num one_ne_zero)).1 hc
      linarith)]
    exact ⟨_, _, rfl, hv3, by linarith, by linarith, fun h => absurd hx (ne_of_lt h), fun _ => rfl⟩
  · rw [if_neg (fun hc => hx ((hv.eq_iff (Val.num one_ne_zero)).1 hc))]
    exact ⟨_, _, rfl, hv, h0, lt_of_le_of_ne h1 hx, fun _ => rfl, fun h => absurd h hx⟩

theorem range_zero (E : Engine σ) (F : Fmt) (h0 : E.lo = 0) (hpos : 0 ≤ E.hi) (hb : (E.hi : ℝ) + 1 < (2 : ℝ) ^ (F.emax - 1)) :
    range E F = F.add (F.ofInt E.hi) (.num 1) := by
  have h : F.sub (F.ofInt E.hi) (F.ofInt E.lo) = F.ofInt E.hi := by
    obtain ⟨x, -, hx, -, ex, -⟩ := ofInt_le_add_one (F := F) hpos le_rfl hb
    have hz : F.ofInt E.lo = .zero false := by
      rw [h0]; unfold ofInt; rw [Int.cast_zero, ofReal_zero]
    rw [hz]
    have hxr : Rep F.p F.emin x := by rw [ex]; exact F.rnd_rep _
    have hx2 : |x| < (2 : ℝ) ^ F.emax := by
      have h1 : F.rnd E.hi ≤ (2 : ℝ) ^ (F.emax - 1) := rnd_le (by linarith)
        (Rep.two_zpow _ (by have := F.emin_le_zero; have := F.emax_pos; omega) F.one_le_p)
      have h2 : 0 ≤ F.rnd E.hi := rnd_nonneg (by exact_mod_cast hpos)
      rw [ex, abs_of_nonneg h2]
      exact lt_of_le_of_lt h1 (zpow_lt_zpow_right₀ (by norm_num) (by omega))
    rcases eq_or_ne x 0 with hx0 | hx0
    · have : F.ofInt E.hi = .zero false := by
        unfold ofInt ofReal
        rw [if_pos (by rw [← ex, hx0])]
      rw [this]; rfl
    · rw [hx.eq_num hx0]
      show F.ofReal (decide (x + 0 < 0)) (x + 0) = _
      rw [add_zero, ofReal_num hxr hx2 hx0]
  unfold range
  rw [h]

/-- When one result of the engine suffices, `generate_canonical` calls the engine once and gives a value at least 0 and
below 1, the nearest to the nearest of the result divided by the range. -/
theorem C128_single (E : Engine σ) (F : Fmt) (hE : E.Ok) (h0 : E.lo = 0) (hb : (E.hi : ℝ) + 1 < (2 : ℝ) ^ (F.emax - 1))
    (limit : FV) (hl : ¬ (range E F).lt limit) (t : σ) :
    ∃ w y, canonical E F limit t = some (w, (E.gen t).2) ∧ Val w y ∧ 0 ≤ y ∧ y < 1 ∧
      (F.rnd (F.rnd ((E.gen t).1 : ℝ) / F.rnd (F.rnd E.hi + 1)) < 1 →
        y = F.rnd (F.rnd ((E.gen t).1 : ℝ) / F.rnd (F.rnd E.hi + 1))) := by
  have ht := hE t
  obtain ⟨x, y, hx, hy, ex, ey, hx0, hy1, hxy⟩ := ofInt_le_add_one (F := F) (m := (E.gen t).1) (n := E.hi) (by omega) ht.2 hb
  have hq0 : 0 ≤ x / y := div_nonneg hx0 (by linarith)
  have hq1 : x / y ≤ 1 := by rw [div_le_one (by linarith)]; exact hxy
  have hr0 : 0 ≤ F.rnd (x / y) := rnd_nonneg hq0
  have hr1 : F.rnd (x / y) ≤ 1 := rnd_le hq1 F.rep_one
  have hv := div_val (F := F) hx hy (by linarith) (by
    rw [abs_of_nonneg hr0]
    exact lt_of_le_of_lt hr1 (one_lt_zpow₀ (by norm_num) (by have := F.emax_pos; omega)))
  have himpl : canonicalImpl E F limit t
      = some (F.div (F.ofInt (E.gen t).1) (F.add (F.ofInt E.hi) (.num 1)), (E.gen t).2) := by
    unfold canonicalImpl
    rw [canonicalLoop.eq_def, if_neg hl, range_zero E F h0 (by omega) hb, h0, sub_zero]
  obtain ⟨w, z, h1, h2, h3, h4, h5, -⟩ := canonical_of_impl E F limit t _ _ _ hv hr0 hr1 himpl
  refine ⟨w, z, h1, h2, h3, h4, fun h => ?_⟩
  rw [← ex, ← ey] at h ⊢
  exact h2.unique (h5 h ▸ hv)

/-- one step, for a range that is a power of two: the sum stays at most the power -/
theorem canonical_loop (E : Engine σ) (F : Fmt) (hE : E.Ok) (w : ℕ) (hw0 : 1 ≤ w) (hw : w ≤ F.p) (h0 : E.lo = 0)
    (hN : E.hi = 2 ^ w - 1) (he : 2 * (F.p : ℤ) < F.emax) (limit : FV) (L : ℝ) (hl : Val limit L) (hL : L ≤ 2 ^ F.p)
    (hrange : range E F = .num (2 ^ w)) (fuel : ℕ) :
    ∀ (j : ℕ) (s : FV) (x : ℝ) (t : σ), Val s x → 0 ≤ x → x ≤ 2 ^ j → F.p ≤ j + fuel → j < F.p + w →
      ∃ v y t', canonicalLoop E F limit s (.num (2 ^ j)) t = some (v, t') ∧ Val v y ∧ 0 ≤ y ∧ y ≤ 1 := by
  have hpow : ∀ j : ℕ, (j : ℤ) < F.emax → Rep F.p F.emin ((2 : ℝ) ^ j) ∧ (2 : ℝ) ^ j < (2 : ℝ) ^ F.emax := by
    intro j hj
    constructor
    · have := Rep.two_zpow (p := F.p) (emin := F.emin) (j : ℤ) (by have := F.emin_le_zero; omega) F.one_le_p
      rwa [zpow_natCast] at this
    · rw [← zpow_natCast]; exact zpow_lt_zpow_right₀ (by norm_num) hj
  induction fuel with
  | zero =>
    intro j s x t hs hx0 hx1 hf hj
    have hj2 : (0 : ℝ) < 2 ^ j := by positivity
    rw [canonicalLoop.eq_def, if_neg]
    · have hq0 : 0 ≤ x / 2 ^ j := div_nonneg hx0 hj2.le
      have hq1 : x / 2 ^ j ≤ 1 := by rw [div_le_one hj2]; exact hx1
      have hr0 : 0 ≤ F.rnd (x / 2 ^ j) := rnd_nonneg hq0
      have hr1 : F.rnd (x / 2 ^ j) ≤ 1 := rnd_le hq1 F.rep_one
      exact ⟨_, _, _, rfl, div_val hs (Val.num (ne_of_gt hj2)) (ne_of_gt hj2) (by
        rw [abs_of_nonneg hr0]
        exact lt_of_le_of_lt hr1 (one_lt_zpow₀ (by norm_num) (by have := F.emax_pos; omega))), hr0, hr1⟩
    · rw [(Val.num (ne_of_gt hj2)).lt_iff hl, not_lt]
      exact le_trans hL (pow_le_pow_right₀ (by norm_num) (by omega))
  | succ fuel ih =>
    intro j s x t hs hx0 hx1 hf hj
    have hj2 : (0 : ℝ) < 2 ^ j := by positivity
    by_cases hc : (2 : ℝ) ^ j < L
    · have hjp : j < F.p := by
        by_contra hcon
        have : (2 : ℝ) ^ F.p ≤ 2 ^ j := pow_le_pow_right₀ (by norm_num) (by omega)
        linarith
      have ht := hE t
      have hwp : (2 : ℤ) ^ w ≤ 2 ^ F.p := pow_le_pow_right₀ (by norm_num) hw
      obtain ⟨hr1, hb1⟩ := hpow (j + w) (by push_cast; omega)
      have e1 : (2 : ℝ) ^ (j + w) = 2 ^ j * 2 ^ w := pow_add _ _ _
      rw [e1] at hr1 hb1
      have hk0 : (0 : ℝ) ≤ (((E.gen t).1 - E.lo : ℤ) : ℝ) := by exact_mod_cast (by omega : 0 ≤ (E.gen t).1 - E.lo)
      have hk1 : (((E.gen t).1 - E.lo : ℤ) : ℝ) + 1 ≤ 2 ^ w := by exact_mod_cast (by omega : (E.gen t).1 - E.lo + 1 ≤ 2 ^ w)
      set k : ℝ := (((E.gen t).1 - E.lo : ℤ) : ℝ) with hk
      have hkr : Rep F.p F.emin k := F.rep_int _ (by rw [abs_of_nonneg (by omega)]; omega)
      have hkb : |k| < (2 : ℝ) ^ F.emax := two_pow_le_emax (by
        rw [abs_of_nonneg hk0, hk]; exact_mod_cast (by omega : (E.gen t).1 - E.lo ≤ 2 ^ F.p))
      have hvk : Val (F.ofInt ((E.gen t).1 - E.lo)) k := by
        have := ofReal_val (F := F) (s := false) (r := k)
        rw [rnd_of_rep hkr] at this
        exact this hkb
      have hkm : k * 2 ^ j + x ≤ 2 ^ j * 2 ^ w := by nlinarith
      have hmr : Rep F.p F.emin (k * 2 ^ j) := by
        refine ⟨(E.gen t).1 - E.lo, j, by have := F.emin_le_zero; omega, ?_, by rw [zpow_natCast]⟩
        rw [abs_of_nonneg (by omega)]; omega
      have hvm : Val (F.mul (F.ofInt ((E.gen t).1 - E.lo)) (.num (2 ^ j))) (k * 2 ^ j) := by
        have := mul_val (F := F) hvk (Val.num (ne_of_gt hj2))
        rw [rnd_of_rep hmr] at this
        exact this (by rw [abs_of_nonneg (by positivity)]; linarith)
      have ha0 : 0 ≤ F.rnd (x + k * 2 ^ j) := rnd_nonneg (by positivity)
      have ha1 : F.rnd (x + k * 2 ^ j) ≤ 2 ^ j * 2 ^ w := rnd_le (by linarith) hr1
      have hva := add_val (F := F) hs hvm (by rw [abs_of_nonneg ha0]; linarith)
      have hvr : F.mul (.num (2 ^ j)) (range E F) = .num (2 ^ (j + w)) := by
        rw [hrange, e1]
        have := mul_val (F := F) (Val.num (ne_of_gt hj2)) (Val.num (by positivity : (2 : ℝ) ^ w ≠ 0))
        rw [rnd_of_rep hr1] at this
        exact (this (by rw [abs_of_nonneg (by positivity)]; exact hb1)).eq_num (by positivity)
      rw [canonicalLoop.eq_def, if_pos ((Val.num (ne_of_gt hj2)).lt_iff hl |>.2 hc), hvr]
      exact ih (j + w) _ _ _ hva ha0 (by rw [e1]; exact ha1) (by omega) (by omega)
    · rw [canonicalLoop.eq_def, if_neg (by rwa [(Val.num (ne_of_gt hj2)).lt_iff hl])]
      have hq0 : 0 ≤ x / 2 ^ j := div_nonneg hx0 hj2.le
      have hq1 : x / 2 ^ j ≤ 1 := by rw [div_le_one hj2]; exact hx1
      have hr0 : 0 ≤ F.rnd (x / 2 ^ j) := rnd_nonneg hq0
      have hr1 : F.rnd (x / 2 ^ j) ≤ 1 := rnd_le hq1 F.rep_one
      exact ⟨_, _, _, rfl, div_val hs (Val.num (ne_of_gt hj2)) (ne_of_gt hj2) (by
        rw [abs_of_nonneg hr0]
        exact lt_of_le_of_lt hr1 (one_lt_zpow₀ (by norm_num) (by have := F.emax_pos; omega))), hr0, hr1⟩

/-- `generate_canonical` of an engine with the results from 0 to `2 ^ w - 1`, where `w` is at most the precision, always
gives a value, and that is at least 0 and below 1. -/
theorem C128_power_partial (E : Engine σ) (F : Fmt) (hE : E.Ok) (w : ℕ) (hw0 : 1 ≤ w) (hw : w ≤ F.p) (h0 : E.lo = 0)
    (hN : E.hi = 2 ^ w - 1) (he : 2 * (F.p : ℤ) < F.emax) (limit : FV) (L : ℝ) (hl : Val limit L) (hL : L ≤ 2 ^ F.p) (t : σ) :
    ∃ v y t', canonical E F limit t = some (v, t') ∧ Val v y ∧ 0 ≤ y ∧ y < 1 := by
  have ht := hE t
  have hp2 := F.two_le_p
  have hwp : (2 : ℤ) ^ w ≤ 2 ^ F.p := pow_le_pow_right₀ (by norm_num) hw
  have hone : (1 : ℤ) ≤ 2 ^ w := one_le_pow₀ (by norm_num)
  have e1 : (E.hi : ℝ) + 1 = 2 ^ w := by rw [hN]; push_cast; ring
  have hb : (E.hi : ℝ) + 1 < (2 : ℝ) ^ (F.emax - 1) := by
    rw [e1, ← zpow_natCast]; exact zpow_lt_zpow_right₀ (by norm_num) (by omega)
  have hrange : range E F = .num (2 ^ w) := by
    rw [range_zero E F h0 (by omega) hb]
    obtain ⟨-, y, -, hy, -, ey, -, hy1, -⟩ := ofInt_le_add_one (F := F) (m := E.hi) (n := E.hi) (by omega) le_rfl hb
    have hr1 : F.rnd (E.hi : ℝ) = E.hi := rnd_of_rep (F.rep_int _ (by rw [abs_of_nonneg (by omega)]; omega))
    have hr2 := F.rep_int (2 ^ w) (by rw [abs_of_nonneg (by positivity)]; exact hwp)
    push_cast at hr2
    rw [hr1, e1, rnd_of_rep hr2] at ey
    rw [hy.eq_num (by linarith), ey]
  have hk0 : (0 : ℝ) ≤ (((E.gen t).1 - E.lo : ℤ) : ℝ) := by exact_mod_cast (by omega : 0 ≤ (E.gen t).1 - E.lo)
  have hk1 : (((E.gen t).1 - E.lo : ℤ) : ℝ) ≤ 2 ^ w := by exact_mod_cast (by omega : (E.gen t).1 - E.lo ≤ 2 ^ w)
  have hvk : Val (F.ofInt ((E.gen t).1 - E.lo)) (((E.gen t).1 - E.lo : ℤ) : ℝ) := by
    have := ofReal_val (F := F) (s := false) (r := (((E.gen t).1 - E.lo : ℤ) : ℝ))
    rw [rnd_of_rep (F.rep_int _ (by rw [abs_of_nonneg (by omega)]; omega))] at this
    exact this (two_pow_le_emax (by rw [abs_of_nonneg hk0]; exact_mod_cast (by omega : (E.gen t).1 - E.lo ≤ 2 ^ F.p)))
  obtain ⟨v, y, t', h1, h2, h3, h4⟩ := canonical_loop E F hE w hw0 hw h0 hN he limit L hl hL hrange F.p w _ _ (E.gen t).2 hvk
    hk0 hk1 (by omega) (by omega)
  have himpl : canonicalImpl E F limit t = some (v, t') := by
    unfold canonicalImpl
    rw [hrange, h1]
  obtain ⟨w', z, h5, h6, h7, h8, -⟩ := canonical_of_impl E F limit t t' v y h2 h3 h4 himpl
  exact ⟨w', z, t', h5, h6, h7, h8⟩

/-- The version for constant engines agrees with the other when the quotient is neither 0 nor 1. -/
theorem C128_const_partial (E : Engine σ) (F : Fmt) (limit : FV) (t t' : σ) (v : FV) (x : ℝ) (hv : Val v x) (h0 : x ≠ 0) (h1 : x ≠ 1)
    (h : canonicalImpl E F limit t = some (v, t')) : canonicalConst E F limit t = canonical E F limit t := by
  unfold canonicalConst canonical
  rw [h]
  simp only []
  rw [if_neg (fun hc => h0 ((hv.eq_iff (Val.zero false)).1 hc)), if_neg (fun hc => h1 ((hv.eq_iff (Val.num one_ne_zero)).1 hc))]

/-- The version for constant engines gives a negative value when the engine gives its least result, and 1 when the engine has
more bits than the type and gives its greatest. -/
theorem C128_const_refuted (F : Fmt) (w : ℕ) (hw : F.p + 2 ≤ w) (hwe : (w : ℤ) + 1 < F.emax) (limit : FV) (L : ℝ) (hl : Val limit L)
    (hL : L ≤ 2 ^ F.p) (E : Engine σ) (h0 : E.lo = 0) (hN : E.hi = 2 ^ w - 1) (t : σ) :
    ((E.gen t).1 = 0 → canonicalConst E F limit t = some (.num (-F.u), (E.gen t).2) ∧ -F.u < 0)
    ∧ ((E.gen t).1 = E.hi → canonicalConst E F limit t = some (.num 1, (E.gen t).2)) := by
  have hone : (1 : ℤ) ≤ 2 ^ w := one_le_pow₀ (by norm_num)
  have e1 : (E.hi : ℝ) + 1 = 2 ^ w := by rw [hN]; push_cast; ring
  have hb : (E.hi : ℝ) + 1 < (2 : ℝ) ^ (F.emax - 1) := by
    rw [e1, ← zpow_natCast]; exact zpow_lt_zpow_right₀ (by norm_num) (by omega)
  have hpw : (0 : ℝ) < 2 ^ w := by positivity
  have hem := F.emin_le
  have hem0 := F.emin_le_zero
  have hp2 := F.two_le_p
  have hrw : Rep F.p F.emin ((2 : ℝ) ^ w) := by
    have := Rep.two_zpow (p := F.p) (emin := F.emin) (w : ℤ) (by omega) F.one_le_p
    rwa [zpow_natCast] at this
  have hbw : (2 : ℝ) ^ w < (2 : ℝ) ^ F.emax := by
    rw [← zpow_natCast]; exact zpow_lt_zpow_right₀ (by norm_num) (by omega)
  -- the greatest result rounds to the power
  have hhi : F.rnd (E.hi : ℝ) = 2 ^ w := by
    have h1 : F.rnd (E.hi : ℝ) ≤ 2 ^ w := rnd_le (by linarith) hrw
    have h2 := F.rnd_near (E.hi : ℝ) (2 ^ w) hrw
    rw [show (2 : ℝ) ^ w - E.hi = 1 by linarith, abs_one] at h2
    by_contra hc
    have h3 := rep_lt_one (F := F) (y := F.rnd (E.hi : ℝ) / 2 ^ w) (by
      obtain ⟨m, e, he, hm, hx⟩ := F.rnd_rep (E.hi : ℝ)
      have h4 := (abs_le.1 h2).1
      have h2w : (16 : ℝ) ≤ 2 ^ w := by
        calc (16 : ℝ) = 2 ^ 4 := by norm_num
          _ ≤ 2 ^ w := pow_le_pow_right₀ (by norm_num) (by omega)
      refine ⟨m, e - w, ?_, hm, by rw [hx, zpow_sub₀ (by norm_num), zpow_natCast]; ring⟩
      by_contra hcon
      have h5 : (m : ℝ) ≤ 2 ^ F.p := by
        have : m ≤ 2 ^ F.p := by have := (abs_lt.1 hm).2; omega
        exact_mod_cast this
      have h6 : (2 : ℝ) ^ e ≤ (2 : ℝ) ^ (F.emin + w - 1) := zpow_le_zpow_right₀ (by norm_num) (by omega)
      have h7 : F.rnd (E.hi : ℝ) ≤ 2 ^ F.p * (2 : ℝ) ^ (F.emin + w - 1) := by
        rw [hx]
        calc (m : ℝ) * (2 : ℝ) ^ e ≤ 2 ^ F.p * (2 : ℝ) ^ e := mul_le_mul_of_nonneg_right h5 (by positivity)
          _ ≤ _ := mul_le_mul_of_nonneg_left h6 (by positivity)
      have h8 : (2 : ℝ) ^ F.p * (2 : ℝ) ^ (F.emin + w - 1) ≤ 2 ^ w / 2 := by
        rw [← zpow_natCast, ← zpow_natCast (2 : ℝ) w, ← zpow_add₀ (by norm_num)]
        have e : (2 : ℝ) ^ (w : ℤ) / 2 = (2 : ℝ) ^ ((w : ℤ) - 1) := by rw [zpow_sub_one₀ (by norm_num)]; ring
        rw [e]
        exact zpow_le_zpow_right₀ (by norm_num) (by omega)
      linarith) (by rw [div_lt_one hpw]; exact lt_of_le_of_ne h1 hc)
    rw [div_le_iff₀ hpw] at h3
    have h4 := (abs_le.1 h2).1
    have h5 : (4 : ℝ) ≤ F.u * 2 ^ w := by
      unfold u
      rw [← zpow_natCast (2 : ℝ) w, ← zpow_add₀ (by norm_num)]
      calc (4 : ℝ) = (2 : ℝ) ^ (2 : ℤ) := by norm_num
        _ ≤ _ := zpow_le_zpow_right₀ (by norm_num) (by omega)
    linarith
  have hrange : range E F = .num (2 ^ w) := by
    rw [range_zero E F h0 (by omega) hb]
    obtain ⟨-, y, -, hy, -, ey, -, hy1, -⟩ := ofInt_le_add_one (F := F) (m := E.hi) (n := E.hi) (by omega) le_rfl hb
    have h1 : F.rnd ((2 : ℝ) ^ w + 1) = 2 ^ w := by
      have h1 : 2 ^ w ≤ F.rnd ((2 : ℝ) ^ w + 1) := le_rnd (by linarith) hrw
      have h2 := F.rnd_near ((2 : ℝ) ^ w + 1) (2 ^ w) hrw
      rw [show (2 : ℝ) ^ w - (2 ^ w + 1) = -1 by ring, abs_neg, abs_one] at h2
      have h3 := (abs_le.1 h2).2
      obtain ⟨m, e, he, hm, hx⟩ := F.rnd_rep ((2 : ℝ) ^ w + 1)
      -- the value is a multiple of 4
      have hm0 : (m : ℝ) < 2 ^ F.p := by exact_mod_cast (abs_lt.1 hm).2
      have he2 : 2 ≤ e := by
        by_contra hc
        have h5 : (2 : ℝ) ^ e ≤ 2 := by
          calc (2 : ℝ) ^ e ≤ (2 : ℝ) ^ (1 : ℤ) := zpow_le_zpow_right₀ (by norm_num) (by omega)
            _ = 2 := by norm_num
        have h6 : (4 : ℝ) * 2 ^ F.p ≤ 2 ^ w := by
          calc (4 : ℝ) * 2 ^ F.p = 2 ^ (F.p + 2) := by rw [pow_add]; ring
            _ ≤ _ := pow_le_pow_right₀ (by norm_num) hw
        have h7 : (0 : ℝ) < (2 : ℝ) ^ e := by positivity
        rw [hx] at h1
        have h8 : (m : ℝ) * (2 : ℝ) ^ e ≤ 2 ^ F.p * 2 := by
          calc (m : ℝ) * (2 : ℝ) ^ e ≤ 2 ^ F.p * (2 : ℝ) ^ e := mul_le_mul_of_nonneg_right hm0.le h7.le
            _ ≤ _ := mul_le_mul_of_nonneg_left h5 (by positivity)
        have h9 : (0 : ℝ) < 2 ^ F.p := by positivity
        linarith
      obtain ⟨d, hd⟩ := Int.le.dest he2
      have hz : (2 : ℝ) ^ e = 4 * 2 ^ d := by
        rw [← hd, zpow_add₀ (by norm_num), zpow_natCast]; norm_num
      obtain ⟨c, hc⟩ : ∃ c, w = c + 2 := ⟨w - 2, by omega⟩
      have hz2 : (2 : ℝ) ^ w = 4 * 2 ^ c := by rw [hc, pow_add]; ring
      rw [hx, hz, hz2] at h1 h3 ⊢
      have h5 : (2 : ℤ) ^ c ≤ m * 2 ^ d := by
        have : (2 : ℝ) ^ c ≤ m * 2 ^ d := by linarith
        exact_mod_cast this
      have h6 : m * 2 ^ d < 2 ^ c + 1 := by
        have : (m : ℝ) * 2 ^ d < 2 ^ c + 1 := by linarith
        exact_mod_cast this
      have h7 : m * 2 ^ d = 2 ^ c := by omega
      have h8 : (m : ℝ) * 2 ^ d = 2 ^ c := by exact_mod_cast h7
      linarith
    rw [hhi, h1] at ey
    rw [hy.eq_num (by linarith), ey]
  have hnl : ¬ (range E F).lt limit := by
    rw [hrange, (Val.num (ne_of_gt hpw)).lt_iff hl, not_lt]
    exact le_trans hL (pow_le_pow_right₀ (by norm_num) (by omega))
  have hup : (0 : ℝ) < F.u := F.u_pos
  have h1e : (1 : ℝ) < (2 : ℝ) ^ F.emax := one_lt_zpow₀ (by norm_num) (by have := F.emax_pos; omega)
  have hul := F.u_le
  have he2 : (2 : ℝ) ^ (1 - (F.p : ℤ)) / 2 = F.u := by
    unfold u
    rw [show (1 : ℤ) - F.p = -(F.p : ℤ) + 1 by ring, zpow_add₀ (by norm_num)]; ring
  have hru : Rep F.p F.emin F.u := Rep.two_zpow _ (by omega) F.one_le_p
  have hv2 : Val (F.div F.eps (.num 2)) F.u := by
    have := div_val (F := F) (v := F.eps) (w := .num 2) (Val.num (by positivity : (2 : ℝ) ^ (1 - (F.p : ℤ)) ≠ 0))
      (Val.num (two_ne_zero)) two_ne_zero
    rw [he2, rnd_of_rep hru] at this
    exact this (by rw [abs_of_pos hup]; linarith)
  constructor
  · intro hk
    have himpl : canonicalImpl E F limit t = some (.zero false, (E.gen t).2) := by
      unfold canonicalImpl
      rw [canonicalLoop.eq_def, if_neg hnl, hk, h0, sub_zero, hrange]
      have hz : F.ofInt 0 = .zero false := by unfold ofInt; rw [Int.cast_zero, ofReal_zero]
      rw [hz]
      have : F.div (.zero false) (.num (2 ^ w)) = .zero false := by
        show F.ofReal (false != decide ((2 : ℝ) ^ w < 0)) (0 / 2 ^ w) = _
        rw [zero_div, ofReal_zero, decide_eq_false (by linarith)]
        rfl
      rw [this]
    refine ⟨?_, by linarith⟩
    have hv3 : F.sub (.zero false) (F.div F.eps (.num 2)) = .num (-F.u) := by
      have := sub_val (F := F) (Val.zero false) hv2
      rw [zero_sub, rnd_of_rep hru.neg] at this
      exact (this (by rw [abs_neg, abs_of_pos hup]; linarith)).eq_num (by linarith)
    unfold canonicalConst
    rw [himpl]
    simp only []
    rw [hv3, if_neg (by rw [not_not]; exact ((Val.zero false).le_iff (Val.zero false)).2 le_rfl),
      if_neg (by rw [not_not]; exact ((Val.zero false).le_iff (Val.num one_ne_zero)).2 zero_le_one),
      if_pos (((Val.zero false).eq_iff (Val.zero false)).2 rfl), if_neg]
    simp
    linarith
  · intro hk
    have himpl : canonicalImpl E F limit t = some (.num 1, (E.gen t).2) := by
      unfold canonicalImpl
      rw [canonicalLoop.eq_def, if_neg hnl, hk, h0, sub_zero, hrange]
      have hv : F.ofInt E.hi = .num (2 ^ w) := by
        have := ofReal_val (F := F) (s := false) (r := (E.hi : ℝ))
        rw [hhi] at this
        exact (this (by rw [abs_of_pos hpw]; exact hbw)).eq_num (ne_of_gt hpw)
      have hd : F.div (.num (2 ^ w)) (.num (2 ^ w)) = .num 1 := by
        have := div_val (F := F) (Val.num (ne_of_gt hpw)) (Val.num (ne_of_gt hpw)) (ne_of_gt hpw)
        rw [div_self (ne_of_gt hpw), rnd_of_rep F.rep_one] at this
        exact (this (by rw [abs_one]; exact h1e)).eq_num one_ne_zero
      rw [hv, hd]
    have hle : (FV.zero false).le (.num 1) := ((Val.zero false).le_iff (Val.num one_ne_zero)).2 zero_le_one
    have hle1 : (FV.num 1).le (.num 1) := ((Val.num one_ne_zero).le_iff (Val.num one_ne_zero)).2 le_rfl
    unfold canonicalConst
    rw [himpl]
    simp only []
    rw [if_neg (not_not.2 hle), if_neg (not_not.2 hle1), if_neg]
    rw [(Val.num one_ne_zero).eq_iff (Val.zero false)]
    exact one_ne_zero

/-- rounding to the nearest multiple of the unit of the last place -/
theorem rnd_grid (F : Fmt) (e n : ℤ) (x : ℝ) (he : F.emin ≤ e) (hn : |n| < 2 ^ F.p) (h1 : (2 : ℝ) ^ (e + F.p - 1) ≤ x)
    (hx : |n * (2 : ℝ) ^ e - x| < (2 : ℝ) ^ e / 2) : F.rnd x = n * (2 : ℝ) ^ e := by
  have hpos : (0 : ℝ) < (2 : ℝ) ^ e := by positivity
  have h2 := F.rnd_near x (n * (2 : ℝ) ^ e) ⟨n, e, he, hn, rfl⟩
  have hp2 := F.two_le_p
  have h3 : (2 : ℝ) ^ (e + F.p - 1) ≤ F.rnd x := le_rnd h1 (Rep.two_zpow _ (by omega) F.one_le_p)
  obtain ⟨m, e', -, hm, hy⟩ := F.rnd_rep x
  have hm0 : (m : ℝ) < 2 ^ F.p := by exact_mod_cast (abs_lt.1 hm).2
  have hee : e ≤ e' := by
    by_contra hc
    have h5 : (2 : ℝ) ^ e' ≤ (2 : ℝ) ^ (e - 1) := zpow_le_zpow_right₀ (by norm_num) (by omega)
    have h7 : (0 : ℝ) < (2 : ℝ) ^ e' := by positivity
    have h8 : (m : ℝ) * (2 : ℝ) ^ e' < 2 ^ F.p * (2 : ℝ) ^ (e - 1) := by
      calc (m : ℝ) * (2 : ℝ) ^ e' < 2 ^ F.p * (2 : ℝ) ^ e' := mul_lt_mul_of_pos_right hm0 h7
        _ ≤ _ := mul_le_mul_of_nonneg_left h5 (by positivity)
    have h9 : (2 : ℝ) ^ F.p * (2 : ℝ) ^ (e - 1) = (2 : ℝ) ^ (e + F.p - 1) := by
      rw [← zpow_natCast, ← zpow_add₀ (by norm_num)]
      congr 1
      ring
    rw [hy] at h3
    linarith
  obtain ⟨d, hd⟩ := Int.le.dest hee
  have hz : (m : ℝ) * (2 : ℝ) ^ e' = ((m * 2 ^ d : ℤ) : ℝ) * (2 : ℝ) ^ e := by
    rw [← hd, zpow_add₀ (by norm_num), zpow_natCast]; push_cast; ring
  rw [hy, hz] at h2 ⊢
  generalize m * 2 ^ d = c at h2
  have h4 : |((c - n : ℤ) : ℝ) * (2 : ℝ) ^ e| < 1 * (2 : ℝ) ^ e := by
    have e1 : ((c - n : ℤ) : ℝ) * (2 : ℝ) ^ e = (c * (2 : ℝ) ^ e - x) - (n * (2 : ℝ) ^ e - x) := by push_cast; ring
    rw [e1]
    have := abs_sub (c * (2 : ℝ) ^ e - x) (n * (2 : ℝ) ^ e - x)
    linarith
  rw [abs_mul, abs_of_pos hpos] at h4
  have h5 : |((c - n : ℤ) : ℝ)| < 1 := lt_of_mul_lt_mul_right h4 hpos.le
  have h6 : |c - n| < 1 := by exact_mod_cast h5
  have h7 : c = n := by rw [Int.abs_lt_one_iff] at h6; omega
  rw [h7]

theorem val_int (F : Fmt) (n : ℤ) (hn : |n| ≤ 2 ^ F.p) : Val (F.ofInt n) n := by
  have := ofReal_val (F := F) (s := false) (r := (n : ℝ))
  rw [rnd_of_rep (F.rep_int n hn)] at this
  exact this (two_pow_le_emax (by exact_mod_cast hn))

/-- An engine with the range of `ecuyer1988`, with 53 bits of precision: when it gives its greatest result twice, the sum
rounds to more than the power of the range, and the assertion of `generate_canonical` fails. -/
theorem C128_range_refuted (F : Fmt) (hp : F.p = 53) (he : 64 ≤ F.emax) (E : Engine σ) (h1 : E.lo = 1) (h2 : E.hi = 2147483562)
    (t : σ) (ht : (E.gen t).1 = E.hi) (ht' : (E.gen (E.gen t).2).1 = E.hi) :
    canonical E F (.num (2 ^ 53)) t = none ∧ canonicalConst E F (.num (2 ^ 53)) t = none := by
  have hem := F.emin_le
  rw [hp] at hem
  have hbig : ∀ x : ℝ, 0 ≤ x → x ≤ 2 ^ 63 → |x| < (2 : ℝ) ^ F.emax := by
    intro x h0 h1
    rw [abs_of_nonneg h0]
    calc x ≤ (2 : ℝ) ^ (63 : ℤ) := by exact_mod_cast h1
      _ < _ := zpow_lt_zpow_right₀ (by norm_num) (by omega)
  have hrange : Val (range E F) 2147483562 := by
    have v1 := val_int F E.hi (by rw [h2, hp]; norm_num)
    have v2 := val_int F E.lo (by rw [h1, hp]; norm_num)
    have r1 := F.rep_int 2147483561 (by rw [hp]; norm_num)
    have r2 := F.rep_int 2147483562 (by rw [hp]; norm_num)
    push_cast at r1 r2
    have v3 := sub_val (F := F) v1 v2
    rw [h1, h2] at v3
    push_cast at v3
    rw [show (2147483562 : ℝ) - 1 = 2147483561 by norm_num, rnd_of_rep r1] at v3
    have v4 := add_val (F := F) (v3 (hbig _ (by norm_num) (by norm_num))) (Val.num one_ne_zero)
    rw [show (2147483561 : ℝ) + 1 = 2147483562 by norm_num, rnd_of_rep r2] at v4
    unfold range
    rw [h1, h2]
    exact v4 (hbig _ (by norm_num) (by norm_num))
  have hk : Val (F.ofInt (E.hi - E.lo)) 2147483561 := by
    have := val_int F (E.hi - E.lo) (by rw [h1, h2, hp]; norm_num)
    rw [h1, h2] at this ⊢
    push_cast at this
    exact this.congr (by norm_num)
  have g1 : F.rnd ((2147483561 : ℝ) * 2147483562) = 4611685646912724480 := by
    have := rnd_grid F 9 9007198529126415 ((2147483561 : ℝ) * 2147483562) (by omega) (by rw [hp]; norm_num)
      (by rw [hp]; norm_num) (by norm_num [abs_lt])
    rw [this]; norm_num
  have g2 : F.rnd ((2147483561 : ℝ) + 4611685646912724480) = 4611685649060208128 := by
    have := rnd_grid F 9 9007198533320719 ((2147483561 : ℝ) + 4611685646912724480) (by omega) (by rw [hp]; norm_num)
      (by rw [hp]; norm_num) (by norm_num [abs_lt])
    rw [this]; norm_num
  have g3 : F.rnd ((2147483562 : ℝ) * 2147483562) = 4611685649060207616 := by
    have := rnd_grid F 9 9007198533320718 ((2147483562 : ℝ) * 2147483562) (by omega) (by rw [hp]; norm_num)
      (by rw [hp]; norm_num) (by norm_num [abs_lt])
    rw [this]; norm_num
  have g4 : F.rnd ((4611685649060208128 : ℝ) / 4611685649060207616) = 4503599627370497 / 4503599627370496 := by
    have := rnd_grid F (-52) 4503599627370497 ((4611685649060208128 : ℝ) / 4611685649060207616) (by omega)
      (by rw [hp]; norm_num) (by rw [hp]; norm_num) (by rw [abs_lt]; constructor <;> norm_num)
    rw [this]; norm_num
  have v1 := mul_val (F := F) hk hrange
  rw [g1] at v1
  have v2 := add_val (F := F) hk (v1 (hbig _ (by norm_num) (by norm_num)))
  rw [g2] at v2
  have v3 := mul_val (F := F) hrange hrange
  rw [g3] at v3
  have v2' := v2 (hbig _ (by norm_num) (by norm_num))
  have v3' := v3 (hbig _ (by norm_num) (by norm_num))
  have v4 := div_val (F := F) v2' v3' (by norm_num)
  rw [g4] at v4
  have v4' := v4 (hbig _ (by norm_num) (by norm_num))
  have vl : Val (.num (2 ^ 53)) (2 ^ 53) := Val.num (by norm_num)
  have himpl : ∃ v t', canonicalImpl E F (.num (2 ^ 53)) t = some (v, t') ∧ Val v (4503599627370497 / 4503599627370496) := by
    unfold canonicalImpl
    rw [canonicalLoop.eq_def, if_pos ((hrange.lt_iff vl).2 (by norm_num)), canonicalLoop.eq_def, ht', ht,
      if_neg (by rw [v3'.lt_iff vl]; norm_num)]
    exact ⟨_, _, rfl, v4'⟩
  obtain ⟨v, t', hi, hv⟩ := himpl
  have hle : (FV.zero false).le v := ((Val.zero false).le_iff hv).2 (by norm_num)
  have hle1 : ¬ v.le (.num 1) := by rw [hv.le_iff (Val.num one_ne_zero)]; norm_num
  unfold canonical canonicalConst
  rw [hi]
  simp only []
  rw [if_neg (not_not.2 hle), if_pos hle1, if_neg (not_not.2 hle), if_pos hle1]
  exact ⟨rfl, rfl⟩

/-- an engine that gives the same result always -/
def constant (lo hi k : ℤ) : Engine Unit := ⟨lo, hi, fun _ => (k, ())⟩

example : canonicalConst (constant 0 (2 ^ 32 - 1) 0) float (.num (2 ^ 24)) () = some (.num (-float.u), ()) :=
  ((C128_const_refuted float 32 (by simp [float, ieee]) (by simp [float, ieee]) (.num (2 ^ 24)) (2 ^ 24) (Val.num (by norm_num))
    (by simp [float, ieee]) (constant 0 (2 ^ 32 - 1) 0) rfl rfl ()).1 rfl).1

example : canonicalConst (constant 0 (2 ^ 32 - 1) (2 ^ 32 - 1)) float (.num (2 ^ 24)) () = some (.num 1, ()) :=
  (C128_const_refuted float 32 (by simp [float, ieee]) (by simp [float, ieee]) (.num (2 ^ 24)) (2 ^ 24) (Val.num (by norm_num))
    (by simp [float, ieee]) (constant 0 (2 ^ 32 - 1) (2 ^ 32 - 1)) rfl rfl ()).2 rfl

example : canonical (constant 1 2147483562 2147483562) double (.num (2 ^ 53)) () = none :=
  (C128_range_refuted double rfl (by simp [double, ieee]) (constant 1 2147483562 2147483562) rfl rfl () rfl rfl).1

example : ∃ v y t', canonical (constant 0 (2 ^ 32 - 1) (2 ^ 32 - 1)) double (.num (2 ^ 53)) () = some (v, t')
    ∧ Val v y ∧ 0 ≤ y ∧ y < 1 :=
  C128_power_partial (constant 0 (2 ^ 32 - 1) (2 ^ 32 - 1)) double (fun _ => by simp [constant]) 32 (by norm_num)
    (by simp [double, ieee]) rfl rfl (by simp [double, ieee]) (.num (2 ^ 53)) (2 ^ 53) (Val.num (by norm_num))
    (by simp [double, ieee]) ()

end RandReal

end Sprout
