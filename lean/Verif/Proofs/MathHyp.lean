import Verif.Model.MathHyp
import Verif.Proofs.NearRel
import Verif.Props.C94
import Verif.Props.C97

/-! # Lemmas for the functions which are computed from the exponential function -/

namespace Sprout

open Classical FV Fmt MathScale MathTables MathConst MathExp MathTrig

namespace NearR

variable {C : Fmt}

/-- product which may underflow -/
theorem mul_abs (w : C.Big) {v v' : FV} {a b A B k l : ℝ} (h : NearR C v a A k) (h' : NearR C v' b B l)
    (hk0 : 0 ≤ k) (hk : k ≤ 1000) (hl0 : 0 ≤ l) (hl : l ≤ 1000) (hA : 0 ≤ A) (hB : 0 ≤ B) (hhi : A * B ≤ 10 ^ 50) :
    ∃ r, Val (C.mul v v') r ∧ Rep C.p C.emin r ∧ |r - a * b| ≤ (k + l + 2) * C.u * (A * B) + C.u / 1000 := by
  have hu := u_pos (F := C)
  have hu8 := w.u_small
  have hf := fac w hk0 hk hl0 hl
  have hη := eta_rel w
  have hM := big_max30 w
  have hP : 0 ≤ A * B := mul_nonneg hA hB
  have e : (1 + C.u) * (A * (1 + k * C.u) * (B * (1 + l * C.u))) = A * B * ((1 + C.u) * ((1 + k * C.u) * (1 + l * C.u))) := by ring
  have hη2 : (2 : ℝ) ^ C.emin ≤ C.u / 1000 := by
    refine le_trans hη ?_
    rw [div_eq_mul_one_div C.u 1000]
    exact mul_le_mul_of_nonneg_left (by norm_num) (le_of_lt hu)
  have h1 : (1 + C.u) * (A * (1 + k * C.u) * (B * (1 + l * C.u))) + (2 : ℝ) ^ C.emin / 2 ≤
      A * B * (1 + (k + l + 2) * C.u) + C.u / 1000 := by
    rw [e]
    have h2 := mul_le_mul_of_nonneg_left hf hP
    have := mul_nonneg hP (le_of_lt hu)
    linarith
  obtain ⟨a1, a2⟩ := small w hk0 hk
  obtain ⟨b1, b2⟩ := small w hl0 hl
  obtain ⟨r, r1, r2, r3, r4⟩ := (Near.mul h h' (le_trans h1 (le_trans (by
    have : A * B * (1 + (k + l + 2) * C.u) ≤ 10 ^ 50 * 2 := mul_le_mul hhi (by linarith) (by
        have : (k + l + 2) * C.u ≥ 0 := by positivity
        linarith) (by positivity)
    have : (10 : ℝ) ^ 50 * 2 + 1 ≤ 10 ^ 60 := by norm_num
    linarith) hM))).mono h1
  exact ⟨r, r1, r2, le_trans r4 (le_of_eq (by ring))⟩

theorem lt_emax (w : C.Big) {v : FV} {a A k : ℝ} (h : NearR C v a A k) (hk0 : 0 ≤ k) (hk : k ≤ 1000) (hA : 0 ≤ A)
    (hhi : A ≤ 10 ^ 50) : ∃ r, Val v r ∧ Rep C.p C.emin r ∧ |r - a| ≤ k * C.u * A ∧ |r| < (2 : ℝ) ^ C.emax := by
  have hu := u_pos (F := C)
  have hM := big_max30 w
  obtain ⟨a1, a2⟩ := small w hk0 hk
  obtain ⟨r, r1, r2, r3, r4⟩ := h
  refine ⟨r, r1, r2, le_trans r4 (le_of_eq (by ring)), ?_⟩
  have h1 := Near.abs_le r3 r4
  have h2 : A * (1 + k * C.u) ≤ 10 ^ 50 * 2 := mul_le_mul hhi (by linarith) (by linarith) (by positivity)
  have e2 : (2 : ℝ) ^ C.emax = 2 * (2 : ℝ) ^ (C.emax - 1) := by
    rw [show C.emax = 1 + (C.emax - 1) by ring, zpow_add₀ (by norm_num), zpow_one]
    norm_num
  have : (10 : ℝ) ^ 50 * 2 < 10 ^ 60 := by norm_num
  linarith [show (0 : ℝ) < 10 ^ 60 by positivity]

end NearR

namespace MathHyp

variable {L F C : Fmt} {t : FloatTy}

theorem rep_half (w : C.Big) : Rep C.p C.emin (1 / 2) := by
  have := Rep.two_zpow (p := C.p) (emin := C.emin) (-1) (by have := w.emin; omega) (by have := w.p53; omega)
  norm_num at this ⊢
  exact this

theorem rep_min {p : ℕ} {emin : ℤ} {x : ℝ} (h : Rep p emin x) (h0 : x ≠ 0) : (2 : ℝ) ^ emin ≤ |x| := by
  obtain ⟨m, e, h1, h2, h3⟩ := h
  have hm : (1 : ℝ) ≤ |(m : ℝ)| := by
    have : m ≠ 0 := by
      rintro rfl
      exact h0 (by simpa using h3)
    exact_mod_cast Int.one_le_abs this
  rw [h3, abs_mul, abs_of_pos (show (0 : ℝ) < (2 : ℝ) ^ e by positivity)]
  calc (2 : ℝ) ^ emin ≤ (2 : ℝ) ^ e := zpow_le_zpow_right₀ (by norm_num) (by omega)
    _ = 1 * (2 : ℝ) ^ e := (one_mul _).symm
    _ ≤ _ := mul_le_mul_of_nonneg_right hm (by positivity)

theorem exp_bounds {x : ℝ} (h : |x| ≤ 25) : 1 / 10 ^ 12 ≤ Real.exp x ∧ Real.exp x ≤ 10 ^ 12 := by
  have h1 := abs_le.1 h
  have h3 : Real.exp 25 ≤ 10 ^ 12 := by
    have : Real.exp 25 = Real.exp 1 ^ 25 := by rw [← Real.exp_nat_mul]; norm_num
    rw [this]
    have := Real.exp_one_lt_d9
    calc Real.exp 1 ^ 25 ≤ 3 ^ 25 := pow_le_pow_left₀ (le_of_lt (Real.exp_pos 1)) (by linarith) 25
      _ ≤ _ := by norm_num
  constructor
  · have h4 : Real.exp (-x) ≤ 10 ^ 12 := le_trans (Real.exp_le_exp.2 (by linarith)) h3
    rw [Real.exp_neg] at h4
    have := one_div_le_one_div_of_le (by positivity) h4
    rwa [one_div (Real.exp x)⁻¹, inv_inv] at this
  · exact le_trans (Real.exp_le_exp.2 (by linarith)) h3

/-- the exponential function in the type of computation -/
theorem expC (w : C.Big) (hf : HasFormat C t) (hp : C.p ≤ 64) {v : FV} {x : ℝ} (hv : Val v x) (hr : Rep C.p C.emin x)
    (h : |x| ≤ 25) : ∃ e, exp C C t v = some e ∧ NearR C e (Real.exp x) (Real.exp x) 128 := by
  have hE := Real.exp_pos x
  have hu := u_pos (F := C)
  rcases eq_or_ne x 0 with rfl | h0
  · obtain ⟨s, rfl⟩ := hv
    rw [mkv_zero]
    refine ⟨.num 1, (C94_exp_special C C t).2.2.2 s, ?_⟩
    rw [Real.exp_zero]
    exact NearR.of_err (Val.num one_ne_zero) C.rep_one (by simp) (by simp; positivity)
  · have hv' := hv.eq_num h0
    have hM := NearR.big_max30 w
    have hx : C.Has (.num x) := ⟨h0, hr, by
      have e2 : (2 : ℝ) ^ C.emax = 2 * (2 : ℝ) ^ (C.emax - 1) := by
        rw [show C.emax = 1 + (C.emax - 1) by ring, zpow_add₀ (by norm_num), zpow_one]
        norm_num
      have : (25 : ℝ) < 10 ^ 60 := by norm_num
      linarith⟩
    obtain ⟨e, e1, e2, e3, e4⟩ := C94_exp_partial C C t ⟨le_refl _, le_refl _, le_refl _⟩ w hf hp x hx h
    obtain ⟨s, y, y1, y2, y3⟩ := e2.cases e3
    have hval : e.val = y := by rw [y1, val_mkv]
    have hc : C.cvt e = e := by
      rw [y1]; exact cvt_mkv y2 y3
    refine ⟨e, by rw [hv', e1, hc], NearR.of_err ⟨s, y1⟩ y2 (by rw [abs_of_pos hE]) ?_⟩
    rw [hval] at e4
    refine le_trans e4 (le_of_eq ?_)
    have : (2 : ℝ) ^ (7 - (C.p : ℤ)) = 128 * C.u := by
      unfold u
      rw [sub_eq_add_neg, zpow_add₀ (by norm_num)]
      norm_num
    rw [this]

/-- the exponential of a tiny number is one -/
theorem exp_tiny (w : C.Big) (hf : HasFormat C t) {x : ℝ} (h0 : x ≠ 0) (hr : Rep C.p C.emin x) (h : |x| ≤ C.u / 2 ^ 24) :
    exp C C t (.num x) = some (.num 1) := by
  have hu := u_pos (F := C)
  have hu8 := w.u_small
  have hem := w.emax
  have hM := NearR.big_max30 w
  have hx1 : |x| ≤ 1 / 1000 := by
    refine le_trans h ?_
    have : C.u / 2 ^ 24 ≤ 1 / 9007199254740992 / 2 ^ 24 := div_le_div_of_nonneg_right hu8 (by positivity)
    refine le_trans this (by norm_num)
  have hx' := abs_le.1 hx1
  have hmin := rep_min hr h0
  have hT : ∀ n ∈ Finset.Ico (1 : ℕ) 86, termW C x n ≤ 14452 * |x| := by
    intro n hn
    rw [Finset.mem_Ico] at hn
    unfold termW
    have hm : max 1 |x| = 1 := max_eq_left (by linarith)
    rw [hm, one_pow, mul_one]
    have hg := w.one_add_le (show n + 2 ≤ 1024 by omega)
    have hf1 : |x| ^ n / n.factorial ≤ |x| := by
      have h5 : (1 : ℝ) ≤ n.factorial := by exact_mod_cast Nat.factorial_pos n
      refine le_trans (div_le_self (by positivity) h5) ?_
      calc |x| ^ n ≤ |x| ^ 1 := pow_le_pow_of_le_one (abs_nonneg _) (by linarith) hn.1
        _ = |x| := pow_one _
    have h4 : (1 + C.u) ^ (n + 2) * (|x| ^ n / n.factorial) ≤ 2 * |x| :=
      mul_le_mul (by linarith) hf1 (by positivity) (by norm_num)
    have hn' : (n : ℝ) ≤ 85 := by exact_mod_cast (by omega : n ≤ 85)
    have h5 : (n : ℝ) ^ 2 ≤ 7225 := by nlinarith [show (0 : ℝ) ≤ n by positivity]
    have h6 : (n : ℝ) ^ 2 * (2 : ℝ) ^ C.emin ≤ 7225 * |x| := mul_le_mul h5 hmin (by positivity) (by norm_num)
    linarith
  have hsum : ∑ n ∈ Finset.Ico (1 : ℕ) 86, termW C x n ≤ 1228420 * |x| := by
    refine le_trans (Finset.sum_le_card_nsmul _ _ _ hT) (le_of_eq ?_)
    rw [Nat.card_Ico, nsmul_eq_mul]
    push_cast
    ring
  have hg7 := w.one_add_le (show 7 ≤ 1024 by norm_num)
  have hS0 : 0 ≤ ∑ n ∈ Finset.Ico (1 : ℕ) 86, termW C x n := by
    refine Finset.sum_nonneg fun n _ => ?_
    unfold termW
    positivity
  have hS : (1 + C.u) ^ 7 * ∑ n ∈ Finset.Ico (1 : ℕ) 86, termW C x n ≤ 2 * (1228420 * |x|) :=
    mul_le_mul (by linarith) hsum hS0 (by norm_num)
  have hSu : 2 * (1228420 * |x|) < C.u / 2 := by
    have : 2 * (1228420 * |x|) ≤ 2 * (1228420 * (C.u / 2 ^ 24)) := by linarith
    refine lt_of_le_of_lt this ?_
    norm_num
    linarith
  have hone : (10 : ℝ) ^ 60 ≥ 1 := by norm_num
  obtain ⟨s, s1, r, r1, r2, r3, r4⟩ := series_near (C := C) (term := expTerm C t (.num x)) (a := fun n => x ^ n / n.factorial)
    (A := fun n => |x| ^ n / n.factorial) (W := fun n => termW C x n) 7 1 86 (by norm_num) (by norm_num)
    (fun k hk1 hk2 => expTerm_near w hf (Val.num h0) hr (by linarith) hk1 (by omega)) (by linarith)
  have hrs : |r| < C.u / 2 := lt_of_le_of_lt (Near.abs_le r3 r4) (by linarith)
  have h1M : (1 : ℝ) < (2 : ℝ) ^ C.emax := by
    calc (1 : ℝ) = (2 : ℝ) ^ (0 : ℤ) := (zpow_zero _).symm
      _ < _ := zpow_lt_zpow_right₀ (by norm_num) (by omega)
  have hrnd := rnd_one w hrs
  have hadd : C.add (.num 1) s = .num 1 := by
    have := add_val (F := C) (Val.num one_ne_zero) r1 (by rw [hrnd, abs_one]; exact h1M)
    rw [hrnd] at this
    exact this.eq_num one_ne_zero
  unfold exp
  have hxb : |x| < (2 : ℝ) ^ C.emax := by linarith
  simp only [MathClass.isnan, eq_num_num, eq_num_zero, eq_num_inf, h0, decide_true, Bool.not_true, Bool.false_eq_true,
    if_false]
  rw [cvt_num hr hxb h0]
  unfold expImpl
  rw [if_neg (by simp only [lt_num_num, not_not]; linarith)]
  have : expSeries C t (.num x) = some s := by
    unfold expSeries
    rw [limit_big w hf]
    exact s1
  rw [this]
  change some (C.cvt (C.add (.num 1) s)) = _
  rw [hadd, cvt_num C.rep_one (by rw [abs_one]; exact h1M) one_ne_zero]

/-! ### Overflow -/

theorem ofReal_inf {s : Bool} {r : ℝ} (h : (2 : ℝ) ^ C.emax ≤ |C.rnd r|) : C.ofReal s r = .inf (decide (r < 0)) := by
  unfold ofReal
  rw [if_neg, if_pos h]
  intro h0
  rw [h0, abs_zero] at h
  have : (0 : ℝ) < (2 : ℝ) ^ C.emax := by positivity
  linarith

theorem pow_inf {x : ℝ} (h0 : 0 < x) (hx : (2 : ℝ) ^ C.emax ≤ C.rnd (x * x)) (n : ℕ) : 2 ≤ n →
    powNImpl C (.num x) n = some (.inf false) := by
  have hm : pow2 C (.num x) = .inf false := by
    have e : pow2 C (.num x) = C.ofReal ((FV.num x).sgn != (FV.num x).sgn) (x * x) := rfl
    rw [e, ofReal_inf (le_trans hx (le_abs_self _))]
    simp [not_lt.2 (mul_self_nonneg x)]
  have hi : pow2 C (.inf false) = .inf false := by
    unfold pow2 mul
    simp [FV.sgn]
  have hxi : C.mul (.num x) (.inf false) = .inf false := by
    have hlt : ¬ x < 0 := by linarith
    unfold mul
    simp [FV.sgn, hlt]
  induction n using Nat.strong_induction_on with
  | _ n ih =>
    intro h2
    have key : (powNImpl C (.num x) (n / 2)).map (pow2 C) = some (.inf false) := by
      rcases Nat.lt_or_ge n 4 with h4 | h4
      · have : n / 2 = 1 := by omega
        rw [this, powNImpl]
        simp [hm]
      · rw [ih (n / 2) (by omega) (by omega)]
        simp [hi]
    rw [powNImpl, if_neg (by omega), if_neg (by omega)]
    split_ifs with hodd
    · cases hq : powNImpl C (.num x) (n / 2) with
      | none => rw [hq] at key; simp at key
      | some q =>
        rw [hq] at key
        simp only [Option.map_some, Option.some.injEq] at key
        simp [key, hxi]
    · exact key

theorem series_inf {term : ℕ → Option FV} (h1 : ∃ r, term 1 = some (.num r)) (h2 : ∀ n, 2 ≤ n → n ≤ 85 → term n = some (.inf false))
    (d : ℕ) : ∀ n last : ℕ, last - n ≤ d → 1 ≤ n → n < last → last ≤ 86 →
      ∃ v, series C term n last = some v ∧ (v = .inf false ∨ ∃ r, v = .num r) ∧ (2 ≤ n ∨ 2 ≤ last - n → v = .inf false) := by
  induction d with
  | zero => intro n last ha hb hc; omega
  | succ d ih =>
    intro n last ha hb hc hd
    rw [series]
    split_ifs with h3 h4
    · rcases Nat.lt_or_ge n 2 with h5 | h5
      · obtain ⟨r, hr⟩ := h1
        have : n = 1 := by omega
        subst this
        exact ⟨_, hr, Or.inr ⟨r, rfl⟩, fun h => by omega⟩
      · exact ⟨_, h2 n h5 (by omega), Or.inl rfl, fun _ => rfl⟩
    · omega
    · obtain ⟨a, a1, a2, -⟩ := ih n (n + (last - n) / 2) (by omega) hb (by omega) (by omega)
      obtain ⟨b, b1, -, b3⟩ := ih (n + (last - n) / 2) last (by omega) (by omega) (by omega) (by omega)
      have hb' := b3 (Or.inl (by omega))
      subst hb'
      refine ⟨.inf false, ?_, Or.inl rfl, fun _ => rfl⟩
      rw [a1, b1]
      rcases a2 with rfl | ⟨r, rfl⟩ <;> simp [add]

/-- the exponential function of a number of which the square overflows -/
theorem exp_huge (w : C.Big) (hf : HasFormat C t) {x : ℝ} (hx : C.Has (.num x)) (h1 : 1 < x)
    (h2 : (2 : ℝ) ^ C.emax ≤ C.rnd (x * x)) : exp C C t (.num x) = some (.inf false) ∧ exp C C t (.num (-x)) = some (.zero false) := by
  have hx0 : 0 < x := by linarith
  have hfac : ∀ n, n ≤ 85 → ∃ r, uncheckedFactorial C t n = some (.num r) ∧ 0 < r := by
    intro n hn
    have hl := limit_big w hf
    obtain ⟨k1, k2⟩ := (C92_factorial_float C t hf n).1 (by omega)
    unfold factorial at k1
    rw [if_pos (by omega)] at k1
    have hp : (1 : ℝ) ≤ n.factorial := by exact_mod_cast Nat.factorial_pos n
    exact ⟨_, k1, by linarith [le_rnd (F := C) hp C.rep_one]⟩
  have t1 : ∃ r, expTerm C t (.num x) 1 = some (.num r) := by
    obtain ⟨r, r1, r2⟩ := hfac 1 (by norm_num)
    have hl := limit_big w hf
    obtain ⟨k1, k2⟩ := (C92_factorial_float C t hf 1).1 (by omega)
    unfold factorial at k1
    rw [if_pos (by omega)] at k1
    rw [Nat.factorial_one, Nat.cast_one, rnd_of_rep C.rep_one] at k1
    refine ⟨x, ?_⟩
    unfold expTerm powNU
    rw [if_neg (by norm_num), powNImpl]
    have hd : C.div (.num x) (.num 1) = .num x := by
      have := div_val (F := C) (Val.num hx.1) (Val.num one_ne_zero) one_ne_zero (by
        rw [div_one, rnd_of_rep hx.2.1]; exact hx.2.2)
      rw [div_one, rnd_of_rep hx.2.1] at this
      exact this.eq_num hx.1
    simp [k1, hd]
  have t2 : ∀ n, 2 ≤ n → n ≤ 85 → expTerm C t (.num x) n = some (.inf false) := by
    intro n hn hn'
    obtain ⟨r, r1, r2⟩ := hfac n hn'
    unfold expTerm powNU
    rw [if_neg (by omega), pow_inf hx0 h2 n hn, r1]
    have : ¬ r < 0 := by linarith
    simp [div, FV.sgn, this]
  obtain ⟨v, v1, -, v3⟩ := series_inf (C := C) t1 t2 85 1 86 (by norm_num) (by norm_num) (by norm_num) (by norm_num)
  have hv := v3 (Or.inr (by norm_num))
  subst hv
  have hS : expSeries C t (.num x) = some (.inf false) := by
    unfold expSeries
    rw [limit_big w hf]
    exact v1
  constructor
  · unfold exp
    simp only [MathClass.isnan, eq_num_num, eq_num_zero, eq_num_inf, hx.1, decide_true, Bool.not_true, Bool.false_eq_true,
      if_false]
    rw [cvt_num hx.2.1 hx.2.2 hx.1]
    unfold expImpl
    rw [if_neg (by simp only [lt_num_num, not_not]; linarith), hS]
    rfl
  · have hx' : C.Has (.num (-x)) := ⟨neg_ne_zero.2 hx.1, hx.2.1.neg, by rw [abs_neg]; exact hx.2.2⟩
    unfold exp
    simp only [MathClass.isnan, eq_num_num, eq_num_zero, eq_num_inf, hx'.1, decide_true, Bool.not_true, Bool.false_eq_true,
      if_false]
    rw [cvt_num hx'.2.1 hx'.2.2 hx'.1]
    unfold expImpl
    rw [if_pos (by simp only [lt_num_num]; linarith)]
    have : (FV.num (-x)).neg = .num x := by simp [FV.neg]
    rw [this, hS]
    have h10 : ¬ (1 : ℝ) < 0 := by norm_num
    simp [add, div, FV.sgn, h10]
    rfl

end MathHyp

end Sprout
