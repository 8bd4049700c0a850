import Verif.Model.MathPower
import Verif.Proofs.MathLogs
import Verif.Props.C99

/-! # Lemmas for powers -/

namespace Sprout

open Classical FV Fmt MathTables MathConst MathExp MathLog MathTrig MathHyp MathLogs MathMod MathRound

namespace MathPower

variable {L F C : Fmt} {t : FloatTy}

/-- the product of the exponent and the logarithm -/
theorem arg_log (h : TrigFmt L C t) {x y k : ℝ} {w : FV} (hx : C.Has (.num x)) (h0 : (2 : ℝ) ^ (1 - C.emax) ≤ x)
    (hy : NearR C w y |y| k) (hk0 : 0 ≤ k) (hk : k ≤ 4) (hy2 : |y| ≤ 2 ^ 40) :
    ∃ l z e, log L C C t (.num x) = some l ∧ Val (C.mul w l) z ∧ Rep C.p C.emin z ∧ 0 ≤ e ∧ e ≤ 1 / 32 ∧ (1 ≤ x → e = 0) ∧
      |z - y * Real.log x| ≤ (k + 66) * C.u * (|y * Real.log x| + |y| * e) + C.u / 1000 := by
  have hu := u_pos (F := C)
  obtain ⟨v, l, e, v1, v2, v3, v4, v5, v6, v7, v8⟩ := logC (t := t) h hx h0
  have hsz := log_size h hx h0
  have he : 0 ≤ e / (64 * C.u) := by positivity
  have he2 : e / (64 * C.u) ≤ 1 / 32 := by rw [div_le_iff₀ (by positivity)]; linarith
  have hln : NearR C v (Real.log x) (|Real.log x| + e / (64 * C.u)) 64 := by
    refine NearR.of_err v2 v3 (by linarith) ?_
    have : 64 * C.u * (|Real.log x| + e / (64 * C.u)) = 64 * C.u * |Real.log x| + e := by field_simp
    rw [this]
    exact v8
  obtain ⟨z, z1, z2, z3⟩ := NearR.mul_abs h.big hy hln hk0 (by linarith) (by norm_num) (by norm_num) (abs_nonneg _)
    (by positivity) (by
      have : |y| * (|Real.log x| + e / (64 * C.u)) ≤ 2 ^ 40 * (2 ^ 30 + 1) :=
        mul_le_mul hy2 (by linarith) (by positivity) (by norm_num)
      refine le_trans this (by norm_num))
  refine ⟨v, z, e / (64 * C.u), v1, z1, z2, he, he2, fun hx1 => by rw [v7 hx1, zero_div], le_trans z3 (le_of_eq ?_)⟩
  rw [abs_mul]
  ring

/-- `exp(y * log(x))` -/
theorem expLog_near (h : TrigFmt L C t) (hp : C.p ≤ 64) {x y k : ℝ} {w : FV} (hx : C.Has (.num x))
    (h0 : (2 : ℝ) ^ (1 - C.emax) ≤ x) (hy : NearR C w y |y| k) (hk0 : 0 ≤ k) (hk : k ≤ 4) (hy2 : |y| ≤ 2 ^ 40)
    (hb : |y * Real.log x| ≤ 24) :
    ∃ v r e, expLog L C t (.num x) w = some v ∧ Val v r ∧ Rep C.p C.emin r ∧ |r| < (2 : ℝ) ^ C.emax ∧ 0 ≤ e ∧ e ≤ 1 / 32 ∧
      (1 ≤ x → e = 0) ∧ |r - Real.exp (y * Real.log x)| ≤
        (130 + 2 * (k + 66) * (|y * Real.log x| + |y| * e)) * C.u * Real.exp (y * Real.log x) := by
  have hu := u_pos (F := C)
  have hu8 := h.big.u_small
  obtain ⟨l, z, e, l1, z1, z2, e1, e2, e3, z3⟩ := arg_log (t := t) h hx h0 hy hk0 hk hy2
  obtain ⟨a, ha⟩ : ∃ a, a = y * Real.log x := ⟨_, rfl⟩
  rw [← ha] at z3 hb ⊢
  obtain ⟨d, hd⟩ : ∃ d, d = (k + 66) * C.u * (|a| + |y| * e) + C.u / 1000 := ⟨_, rfl⟩
  rw [← hd] at z3
  have hye : |y| * e ≤ 2 ^ 40 * (1 / 32) := mul_le_mul hy2 e2 e1 (by norm_num)
  have hye0 : 0 ≤ |y| * e := by positivity
  have hd1 : d ≤ 1 / 1000 := by
    have : (k + 66) * C.u * (|a| + |y| * e) ≤ 70 * (1 / 9007199254740992) * (24 + 2 ^ 40 * (1 / 32)) :=
      mul_le_mul (mul_le_mul (by linarith) hu8 (le_of_lt hu) (by norm_num)) (by linarith) (by positivity) (by norm_num)
    have h2 : 70 * (1 / 9007199254740992) * (24 + 2 ^ 40 * (1 / 32)) ≤ (1 / 2000 : ℝ) := by norm_num
    rw [hd]
    linarith
  have hz : |z| ≤ 25 := by
    have := abs_sub_abs_le_abs_sub z a
    linarith
  obtain ⟨v, v1, v2⟩ := expC (t := t) h.big h.tbl hp z1 z2 hz
  obtain ⟨-, eb⟩ := exp_bounds hz
  obtain ⟨r, r1, r2, r3, r4⟩ := v2.lt_emax h.big (by norm_num) (by norm_num) (le_of_lt (Real.exp_pos z)) (by
    refine le_trans eb ?_; norm_num)
  refine ⟨v, r, e, ?_, r1, r2, r4, e1, e2, e3, ?_⟩
  · unfold expLog
    rw [l1, Option.bind_some, v1]
  · have hE := Real.exp_pos a
    have hdiff := exp_diff z3 (by linarith)
    have ht := abs_sub_le r (Real.exp z) (Real.exp a)
    have h5 := (abs_le.1 hdiff).2
    have h7 : 128 * C.u * Real.exp z ≤ 128 * C.u * Real.exp a + 128 * C.u * (2 * d * Real.exp a) := by
      have : 128 * C.u * (Real.exp z - Real.exp a) ≤ 128 * C.u * (2 * d * Real.exp a) :=
        mul_le_mul_of_nonneg_left h5 (by positivity)
      linarith
    have h8 : 128 * C.u * (2 * d * Real.exp a) ≤ C.u * Real.exp a := by
      have : 128 * (2 * d) ≤ 1 := by linarith
      have := mul_le_mul_of_nonneg_right this (show 0 ≤ C.u * Real.exp a by positivity)
      linarith
    have h9 : 0 ≤ C.u * Real.exp a := by positivity
    have h10 : 2 * d * Real.exp a = 2 * (k + 66) * (|a| + |y| * e) * C.u * Real.exp a + C.u * Real.exp a / 500 := by
      rw [hd]; ring
    linarith

/-- if the result is at least `e^100.5` -/
theorem expLog_wrong (h : TrigFmt L C t) {x y k : ℝ} {w : FV} (hx : C.Has (.num x)) (h1 : 1 ≤ x) (hy : NearR C w y |y| k)
    (hk0 : 0 ≤ k) (hk : k ≤ 4) (hy2 : |y| ≤ 2 ^ 40) (hb : 100.5 ≤ y * Real.log x) (hb2 : y * Real.log x ≤ 2000) :
    ∃ v r, expLog L C t (.num x) w = some v ∧ Val v r ∧ C.Has v ∧ r < Real.exp (y * Real.log x) / 10 := by
  have hu := u_pos (F := C)
  have hu8 := h.big.u_small
  have hem := h.big.emax
  have hone : (2 : ℝ) ^ (1 - C.emax) ≤ 1 := by
    calc (2 : ℝ) ^ (1 - C.emax) ≤ (2 : ℝ) ^ (0 : ℤ) := zpow_le_zpow_right₀ (by norm_num) (by omega)
      _ = 1 := zpow_zero _
  obtain ⟨l, z, e, l1, z1, z2, e1, e2, e3, z3⟩ := arg_log (t := t) h hx (by linarith) hy hk0 hk hy2
  obtain ⟨a, ha⟩ : ∃ a, a = y * Real.log x := ⟨_, rfl⟩
  rw [← ha] at z3 hb hb2 ⊢
  norm_num at hb
  rw [e3 h1, mul_zero, add_zero, abs_of_pos (show 0 < a by linarith)] at z3
  have hd1 : (k + 66) * C.u * a + C.u / 1000 ≤ 1 / 10000 := by
    have : (k + 66) * C.u * a ≤ 70 * (1 / 9007199254740992) * 2000 :=
      mul_le_mul (mul_le_mul (by linarith) hu8 (le_of_lt hu) (by norm_num)) (by linarith) (by linarith) (by norm_num)
    have h2 : 70 * (1 / 9007199254740992) * 2000 ≤ (1 / 20000 : ℝ) := by norm_num
    linarith
  have h3 := abs_le.1 (le_trans z3 hd1)
  obtain ⟨v, r, v1, v2, v3, v4⟩ := exp_wrong h.big h.tbl z1 z2 (by linarith) (by linarith)
  refine ⟨v, r, ?_, v2, v3, ?_⟩
  · unfold expLog
    rw [l1, Option.bind_some, v1]
  · have h4 := (abs_le.1 (exp_diff (le_trans z3 hd1) (by norm_num))).2
    have h5 := Real.exp_pos a
    linarith

theorem nearR_num {y : ℝ} (hy : C.Has (.num y)) : NearR C (.num y) y |y| 0 := NearR.num hy.1 hy.2.1

theorem third_near (h : TrigFmt L C t) : ∃ z, const L C .third = .num z ∧ C.Has (.num z) ∧ 0 < z ∧
    NearR C (.num z) (1 / 3) |(1 / 3 : ℝ)| 4 := by
  have hu := u_pos (F := C)
  have hu8 := h.big.u_small
  obtain ⟨z, z1, z2, z3⟩ := const_near h .third
  have e : Const.third.real = 1 / 3 := rfl
  rw [e] at z3
  have h4 := abs_le.1 z3
  refine ⟨z, z1, z2, by linarith, NearR.of_err (Val.num z2.1) z2.2.1 (le_refl _) ?_⟩
  rw [abs_of_pos (by norm_num : (0 : ℝ) < 1 / 3)]
  linarith

/-- positive bases -/
theorem pow_pos_num (hs : F.Sub C) {il : FV → Option (Ret ℤ)} {noerr : Bool} {x y : ℝ} (hx : F.Has (.num x)) (hy : F.Has (.num y))
    (h0 : 0 < x) (h1 : x ≠ 1) : pow L F C t il noerr (.num x) (.num y) =
      (expLog L C t (.num x) (.num y)).map fun r => .ret (F.cvt r) := by
  have hx0 := hx.1
  have hy0 := hy.1
  have hlt : ¬ x < 0 := by linarith
  have hm1 : x ≠ -1 := by linarith
  have e1 := (cvt_arg hs hx).1
  have e2 := (cvt_arg hs hy).1
  simp only [pow, MathClass.isnan, eq_num_num, eq_num_zero, eq_num_inf, lt_num_zero, h1, hx0, hy0, hlt, hm1, decide_true, Bool.not_true,
    Bool.false_eq_true, if_false, false_and]
  unfold powGen powImpl
  rw [e1, e2]
  simp only [lt_num_zero, hlt, if_false]
  cases expLog L C t (.num x) (.num y) <;> rfl

/-- negative bases -/
theorem pow_neg_num (hs : F.Sub C) {il : FV → Option (Ret ℤ)} {noerr : Bool} {x : ℝ} (n : ℤ) (hx : F.Has (.num x))
    (hy : F.Has (.num (n : ℝ))) (h0 : x < 0) (hn : |n| ≤ 2 ^ 40)
    (ho : isOdd C C il (.num (n : ℝ)) = some (.ret (decide (∃ m : ℤ, (n : ℝ) = ((2 * m + 1 : ℤ) : ℝ))))) :
    pow L F C t il noerr (.num x) (.num (n : ℝ)) =
      (expLog L C t (.num (-x)) (.num (n : ℝ))).map fun r => .ret (F.cvt (if n % 2 = 1 then r.neg else r)) := by
  have hx0 := hx.1
  have hy0 := hy.1
  have h1 : x ≠ 1 := by linarith
  have e1 := (cvt_arg hs hx).1
  have e2 := (cvt_arg hs hy).1
  have hi := C87_is_integer F noerr (.num (n : ℝ)) hy (by
    simp only [FV.val]
    have : |((n : ℤ) : ℝ)| ≤ 2 ^ 40 := by exact_mod_cast hn
    refine le_trans this (by norm_num))
  have hi' : isInteger F noerr (.num (n : ℝ)) = some (.ret true) := by
    rw [hi]
    simp [isFin, FV.val]
  have ho' : isOdd C C il (.num (n : ℝ)) = some (.ret (decide (n % 2 = 1))) := by
    rw [ho]
    congr 2
    rw [decide_eq_decide]
    constructor
    · rintro ⟨m, hm⟩
      have : n = 2 * m + 1 := by exact_mod_cast hm
      omega
    · intro hm
      exact ⟨n / 2, by exact_mod_cast (by omega : n = 2 * (n / 2) + 1)⟩
  simp only [pow, MathClass.isnan, eq_num_num, eq_num_zero, eq_num_inf, lt_num_zero, h1, hx0, hy0, h0, decide_true, Bool.not_true,
    Bool.false_eq_true, if_false, or_self, and_false, if_true]
  rw [hi', bindRet_ret, if_neg (by simp)]
  unfold powGen powImpl
  rw [e1, e2]
  simp only [lt_num_zero, h0, if_true]
  rw [ho', bindRet_ret]
  have en : (FV.num x).neg = .num (-x) := rfl
  rw [en]
  cases hq : expLog L C t (.num (-x)) (.num (n : ℝ)) with
  | none => by_cases hm : n % 2 = 1 <;> simp [hm] <;> rfl
  | some r => by_cases hm : n % 2 = 1 <;> simp [hm] <;> rfl

end MathPower

end Sprout
