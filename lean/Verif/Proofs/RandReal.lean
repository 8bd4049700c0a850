import Verif.Proofs.FloatErr
import Verif.Proofs.MathRound
import Verif.Spec.RandReal

/-! # Lemmas on distributions of real numbers -/

namespace Sprout.RandReal

open Classical FV Fmt

/-- not a number, or not negative -/
def NN : FV → Prop
  | .nan => True
  | .inf s => s = false
  | .zero _ => True
  | .num x => 0 < x

/-- not a number, or positive -/
def PP : FV → Prop
  | .nan => True
  | .inf s => s = false
  | .zero _ => False
  | .num x => 0 < x

theorem NN.of_PP {v : FV} (h : PP v) : NN v := by cases v <;> simp_all [NN, PP]

variable {F : Fmt}

theorem nn_ofReal (s : Bool) {r : ℝ} (h : 0 ≤ r) : NN (F.ofReal s r) := by
  unfold ofReal
  have h0 := F.rnd_nonneg h
  split_ifs with h1 h2
  · trivial
  · exact decide_eq_false (not_lt.2 h)
  · exact lt_of_le_of_ne h0 (Ne.symm h1)

theorem nn_ofInt {n : ℤ} (h : 0 ≤ n) : NN (F.ofInt n) := nn_ofReal _ (by exact_mod_cast h)

theorem nn_mul {v w : FV} (hv : NN v) (hw : NN w) : NN (F.mul v w) := by
  rcases v with _ | s | s | x <;> rcases w with _ | t | t | y <;> simp only [NN] at hv hw <;> simp only [mul]
  all_goals try trivial
  · simp [NN, sgn, hv, hw]
  · simp [NN, sgn, hv, not_lt.2 hw.le]
  · exact nn_ofReal _ (by simp [val])
  · exact nn_ofReal _ (by simp [val])
  · simp [NN, sgn, hw, not_lt.2 hv.le]
  · exact nn_ofReal _ (by simp [val])
  · exact nn_ofReal _ (by simp only [val]; positivity)

theorem nn_div {v w : FV} (hv : NN v) (hw : PP w) : NN (F.div v w) := by
  rcases v with _ | s | s | x <;> rcases w with _ | t | t | y <;> simp only [NN, PP] at hv hw <;> simp only [div]
  all_goals try trivial
  · simp [NN, sgn, hv, not_lt.2 hw.le]
  · exact nn_ofReal _ (by simp [val])
  · exact nn_ofReal _ (by simp only [val]; positivity)

theorem pp_add_one {v : FV} (hv : NN v) : PP (F.add v (.num 1)) := by
  rcases v with _ | s | s | x <;> simp only [NN] at hv
  · trivial
  · exact hv
  · show PP (F.ofReal (decide ((0 : ℝ) + 1 < 0)) (0 + 1))
    rw [zero_add, ofReal_num F.rep_one (by
      rw [abs_one]; exact one_lt_zpow₀ (by norm_num) (by have := F.emax_pos; omega)) one_ne_zero]
    exact one_pos
  · show PP (F.ofReal (decide (x + 1 < 0)) (x + 1))
    have h1 : 1 ≤ F.rnd (x + 1) := le_rnd (by linarith) F.rep_one
    unfold ofReal
    split_ifs with h2 h3
    · rw [h2] at h1; norm_num at h1
    · exact decide_eq_false (by linarith)
    · exact lt_of_lt_of_le one_pos h1

theorem nn_lt {v : FV} {w : FV} {b : ℝ} (hw : Val w b) (hv : NN v) (h : v.lt w) : ∃ x, Val v x ∧ 0 ≤ x ∧ x < b := by
  rcases v with _ | s | s | x
  · simp at h
  · simp only [NN] at hv
    subst hv
    obtain ⟨t, rfl⟩ := hw
    unfold mkv at h
    split_ifs at h <;> simp at h
  · exact ⟨0, Val.zero s, le_rfl, ((Val.zero s).lt_iff hw).1 h⟩
  · simp only [NN] at hv
    exact ⟨x, Val.num (ne_of_gt hv), hv.le, ((Val.num (ne_of_gt hv)).lt_iff hw).1 h⟩

variable {σ : Type} {E : Engine σ}

theorem draw_succ (s : σ) (n : ℕ) : draw E s (n + 1) = draw E (E.gen s).2 n := rfl

theorem uniform01_some (s : σ) (r : FV × σ) (h : uniform01 E F s = some r) :
    ∃ n, (∀ i < n, ¬ (value01 E F (draw E s i)).lt (.num 1)) ∧ (value01 E F (draw E s n)).lt (.num 1)
      ∧ r = (value01 E F (draw E s n), after E s (n + 1)) := by
  refine uniform01.partial_correctness E F (motive := fun s r => ∃ n, (∀ i < n, ¬ (value01 E F (draw E s i)).lt (.num 1))
    ∧ (value01 E F (draw E s n)).lt (.num 1) ∧ r = (value01 E F (draw E s n), after E s (n + 1))) ?_ s r h
  intro f ih s r h
  split_ifs at h with hc
  · exact ⟨0, by simp, hc, (Option.some.inj h).symm⟩
  · obtain ⟨n, h1, h2, h3⟩ := ih _ _ h
    refine ⟨n + 1, fun i hi => ?_, h2, h3⟩
    cases i with
    | zero => exact hc
    | succ i => exact h1 i (by omega)

theorem uniform01_first (s : σ) (n : ℕ) (h1 : ∀ i < n, ¬ (value01 E F (draw E s i)).lt (.num 1))
    (h2 : (value01 E F (draw E s n)).lt (.num 1)) : uniform01 E F s = some (value01 E F (draw E s n), after E s (n + 1)) := by
  induction n generalizing s with
  | zero => rw [uniform01.eq_def, if_pos (show (value01 E F (E.gen s).1).lt (.num 1) from h2)]; rfl
  | succ n ih =>
    rw [uniform01.eq_def, if_neg (show ¬ (value01 E F (E.gen s).1).lt (.num 1) from h1 0 (by omega))]
    exact ih _ (fun i hi => h1 (i + 1) (by omega)) h2

theorem uniformReal_some (a b : FV) (s : σ) (r : FV × σ) (h : uniformReal E F a b s = some r) :
    ∃ n, (∀ i < n, ¬ (valueReal E F a b (draw E s i)).lt b) ∧ (valueReal E F a b (draw E s n)).lt b
      ∧ r = (valueReal E F a b (draw E s n), after E s (n + 1)) := by
  refine uniformReal.partial_correctness E F a b (motive := fun s r => ∃ n, (∀ i < n, ¬ (valueReal E F a b (draw E s i)).lt b)
    ∧ (valueReal E F a b (draw E s n)).lt b ∧ r = (valueReal E F a b (draw E s n), after E s (n + 1))) ?_ s r h
  intro f ih s r h
  split_ifs at h with h0 h0' hc
  · exact ⟨0, by simp, hc, (Option.some.inj h).symm⟩
  · obtain ⟨n, h1, h2, h3⟩ := ih _ _ h
    refine ⟨n + 1, fun i hi => ?_, h2, h3⟩
    cases i with
    | zero => exact hc
    | succ i => exact h1 i (by omega)

/-- an integer rounds to a value not above the rounding of the integer after it, and so on: the asserted order -/
theorem ofInt_le_add_one {m n : ℤ} (h0 : 0 ≤ m) (h : m ≤ n) (hb : (n : ℝ) + 1 < (2 : ℝ) ^ (F.emax - 1)) :
    ∃ x y : ℝ, Val (F.ofInt m) x ∧ Val (F.add (F.ofInt n) (.num 1)) y ∧ x = F.rnd m ∧ y = F.rnd (F.rnd n + 1) ∧ 0 ≤ x ∧ 1 ≤ y ∧ x ≤ y := by
  have h0' : (0 : ℝ) ≤ m := by exact_mod_cast h0
  have hmn : (m : ℝ) ≤ n := by exact_mod_cast h
  have hE : Rep F.p F.emin ((2 : ℝ) ^ (F.emax - 1)) :=
    Rep.two_zpow _ (by have := F.emin_le_zero; have := F.emax_pos; omega) F.one_le_p
  have h2 : (2 : ℝ) ^ F.emax = 2 * (2 : ℝ) ^ (F.emax - 1) := by rw [zpow_sub_one₀ (by norm_num)]; ring
  have h4 : (4 : ℝ) ≤ 2 * (2 : ℝ) ^ (F.emax - 1) := by
    rw [← h2]
    calc (4 : ℝ) = (2 : ℝ) ^ (2 : ℤ) := by norm_num
      _ ≤ _ := zpow_le_zpow_right₀ (by norm_num) (by have := F.emax_pos; omega)
  have hn : F.rnd n ≤ (2 : ℝ) ^ (F.emax - 1) := rnd_le (by linarith) hE
  have hm : F.rnd m ≤ F.rnd n := rnd_mono hmn
  have hm0 : 0 ≤ F.rnd m := rnd_nonneg h0'
  have hmv : Val (F.ofInt m) (F.rnd m) := ofReal_val (by rw [abs_of_nonneg hm0]; linarith)
  have hnv : Val (F.ofInt n) (F.rnd n) := ofReal_val (by rw [abs_of_nonneg (by linarith)]; linarith)
  have h1n : (1 : ℝ) ≤ F.rnd (F.rnd n + 1) := le_rnd (by linarith) F.rep_one
  have hr3 : Rep F.p F.emin (((3 : ℤ) : ℝ) * (2 : ℝ) ^ (F.emax - 2)) :=
    ⟨3, F.emax - 2, by have := F.emin_le_zero; have := F.emax_pos; omega, by
      have := F.two_le_p
      have : (2 : ℤ) ^ 2 ≤ 2 ^ F.p := pow_le_pow_right₀ (by norm_num) this
      rw [abs_of_pos (by norm_num)]; omega, rfl⟩
  have h3 : (2 : ℝ) ^ (F.emax - 1) = 2 * (2 : ℝ) ^ (F.emax - 2) := by
    rw [show F.emax - 1 = (F.emax - 2) + 1 by ring, zpow_add₀ (by norm_num)]; ring
  have h5 : F.rnd (F.rnd n + 1) ≤ ((3 : ℤ) : ℝ) * (2 : ℝ) ^ (F.emax - 2) := by
    refine rnd_le ?_ hr3
    have : (2 : ℝ) ≤ 2 * (2 : ℝ) ^ (F.emax - 2) := by
      rw [← h3]
      calc (2 : ℝ) = (2 : ℝ) ^ (1 : ℤ) := by norm_num
        _ ≤ _ := zpow_le_zpow_right₀ (by norm_num) (by have := F.emax_pos; omega)
    push_cast
    linarith
  have h6 : (0 : ℝ) < (2 : ℝ) ^ (F.emax - 2) := by positivity
  refine ⟨_, _, hmv, add_val hnv (Val.num one_ne_zero) ?_, rfl, rfl, hm0, h1n, le_rnd (by linarith) (F.rnd_rep _)⟩
  rw [abs_of_nonneg (by linarith)]
  push_cast at h5
  linarith

theorem uniformReal_first (hE : E.Ok) (hb : ((E.hi - E.lo : ℤ) : ℝ) + 1 < (2 : ℝ) ^ (F.emax - 1)) (a b : FV) (s : σ) (n : ℕ)
    (h1 : ∀ i < n, ¬ (valueReal E F a b (draw E s i)).lt b) (h2 : (valueReal E F a b (draw E s n)).lt b) :
    uniformReal E F a b s = some (valueReal E F a b (draw E s n), after E s (n + 1)) := by
  have key : ∀ s, (FV.zero false).lt (divisor E F) ∧ ((FV.zero false).le (numerator E F (E.gen s).1)
      ∧ (numerator E F (E.gen s).1).le (divisor E F)) := by
    intro s
    have := hE s
    obtain ⟨x, y, hx, hy, -, -, h0, h1, hxy⟩ := ofInt_le_add_one (F := F) (m := (E.gen s).1 - E.lo) (n := E.hi - E.lo)
      (by omega) (by omega) hb
    exact ⟨((Val.zero false).lt_iff hy).2 (by linarith), ((Val.zero false).le_iff hx).2 h0, (hx.le_iff hy).2 hxy⟩
  induction n generalizing s with
  | zero =>
    rw [uniformReal.eq_def, if_neg (not_not.2 (key s).1), if_neg (not_not.2 (key s).2),
      if_pos (show (valueReal E F a b (E.gen s).1).lt b from h2)]
    rfl
  | succ n ih =>
    rw [uniformReal.eq_def, if_neg (not_not.2 (key s).1), if_neg (not_not.2 (key s).2),
      if_neg (show ¬ (valueReal E F a b (E.gen s).1).lt b from h1 0 (by omega))]
    exact ih _ (fun i hi => h1 (i + 1) (by omega)) h2

theorem nn_sub {v w : FV} {a b : ℝ} (hv : Val v a) (hw : Val w b) (h : b ≤ a) : NN (F.sub v w) := by
  obtain ⟨s, rfl⟩ := hv
  obtain ⟨t, rfl⟩ := hw
  unfold Fmt.sub
  rw [neg_mkv]
  rcases eq_or_ne a 0 with rfl | ha <;> rcases eq_or_ne b 0 with rfl | hb0
  · rw [neg_zero, mkv_zero, mkv_zero]; trivial
  · rw [mkv_zero, mkv_num _ (neg_ne_zero.2 hb0)]; exact nn_ofReal _ (by simp [val]; linarith)
  · rw [neg_zero, mkv_zero, mkv_num _ ha]; exact nn_ofReal _ (by simp [val]; linarith)
  · rw [mkv_num _ ha, mkv_num _ (neg_ne_zero.2 hb0)]; exact nn_ofReal _ (by simp [val]; linarith)

/-- addition of a value that is not negative does not go below -/
theorem add_ge {v a b : FV} {A B : ℝ} (hv : NN v) (ha : Val a A) (hr : Rep F.p F.emin A) (hm : |A| < (2 : ℝ) ^ F.emax)
    (hb : Val b B) (h : (F.add v a).lt b) : ∃ x, Val (F.add v a) x ∧ A ≤ x ∧ x < B := by
  have key : ∀ (s : Bool) (r : ℝ), A ≤ r → (F.ofReal s r).lt b → ∃ x, Val (F.ofReal s r) x ∧ A ≤ x ∧ x < B := by
    intro s r hAr h
    have h1 : A ≤ F.rnd r := le_rnd hAr hr
    by_cases hf : |F.rnd r| < (2 : ℝ) ^ F.emax
    · have hv := ofReal_val (s := s) hf
      exact ⟨_, hv, h1, (hv.lt_iff hb).1 h⟩
    · exfalso
      have hpos : (0 : ℝ) < (2 : ℝ) ^ F.emax := by positivity
      have h2 : 0 ≤ r := by
        by_contra hc
        have h3 : F.rnd r ≤ 0 := rnd_le (by linarith) Rep.zero
        rw [abs_of_nonpos h3] at hf
        have := (abs_lt.1 hm).1
        linarith
      unfold ofReal at h
      rw [if_neg, if_pos (not_lt.1 hf), decide_eq_false (not_lt.2 h2)] at h
      · obtain ⟨t, rfl⟩ := hb
        unfold mkv at h
        split_ifs at h <;> simp at h
      · intro hc
        rw [hc, abs_zero] at hf
        exact hf hpos
  obtain ⟨t, rfl⟩ := ha
  rcases v with _ | s | s | x
  · simp [add] at h
  · simp only [NN] at hv
    subst hv
    obtain ⟨t', rfl⟩ := hb
    exfalso
    unfold mkv at h
    split_ifs at h <;> simp [add] at h
  · rcases eq_or_ne A 0 with rfl | hA
    · rw [mkv_zero] at h ⊢
      exact ⟨0, Val.zero _, le_rfl, ((Val.zero _).lt_iff hb).1 h⟩
    · rw [mkv_num _ hA] at h ⊢
      exact key _ _ (by simp [val]) h
  · simp only [NN] at hv
    rcases eq_or_ne A 0 with rfl | hA
    · rw [mkv_zero] at h ⊢
      exact key _ _ (by simp [val]; linarith) h
    · rw [mkv_num _ hA] at h ⊢
      exact key _ _ (by simp [val]; linarith) h

/-- the greatest value below 1 -/
theorem rep_lt_one {y : ℝ} (hr : Rep F.p F.emin y) (h : y < 1) : y ≤ 1 - F.u := by
  obtain ⟨m, e, -, hm, rfl⟩ := hr
  have hu := F.u_le
  have hu0 := F.u_pos
  unfold u at *
  rcases le_or_gt (-(F.p : ℤ)) e with he | he
  · obtain ⟨k, hk⟩ := Int.le.dest he
    have hpp : (2 : ℝ) ^ (-(F.p : ℤ)) * 2 ^ F.p = 1 := by
      rw [zpow_neg, zpow_natCast]; exact inv_mul_cancel₀ (by positivity)
    have h2 : (2 : ℝ) ^ e = 2 ^ k * (2 : ℝ) ^ (-(F.p : ℤ)) := by
      rw [← hk, zpow_add₀ (by norm_num), zpow_natCast]; ring
    rw [h2] at h ⊢
    have h3 : (m : ℝ) * 2 ^ k < 2 ^ F.p := by
      have : (m : ℝ) * 2 ^ k * (2 : ℝ) ^ (-(F.p : ℤ)) < 2 ^ F.p * (2 : ℝ) ^ (-(F.p : ℤ)) := by
        rw [mul_comm (2 ^ F.p : ℝ), hpp]; linarith
      exact lt_of_mul_lt_mul_right this hu0.le
    have h4 : m * 2 ^ k + 1 ≤ 2 ^ F.p := by exact_mod_cast h3
    have h5 : (m : ℝ) * 2 ^ k + 1 ≤ 2 ^ F.p := by exact_mod_cast h4
    nlinarith
  · have h1 : (m : ℝ) ≤ 2 ^ F.p := by
      have : m ≤ 2 ^ F.p := by have := (abs_lt.1 hm).2; omega
      exact_mod_cast this
    have h2 : (2 : ℝ) ^ e ≤ (2 : ℝ) ^ (-(F.p : ℤ) - 1) := zpow_le_zpow_right₀ (by norm_num) (by omega)
    have h3 : (m : ℝ) * (2 : ℝ) ^ e ≤ 2 ^ F.p * (2 : ℝ) ^ (-(F.p : ℤ) - 1) := by
      calc (m : ℝ) * (2 : ℝ) ^ e ≤ 2 ^ F.p * (2 : ℝ) ^ e := mul_le_mul_of_nonneg_right h1 (by positivity)
        _ ≤ _ := mul_le_mul_of_nonneg_left h2 (by positivity)
    have h4 : (2 : ℝ) ^ F.p * (2 : ℝ) ^ (-(F.p : ℤ) - 1) = 1 / 2 := by
      rw [zpow_sub_one₀ (by norm_num), zpow_neg, zpow_natCast]
      field_simp
    linarith

/-- numbers near below 1 round to it -/
theorem rnd_near_one {q : ℝ} (h0 : 0 < q) (h : q < F.u / 2) : F.rnd (1 - q) = 1 := by
  have h1 : F.rnd (1 - q) ≤ 1 := rnd_le (by linarith) F.rep_one
  have h2 := F.rnd_near (1 - q) 1 F.rep_one
  rw [show (1 : ℝ) - (1 - q) = q by ring, abs_of_pos h0] at h2
  have h3 := (abs_le.1 h2).1
  by_contra hc
  have := rep_lt_one (F.rnd_rep (1 - q)) (lt_of_le_of_ne h1 hc)
  linarith

end Sprout.RandReal
