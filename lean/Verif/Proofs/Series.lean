import Verif.Proofs.FloatErr
import Verif.Model.MathExp
import Mathlib.Algebra.BigOperators.Intervals
import Mathlib.Algebra.Order.BigOperators.Group.Finset

/-!
# Approximations and the sums of series

`Near C v a A W`: the value `v` of `C` approximates `a`, where `|a| ≤ A`, with an absolute error of at most `W - A`; so
`W` bounds its absolute value.
-/

namespace Sprout

open Classical FV Fmt

/-- sums have no underflow -/
theorem Fmt.rnd_add_rel {F : Fmt} {a b : ℝ} (ha : Rep F.p F.emin a) (hb : Rep F.p F.emin b) :
    |F.rnd (a + b) - (a + b)| ≤ F.u * |a + b| := by
  by_cases h : (2 : ℝ) ^ (F.emin + F.p - 1) ≤ |a + b|
  · exact rnd_rel h
  · have hr : Rep F.p F.emin (a + b) := by
      obtain ⟨m, e, he, hm, rfl⟩ := ha
      obtain ⟨n, f, hf, hn, rfl⟩ := hb
      have key : ∀ (m e : ℤ), F.emin ≤ e → ∃ k : ℤ, (m : ℝ) * (2 : ℝ) ^ e = k * (2 : ℝ) ^ F.emin := by
        intro m e he
        refine ⟨m * 2 ^ (e - F.emin).toNat, ?_⟩
        push_cast
        rw [mul_assoc, ← zpow_natCast, ← zpow_add₀ (by norm_num), Int.toNat_of_nonneg (by omega)]
        congr 2
        ring
      obtain ⟨k, hk⟩ := key m e he
      obtain ⟨l, hl⟩ := key n f hf
      rw [hk, hl, ← add_mul] at h ⊢
      have hp : (0 : ℝ) < (2 : ℝ) ^ F.emin := by positivity
      refine ⟨k + l, F.emin, le_refl _, ?_, by push_cast; ring⟩
      rw [abs_mul, abs_of_pos hp, not_le, show F.emin + F.p - 1 = (F.p - 1) + F.emin by ring, zpow_add₀ (by norm_num)] at h
      have h2 := lt_of_mul_lt_mul_right h (le_of_lt hp)
      have h3 : (2 : ℝ) ^ ((F.p : ℤ) - 1) ≤ (2 : ℝ) ^ (F.p : ℤ) := zpow_le_zpow_right₀ (by norm_num) (by omega)
      have h4 : |((k + l : ℤ) : ℝ)| < (2 : ℝ) ^ F.p := by
        rw [← zpow_natCast]; push_cast; linarith
      exact_mod_cast h4
    rw [rnd_of_rep hr, sub_self, abs_zero]
    exact mul_nonneg (le_of_lt u_pos) (abs_nonneg _)

def Near (C : Fmt) (v : FV) (a A W : ℝ) : Prop :=
  ∃ r, Val v r ∧ Rep C.p C.emin r ∧ |a| ≤ A ∧ |r - a| ≤ W - A

namespace Near

variable {C : Fmt}

theorem exact {v : FV} {r A : ℝ} (h : Val v r) (hr : Rep C.p C.emin r) (hA : |r| ≤ A) : Near C v r A A :=
  ⟨r, h, hr, hA, by simp⟩

theorem num {r : ℝ} (h0 : r ≠ 0) (hr : Rep C.p C.emin r) : Near C (.num r) r |r| |r| :=
  exact (Val.num h0) hr (le_refl _)

theorem one : Near C (.num 1) 1 1 1 := by
  have := num (C := C) one_ne_zero C.rep_one
  rwa [abs_one] at this

theorem AW {v : FV} {a A W : ℝ} (h : Near C v a A W) : 0 ≤ A ∧ A ≤ W := by
  obtain ⟨r, -, -, h1, h2⟩ := h
  exact ⟨le_trans (abs_nonneg _) h1, by linarith [abs_nonneg (r - a)]⟩

theorem mono {v : FV} {a A W W' : ℝ} (h : Near C v a A W) (hW : W ≤ W') : Near C v a A W' := by
  obtain ⟨r, h0, h1, h2, h3⟩ := h
  exact ⟨r, h0, h1, h2, by linarith⟩

theorem neg {v : FV} {a A W : ℝ} (h : Near C v a A W) : Near C v.neg (-a) A W := by
  obtain ⟨r, h0, h1, h2, h3⟩ := h
  refine ⟨-r, h0.neg, h1.neg, by rwa [abs_neg], ?_⟩
  rw [show -r - -a = -(r - a) by ring, abs_neg]
  exact h3

theorem abs_le {r a A W : ℝ} (h2 : |a| ≤ A) (h3 : |r - a| ≤ W - A) : |r| ≤ W := by
  have := abs_add_le (r - a) a
  rw [sub_add_cancel] at this
  linarith

theorem add {v w : FV} {a b A B V W : ℝ} (h : Near C v a A V) (h' : Near C w b B W)
    (hb : (1 + C.u) * (V + W) ≤ (2 : ℝ) ^ (C.emax - 1)) : Near C (C.add v w) (a + b) (A + B) ((1 + C.u) * (V + W)) := by
  obtain ⟨r, h0, h1, h2, h3⟩ := h
  obtain ⟨s, k0, k1, k2, k3⟩ := h'
  have hu := u_pos (F := C)
  have hr := abs_le h2 h3
  have hs := abs_le k2 k3
  have hrs : |r + s| ≤ V + W := le_trans (abs_add_le _ _) (by linarith)
  have h0' : 0 ≤ V + W := le_trans (abs_nonneg _) hrs
  have he := rnd_add_rel h1 k1
  refine ⟨C.rnd (r + s), add_val h0 k0 (rnd_lt_emax (le_trans hrs (le_trans ?_ hb))), C.rnd_rep _,
    le_trans (abs_add_le _ _) (by linarith), ?_⟩
  · nlinarith
  · have e : C.rnd (r + s) - (a + b) = (C.rnd (r + s) - (r + s)) + ((r - a) + (s - b)) := by ring
    rw [e]
    have h4 := abs_add_le (C.rnd (r + s) - (r + s)) ((r - a) + (s - b))
    have h5 := abs_add_le (r - a) (s - b)
    have h6 := mul_le_mul_of_nonneg_left hrs (le_of_lt hu)
    linarith

theorem mul {v w : FV} {a b A B V W : ℝ} (h : Near C v a A V) (h' : Near C w b B W)
    (hb : (1 + C.u) * (V * W) + (2 : ℝ) ^ C.emin / 2 ≤ (2 : ℝ) ^ (C.emax - 1)) :
    Near C (C.mul v w) (a * b) (A * B) ((1 + C.u) * (V * W) + (2 : ℝ) ^ C.emin / 2) := by
  obtain ⟨⟨hA0, hAV⟩, hB0, hBW⟩ := And.intro h.AW h'.AW
  obtain ⟨r, h0, h1, h2, h3⟩ := h
  obtain ⟨s, k0, k1, k2, k3⟩ := h'
  have hu := u_pos (F := C)
  have hη : (0 : ℝ) < (2 : ℝ) ^ C.emin := by positivity
  have hr := abs_le h2 h3
  have hs := abs_le k2 k3
  have hrs : |r * s| ≤ V * W := by
    rw [abs_mul]
    exact mul_le_mul hr hs (abs_nonneg _) (by linarith)
  have h0' : 0 ≤ V * W := le_trans (abs_nonneg _) hrs
  have he := rnd_err (F := C) (r * s)
  refine ⟨C.rnd (r * s), mul_val h0 k0 (rnd_lt_emax (le_trans hrs (le_trans ?_ hb))), C.rnd_rep _, ?_, ?_⟩
  · nlinarith
  · rw [abs_mul]
    exact mul_le_mul h2 k2 (abs_nonneg _) hA0
  · have e : C.rnd (r * s) - a * b = (C.rnd (r * s) - r * s) + ((r - a) * s + a * (s - b)) := by ring
    rw [e]
    have h4 := abs_add_le (C.rnd (r * s) - r * s) ((r - a) * s + a * (s - b))
    have h5 := abs_add_le ((r - a) * s) (a * (s - b))
    rw [abs_mul, abs_mul] at h5
    have h6 := mul_le_mul_of_nonneg_left hrs (le_of_lt hu)
    have h7 : |r - a| * |s| ≤ (V - A) * W := mul_le_mul h3 hs (abs_nonneg _) (by linarith)
    have h8 : |a| * |s - b| ≤ A * (W - B) := mul_le_mul h2 k3 (abs_nonneg _) hA0
    linarith

/-- quotient by an approximation of a positive number -/
theorem div {v w : FV} {a b A V W : ℝ} (h : Near C v a A V) (h' : Near C w b b W) (hb0 : 0 < b) (hW : W < 2 * b)
    (hb : (1 + C.u) * (V / (2 * b - W)) + (2 : ℝ) ^ C.emin / 2 ≤ (2 : ℝ) ^ (C.emax - 1)) :
    Near C (C.div v w) (a / b) (A / b) ((1 + C.u) * (V / (2 * b - W)) + (2 : ℝ) ^ C.emin / 2) := by
  obtain ⟨⟨hA0, hAV⟩, -, hBW⟩ := And.intro h.AW h'.AW
  obtain ⟨r, h0, h1, h2, h3⟩ := h
  obtain ⟨s, k0, k1, -, k3⟩ := h'
  have hu := u_pos (F := C)
  have hη : (0 : ℝ) < (2 : ℝ) ^ C.emin := by positivity
  have hr := abs_le h2 h3
  have hd : 0 < 2 * b - W := by linarith
  have hs : 2 * b - W ≤ s := by
    have := (_root_.abs_le.1 k3).1
    linarith
  have hs0 : 0 < s := by linarith
  have hi : |1 / s| ≤ 1 / (2 * b - W) := by
    rw [abs_of_pos (by positivity)]
    exact one_div_le_one_div_of_le hd hs
  have hi2 : |1 / s - 1 / b| ≤ 1 / (2 * b - W) - 1 / b := by
    have e1 : 1 / s - 1 / b = (b - s) / (s * b) := by field_simp
    have e2 : 1 / (2 * b - W) - 1 / b = (W - b) / ((2 * b - W) * b) := by field_simp; ring
    rw [e1, e2, abs_div, abs_of_pos (mul_pos hs0 hb0), abs_sub_comm]
    exact div_le_div₀ (by linarith) k3 (by positivity) (mul_le_mul_of_nonneg_right hs (le_of_lt hb0))
  have hrs : |r / s| ≤ V / (2 * b - W) := by
    rw [div_eq_mul_one_div, div_eq_mul_one_div V, abs_mul]
    exact mul_le_mul hr hi (abs_nonneg _) (by linarith)
  have h0' : 0 ≤ V / (2 * b - W) := le_trans (abs_nonneg _) hrs
  have he := rnd_err (F := C) (r / s)
  refine ⟨C.rnd (r / s), div_val h0 k0 (ne_of_gt hs0) (rnd_lt_emax (le_trans hrs (le_trans ?_ hb))), C.rnd_rep _, ?_, ?_⟩
  · nlinarith
  · rw [abs_div, abs_of_pos hb0]
    exact div_le_div_of_nonneg_right h2 (le_of_lt hb0)
  · have e : C.rnd (r / s) - a / b = (C.rnd (r / s) - r / s) + ((r - a) * (1 / s) + a * (1 / s - 1 / b)) := by
      field_simp
      ring
    rw [e]
    have h4 := abs_add_le (C.rnd (r / s) - r / s) ((r - a) * (1 / s) + a * (1 / s - 1 / b))
    have h5 := abs_add_le ((r - a) * (1 / s)) (a * (1 / s - 1 / b))
    rw [abs_mul, abs_mul] at h5
    have h6 := mul_le_mul_of_nonneg_left hrs (le_of_lt hu)
    have h7 : |r - a| * |1 / s| ≤ (V - A) * (1 / (2 * b - W)) := mul_le_mul h3 hi (abs_nonneg _) (by linarith)
    have h8 : |a| * |1 / s - 1 / b| ≤ A * (1 / (2 * b - W) - 1 / b) := mul_le_mul h2 hi2 (abs_nonneg _) hA0
    have e3 : V / (2 * b - W) = V * (1 / (2 * b - W)) := div_eq_mul_one_div _ _
    have e4 : A / b = A * (1 / b) := div_eq_mul_one_div _ _
    rw [e3] at h6 ⊢
    rw [e4]
    nlinarith

end Near

namespace MathExp

variable {C : Fmt}

theorem series_near {term : ℕ → Option FV} {a A W : ℕ → ℝ} (d : ℕ) : ∀ n last : ℕ, n < last → last - n ≤ 2 ^ d →
    (∀ k, n ≤ k → k < last → ∃ v, term k = some v ∧ Near C v (a k) (A k) (W k)) →
    (1 + C.u) ^ d * ∑ k ∈ Finset.Ico n last, W k ≤ (2 : ℝ) ^ (C.emax - 1) →
    ∃ v, series C term n last = some v ∧ Near C v (∑ k ∈ Finset.Ico n last, a k) (∑ k ∈ Finset.Ico n last, A k)
      ((1 + C.u) ^ d * ∑ k ∈ Finset.Ico n last, W k) := by
  have hu := u_pos (F := C)
  induction d with
  | zero =>
    intro n last h1 h2 h3 h4
    have hl : last = n + 1 := by simp at h2; omega
    subst hl
    obtain ⟨v, k1, k2⟩ := h3 n (le_refl _) (by omega)
    refine ⟨v, ?_, ?_⟩
    · rw [series, if_pos (by omega), k1]
    · simpa using k2
  | succ d ih =>
    intro n last h1 h2 h3 h4
    have hW0 : ∀ k ∈ Finset.Ico n last, 0 ≤ W k := by
      intro k hk
      rw [Finset.mem_Ico] at hk
      obtain ⟨v, -, k2⟩ := h3 k hk.1 hk.2
      exact le_trans k2.AW.1 k2.AW.2
    have hS0 := Finset.sum_nonneg hW0
    by_cases hone : last - n = 1
    · have hl : last = n + 1 := by omega
      subst hl
      obtain ⟨v, k1, k2⟩ := h3 n (le_refl _) (by omega)
      refine ⟨v, ?_, ?_⟩
      · rw [series, if_pos hone, k1]
      · have hw := hW0 n (by simp)
        have h5 : (1 : ℝ) ≤ (1 + C.u) ^ (d + 1) := one_le_pow₀ (by linarith)
        have := k2.mono (W' := (1 + C.u) ^ (d + 1) * W n) (by nlinarith)
        simpa using this
    · obtain ⟨m, hm⟩ : ∃ m, m = n + (last - n) / 2 := ⟨_, rfl⟩
      have hp : 2 ^ (d + 1) = 2 * 2 ^ d := by rw [pow_succ]; ring
      have hnm : n < m := by omega
      have hml : m < last := by omega
      have e1 : ∀ f : ℕ → ℝ, ∑ k ∈ Finset.Ico n last, f k = ∑ k ∈ Finset.Ico n m, f k + ∑ k ∈ Finset.Ico m last, f k :=
        fun f => (Finset.sum_Ico_consecutive f (le_of_lt hnm) (le_of_lt hml)).symm
      have hg0 : (0 : ℝ) < (1 + C.u) ^ d := by positivity
      have s1 : 0 ≤ ∑ k ∈ Finset.Ico n m, W k := Finset.sum_nonneg fun k hk => hW0 k (by
        rw [Finset.mem_Ico] at hk ⊢; omega)
      have s2 : 0 ≤ ∑ k ∈ Finset.Ico m last, W k := Finset.sum_nonneg fun k hk => hW0 k (by
        rw [Finset.mem_Ico] at hk ⊢; omega)
      rw [e1 W, pow_succ] at h4
      have g1 := mul_nonneg (le_of_lt hg0) s1
      have g2 := mul_nonneg (le_of_lt hg0) s2
      obtain ⟨v, v1, v2⟩ := ih n m hnm (by omega) (fun k hk hk' => h3 k hk (by omega)) (by nlinarith)
      obtain ⟨w, w1, w2⟩ := ih m last hml (by omega) (fun k hk hk' => h3 k (by omega) hk') (by nlinarith)
      refine ⟨C.add v w, ?_, ?_⟩
      · rw [series, if_neg hone, if_neg (by omega), ← hm, v1, w1]
        rfl
      · rw [e1 W, e1 a, e1 A]
        have := v2.add w2 (by rw [← mul_add]; linarith)
        refine this.mono (le_of_eq ?_)
        rw [pow_succ]
        ring

end MathExp

end Sprout
