import Verif.Proofs.MathConst

/-!
# C95: mathematical constants
-/

namespace Sprout

open FV Fmt MathConst

/-- The literals agree with the constants to 110 decimal places. -/
theorem C95_literals (c : Const) : |(c.lit : ℝ) - c.real| ≤ 1 / 10 ^ 110 := lit_near c

/-- In a format `F` of at least eight bits, a constant has a relative error of half an epsilon of `F` plus one epsilon of
`long double`, up to the error of the literal. -/
theorem C95_constants (L F : Fmt) (hs : F.Sub L) (hp : 8 ≤ F.p) (c : Const) :
    ∃ r, const L F c = .num r ∧ F.Has (.num r) ∧
      |r - c.real| ≤ ((2 : ℝ) ^ (-(F.p : ℤ)) + 2 * (2 : ℝ) ^ (-(L.p : ℤ))) * c.real + 1 / 10 ^ 109 := by
  obtain ⟨l1, l2⟩ := lit_range c
  have l1' : (1 / 4 : ℝ) ≤ c.lit := by
    have := (Rat.cast_le (K := ℝ)).2 l1
    push_cast at this
    exact this
  have l2' : (c.lit : ℝ) ≤ 13 := by exact_mod_cast l2
  have hL8 : 8 ≤ L.p := le_trans hp hs.1
  have near : ∀ G : Fmt, 8 ≤ G.p → ∀ x : ℝ, 1 / 8 ≤ x → x ≤ 16 →
      |G.rnd x - x| ≤ G.u * x ∧ |G.rnd x| < (2 : ℝ) ^ G.emax ∧ G.u ≤ 1 / 256 := by
    intro G hG x h1 h2
    have ha : |x| = x := abs_of_nonneg (by linarith)
    have := G.emin_le
    have := G.p_lt_emax
    refine ⟨?_, rnd_lt_emax ?_, ?_⟩
    · have h3 := rnd_rel (F := G) (x := x) (by
        rw [ha]
        refine le_trans (zpow_le_zpow_right₀ (by norm_num) (by omega : G.emin + G.p - 1 ≤ -3)) ?_
        norm_num
        linarith)
      rwa [ha] at h3
    · rw [ha]
      have h3 : (2 : ℝ) ^ (4 : ℤ) ≤ (2 : ℝ) ^ (G.emax - 1) := zpow_le_zpow_right₀ (by norm_num) (by omega)
      norm_num at h3
      linarith
    · unfold u
      have h3 : (2 : ℝ) ^ (-(G.p : ℤ)) ≤ (2 : ℝ) ^ (-8 : ℤ) := zpow_le_zpow_right₀ (by norm_num) (by omega)
      norm_num at h3 ⊢
      linarith
  obtain ⟨n1, n2, n3⟩ := near L hL8 c.lit (by linarith) (by linarith)
  have hu := u_pos (F := L)
  have hu' := u_pos (F := F)
  have n1' := abs_le.1 n1
  have k1 : L.u * c.lit ≤ 1 / 256 * c.lit := mul_le_mul_of_nonneg_right n3 (by linarith)
  obtain ⟨m1, m2, m3⟩ := near F hp (L.rnd c.lit) (by linarith) (by linarith)
  have hv := cvt_val (F := F) (ofReal_val (F := L) (s := false) n2) m2
  have m1' := abs_le.1 m1
  have k2 : F.u * L.rnd c.lit ≤ 1 / 256 * L.rnd c.lit := mul_le_mul_of_nonneg_right m3 (by linarith)
  have h0 : F.rnd (L.rnd c.lit) ≠ 0 := by
    intro h
    rw [h] at m1'
    linarith
  refine ⟨_, hv.eq_num h0, ⟨h0, F.rnd_rep _, m2⟩, ?_⟩
  have hc := lit_near c
  have hc' := abs_le.1 hc
  have e : F.rnd (L.rnd c.lit) - c.real = (F.rnd (L.rnd c.lit) - L.rnd c.lit) + ((L.rnd c.lit - c.lit) + (c.lit - c.real)) := by ring
  rw [e]
  have h1 := abs_add_le (F.rnd (L.rnd c.lit) - L.rnd c.lit) ((L.rnd c.lit - c.lit) + (c.lit - c.real))
  have h2 := abs_add_le (L.rnd c.lit - c.lit) ((c.lit : ℝ) - c.real)
  have h3 : F.u * L.rnd c.lit ≤ F.u * (c.lit + L.u * c.lit) := mul_le_mul_of_nonneg_left (by linarith) (le_of_lt hu')
  have h4 : F.u * (L.u * c.lit) ≤ 1 / 256 * (L.u * c.lit) := mul_le_mul_of_nonneg_right m3 (by positivity)
  have h5 : F.u * c.lit ≤ F.u * (c.real + 1 / 10 ^ 110) := mul_le_mul_of_nonneg_left (by linarith) (le_of_lt hu')
  have h6 : L.u * c.lit ≤ L.u * (c.real + 1 / 10 ^ 110) := mul_le_mul_of_nonneg_left (by linarith) (le_of_lt hu)
  have h7 : F.u * (1 / 10 ^ 110 : ℝ) ≤ 1 / 256 * (1 / 10 ^ 110) := mul_le_mul_of_nonneg_right m3 (by positivity)
  have h8 : L.u * (1 / 10 ^ 110 : ℝ) ≤ 1 / 256 * (1 / 10 ^ 110) := mul_le_mul_of_nonneg_right n3 (by positivity)
  have h9 : (1 / 10 ^ 109 : ℝ) = 10 * (1 / 10 ^ 110) := by norm_num
  have h10 : (0 : ℝ) < 1 / 10 ^ 110 := by positivity
  have h11 : 0 ≤ L.u * c.real := mul_nonneg (le_of_lt hu) (by
    have : (1 / 10 ^ 110 : ℝ) ≤ 1 / 8 := by norm_num
    linarith)
  rw [h9]
  show _ ≤ (F.u + 2 * L.u) * c.real + 10 * (1 / 10 ^ 110)
  generalize (1 / 10 ^ 110 : ℝ) = ε at *
  nlinarith

/-- π of `float` from an extended `long double` -/
example : ∃ r, const extended Fmt.float .pi = .num r ∧ |r - Real.pi| ≤ (2 : ℝ) ^ (-22 : ℤ) := by
  obtain ⟨r, h1, -, h2⟩ := C95_constants extended Fmt.float (by simp [Fmt.Sub, Fmt.float, extended, ieee]) (by decide) .pi
  refine ⟨r, h1, le_trans h2 ?_⟩
  have := Real.pi_lt_d2
  simp only [Fmt.float, extended, ieee, Const.real]
  norm_num at this ⊢
  linarith

/-- a wrong digit is noticed -/
example : ¬ |((Const.pi.lit + 1 / 10 ^ 109 : ℚ) : ℝ) - Real.pi| ≤ 1 / 10 ^ 110 := by
  have h := abs_le.1 (C95_literals .pi)
  intro h2
  have h2 := abs_le.1 h2
  simp only [Const.real] at h
  push_cast at h2
  have h9 : (1 / 10 ^ 109 : ℝ) = 10 * (1 / 10 ^ 110) := by norm_num
  have h10 : (0 : ℝ) < 1 / 10 ^ 110 := by positivity
  rw [h9] at h2
  linarith [h.1, h2.2]

end Sprout
