import Verif.Proofs.MathSqrt

/-! # Square roots in a type of less than half the precision of the computation -/

namespace Sprout

open Classical FV Fmt

namespace MathSqrt

variable {F C : Fmt}

theorem sqrt_num (hs : F.Sub C) {x : ℝ} (hx0 : 0 < x) (hx : F.Has (.num x)) :
    sqrt F C (.num x) = (sqrtImpl C (.num x)).map F.cvt := by
  have h0 := ne_of_gt hx0
  unfold sqrt
  simp only [MathClass.isnan, eq_num_num, eq_num_zero, eq_num_inf, lt_num_zero, h0, decide_true, Bool.not_true,
    Bool.false_eq_true, if_false, if_neg (not_lt.2 (le_of_lt hx0))]
  rw [cvt_num (hs.rep hx.2.1) (hs.lt hx.2.2) h0]

theorem sqrt_inv (w : C.Wide) {x : ℝ} (hx0 : 0 < x) (hx : C.Has (.num x)) :
    ∃ v r, sqrtImpl C (.num x) = some v ∧ Val v r ∧ Rep C.p C.emin r ∧ |r - Real.sqrt x| ≤ 2 * C.u * Real.sqrt x := by
  obtain ⟨v, r, h1, h2, h3, h4, h5, -, -⟩ := sqrtImpl_inv (P := fun _ => True) w hx0 hx.2.1 hx.2.2 (.inl trivial) (.inl trivial)
    (fun _ => trivial) (fun _ _ _ _ => trivial)
  refine ⟨v, r, h1, h2, h3, ?_⟩
  rw [abs_le]
  constructor <;> linarith

/-- no middle of two adjacent values is as near to the root of a value -/
theorem mid_far (hp : 2 * F.p + 5 ≤ C.p) (hF8 : 8 ≤ F.p) {x y r : ℝ} (hx : F.Has (.num x)) (hy0 : 0 < y) (hyy : x = y * y)
    (hu : 0 < C.u) (hu8 : C.u ≤ 1 / 256) {L : ℤ} (l1 : (2 : ℝ) ^ L ≤ y) (l2 : y < (2 : ℝ) ^ (L + 1))
    (hLmin : F.emin + F.p < L + 1) (hr1 : |r - y| ≤ 2 * C.u * y) {a b y' r' : ℝ} :
    F.rnd y' = a → F.rnd r' = b → (2 : ℝ) ^ L ≤ a → (2 : ℝ) ^ L ≤ b → y' < r' → a ≠ b →
      (y' = y ∧ r' = r ∨ y' = r ∧ r' = y) → False := by
  intro ha hb haL hbL hlt hab hcase
  have hab' : a < b := lt_of_le_of_ne (by rw [← ha, ← hb]; exact rnd_mono (le_of_lt hlt)) hab
  have repa : Rep F.p F.emin a := by rw [← ha]; exact F.rnd_rep _
  have repb : Rep F.p F.emin b := by rw [← hb]; exact F.rnd_rep _
  have m1 : y' ≤ (a + b) / 2 := by
    have hn := F.rnd_near y' b repb
    rw [ha] at hn
    by_contra hc
    have h5 := le_abs_self (y' - a)
    rw [abs_sub_comm] at hn
    rcases le_or_gt b y' with h6 | h6
    · rw [abs_of_nonneg (by linarith), abs_of_nonpos (by linarith)] at hn; linarith
    · rw [abs_of_nonneg (by linarith), abs_of_nonneg (by linarith)] at hn; linarith
  have m2 : (a + b) / 2 ≤ r' := by
    have hn := F.rnd_near r' a repa
    rw [hb] at hn
    by_contra hc
    rcases le_or_gt a r' with h6 | h6
    · rw [abs_of_nonneg (by linarith), abs_of_nonpos (by linarith)] at hn; linarith
    · rw [abs_of_nonneg (by linarith), abs_of_nonneg (by linarith)] at hn; linarith
  obtain ⟨i, hi⟩ := repa.grid' (e := L + 1 - F.p) (by rw [show (F.p : ℤ) - 1 + (L + 1 - F.p) = L by ring]; exact haL)
  obtain ⟨j, hj⟩ := repb.grid' (e := L + 1 - F.p) (by rw [show (F.p : ℤ) - 1 + (L + 1 - F.p) = L by ring]; exact hbL)
  have eL : (2 : ℝ) ^ (L + 1 - (F.p : ℤ)) = 2 * (2 : ℝ) ^ (L - (F.p : ℤ)) := by
    rw [show L + 1 - (F.p : ℤ) = (L - (F.p : ℤ)) + 1 by ring, zpow_add_one₀ (by norm_num)]; ring
  have hμ : (a + b) / 2 = ((i + j : ℤ) : ℝ) * (2 : ℝ) ^ (L - (F.p : ℤ)) := by
    rw [hi, hj, eL]; push_cast; ring
  obtain ⟨μ, hμdef⟩ : ∃ μ, μ = (a + b) / 2 := ⟨_, rfl⟩
  rw [← hμdef] at hμ m1 m2
  obtain ⟨g, hg⟩ : ∃ g, g = (2 : ℝ) ^ (L - (F.p : ℤ)) := ⟨_, rfl⟩
  rw [← hg] at hμ eL
  have hg0 : 0 < g := by rw [hg]; positivity
  have hge : (2 : ℝ) ^ (2 * L) ≤ x := by
    rw [hyy, two_mul, zpow_add₀ (by norm_num)]
    exact mul_le_mul l1 l1 (by positivity) (le_of_lt hy0)
  obtain ⟨M, hM⟩ := hx.2.1.grid' (e := 2 * L + 1 - F.p) (by
    rw [show (F.p : ℤ) - 1 + (2 * L + 1 - F.p) = 2 * L by ring]; exact hge)
  have hM' : x = ((M * 2 ^ (F.p + 1) : ℤ) : ℝ) * (g * g) := by
    rw [hM, hg, ← zpow_add₀ (by norm_num)]
    push_cast
    rw [mul_assoc, ← zpow_natCast, ← zpow_add₀ (by norm_num)]
    congr 2
    push_cast
    ring
  -- the middle is near the root
  have hyμ : |y - μ| ≤ 2 * C.u * y := by
    rcases hcase with ⟨rfl, rfl⟩ | ⟨rfl, rfl⟩
    · rw [abs_le] at hr1 ⊢
      constructor <;> linarith [hr1.1, hr1.2]
    · rw [abs_le] at hr1 ⊢
      constructor <;> linarith [hr1.1, hr1.2]
  by_cases hN : (i + j) * (i + j) = M * 2 ^ (F.p + 1)
  · -- the root is the middle
    have hxμ : y = μ := by
      have h5 : x = μ * μ := by
        rw [hM', ← hN, hμ]; push_cast; ring
      have hμ0 : 0 ≤ μ := by
        rw [abs_le] at hyμ
        nlinarith [hyμ.2]
      rw [hyy] at h5
      exact (mul_self_inj_of_nonneg (le_of_lt hy0) hμ0).1 h5
    have h2 : (2 : ℤ) ∣ i + j := by
      have h5 : (2 : ℤ) ∣ (i + j) * (i + j) := by
        rw [hN, pow_succ]
        exact ⟨M * 2 ^ F.p, by ring⟩
      exact (Int.prime_two.dvd_mul.1 h5).elim id id
    obtain ⟨n, hn⟩ := h2
    have hrepμ : Rep F.p F.emin y := by
      have h5 : y = (n : ℝ) * (2 : ℝ) ^ (L + 1 - (F.p : ℤ)) := by
        rw [hxμ, hμ, hn, eL]; push_cast; ring
      refine ⟨n, L + 1 - F.p, by omega, ?_, h5⟩
      have hpe : (0 : ℝ) < (2 : ℝ) ^ (L + 1 - (F.p : ℤ)) := by positivity
      have e5 : (2 : ℝ) ^ (L + 1) = (2 : ℝ) ^ F.p * (2 : ℝ) ^ (L + 1 - (F.p : ℤ)) := by
        rw [← zpow_natCast, ← zpow_add₀ (by norm_num)]
        congr 1
        ring
      have h6 : (0 : ℝ) < n := by
        by_contra hc
        have := mul_nonneg (sub_nonneg.2 (not_lt.1 hc)) (le_of_lt hpe)
        nlinarith
      have h7 : (n : ℝ) < 2 ^ F.p := by
        rw [h5, e5] at l2
        exact lt_of_mul_lt_mul_right l2 (le_of_lt hpe)
      have h6' : 0 < n := by exact_mod_cast h6
      rw [abs_of_pos h6']
      exact_mod_cast h7
    have hrn := rnd_of_rep hrepμ
    rcases hcase with ⟨rfl, rfl⟩ | ⟨rfl, rfl⟩
    · rw [hrn] at ha; linarith [hμdef]
    · rw [hrn] at hb; linarith [hμdef]
  · have hne : (1 : ℝ) ≤ |(((i + j) * (i + j) - M * 2 ^ (F.p + 1) : ℤ) : ℝ)| := by
      rw [← Int.cast_abs]
      have h5 : (1 : ℤ) ≤ |(i + j) * (i + j) - M * 2 ^ (F.p + 1)| := Int.one_le_abs (sub_ne_zero.2 hN)
      exact_mod_cast h5
    have hd : μ * μ - y * y = (((i + j) * (i + j) - M * 2 ^ (F.p + 1) : ℤ) : ℝ) * (g * g) := by
      rw [← hyy, hM', hμ]; push_cast; ring
    have h5 : g * g ≤ |μ * μ - y * y| := by
      rw [hd, abs_mul, abs_of_pos (mul_pos hg0 hg0)]
      exact le_mul_of_one_le_left (le_of_lt (mul_pos hg0 hg0)) hne
    have h6 : |μ * μ - y * y| = |y - μ| * |μ + y| := by
      rw [← abs_mul, ← abs_neg]
      congr 1
      ring
    have h7 : |μ + y| ≤ 3 * y := by
      rw [abs_le] at hyμ ⊢
      have h6 := mul_le_mul_of_nonneg_right hu8 (le_of_lt hy0)
      constructor <;> linarith [hyμ.1, hyμ.2]
    have h8 : g * g ≤ 6 * C.u * (y * y) := by
      rw [h6] at h5
      have h8 := mul_le_mul hyμ h7 (abs_nonneg _) (mul_nonneg (by linarith) (le_of_lt hy0))
      calc _ ≤ _ := h5
        _ ≤ _ := h8
        _ = _ := by ring
    have h9 : y * y < 4 * (2 : ℝ) ^ (2 * L) := by
      have : (2 : ℝ) ^ (L + 1) * (2 : ℝ) ^ (L + 1) = 4 * (2 : ℝ) ^ (2 * L) := by
        rw [two_mul, zpow_add₀ (by norm_num), zpow_add₀ (by norm_num), zpow_one]; ring
      rw [← this]
      exact mul_lt_mul'' l2 l2 (le_of_lt hy0) (le_of_lt hy0)
    have h10 : g * g = (2 : ℝ) ^ (2 * L) * (F.u * F.u) := by
      rw [hg]
      unfold u
      simp only [← zpow_add₀ (show (2 : ℝ) ≠ 0 by norm_num)]
      congr 1
      ring
    have h11 : 32 * C.u ≤ F.u * F.u := by
      unfold u
      rw [show (32 : ℝ) = (2 : ℝ) ^ (5 : ℤ) by norm_num]
      simp only [← zpow_add₀ (show (2 : ℝ) ≠ 0 by norm_num)]
      exact zpow_le_zpow_right₀ (by norm_num) (by omega)
    have hp2 : (0 : ℝ) < (2 : ℝ) ^ (2 * L) := by positivity
    have h12 := mul_le_mul_of_nonneg_left h11 (le_of_lt hp2)
    have h13 := mul_lt_mul_of_pos_left h9 (show 0 < 6 * C.u by linarith)
    have h14 := mul_pos hp2 hu
    rw [h10] at h8
    linarith

theorem sqrt_float (hs : F.Sub C) (w : C.Wide) (hF : F.Wide) (hp : 2 * F.p + 5 ≤ C.p) {x : ℝ} (hx0 : 0 < x)
    (hx : F.Has (.num x)) : sqrt F C (.num x) = some (.num (F.rnd (Real.sqrt x))) := by
  have hxC : C.Has (.num x) := ⟨hx.1, hs.rep hx.2.1, hs.lt hx.2.2⟩
  obtain ⟨v, r, h1, h2, h3, h4⟩ := sqrt_inv w hx0 hxC
  rw [sqrt_num hs hx0 hx, h1, Option.map_some]
  congr 1
  have HF := Root.mk' hF hx0 hx.2.1 hx.2.2
  set y := Real.sqrt x with hy
  have hy0 : 0 < y := HF.pos
  have hyy : x = y * y := HF.sq
  have hu8 := u_small w
  have hu := u_pos (F := C)
  have hF8 := hF.p8
  -- the binade of the root
  obtain ⟨l1, l2⟩ := abs_lt_two_zpow_log (ne_of_gt hy0)
  rw [abs_of_pos hy0] at l1 l2
  set L := Int.log 2 y
  have hLmin : F.emin + F.p < L + 1 := by
    have h5 : (2 : ℝ) ^ (F.emin + F.p) < (2 : ℝ) ^ (L + 1) := by
      refine lt_of_le_of_lt HF.normal (lt_of_le_of_lt ?_ l2)
      have := HF.u_le
      nlinarith
    exact (zpow_lt_zpow_iff_right₀ (by norm_num : (1 : ℝ) < 2)).1 h5
  have hLrep : Rep F.p F.emin ((2 : ℝ) ^ L) := Rep.two_zpow _ (by omega) F.one_le_p
  -- the computed root is as well in this binade
  have hr1 : |r - y| ≤ 2 * C.u * y := h4
  have hrL : (2 : ℝ) ^ L ≤ F.rnd r := by
    by_cases hc : (2 : ℝ) ^ L ≤ r
    · exact le_rnd hc hLrep
    · -- the root is between, and near, the power of two
      exfalso
      have hrepC : Rep C.p C.emin ((2 : ℝ) ^ L) := hs.rep hLrep
      have hp0 : (0 : ℝ) < (2 : ℝ) ^ L := by positivity
      have hlt : y < (2 : ℝ) ^ L * (1 + 3 * C.u) := by
        rw [abs_le] at hr1
        have h5 : y * (1 - 2 * C.u) < (2 : ℝ) ^ L := by linarith [hr1.1, not_le.1 hc]
        have h6 : (1 : ℝ) ≤ (1 + 3 * C.u) * (1 - 2 * C.u) := by nlinarith
        have h7 := mul_lt_mul_of_pos_right h5 (show 0 < 1 + 3 * C.u by linarith)
        have h8 := mul_le_mul_of_nonneg_left h6 (le_of_lt hy0)
        nlinarith
      -- but the argument is the square of the power or its successor
      have hge : (2 : ℝ) ^ (2 * L) ≤ x := by
        rw [hyy, two_mul, zpow_add₀ (by norm_num)]
        exact mul_le_mul l1 l1 (le_of_lt hp0) (le_of_lt hy0)
      have hgrid : (2 : ℝ) ^ (2 * L) ≠ x → (2 : ℝ) ^ (2 * L) * (1 + 2 * F.u) ≤ x := by
        intro hne
        obtain ⟨b, hb⟩ := hx.2.1.grid' (e := 2 * L + 1 - F.p) (by
          rw [show (F.p : ℤ) - 1 + (2 * L + 1 - F.p) = 2 * L by ring]; exact hge)
        have e2 : (2 : ℝ) ^ (2 * L) = (2 : ℝ) ^ (F.p - 1) * (2 : ℝ) ^ (2 * L + 1 - (F.p : ℤ)) := by
          rw [← zpow_natCast, Nat.cast_sub (by omega), ← zpow_add₀ (by norm_num)]
          congr 1
          push_cast
          ring
        have hpe : (0 : ℝ) < (2 : ℝ) ^ (2 * L + 1 - (F.p : ℤ)) := by positivity
        have h5 : (2 : ℝ) ^ (F.p - 1) < b := by
          have : (2 : ℝ) ^ (2 * L) < x := lt_of_le_of_ne hge hne
          rw [hb, e2] at this
          exact lt_of_mul_lt_mul_right this (le_of_lt hpe)
        have h6 : (2 : ℤ) ^ (F.p - 1) < b := by exact_mod_cast h5
        have h7 : (2 : ℝ) ^ (F.p - 1) + 1 ≤ b := by exact_mod_cast h6
        have e3 : (2 : ℝ) ^ (2 * L) * (2 * F.u) = (2 : ℝ) ^ (2 * L + 1 - (F.p : ℤ)) := by
          unfold u
          rw [sub_eq_add_neg, zpow_add₀ (by norm_num), zpow_add₀ (by norm_num), zpow_one]
          ring
        rw [mul_add, mul_one, e3, hb]
        nth_rewrite 1 [e2]
        nlinarith
      by_cases hsq : (2 : ℝ) ^ (2 * L) = x
      · -- exact root
        have hyL : y = (2 : ℝ) ^ L := by
          rw [hy, ← hsq, two_mul, zpow_add₀ (by norm_num), Real.sqrt_mul_self (le_of_lt hp0)]
        obtain ⟨v', r', a1, a2, a3, a4, a5, a6, a7⟩ := sqrtImpl_inv (P := fun s => (2 : ℝ) ^ L ≤ s) w hx0 hxC.2.1 hxC.2.2
          (by
            rcases le_or_gt x 1 with h | h
            · exact .inr h
            · left
              rw [← hyL]
              rw [hyy] at h ⊢
              have : 1 < y := by nlinarith
              nlinarith)
          (by
            rcases le_or_gt x 1 with h | h
            · left
              rw [← hyL]
              rw [hyy] at h
              nlinarith
            · exact .inr h)
          (by
            intro h
            rw [← hyL]
            rw [hyy] at h ⊢
            have : 2 ≤ y := by nlinarith
            nlinarith)
          (by
            intro s hs0 hsr hP
            refine stepR_square w hrepC (by rw [← hyL]; exact hyy) ?_ hP
            have := (Root.mk' w hx0 hxC.2.1 hxC.2.2).normal
            rw [← hyL]
            nlinarith)
        rw [a1] at h1
        obtain rfl := Option.some.inj h1
        have := a2.unique h2
        subst this
        exact hc a6
      · have h5 := hgrid hsq
        have hFC : 32 * C.u ≤ F.u := by
          unfold u
          rw [show (32 : ℝ) = (2 : ℝ) ^ (5 : ℤ) by norm_num, ← zpow_add₀ (by norm_num)]
          exact zpow_le_zpow_right₀ (by norm_num) (by omega)
        have h6 : x < (2 : ℝ) ^ (2 * L) * ((1 + 3 * C.u) * (1 + 3 * C.u)) := by
          rw [hyy, two_mul, zpow_add₀ (by norm_num)]
          have := mul_lt_mul'' hlt hlt (le_of_lt hy0) (le_of_lt hy0)
          linarith
        have hp2 : (0 : ℝ) < (2 : ℝ) ^ (2 * L) := by positivity
        have h7 := lt_of_mul_lt_mul_left (lt_of_le_of_lt h5 h6) (le_of_lt hp2)
        nlinarith
  have hyL : (2 : ℝ) ^ L ≤ F.rnd y := le_rnd l1 hLrep
  have key : ∀ a b y' r' : ℝ, F.rnd y' = a → F.rnd r' = b → (2 : ℝ) ^ L ≤ a → (2 : ℝ) ^ L ≤ b → y' < r' → a ≠ b →
      (y' = y ∧ r' = r ∨ y' = r ∧ r' = y) → False :=
    fun a b y' r' => mid_far hp hF8 hx hy0 hyy hu hu8 l1 l2 hLmin hr1
  have heq : F.rnd r = F.rnd y := by
    by_contra hne
    rcases lt_trichotomy y r with h | h | h
    · exact key _ _ y r rfl rfl hyL hrL h (Ne.symm hne) (.inl ⟨rfl, rfl⟩)
    · rw [h] at hne; exact hne rfl
    · exact key _ _ r y rfl rfl hrL hyL h hne (.inr ⟨rfl, rfl⟩)
  have hpos : 0 < F.rnd y := lt_of_lt_of_le (by positivity) hyL
  have hlt : |F.rnd r| < (2 : ℝ) ^ F.emax := by
    rw [heq]
    apply rnd_lt_emax
    rw [abs_of_pos hy0]
    have hE := hF.emax
    apply le_of_sq_le_sq _ (by positivity)
    have h4 : (4 : ℝ) ≤ (2 : ℝ) ^ F.emax := by
      calc (4 : ℝ) = (2 : ℝ) ^ (2 : ℤ) := by norm_num
        _ ≤ _ := zpow_le_zpow_right₀ (by norm_num) (by omega)
    have e4 : (2 : ℝ) ^ F.emax = 2 * (2 : ℝ) ^ (F.emax - 1) := by
      rw [show F.emax = (F.emax - 1) + 1 by ring, zpow_add_one₀ (by norm_num)]; ring_nf
    have h5 := HF.max
    rw [hyy, e4] at h5
    rw [e4] at h4
    nlinarith
  have hcv := cvt_val (F := F) h2 hlt
  rw [heq] at hcv
  exact hcv.eq_num (ne_of_gt hpos)

end MathSqrt

end Sprout
