import Verif.Proofs.MathScale

/-!
# Rounding errors

`Val v r`: the floating value `v` is finite, and is the real number `r`. Operations whose results do not overflow give
the rounded real result; the error of rounding is at most `u = 2 ^ -p` times the result, unless it is subnormal.
-/

namespace Sprout

open Classical FV

/-- finite value equal to a real number -/
def Val (v : FV) (r : ℝ) : Prop := ∃ s, v = mkv s r

namespace Val

theorem num {r : ℝ} (h : r ≠ 0) : Val (.num r) r := ⟨false, (mkv_num _ h).symm⟩

theorem zero (s : Bool) : Val (.zero s) 0 := ⟨s, (mkv_zero s).symm⟩

theorem val {v : FV} {r : ℝ} (h : Val v r) : v.val = r := by
  obtain ⟨s, rfl⟩ := h
  exact val_mkv s r

theorem isFin {v : FV} {r : ℝ} (h : Val v r) : v.isFin = true := by
  obtain ⟨s, rfl⟩ := h
  unfold mkv
  split <;> rfl

theorem neg {v : FV} {r : ℝ} (h : Val v r) : Val v.neg (-r) := by
  obtain ⟨s, rfl⟩ := h
  exact ⟨_, neg_mkv s r⟩

theorem lt_iff {v w : FV} {a b : ℝ} (h : Val v a) (h' : Val w b) : v.lt w ↔ a < b := by
  obtain ⟨s, rfl⟩ := h
  obtain ⟨t, rfl⟩ := h'
  exact lt_mkv ..

theorem eq_iff {v w : FV} {a b : ℝ} (h : Val v a) (h' : Val w b) : v.eq w ↔ a = b := by
  obtain ⟨s, rfl⟩ := h
  obtain ⟨t, rfl⟩ := h'
  exact eq_mkv ..

theorem le_iff {v w : FV} {a b : ℝ} (h : Val v a) (h' : Val w b) : v.le w ↔ a ≤ b := by
  obtain ⟨s, rfl⟩ := h
  obtain ⟨t, rfl⟩ := h'
  exact le_mkv ..

theorem eq_num {v : FV} {r : ℝ} (h : Val v r) (h0 : r ≠ 0) : v = .num r := by
  obtain ⟨s, rfl⟩ := h
  exact mkv_num s h0

theorem congr {v : FV} {a b : ℝ} (h : Val v a) (e : a = b) : Val v b := e ▸ h

theorem unique {v : FV} {a b : ℝ} (h : Val v a) (h' : Val v b) : a = b := by rw [← h.val, h'.val]

end Val

namespace Fmt

variable {F C : Fmt}

theorem ofReal_val {s : Bool} {r : ℝ} (hb : |F.rnd r| < (2 : ℝ) ^ F.emax) : Val (F.ofReal s r) (F.rnd r) := by
  unfold ofReal
  split_ifs with h1 h2
  · rw [h1]; exact Val.zero s
  · exact absurd h2 (not_le.2 hb)
  · exact Val.num h1

theorem cvt_val {v : FV} {a : ℝ} (h : Val v a) (hb : |F.rnd a| < (2 : ℝ) ^ F.emax) : Val (F.cvt v) (F.rnd a) := by
  obtain ⟨s, rfl⟩ := h
  rcases eq_or_ne a 0 with rfl | ha
  · rw [mkv_zero, rnd_zero]; exact Val.zero s
  · rw [mkv_num s ha]; exact ofReal_val hb

theorem add_val {v w : FV} {a b : ℝ} (h : Val v a) (h' : Val w b) (hb : |F.rnd (a + b)| < (2 : ℝ) ^ F.emax) :
    Val (F.add v w) (F.rnd (a + b)) := by
  obtain ⟨s, rfl⟩ := h
  obtain ⟨t, rfl⟩ := h'
  rcases eq_or_ne a 0 with rfl | ha <;> rcases eq_or_ne b 0 with rfl | hb0
  · simp only [mkv_zero, add, add_zero, rnd_zero]; exact Val.zero _
  · rw [mkv_zero, mkv_num t hb0]; exact ofReal_val hb
  · rw [mkv_zero, mkv_num s ha]; exact ofReal_val hb
  · rw [mkv_num s ha, mkv_num t hb0]; exact ofReal_val hb

theorem sub_val {v w : FV} {a b : ℝ} (h : Val v a) (h' : Val w b) (hb : |F.rnd (a - b)| < (2 : ℝ) ^ F.emax) :
    Val (F.sub v w) (F.rnd (a - b)) := by
  rw [sub_eq_add_neg] at hb ⊢
  exact add_val h h'.neg hb

theorem mul_val {v w : FV} {a b : ℝ} (h : Val v a) (h' : Val w b) (hb : |F.rnd (a * b)| < (2 : ℝ) ^ F.emax) :
    Val (F.mul v w) (F.rnd (a * b)) := by
  obtain ⟨s, rfl⟩ := h
  obtain ⟨t, rfl⟩ := h'
  rcases eq_or_ne a 0 with rfl | ha <;> rcases eq_or_ne b 0 with rfl | hb0
  · rw [mkv_zero, mkv_zero]; exact ofReal_val hb
  · rw [mkv_zero, mkv_num t hb0]; exact ofReal_val hb
  · rw [mkv_zero, mkv_num s ha]; exact ofReal_val hb
  · rw [mkv_num s ha, mkv_num t hb0]; exact ofReal_val hb

theorem div_val {v w : FV} {a b : ℝ} (h : Val v a) (h' : Val w b) (h0 : b ≠ 0)
    (hb : |F.rnd (a / b)| < (2 : ℝ) ^ F.emax) : Val (F.div v w) (F.rnd (a / b)) := by
  obtain ⟨s, rfl⟩ := h
  obtain ⟨t, rfl⟩ := h'
  rcases eq_or_ne a 0 with rfl | ha
  · rw [mkv_zero, mkv_num t h0]; exact ofReal_val hb
  · rw [mkv_num s ha, mkv_num t h0]; exact ofReal_val hb

/-- the relative error of rounding -/
noncomputable def u (F : Fmt) : ℝ := (2 : ℝ) ^ (-(F.p : ℤ))

theorem has_int (F : Fmt) (n : ℤ) (h0 : n ≠ 0) (h : |n| ≤ 2 ^ F.p) : F.Has (.num (n : ℝ)) := by
  refine ⟨by exact_mod_cast h0, F.rep_int n h, ?_⟩
  have h1 : |(n : ℝ)| ≤ (2 : ℝ) ^ (F.p : ℤ) := by
    rw [zpow_natCast]; exact_mod_cast h
  exact lt_of_le_of_lt h1 (zpow_lt_zpow_right₀ (by norm_num) F.p_lt_emax)

theorem u_pos : 0 < F.u := by unfold u; positivity

theorem u_le : F.u ≤ 1 / 4 := by
  unfold u
  have := F.two_le_p
  calc (2 : ℝ) ^ (-(F.p : ℤ)) ≤ (2 : ℝ) ^ (-2 : ℤ) := zpow_le_zpow_right₀ (by norm_num) (by omega)
    _ = 1 / 4 := by norm_num

/-- rounding chooses a value within half a unit of the last place -/
theorem rnd_half (x : ℝ) : |F.rnd x - x| ≤ (2 : ℝ) ^ (lastExp F.p F.emin x) / 2 := by
  refine le_trans (F.rnd_near x _ (nearest_rep F.p F.emin F.one_le_p x)) ?_
  unfold nearest
  generalize lastExp F.p F.emin x = k
  have hk : (0 : ℝ) < (2 : ℝ) ^ k := by positivity
  have h := abs_sub_round (x / (2 : ℝ) ^ k)
  have e : (round (x / (2 : ℝ) ^ k) : ℝ) * (2 : ℝ) ^ k - x = -((x / (2 : ℝ) ^ k - round (x / (2 : ℝ) ^ k)) * (2 : ℝ) ^ k) := by
    field_simp
    ring
  rw [e, abs_neg, abs_mul, abs_of_pos hk]
  nlinarith

/-- the error of rounding, in general -/
theorem rnd_err (x : ℝ) : |F.rnd x - x| ≤ F.u * |x| + (2 : ℝ) ^ F.emin / 2 := by
  rcases eq_or_ne x 0 with rfl | hx
  · rw [rnd_zero]
    have := u_pos (F := F)
    have : (0 : ℝ) < (2 : ℝ) ^ F.emin := by positivity
    simp only [sub_self, abs_zero, mul_zero, zero_add]
    positivity
  have h := rnd_half (F := F) x
  have hl := (abs_lt_two_zpow_log hx).1
  have hu := u_pos (F := F)
  have he : (0 : ℝ) < (2 : ℝ) ^ F.emin := by positivity
  unfold lastExp at h
  rcases max_choice (Int.log 2 |x| + 1 - (F.p : ℤ)) F.emin with e | e <;> rw [e] at h
  · have e2 : (2 : ℝ) ^ (Int.log 2 |x| + 1 - (F.p : ℤ)) / 2 = F.u * (2 : ℝ) ^ Int.log 2 |x| := by
      unfold u
      rw [div_eq_mul_inv, ← zpow_add₀ (by norm_num), ← zpow_sub_one₀ (by norm_num)]
      congr 1
      ring
    rw [e2] at h
    nlinarith
  · have := mul_nonneg (le_of_lt hu) (abs_nonneg x)
    linarith

/-- the error of rounding a normal number -/
theorem rnd_rel {x : ℝ} (h0 : (2 : ℝ) ^ (F.emin + F.p - 1) ≤ |x|) : |F.rnd x - x| ≤ F.u * |x| := by
  have hx : x ≠ 0 := by
    rintro rfl
    have : (0 : ℝ) < (2 : ℝ) ^ (F.emin + F.p - 1) := by positivity
    simp at h0
    linarith
  have h := rnd_half (F := F) x
  have hl := abs_lt_two_zpow_log hx
  have hu := u_pos (F := F)
  have hlog : F.emin + F.p - 1 < Int.log 2 |x| + 1 :=
    (zpow_lt_zpow_iff_right₀ (by norm_num : (1 : ℝ) < 2)).1 (lt_of_le_of_lt h0 hl.2)
  unfold lastExp at h
  rw [max_eq_left (by omega)] at h
  have e2 : (2 : ℝ) ^ (Int.log 2 |x| + 1 - (F.p : ℤ)) / 2 = F.u * (2 : ℝ) ^ Int.log 2 |x| := by
    unfold u
    rw [div_eq_mul_inv, ← zpow_add₀ (by norm_num), ← zpow_sub_one₀ (by norm_num)]
    congr 1
    ring
  rw [e2] at h
  nlinarith [hl.1]

/-- rounding does not pass a representable bound -/
theorem rnd_abs_le {x b : ℝ} (h : |x| ≤ b) (hb : Rep F.p F.emin b) : |F.rnd x| ≤ b := by
  rw [abs_le] at h ⊢
  exact ⟨le_rnd h.1 hb.neg, rnd_le h.2 hb⟩

/-- no overflow below the largest power of two -/
theorem rnd_lt_emax {x : ℝ} (h : |x| ≤ (2 : ℝ) ^ (F.emax - 1)) : |F.rnd x| < (2 : ℝ) ^ F.emax := by
  have h1 := F.p_lt_emax
  have h2 := F.emin_le_zero
  refine lt_of_le_of_lt (rnd_abs_le h (Rep.two_zpow _ (by omega) F.one_le_p)) ?_
  exact zpow_lt_zpow_right₀ (by norm_num) (by omega)

theorem rnd_pos {x : ℝ} (h : (2 : ℝ) ^ F.emin ≤ x) : 0 < F.rnd x := by
  have := le_rnd h (Rep.two_zpow (p := F.p) (emin := F.emin) F.emin (le_refl _) F.one_le_p)
  have : (0 : ℝ) < (2 : ℝ) ^ F.emin := by positivity
  linarith

end Fmt

end Sprout
