import Verif.Model.StrFloat
import Verif.Spec.DecimalString
import Verif.Proofs.Ascii
import Verif.Proofs.Series

/-! # Strings to floating values -/

namespace Sprout.StrFloat

open Classical FV Fmt Ascii Spec

variable {F : Fmt} {L : CInt}

/-! ## counting roundings -/

/-- the factor by which one rounding may change a number -/
noncomputable def gr (F : Fmt) : ℝ := (1 - F.u)⁻¹

theorem gr_one_le : 1 ≤ gr F := by
  have h1 := u_pos (F := F)
  have h2 := u_le (F := F)
  unfold gr
  exact (one_le_inv₀ (by linarith)).2 (by linarith)

theorem gr_pos : 0 < gr F := lt_of_lt_of_le one_pos gr_one_le

theorem gr_pow_le (m : ℕ) (hm : (m : ℝ) * F.u ≤ 1 / 2) : gr F ^ m ≤ 1 + 2 * m * F.u ∧ gr F ^ m ≤ 2 := by
  have h1 := u_pos (F := F)
  have h2 := u_le (F := F)
  have hb := one_add_mul_le_pow (a := -F.u) (by linarith) m
  have h3 : 1 - m * F.u ≤ (1 - F.u) ^ m := by
    have e : (1 : ℝ) + -F.u = 1 - F.u := by ring
    rw [e] at hb
    linarith
  have h4 : (0 : ℝ) ≤ m * F.u := by positivity
  have h5 : gr F ^ m ≤ 1 + 2 * m * F.u := by
    unfold gr
    rw [inv_pow]
    refine inv_le_of_inv_le₀ (by positivity) (le_trans ?_ h3)
    rw [inv_le_iff_one_le_mul₀ (by positivity)]
    nlinarith
  exact ⟨h5, by linarith⟩

/-- the value is `σ` times `a`, up to `k` roundings -/
def RE (F : Fmt) (σ : ℝ) (v : FV) (a : ℝ) (k : ℕ) : Prop :=
  ∃ r : ℝ, 0 ≤ r ∧ Val v (σ * r) ∧ Rep F.p F.emin (σ * r) ∧ a ≤ gr F ^ k * r ∧ r ≤ gr F ^ k * a

theorem round_re {σ : ℝ} (hσ : σ = 1 ∨ σ = -1) {x a : ℝ} {k : ℕ} (hx : 0 ≤ x) (he : |F.rnd (σ * x) - σ * x| ≤ F.u * x)
    (h1 : a ≤ gr F ^ k * x) (h2 : x ≤ gr F ^ k * a) (v : FV) (hv : Val v (F.rnd (σ * x))) : RE F σ v a (k + 1) := by
  have u1 := u_pos (F := F)
  have u2 := u_le (F := F)
  have hg := gr_pos (F := F)
  have ss : σ * σ = 1 := by rcases hσ with rfl | rfl <;> norm_num
  have e : σ * (σ * F.rnd (σ * x)) = F.rnd (σ * x) := by rw [← mul_assoc, ss, one_mul]
  have key : |σ * F.rnd (σ * x) - x| ≤ F.u * x := by
    have e2 : σ * F.rnd (σ * x) - x = σ * (F.rnd (σ * x) - σ * x) := by rw [mul_sub, ← mul_assoc σ σ x, ss, one_mul]
    rw [e2, abs_mul, show |σ| = 1 by rcases hσ with rfl | rfl <;> norm_num, one_mul]
    exact he
  have key' := abs_le.1 key
  have gu : gr F * (1 - F.u) = 1 := inv_mul_cancel₀ (by linarith)
  have hpk : 0 < gr F ^ k := by positivity
  have k1 : x ≤ gr F * (σ * F.rnd (σ * x)) := by
    have : gr F * ((1 - F.u) * x) ≤ gr F * (σ * F.rnd (σ * x)) := mul_le_mul_of_nonneg_left (by linarith) hg.le
    rw [← mul_assoc, gu, one_mul] at this
    exact this
  have k2 : σ * F.rnd (σ * x) ≤ gr F * x := by
    have : 1 + F.u ≤ gr F := by
      have : (1 + F.u) * (gr F * (1 - F.u)) ≤ gr F := by nlinarith [mul_pos hg (mul_pos u1 u1)]
      rwa [gu, mul_one] at this
    nlinarith
  refine ⟨σ * F.rnd (σ * x), by nlinarith, by rw [e]; exact hv, by rw [e]; exact F.rnd_rep _, ?_, ?_⟩
  · rw [pow_succ, mul_assoc]
    exact le_trans h1 (mul_le_mul_of_nonneg_left k1 hpk.le)
  · rw [pow_succ, mul_comm (gr F ^ k), mul_assoc]
    exact le_trans k2 (mul_le_mul_of_nonneg_left h2 hg.le)

theorem RE.mono {σ : ℝ} {v : FV} {a : ℝ} {k l : ℕ} (h : RE F σ v a k) (ha : 0 ≤ a) (hkl : k ≤ l) : RE F σ v a l := by
  obtain ⟨r, h0, h1, h2, h3, h4⟩ := h
  have : gr F ^ k ≤ gr F ^ l := pow_le_pow_right₀ gr_one_le hkl
  exact ⟨r, h0, h1, h2, le_trans h3 (mul_le_mul_of_nonneg_right this h0), le_trans h4 (mul_le_mul_of_nonneg_right this ha)⟩

theorem normal_lemma {k : ℕ} (hk : gr F ^ k ≤ 2) {x a : ℝ} (hx : 0 ≤ x) (h1 : a ≤ gr F ^ k * x) (h2 : x ≤ gr F ^ k * a)
    (ha : a = 0 ∨ (2 : ℝ) ^ (F.emin + F.p) ≤ a) {σ : ℝ} (hσ : σ = 1 ∨ σ = -1) : |F.rnd (σ * x) - σ * x| ≤ F.u * x := by
  have e : |σ * x| = x := by
    rw [abs_mul, show |σ| = 1 by rcases hσ with rfl | rfl <;> norm_num, one_mul, abs_of_nonneg hx]
  rcases ha with rfl | ha
  · have : x = 0 := by linarith
    subst this
    simp [rnd_zero]
  · conv_rhs => rw [← e]
    refine rnd_rel ?_
    rw [e]
    have : (2 : ℝ) ^ (F.emin + F.p) = 2 * (2 : ℝ) ^ (F.emin + F.p - 1) := by
      rw [zpow_sub_one₀ (by norm_num)]; ring
    nlinarith

theorem over_lemma {k : ℕ} (hk : gr F ^ k ≤ 2) {x a : ℝ} (hx : 0 ≤ x) (h2 : x ≤ gr F ^ k * a) (ha : 0 ≤ a)
    (hb : a ≤ (2 : ℝ) ^ (F.emax - 2)) {σ : ℝ} (hσ : σ = 1 ∨ σ = -1) : |F.rnd (σ * x)| < (2 : ℝ) ^ F.emax := by
  refine rnd_lt_emax ?_
  rw [abs_mul, show |σ| = 1 by rcases hσ with rfl | rfl <;> norm_num, one_mul, abs_of_nonneg hx]
  have : (2 : ℝ) ^ (F.emax - 1) = 2 * (2 : ℝ) ^ (F.emax - 2) := by
    rw [show F.emax - 1 = F.emax - 2 + 1 by ring, zpow_add_one₀ (by norm_num)]; ring
  rw [this]
  nlinarith

theorem RE.mul {σ : ℝ} (hσ : σ = 1 ∨ σ = -1) {v w : FV} {a b : ℝ} {k l : ℕ} (h : RE F σ v a k) (h' : RE F 1 w b l)
    (ha : 0 ≤ a) (hb : 0 ≤ b) (hk : gr F ^ (k + l) ≤ 2) (hn : a * b = 0 ∨ (2 : ℝ) ^ (F.emin + F.p) ≤ a * b)
    (ho : a * b ≤ (2 : ℝ) ^ (F.emax - 2)) : RE F σ (F.mul v w) (a * b) (k + l + 1) := by
  obtain ⟨r, h0, h1, h2, h3, h4⟩ := h
  obtain ⟨s, k0, k1, k2, k3, k4⟩ := h'
  have hg := gr_pos (F := F)
  have x1 : a * b ≤ gr F ^ (k + l) * (r * s) := by
    rw [pow_add, show gr F ^ k * gr F ^ l * (r * s) = (gr F ^ k * r) * (gr F ^ l * s) by ring]
    exact mul_le_mul h3 k3 hb (by positivity)
  have x2 : r * s ≤ gr F ^ (k + l) * (a * b) := by
    rw [pow_add, show gr F ^ k * gr F ^ l * (a * b) = (gr F ^ k * a) * (gr F ^ l * b) by ring]
    exact mul_le_mul h4 k4 k0 (by positivity)
  have hx : 0 ≤ r * s := by positivity
  have e : σ * r * (1 * s) = σ * (r * s) := by ring
  refine round_re hσ hx (normal_lemma hk hx x1 x2 hn hσ) x1 x2 _ ?_
  rw [← e]
  refine mul_val h1 k1 ?_
  rw [e]
  exact over_lemma hk hx x2 (by positivity) ho hσ

theorem RE.div {σ : ℝ} (hσ : σ = 1 ∨ σ = -1) {v w : FV} {a b : ℝ} {k l : ℕ} (h : RE F σ v a k) (h' : RE F 1 w b l)
    (ha : 0 ≤ a) (hb : 0 < b) (hk : gr F ^ (k + l) ≤ 2) (hn : a / b = 0 ∨ (2 : ℝ) ^ (F.emin + F.p) ≤ a / b)
    (ho : a / b ≤ (2 : ℝ) ^ (F.emax - 2)) : RE F σ (F.div v w) (a / b) (k + l + 1) := by
  obtain ⟨r, h0, h1, h2, h3, h4⟩ := h
  obtain ⟨s, k0, k1, k2, k3, k4⟩ := h'
  have hg := gr_pos (F := F)
  have hs : 0 < s := by
    rcases k0.lt_or_eq with h | h
    · exact h
    · rw [← h, mul_zero] at k3; linarith
  have x1 : a / b ≤ gr F ^ (k + l) * (r / s) := by
    rw [pow_add, div_le_iff₀ hb, show gr F ^ k * gr F ^ l * (r / s) * b = (gr F ^ k * r) * (gr F ^ l * b) / s by field_simp,
      le_div_iff₀ hs]
    exact mul_le_mul h3 k4 k0 (by positivity)
  have x2 : r / s ≤ gr F ^ (k + l) * (a / b) := by
    rw [pow_add, div_le_iff₀ hs, show gr F ^ k * gr F ^ l * (a / b) * s = (gr F ^ k * a) * (gr F ^ l * s) / b by field_simp,
      le_div_iff₀ hb]
    exact mul_le_mul h4 k3 hb.le (by positivity)
  have hx : 0 ≤ r / s := by positivity
  have e : σ * r / (1 * s) = σ * (r / s) := by rw [one_mul, mul_div_assoc]
  refine round_re hσ hx (normal_lemma hk hx x1 x2 hn hσ) x1 x2 _ ?_
  rw [← e]
  refine div_val h1 k1 (by rw [one_mul]; exact hs.ne') ?_
  rw [e]
  exact over_lemma hk hx x2 (by positivity) ho hσ

theorem RE.add {v w : FV} {a b : ℝ} {k l : ℕ} (h : RE F 1 v a k) (h' : RE F 1 w b l) (ha : 0 ≤ a) (hb : 0 ≤ b) (hl : l ≤ k)
    (hk : gr F ^ k ≤ 2) (ho : a + b ≤ (2 : ℝ) ^ (F.emax - 2)) : RE F 1 (F.add v w) (a + b) (k + 1) := by
  obtain ⟨r, h0, h1, h2, h3, h4⟩ := h
  obtain ⟨s, k0, k1, k2, k3, k4⟩ := h'.mono hb hl
  have hg := gr_pos (F := F)
  have x1 : a + b ≤ gr F ^ k * (r + s) := by rw [mul_add]; linarith
  have x2 : r + s ≤ gr F ^ k * (a + b) := by rw [mul_add]; linarith
  have hx : 0 ≤ r + s := by positivity
  have e : 1 * r + 1 * s = 1 * (r + s) := by ring
  refine round_re (Or.inl rfl) hx ?_ x1 x2 _ ?_
  · have := rnd_add_rel h2 k2
    rw [e, one_mul, abs_of_nonneg hx] at this
    rw [one_mul]
    exact this
  · rw [← e]
    refine add_val h1 k1 ?_
    rw [e]
    exact over_lemma hk hx x2 (by positivity) ho (Or.inl rfl)

theorem RE.neg {v : FV} {a : ℝ} {k : ℕ} (h : RE F 1 v a k) : RE F (-1) v.neg a k := by
  obtain ⟨r, h0, h1, h2, h3, h4⟩ := h
  rw [one_mul] at h1 h2
  exact ⟨r, h0, by rw [neg_one_mul]; exact h1.neg, by rw [neg_one_mul]; exact h2.neg, h3, h4⟩

/-! ## the digits -/

theorem val_int (hp : 4 ≤ F.p) {n : ℕ} (h : n ≤ 10) : Val (F.ofInt n) (n : ℝ) ∧ Rep F.p F.emin (n : ℝ) := by
  have h2 : (2 : ℤ) ^ 4 ≤ 2 ^ F.p := pow_le_pow_right₀ (by norm_num) hp
  have hr : Rep F.p F.emin ((n : ℤ) : ℝ) := F.rep_int n (by rw [abs_of_nonneg (by omega)]; omega)
  rw [Int.cast_natCast] at hr
  refine ⟨?_, hr⟩
  have := ofReal_val (F := F) (s := false) (r := (n : ℝ)) ?_
  · rw [rnd_of_rep hr] at this
    simpa [ofInt] using this
  · rw [rnd_of_rep hr]
    rcases Nat.eq_zero_or_pos n with rfl | h0
    · simp only [Nat.cast_zero, abs_zero]; positivity
    · have := (F.has_int n (by omega) (by rw [abs_of_nonneg (by omega)]; omega)).2.2
      simpa using this

theorem re_int (hp : 4 ≤ F.p) {n : ℕ} (h : n ≤ 10) : RE F 1 (F.ofInt n) n 0 := by
  obtain ⟨h1, h2⟩ := val_int hp h
  exact ⟨n, by positivity, by rwa [one_mul], by rwa [one_mul], by simp, by simp⟩

theorem digitChar_lt {d : ℕ} (h : d < 10) : digitChar d = 48 + (d : ℤ) := if_pos h

/-- the number accumulated -/
noncomputable def digits (F : Fmt) (v : FV) (D : List ℕ) : FV := D.foldl (fun v d => digit F v (digitChar d)) v

theorem evalFrom_cons (a d : ℕ) (D : List ℕ) : evalFrom 10 a (d :: D) = evalFrom 10 (a * 10 + d) D := rfl

theorem evalFrom_mono (D : List ℕ) : ∀ a, a ≤ evalFrom 10 a D := by
  induction D with
  | nil => intro a; exact le_refl a
  | cons d D ih => intro a; rw [evalFrom_cons]; exact le_trans (by omega) (ih _)

theorem two_emin_p_le_one : (2 : ℝ) ^ (F.emin + F.p) ≤ 1 := by
  have := F.emin_le
  have := F.two_le_p
  exact zpow_le_one_of_nonpos₀ (by norm_num) (by omega)

theorem digits_re (hp : 4 ≤ F.p) {M : ℕ} (hM : gr F ^ M ≤ 2) (D : List ℕ) : ∀ (v : FV) (a k : ℕ), (∀ d ∈ D, d < 10) →
    RE F 1 v a k → k + 2 * D.length ≤ M → (evalFrom 10 a D : ℝ) ≤ (2 : ℝ) ^ (F.emax - 2) →
    RE F 1 (digits F v D) (evalFrom 10 a D : ℕ) (k + 2 * D.length) := by
  induction D with
  | nil => intro v a k _ h _ _; exact h
  | cons d D ih =>
    intro v a k hd h hk ho
    have hd' : d < 10 := hd d (by simp)
    have hgm : ∀ m, m ≤ M → gr F ^ m ≤ 2 := fun m hm => le_trans (pow_le_pow_right₀ gr_one_le hm) hM
    rw [List.length_cons] at hk
    have hm : ((a * 10 + d : ℕ) : ℝ) ≤ (2 : ℝ) ^ (F.emax - 2) := by
      refine le_trans ?_ ho
      rw [evalFrom_cons]
      exact_mod_cast evalFrom_mono D _
    push_cast at hm
    have s1 : RE F 1 (F.mul v (F.ofInt 10)) ((a : ℝ) * 10) (k + 0 + 1) := by
      refine RE.mul (Or.inl rfl) h (by simpa using re_int hp (le_refl 10)) (by positivity) (by norm_num) (hgm _ (by omega)) ?_ ?_
      · rcases Nat.eq_zero_or_pos a with rfl | ha
        · left; simp
        · right
          have : (1 : ℝ) ≤ a := by exact_mod_cast ha
          have := two_emin_p_le_one (F := F)
          linarith
      · have : (0 : ℝ) ≤ d := by positivity
        linarith
    have s2 := RE.add s1 (re_int (F := F) hp (show d ≤ 10 by omega)) (by positivity) (by positivity) (by omega)
      (hgm _ (by omega)) hm
    rw [evalFrom_cons] at ho ⊢
    have s3 := ih (digit F v (digitChar d)) (a * 10 + d) (k + 2) (fun x hx => hd x (by simp [hx])) (by
      unfold digit
      rw [digitChar_lt hd', show (48 + (d : ℤ) - 0x30) = (d : ℤ) by ring]
      push_cast
      exact s2) (by omega) ho
    have e : k + 2 * (d :: D).length = k + 2 + 2 * D.length := by rw [List.length_cons]; ring
    rw [e]
    exact s3

/-- digits of a number which needs no more than the precision are exact -/
theorem digits_exact (hp : 4 ≤ F.p) (D : List ℕ) : ∀ (v : FV) (a : ℕ), (∀ d ∈ D, d < 10) → Val v a →
    evalFrom 10 a D ≤ 2 ^ F.p → Val (digits F v D) (evalFrom 10 a D : ℕ) := by
  have hr : ∀ n : ℕ, n ≤ 2 ^ F.p → F.rnd (n : ℝ) = n ∧ |F.rnd (n : ℝ)| < (2 : ℝ) ^ F.emax := by
    intro n hn
    have hz : |(n : ℤ)| ≤ 2 ^ F.p := by rw [abs_of_nonneg (by omega)]; exact_mod_cast hn
    have h1 : Rep F.p F.emin ((n : ℤ) : ℝ) := F.rep_int n hz
    rw [Int.cast_natCast] at h1
    rw [rnd_of_rep h1]
    refine ⟨rfl, ?_⟩
    rcases Nat.eq_zero_or_pos n with rfl | h0
    · simp only [Nat.cast_zero, abs_zero]; positivity
    · simpa using (F.has_int n (by omega) hz).2.2
  induction D with
  | nil => intro v a _ h _; exact h
  | cons d D ih =>
    intro v a hd h ho
    have hd' : d < 10 := hd d (by simp)
    rw [evalFrom_cons] at ho ⊢
    have hm := le_trans (evalFrom_mono D (a * 10 + d)) ho
    refine ih (digit F v (digitChar d)) (a * 10 + d) (fun x hx => hd x (by simp [hx])) ?_ ho
    unfold digit
    rw [digitChar_lt hd', show (48 + (d : ℤ) - 0x30) = (d : ℤ) by ring]
    obtain ⟨r1, r2⟩ := hr (a * 10) (by omega)
    push_cast at r1 r2
    have s1 : Val (F.mul v (F.ofInt 10)) ((a : ℝ) * 10) := by
      have := mul_val h (by simpa using (val_int (F := F) hp (le_refl 10)).1) r2
      rwa [r1] at this
    obtain ⟨t1, t2⟩ := hr (a * 10 + d) hm
    push_cast at t1 t2
    have s2 := add_val s1 (val_int (F := F) hp (show d ≤ 10 by omega)).1 t2
    rw [t1] at s2
    push_cast
    exact s2

/-! ## the power of ten -/

theorem scale_re {σ : ℝ} (hσ : σ = 1 ∨ σ = -1) {M : ℕ} (hM : gr F ^ M ≤ 2) : ∀ (n : ℕ) (v p10 : FV) (a : ℝ) (k e : ℕ),
    1 ≤ e → 0 ≤ a → RE F σ v a k → (1 ≤ n → RE F 1 p10 (10 ^ e) (e - 1)) → k + n * e ≤ M →
    (a = 0 ∨ (2 : ℝ) ^ (F.emin + F.p) ≤ a / 10 ^ (n * e)) → a ≤ (2 : ℝ) ^ (F.emax - 2) →
    (10 : ℝ) ^ (n * e) ≤ (2 : ℝ) ^ (F.emax - 2) → RE F σ (scale F true v n p10) (a / 10 ^ (n * e)) (k + n * e) := by
  intro n
  induction n using Nat.strong_induction_on with
  | _ n ih =>
    intro v p10 a k e he ha hv hp hk hl ho hq
    have hgm : ∀ m, m ≤ M → gr F ^ m ≤ 2 := fun m hm => le_trans (pow_le_pow_right₀ gr_one_le hm) hM
    rw [scale]
    simp only [if_true]
    split_ifs with h0 h1
    · subst h0
      simpa using hv
    · -- odd
      have hp' := hp (by omega)
      have en : n * e = e + n / 2 * (2 * e) := by
        conv_lhs => rw [show n = 2 * (n / 2) + 1 by omega]
        ring
      rw [en] at hk hl hq ⊢
      have h10 : (1 : ℝ) ≤ 10 ^ e := one_le_pow₀ (by norm_num)
      have h10' : (1 : ℝ) ≤ 10 ^ (n / 2 * (2 * e)) := one_le_pow₀ (by norm_num)
      have hae : a / 10 ^ e ≤ a := div_le_self ha h10
      have hd : RE F σ (F.div v p10) (a / 10 ^ e) (k + e) := by
        have := RE.div hσ hv hp' ha (by positivity) (hgm _ (by omega)) ?_ (le_trans hae ho)
        · rwa [show k + (e - 1) + 1 = k + e by omega] at this
        · rcases hl with rfl | hl
          · left; simp
          · right
            refine le_trans hl ?_
            rw [pow_add, ← div_div]
            exact div_le_self (by positivity) h10'
      rw [pow_add, ← div_div, show k + (e + n / 2 * (2 * e)) = k + e + n / 2 * (2 * e) by ring]
      refine ih (n / 2) (by omega) _ _ _ _ (2 * e) (by omega) (by positivity) hd ?_ (by omega) ?_ (le_trans hae ho) ?_
      · intro hn
        have h2e : (10 : ℝ) ^ (2 * e) ≤ (2 : ℝ) ^ (F.emax - 2) := by
          refine le_trans (pow_le_pow_right₀ (by norm_num) ?_) hq
          have := Nat.mul_le_mul_right (2 * e) hn
          omega
        have hke : 2 * e ≤ n / 2 * (2 * e) := by
          have := Nat.mul_le_mul_right (2 * e) hn
          omega
        have e2 : (10 : ℝ) ^ (2 * e) = 10 ^ e * 10 ^ e := by rw [two_mul, pow_add]
        rw [e2] at h2e ⊢
        have := RE.mul (Or.inl rfl) hp' hp' (by positivity) (by positivity) (hgm _ (by omega))
          (Or.inr (le_trans two_emin_p_le_one (by nlinarith))) h2e
        rwa [show e - 1 + (e - 1) + 1 = 2 * e - 1 by omega] at this
      · rcases hl with rfl | hl
        · left; simp
        · right; rwa [pow_add, ← div_div] at hl
      · refine le_trans ?_ hq
        exact pow_le_pow_right₀ (by norm_num) (by omega)
    · -- even
      have hp' := hp (by omega)
      have en : n * e = n / 2 * (2 * e) := by
        conv_lhs => rw [show n = 2 * (n / 2) by omega]
        ring
      rw [en] at hk hl hq ⊢
      have h10 : (1 : ℝ) ≤ 10 ^ e := one_le_pow₀ (by norm_num)
      refine ih (n / 2) (by omega) _ _ _ _ (2 * e) (by omega) ha hv ?_ (by omega) hl ho hq
      intro hn
      have hke : 2 * e ≤ n / 2 * (2 * e) := by
        have := Nat.mul_le_mul_right (2 * e) hn
        omega
      have h2e : (10 : ℝ) ^ (2 * e) ≤ (2 : ℝ) ^ (F.emax - 2) :=
        le_trans (pow_le_pow_right₀ (by norm_num) hke) hq
      have e2 : (10 : ℝ) ^ (2 * e) = 10 ^ e * 10 ^ e := by rw [two_mul, pow_add]
      rw [e2] at h2e ⊢
      have := RE.mul (Or.inl rfl) hp' hp' (by positivity) (by positivity) (hgm _ (by omega))
        (Or.inr (le_trans two_emin_p_le_one (by nlinarith))) h2e
      rwa [show e - 1 + (e - 1) + 1 = 2 * e - 1 by omega] at this

theorem rep_ten {e : ℕ} (h : 5 ^ e < 2 ^ F.p) : Rep F.p F.emin ((10 : ℝ) ^ e) := by
  refine ⟨5 ^ e, e, ?_, ?_, ?_⟩
  · have := F.emin_le
    have := F.two_le_p
    omega
  · rw [abs_of_nonneg (by positivity)]
    exact_mod_cast h
  · push_cast
    rw [zpow_natCast, ← mul_pow]
    norm_num

/-- a single division, for a power of two of decimals -/
theorem scale_exact : ∀ (j : ℕ) (v p10 : FV) (a : ℝ) (e : ℕ), Val v a → Val p10 ((10 : ℝ) ^ e) →
    5 ^ (2 ^ j * e) < 2 ^ F.p → (10 : ℝ) ^ (2 ^ j * e) < (2 : ℝ) ^ F.emax → |a| ≤ (2 : ℝ) ^ (F.emax - 1) →
    Val (scale F true v (2 ^ j) p10) (F.rnd (a / 10 ^ (2 ^ j * e))) := by
  intro j
  induction j with
  | zero =>
    intro v p10 a e hv hp h5 hq ha
    rw [scale, if_neg (by norm_num), if_pos (by norm_num), if_pos rfl, scale, if_pos (by norm_num)]
    simp only [pow_zero, one_mul] at h5 hq ⊢
    refine div_val hv hp (by positivity) (rnd_lt_emax (le_trans ?_ ha))
    rw [abs_div, abs_of_pos (show (0 : ℝ) < 10 ^ e by positivity)]
    exact div_le_self (abs_nonneg _) (one_le_pow₀ (by norm_num))
  | succ j ih =>
    intro v p10 a e hv hp h5 hq ha
    have hpos : 0 < 2 ^ j := by positivity
    have e1 : 2 ^ (j + 1) * e = 2 ^ j * (2 * e) := by ring
    rw [scale, if_neg (by positivity), if_neg (by rw [pow_succ]; omega), show 2 ^ (j + 1) / 2 = 2 ^ j by rw [pow_succ]; omega]
    rw [e1] at h5 hq ⊢
    have h2 : 5 ^ (2 * e) < 2 ^ F.p := lt_of_le_of_lt (Nat.pow_le_pow_right (by norm_num) (Nat.le_mul_of_pos_left _ hpos)) h5
    have hr := rep_ten h2
    refine ih _ _ _ _ hv ?_ h5 hq ha
    have e2 : (10 : ℝ) ^ e * 10 ^ e = 10 ^ (2 * e) := by rw [two_mul, pow_add]
    have := mul_val (F := F) hp hp (by
      rw [e2, rnd_of_rep hr, abs_of_pos (by positivity)]
      exact lt_of_le_of_lt (pow_le_pow_right₀ (by norm_num) (Nat.le_mul_of_pos_left _ hpos)) hq)
    rwa [e2, rnd_of_rep hr] at this

/-! ## the string -/

theorem isdigit_digitChar {d : ℕ} (h : d < 10) : isdigit (digitChar d) = true := by
  rw [digitChar_lt h, isdigit_eq (by unfold IsChar; omega), decide_eq_true_iff]
  unfold Ctype.digit
  omega

theorem impl_digits (negative : Bool) (rest : List ℤ) (D : List ℕ) : ∀ (v : FV) (n : ℕ), (∀ d ∈ D, d < 10) →
    impl F L negative (D.map digitChar ++ rest) v n = impl F L negative rest (digits F v D) (n + D.length) := by
  induction D with
  | nil => intro v n _; rfl
  | cons d D ih =>
    intro v n hd
    rw [List.map_cons, List.cons_append, impl, if_pos (isdigit_digitChar (hd d (by simp))), ih _ _ (fun x hx => hd x (by simp [hx])),
      List.length_cons, show n + 1 + D.length = n + (D.length + 1) by ring]
    rfl

theorem decimal_digits (negative : Bool) (rest : List ℤ) (D : List ℕ) : ∀ (v : FV) (n m : ℕ), (∀ d ∈ D, d < 10) →
    decimal F L negative (D.map digitChar ++ rest) v n m =
      decimal F L negative rest (digits F v D) (n + D.length) (m + D.length) := by
  induction D with
  | nil => intro v n m _; rfl
  | cons d D ih =>
    intro v n m hd
    rw [List.map_cons, List.cons_append, decimal, if_pos (isdigit_digitChar (hd d (by simp))), ih _ _ _ (fun x hx => hd x (by simp [hx])),
      List.length_cons, show n + 1 + D.length = n + (D.length + 1) by ring, show m + 1 + D.length = m + (D.length + 1) by ring]
    rfl

theorem digits_append (v : FV) (D E : List ℕ) : digits F (digits F v D) E = digits F v (D ++ E) := by
  unfold digits
  rw [List.foldl_append]

theorem strToFloat_space (sp rest : List ℤ) (h : ∀ c ∈ sp, IsChar c ∧ Ctype.space c) :
    strToFloat F L (sp ++ rest) = strToFloat F L rest := by
  induction sp with
  | nil => rfl
  | cons c sp ih =>
    obtain ⟨h1, h2⟩ := h c (by simp)
    rw [List.cons_append, strToFloat, if_pos (by rw [isspace_eq h1, decide_eq_true_iff]; exact h2),
      ih (fun x hx => h x (by simp [hx]))]

theorem conv_neg (hL : L = CInt.int32 ∨ L = CInt.int64) {n : ℕ} (h : n < 2 ^ 31) : L.conv (0 - (n : ℤ)) = -(n : ℤ) := by
  rcases hL with rfl | rfl <;> simp only [CInt.conv, CInt.min, CInt.int32, CInt.int64, if_true] <;> omega

end Sprout.StrFloat

namespace Sprout.StrFloat

open Classical FV Fmt Ascii Spec

variable {F : Fmt} {L : CInt}

theorem evalFrom_lt (D : List ℕ) : ∀ a m, (∀ d ∈ D, d < 10) → a < 10 ^ m → evalFrom 10 a D < 10 ^ (m + D.length) := by
  induction D with
  | nil => intro a m _ h; exact h
  | cons d D ih =>
    intro a m hd h
    rw [evalFrom_cons, List.length_cons, show m + (D.length + 1) = (m + 1) + D.length by ring]
    refine ih _ _ (fun x hx => hd x (by simp [hx])) ?_
    have := hd d (by simp)
    rw [pow_succ]
    omega

/-- the string is read up to the end of the number; what remains is the scaling -/
theorem strToFloat_eq (hL : L = CInt.int32 ∨ L = CInt.int64) {d : DecStr} {c : ℤ} (w : d.Wf c) (rest : List ℤ)
    (hlen : d.frac.length < 2 ^ 31) (he : F.emin + F.p ≤ -(d.frac.length : ℤ)) :
    strToFloat F L (d.chars ++ c :: rest) = some (scale F (decide (-(d.frac.length : ℤ) < 0))
      (if d.sg = [0x2D] then (digits F (.zero false) (d.D1 ++ d.frac)).neg else digits F (.zero false) (d.D1 ++ d.frac))
      d.frac.length (F.ofInt 10)) := by
  obtain ⟨sp, sg, D1, D2⟩ := d
  obtain ⟨w1, w2, w3, w4, w5, w6, w7, w8, w9⟩ := w
  simp only [DecStr.chars] at *
  have hc : isdigit c = false := by rw [isdigit_eq w6, decide_eq_false_iff_not]; exact w7
  rw [List.append_assoc, strToFloat_space _ _ w1]
  -- the first character of the rest
  have first : ∀ neg : Bool, impl F L neg (List.map digitChar D1 ++ (DecStr.fracChars D2 ++ c :: rest)) (.zero false) 0
      = some (scale F (decide (-((DecStr.mk sp sg D1 D2).frac.length : ℤ) < 0))
      (if neg = true then (digits F (.zero false) (D1 ++ (DecStr.mk sp sg D1 D2).frac)).neg else digits F (.zero false) (D1 ++ (DecStr.mk sp sg D1 D2).frac))
      (DecStr.mk sp sg D1 D2).frac.length (F.ofInt 10)) := by
    intro neg
    have hemax : (0 : ℤ) ≤ F.emax := by have := F.p_lt_emax; omega
    rw [impl_digits _ _ _ _ _ w3]
    have fin1 : ∀ (v : FV) (n : ℕ) (k : ℕ), n ≠ 0 → F.emin + F.p ≤ -(k : ℤ) → decimal1 F L (c :: rest) neg v n (-(k : ℤ)) =
        some (scale F (decide (-(k : ℤ) < 0)) (if neg = true then v.neg else v) k (F.ofInt 10)) := by
      intro v n k hn hk
      rw [decimal1, if_neg hn, exponent0]
      simp only [rd, List.getElem?_cons_zero, Option.bind_eq_bind, Option.bind_some]
      rw [if_neg (by tauto), exponent2, if_pos ⟨hk, by omega⟩, Int.natAbs_neg, Int.natAbs_natCast]
    cases D2 with
    | none =>
      have w5' : D1 ++ [] ≠ [] := w5
      have hn : D1.length ≠ 0 := by simpa using w5'
      have h0 := fin1 (digits F (.zero false) D1) (0 + D1.length) 0 (by omega) he
      change impl F L neg (c :: rest) (digits F (.zero false) D1) (0 + D1.length) = some (scale F (decide (-((0 : ℕ) : ℤ) < 0))
        (if neg = true then (digits F (.zero false) (D1 ++ [])).neg else digits F (.zero false) (D1 ++ [])) 0 (F.ofInt 10))
      rw [List.append_nil, ← h0, impl, if_neg (by simp [hc]), if_neg (w9 rfl)]
      simp
    | some D =>
      have w5' : D1 ++ D ≠ [] := w5
      have w4' : ∀ x ∈ D, x < 10 := w4
      have hlen' : D.length < 2 ^ 31 := hlen
      have he' : F.emin + F.p ≤ -(D.length : ℤ) := he
      have hn : 0 + D1.length + D.length ≠ 0 := by
        have : (D1 ++ D).length ≠ 0 := by simpa using w5'
        rw [List.length_append] at this
        omega
      change impl F L neg (0x2E :: (D.map digitChar ++ c :: rest)) (digits F (.zero false) D1) (0 + D1.length) = some (scale F (decide (-(D.length : ℤ) < 0))
        (if neg = true then (digits F (.zero false) (D1 ++ D)).neg else digits F (.zero false) (D1 ++ D)) D.length (F.ofInt 10))
      rw [impl, if_neg (by decide +kernel), if_pos rfl, decimal_digits _ _ _ _ _ _ w4', decimal, if_neg (by simp [hc]),
        digits_append, zero_add D.length, conv_neg hL hlen', fin1 _ _ _ hn he']
  rcases w2 with rfl | rfl | rfl
  · rw [List.nil_append]
    have h1 := first false
    have hfirst : ∃ x t, List.map digitChar D1 ++ (DecStr.fracChars D2 ++ c :: rest) = x :: t ∧
        isspace x = false ∧ x ≠ 0x2D ∧ x ≠ 0x2B := by
      cases D1 with
      | cons d D1 =>
        have := w3 d (by simp)
        refine ⟨digitChar d, _, rfl, ?_, ?_, ?_⟩
        · rw [digitChar_lt this, isspace_eq (by unfold IsChar; omega), decide_eq_false_iff_not]
          unfold Ctype.space
          omega
        · rw [digitChar_lt this]; omega
        · rw [digitChar_lt this]; omega
      | nil =>
        cases D2 with
        | none => simp [DecStr.frac] at w5
        | some D => exact ⟨0x2E, _, rfl, by decide +kernel, by decide, by decide⟩
    obtain ⟨x, t, hx, hs, hm, hpl⟩ := hfirst
    rw [hx] at h1
    rw [List.append_assoc, hx, strToFloat, if_neg (by simp [hs]), if_neg hm, if_neg hpl, h1]
    simp
  · have h1 := first false
    rw [List.append_assoc, List.append_assoc, List.singleton_append, strToFloat, if_neg (by decide +kernel), if_neg (by decide), if_pos rfl, h1]
    simp
  · have h1 := first true
    rw [List.append_assoc, List.append_assoc, List.singleton_append, strToFloat, if_neg (by decide +kernel), if_pos rfl, h1]
    simp

end Sprout.StrFloat
