import Verif.Proofs.MathPow

/-!
# The calculus `Near` with relative errors

`NearR C v a A k`: the value `v` differs from the number `a` by at most `k` half epsilons of `A`, where `|a| ≤ A`.
-/

namespace Sprout

open Fmt

def NearR (C : Fmt) (v : FV) (a A k : ℝ) : Prop := Near C v a A (A * (1 + k * C.u))

namespace Fmt

variable {C : Fmt}

theorem one_grid (w : C.Big) {x : ℝ} (hr : Rep C.p C.emin x) (h : 1 / 2 ≤ x) : ∃ m : ℤ, x - 1 = m * C.u := by
  obtain ⟨m, hm⟩ := hr.grid' (e := -C.p) (by
    rw [show (C.p : ℤ) - 1 + -C.p = -1 by ring]; norm_num; linarith)
  have e1 : (1 : ℝ) = (2 ^ C.p : ℤ) * C.u := by
    unfold u
    push_cast
    rw [← zpow_natCast, ← zpow_add₀ (by norm_num), add_neg_cancel, zpow_zero]
  have e : (2 : ℝ) ^ (-(C.p : ℤ)) = C.u := rfl
  rw [e] at hm
  refine ⟨m - 2 ^ C.p, ?_⟩
  rw [hm, Int.cast_sub, sub_mul, ← e1]

/-- a tiny number is absorbed by one -/
theorem rnd_one (w : C.Big) {x : ℝ} (h : |x| < C.u / 2) : C.rnd (1 + x) = 1 := by
  have hu := u_pos (F := C)
  have hu8 := w.u_small
  have h1 : Rep C.p C.emin 1 := by
    have := has_int C 1 (by norm_num) (by
      rw [abs_of_pos (by norm_num)]
      exact one_le_pow₀ (by norm_num))
    exact_mod_cast this.2.1
  have h2 := C.rnd_near (1 + x) 1 h1
  have e : |1 - (1 + x)| = |x| := by rw [show (1 : ℝ) - (1 + x) = -x by ring, abs_neg]
  have e' : |1 + x - 1| = |x| := by rw [show (1 : ℝ) + x - 1 = x by ring]
  have h3 : |C.rnd (1 + x) - (1 + x)| ≤ |x| := by
    first
    | exact le_trans h2 (le_of_eq e)
    | (rw [abs_sub_comm]; exact le_trans h2 (le_of_eq e'))
  have h4 := abs_le.1 h3
  have h5 := abs_lt.1 h
  obtain ⟨m, hm⟩ := one_grid w (C.rnd_rep (1 + x)) (by linarith [h4.1])
  have h6 : |(m : ℝ)| * C.u < 1 * C.u := by
    rw [← abs_of_pos hu, ← abs_mul, abs_of_pos hu, ← hm, abs_lt]
    constructor <;> linarith [h4.1, h4.2, h5.1, h5.2]
  have h7 : |(m : ℝ)| < 1 := lt_of_mul_lt_mul_right h6 (le_of_lt hu)
  have h8 : m = 0 := by
    have : |m| < 1 := by exact_mod_cast h7
    rw [abs_lt] at this
    omega
  rw [h8] at hm
  push_cast at hm
  linarith

end Fmt

namespace NearR

variable {C : Fmt}

theorem big_max30 (w : C.Big) : (10 : ℝ) ^ 60 ≤ (2 : ℝ) ^ (C.emax - 1) := by
  refine le_trans ?_ (le_trans (zpow_le_zpow_right₀ (by norm_num) (show (200 : ℤ) ≤ 1023 by norm_num)) w.emax_ge)
  norm_num

theorem eta_rel (w : C.Big) : (2 : ℝ) ^ C.emin ≤ C.u * (1 / 10 ^ 60) := by
  have h1 := w.eta_le
  have h2 := w.u_ge
  have h3 : (2 : ℝ) ^ (-1074 : ℤ) ≤ (2 : ℝ) ^ (-113 : ℤ) * (1 / 10 ^ 60) := by
    have e : (2 : ℝ) ^ (-1074 : ℤ) = (2 : ℝ) ^ (-113 : ℤ) * (2 : ℝ) ^ (-961 : ℤ) := by
      rw [← zpow_add₀ (by norm_num)]; norm_num
    rw [e]
    refine mul_le_mul_of_nonneg_left ?_ (by positivity)
    refine le_trans (zpow_le_zpow_right₀ (by norm_num) (show (-961 : ℤ) ≤ -200 by norm_num)) ?_
    norm_num
  exact le_trans h1 (le_trans h3 (mul_le_mul_of_nonneg_right h2 (by positivity)))

theorem err {v : FV} {a A k : ℝ} (h : NearR C v a A k) : ∃ r, Val v r ∧ Rep C.p C.emin r ∧ |r - a| ≤ k * C.u * A := by
  obtain ⟨r, h1, h2, h3, h4⟩ := h
  refine ⟨r, h1, h2, le_trans h4 (le_of_eq (by ring))⟩

theorem of_err {v : FV} {r a A k : ℝ} (h1 : Val v r) (h2 : Rep C.p C.emin r) (h3 : |a| ≤ A) (h4 : |r - a| ≤ k * C.u * A) :
    NearR C v a A k := ⟨r, h1, h2, h3, le_trans h4 (le_of_eq (by ring))⟩

theorem num {r : ℝ} (h0 : r ≠ 0) (hr : Rep C.p C.emin r) : NearR C (.num r) r |r| 0 :=
  of_err (Val.num h0) hr (le_refl _) (by simp)

theorem mono {v : FV} {a A k l : ℝ} (h : NearR C v a A k) (hA : 0 ≤ A) (hk : k ≤ l) : NearR C v a A l := by
  have hu := u_pos (F := C)
  refine Near.mono h ?_
  have := mul_le_mul_of_nonneg_right hk (le_of_lt hu)
  have := mul_le_mul_of_nonneg_left this hA
  linarith

theorem neg {v : FV} {a A k : ℝ} (h : NearR C v a A k) : NearR C v.neg (-a) A k := Near.neg h

theorem small (w : C.Big) {k : ℝ} (hk0 : 0 ≤ k) (hk : k ≤ 1000) : 0 ≤ k * C.u ∧ k * C.u ≤ 1 / 1000000000000 := by
  have hu := u_pos (F := C)
  have hu8 := w.u_small
  refine ⟨by positivity, ?_⟩
  calc k * C.u ≤ 1000 * (1 / 9007199254740992) := mul_le_mul hk hu8 (le_of_lt hu) (by norm_num)
    _ ≤ _ := by norm_num

/-- product of two factors -/
theorem fac (w : C.Big) {k l : ℝ} (hk0 : 0 ≤ k) (hk : k ≤ 1000) (hl0 : 0 ≤ l) (hl : l ≤ 1000) :
    (1 + C.u) * ((1 + k * C.u) * (1 + l * C.u)) ≤ 1 + (k + l + 3 / 2) * C.u := by
  have hu := u_pos (F := C)
  have hu8 := w.u_small
  obtain ⟨a1, a2⟩ := small w hk0 hk
  obtain ⟨b1, b2⟩ := small w hl0 hl
  have c1 : k * C.u * (l * C.u) ≤ 1000 * C.u * (1 / 1000000000000) :=
    mul_le_mul (mul_le_mul_of_nonneg_right hk (le_of_lt hu)) b2 b1 (by positivity)
  have c2 : C.u * (k * C.u) ≤ C.u * (1 / 1000000000000) := mul_le_mul_of_nonneg_left a2 (le_of_lt hu)
  have c3 : C.u * (l * C.u) ≤ C.u * (1 / 1000000000000) := mul_le_mul_of_nonneg_left b2 (le_of_lt hu)
  have c4 : C.u * (k * C.u * (l * C.u)) ≤ 1 * (1000 * C.u * (1 / 1000000000000)) :=
    mul_le_mul (by linarith) c1 (by positivity) (by norm_num)
  linarith

theorem mul (w : C.Big) {v v' : FV} {a b A B k l : ℝ} (h : NearR C v a A k) (h' : NearR C v' b B l)
    (hk0 : 0 ≤ k) (hk : k ≤ 1000) (hl0 : 0 ≤ l) (hl : l ≤ 1000) (hlo : 1 / 10 ^ 50 ≤ A * B) (hhi : A * B ≤ 10 ^ 50) :
    NearR C (C.mul v v') (a * b) (A * B) (k + l + 2) := by
  have hu := u_pos (F := C)
  have hu8 := w.u_small
  have hf := fac w hk0 hk hl0 hl
  have hη := eta_rel w
  have hM := big_max30 w
  have hP : 0 < A * B := lt_of_lt_of_le (by positivity) hlo
  have e : (1 + C.u) * (A * (1 + k * C.u) * (B * (1 + l * C.u))) = A * B * ((1 + C.u) * ((1 + k * C.u) * (1 + l * C.u))) := by ring
  have h1 : (1 + C.u) * (A * (1 + k * C.u) * (B * (1 + l * C.u))) + (2 : ℝ) ^ C.emin / 2 ≤ A * B * (1 + (k + l + 2) * C.u) := by
    rw [e]
    have h2 := mul_le_mul_of_nonneg_left hf (le_of_lt hP)
    have h3 : (2 : ℝ) ^ C.emin ≤ C.u * (A * B) := by
      refine le_trans hη (mul_le_mul_of_nonneg_left (le_trans ?_ hlo) (le_of_lt hu))
      norm_num
    linarith
  obtain ⟨a1, a2⟩ := small w hk0 hk
  obtain ⟨b1, b2⟩ := small w hl0 hl
  refine (Near.mul h h' (le_trans h1 (le_trans ?_ hM))).mono h1
  calc A * B * (1 + (k + l + 2) * C.u) ≤ 10 ^ 50 * 2 := mul_le_mul hhi (by linarith) (by
        have : (k + l + 2) * C.u ≥ 0 := by positivity
        linarith) (by positivity)
    _ ≤ _ := by norm_num

theorem div (w : C.Big) {v v' : FV} {a b A k l : ℝ} (h : NearR C v a A k) (h' : NearR C v' b b l)
    (hk0 : 0 ≤ k) (hk : k ≤ 1000) (hl0 : 0 ≤ l) (hl : l ≤ 500) (hb : 0 < b) (hlo : 1 / 10 ^ 50 ≤ A / b) (hhi : A / b ≤ 10 ^ 50) :
    NearR C (C.div v v') (a / b) (A / b) (k + l + 3) := by
  have hu := u_pos (F := C)
  have hu8 := w.u_small
  have hf := fac w hk0 hk (show 0 ≤ l + 1 by linarith) (show l + 1 ≤ 1000 by linarith)
  have hη := eta_rel w
  have hM := big_max30 w
  have hP : 0 < A / b := lt_of_lt_of_le (by positivity) hlo
  obtain ⟨a1, a2⟩ := small w hk0 hk
  obtain ⟨b1, b2⟩ := small w hl0 (show l ≤ 1000 by linarith)
  have hi : 1 / (1 - l * C.u) ≤ 1 + (l + 1) * C.u := by
    rw [div_le_iff₀ (by linarith)]
    have : l * C.u * (l * C.u) ≤ 500 * C.u * (1 / 1000000000000) :=
      mul_le_mul (mul_le_mul_of_nonneg_right hl (le_of_lt hu)) b2 b1 (by positivity)
    nlinarith
  have e : (1 + C.u) * (A * (1 + k * C.u) / (2 * b - b * (1 + l * C.u))) =
      A / b * ((1 + C.u) * ((1 + k * C.u) * (1 / (1 - l * C.u)))) := by
    have : 1 - l * C.u ≠ 0 := by linarith
    have : 2 * b - b * (1 + l * C.u) = b * (1 - l * C.u) := by ring
    rw [this]
    field_simp
  have h0 : (1 + C.u) * ((1 + k * C.u) * (1 / (1 - l * C.u))) ≤ 1 + (k + (l + 1) + 3 / 2) * C.u := by
    refine le_trans ?_ hf
    exact mul_le_mul_of_nonneg_left (mul_le_mul_of_nonneg_left hi (by linarith)) (by linarith)
  have h1 : (1 + C.u) * (A * (1 + k * C.u) / (2 * b - b * (1 + l * C.u))) + (2 : ℝ) ^ C.emin / 2 ≤ A / b * (1 + (k + l + 3) * C.u) := by
    rw [e]
    have h2 := mul_le_mul_of_nonneg_left h0 (le_of_lt hP)
    have h3 : (2 : ℝ) ^ C.emin ≤ C.u * (A / b) := by
      refine le_trans hη (mul_le_mul_of_nonneg_left (le_trans ?_ hlo) (le_of_lt hu))
      norm_num
    linarith
  refine (Near.div h h' hb (by nlinarith) (le_trans h1 (le_trans ?_ hM))).mono h1
  calc A / b * (1 + (k + l + 3) * C.u) ≤ 10 ^ 50 * 2 := mul_le_mul hhi (by linarith) (by
        have : (k + l + 3) * C.u ≥ 0 := by positivity
        linarith) (by positivity)
    _ ≤ _ := by norm_num

theorem add (w : C.Big) {v v' : FV} {a b A B k : ℝ} (h : NearR C v a A k) (h' : NearR C v' b B k)
    (hk0 : 0 ≤ k) (hk : k ≤ 1000) (hA : 0 ≤ A) (hB : 0 ≤ B) (hhi : A + B ≤ 10 ^ 50) :
    NearR C (C.add v v') (a + b) (A + B) (k + 2) := by
  have hu := u_pos (F := C)
  have hu8 := w.u_small
  have hf := fac w hk0 hk (le_refl 0) (by norm_num)
  have hM := big_max30 w
  obtain ⟨a1, a2⟩ := small w hk0 hk
  have hS : 0 ≤ A + B := by linarith
  have h1 : (1 + C.u) * (A * (1 + k * C.u) + B * (1 + k * C.u)) ≤ (A + B) * (1 + (k + 2) * C.u) := by
    have h2 := mul_le_mul_of_nonneg_left hf hS
    have h3 := mul_nonneg hS (le_of_lt hu)
    nlinarith
  refine (Near.add h h' (le_trans h1 (le_trans ?_ hM))).mono h1
  calc (A + B) * (1 + (k + 2) * C.u) ≤ 10 ^ 50 * 2 := mul_le_mul hhi (by linarith) (by
        have : (k + 2) * C.u ≥ 0 := by positivity
        linarith) (by positivity)
    _ ≤ _ := by norm_num

theorem sub (w : C.Big) {v v' : FV} {a b A B k : ℝ} (h : NearR C v a A k) (h' : NearR C v' b B k)
    (hk0 : 0 ≤ k) (hk : k ≤ 1000) (hA : 0 ≤ A) (hB : 0 ≤ B) (hhi : A + B ≤ 10 ^ 50) :
    NearR C (C.sub v v') (a - b) (A + B) (k + 2) := by
  have := add w h h'.neg hk0 hk hA hB hhi
  rw [sub_eq_add_neg]
  exact this

end NearR

end Sprout
