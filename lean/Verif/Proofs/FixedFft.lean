import Verif.Model.FixedFft
import Verif.Proofs.Fft3

/-!
# The Stockham transform
-/

namespace Sprout.Fourier
open Complex Finset

theorem mapM_range_some {α : Type} {f : Nat → Option α} {g : Nat → α} (n : Nat) (h : ∀ i, i < n → f i = some (g i)) :
    (List.range n).mapM f = some ((List.range n).map g) := by
  induction n with
  | zero => rfl
  | succ n ih =>
    rw [List.range_succ, List.mapM_append, ih (fun i hi => h i (by omega))]
    simp [h n (by omega)]

theorem gv_map_range {n i : Nat} {g : Nat → ℂ} (h : i < n) : gv ((List.range n).map g) i = g i := by
  rw [gv, List.getElem?_map, List.getElem?_range h]; rfl

/-- the root of unity of the table -/
noncomputable def zeta (inverse : Bool) (p : Nat) : ℂ := if inverse then W p else (W p)⁻¹

theorem zeta_pow (inverse : Bool) (p k : Nat) :
    zeta inverse p ^ k = exp (((if inverse then -1 else 1 : ℝ) * (2 * Real.pi) * k / 2 ^ p : ℝ) * I) := by
  rw [zeta]
  cases inverse with
  | true =>
    rw [if_pos rfl, if_pos rfl, W, om_pow]
    congr 1
    push_cast
    ring
  | false =>
    rw [if_neg (by simp), if_neg (by simp), W, inv_pow, om_pow, ← exp_neg]
    congr 1
    push_cast
    ring

theorem coeffLoop_eq (inverse : Bool) (p : Nat) : ∀ N, N ≤ p →
    coeffLoop inverse p N = (List.range (2 ^ N)).map (fun j => zeta inverse p ^ j) := by
  intro N
  induction N with
  | zero => intro _; simp [coeffLoop]; rfl
  | succ N ih =>
    intro hN
    rw [coeffLoop]
    simp only [ih (by omega)]
    rw [pow_succ, Nat.mul_two, List.range_add, List.map_append, List.map_map, List.map_map]
    congr 1
    apply List.map_congr_left
    intro j _
    simp only [Function.comp]
    rw [pow_add, mul_comm, cis_eq, zeta_pow inverse p (2 ^ N)]
    congr 3
    have h2 : (2 ^ p / 2 ^ N : Nat) = 2 ^ (p - N) := Nat.pow_div (by omega) (by omega)
    rw [h2]
    have h3 : (2 : ℂ) ^ p = 2 ^ (p - N) * 2 ^ N := by rw [← pow_add]; congr 1; omega
    push_cast
    rw [h3]
    field_simp

theorem zeta_half {inverse : Bool} {p : Nat} (hp : 0 < p) : zeta inverse p ^ 2 ^ (p - 1) = -1 := by
  obtain ⟨l, rfl⟩ : ∃ l, p = l + 1 := ⟨p - 1, by omega⟩
  have h : W (l + 1) ^ 2 ^ l = -1 := by
    rw [W, om_pow, show -(2 * (Real.pi : ℂ) * I * (2 ^ l : Nat) / (2 ^ (l + 1) : Nat)) = -(Real.pi * I) by
      push_cast; rw [pow_succ]; field_simp, exp_neg, exp_pi_mul_I]
    norm_num
  rw [Nat.add_sub_cancel, zeta]
  cases inverse with
  | true => rw [if_pos rfl, h]
  | false => rw [if_neg (by simp), inv_pow, h]; norm_num

theorem sum_even_odd (f : Nat → ℂ) (M : Nat) : ∑ l ∈ range (2 * M), f l = ∑ l ∈ range M, (f (2 * l) + f (2 * l + 1)) := by
  induction M with
  | zero => simp
  | succ M ih => rw [show 2 * (M + 1) = 2 * M + 1 + 1 by ring, sum_range_succ, sum_range_succ, ih, sum_range_succ]; ring

/-- element `i * 2 ^ t + j` before stage `t` -/
noncomputable def stk (x : List ℂ) (z : ℂ) (p t i j : Nat) : ℂ :=
  ∑ l ∈ range (2 ^ t), gv x (i + 2 ^ (p - t) * l) * (z ^ 2 ^ (p - t)) ^ (j * l)

theorem stk_step {x : List ℂ} {z : ℂ} {p t i j c : Nat} (ht : t < p) (hz : z ^ 2 ^ (p - 1) = -1) :
    stk x z p (t + 1) i (j + c * 2 ^ t) =
      stk x z p t i j + (-1) ^ c * (z ^ (j * 2 ^ (p - t - 1)) * stk x z p t (i + 2 ^ (p - t - 1)) j) := by
  have e1 : p - (t + 1) = p - t - 1 := by omega
  have e2 : 2 ^ (p - t) = 2 * 2 ^ (p - t - 1) := by
    rw [show p - t = p - t - 1 + 1 by omega, pow_succ]; simp; ring
  have hη : (z ^ 2 ^ (p - t - 1)) ^ 2 ^ t = -1 := by
    rw [← pow_mul, ← pow_add, show p - t - 1 + t = p - 1 by omega, hz]
  rw [stk, stk, stk, e1, e2, show 2 ^ (t + 1) = 2 * 2 ^ t by rw [pow_succ]; ring, sum_even_odd, pow_mul z j, mul_sum, mul_sum,
    ← sum_add_distrib]
  refine sum_congr rfl fun l _ => ?_
  have hz2 : z ^ (2 * 2 ^ (p - t - 1)) = (z ^ 2 ^ (p - t - 1)) ^ 2 := by rw [← pow_mul, Nat.mul_comm]
  have hzj : (z ^ j) ^ 2 ^ (p - t - 1) = (z ^ 2 ^ (p - t - 1)) ^ j := by rw [← pow_mul, ← pow_mul, Nat.mul_comm]
  rw [hz2, hzj]
  generalize z ^ 2 ^ (p - t - 1) = η at *
  have h1 : η ^ ((j + c * 2 ^ t) * (2 * l)) = (η ^ 2) ^ (j * l) := by
    rw [show (j + c * 2 ^ t) * (2 * l) = 2 * (j * l) + 2 ^ t * (2 * (c * l)) by ring, pow_add, pow_mul η (2 ^ t), hη, pow_mul η 2]
    simp
  have h2 : η ^ ((j + c * 2 ^ t) * (2 * l + 1)) = (-1) ^ c * (η ^ j * (η ^ 2) ^ (j * l)) := by
    rw [show (j + c * 2 ^ t) * (2 * l + 1) = (j + c * 2 ^ t) * (2 * l) + j + 2 ^ t * c by ring, pow_add, pow_add, h1, pow_mul η (2 ^ t), hη]
    ring
  rw [h1, h2, show 2 ^ (p - t - 1) * (2 * l) = 2 * 2 ^ (p - t - 1) * l by ring,
    show i + 2 ^ (p - t - 1) * (2 * l + 1) = i + 2 ^ (p - t - 1) + 2 * 2 ^ (p - t - 1) * l by ring]
  ring

theorem and_two_pow (idx t : Nat) : ((idx &&& 2 ^ t) != 0) = decide (idx / 2 ^ t % 2 = 1) := by
  have h : (idx &&& 2 ^ t) = 2 ^ t * (idx / 2 ^ t % 2) := by
    apply Nat.eq_of_testBit_eq
    intro i
    rw [Nat.testBit_and, Nat.testBit_two_pow]
    have : idx / 2 ^ t % 2 = 0 ∨ idx / 2 ^ t % 2 = 1 := by omega
    have ht : idx.testBit t = decide (idx / 2 ^ t % 2 = 1) := by
      rw [Nat.testBit_eq_decide_div_mod_eq]
    by_cases hi : t = i
    · subst hi
      rw [ht]
      rcases this with h | h <;> rw [h] <;> simp [Nat.testBit_two_pow_self]
    · rcases this with h | h <;> rw [h] <;> simp [hi, Nat.testBit_two_pow]
  rw [h]
  have h0 := Nat.two_pow_pos t
  have : idx / 2 ^ t % 2 = 0 ∨ idx / 2 ^ t % 2 = 1 := by omega
  rcases this with h | h <;> rw [h] <;> simp

theorem fixedButterfly_eq {x arr : List ℂ} {inverse : Bool} {p t : Nat} (ht : t < p) (hl : arr.length = 2 ^ p)
    (h : ∀ i j, i < 2 ^ (p - t) → j < 2 ^ t → gv arr (i * 2 ^ t + j) = stk x (zeta inverse p) p t i j) :
    ∃ b, fixedButterfly arr (2 ^ t) (coeffLoop inverse p p) = some b ∧ b.length = 2 ^ p ∧
      ∀ i j, i < 2 ^ (p - (t + 1)) → j < 2 ^ (t + 1) → gv b (i * 2 ^ (t + 1) + j) = stk x (zeta inverse p) p (t + 1) i j := by
  have h0 := Nat.two_pow_pos t
  have e1 : p - (t + 1) = p - t - 1 := by omega
  have et : 2 ^ (t + 1) = 2 ^ t * 2 := pow_succ 2 t
  have e2 : 2 ^ (p - t) = 2 * 2 ^ (p - t - 1) := by
    rw [show p - t = p - t - 1 + 1 by omega, pow_succ]; simp; ring
  have hh : 2 ^ p / 2 = 2 ^ (p - 1) := by
    rw [show p = p - 1 + 1 by omega, pow_succ]; simp
  have hq : 2 ^ (p - 1) / 2 ^ t = 2 ^ (p - t - 1) := by
    rw [Nat.pow_div (by omega) (by omega)]; congr 1; omega
  have hp1 : 2 ^ (p - t - 1) * 2 ^ t = 2 ^ (p - 1) := by rw [← pow_add]; congr 1; omega
  have hpp : 2 ^ (p - t - 1) * 2 ^ (t + 1) = 2 ^ p := by rw [← pow_add]; congr 1; omega
  have hp2 : 2 * 2 ^ (p - 1) = 2 ^ p := by rw [← pow_succ']; congr 1; omega
  let g : Nat → ℂ := fun idx => stk x (zeta inverse p) p (t + 1) (idx / 2 ^ (t + 1)) (idx % 2 ^ (t + 1))
  refine ⟨(List.range (2 ^ p)).map g, ?_, by simp, ?_⟩
  · rw [fixedButterfly, hl]
    apply mapM_range_some
    intro idx hidx
    have hi : idx / 2 ^ (t + 1) < 2 ^ (p - t - 1) := by
      rw [Nat.div_lt_iff_lt_mul (Nat.two_pow_pos _), hpp]; exact hidx
    have hj : idx % 2 ^ t < 2 ^ t := Nat.mod_lt _ h0
    have hsplit : idx % 2 ^ (t + 1) = idx % 2 ^ t + (idx / 2 ^ t % 2) * 2 ^ t := by
      rw [et, Nat.mod_mul]; ring
    rw [← et]
    simp only [g]
    rw [hsplit, stk_step ht (zeta_half (by omega)), and_two_pow]
    have a1 := h (idx / 2 ^ (t + 1)) (idx % 2 ^ t) (by omega) hj
    have a2 := h (idx / 2 ^ (t + 1) + 2 ^ (p - t - 1)) (idx % 2 ^ t) (by omega) hj
    rw [← a1, ← a2]
    generalize idx / 2 ^ (t + 1) = i at *
    generalize idx % 2 ^ t = j at *
    have hb2 : i * 2 ^ t + j + 2 ^ (p - 1) = (i + 2 ^ (p - t - 1)) * 2 ^ t + j := by rw [← hp1]; ring
    have hb : i * 2 ^ t + j < 2 ^ (p - 1) := by
      rw [← hp1]
      calc i * 2 ^ t + j < i * 2 ^ t + 2 ^ t := by omega
        _ = (i + 1) * 2 ^ t := by ring
        _ ≤ _ := Nat.mul_le_mul_right _ (by omega)
    have hjc : j * 2 ^ (p - t - 1) < 2 ^ p := by
      calc j * 2 ^ (p - t - 1) < 2 ^ t * 2 ^ (p - t - 1) := Nat.mul_lt_mul_of_pos_right hj (Nat.two_pow_pos _)
        _ = 2 ^ (p - 1) := by rw [Nat.mul_comm, hp1]
        _ < 2 ^ p := by rw [← hp2]; have := Nat.two_pow_pos (p - 1); omega
    rw [fixedElement, hl, hh, hq, rd_gv (by omega)]
    simp only [Option.bind_eq_bind, Option.bind_some]
    rw [coeffLoop_eq inverse p p (le_refl _), rd_gv (by simpa using hjc), Option.bind_some, gv_map_range hjc, hb2,
      rd_gv (by rw [← hb2]; omega), Option.bind_some]
    have : idx / 2 ^ t % 2 = 0 ∨ idx / 2 ^ t % 2 = 1 := by omega
    rcases this with hc | hc
    · rw [hc]; simp
    · rw [hc]; simp; ring
  · intro i j hi hj
    rw [e1] at hi
    have hlt : i * 2 ^ (t + 1) + j < 2 ^ p := by
      rw [← hpp]
      calc i * 2 ^ (t + 1) + j < i * 2 ^ (t + 1) + 2 ^ (t + 1) := by omega
        _ = (i + 1) * 2 ^ (t + 1) := by ring
        _ ≤ _ := Nat.mul_le_mul_right _ (by omega)
    rw [gv_map_range hlt]
    simp only [g]
    rw [Nat.mul_comm i, Nat.mul_add_div (Nat.two_pow_pos _), Nat.div_eq_of_lt hj, Nat.mul_add_mod, Nat.mod_eq_of_lt hj]
    rfl

theorem fftLoop_eq {x : List ℂ} {inverse : Bool} {p : Nat} : ∀ (s t : Nat) (arr : List ℂ), t + s = p → arr.length = 2 ^ p →
    (∀ i j, i < 2 ^ (p - t) → j < 2 ^ t → gv arr (i * 2 ^ t + j) = stk x (zeta inverse p) p t i j) →
    ∃ b, fftLoop arr (2 ^ t) (coeffLoop inverse p p) = some b ∧ b.length = 2 ^ p ∧ ∀ j, j < 2 ^ p → gv b j = stk x (zeta inverse p) p p 0 j := by
  intro s
  induction s with
  | zero =>
    intro t arr ht hl h
    have : t = p := by omega
    subst this
    rw [fftLoop, if_pos hl.symm]
    refine ⟨arr, rfl, hl, fun j hj => ?_⟩
    have := h 0 j (Nat.two_pow_pos _) hj
    rwa [Nat.zero_mul, Nat.zero_add] at this
  | succ s ih =>
    intro t arr ht hl h
    obtain ⟨b, e, hb, hv⟩ := fixedButterfly_eq (by omega) hl h
    have hne : 2 ^ t ≠ arr.length := by
      rw [hl]; intro h; have := Nat.pow_right_injective (le_refl 2) h; omega
    rw [fftLoop, if_neg hne, e, Option.bind_eq_bind, Option.bind_some, ← pow_succ]
    exact ih (t + 1) b (by omega) hb hv

theorem fftLoop_full {x : List ℂ} {inverse : Bool} {p : Nat} (hx : x.length = 2 ^ p) :
    fftLoop x 1 (coeffs inverse x.length) =
      some ((List.range x.length).map (fun k => ∑ j ∈ range x.length, gv x j * zeta inverse p ^ (j * k))) := by
  have hc : coeffs inverse x.length = coeffLoop inverse p p := by
    rw [coeffs, hx, Nat.log2_two_pow]
  obtain ⟨b, e, hb, hv⟩ := fftLoop_eq (x := x) (inverse := inverse) (p := p) p 0 x (by omega) hx (by
    intro i j hi hj
    have : j = 0 := by omega
    subst this
    rw [stk]; simp)
  rw [hc, ← pow_zero 2, e]
  refine congrArg some ?_
  apply List.ext_getElem?
  intro i
  by_cases hi : i < 2 ^ p
  · rw [List.getElem?_map, List.getElem?_range (by omega), List.getElem?_eq_getElem (by omega), ← gv_eq (by omega), hv i hi, stk, hx]
    simp only [Nat.sub_self, pow_zero, pow_one, Nat.zero_add, Nat.one_mul, Option.map_some, Nat.mul_comm i]
  · rw [List.getElem?_eq_none (by omega), List.getElem?_eq_none (by simp; omega)]

theorem zeta_false (p : Nat) : zeta false p = (om (2 ^ p))⁻¹ := rfl
theorem zeta_true (p : Nat) : zeta true p = om (2 ^ p) := rfl

/-! ### bitrev_table -/

theorem rev_testBit : ∀ (l j i : Nat), (rev l j).testBit i = (decide (i < l) && j.testBit (l - 1 - i)) := by
  intro l
  induction l with
  | zero => intro j i; simp [rev]
  | succ l ih =>
    intro j i
    have hr := rev_lt l (j / 2)
    have hc : j % 2 = 0 ∨ j % 2 = 1 := by omega
    have hb0 : j.testBit 0 = decide (j % 2 = 1) := by rw [Nat.testBit_zero]
    rw [rev]
    by_cases hi : i = l
    · subst hi
      rw [show i + 1 - 1 - i = 0 by omega, hb0]
      rcases hc with h | h
      · rw [h, Nat.mul_zero, Nat.zero_add, Nat.testBit_lt_two_pow hr]; simp
      · rw [h, Nat.mul_one, Nat.testBit_two_pow_add_eq, Nat.testBit_lt_two_pow hr]; simp
    · by_cases hlt : i < l
      · have e : (2 ^ l * (j % 2) + rev l (j / 2)).testBit i = (rev l (j / 2)).testBit i := by
          rcases hc with h | h
          · rw [h, Nat.mul_zero, Nat.zero_add]
          · rw [h, Nat.mul_one, Nat.testBit_two_pow_add_gt hlt]
        rw [e, ih, Nat.testBit_div_two, show l - 1 - i + 1 = l + 1 - 1 - i by omega]
        simp [hlt, show i < l + 1 by omega]
      · have hbig : 2 ^ l * (j % 2) + rev l (j / 2) < 2 ^ i := by
          have h1 : 2 ^ (l + 1) ≤ 2 ^ i := Nat.pow_le_pow_right (by omega) (by omega)
          rw [pow_succ] at h1
          rcases hc with h | h <;> rw [h] <;> omega
        rw [Nat.testBit_lt_two_pow hbig]
        simp; omega

end Sprout.Fourier
