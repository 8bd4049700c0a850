import Verif.Model.Fourier
import Verif.Spec.Fourier
import Verif.Proofs.Moves
import Mathlib.RingTheory.RootsOfUnity.Complex

/-!
# Sums of the discrete Fourier transform
-/

namespace Sprout.Fourier
open Complex Finset

/-- element `i`, or 0 -/
def gv (m : List ℂ) (i : Nat) : ℂ := (m[i]?).getD 0

theorem rd_gv {m : List ℂ} {i : Nat} (h : i < m.length) : rd m i = some (gv m i) := by
  rw [rd, gv, List.getElem?_eq_getElem h]; rfl

theorem gv_eq {m : List ℂ} {i : Nat} (h : i < m.length) : gv m i = m[i] := by
  rw [gv, List.getElem?_eq_getElem h]; rfl

theorem cis_eq (t : ℝ) : (⟨Real.cos t, Real.sin t⟩ : ℂ) = exp (t * I) := by
  apply Complex.ext
  · rw [exp_ofReal_mul_I_re]
  · rw [exp_ofReal_mul_I_im]

theorem genRa_eq {m : List ℂ} {arg : ℝ} : ∀ (n first last k : Nat), last - first = n → first < last → last ≤ m.length →
    genRa m first last arg (n / 2) k = some (∑ j ∈ range n, gv m (first + j) * exp ((arg * (k + j : Nat) : ℝ) * I)) := by
  intro n
  induction n using Nat.strongRecOn with
  | ind n ih =>
    intro first last k hn hl hm
    rw [genRa]
    by_cases h : n / 2 = 0
    · rw [if_pos h, rd_gv (by omega), Option.bind_eq_bind, Option.bind_some, cis_eq]
      have : n = 1 := by omega
      subst this
      rw [sum_range_one, Nat.add_zero, Nat.add_zero]
    · rw [if_neg h, ih (n / 2) (by omega) first (first + n / 2) k (by omega) (by omega) (by omega), Option.bind_eq_bind, Option.bind_some,
        show last - first - n / 2 = n - n / 2 by omega,
        ih (n - n / 2) (by omega) (first + n / 2) last (k + n / 2) (by omega) (by omega) hm, Option.bind_some]
      have e : n = n / 2 + (n - n / 2) := by omega
      conv_rhs => rw [e, sum_range_add]
      simp only [Nat.add_assoc]

theorem genI1_eq {m : List ℂ} {arg : ℝ} : ∀ (n first last k : Nat) (value : ℂ), last - first = n → first ≤ last → last ≤ m.length →
    genI1 m first last arg k value (arg * k) =
      some (value + ∑ j ∈ range n, gv m (first + j) * exp ((arg * (k + j : Nat) : ℝ) * I)) := by
  intro n
  induction n with
  | zero =>
    intro first last k value hn hl hm
    rw [genI1, if_pos (by omega), sum_range_zero, add_zero]
  | succ n ih =>
    intro first last k value hn hl hm
    have hk : arg * ((k : ℝ) + 1) = arg * ((k + 1 : Nat) : ℝ) := by push_cast; ring
    rw [genI1, if_neg (by omega), rd_gv (by omega), Option.bind_eq_bind, Option.bind_some, hk,
      ih (first + 1) last (k + 1) _ (by omega) (by omega) hm, Option.bind_some, cis_eq, sum_range_succ']
    simp only [Nat.add_zero, Nat.add_assoc, Nat.add_comm 1]
    rw [add_comm (gv m first * _)]

/-- both versions of the sum -/
theorem gen_eq {ra : Bool} {m : List ℂ} {arg : ℝ} {first last : Nat} (hl : first ≤ last) (hm : last ≤ m.length) :
    gen ra m first last arg = some (∑ j ∈ range (last - first), gv m (first + j) * exp ((arg * (j : Nat) : ℝ) * I)) := by
  rw [gen]
  cases ra with
  | true =>
    rw [if_pos rfl, genR]
    by_cases h : first = last
    · rw [if_pos h, h, Nat.sub_self, sum_range_zero]
    · rw [if_neg h, genRa_eq (last - first) first last 0 rfl (by omega) hm]
      simp only [Nat.zero_add]
  | false =>
    rw [if_neg (by simp), genI]
    have := genI1_eq (arg := arg) (m := m) (last - first) first last 0 0 rfl hl hm
    rw [Nat.cast_zero, mul_zero] at this
    rw [this, zero_add]
    simp only [Nat.zero_add]

/-- the elements `first … last` of a block -/
def slice (m : List ℂ) (first last : Nat) : List ℂ := (m.drop first).take (last - first)

theorem slice_length {m : List ℂ} {first last : Nat} (hl : first ≤ last) (hm : last ≤ m.length) :
    (slice m first last).length = last - first := by simp [slice]; omega

theorem slice_getElem {m : List ℂ} {first last : Nat} {j : Nat} (hj : j < (slice m first last).length) :
    (slice m first last)[j] = gv m (first + j) := by
  have h : j < last - first ∧ j < m.length - first := by simpa [slice] using hj
  rw [gv_eq (by omega)]
  simp [slice]

theorem sum_slice {m : List ℂ} {first last : Nat} (hl : first ≤ last) (hm : last ≤ m.length) (f : Nat → ℂ) :
    ∑ j : Fin (slice m first last).length, (slice m first last)[j] * f j =
      ∑ j ∈ range (last - first), gv m (first + j) * f j := by
  rw [← slice_length hl hm, ← Fin.sum_univ_eq_sum_range (fun j => gv m (first + j) * f j)]
  apply Finset.sum_congr rfl
  intro j _
  rw [← slice_getElem (last := last) j.2]
  rfl

theorem dftElement_eq {ra : Bool} {m : List ℂ} {first last : Nat} (hl : first ≤ last) (hm : last ≤ m.length) (i : Nat) :
    dftElement ra m first last i = some (Spec.dftCoeff (slice m first last) i) := by
  rw [dftElement, dftElementImpl, gen_eq hl hm, Spec.dftCoeff,
    sum_slice hl hm (fun j => exp (-(2 * Real.pi * I * j * i / (slice m first last).length))), slice_length hl hm]
  refine congrArg some (sum_congr rfl fun j _ => ?_)
  congr 2
  push_cast
  ring

theorem idftElement_eq {ra : Bool} {m : List ℂ} {first last : Nat} (hl : first ≤ last) (hm : last ≤ m.length) (i : Nat) :
    idftElement ra m first last i = some (Spec.idftCoeff (slice m first last) i) := by
  rw [idftElement, idftElementImpl, gen_eq hl hm, Option.bind_eq_bind, Option.bind_some, Spec.idftCoeff,
    sum_slice hl hm (fun j => exp (2 * Real.pi * I * j * i / (slice m first last).length)), slice_length hl hm]
  refine congrArg some ?_
  have : ∀ z : ℂ, (⟨z.re / (last - first : Nat), z.im / (last - first : Nat)⟩ : ℂ) = z / (last - first : Nat) := by
    intro z
    apply Complex.ext
    · rw [div_natCast_re]
    · rw [div_natCast_im]
  rw [this]
  congr 1
  refine sum_congr rfl fun j _ => ?_
  congr 2
  push_cast
  ring

/-! ### the inverse -/

/-- `exp(-2πi / n)` -/
noncomputable def om (n : Nat) : ℂ := exp (-(2 * Real.pi * I / n))

theorem om_pow (n k : Nat) : om n ^ k = exp (-(2 * Real.pi * I * k / n)) := by
  rw [om, ← exp_nat_mul]; congr 1; ring

theorem om_pow_self {n : Nat} (hn : n ≠ 0) : om n ^ n = 1 := by
  rw [om_pow, show -(2 * (Real.pi : ℂ) * I * n / n) = -(2 * Real.pi * I) by field_simp, exp_neg, exp_two_pi_mul_I, inv_one]

theorem om_prim {n : Nat} (hn : n ≠ 0) : IsPrimitiveRoot (om n) n := by
  rw [om, exp_neg]
  exact (isPrimitiveRoot_exp n hn).inv

theorem dftCoeff_eq (x : List ℂ) (k : Nat) :
    Spec.dftCoeff x k = ∑ j ∈ range x.length, gv x j * om x.length ^ (j * k) := by
  rw [Spec.dftCoeff, ← Fin.sum_univ_eq_sum_range (fun j => gv x j * om x.length ^ (j * k))]
  refine sum_congr rfl fun j _ => ?_
  rw [gv_eq j.2, om_pow]
  congr 2
  push_cast
  ring

theorem idftCoeff_eq (x : List ℂ) (k : Nat) :
    Spec.idftCoeff x k = (∑ j ∈ range x.length, gv x j * (om x.length)⁻¹ ^ (j * k)) / x.length := by
  rw [Spec.idftCoeff, ← Fin.sum_univ_eq_sum_range (fun j => gv x j * (om x.length)⁻¹ ^ (j * k))]
  congr 1
  refine sum_congr rfl fun j _ => ?_
  rw [gv_eq j.2, inv_pow, om_pow, exp_neg, inv_inv]
  congr 2
  push_cast
  ring

theorem ortho {n a b : Nat} (hn : n ≠ 0) (ha : a < n) (hb : b < n) :
    ∑ k ∈ range n, om n ^ (a * k) * (om n)⁻¹ ^ (k * b) = if a = b then (n : ℂ) else 0 := by
  have hp := om_prim hn
  have h0 : om n ≠ 0 := hp.ne_zero hn
  have e : ∀ k, om n ^ (a * k) * (om n)⁻¹ ^ (k * b) = (om n ^ a * (om n)⁻¹ ^ b) ^ k := by
    intro k; rw [mul_pow, ← pow_mul, ← pow_mul, Nat.mul_comm k b]
  simp only [e]
  by_cases h : a = b
  · rw [if_pos h, h, ← mul_pow, mul_inv_cancel₀ h0]; simp
  · rw [if_neg h]
    have hz : om n ^ a * (om n)⁻¹ ^ b ≠ 1 := by
      intro hz
      apply h
      have : om n ^ a = om n ^ b := by
        rw [inv_pow] at hz
        have := mul_inv_eq_one₀ (pow_ne_zero b h0) |>.1 hz
        exact this
      exact hp.pow_inj ha hb this
    have hs := mul_geom_sum (om n ^ a * (om n)⁻¹ ^ b) n
    have h1 : (om n ^ a * (om n)⁻¹ ^ b) ^ n = 1 := by
      rw [mul_pow, ← pow_mul, ← pow_mul, Nat.mul_comm a, Nat.mul_comm b, pow_mul, pow_mul, inv_pow, om_pow_self hn]; simp
    rw [h1, sub_self] at hs
    rcases mul_eq_zero.1 hs with h' | h'
    · exact absurd (sub_eq_zero.1 h') hz
    · exact h'

theorem spec_dft_length (x : List ℂ) : (Spec.dft x).length = x.length := by simp [Spec.dft]

theorem spec_dft_getElem? {x : List ℂ} {k : Nat} (h : k < x.length) : (Spec.dft x)[k]? = some (Spec.dftCoeff x k) := by
  rw [Spec.dft, List.getElem?_map, List.getElem?_range h]; rfl

theorem spec_idft_dft (x : List ℂ) : Spec.idft (Spec.dft x) = x := by
  apply List.ext_getElem?
  intro i
  by_cases hi : i < x.length
  · rw [Spec.idft, spec_dft_length, List.getElem?_map, List.getElem?_range hi, List.getElem?_eq_getElem hi, Option.map_some]
    refine congrArg some ?_
    have hn : x.length ≠ 0 := by omega
    rw [idftCoeff_eq, spec_dft_length]
    have : ∀ k ∈ range x.length, gv (Spec.dft x) k * (om x.length)⁻¹ ^ (k * i) =
        ∑ j ∈ range x.length, gv x j * (om x.length ^ (j * k) * (om x.length)⁻¹ ^ (k * i)) := by
      intro k hk
      rw [gv, spec_dft_getElem? (mem_range.1 hk), Option.getD_some, dftCoeff_eq, sum_mul]
      exact sum_congr rfl fun j _ => by ring
    rw [sum_congr rfl this, sum_comm]
    have : ∀ j ∈ range x.length, ∑ k ∈ range x.length, gv x j * (om x.length ^ (j * k) * (om x.length)⁻¹ ^ (k * i)) =
        if j = i then gv x j * x.length else 0 := by
      intro j hj
      rw [← mul_sum, ortho hn (mem_range.1 hj) hi]
      split <;> simp
    rw [sum_congr rfl this, sum_ite_eq', if_pos (mem_range.2 hi), gv_eq hi, mul_div_assoc, div_self (by exact_mod_cast hn), mul_one]
  · rw [List.getElem?_eq_none (by simpa [Spec.idft, spec_dft_length] using hi), List.getElem?_eq_none (by omega)]

end Sprout.Fourier
