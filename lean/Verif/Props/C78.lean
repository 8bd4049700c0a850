import Verif.Proofs.FixedFft
import Verif.Props.C23
import Verif.Props.C24

/-!
# C78: `fixed::fft`, its table of coefficients, and `bitrev_table`

Arithmetic is exact.
-/

namespace Sprout
open Fourier Complex Spec

/-- the table of coefficients: powers of `exp(2πi / 2^p)`, for the inverse of `exp(-2πi / 2^p)` -/
theorem C78_coefficients (p : Nat) :
    coeffs false (2 ^ p) = (List.range (2 ^ p)).map (fun j : Nat => exp (2 * Real.pi * I * j / (2 ^ p : Nat))) ∧
    coeffs true (2 ^ p) = (List.range (2 ^ p)).map (fun j : Nat => exp (-(2 * Real.pi * I * j / (2 ^ p : Nat)))) := by
  constructor <;> rw [coeffs, Nat.log2_two_pow, coeffLoop_eq _ p p (le_refl _)] <;>
    refine List.map_congr_left fun j _ => ?_
  · rw [zeta_false, inv_pow, om_pow, ← exp_neg, neg_neg]
  · rw [zeta_true, om_pow]

/-- the input of the transform: cut off, or filled up with zeroes -/
noncomputable def padded (n : Nat) (x : List ℂ) : List ℂ := x.take n ++ List.replicate (n - x.length) 0

private theorem padded_length (n : Nat) (x : List ℂ) : (padded n x).length = n := by simp [padded]; omega

private theorem makeInput_eq (n : Nat) (x : List ℂ) : makeInput n x = some (padded n x) := by
  rw [makeInput, mapM_range_some (g := gv x)]
  · refine congrArg some (List.ext_getElem? fun i => ?_)
    rw [List.getElem?_map]
    by_cases hi : i < n
    · rw [List.getElem?_range hi, Option.map_some, padded]
      by_cases hx : i < x.length
      · rw [List.getElem?_append_left (by simp; omega), List.getElem?_take_of_lt hi, gv_eq hx, List.getElem?_eq_getElem hx]
      · rw [List.getElem?_append_right (by simp; omega), gv, List.getElem?_eq_none (by omega), List.getElem?_replicate, if_pos (by simp; omega)]
        rfl
    · rw [List.getElem?_eq_none (by simpa using hi), List.getElem?_eq_none (by rw [padded_length]; omega)]; rfl
  · intro i hi
    by_cases hx : i < x.length
    · rw [if_pos hx, rd_gv hx]
    · rw [if_neg hx, gv, List.getElem?_eq_none (by omega)]; rfl

/-- `fixed::fft` computes sums with the wrong sign of the exponent: element `k` is `∑ x j * exp(+2πijk / n)`.
*Partial*: it should be the discrete Fourier transform. -/
theorem C78_fixed_fft_partial (p : Nat) (x : List ℂ) :
    fixedFft (2 ^ p) x = some ((List.range (2 ^ p)).map (fun k : Nat =>
      ∑ j : Fin (2 ^ p), ((padded (2 ^ p) x)[j]'(by rw [padded_length]; exact j.2)) * exp (2 * Real.pi * I * j * k / (2 ^ p : Nat)))) := by
  rw [fixedFft, makeInput_eq, Option.bind_eq_bind, Option.bind_some]
  have := fftLoop_full (inverse := false) (p := p) (padded_length (2 ^ p) x)
  rw [padded_length] at this
  rw [this]
  refine congrArg some (List.map_congr_left fun k _ => ?_)
  rw [← Fin.sum_univ_eq_sum_range (fun j => gv (padded (2 ^ p) x) j * zeta false p ^ (j * k))]
  refine Finset.sum_congr rfl fun j _ => ?_
  rw [gv_eq (by rw [padded_length]; exact j.2), zeta_false, inv_pow, om_pow, ← exp_neg, neg_neg]
  congr 2
  push_cast
  ring

private theorem fixedFft_eq {p : Nat} {x : List ℂ} (hx : x.length = 2 ^ p) :
    fixedFft (2 ^ p) x = some ((List.range x.length).map (fun k => ∑ j ∈ Finset.range x.length, gv x j * zeta false p ^ (j * k))) := by
  rw [fixedFft, makeInput_eq, Option.bind_eq_bind, Option.bind_some, show padded (2 ^ p) x = x by simp [padded, hx],
    show coeffs false (2 ^ p) = coeffs false x.length by rw [hx], fftLoop_full (inverse := false) hx]

/-- so it agrees neither with `dft` nor with the `fft` of C++14: element 1 of the transform of `0 1 0 0` is `i` instead of `-i` -/
theorem C78_fixed_fft_refuted :
    (∃ y, fixedFft 4 [0, 1, 0, 0] = some y ∧ y[1]? = some I) ∧ (Spec.dft [0, 1, 0, 0])[1]? = some (-I) ∧
    (∃ y, fft [0, 1, 0, 0] = some y ∧ y[1]? = some (-I)) := by
  have hw : om 4 = -I := by
    have := W_quarter 0
    rwa [pow_zero, pow_one] at this
  have hd : (Spec.dft [0, 1, 0, 0])[1]? = some (-I) := by
    rw [spec_dft_getElem? (by simp), dftCoeff_eq]
    simp [Finset.sum_range_succ, gv, hw]
  refine ⟨⟨_, fixedFft_eq (p := 2) rfl, ?_⟩, hd, _, fft_eq (p := 2) rfl, hd⟩
  rw [List.getElem?_map, List.getElem?_range (by simp), Option.map_some, zeta_false, show 2 ^ 2 = 4 from rfl, hw]
  simp [Finset.sum_range_succ, gv]

/-- the parts of `fixed::ifft` that compile undo it -/
theorem C78_inverse (p : Nat) (x : List ℂ) (hx : x.length = 2 ^ p) : (fixedFft (2 ^ p) x).bind fixedIfftArr = some x := by
  rw [fixedFft_eq hx, Option.bind_some, fixedIfftArr]
  generalize hy : (List.range x.length).map (fun k => ∑ j ∈ Finset.range x.length, gv x j * zeta false p ^ (j * k)) = y
  have hyl : y.length = x.length := by rw [← hy]; simp
  have hn : x.length ≠ 0 := by rw [hx]; exact (Nat.two_pow_pos p).ne'
  rw [fftLoop_full (inverse := true) (p := p) (by omega), Option.bind_eq_bind, Option.bind_some]
  refine congrArg some (List.ext_getElem? fun i => ?_)
  rw [List.map_map, List.getElem?_map, hyl]
  by_cases hi : i < x.length
  · rw [List.getElem?_range hi, Option.map_some, List.getElem?_eq_getElem hi]
    refine congrArg some ?_
    simp only [Function.comp]
    have hd : ∀ z : ℂ, (⟨z.re / (x.length : ℝ), z.im / (x.length : ℝ)⟩ : ℂ) = z / x.length := by
      intro z
      apply Complex.ext
      · rw [div_natCast_re]
      · rw [div_natCast_im]
    rw [hd]
    have e : ∀ k ∈ Finset.range x.length, gv y k * zeta true p ^ (k * i) =
        ∑ j ∈ Finset.range x.length, gv x j * (om x.length ^ (i * k) * (om x.length)⁻¹ ^ (k * j)) := by
      intro k hk
      rw [← hy, gv_map_range (Finset.mem_range.1 hk), Finset.sum_mul]
      refine Finset.sum_congr rfl fun j _ => ?_
      rw [zeta_true, zeta_false, hx, Nat.mul_comm k i, Nat.mul_comm k j]
      ring
    rw [Finset.sum_congr rfl e, Finset.sum_comm]
    have : ∀ j ∈ Finset.range x.length, ∑ k ∈ Finset.range x.length, gv x j * (om x.length ^ (i * k) * (om x.length)⁻¹ ^ (k * j)) =
        if j = i then gv x j * x.length else 0 := by
      intro j hj
      rw [← Finset.mul_sum, ortho hn hi (Finset.mem_range.1 hj)]
      by_cases h : i = j
      · rw [if_pos h, if_pos h.symm]
      · rw [if_neg h, if_neg (fun e => h e.symm), mul_zero]
    rw [Finset.sum_congr rfl this, Finset.sum_ite_eq', if_pos (Finset.mem_range.2 hi), gv_eq hi, mul_div_assoc,
      div_self (by exact_mod_cast hn), mul_one]
  · rw [List.getElem?_eq_none (by simpa using hi), List.getElem?_eq_none (by omega)]; rfl

/-! ### bitrev_table -/

/-- `r` is `i` with the low `p` bits reversed -/
def BitReversed (p i r : Nat) : Prop := r < 2 ^ p ∧ ∀ b, b < p → r.testBit b = i.testBit (p - 1 - b)

/-- the table of `2 ^ p` elements, `p > 0`, of an integer type of `w ≥ p` bits: element `i` is `i` reversed -/
theorem C78_bitrev_table_partial (w p : Nat) (hw : Width w) (hp : 0 < p) (hpw : p ≤ w) (hp64 : p ≤ 63) :
    ∃ t, bitrevTable w (2 ^ p) = some t ∧ t.length = 2 ^ p ∧ ∀ i (h : i < t.length), BitReversed p i t[i].toNat := by
  have h0 := Nat.two_pow_pos p
  have h64 : 2 ^ p ≤ 2 ^ 63 := Nat.pow_le_pow_right (by omega) hp64
  obtain ⟨l, e, hl1, hl2⟩ := C23_bit_length (w := 64) ⟨3, rfl⟩ (BitVec.ofNat 64 (2 ^ p - 1))
  rw [BitVec.toNat_ofNat, Nat.mod_eq_of_lt (by omega)] at hl1 hl2
  have hl : l.toNat = p := by
    rcases Nat.lt_trichotomy l.toNat p with h | h | h
    · have : 2 ^ (l.toNat + 1) ≤ 2 ^ p := Nat.pow_le_pow_right (by omega) (by omega)
      rw [pow_succ] at this
      have := Nat.two_pow_pos l.toNat
      omega
    · exact h
    · have := hl2 p h; omega
  have hr : ∀ i, i < 2 ^ p → bitReverseIn (BitVec.ofNat w i) (l.toNat : Int) = some (BitVec.ofNat w (rev p i)) := by
    intro i hi
    obtain ⟨r, e1, e2⟩ := C24_bit_reverse_in hw (BitVec.ofNat w i) p hpw (Or.inl hp)
    rw [hl, e1]
    refine congrArg some (BitVec.eq_of_getLsbD_eq fun b hb => ?_)
    rw [e2 b hb, BitVec.getLsbD_ofNat, BitVec.getLsbD_ofNat, rev_testBit]
    by_cases hbp : b < p
    · simp [hbp, hb, show p - 1 - b < w by omega]
    · simp [hbp]
  refine ⟨(List.range (2 ^ p)).map (fun i => BitVec.ofNat w (rev p i)), ?_, by simp, ?_⟩
  · rw [bitrevTable, if_neg (by omega), e, Option.bind_eq_bind, Option.bind_some]
    exact mapM_range_some _ hr
  · intro i hi
    have hlt := rev_lt p i
    have hpw2 : 2 ^ p ≤ 2 ^ w := Nat.pow_le_pow_right (by omega) hpw
    simp only [List.getElem_map, List.getElem_range, BitVec.toNat_ofNat]
    rw [Nat.mod_eq_of_lt (by omega)]
    exact ⟨hlt, fun b hb => by rw [rev_testBit]; simp [hb]⟩

/-- the table of a single `int` or `size_t`: the shift is by the full width of the type, which is undefined -/
theorem C78_bitrev_table_refuted : bitrevTable 32 1 = none ∧ bitrevTable 64 1 = none := by decide +kernel

/-! Examples: the table of eight elements; a transform of a single element. -/

example : bitrevTable 32 8 = some [0, 4, 2, 6, 1, 5, 3, 7] := by decide +kernel
example : ∃ t, bitrevTable 32 8 = some t ∧ t.length = 8 ∧ ∀ i (h : i < t.length), BitReversed 3 i t[i].toNat :=
  C78_bitrev_table_partial 32 3 ⟨2, rfl⟩ (by decide) (by decide) (by decide)
example : (fixedFft 4 [1, 2, 3, 4]).bind fixedIfftArr = some [1, 2, 3, 4] := C78_inverse 2 [1, 2, 3, 4] rfl

end Sprout
