import Verif.Proofs.Fft3

/-!
# C77: `fft` and `ifft` in place

Arithmetic is exact.
-/

namespace Sprout
open Fourier Complex

/-- `fft` replaces a sequence the length of which is a power of two by its discrete Fourier transform: no element outside is
accessed, and coefficient `k` stands at position `k` -/
theorem C77_fft (p : Nat) (x : List ℂ) (hx : x.length = 2 ^ p) : fft x = some (Spec.dft x) := fft_eq hx

theorem C77_fft_empty : fft [] = some [] := by
  rw [fft]
  simp only [List.length_nil, Option.bind_eq_bind]
  rw [scramble, if_neg (by omega), Option.bind_some, mLoop, if_neg (by omega), Option.bind_some, kLoop, if_neg (by omega)]

private theorem gv_conj (x : List ℂ) (i : Nat) : gv (x.map (fun x => (⟨x.re, -x.im⟩ : ℂ))) i = (starRingEnd ℂ) (gv x i) := by
  rw [gv, gv, List.getElem?_map]
  cases x[i]? with
  | none => simp
  | some v => rfl

/-- `ifft` replaces it by the inverse transform -/
theorem C77_ifft (p : Nat) (x : List ℂ) (hx : x.length = 2 ^ p) : ifft x = some (Spec.idft x) := by
  rw [ifft]
  rw [fft_eq (p := p) (by simpa using hx), Option.bind_eq_bind, Option.bind_some]
  refine congrArg some ?_
  apply List.ext_getElem?
  intro i
  rw [List.getElem?_map]
  by_cases hi : i < x.length
  · rw [spec_dft_getElem? (by simpa using hi), Spec.idft, List.getElem?_map, List.getElem?_range hi, Option.map_some, Option.map_some]
    refine congrArg some ?_
    rw [spec_dft_length, List.length_map, idftCoeff_eq, dftCoeff_eq, List.length_map]
    simp only [gv_conj]
    have h : ∀ z : ℂ, (⟨z.re / (x.length : ℝ), -z.im / (x.length : ℝ)⟩ : ℂ) = (starRingEnd ℂ) z / x.length := by
      intro z
      apply Complex.ext
      · rw [div_natCast_re, conj_re]
      · rw [div_natCast_im, conj_im]
    rw [h, map_sum]
    congr 1
    refine Finset.sum_congr rfl fun j _ => ?_
    rw [map_mul, conj_conj, map_pow]
    congr 2
    rw [om, ← exp_conj, ← exp_neg]
    congr 1
    have h2 : (starRingEnd ℂ) 2 = 2 := conj_ofNat 2
    simp only [map_neg, map_div₀, map_mul, conj_I, conj_ofReal, map_natCast, h2]
    ring
  · rw [List.getElem?_eq_none (by rw [spec_dft_length]; simpa using hi), List.getElem?_eq_none (by simpa [Spec.idft] using hi)]; rfl

/-- `ifft` undoes `fft` -/
theorem C77_inverse (p : Nat) (x : List ℂ) (hx : x.length = 2 ^ p) : (fft x).bind ifft = some x := by
  rw [C77_fft p x hx, Option.bind_some, C77_ifft p _ (by rw [spec_dft_length]; exact hx), spec_idft_dft]

/-- a length that is not a power of two is not detected. With length 6 elements behind the end are accessed -/
theorem C77_length6_ub (x : List ℂ) (hx : x.length = 6) : fft x = none := by
  have r1 : revInc 0 3 = 3 := by rw [revInc]; simp
  have r0 : revInc 0 1 = 1 := by rw [revInc]; simp
  have r2 : revInc 3 3 = 1 := by rw [revInc]; simp [r0]
  have r21 : revInc 2 1 = 3 := by rw [revInc]; simp
  have r3 : revInc 1 3 = 3 := by rw [revInc]; simp [r21]
  obtain ⟨b, e, hb, _⟩ := swp_gv (a := x) (i := 3) (j := 1) (by omega) (by omega)
  have hs : scramble 6 0 1 x = some b := by
    rw [scramble]
    simp only [r1, Option.bind_eq_bind]
    rw [if_pos (by omega), if_pos (by omega), e, Option.bind_some, scramble]
    simp only [r2, Option.bind_eq_bind]
    rw [if_pos (by omega), if_neg (by omega), Option.bind_some, scramble]
    simp only [r3, Option.bind_eq_bind]
    rw [if_pos (by omega), if_neg (by omega), Option.bind_some, scramble]
    simp only [r2, Option.bind_eq_bind]
    rw [if_pos (by omega), if_neg (by omega), Option.bind_some, scramble, if_neg (by omega)]
  rw [fft]
  simp only [hx, hs, Option.bind_eq_bind, Option.bind_some]
  have hk := kLoop_upd (c := 4) (mq := 1) (n := 6) (R := fun x => x = 0) (butterfly_body (f1 := fun r i => ⟨r, i⟩) (f3 := fun r i => ⟨r, i⟩)
    (w1 := fun _ => 1) (w3 := fun _ => 1) (by omega) (fun x h => by simp [h]) (fun x h r i => by simp) (fun x h r i => by simp))
    0 (fun x _ h => by omega) 0 b (by omega) (by omega)
  obtain ⟨c, e2, u⟩ := hk
  have hc : c.length = 6 := by rw [u.1]; omega
  have hm : ∀ (w : ℝ), kLoop (bfly2 w 1) 4 1 1 c = none := by
    intro w
    rw [kLoop, if_pos (by omega), jLoop, if_pos (by omega)]
    have : bfly2 w 1 c (4 + 1 - 1) = none := by
      rw [bfly2, butterfly]
      simp only [Option.bind_eq_bind]
      rw [rd_gv (by omega), Option.bind_some, rd_gv (by omega), Option.bind_some, Option.bind_some, Option.bind_some,
        wr_eq (by omega), Option.bind_some, rd, List.getElem?_eq_none (by rw [List.length_set]; omega), Option.bind_none]
    rw [this]; rfl
  rw [mLoop, if_pos (by omega)]
  show ((kLoop (butterfly _ _ 1) 0 1 1 b >>= _).bind _) = _
  rw [pow_zero] at e2
  rw [e2, Option.bind_eq_bind, Option.bind_some, if_neg (by omega)]
  show ((kLoop _ 4 1 1 c >>= _).bind _) = _
  rw [hm, Option.bind_eq_bind, Option.bind_none, Option.bind_none]

/-- with length 3 the result is wrong: `0 0 1` stays as it is, while coefficient 0 is 1 -/
theorem C77_length3_refuted : fft [0, 0, 1] = some [0, 0, 1] ∧ Spec.dft [0, 0, 1] ≠ [0, 0, 1] := by
  constructor
  · have r1 : revInc 0 1 = 1 := by rw [revInc]; simp
    rw [fft]
    simp only [List.length_cons, List.length_nil, Option.bind_eq_bind]
    rw [scramble]
    simp only [Nat.zero_add, show 1 + 1 + 1 = 3 from rfl, show 3 / 2 = 1 from rfl, r1, Option.bind_eq_bind]
    rw [if_pos (by omega), if_neg (by omega), Option.bind_some, scramble, if_neg (by omega), Option.bind_some, mLoop,
      if_neg (by omega), Option.bind_some, kLoop, if_pos (by omega), jLoop, if_pos (by omega)]
    have : radix2 1 [0, 0, 1] (0 + 1 - 1) = some [0, 0, 1] := by
      simp [radix2, rd, wr]
    rw [this, Option.bind_eq_bind, Option.bind_some, jLoop, if_neg (by omega), Option.bind_some, kLoop, if_neg (by omega)]
  · intro h
    have h0 := congrArg (fun l => gv l 0) h
    rw [gv, spec_dft_getElem? (by simp), Option.getD_some, dftCoeff_eq] at h0
    simp [Finset.sum_range_succ, gv] at h0

/-! Example: the transform of `1 2 3 4`. -/

example : fft [1, 2, 3, 4] = some [10, -2 + 2 * I, -2, -2 - 2 * I] := by
  rw [C77_fft 2 _ rfl]
  refine congrArg some ?_
  have hw : om 4 = -I := by
    have := W_quarter 0
    rwa [pow_zero, pow_one] at this
  have e : ∀ k, Spec.dftCoeff [1, 2, 3, 4] k = 1 + 2 * (-I) ^ k + 3 * (-I) ^ (2 * k) + 4 * (-I) ^ (3 * k) := by
    intro k
    rw [dftCoeff_eq]
    simp only [List.length_cons, List.length_nil, Finset.sum_range_succ, Finset.range_zero, Finset.sum_empty]
    rw [show (0 + 1 + 1 + 1 + 1 : Nat) = 4 from rfl, hw]
    simp [gv]
  have hl : Spec.dft [1, 2, 3, 4] = [Spec.dftCoeff [1, 2, 3, 4] 0, Spec.dftCoeff [1, 2, 3, 4] 1, Spec.dftCoeff [1, 2, 3, 4] 2, Spec.dftCoeff [1, 2, 3, 4] 3] := rfl
  rw [hl, e, e, e, e]
  have i2 : (-I) ^ 2 = -1 := by simp
  have i3 : (-I) ^ 3 = I := by rw [pow_succ, i2]; ring
  have i4 : (-I) ^ 4 = 1 := by rw [pow_succ, i3]; simp
  have i6 : (-I) ^ 6 = -1 := by rw [show 6 = 4 + 2 from rfl, pow_add, i4, i2]; ring
  have i9 : (-I) ^ 9 = -I := by rw [show 9 = 4 + 4 + 1 from rfl, pow_add, pow_add, i4]; ring
  congr 1
  · norm_num
  congr 1
  · simp only [Nat.mul_one, pow_one, i2, i3]; ring
  congr 1
  · simp only [show 2 * 2 = 4 from rfl, show 3 * 2 = 6 from rfl, i2, i4, i6]; ring
  congr 1
  · simp only [show 2 * 3 = 6 from rfl, show 3 * 3 = 9 from rfl, i3, i6, i9]; ring

end Sprout
