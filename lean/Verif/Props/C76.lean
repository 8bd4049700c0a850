import Verif.Proofs.Fourier

/-!
# C76: `dft` and `idft`

`slice m first last` are the elements from `first` to `last` of the block `m`. Arithmetic is exact.
-/

namespace Sprout
open Fourier Complex

/-- `dft_element(first, last, i)` is coefficient number `i`, for iterators of any category -/
theorem C76_dft_element (ra : Bool) (m : List ℂ) (first last i : Nat) (hl : first ≤ last) (hm : last ≤ m.length) :
    dftElement ra m first last i = some (Spec.dftCoeff ((m.drop first).take (last - first)) i) := dftElement_eq hl hm i

/-- `idft_element(first, last, i)` -/
theorem C76_idft_element (ra : Bool) (m : List ℂ) (first last i : Nat) (hl : first ≤ last) (hm : last ≤ m.length) :
    idftElement ra m first last i = some (Spec.idftCoeff ((m.drop first).take (last - first)) i) := idftElement_eq hl hm i

private theorem mapM_range' {f : Nat → Option ℂ} {g : Nat → ℂ} (n : Nat) (h : ∀ i, i < n → f i = some (g i)) :
    (List.range n).mapM f = some ((List.range n).map g) := by
  induction n with
  | zero => rfl
  | succ n ih =>
    rw [List.range_succ, List.mapM_append, ih (fun i hi => h i (by omega))]
    simp [h n (by omega)]

/-- what `dft` should make of `result`: the first elements are the coefficients `c`, the others remain -/
def Filled (c : Nat → ℂ) (n : Nat) (result out : List ℂ) : Prop :=
  out.length = result.length ∧ ∀ i, i < result.length → out[i]? = if i < n then some (c i) else result[i]?

private theorem fixedRa_eq {elem : Bool → List ℂ → Nat → Nat → Nat → Nat → Option ℂ} {m : List ℂ} {first last : Nat} {c : Nat → ℂ}
    (h : ∀ i, elem true m first last i (last - first) = some (c i)) (result : List ℂ) :
    ∃ out, fixedRa elem m first last result = some out ∧ Filled c (last - first) result out := by
  refine ⟨(List.range result.length).map (fun i => if i < last - first then c i else gv result i), ?_, ?_⟩
  · apply mapM_range'
    intro i hi
    by_cases h1 : i < last - first
    · rw [if_pos h1, if_pos h1, h]
    · rw [if_neg h1, if_neg h1, rd_gv hi]
  · refine ⟨by simp, fun i hi => ?_⟩
    rw [List.getElem?_map, List.getElem?_range hi, Option.map_some]
    by_cases h1 : i < last - first
    · rw [if_pos h1, if_pos h1]
    · rw [if_neg h1, if_neg h1, gv_eq hi, List.getElem?_eq_getElem hi]

private theorem fixedFwd_eq {elem : Bool → List ℂ → Nat → Nat → Nat → Nat → Option ℂ} {m : List ℂ} {first last : Nat} {c : Nat → ℂ}
    {result : List ℂ} (h : ∀ i, elem false m first last i result.length = some (c i)) (hl : first ≤ last) :
    ∀ (k i : Nat), last - first - i = k → i ≤ last - first → i ≤ result.length →
      ∃ out, fixedFwd elem m (first + i) last result first i ((List.range i).map c) = some out ∧ Filled c (last - first) result out := by
  intro k
  induction k with
  | zero =>
    intro i hk hi hr
    rw [fixedFwd, List.length_map, List.length_range]
    by_cases he : i = result.length
    · rw [if_pos he]
      refine ⟨_, rfl, by simp [he], fun j hj => ?_⟩
      rw [List.getElem?_map, List.getElem?_range (by omega), if_pos (by omega)]; rfl
    · rw [if_neg he, if_neg (by omega)]
      refine ⟨_, rfl, by simp; omega, fun j hj => ?_⟩
      by_cases hji : j < i
      · rw [List.getElem?_append_left (by simpa using hji), List.getElem?_map, List.getElem?_range hji, if_pos (by omega)]; rfl
      · rw [List.getElem?_append_right (by simpa using hji), List.getElem?_drop, if_neg (by omega)]
        congr 1; simp; omega
  | succ k ih =>
    intro i hk hi hr
    rw [fixedFwd, List.length_map, List.length_range]
    by_cases he : i = result.length
    · rw [if_pos he]
      refine ⟨_, rfl, by simp [he], fun j hj => ?_⟩
      rw [List.getElem?_map, List.getElem?_range (by omega), if_pos (by omega)]; rfl
    · rw [if_neg he, if_pos (by omega), h, Option.bind_eq_bind, Option.bind_some]
      have := ih (i + 1) (by omega) (by omega) (by omega)
      rw [List.range_succ, List.map_append] at this
      exact this

/-- `dft(first, last, result)` and `idft(first, last, result)` for random access iterators: also if the sizes differ -/
theorem C76_dft_random_access (m : List ℂ) (first last : Nat) (result : List ℂ) (hl : first ≤ last) (hm : last ≤ m.length) :
    (∃ out, fixedDft true m first last result = some out ∧
      Filled (Spec.dftCoeff ((m.drop first).take (last - first))) (last - first) result out) ∧
    (∃ out, fixedIdft true m first last result = some out ∧
      Filled (Spec.idftCoeff ((m.drop first).take (last - first))) (last - first) result out) :=
  ⟨fixedRa_eq (elem := dftElementImpl) (fun i => dftElement_eq hl hm i) result,
    fixedRa_eq (elem := idftElementImpl) (fun i => idftElement_eq hl hm i) result⟩

/-- for other iterators. *Partial*: the result has as many elements as the input. -/
theorem C76_dft_forward_partial (m : List ℂ) (first last : Nat) (result : List ℂ) (hl : first ≤ last) (hm : last ≤ m.length)
    (hr : result.length = last - first) :
    (∃ out, fixedDft false m first last result = some out ∧
      Filled (Spec.dftCoeff ((m.drop first).take (last - first))) (last - first) result out) ∧
    (∃ out, fixedIdft false m first last result = some out ∧
      Filled (Spec.idftCoeff ((m.drop first).take (last - first))) (last - first) result out) := by
  constructor
  · have := fixedFwd_eq (elem := dftElementImpl) (result := result) (m := m) (first := first) (last := last)
      (c := Spec.dftCoeff ((m.drop first).take (last - first)))
      (fun i => by rw [hr]; exact dftElement_eq hl hm i) hl (last - first) 0 rfl (by omega) (by omega)
    simpa [fixedDft] using this
  · have := fixedFwd_eq (elem := idftElementImpl) (result := result) (m := m) (first := first) (last := last)
      (c := Spec.idftCoeff ((m.drop first).take (last - first)))
      (fun i => by rw [hr]; exact idftElement_eq hl hm i) hl (last - first) 0 rfl (by omega) (by omega)
    simpa [fixedIdft] using this

private theorem coeff01 : Spec.dftCoeff [0, 1] 1 = -1 := by
  have : Spec.dftCoeff [0, 1] 1 = ∑ j : Fin 2, ([0, 1] : List ℂ)[j] * exp (-(2 * Real.pi * I * j * (1 : Nat) / (2 : Nat))) := rfl
  rw [this, Fin.sum_univ_two]
  simp only [Fin.isValue, Fin.getElem_fin, Fin.val_zero, Fin.val_one, List.getElem_cons_zero, List.getElem_cons_succ, zero_mul,
    zero_add, one_mul, Nat.cast_one, mul_one]
  rw [show -(2 * (Real.pi : ℂ) * I / (2 : Nat)) = -(Real.pi * I) by push_cast; ring, exp_neg, exp_pi_mul_I]
  norm_num

/-- otherwise the coefficients are computed with the size of the result: from the input `0 1` and a result of four elements
element 1 is `-i` instead of `-1` -/
theorem C76_dft_forward_refuted : ∃ out, fixedDft false [0, 1] 0 2 [0, 0, 0, 0] = some out ∧
    ¬Filled (Spec.dftCoeff [0, 1]) 2 [0, 0, 0, 0] out := by
  have g : ∀ i, dftElementImpl false [0, 1] 0 2 i ([0, 0, 0, 0] : List ℂ).length =
      some (∑ j ∈ Finset.range 2, gv [0, 1] (0 + j) * exp (((-(2 * Real.pi * i / (4 : Nat)) : ℝ) * (j : Nat) : ℝ) * I)) := by
    intro i
    rw [dftElementImpl, gen_eq (by omega) (by simp)]
    rfl
  obtain ⟨out, e, h1, h2⟩ := fixedFwd_eq (elem := dftElementImpl) (result := [0, 0, 0, 0]) (m := [0, 1]) (first := 0) (last := 2) g
    (by omega) 2 0 rfl (by omega) (by simp)
  refine ⟨out, by simpa [fixedDft] using e, ?_⟩
  rintro ⟨_, h⟩
  have a := h 1 (by simp)
  have b := h2 1 (by simp)
  rw [a, if_pos (by omega), if_pos (by omega), Option.some.injEq, coeff01] at b
  beta_reduce at b
  rw [Finset.sum_range_succ, Finset.sum_range_one] at b
  have g0 : gv [0, 1] (0 + 0) = 0 := rfl
  have g1 : gv [0, 1] (0 + 1) = 1 := rfl
  rw [g0, g1, zero_mul, zero_add, one_mul] at b
  have c := congrArg Complex.re b
  rw [exp_ofReal_mul_I_re] at c
  have : (-(2 * Real.pi * (1 : Nat) / (4 : Nat)) * (1 : Nat) : ℝ) = -(Real.pi / 2) := by push_cast; ring
  rw [this, Real.cos_neg, Real.cos_pi_div_two] at c
  norm_num at c

/-- `idft` after `dft` gives the input -/
theorem C76_inverse (x : List ℂ) :
    ∃ y, fixedDft true x 0 x.length (List.replicate x.length 0) = some y ∧
      fixedIdft true y 0 y.length (List.replicate y.length 0) = some x := by
  obtain ⟨⟨y, e, h1, h2⟩, _⟩ := C76_dft_random_access x 0 x.length (List.replicate x.length 0) (by omega) (by omega)
  rw [List.length_replicate] at h1 h2
  have hy : y = Spec.dft x := by
    apply List.ext_getElem?
    intro i
    by_cases hi : i < x.length
    · rw [h2 i hi, if_pos (by omega), spec_dft_getElem? hi]; simp
    · rw [List.getElem?_eq_none (by omega), List.getElem?_eq_none (by rw [spec_dft_length]; omega)]
  obtain ⟨_, ⟨z, e2, g1, g2⟩⟩ := C76_dft_random_access y 0 y.length (List.replicate y.length 0) (by omega) (by omega)
  rw [List.length_replicate] at g1 g2
  refine ⟨y, e, ?_⟩
  rw [e2]
  refine congrArg some ?_
  rw [← spec_idft_dft x, ← hy]
  apply List.ext_getElem?
  intro i
  by_cases hi : i < y.length
  · rw [g2 i hi, if_pos (by omega), Spec.idft, List.getElem?_map, List.getElem?_range hi]; simp
  · rw [List.getElem?_eq_none (by omega), List.getElem?_eq_none (by simp [Spec.idft]; omega)]

/-! Example: element 1 of the transform of `0 1`, the second half of a block. -/

example : dftElement true [7, 0, 1] 1 3 1 = some (-1) := by
  rw [C76_dft_element true [7, 0, 1] 1 3 1 (by omega) (by simp), ← coeff01]; rfl
example : dftElement false [7, 0, 1] 1 3 1 = some (-1) := by
  rw [C76_dft_element false [7, 0, 1] 1 3 1 (by omega) (by simp), ← coeff01]; rfl

end Sprout
