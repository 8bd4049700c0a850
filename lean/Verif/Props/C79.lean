import Verif.Model.Wave
import Verif.Proofs.FixedFft

/-!
# C79: wave forms and spectra

Arithmetic is exact.
-/

namespace Sprout
open Wave

private theorem rd_getD {r : List ℝ} {i : Nat} (h : i < r.length) : rd r i = some (r.getD i 0) := by
  rw [rd, List.getD_eq_getElem?_getD, List.getElem?_eq_getElem h]; rfl

/-- the elements of the container `offset … offset + size` are `f 0`, `f 1`, …; the others have not changed -/
def Generated (f : Nat → ℝ) (cont : List ℝ) (offset size : Nat) (out : List ℝ) : Prop :=
  out.length = cont.length ∧ ∀ i, i < cont.length → out[i]? = if offset ≤ i ∧ i < offset + size then some (f (i - offset)) else cont[i]?

private theorem expand_gen (value : Nat → ℝ) (cont : List ℝ) (offset size : Nat) :
    ∃ out, expand value cont offset size = some out ∧ Generated (fun i => value (i + offset)) cont offset size out := by
  refine ⟨(List.range cont.length).map (fun i => if offset ≤ i ∧ i < offset + size then value i else cont.getD i 0), ?_, by simp, ?_⟩
  · rw [expand]
    apply Fourier.mapM_range_some
    intro i hi
    by_cases h : offset ≤ i ∧ i < offset + size
    · rw [if_pos h, if_pos h]
    · rw [if_neg h, if_neg h, rd_getD hi]
  · intro i hi
    rw [List.getElem?_map, List.getElem?_range hi, Option.map_some]
    by_cases h : offset ≤ i ∧ i < offset + size
    · rw [if_pos h, if_pos h]
      show _ = some (value (i - offset + offset))
      rw [show i - offset + offset = i by omega]
    · rw [if_neg h, if_neg h]; exact (rd_getD hi).symm

/-- the four generators. *Partial*: the container has offset 0, as every container but `sub_array`. -/
theorem C79_generators_partial (cont : List ℝ) (f a φ d : ℝ) :
    (∃ out, sinusoid cont 0 cont.length f a φ = some out ∧
      Generated (fun i => a * Real.sin (2 * Real.pi * f * i / cont.length + φ)) cont 0 cont.length out) ∧
    (∃ out, sawtooth cont 0 cont.length f a φ = some out ∧ Generated (fun i => a * sawtoothImpl (f * i + φ)) cont 0 cont.length out) ∧
    (∃ out, square cont 0 cont.length f a φ d = some out ∧ Generated (fun i => a * squareImpl (f * i + φ) d) cont 0 cont.length out) ∧
    (∃ out, triangle cont 0 cont.length f a φ = some out ∧ Generated (fun i => a * triangleImpl (f * i + φ)) cont 0 cont.length out) := by
  refine ⟨?_, ?_, ?_, ?_⟩
  · obtain ⟨out, e, h⟩ := expand_gen (sinusoidValue a φ (sinusoidD f cont.length)) cont 0 cont.length
    refine ⟨out, e, ?_⟩
    convert h using 2
    rename_i i
    rw [sinusoidValue, sinusoidD, Nat.add_zero]
    congr 2
    ring
  · exact expand_gen (sawtoothValue f a φ) cont 0 cont.length
  · exact expand_gen (squareValue f a φ d) cont 0 cont.length
  · exact expand_gen (triangleValue f a φ) cont 0 cont.length

/-- with an offset the index is not reduced: a `sub_array` of elements 1 and 2 of an array of three gets `sawtooth` values
from `1/4` on instead of from 0 on -/
theorem C79_offset_refuted : ∃ out, sawtooth [0, 0, 0] 1 2 (1 / 4) 1 0 = some out ∧
    ¬Generated (fun i => 1 * sawtoothImpl (1 / 4 * i + 0)) [0, 0, 0] 1 2 out := by
  obtain ⟨out, e, h⟩ := expand_gen (sawtoothValue (1 / 4) 1 0) [0, 0, 0] 1 2
  refine ⟨out, e, fun g => ?_⟩
  have h1 := h.2 1 (by simp)
  rw [g.2 1 (by simp), if_pos (by omega), if_pos (by omega), Option.some.injEq] at h1
  have f0 : ⌊((1 / 4 : ℝ) * (0 : Nat) + 0) + 0.5⌋ = 0 := by rw [Int.floor_eq_iff]; norm_num
  have f1 : ⌊((1 / 4 : ℝ) * (1 : Nat) + 0) + 0.5⌋ = 0 := by rw [Int.floor_eq_iff]; norm_num
  simp only [sawtoothValue, sawtoothImpl] at h1
  rw [show 1 - 1 = 0 from rfl, show 0 + 1 = 1 from rfl, f0, f1] at h1
  norm_num at h1

/-! ### shapes -/

/-- the saw tooth: period 1, `2 t` between `-1/2` and `1/2` -/
theorem C79_sawtooth (t : ℝ) : sawtoothImpl (t + 1) = sawtoothImpl t ∧ (-1 ≤ sawtoothImpl t ∧ sawtoothImpl t < 1) ∧
    (-(1 / 2) ≤ t → t < 1 / 2 → sawtoothImpl t = 2 * t) := by
  refine ⟨?_, ?_, ?_⟩
  · rw [sawtoothImpl, sawtoothImpl, show t + 1 + 0.5 = t + 0.5 + 1 by ring, Int.floor_add_one]
    push_cast
    ring
  · have h1 := Int.floor_le (t + 0.5)
    have h2 := Int.lt_floor_add_one (t + 0.5)
    rw [sawtoothImpl]
    constructor <;> linarith
  · intro h1 h2
    have : ⌊t + 0.5⌋ = 0 := by
      rw [Int.floor_eq_iff]; constructor <;> norm_num <;> linarith
    rw [sawtoothImpl, this]
    push_cast
    ring

/-- values of the square wave: two levels that depend on `duty`, with the high level in the part `1 - duty` of the period -/
theorem C79_square_levels (t duty : ℝ) (h0 : 0 ≤ duty) (h1 : duty ≤ 1) :
    squareImpl t duty = if Int.fract (t + 1 / 2) < duty then 2 * duty - 2 else 2 * duty := by
  have e : squareImpl t duty = 2 * duty + 2 * ((⌊Int.fract (t + 1 / 2) - duty⌋ : ℤ) : ℝ) := by
    have h2 : t - duty + 0.5 = Int.fract (t + 1 / 2) - duty + (⌊t + 1 / 2⌋ : ℤ) := by
      have := Int.fract_add_floor (t + 1 / 2)
      linarith
    rw [squareImpl, sawtoothImpl, sawtoothImpl, h2, Int.floor_add_intCast, show t + 0.5 = t + 1 / 2 by norm_num]
    push_cast
    ring
  rw [e]
  have f0 := Int.fract_nonneg (t + 1 / 2)
  have f1 := Int.fract_lt_one (t + 1 / 2)
  split
  · rename_i h
    have : ⌊Int.fract (t + 1 / 2) - duty⌋ = -1 := by
      rw [Int.floor_eq_iff]; push_cast; constructor <;> linarith
    rw [this]
    push_cast
    ring
  · rename_i h
    have : ⌊Int.fract (t + 1 / 2) - duty⌋ = 0 := by
      rw [Int.floor_eq_iff]; push_cast; constructor <;> linarith
    rw [this]
    push_cast
    ring

/-- the square wave with the default duty: 1 in the first half of the period, -1 in the second. *Partial*: other values of
`duty` do not give the levels 1 and -1. -/
theorem C79_square_partial (t : ℝ) : squareImpl t (1 / 2) = if Int.fract t < 1 / 2 then 1 else -1 := by
  rw [C79_square_levels t (1 / 2) (by norm_num) (by norm_num)]
  have f0 := Int.fract_nonneg t
  have f1 := Int.fract_lt_one t
  by_cases h : Int.fract t < 1 / 2
  · have : Int.fract (t + 1 / 2) = Int.fract t + 1 / 2 := by
      rw [Int.fract_eq_iff]
      exact ⟨by linarith, by linarith, ⌊t⌋, by rw [Int.fract]; ring⟩
    rw [this, if_neg (by linarith), if_pos h]; norm_num
  · have : Int.fract (t + 1 / 2) = Int.fract t - 1 / 2 := by
      rw [Int.fract_eq_iff]
      exact ⟨by linarith, by linarith, ⌊t⌋ + 1, by rw [Int.fract]; push_cast; ring⟩
    rw [this, if_pos (by linarith), if_neg h]; norm_num

/-- duty `1/4`: the levels are `1/2` and `-3/2`, the signal is high for three quarters of the time -/
theorem C79_square_refuted (t : ℝ) :
    (1 / 4 ≤ Int.fract (t + 1 / 2) → squareImpl t (1 / 4) = 1 / 2) ∧ (Int.fract (t + 1 / 2) < 1 / 4 → squareImpl t (1 / 4) = -(3 / 2)) := by
  rw [C79_square_levels t (1 / 4) (by norm_num) (by norm_num)]
  constructor
  · intro h; rw [if_neg (by linarith)]; norm_num
  · intro h; rw [if_pos h]; norm_num

/-- the triangle: period 1, `4 t` up to a quarter, then `2 - 4 t` up to three quarters -/
theorem C79_triangle (t : ℝ) : triangleImpl (t + 1) = triangleImpl t ∧ (-1 ≤ triangleImpl t ∧ triangleImpl t ≤ 1) ∧
    (-(1 / 4) ≤ t → t ≤ 1 / 4 → triangleImpl t = 4 * t) ∧ (1 / 4 ≤ t → t ≤ 3 / 4 → triangleImpl t = 2 - 4 * t) := by
  have hpi := Real.pi_pos
  refine ⟨?_, ?_, ?_, ?_⟩
  · rw [triangleImpl, triangleImpl, show 2 * Real.pi * (t + 1) = 2 * Real.pi * t + 2 * Real.pi by ring, Real.sin_add_two_pi]
  · have h1 := Real.neg_pi_div_two_le_arcsin (Real.sin (2 * Real.pi * t))
    have h2 := Real.arcsin_le_pi_div_two (Real.sin (2 * Real.pi * t))
    rw [triangleImpl]
    have hp : 0 ≤ 2 / Real.pi := by positivity
    have e : 2 / Real.pi * (Real.pi / 2) = 1 := by field_simp
    constructor
    · have := mul_le_mul_of_nonneg_left h1 hp
      rw [mul_neg, e] at this
      exact this
    · have := mul_le_mul_of_nonneg_left h2 hp
      rw [e] at this
      exact this
  · intro h1 h2
    rw [triangleImpl, Real.arcsin_sin (by nlinarith) (by nlinarith)]
    field_simp
    ring
  · intro h1 h2
    rw [triangleImpl, ← Real.sin_pi_sub, Real.arcsin_sin (by nlinarith) (by nlinarith)]
    field_simp
    ring

/-- the default frequency 1 is one period per element for these three: `sawtooth` and `triangle` are 0 everywhere, `square` is 1
everywhere, while `sinusoid` runs through one period in the container -/
theorem C79_default_frequency (i : Nat) :
    sawtoothValue 1 1 0 i = 0 ∧ triangleValue 1 1 0 i = 0 ∧ squareValue 1 1 0 (1 / 2) i = 1 ∧
    sinusoidValue 1 0 (sinusoidD 1 4) 1 = 1 := by
  refine ⟨?_, ?_, ?_, ?_⟩
  · have : ⌊((i : ℝ)) + 0.5⌋ = i := by rw [Int.floor_eq_iff]; norm_num
    rw [sawtoothValue, sawtoothImpl, one_mul, one_mul, add_zero, this]
    push_cast
    ring
  · have : Real.sin (2 * Real.pi * i) = 0 := by
      rw [show 2 * Real.pi * (i : ℝ) = ((2 * i : Nat) : ℝ) * Real.pi by push_cast; ring, Real.sin_nat_mul_pi]
    rw [triangleValue, triangleImpl, one_mul, one_mul, add_zero, this, Real.arcsin_zero, mul_zero]
  · rw [squareValue, C79_square_partial, one_mul, one_mul, add_zero, Int.fract_natCast, if_pos (by norm_num)]
  · rw [sinusoidValue, sinusoidD, show 2 * Real.pi * 1 / (4 : Nat) * (1 : Nat) + 0 = Real.pi / 2 by push_cast; ring, Real.sin_pi_div_two, mul_one]

/-! ### spectra -/

/-- the amplitude is the absolute value -/
theorem C79_amplitude (x : ℂ) : amplitudeValue x = ‖x‖ := by
  rw [amplitudeValue, Complex.norm_def, Complex.normSq_apply]

private theorem llround_int (n : ℤ) : llround n = n := by
  rw [llround]
  split
  · have : ⌊-(n : ℝ) + 1 / 2⌋ = -n := by rw [Int.floor_eq_iff]; push_cast; constructor <;> linarith
    rw [this, neg_neg]
  · rw [Int.floor_eq_iff]; constructor <;> linarith

/-- the phase. *Partial*: real and imaginary part are integers. -/
theorem C79_phase_partial (a b : ℤ) : phaseValue ⟨a, b⟩ = Complex.arg ⟨a, b⟩ := by
  rw [phaseValue, atan2, llround_int, llround_int]

/-- real and imaginary part are rounded to integers first: the phase of `i / 4` is 0 instead of `π / 2` -/
theorem C79_phase_refuted : phaseValue ⟨0, 1 / 4⟩ = 0 ∧ Complex.arg ⟨0, 1 / 4⟩ = Real.pi / 2 := by
  constructor
  · have h0 : llround 0 = 0 := by have := llround_int 0; simpa using this
    have h1 : llround (1 / 4) = 0 := by
      rw [llround, if_neg (by norm_num), Int.floor_eq_iff]; norm_num
    show atan2 (llround (1 / 4)) (llround 0) = 0
    rw [atan2, h0, h1]
    have : (⟨((0 : ℤ) : ℝ), ((0 : ℤ) : ℝ)⟩ : ℂ) = 0 := by apply Complex.ext <;> simp
    rw [this, Complex.arg_zero]
  · rw [Complex.arg_eq_pi_div_two_iff]
    norm_num

/-- what a spectrum should make of `result`: the first elements are the values, the others remain -/
def SpectrumOf (value : ℂ → ℝ) (x : List ℂ) (result : List ℝ) (offset size : Nat) (out : List ℝ) : Prop :=
  out.length = result.length ∧ ∀ i, i < result.length → out[i]? =
    if offset ≤ i ∧ i < offset + size ∧ i < offset + x.length then x[i - offset]?.map value else result[i]?

/-- the spectrum of a range of elements. *Partial*: the result has offset 0, as every container but `sub_array`. -/
theorem C79_spectrum_partial (value : ℂ → ℝ) (m : List ℂ) (first last : Nat) (result : List ℝ) (hl : first ≤ last) (hm : last ≤ m.length) :
    ∃ out, spectrumRa value m first last result 0 result.length = some out ∧
      SpectrumOf value ((m.drop first).take (last - first)) result 0 result.length out := by
  refine ⟨(List.range result.length).map (fun i => if i < last - first then value (m.getD (first + i) 0) else result.getD i 0), ?_, by simp, ?_⟩
  · rw [spectrumRa]
    apply Fourier.mapM_range_some
    intro i hi
    by_cases h : i < last - first
    · rw [if_pos (by omega), if_pos h, rd, List.getD_eq_getElem?_getD, List.getElem?_eq_getElem (by omega)]; rfl
    · rw [if_neg (by omega), if_neg h, rd_getD hi]
  · intro i hi
    have hlen : ((m.drop first).take (last - first)).length = last - first := by simp; omega
    rw [List.getElem?_map, List.getElem?_range hi, Option.map_some, hlen]
    by_cases h : i < last - first
    · rw [if_pos h, if_pos (by omega), List.getElem?_take_of_lt (by omega), List.getElem?_drop, Nat.sub_zero,
        List.getD_eq_getElem?_getD, List.getElem?_eq_getElem (by omega)]
      rfl
    · rw [if_neg h, if_neg (by omega)]; exact (rd_getD hi).symm

private theorem spectrumFwd_eq {value : ℂ → ℝ} {m : List ℂ} {last : Nat} {result : List ℝ} (hm : last ≤ m.length) :
    ∀ (k first : Nat) (args : List ℝ), last - first = k → first ≤ last → args.length ≤ result.length →
    spectrumFwd value m first last result args =
      some ((args ++ ((m.drop first).take (last - first)).map value).take result.length ++ result.drop (args.length + (last - first))) := by
  intro k
  induction k with
  | zero =>
    intro first args hk hl ha
    rw [spectrumFwd, hk]
    by_cases h : args.length = result.length
    · rw [if_pos h]; simp [h]
    · rw [if_neg h, if_neg (by omega)]; simp [List.take_of_length_le ha]
  | succ k ih =>
    intro first args hk hl ha
    rw [spectrumFwd]
    by_cases h : args.length = result.length
    · rw [if_pos h, List.take_append_of_le_length (by omega), List.take_of_length_le (by omega), List.drop_eq_nil_of_le (by omega), List.append_nil]
    · rw [if_neg h, if_pos (by omega), rd, List.getElem?_eq_getElem (by omega), Option.bind_eq_bind, Option.bind_some,
        ih (first + 1) _ (by omega) (by omega) (by simp; omega)]
      have e : (m.drop first).take (last - first) = m[first] :: (m.drop (first + 1)).take (last - (first + 1)) := by
        rw [List.drop_eq_getElem_cons (by omega), show last - first = last - (first + 1) + 1 by omega, List.take_succ_cons]
      rw [e]
      simp only [List.map_cons, List.append_assoc, List.singleton_append, List.length_append, List.length_singleton]
      rw [show args.length + 1 + (last - (first + 1)) = args.length + (last - first) by omega]

/-- for other iterators -/
theorem C79_spectrum_forward (value : ℂ → ℝ) (m : List ℂ) (first last : Nat) (result : List ℝ) (hl : first ≤ last) (hm : last ≤ m.length) :
    ∃ out, spectrumFwd value m first last result [] = some out ∧
      SpectrumOf value ((m.drop first).take (last - first)) result 0 result.length out := by
  have hlen : ((m.drop first).take (last - first)).length = last - first := by simp; omega
  refine ⟨_, spectrumFwd_eq hm _ first [] rfl hl (by simp), ?_, fun i hi => ?_⟩
  · simp only [List.nil_append, List.length_append, List.length_take, List.length_map, List.length_drop, List.length_nil]; omega
  · rw [hlen, List.nil_append, List.length_nil, Nat.zero_add]
    by_cases h : i < last - first
    · rw [if_pos (by omega), List.getElem?_append_left (by simp; omega), List.getElem?_take_of_lt hi, List.getElem?_map, Nat.sub_zero]
    · rw [if_neg (by omega), List.getElem?_append_right (by simp; omega), List.getElem?_drop]
      congr 1
      simp
      omega

/-- with an offset the index of the input is not reduced: an element behind the input is read -/
theorem C79_spectrum_refuted (value : ℂ → ℝ) (x : ℂ) : spectrumRa value [x] 0 1 [0, 0] 1 1 = none := by
  simp [spectrumRa, rd, List.range_succ]

/-! Examples -/

example : squareImpl 0 (1 / 2) = 1 := by rw [C79_square_partial]; norm_num
example : triangleImpl (1 / 2) = 0 := by rw [(C79_triangle (1 / 2)).2.2.2 (by norm_num) (by norm_num)]; norm_num
example : amplitudeValue ⟨3, 4⟩ = 5 := by
  rw [amplitudeValue, show (3 : ℝ) * 3 + 4 * 4 = 5 ^ 2 by norm_num, Real.sqrt_sq (by norm_num)]

end Sprout
