import Verif.Model.WaveIter
import Verif.Props.C76
import Verif.Props.C79
import Verif.Props.C132
import Verif.Props.C135

/-!
# C143: iterators over waves, transforms and noise
-/

namespace Sprout

open WaveIter

/-- the wave as a function of the index: `cycles` are those completed since the start for the last three -/
noncomputable def waveAt (form : Form) (f a φ duty : ℝ) (i : ℤ) : ℝ :=
  match form with
  | .sinusoid => a * Real.sin (2 * Real.pi * (f * i) + φ)
  | .sawtooth => a * Wave.sawtoothImpl (f * i + φ)
  | .square => a * Wave.squareImpl (f * i + φ) duty
  | .triangle => a * Wave.triangleImpl (f * i + φ)

theorem waveAt_zero (form : Form) (f φ duty : ℝ) (i : ℤ) : waveAt form f 0 φ duty i = 0 := by cases form <;> simp [waveAt]

/-- **Random access**: `it` with parameters and index; any combination of steps ends at the sum of the steps, with the value of the
wave there -/
theorem C143_wave_iterator (form : Form) (i : ℤ) (f a φ duty : ℝ) (n k : ℤ) :
    let it := WIter.make form i f a φ duty
    it.deref = waveAt form f a φ duty i
      ∧ it.at n = waveAt form f a φ duty (i + n)
      ∧ it.next = .make form (i + 1) f a φ duty ∧ it.incr = it.next
      ∧ it.prev = .make form (i - 1) f a φ duty ∧ it.decr = it.prev
      ∧ it.add n = .make form (i + n) f a φ duty ∧ it.addAssign n = it.add n
      ∧ it.sub n = .make form (i - n) f a φ duty ∧ it.subAssign n = it.sub n
      ∧ (it.add n).diff (it.add k) = n - k
      ∧ ((it.add n).eq (it.add k) = true ↔ n = k)
      ∧ ((it.add n).lt (it.add k) = true ↔ n < k) := by
  refine ⟨?_, ?_, rfl, rfl, rfl, rfl, rfl, rfl, rfl, rfl, ?_, ?_, ?_⟩
  · unfold WIter.deref
    split_ifs with h
    · rw [show a = 0 from h, waveAt_zero]
    · cases form <;> simp [WIter.value, WIter.make, waveAt, mul_assoc]
  · unfold WIter.at
    split_ifs with h
    · rw [show a = 0 from h, waveAt_zero]
    · cases form <;> simp [WIter.value, WIter.make, waveAt, mul_assoc]
  · simp [WIter.diff, WIter.add, WIter.withIndex]
  · simp [WIter.eq, WIter.add, WIter.withIndex]
  · simp [WIter.lt, WIter.add, WIter.withIndex]

theorem wave_traverse (form : Form) (f a φ duty : ℝ) (n i : ℕ) (k : ℕ) (hk : i + k = n) :
    WaveIter.elements (.make form i f a φ duty) (.make form n f a φ duty) = some ((List.range' i k).map fun (j : ℕ) => waveAt form f a φ duty j) := by
  induction k generalizing i with
  | zero =>
    rw [elements, if_pos (by simp [WIter.eq, WIter.make]; omega)]; rfl
  | succ k ih =>
    rw [elements, if_neg (by simp [WIter.eq, WIter.make]; omega)]
    have h := C143_wave_iterator form i f a φ duty 0 0
    simp only at h
    rw [h.2.2.2.1, h.2.2.1, show ((i : ℤ) + 1) = ((i + 1 : ℕ) : ℤ) by push_cast; rfl, ih (i + 1) (by omega), h.1]
    rfl

/-- **`range | wave(frequency, amplitude, phase)`** has as many elements as the range, and they are those of the wave -/
theorem C143_wave_range (form : Form) (n : ℕ) (f a φ duty : ℝ) :
    let r := pipe n (.unbounded form f a φ duty)
    WaveIter.elements r.first r.last = some ((List.range n).map fun (j : ℕ) => waveAt form f a φ duty j) := by
  have := wave_traverse form f a φ duty n 0 n (by omega)
  rw [List.range_eq_range']
  exact this

/-- bounds and period: no value is beyond the amplitude (for a square wave: with duty 1/2), and if `k` steps are a whole number of cycles
the wave repeats itself -/
theorem C143_wave_bound (form : Form) (f a φ : ℝ) (i : ℤ) : |waveAt form f a φ (1 / 2) i| ≤ |a| := by
  have key : ∀ x : ℝ, |x| ≤ 1 → |a * x| ≤ |a| := fun x hx => by
    rw [abs_mul]; nlinarith [abs_nonneg a]
  cases form
  · exact key _ (Real.abs_sin_le_one _)
  · exact key _ (abs_le.2 ⟨(C79_sawtooth _).2.1.1, (C79_sawtooth _).2.1.2.le⟩)
  · refine key _ ?_
    rw [C79_square_partial]
    split_ifs <;> norm_num
  · exact key _ (abs_le.2 (C79_triangle _).2.1)

theorem sawtooth_int (t : ℝ) (c : ℤ) : Wave.sawtoothImpl (t + c) = Wave.sawtoothImpl t := by
  rw [Wave.sawtoothImpl, Wave.sawtoothImpl, show t + c + 0.5 = t + 0.5 + c by ring, Int.floor_add_intCast]
  push_cast
  ring

theorem C143_wave_period (form : Form) (f a φ duty : ℝ) (i k c : ℤ) (h : f * k = c) :
    waveAt form f a φ duty (i + k) = waveAt form f a φ duty i := by
  have e : f * ((i + k : ℤ) : ℝ) = f * i + c := by push_cast; rw [mul_add, h]
  cases form
  · simp only [waveAt]
    rw [e, show 2 * Real.pi * (f * i + c) + φ = 2 * Real.pi * (f * i) + φ + c * (2 * Real.pi) by ring, Real.sin_add_int_mul_two_pi]
  · simp only [waveAt]
    rw [e, show f * i + (c : ℝ) + φ = f * i + φ + c by ring, sawtooth_int]
  · simp only [waveAt, Wave.squareImpl]
    rw [e, show f * i + (c : ℝ) + φ = f * i + φ + c by ring, sawtooth_int, show f * i + φ + (c : ℝ) - duty = f * i + φ - duty + c by ring,
      sawtooth_int]
  · simp only [waveAt, Wave.triangleImpl]
    rw [e, show 2 * Real.pi * (f * i + (c : ℝ) + φ) = 2 * Real.pi * (f * i + φ) + c * (2 * Real.pi) by ring, Real.sin_add_int_mul_two_pi]

/-- the adaptors and `fixed::sawtooth`, … for a container give the same; `fixed::sinusoid` counts the cycles per container, the adaptor
per element -/
theorem C143_wave_fixed (n : ℕ) (cont : List ℝ) (hc : cont.length = n) (f a φ duty : ℝ) :
    (∃ out, Wave.sawtooth cont 0 n f a φ = some out ∧ ∀ i, i < n → out[i]? = some (waveAt .sawtooth f a φ duty i))
    ∧ (∃ out, Wave.square cont 0 n f a φ duty = some out ∧ ∀ i, i < n → out[i]? = some (waveAt .square f a φ duty i))
    ∧ (∃ out, Wave.triangle cont 0 n f a φ = some out ∧ ∀ i, i < n → out[i]? = some (waveAt .triangle f a φ duty i))
    ∧ (∃ out, Wave.sinusoid cont 0 n (f * n) a φ = some out ∧ ∀ i, i < n → out[i]? = some (waveAt .sinusoid f a φ duty i)) := by
  subst hc
  obtain ⟨-, ⟨o2, e2, g2⟩, ⟨o3, e3, g3⟩, ⟨o4, e4, g4⟩⟩ := C79_generators_partial cont f a φ duty
  obtain ⟨⟨o1, e1, g1⟩, -⟩ := C79_generators_partial cont (f * cont.length) a φ duty
  refine ⟨⟨o2, e2, fun i hi => ?_⟩, ⟨o3, e3, fun i hi => ?_⟩, ⟨o4, e4, fun i hi => ?_⟩, ⟨o1, e1, fun i hi => ?_⟩⟩
  · rw [g2.2 i hi, if_pos (by omega)]; rfl
  · rw [g3.2 i hi, if_pos (by omega)]; rfl
  · rw [g4.2 i hi, if_pos (by omega)]; rfl
  · rw [g1.2 i hi, if_pos (by omega)]
    have : (cont.length : ℝ) ≠ 0 := by
      have : 0 < cont.length := by omega
      positivity
    simp only [waveAt, Nat.sub_zero]
    congr 3
    push_cast
    field_simp

/-- a sawtooth of 4 elements per cycle -/
example : elements (pipe 4 (.unbounded .sawtooth (1 / 4) 1 0 0)).first (pipe 4 (.unbounded .sawtooth (1 / 4) 1 0 0)).last
    = some [0, 1 / 2, -1, -1 / 2] := by
  have := C143_wave_range .sawtooth 4 (1 / 4) 1 0 0
  simp only at this
  rw [this]
  have h := fun (t : ℝ) h1 h2 => (C79_sawtooth t).2.2 h1 h2
  have p := fun (t : ℝ) => (C79_sawtooth t).1
  have h0 := h 0 (by norm_num) (by norm_num)
  have h1 := h (1 / 4) (by norm_num) (by norm_num)
  have h2 := p (-(1 / 2))
  have h3 := p (-(1 / 4))
  rw [h (-(1 / 2)) (by norm_num) (by norm_num)] at h2
  rw [h (-(1 / 4)) (by norm_num) (by norm_num)] at h3
  norm_num at h0 h1 h2 h3
  norm_num [List.range_succ, waveAt, h0, h1, h2, h3]

/-! ## transforms -/

/-- **`dft_iterator` and `idft_iterator` cannot be advanced**: `next` calls a constructor with five arguments, which there is not
(dft_iterator.hpp 75); nor can they be compared, for there is no `index()` (138) -/
theorem C143_dft_undefined (it a b : DIter) (n : ℕ) : it.next = none ∧ it.add n = none ∧ a.eq b = none :=
  ⟨rfl, rfl, by simp [DIter.eq, dftMembers]⟩

/-- hence `range | dft` cannot be traversed -/
theorem C143_dft_refuted (ra inv : Bool) (m : List ℂ) : dftTraverse ra (dftRange inv m).1 (dftRange inv m).2 = none := by
  rw [dftTraverse, (C143_dft_undefined (dftRange inv m).1 _ _ 0).2.2]
  rfl

/-- only `operator*` of the first iterator and `operator[]` work: they are the coefficients of the transform -/
theorem C143_dft_partial (ra : Bool) (m : List ℂ) (n : ℕ) :
    (dftRange false m).1.at ra n = some (Spec.dftCoeff m n) ∧ (dftRange true m).1.at ra n = some (Spec.idftCoeff m n)
      ∧ (dftRange false m).1.deref ra = some (Spec.dftCoeff m 0) ∧ (dftRange true m).1.deref ra = some (Spec.idftCoeff m 0) := by
  have h1 := fun i => C76_dft_element ra m 0 m.length i (by omega) (by omega)
  have h2 := fun i => C76_idft_element ra m 0 m.length i (by omega) (by omega)
  simp only [List.drop_zero, Nat.sub_zero, List.take_length] at h1 h2
  unfold Fourier.dftElement at h1
  unfold Fourier.idftElement at h2
  refine ⟨?_, ?_, ?_, ?_⟩
  · simpa [dftRange, DIter.at, DIter.make] using h1 n
  · simpa [dftRange, DIter.at, DIter.make] using h2 n
  · simpa [dftRange, DIter.deref, DIter.make] using h1 0
  · simpa [dftRange, DIter.deref, DIter.make] using h2 0

/-! ## noise -/

open RandDist RandDist.Normal RandIter
open DrawSpec (take)

section
variable {R E : Type} [Arith R]

theorem take_values (U : E → R × E) (n : ℕ) (e : E) (d : NDist R) :
    ∃ g, take (VG.call fun d e => some (callConst U d e)) n ⟨e, d⟩ = some (values (Normal.call U) d e n, g) := by
  induction n generalizing e d with
  | zero => exact ⟨_, rfl⟩
  | succ n ih =>
    obtain ⟨g, hg⟩ := ih (Normal.call U d e).2.1 (Normal.call U d e).2.2
    refine ⟨g, ?_⟩
    rw [take_succ]
    simp only [VG.call, Option.map_some, Option.bind_some, C132_agree]
    simp only [VG.call, C132_agree] at hg
    rw [hg]
    rfl

theorem values_take (U : E → R × E) (d : NDist R) (e : E) (n : ℕ) : (values (Normal.call U) d e n).length = n := by
  induction n generalizing d e with
  | zero => rfl
  | succ n ih => simp [values, ih]

theorem noise_traverse (U : E → R × E) (r0 : RR (VG E (NDist R)) R) (e : E) (sigma : R) (n : ℕ) (d : NDist R)
    (hd : make (Arith.lit 0) sigma = some d) :
    ((noiseRange U r0 e sigma n).bind fun r => (RandIter.traverse (VG.call fun d e => some (callConst U d e)) r.1 r.2).map Prod.fst)
      = some (values (Normal.call U) d e n) := by
  unfold noiseRange
  rw [hd]
  simp only [Option.bind_eq_bind, Option.bind_some, VG.call, Option.map_some]
  have h := traverse_eq (VG.call fun d e => some (callConst U d e)) r0 n (callConst U d e).1 ⟨(callConst U d e).2.1, (callConst U d e).2.2⟩
  unfold endIt at h
  have e1 : (VG.call fun d e => some (callConst U d e)) = fun g : VG E (NDist R) =>
    some ((callConst U g.distribution g.engine).1, (⟨(callConst U g.distribution g.engine).2.1, (callConst U g.distribution g.engine).2.2⟩ : VG E (NDist R))) := rfl
  obtain ⟨g, hg⟩ := take_values U n (callConst U d e).2.1 (callConst U d e).2.2
  rw [hg] at h
  refine h.trans ?_
  rw [Option.map_some, C132_agree]
  cases n with
  | zero => rfl
  | succ n =>
    show some (((Normal.call U d e).1 :: values (Normal.call U) (Normal.call U d e).2.2 (Normal.call U d e).2.1 (n + 1)).take (n + 1)) = _
    rw [List.take_succ_cons]
    congr 1
    show _ = (Normal.call U d e).1 :: values (Normal.call U) (Normal.call U d e).2.2 (Normal.call U d e).2.1 n
    congr 1
    generalize (Normal.call U d e).2.2 = d'
    generalize (Normal.call U d e).2.1 = e'
    clear h hg e1 hd
    induction n generalizing d' e' with
    | zero => rfl
    | succ n ih =>
      show ((Normal.call U d' e').1 :: values (Normal.call U) (Normal.call U d' e').2.2 (Normal.call U d' e').2.1 (n + 1)).take (n + 1) = _
      rw [List.take_succ_cons, ih]
      rfl

end

/-- **A range of noise made with an engine**: the first values of the normal distribution with this engine -/
theorem C143_noise_range {E : Type} (U : E → ℝ × E) (r0 : RR (VG E (NDist ℝ)) ℝ) (e : E) (sigma : ℝ) (hs : 0 ≤ sigma) (n : ℕ) :
    ((noiseRange U r0 e sigma (2 * n : ℕ)).bind fun r => (RandIter.traverse (VG.call fun d e => some (callConst U d e)) r.1 r.2).map Prod.fst)
      = some (normalPairs 0 sigma U e n) := by
  have hd : make (Arith.lit 0) sigma = some (⟨0, sigma, 0, 0, 0, false⟩ : NDist ℝ) := by
    simp [make, Arith.lit, Arith.le, hs]
  rw [noise_traverse U r0 e sigma _ _ hd, C132_run U _ rfl e n]

/-- **`range | white_noise(engine, sigma)`** loses the first two values: it starts with the engine as it is after the first value has
been generated -/
theorem C143_noise_pipe_partial {E : Type} (U : E → ℝ × E) (r0 : RR (VG E (NDist ℝ)) ℝ) (e : E) (sigma : ℝ) (hs : 0 ≤ sigma) (n : ℕ) :
    ((noisePipe U r0 (2 * n) e sigma).bind fun r => (RandIter.traverse (VG.call fun d e => some (callConst U d e)) r.1 r.2).map Prod.fst)
      = some (normalPairs 0 sigma U (U (U e).2).2 n)
    ∧ (normalPairs 0 sigma U e (n + 1)).drop 2 = normalPairs 0 sigma U (U (U e).2).2 n := by
  have hd : make (Arith.lit 0) sigma = some (⟨0, sigma, 0, 0, 0, false⟩ : NDist ℝ) := by
    simp [make, Arith.lit, Arith.le, hs]
  constructor
  · rw [← C143_noise_range U r0 _ sigma hs n]
    congr 1
    unfold noisePipe
    conv_lhs => unfold noiseRange
    rw [hd]
    rfl
  · rfl

/-- so its first values are not those of the noise with the same engine -/
theorem C143_noise_refuted : ¬ ∀ (U : ℕ → ℝ × ℕ) (r0 : RR (VG ℕ (NDist ℝ)) ℝ) (e n : ℕ) (sigma : ℝ), 0 ≤ sigma →
    ((noisePipe U r0 n e sigma).bind fun r => (RandIter.traverse (VG.call fun d e => some (callConst U d e)) r.1 r.2).map Prod.fst)
      = (noiseRange U r0 e sigma n).bind fun r => (RandIter.traverse (VG.call fun d e => some (callConst U d e)) r.1 r.2).map Prod.fst := by
  intro h
  have := h (fun e => (if e = 0 then 1 / 4 else if e = 1 then 1 / 2 else 0, e + 1)) ⟨0, ⟨0, ⟨0, 1, 0, 0, 0, false⟩⟩⟩ 0 (2 * 1) 1 (by norm_num)
  rw [(C143_noise_pipe_partial _ _ 0 1 (by norm_num) 1).1, C143_noise_range _ _ 0 1 (by norm_num) 1] at this
  simp only [normalPairs, normalValue] at this
  norm_num at this
  have hl : 0 < Real.log 2 := Real.log_pos (by norm_num)
  have e : 2 * Real.pi * (1 / 4) = Real.pi / 2 := by ring
  norm_num [e] at this
  rw [show Real.log (1 / 2) = -Real.log 2 by rw [one_div, Real.log_inv], Real.sqrt_eq_zero'] at this
  linarith

end Sprout
