import Verif.Props.C141

/-!
# C142: effects that depend on time

A signal is silent before it starts: `sampleAt xs k` is 0 for `k < 0`.
-/

namespace Sprout

open Effects

/-- the sample at the time `k`, 0 outside of the signal -/
def sampleAt (xs : List ℝ) (k : ℤ) : ℝ := if 0 ≤ k then xs.getD k.toNat 0 else 0

theorem at_eq {xs : List ℝ} {n : ℕ} {k m : ℤ} (e : (n : ℤ) + k = m) (h0 : 0 ≤ m) (h1 : m < xs.length) :
    at_ xs n k = some (sampleAt xs m) := by
  unfold at_ sampleAt
  rw [e, if_pos h0, if_pos h0]
  have : m.toNat < xs.length := by omega
  simp [List.getElem?_eq_getElem this]

theorem phase_eq {rate sps : ℝ} (hs : sps ≠ 0) (n : ℕ) : phase rate sps n = some (2 * Real.pi * rate * n / sps) := by
  simp [phase, dv, hs]

/-- `tremolo` multiplies each sample by a factor that oscillates between `1 - depth` and `1 + depth`, `rate` times per second -/
theorem C142_tremolo (depth rate sps : ℝ) (xs : List ℝ) (n : ℕ) (hs : sps ≠ 0) (hn : n < xs.length) (hd : 0 ≤ depth) :
    ∃ k, tremolo depth rate sps xs n = some (k * sampleAt xs n) ∧ 1 - depth ≤ k ∧ k ≤ 1 + depth
      ∧ k = 1 + depth * Real.sin (2 * Real.pi * (rate * (n / sps))) := by
  refine ⟨1 + depth * Real.sin (2 * Real.pi * rate * n / sps), ?_, ?_, ?_, ?_⟩
  · simp [tremolo, phase_eq hs, at_eq (show (n : ℤ) + 0 = n by omega) (by omega) (by exact_mod_cast hn)]
  · nlinarith [Real.neg_one_le_sin (2 * Real.pi * rate * n / sps)]
  · nlinarith [Real.sin_le_one (2 * Real.pi * rate * n / sps)]
  · congr 3; ring

/-- `auto_pan`: the left channel is that of `tremolo`, and both channels together are always twice the signal -/
theorem C142_autoPan (depth rate sps : ℝ) (xs : List ℝ) (n : ℕ) (hs : sps ≠ 0) (hn : n < xs.length) :
    ∃ l r, panLeft depth rate sps xs n = some l ∧ panRight depth rate sps xs n = some r
      ∧ tremolo depth rate sps xs n = some l ∧ tremolo (-depth) rate sps xs n = some r ∧ l + r = 2 * sampleAt xs n := by
  have e := at_eq (show (n : ℤ) + 0 = n by omega) (by omega) (by exact_mod_cast hn : (n : ℤ) < xs.length)
  refine ⟨_, _, by simp [panLeft, phase_eq hs, e]; rfl, by simp [panRight, phase_eq hs, e]; rfl, by simp [tremolo, phase_eq hs, e],
    by simp [tremolo, phase_eq hs, e], ?_⟩
  ring

/-- the whole range: the channels alternate -/
theorem C142_autoPan_range (depth rate sps : ℝ) (xs : List ℝ) (hs : sps ≠ 0) :
    ∃ l r, autoPan depth rate sps xs = some (stereo l r) ∧ l.length = xs.length ∧ r.length = xs.length
      ∧ ∀ n, n < xs.length → l.getD n 0 + r.getD n 0 = 2 * sampleAt xs n := by
  have H := fun n (hn : n < xs.length) => C142_autoPan depth rate sps xs n hs hn
  refine ⟨(List.range xs.length).map fun n => (panLeft depth rate sps xs n).getD 0,
    (List.range xs.length).map fun n => (panRight depth rate sps xs n).getD 0, ?_, by simp, by simp, ?_⟩
  · unfold autoPan eachPos
    rw [Effects.mapM_range (panLeft depth rate sps xs) _ ((List.range xs.length).map fun n => (panLeft depth rate sps xs n).getD 0)
        (by simp) (fun i hi => by obtain ⟨l, r, h1, h2, _⟩ := H i hi; simp [hi, h1]),
      Effects.mapM_range (panRight depth rate sps xs) _ ((List.range xs.length).map fun n => (panRight depth rate sps xs n).getD 0)
        (by simp) (fun i hi => by obtain ⟨l, r, h1, h2, _⟩ := H i hi; simp [hi, h2])]
    rfl
  · intro n hn
    obtain ⟨l, r, h1, h2, _, _, h3⟩ := H n hn
    simp [hn, h1, h2, h3]

/-! ## pseudo stereo -/

theorem pseudoD_eq {delay : ℝ} {sps : ℤ} (h : 0 ≤ delay * sps) : pseudoD delay sps = -⌊delay * sps⌋ := by
  rw [pseudoD, neg_mul, trunc_neg, trunc, if_pos h]

/-- **`pseudo_stereo`**, once the delayed signal has begun: left is the sum and right the difference of the signal and the delayed
signal; before that both channels are silent (partial: the signal itself is lost there, see `C142_pseudoStereo_refuted`) -/
theorem C142_pseudoStereo_partial (delay : ℝ) (sps : ℤ) (xs : List ℝ) (n : ℕ) (h : 0 ≤ delay * sps) (hn : n < xs.length) :
    (⌊delay * sps⌋ ≤ n →
      pseudoLeft delay sps xs n = some (sampleAt xs n + sampleAt xs (n - ⌊delay * sps⌋))
      ∧ pseudoRight delay sps xs n = some (sampleAt xs n - sampleAt xs (n - ⌊delay * sps⌋)))
    ∧ ((n : ℤ) < ⌊delay * sps⌋ → pseudoLeft delay sps xs n = some 0 ∧ pseudoRight delay sps xs n = some 0) := by
  have hf : (0 : ℤ) ≤ ⌊delay * sps⌋ := Int.floor_nonneg.2 h
  have e := at_eq (show (n : ℤ) + 0 = n by omega) (by omega) (by exact_mod_cast hn : (n : ℤ) < xs.length)
  unfold pseudoLeft pseudoRight
  rw [pseudoD_eq h]
  constructor
  · intro hd
    rw [if_pos (by omega), if_pos (by omega)]
    have e' := at_eq (xs := xs) (show (n : ℤ) + -⌊delay * sps⌋ = n - ⌊delay * sps⌋ by omega) (by omega) (by omega)
    simp [e, e']
  · intro hd
    rw [if_neg (by omega), if_neg (by omega)]
    exact ⟨rfl, rfl⟩

/-- the direct signal is not there before the delayed one (pseudo_stereo.hpp 41-43, 51-53: `0` instead of `*x`) -/
theorem C142_pseudoStereo_refuted :
    ¬ ∀ (delay : ℝ) (sps : ℤ) (xs : List ℝ) (n : ℕ), 0 ≤ delay * sps → n < xs.length →
      pseudoLeft delay sps xs n = some (sampleAt xs n + sampleAt xs (n - ⌊delay * sps⌋)) := by
  intro h
  have := h 1 1 [1, 2] 0 (by norm_num) (by norm_num)
  rw [((C142_pseudoStereo_partial 1 1 [1, 2] 0 (by norm_num) (by norm_num)).2 (by norm_num)).1] at this
  norm_num [sampleAt] at this

/-- a negative delay reads beyond the end of the signal -/
theorem C142_pseudoStereo_negative : pseudoLeft (-1) 1 [1, 2] 1 = none := by
  have : pseudoD (-1) 1 = 1 := by
    rw [pseudoD]; norm_num
    have := trunc_int 1
    simpa using this
  rw [pseudoLeft, this]
  simp [at_]

example : pseudoStereo 1 1 [1, 2, 4] = some [0, 0, 3, 1, 6, 2] := by
  have hd : pseudoD 1 1 = -1 := by
    rw [pseudoD]; norm_num
    have := trunc_int (-1)
    simpa using this
  have h2 : Int.toNat 2 = 2 := rfl
  norm_num [pseudoStereo, eachPos, List.range_succ, pseudoLeft, pseudoRight, hd, at_, stereo, h2]

/-! ## reverberation -/

/-- the echoes from the `i`-th on -/
theorem reverbCalc_eq (att delay : ℝ) (rep : ℕ) (sps : ℝ) (D : ℕ) (hD : delay * sps = D) (hp : 0 < D) (xs : List ℝ) (n : ℕ)
    (hn : n < xs.length) (i : ℕ) (hi : i ≤ rep + 1) :
    reverbCalc att delay rep sps xs n i
      = some (((List.range' i (rep + 1 - i)).map fun (j : ℕ) => att ^ j * sampleAt xs (n - j * D)).sum) := by
  induction k : rep + 1 - i generalizing i with
  | zero =>
    rw [reverbCalc, if_neg (by omega)]
    simp
  | succ k ih =>
    rw [reverbCalc, if_pos (by omega), ih (i + 1) (by omega) (by omega)]
    have e : trunc ((n : ℝ) - i * delay * sps) = (n : ℤ) - i * D := by
      rw [mul_assoc, hD]
      have := trunc_int ((n : ℤ) - i * D)
      push_cast at this
      exact this
    rw [e]
    have h1 : reverbCalc1 att xs n i ((n : ℤ) - i * D) = some (att ^ i * sampleAt xs (n - i * D)) := by
      unfold reverbCalc1
      split_ifs with h
      · rw [at_eq (m := (n : ℤ) - i * D) (by omega) (by omega) (by nlinarith [Int.natCast_nonneg (i * D)])]
        rfl
      · rw [sampleAt, if_neg (by omega), mul_zero]
    rw [h1]
    simp [List.range'_succ]

/-- **`reverbed`**: if the delay is a whole number `D` of samples, the signal plus its echoes: the `i`-th `i * D` samples later,
attenuated `i` times -/
theorem C142_reverb_partial (att delay : ℝ) (rep : ℕ) (sps : ℝ) (D : ℕ) (hD : delay * sps = D) (hp : 0 < D) (xs : List ℝ) (n : ℕ)
    (hn : n < xs.length) :
    reverb att delay rep sps xs n = some (((List.range (rep + 1)).map fun (j : ℕ) => att ^ j * sampleAt xs (n - j * D)).sum) := by
  rw [reverb, at_eq (show (n : ℤ) + 0 = n by omega) (by omega) (by exact_mod_cast hn),
    reverbCalc_eq att delay rep sps D hD hp xs n hn 1 (by omega), List.range_eq_range', List.range'_succ]
  simp

/-- **A delay that is not a whole number of samples**: the first sample is echoed twice, once before the delay is over, since the
conversion of a negative number between -1 and 0 gives 0 (reverbed.hpp 48): with a delay of 3/2 samples a single impulse has an echo
at 1 and one at 2 -/
theorem C142_reverb_refuted :
    ¬ ∀ (att delay : ℝ) (sps : ℝ) (xs : List ℝ), 0 < delay * sps →
      ∃ D : ℕ, ∀ n, n < xs.length → reverb att delay 1 sps xs n = some (sampleAt xs n + att * sampleAt xs (n - D)) := by
  intro h
  obtain ⟨D, hD⟩ := h 1 (3 / 2) 1 [1, 0, 0, 0] (by norm_num)
  have t0 : trunc (-(1 / 2)) = 0 := by
    rw [trunc, if_neg (by norm_num), Int.ceil_eq_iff]; norm_num
  have t1 : trunc (1 / 2) = 0 := by
    rw [trunc, if_pos (by norm_num), Int.floor_eq_iff]; norm_num
  have h2 : Int.toNat 2 = 2 := rfl
  have e1 := hD 1 (by norm_num)
  have e2 := hD 2 (by norm_num)
  have c : ∀ n : ℕ, reverbCalc 1 (3 / 2) 1 1 [1, 0, 0, 0] n 1 = (reverbCalc1 1 [1, 0, 0, 0] n 1 (trunc (n - 3 / 2))).bind fun a => some a := by
    intro n
    rw [reverbCalc, if_pos (by norm_num), reverbCalc, if_neg (by norm_num)]
    simp
  have d : ∀ k : ℤ, k ≠ 0 → sampleAt [1, 0, 0, 0] k = 0 := by
    intro k hk
    unfold sampleAt
    split_ifs with h0
    · obtain ⟨m, rfl⟩ : ∃ m : ℕ, k = m := ⟨k.toNat, by omega⟩
      match m with
      | 0 => simp at hk
      | 1 => rfl
      | 2 => rfl
      | 3 => rfl
      | m + 4 => simp
    · rfl
  rw [reverb, c] at e1 e2
  norm_num [t0, t1, reverbCalc1, at_, h2] at e1 e2
  have f1 : ((1 : ℤ) - D) = 0 := by
    by_contra hne
    rw [d _ hne, d 1 (by norm_num)] at e1
    norm_num at e1
  have f2 : ((2 : ℤ) - D) = 0 := by
    by_contra hne
    rw [d _ hne, d 2 (by norm_num)] at e2
    norm_num at e2
  omega

/-! ## vibrato and chorus -/

/-- linear interpolation between the samples -/
noncomputable def interpolate (xs : List ℝ) (t : ℝ) : ℝ :=
  (t - ⌊t⌋) * sampleAt xs (⌊t⌋ + 1) + (1 - (t - ⌊t⌋)) * sampleAt xs ⌊t⌋

/-- **`vibrato`** gives the signal, linearly interpolated, at the time `t` (now minus the varying delay), if there is a sample after
`t`, and nothing if `t` is at least one sample before the beginning (partial: not for `-1 < t < 0` and for the last sample) -/
theorem C142_vibrato_partial (d depth rate sps : ℝ) (xs : List ℝ) (n : ℕ) (hs : sps ≠ 0) (t : ℝ)
    (ht : t = n - (d + depth * Real.sin (2 * Real.pi * (rate * (n / sps))))) :
    (0 ≤ t → ⌊t⌋ + 1 < xs.length → vibrato d depth rate sps xs n = some (interpolate xs t))
      ∧ (t ≤ -1 → vibrato d depth rate sps xs n = some 0) := by
  have e : vibrato d depth rate sps xs n = vibratoCalc1 xs n t := by
    rw [vibrato, phase_eq hs, Option.bind_eq_bind, Option.bind_some, ht]
    congr 5; ring
  rw [e, vibratoCalc1]
  constructor
  · intro h0 h1
    have hf : (0 : ℤ) ≤ ⌊t⌋ := Int.floor_nonneg.2 h0
    have et : trunc t = ⌊t⌋ := by rw [trunc, if_pos h0]
    rw [et, vibratoCalc2, if_pos ⟨hf, h1⟩, at_eq (m := ⌊t⌋ + 1) (by omega) (by omega) h1, at_eq (m := ⌊t⌋) (by omega) hf (by omega)]
    rfl
  · intro h
    have et : trunc t ≤ -1 := by
      rw [trunc, if_neg (by linarith), Int.ceil_le]; exact_mod_cast h
    rw [vibratoCalc2, if_neg (by omega)]

/-- `chorus` is the signal plus the one of `vibrato` -/
theorem C142_chorus (d depth rate sps : ℝ) (xs : List ℝ) (n : ℕ) (hn : n < xs.length) :
    chorus d depth rate sps xs n = (vibrato d depth rate sps xs n).map fun v => sampleAt xs n + v := by
  unfold chorus vibrato vibratoCalc1
  cases phase rate sps n with
  | none => rfl
  | some p =>
    simp only [Option.bind_eq_bind, Option.bind_some]
    generalize (n : ℝ) - (d + depth * Real.sin p) = t
    unfold chorusCalc2 vibratoCalc2
    rw [at_eq (show (n : ℤ) + 0 = n by omega) (by omega) (by exact_mod_cast hn)]
    simp only [Option.bind_eq_bind, Option.bind_some]
    split_ifs with h
    · cases at_ xs n (trunc t + 1 - n) with
      | none => rfl
      | some a =>
        cases at_ xs n (trunc t - n) with
        | none => rfl
        | some b => rfl
    · rfl

/-- before the beginning (`-1 < t < 0`) the signal is extrapolated: half a sample before the beginning of `1, 0, …` it is 3/2 -/
theorem C142_vibrato_refuted :
    ¬ ∀ (d depth rate sps : ℝ) (xs : List ℝ) (n : ℕ), sps ≠ 0 → 0 ≤ d → n < xs.length → (∀ x ∈ xs, |x| ≤ 1) →
      ∃ y, vibrato d depth rate sps xs n = some y ∧ |y| ≤ 1 := by
  intro h
  obtain ⟨y, hy, hy1⟩ := h (1 / 2) 0 0 1 [1, 0] 0 (by norm_num) (by norm_num) (by norm_num) (by simp)
  have t0 : trunc (-(1 / 2)) = 0 := by
    rw [trunc, if_neg (by norm_num), Int.ceil_eq_iff]; norm_num
  have t0' : trunc (-1 / 2) = 0 := by rw [← t0]; norm_num
  norm_num [vibrato, phase, dv, vibratoCalc1, t0, t0', vibratoCalc2, at_] at hy
  rw [← hy] at hy1
  norm_num [abs_le] at hy1

/-- without any delay the last sample is lost -/
theorem C142_vibrato_last : vibrato 0 0 0 1 [1, 1] 1 = some 0 := by
  have t1 : trunc 1 = 1 := by have := trunc_int 1; simpa using this
  norm_num [vibrato, phase, dv, vibratoCalc1, t1, vibratoCalc2]

/-- within the part of the signal that is interpolated, `vibrato` does not exceed the bounds of the signal -/
theorem C142_vibrato_bound (xs : List ℝ) (t b : ℝ) (hb : ∀ k, |sampleAt xs k| ≤ b) : |interpolate xs t| ≤ b := by
  have h1 := Int.floor_le t
  have h2 := Int.lt_floor_add_one t
  have a := abs_le.1 (hb (⌊t⌋ + 1))
  have c := abs_le.1 (hb ⌊t⌋)
  unfold interpolate
  have hd0 : 0 ≤ t - (⌊t⌋ : ℝ) := by linarith
  have hd1 : t - (⌊t⌋ : ℝ) ≤ 1 := by linarith
  generalize t - (⌊t⌋ : ℝ) = d at hd0 hd1
  generalize sampleAt xs (⌊t⌋ + 1) = u at a
  generalize sampleAt xs ⌊t⌋ = v at c
  obtain ⟨a1, a2⟩ := a
  obtain ⟨c1, c2⟩ := c
  rw [abs_le]
  constructor <;> nlinarith

end Sprout
