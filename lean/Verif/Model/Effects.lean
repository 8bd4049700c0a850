import Mathlib.Analysis.SpecialFunctions.Trigonometric.Arctan

/-!
# Sound effects and formats

`sprout/compost/effects/*.hpp`, `sprout/compost/formats/*.hpp`.

Simplifications: samples (`float`, `double`) and parameters are real numbers, functions are exact; division by zero is `none`. A
range of samples is the list of its values. `range | transformed(f)` applies `f` to each element and
`range1 | transformed(range2, f)` goes to the end of `range1`, so that `range2` must not be shorter (verified as C120).
`range | indexed | outdirected` is the range of iterators with their indices: an element is a position `n` of the list, `*x` is the
sample there, `x.index()` is `n` and `x[k]` the sample at `n + k` (iterator/indexed_iterator.hpp 66-68, 69-71, 113-115), undefined
behaviour outside of the list.
-/

namespace Sprout.Effects

/-- a division -/
noncomputable def dv (x y : ℝ) : Option ℝ := if y = 0 then none else some (x / y)

/-- `static_cast` of a floating point number to an integer: the fraction is discarded -/
noncomputable def trunc (t : ℝ) : ℤ := if 0 ≤ t then ⌊t⌋ else ⌈t⌉

/-! ## effects on single samples -/

/-- `bind2nd(multiplies<>(), value)` in `changed_volume` (changed_volume.hpp 62-73) -/
def changeVolume (value x : ℝ) : ℝ := x * value

/-- `clamp(value, low, high)` (algorithm/clamp.hpp 20-35), in `clipped(low, up)` (clipped.hpp 64-75) and `clipped` (76-87) -/
noncomputable def clamp (x low high : ℝ) : ℝ := if x < low then low else if high < x then high else x

/-- the defaults of `clipped()` (clipped.hpp 47-51) -/
noncomputable def clip (x : ℝ) : ℝ := clamp x (-1) 1

/-- `rectify_value` (rectified.hpp 26-29) -/
noncomputable def rectify (x : ℝ) : ℝ := if x < 0 then -x else x

/-- `distorted(gain, level)` (distorted.hpp 65-80) -/
noncomputable def distort (gain level x : ℝ) : ℝ := changeVolume level (clip (changeVolume gain x))

/-- `overdrive_clip_value` (overdriven.hpp 29-34) -/
noncomputable def overdriveClip (x : ℝ) : ℝ :=
  if 0 ≤ x then Real.arctan x / (Real.pi / 2) else Real.arctan x / (Real.pi / 2) / 10

/-- `overdriven(gain, level)` (overdriven.hpp 93-108) -/
noncomputable def overdrive (gain level x : ℝ) : ℝ := changeVolume level (overdriveClip (changeVolume gain x))

/-- `fuzzed(gain, level)` (fuzzed.hpp 66-79) -/
noncomputable def fuzz (gain level x : ℝ) : ℝ := distort gain level (rectify x)

/-- `detail::noise_gate_value` (noise_gated.hpp 20-24) -/
noncomputable def noiseGate (threshold x : ℝ) : ℝ := if x ≤ threshold ∧ x ≥ -threshold then 0 else x

/-- `detail::compress_value` (compressed.hpp 20-26) -/
noncomputable def compressValue (threshold ratio gain x : ℝ) : ℝ :=
  (if x > threshold then threshold + (x - threshold) * ratio
   else if x < -threshold then -threshold + (x + threshold) * ratio
   else x) * gain

/-- `compress_value(threshold, ratio)` (compressed.hpp 59-66) -/
noncomputable def compress (threshold ratio x : ℝ) : Option ℝ := do
  let gain ← dv 1 (threshold + (1 - threshold) * ratio)
  some (compressValue threshold ratio gain x)

/-- `detail::normalized_to_pcm_wave` for signed types (as_pcm_wave.hpp 27-38); `max` is the greatest value of the type -/
noncomputable def pcmSigned (max : ℕ) (x : ℝ) : ℤ := trunc (clamp x (-1) 1 * max)

/-- `detail::normalized_to_pcm_wave` for unsigned types (as_pcm_wave.hpp 40-51) -/
noncomputable def pcmUnsigned (max : ℕ) (x : ℝ) : ℤ := trunc (clamp ((x + 1) / 2) 0 1 * max)

/-! ## effects on ranges -/

/-- `*x` and `x[k]` at the position `n` -/
def at_ (xs : List ℝ) (n : ℕ) (k : ℤ) : Option ℝ := if 0 ≤ (n : ℤ) + k then xs[((n : ℤ) + k).toNat]? else none

/-- `range | transformed(f)` -/
def each (f : ℝ → Option ℝ) (xs : List ℝ) : Option (List ℝ) := xs.mapM f

/-- `range | indexed | outdirected | transformed(f)` -/
def eachPos (f : List ℝ → ℕ → Option ℝ) (xs : List ℝ) : Option (List ℝ) := (List.range xs.length).mapM (f xs)

/-- `superposed(range)` (superposed.hpp 70-81) -/
def superpose (xs ys : List ℝ) : Option (List ℝ) :=
  (List.range xs.length).mapM fun n => do
    let x ← xs[n]?
    let y ← ys[n]?
    some (x + y)

/-- `stereo` is `alternated` (stereo.hpp 20-22): pairs as long as both ranges have elements (C120) -/
def stereo (l r : List ℝ) : List ℝ := (l.zip r).flatMap fun p => [p.1, p.2]

/-- the angle `two_pi * rate * index / samples_per_sec` -/
noncomputable def phase (rate sps : ℝ) (n : ℕ) : Option ℝ := dv (2 * Real.pi * rate * n) sps

/-- `tremolo_outdirected_value` (tremolo.hpp 38-42) -/
noncomputable def tremolo (depth rate sps : ℝ) (xs : List ℝ) (n : ℕ) : Option ℝ := do
  let p ← phase rate sps n
  let x ← at_ xs n 0
  some ((1 + depth * Real.sin p) * x)

/-- `auto_pan_outdirected_value`, left (auto_pan.hpp 37-44) -/
noncomputable def panLeft (depth rate sps : ℝ) (xs : List ℝ) (n : ℕ) : Option ℝ := do
  let p ← phase rate sps n
  let x ← at_ xs n 0
  some ((1 + depth * Real.sin p) * x)

/-- `auto_pan_outdirected_value`, right (auto_pan.hpp 45-52) -/
noncomputable def panRight (depth rate sps : ℝ) (xs : List ℝ) (n : ℕ) : Option ℝ := do
  let p ← phase rate sps n
  let x ← at_ xs n 0
  some ((1 + depth * Real.sin (p + Real.pi)) * x)

/-- `range | auto_pan(depth, rate, samples_per_sec)` (auto_pan.hpp 127-158) -/
noncomputable def autoPan (depth rate sps : ℝ) (xs : List ℝ) : Option (List ℝ) := do
  let l ← eachPos (panLeft depth rate sps) xs
  let r ← eachPos (panRight depth rate sps) xs
  some (stereo l r)

/-- `d_` of `pseudo_stereo_outdirected_value` (pseudo_stereo.hpp 56-60) -/
noncomputable def pseudoD (delay : ℝ) (sps : ℤ) : ℤ := trunc (-delay * sps)

/-- `pseudo_stereo_outdirected_value`, left (pseudo_stereo.hpp 35-44) -/
noncomputable def pseudoLeft (delay : ℝ) (sps : ℤ) (xs : List ℝ) (n : ℕ) : Option ℝ :=
  if (n : ℤ) + pseudoD delay sps ≥ 0 then do
    let x ← at_ xs n 0
    let y ← at_ xs n (pseudoD delay sps)
    some (x + y)
  else some 0

/-- `pseudo_stereo_outdirected_value`, right (pseudo_stereo.hpp 45-54) -/
noncomputable def pseudoRight (delay : ℝ) (sps : ℤ) (xs : List ℝ) (n : ℕ) : Option ℝ :=
  if (n : ℤ) + pseudoD delay sps ≥ 0 then do
    let x ← at_ xs n 0
    let y ← at_ xs n (pseudoD delay sps)
    some (x - y)
  else some 0

/-- `range | pseudo_stereo(delay, samples_per_sec)` (pseudo_stereo.hpp 123-154) -/
noncomputable def pseudoStereo (delay : ℝ) (sps : ℤ) (xs : List ℝ) : Option (List ℝ) := do
  let l ← eachPos (pseudoLeft delay sps) xs
  let r ← eachPos (pseudoRight delay sps) xs
  some (stereo l r)

/-- `reverb_outdirected_value::calc_1` (reverbed.hpp 37-43) -/
noncomputable def reverbCalc1 (att : ℝ) (xs : List ℝ) (n : ℕ) (i : ℕ) (m : ℤ) : Option ℝ :=
  if m ≥ 0 then (at_ xs n (m - n)).map fun x => att ^ i * x else some 0

/-- `reverb_outdirected_value::calc` (reverbed.hpp 44-51) -/
noncomputable def reverbCalc (att delay : ℝ) (rep : ℕ) (sps : ℝ) (xs : List ℝ) (n : ℕ) (i : ℕ) : Option ℝ :=
  if i ≤ rep then do
    let a ← reverbCalc1 att xs n i (trunc (n - i * delay * sps))
    let b ← reverbCalc att delay rep sps xs n (i + 1)
    some (a + b)
  else some 0
termination_by rep + 1 - i

/-- `reverb_outdirected_value` (reverbed.hpp 59-63) -/
noncomputable def reverb (att delay : ℝ) (rep : ℕ) (sps : ℝ) (xs : List ℝ) (n : ℕ) : Option ℝ := do
  let x ← at_ xs n 0
  let c ← reverbCalc att delay rep sps xs n 1
  some (x + c)

/-- `vibrato_outdirected_value::calc_2` (vibrato.hpp 38-45); `x.base().get()` is the size of the range, which is not negative -/
noncomputable def vibratoCalc2 (xs : List ℝ) (n : ℕ) (m : ℤ) (delta : ℝ) : Option ℝ :=
  if m ≥ 0 ∧ m + 1 < xs.length then do
    let a ← at_ xs n (m + 1 - n)
    let b ← at_ xs n (m - n)
    some (delta * a + (1 - delta) * b)
  else some 0

/-- `calc_1` (vibrato.hpp 46-50) -/
noncomputable def vibratoCalc1 (xs : List ℝ) (n : ℕ) (t : ℝ) : Option ℝ := vibratoCalc2 xs n (trunc t) (t - trunc t)

/-- `vibrato_outdirected_value` (vibrato.hpp 51-55, 63-67) -/
noncomputable def vibrato (d depth rate sps : ℝ) (xs : List ℝ) (n : ℕ) : Option ℝ := do
  let p ← phase rate sps n
  vibratoCalc1 xs n (n - (d + depth * Real.sin p))

/-- `chorus_outdirected_value::calc_2` (chorus.hpp 38-46) -/
noncomputable def chorusCalc2 (xs : List ℝ) (n : ℕ) (m : ℤ) (delta : ℝ) : Option ℝ := do
  let x ← at_ xs n 0
  if m ≥ 0 ∧ m + 1 < xs.length then
    let a ← at_ xs n (m + 1 - n)
    let b ← at_ xs n (m - n)
    some (x + (delta * a + (1 - delta) * b))
  else some (x + 0)

/-- `chorus_outdirected_value` (chorus.hpp 47-56, 64-68) -/
noncomputable def chorus (d depth rate sps : ℝ) (xs : List ℝ) (n : ℕ) : Option ℝ := do
  let p ← phase rate sps n
  let t := (n : ℝ) - (d + depth * Real.sin p)
  chorusCalc2 xs n (trunc t) (t - trunc t)

/-! ## channels -/

/-- a function template: its template parameters and those that occur in the types of its parameters -/
structure Tmpl where
  params : List String
  deduced : List String

/-- a call without explicit template arguments is possible only if all template parameters are deduced (they have no defaults) -/
def Tmpl.viable (t : Tmpl) : Bool := t.params.all fun p => t.deduced.contains p

/-- `template<typename Range, typename T> operator|(Range&& lhs, left_channel_forwarder const&)` (left_channel.hpp 33-35) and the
same for `right_channel_forwarder` (right_channel.hpp 33-35) -/
def channelTmpl : Tmpl := ⟨["Range", "T"], ["Range"]⟩

/-- every second element -/
def evens : List ℝ → List ℝ
  | x :: _ :: rest => x :: evens rest
  | [x] => [x]
  | [] => []

/-- `range | left_channel` (left_channel.hpp 33-44): `steps(2)` -/
def leftChannel (xs : List ℝ) : Option (List ℝ) := if channelTmpl.viable then some (evens xs) else none

/-- `range | right_channel` (right_channel.hpp 33-44): `steps(2, 1)`; `drop 1` is for the position `min(1, size)` -/
def rightChannel (xs : List ℝ) : Option (List ℝ) := if channelTmpl.viable then some (evens (xs.drop 1)) else none

/-- `range | effected_each_cannel(left, right)` (effected_each.hpp 84-95) -/
def effectedEach (left right : List ℝ → Option (List ℝ)) (xs : List ℝ) : Option (List ℝ) := do
  let l ← leftChannel xs
  let l ← left l
  let r ← rightChannel xs
  let r ← right r
  some (stereo l r)

/-- `range | vocal_cancelled` (vocal_cancelled.hpp 38-55): left minus right -/
def vocalCancelled (xs : List ℝ) : Option (List ℝ) := do
  let l ← leftChannel xs
  let r ← rightChannel xs
  (List.range l.length).mapM fun n => do
    let x ← l[n]?
    let y ← r[n]?
    some (x - y)

end Sprout.Effects
