import Verif.Model.Effects

/-!
# Sound sources

`sprout/compost/sources/source.hpp`. The samples are real numbers: a sample of 8 or 16 bits divided by a power of two, and all the
products with 255 and 32767 below, are exact in `double`, which is the default of `Elem`.
-/

namespace Sprout.PcmSource

/-- an element of `sound_type` (compost/sources/source.hpp 61-65) -/
noncomputable def soundElem (bits : ℕ) (s : ℤ) : ℝ := if bits = 8 then (s : ℝ) / 0x80 - 1 else (s : ℝ) / 0x8000

/-- the constructor of `sound_type` (compost/sources/source.hpp 59-68) -/
noncomputable def sound (bits : ℕ) (samples : List ℤ) : List ℝ := samples.map (soundElem bits)

/-- a source of 8 bits written again: `as_pcm_wave8` (compost/formats/as_pcm_wave.hpp 98) -/
noncomputable def again8 (samples : List ℤ) : List ℤ := (sound 8 samples).map (Effects.pcmUnsigned 255)

/-- a source of 16 bits written again: `as_pcm_wave16` (compost/formats/as_pcm_wave.hpp 99) -/
noncomputable def again16 (samples : List ℤ) : List ℤ := (sound 16 samples).map (Effects.pcmSigned 32767)

end Sprout.PcmSource
