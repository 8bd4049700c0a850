import Verif.Model.PcmSource

/-!
# C171: sound sources

The samples of a source of 8 bits (0 to 255) or 16 bits (-32768 to 32767) become numbers from -1 (inclusive) to 1 (exclusive), in
order. Writing them again with the same number of bits should give the samples back.
-/

namespace Sprout
open PcmSource

/-- the samples with a number of bits: 8 bits are unsigned, all others signed -/
def PcmRange (bits : ℕ) (s : ℤ) : Prop := if bits = 8 then 0 ≤ s ∧ s < 256 else -2 ^ (bits - 1) ≤ s ∧ s < 2 ^ (bits - 1)

/-- from -1 to 1 -/
theorem C171_range_partial (bits : ℕ) (hb : bits = 8 ∨ bits = 16) (s : ℤ) (h : PcmRange bits s) :
    -1 ≤ soundElem bits s ∧ soundElem bits s < 1 := by
  rcases hb with rfl | rfl
  · obtain ⟨h1, h2⟩ : 0 ≤ s ∧ s < 256 := by simpa [PcmRange] using h
    have h1' : (0 : ℝ) ≤ s := by exact_mod_cast h1
    have h2' : (s : ℝ) < 256 := by exact_mod_cast h2
    simp only [soundElem, if_true]
    constructor <;> linarith
  · obtain ⟨h1, h2⟩ : -32768 ≤ s ∧ s < 32768 := by simpa [PcmRange] using h
    have h1' : (-32768 : ℝ) ≤ s := by exact_mod_cast h1
    have h2' : (s : ℝ) < 32768 := by exact_mod_cast h2
    simp only [soundElem, show ¬ (16 : ℕ) = 8 by decide, if_false]
    constructor
    · rw [le_div_iff₀ (by norm_num)]; linarith
    · rw [div_lt_one (by norm_num)]; linarith

/-- refuted: samples of 24 bits are divided by 2^15 as well -/
theorem C171_range_refuted : ¬ ∀ (bits : ℕ) (s : ℤ), PcmRange bits s → -1 ≤ soundElem bits s ∧ soundElem bits s < 1 := by
  intro h
  have := (h 24 65536 (by norm_num [PcmRange])).2
  norm_num [soundElem] at this

/-- the order of the samples is kept, and different samples stay different -/
theorem C171_order (bits : ℕ) (s t : ℤ) : soundElem bits s < soundElem bits t ↔ s < t := by
  unfold soundElem
  split
  · rw [sub_lt_sub_iff_right, div_lt_div_iff_of_pos_right (by norm_num)]; exact_mod_cast Iff.rfl
  · rw [div_lt_div_iff_of_pos_right (by norm_num)]; exact_mod_cast Iff.rfl

/-- silence is 0 -/
theorem C171_silence : soundElem 8 128 = 0 ∧ soundElem 16 0 = 0 := by
  constructor <;> norm_num [soundElem]

theorem again8_elem (u : ℤ) (h : PcmRange 8 u) : Effects.pcmUnsigned 255 (soundElem 8 u) = if u = 0 then 0 else u - 1 := by
  obtain ⟨h1, h2⟩ : 0 ≤ u ∧ u < 256 := by simpa [PcmRange] using h
  have h1' : (0 : ℝ) ≤ u := by exact_mod_cast h1
  have h2' : (u : ℝ) < 256 := by exact_mod_cast h2
  have e : (soundElem 8 u + 1) / 2 = (u : ℝ) / 256 := by simp only [soundElem, if_true]; ring
  unfold Effects.pcmUnsigned Effects.clamp
  rw [e, if_neg (by rw [not_lt]; positivity), if_neg (by rw [not_lt, div_le_one (by norm_num)]; exact h2'.le)]
  unfold Effects.trunc
  rw [if_pos (by positivity)]
  split
  · rename_i h0; subst h0; norm_num
  · rename_i h0
    have hp : (1 : ℝ) ≤ u := by exact_mod_cast (show (1 : ℤ) ≤ u by omega)
    rw [Int.floor_eq_iff]
    push_cast
    constructor <;> linarith

/-- a source of 8 bits that is written again: every sample but 0 is one less -/
theorem C171_again8 (l : List ℤ) (h : ∀ u ∈ l, PcmRange 8 u) : again8 l = l.map fun u => if u = 0 then 0 else u - 1 := by
  unfold again8 sound
  rw [List.map_map]
  exact List.map_congr_left fun u hu => again8_elem u (h u hu)

theorem again16_elem (s : ℤ) (h : PcmRange 16 s) : Effects.pcmSigned 32767 (soundElem 16 s) = s - s.sign := by
  obtain ⟨h1, h2⟩ : -32768 ≤ s ∧ s < 32768 := by simpa [PcmRange] using h
  have h1' : (-32768 : ℝ) ≤ s := by exact_mod_cast h1
  have h2' : (s : ℝ) < 32768 := by exact_mod_cast h2
  have e : soundElem 16 s = (s : ℝ) / 32768 := by
    simp only [soundElem, show ¬ (16 : ℕ) = 8 by decide, if_false]
  unfold Effects.pcmSigned Effects.clamp
  rw [e, if_neg (by rw [not_lt, le_div_iff₀ (by norm_num)]; linarith), if_neg (by rw [not_lt, div_le_one (by norm_num)]; exact h2'.le)]
  unfold Effects.trunc
  rcases lt_trichotomy s 0 with h0 | h0 | h0
  · have hn : (s : ℝ) ≤ -1 := by exact_mod_cast (show s ≤ -1 by omega)
    rw [if_neg (by push_cast; rw [not_le]; linarith), Int.sign_eq_neg_one_of_neg h0, Int.ceil_eq_iff]
    push_cast
    constructor <;> linarith
  · subst h0; norm_num
  · have hp : (1 : ℝ) ≤ s := by exact_mod_cast (show (1 : ℤ) ≤ s by omega)
    rw [if_pos (by push_cast; linarith), Int.sign_eq_one_of_pos h0, Int.floor_eq_iff]
    push_cast
    constructor <;> linarith

/-- a source of 16 bits that is written again: every sample but 0 is one step nearer to 0 -/
theorem C171_again16 (l : List ℤ) (h : ∀ s ∈ l, PcmRange 16 s) : again16 l = l.map fun s => s - s.sign := by
  unfold again16 sound
  rw [List.map_map]
  exact List.map_congr_left fun s hs => again16_elem s (h s hs)

/-- refuted: the samples do not come back; silence of 8 bits (128) is not silence any more -/
theorem C171_again_refuted : again8 [128] = [127] ∧ again16 [1, -1] = [0, 0] ∧ again16 [32767] = [32766] := by
  refine ⟨?_, ?_, ?_⟩
  · rw [C171_again8 _ (by simp [PcmRange])]; rfl
  · rw [C171_again16 _ (by simp [PcmRange])]; rfl
  · rw [C171_again16 _ (by simp [PcmRange])]; rfl

example : sound 8 [0, 64, 128, 192] = [-1, -1 / 2, 0, 1 / 2] := by
  simp only [sound, List.map, soundElem, if_true]
  norm_num

end Sprout
