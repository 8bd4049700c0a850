import Verif.Model.Effects

/-!
# C141: effects on single samples, and formats
-/

namespace Sprout

open Effects

/-- `clamp` gives the nearest number of the interval: it is in the interval, and no other number of it is as near -/
theorem C141_clamp (x low high : ℝ) (h : low ≤ high) :
    (low ≤ clamp x low high ∧ clamp x low high ≤ high)
      ∧ (∀ y, low ≤ y → y ≤ high → y ≠ clamp x low high → |x - clamp x low high| < |x - y|)
      ∧ clamp (clamp x low high) low high = clamp x low high := by
  unfold clamp
  refine ⟨?_, ?_, ?_⟩
  · split_ifs <;> constructor <;> linarith
  · intro y h1 h2 h3
    split_ifs at h3 ⊢ with ha hb
    · have : low < y := lt_of_le_of_ne h1 (Ne.symm h3)
      rw [abs_of_neg (by linarith), abs_of_neg (by linarith)]; linarith
    · have : y < high := lt_of_le_of_ne h2 h3
      rw [abs_of_pos (by linarith), abs_of_pos (by linarith)]; linarith
    · rw [sub_self, abs_zero, abs_pos, sub_ne_zero]; exact Ne.symm h3
  · split_ifs <;> first | rfl | linarith

/-- `clamp` keeps the order -/
theorem C141_clamp_mono (x y low high : ℝ) (h : low ≤ high) (hxy : x ≤ y) : clamp x low high ≤ clamp y low high := by
  unfold clamp
  split_ifs <;> linarith

/-- `rectified` gives the absolute value -/
theorem C141_rectify (x : ℝ) : rectify x = |x| := by
  unfold rectify
  split_ifs with h
  · rw [abs_of_neg h]
  · rw [abs_of_nonneg (by linarith)]

theorem clip_abs (x : ℝ) : |clip x| ≤ 1 := by
  rw [abs_le]; exact (C141_clamp x (-1) 1 (by norm_num)).1

/-- `distorted`: proportional as long as the amplified sample is in [-1, 1], and never above the level -/
theorem C141_distort (gain level x : ℝ) :
    |distort gain level x| ≤ |level| ∧ (|gain * x| ≤ 1 → distort gain level x = gain * level * x)
      ∧ (1 < gain * x → distort gain level x = level) ∧ (gain * x < -1 → distort gain level x = -level) := by
  unfold distort changeVolume
  refine ⟨?_, ?_, ?_, ?_⟩
  · rw [abs_mul]
    nlinarith [clip_abs (x * gain), abs_nonneg level]
  · intro h
    rw [abs_le] at h
    unfold clip clamp
    rw [if_neg (by nlinarith), if_neg (by nlinarith)]; ring
  · intro h
    unfold clip clamp
    rw [if_neg (by nlinarith), if_pos (by nlinarith)]; ring
  · intro h
    unfold clip clamp
    rw [if_pos (by nlinarith)]; ring

/-- `fuzzed`: distortion of the absolute value, of one sign -/
theorem C141_fuzz (gain level x : ℝ) (hg : 0 ≤ gain) (hl : 0 ≤ level) :
    0 ≤ fuzz gain level x ∧ fuzz gain level x ≤ level ∧ fuzz gain level x = level * min 1 (gain * |x|) := by
  have e : fuzz gain level x = level * min 1 (gain * |x|) := by
    unfold fuzz
    rw [C141_rectify]
    have h0 : 0 ≤ gain * |x| := mul_nonneg hg (abs_nonneg x)
    rcases le_or_gt (gain * |x|) 1 with h | h
    · rw [(C141_distort gain level |x|).2.1 (by rw [abs_of_nonneg h0]; exact h), min_eq_right h]; ring
    · rw [(C141_distort gain level |x|).2.2.1 h, min_eq_left h.le, mul_one]
  rw [e]
  refine ⟨mul_nonneg hl (le_min zero_le_one (mul_nonneg hg (abs_nonneg x))), ?_, rfl⟩
  have := mul_le_mul_of_nonneg_left (min_le_left (1 : ℝ) (gain * |x|)) hl
  linarith

/-- `overdrive_clip_value` is strictly increasing, between -1/10 and 1 -/
theorem C141_overdriveClip (x y : ℝ) :
    (x < y → overdriveClip x < overdriveClip y) ∧ -1 / 10 < overdriveClip x ∧ overdriveClip x < 1 ∧ overdriveClip 0 = 0 := by
  have hp := Real.pi_pos
  have hp2 : 0 < Real.pi / 2 := by positivity
  have b1 : ∀ z, Real.arctan z / (Real.pi / 2) < 1 := fun z => by
    rw [div_lt_one hp2]; exact Real.arctan_lt_pi_div_two z
  have b2 : ∀ z, -1 < Real.arctan z / (Real.pi / 2) := fun z => by
    rw [lt_div_iff₀ hp2]; linarith [Real.neg_pi_div_two_lt_arctan z]
  have m : ∀ z w, z < w → Real.arctan z / (Real.pi / 2) < Real.arctan w / (Real.pi / 2) := fun z w h =>
    div_lt_div_of_pos_right (Real.arctan_strictMono h) hp2
  have z0 : Real.arctan 0 / (Real.pi / 2) = 0 := by simp
  have pos : ∀ z, 0 ≤ z → 0 ≤ Real.arctan z / (Real.pi / 2) := fun z h => by
    rcases h.lt_or_eq with h | h
    · rw [← z0]; exact (m 0 z h).le
    · rw [← h, z0]
  have neg : ∀ z, z < 0 → Real.arctan z / (Real.pi / 2) < 0 := fun z h => by rw [← z0]; exact m z 0 h
  unfold overdriveClip
  refine ⟨?_, ?_, ?_, by simp⟩
  · intro h
    split_ifs with hx hy hy
    · exact m x y h
    · linarith
    · have := neg x (by linarith); have := pos y hy; linarith
    · have := m x y h; linarith
  · split_ifs with hx
    · have := pos x hx; linarith
    · have := b2 x; linarith
  · split_ifs with hx
    · exact b1 x
    · have := b1 x; linarith

/-- `overdriven`: increasing, between `-level / 10` and `level` -/
theorem C141_overdrive (gain level x y : ℝ) (hg : 0 < gain) (hl : 0 < level) :
    (x < y → overdrive gain level x < overdrive gain level y)
      ∧ -level / 10 < overdrive gain level x ∧ overdrive gain level x < level ∧ overdrive gain level 0 = 0 := by
  unfold overdrive changeVolume
  have h := fun x y => C141_overdriveClip x y
  refine ⟨fun hxy => mul_lt_mul_of_pos_right ((h _ _).1 (mul_lt_mul_of_pos_right hxy hg)) hl, ?_, ?_, ?_⟩
  · have := (h (x * gain) 0).2.1; nlinarith
  · have := (h (x * gain) 0).2.2.1; nlinarith
  · rw [zero_mul, (h 0 0).2.2.2, zero_mul]

/-- `noise_gated`: samples not above the threshold (in absolute value) are silenced, the others unchanged; applying it again changes
nothing -/
theorem C141_noiseGate (t x : ℝ) :
    (|x| ≤ t → noiseGate t x = 0) ∧ (t < |x| → noiseGate t x = x) ∧ noiseGate t (noiseGate t x) = noiseGate t x := by
  have a : |x| ≤ t → noiseGate t x = 0 := fun h => by
    rw [abs_le] at h; simp only [noiseGate]; rw [if_pos ⟨h.2, h.1⟩]
  have b : t < |x| → noiseGate t x = x := fun h => by
    simp only [noiseGate]; rw [if_neg]
    rintro ⟨h1, h2⟩
    exact absurd (abs_le.2 ⟨h2, h1⟩) (by linarith)
  refine ⟨a, b, ?_⟩
  rcases le_or_gt |x| t with h | h
  · rw [a h]
    unfold noiseGate
    split_ifs <;> rfl
  · rw [b h, b h]

/-- **`compressed`**: for a threshold in (0, 1] and a ratio in [0, 1] the compressor is odd, keeps the order, keeps full scale
(`compress 1 = 1`), hence keeps samples in [-1, 1] there, and makes the others louder -/
theorem C141_compress_partial (t r x : ℝ) (h0 : 0 < t) (h1 : t ≤ 1) (hr : 0 ≤ r) (hr1 : r ≤ 1) :
    ∃ c : ℝ → ℝ, (∀ y, compress t r y = some (c y)) ∧ c (-x) = -c x ∧ (∀ y, x ≤ y → c x ≤ c y) ∧ c 1 = 1 ∧ (|x| ≤ 1 → |c x| ≤ 1)
      ∧ (0 ≤ x → x ≤ 1 → x ≤ c x)
      ∧ (|x| ≤ t → c x = x * (1 / (t + (1 - t) * r)))
      ∧ (t ≤ |x| → |c x| = (t + (|x| - t) * r) * (1 / (t + (1 - t) * r))) := by
  have hD : 0 < t + (1 - t) * r := by nlinarith
  have hD1 : t + (1 - t) * r ≤ 1 := by nlinarith
  have hg : 1 ≤ 1 / (t + (1 - t) * r) := by rw [le_div_iff₀ hD]; linarith
  have hgp : 0 < 1 / (t + (1 - t) * r) := by positivity
  have hgD : (t + (1 - t) * r) * (1 / (t + (1 - t) * r)) = 1 := mul_one_div_cancel hD.ne'
  generalize hgg : 1 / (t + (1 - t) * r) = g at *
  have mono : ∀ x y, x ≤ y → compressValue t r g x ≤ compressValue t r g y := by
    intro x y h
    unfold compressValue
    refine mul_le_mul_of_nonneg_right ?_ hgp.le
    split_ifs <;> nlinarith
  have odd : ∀ x, compressValue t r g (-x) = -compressValue t r g x := by
    intro x
    unfold compressValue
    split_ifs <;> first | (exfalso; linarith) | ring
  have one : compressValue t r g 1 = 1 := by
    unfold compressValue
    rcases h1.lt_or_eq with h | h
    · rw [if_pos h]; exact hgD
    · rw [if_neg (by linarith), if_neg (by linarith)]
      rw [h] at hgD
      linarith
  have low : ∀ x, |x| ≤ t → compressValue t r g x = x * g := by
    intro x h
    rw [abs_le] at h
    unfold compressValue
    rw [if_neg (by linarith), if_neg (by linarith)]
  have high : ∀ x, t ≤ x → compressValue t r g x = (t + (x - t) * r) * g := by
    intro x h
    unfold compressValue
    rcases h.lt_or_eq with h | h
    · rw [if_pos h]
    · rw [if_neg (by linarith), if_neg (by linarith), ← h]; ring
  refine ⟨compressValue t r g, ?_, odd x, mono x, one, ?_, ?_, low x, ?_⟩
  · intro y
    simp [compress, dv, hD.ne', ← hgg]
  · intro h
    rw [abs_le] at h ⊢
    have := mono _ _ h.2
    have h' := mono _ _ h.1
    rw [odd, one] at h'
    rw [one] at this
    exact ⟨h', this⟩
  · intro hx hx1
    rcases le_or_gt x t with h | h
    · rw [low x (by rw [abs_of_nonneg hx]; exact h)]; nlinarith
    · rw [high x h.le]
      have : x * (t + (1 - t) * r) ≤ t + (x - t) * r := by nlinarith [mul_nonneg (mul_nonneg h0.le (sub_nonneg.2 hx1)) (sub_nonneg.2 hr1)]
      calc x = x * (t + (1 - t) * r) * g := by rw [mul_assoc, hgD, mul_one]
        _ ≤ _ := mul_le_mul_of_nonneg_right this hgp.le
  · intro h
    rcases le_or_gt 0 x with hx | hx
    · rw [abs_of_nonneg hx] at h ⊢
      rw [high x h, abs_of_nonneg]
      exact mul_nonneg (by nlinarith) hgp.le
    · rw [abs_of_neg hx] at h ⊢
      have := odd (-x)
      rw [neg_neg] at this
      rw [this, abs_neg, high (-x) h, abs_of_nonneg]
      exact mul_nonneg (by nlinarith) hgp.le

/-- with threshold and ratio 0 the gain is 1/0 -/
theorem C141_compress_zero (x : ℝ) : compress 0 0 x = none := by simp [compress, dv]

/-- above full scale the threshold makes no sense: with threshold 2 and ratio 1/2 full scale becomes 2/3 -/
theorem C141_compress_refuted : ¬ ∀ t r : ℝ, 0 < t → 0 ≤ r → r ≤ 1 → compress t r 1 = some 1 := by
  intro h
  have := h 2 (1 / 2) (by norm_num) (by norm_num) (by norm_num)
  norm_num [compress, dv, compressValue] at this

example : compress (1 / 2) (1 / 2) (3 / 4) = some (5 / 6) := by
  norm_num [compress, dv, compressValue]

/-- `changed_volume` twice -/
theorem C141_volume (v w x : ℝ) : changeVolume w (changeVolume v x) = changeVolume (v * w) x := by
  unfold changeVolume; ring

/-! ## formats -/

theorem trunc_spec (t : ℝ) : |(trunc t : ℝ)| ≤ |t| ∧ |t - trunc t| < 1 ∧ (0 ≤ t → 0 ≤ trunc t) ∧ (t ≤ 0 → trunc t ≤ 0) := by
  unfold trunc
  split_ifs with h
  · have h1 := Int.floor_le t
    have h2 := Int.lt_floor_add_one t
    have h3 : (0 : ℤ) ≤ ⌊t⌋ := Int.floor_nonneg.2 h
    have h3' : (0 : ℝ) ≤ ⌊t⌋ := by exact_mod_cast h3
    refine ⟨?_, ?_, fun _ => h3, fun h' => ?_⟩
    · rw [abs_of_nonneg h3', abs_of_nonneg h]; exact h1
    · rw [abs_of_nonneg (by linarith)]; linarith
    · have : t = 0 := le_antisymm h' h
      simp [this]
  · push Not at h
    have h1 := Int.le_ceil t
    have h2 := Int.ceil_lt_add_one t
    have h3 : ⌈t⌉ ≤ 0 := by rw [Int.ceil_le]; exact_mod_cast h.le
    have h3' : (⌈t⌉ : ℝ) ≤ 0 := by exact_mod_cast h3
    refine ⟨?_, ?_, fun h' => by linarith, fun _ => h3⟩
    · rw [abs_of_nonpos h3', abs_of_neg h]; linarith
    · rw [abs_of_nonpos (by linarith)]; linarith

theorem trunc_mono {s t : ℝ} (h : s ≤ t) : trunc s ≤ trunc t := by
  unfold trunc
  split_ifs with h1 h2 h2
  · exact Int.floor_le_floor h
  · linarith
  · push Not at h1
    have a : ⌈s⌉ ≤ 0 := by rw [Int.ceil_le]; exact_mod_cast h1.le
    have b : (0 : ℤ) ≤ ⌊t⌋ := Int.floor_nonneg.2 h2
    omega
  · exact Int.ceil_le_ceil h

theorem trunc_neg (t : ℝ) : trunc (-t) = -trunc t := by
  unfold trunc
  rcases lt_trichotomy t 0 with h | h | h
  · rw [if_pos (by linarith), if_neg (by linarith), Int.floor_neg]
  · simp [h]
  · rw [if_neg (by linarith), if_pos (by linarith), Int.ceil_neg]

theorem trunc_int (n : ℤ) : trunc (n : ℝ) = n := by unfold trunc; split_ifs <;> simp

/-- `as_pcm_wave` for a signed type: no overflow, full scale at ±1 (and beyond), odd, in order, less than one step beside `x * max` -/
theorem C141_pcmSigned (max : ℕ) (x y : ℝ) :
    |pcmSigned max x| ≤ max ∧ pcmSigned max (-x) = -pcmSigned max x ∧ (x ≤ y → pcmSigned max x ≤ pcmSigned max y)
      ∧ (1 ≤ x → pcmSigned max x = max) ∧ (|x| ≤ 1 → |x * max - pcmSigned max x| < 1) := by
  have hm : (0 : ℝ) ≤ max := Nat.cast_nonneg _
  unfold pcmSigned
  refine ⟨?_, ?_, ?_, ?_, ?_⟩
  · have h1 := (trunc_spec (clamp x (-1) 1 * max)).1
    have h2 : |clamp x (-1) 1| ≤ 1 := abs_le.2 (C141_clamp x (-1) 1 (by norm_num)).1
    rw [abs_mul, abs_of_nonneg hm] at h1
    have h3 : |(trunc (clamp x (-1) 1 * max) : ℝ)| ≤ max := by nlinarith
    exact_mod_cast h3
  · rw [show clamp (-x) (-1) 1 = -clamp x (-1) 1 by unfold clamp; split_ifs <;> linarith, neg_mul, trunc_neg]
  · intro h
    exact trunc_mono (mul_le_mul_of_nonneg_right (C141_clamp_mono x y (-1) 1 (by norm_num) h) hm)
  · intro h
    have : clamp x (-1) 1 = 1 := by unfold clamp; split_ifs <;> linarith
    rw [this, one_mul]
    exact trunc_int max
  · intro h
    have hh := abs_le.1 h
    have : clamp x (-1) 1 = x := by unfold clamp; split_ifs <;> linarith
    rw [this]
    exact (trunc_spec _).2.1

/-- `as_pcm_wave` for an unsigned type: between 0 (for -1 and below) and `max` (for 1 and above), in order -/
theorem C141_pcmUnsigned (max : ℕ) (x y : ℝ) :
    0 ≤ pcmUnsigned max x ∧ pcmUnsigned max x ≤ max ∧ (x ≤ y → pcmUnsigned max x ≤ pcmUnsigned max y)
      ∧ (1 ≤ x → pcmUnsigned max x = max) ∧ (x ≤ -1 → pcmUnsigned max x = 0)
      ∧ (|x| ≤ 1 → |(x + 1) / 2 * max - pcmUnsigned max x| < 1) := by
  have hm : (0 : ℝ) ≤ max := Nat.cast_nonneg _
  unfold pcmUnsigned
  have hc := (C141_clamp ((x + 1) / 2) 0 1 (by norm_num)).1
  have h0 : 0 ≤ clamp ((x + 1) / 2) 0 1 * max := mul_nonneg hc.1 hm
  refine ⟨(trunc_spec _).2.2.1 h0, ?_, ?_, ?_, ?_, ?_⟩
  · have := trunc_mono (show clamp ((x + 1) / 2) 0 1 * max ≤ ((max : ℤ) : ℝ) by push_cast; nlinarith [hc.2])
    rwa [trunc_int] at this
  · intro h
    exact trunc_mono (mul_le_mul_of_nonneg_right (C141_clamp_mono _ _ 0 1 (by norm_num) (by linarith)) hm)
  · intro h
    have : clamp ((x + 1) / 2) 0 1 = 1 := by unfold clamp; split_ifs <;> linarith
    rw [this, one_mul]
    exact trunc_int max
  · intro h
    have : clamp ((x + 1) / 2) 0 1 = 0 := by unfold clamp; split_ifs <;> linarith
    rw [this, zero_mul]
    simp [trunc]
  · intro h
    have hh := abs_le.1 h
    have : clamp ((x + 1) / 2) 0 1 = (x + 1) / 2 := by unfold clamp; split_ifs <;> linarith
    rw [this]
    exact (trunc_spec _).2.1

/-- 8 bits: silence is 127, although 8 bit waves have it at 128 -/
example : pcmUnsigned 255 0 = 127 := by
  have h : clamp ((0 + 1) / 2) 0 1 * ((255 : ℕ) : ℝ) = 255 / 2 := by norm_num [clamp]
  rw [pcmUnsigned, h, trunc, if_pos (by norm_num), Int.floor_eq_iff]
  norm_num

/-! ## ranges -/

/-- a single failure makes the whole fail, else the results are collected -/
theorem Effects.mapM_range {β : Type} (f : ℕ → Option β) (n : ℕ) (ys : List β) (hl : ys.length = n) (h : ∀ i, i < n → f i = ys[i]?) :
    (List.range n).mapM f = some ys := by
  induction n generalizing ys with
  | zero =>
    have : ys = [] := List.length_eq_zero_iff.1 hl
    subst this; rfl
  | succ n ih =>
    obtain ⟨zs, z, rfl⟩ : ∃ zs z, ys = zs ++ [z] := by
      refine ⟨ys.dropLast, ys.getLast (by intro h0; simp [h0] at hl), ?_⟩
      exact (List.dropLast_append_getLast _).symm
    have hz : zs.length = n := by simpa using hl
    rw [List.range_succ, List.mapM_append]
    rw [ih zs hz (fun i hi => by rw [h i (by omega), List.getElem?_append_left (by omega)])]
    have := h n (by omega)
    rw [← hz, List.getElem?_concat_length] at this
    simp [← hz, this]

/-- `superposed` adds sample by sample, if the second range is not shorter -/
theorem C141_superpose (xs ys : List ℝ) (h : xs.length ≤ ys.length) : superpose xs ys = some (List.zipWith (· + ·) xs ys) := by
  unfold superpose
  refine mapM_range _ _ _ (by simp [h]) ?_
  intro i hi
  have hi' : i < ys.length := by omega
  simp [List.getElem?_zipWith, List.getElem?_eq_getElem hi, List.getElem?_eq_getElem hi']

/-- a shorter second range is read beyond its end -/
theorem C141_superpose_short : superpose [1, 2] [5] = none := by
  simp [superpose, List.range_succ]

/-- **`left_channel` and `right_channel` cannot be used at all**: the template parameter `T` of `operator|` cannot be deduced
(left_channel.hpp 33, right_channel.hpp 33). With them `effected_each_cannel` (and `effected_left_cannel`, `effected_right_cannel`)
and `vocal_cancelled` fail for all ranges. -/
theorem C141_channels_refuted (xs : List ℝ) (f g : List ℝ → Option (List ℝ)) :
    leftChannel xs = none ∧ rightChannel xs = none ∧ effectedEach f g xs = none ∧ vocalCancelled xs = none := by
  have h : channelTmpl.viable = false := by decide
  simp [leftChannel, rightChannel, effectedEach, vocalCancelled, h]

theorem evens_cons (x : ℝ) (L : List ℝ) : evens (x :: L) = x :: evens (L.drop 1) := by
  cases L <;> simp [evens]

/-- without the parameter the channels of a stereo signal would be those it was made of -/
theorem C141_channels_intended (l r : List ℝ) (h : l.length = r.length) :
    evens (stereo l r) = l ∧ evens ((stereo l r).drop 1) = r := by
  induction l generalizing r with
  | nil =>
    have : r = [] := List.length_eq_zero_iff.1 h.symm
    subst this
    simp [stereo, evens]
  | cons a l ih =>
    match r, h with
    | b :: r, h =>
      obtain ⟨h1, h2⟩ := ih r (by simpa using h)
      have e : stereo (a :: l) (b :: r) = a :: b :: stereo l r := by simp [stereo]
      rw [e]
      refine ⟨by rw [evens_cons]; simp [h1], ?_⟩
      rw [List.drop_one, List.tail_cons, evens_cons, h2]

end Sprout
