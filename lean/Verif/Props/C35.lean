import Verif.Proofs.IntStr2

/-!
# C35: string to integer

For every integer type, every null-terminated string and every base: the value of the digits if representable, otherwise the nearest
limit. Two classes of strings are exceptions (refuted): a minus sign before the digits of `max` gives `min`, and a prefix `0x` is
skipped in every base.
-/

namespace Sprout
open Spec Ascii IntStr

/-- `ascii_to_int` -/
theorem C35_ascii_to_int_partial {T : CInt} (hT : T.Std) {s : List Int} (h0 : 0 ∈ s) (hc : ∀ c ∈ s, IsChar c)
    (hm : T.sg = true → (splitSign (skipSpace s)).1 = true →
      (evalFrom 10 0 (digitsOf 10 (splitSign (skipSpace s)).2) : Int) ≠ T.max) :
    asciiToInt T s = some (parseDec T.min T.max s) := by
  obtain ⟨⟨k0, kc⟩, -⟩ := strToInt_eq (T := T) (b := 10) h0 hc
  obtain ⟨b1, b2, b3, b4, b5, b6⟩ := hT.bounds
  rw [asciiToInt_eq h0 hc, parseDec]
  have hz : ∀ n : Bool, ((0 : Nat) : Int) ≤ T.max - neg1 n := by
    intro n; unfold neg1; cases n <;> simp <;> omega
  have hs := splitSign_mem k0 kc
  by_cases hg : T.sg = true ∨ (splitSign (skipSpace s)).1 = false
  · have hn : (splitSign (skipSpace s)).1 = true → T.sg = true := by
      intro h; rcases hg with h' | h'
      · exact h'
      · rw [h] at h'; cases h'
    rw [if_pos hg]
    have := asciiToIntImpl_eq hT hn _ 0 hs.1 hs.2 (hz _)
    rw [show ((0 : Nat) : Int) = 0 from rfl] at this
    rw [this, result_clamp hT hn (fun h => hm (hn h) h)]
  · rw [if_neg hg]
    simp only [not_or, Bool.not_eq_true, Bool.not_eq_false] at hg
    have := asciiToIntImpl_eq hT (negative := false) (by simp) _ 0 k0 kc (hz _)
    rw [show ((0 : Nat) : Int) = 0 from rfl] at this
    have hd : digitsOf 10 (skipSpace s) = [] := by
      obtain ⟨l, hl⟩ := splitSign_minus hg.2
      rw [hl]; simp [digitsOf, digitVal]
    rw [this, hd]
    simp only [hg.2, signed, if_true]
    rw [result, if_neg (by have := hz false; simpa [evalFrom] using this), clampTo, b5 hg.1]
    split
    · simp [signed, evalFrom]
    · rename_i h
      have : evalFrom 10 0 (digitsOf 10 (splitSign (skipSpace s)).2) = 0 := by omega
      simp only [this]
      rw [if_neg (by omega)]
      simp [signed, evalFrom]

/-- `str_to_int` in base 0 (from the prefix) and 2..36 -/
theorem C35_str_to_int_partial {T : CInt} (hT : T.Std) {b : Nat} (hb : b = 0 ∨ 2 ≤ b) (hb' : b ≤ 36) {s : List Int} (h0 : 0 ∈ s)
    (hc : ∀ c ∈ s, IsChar c) (hp : HexPrefix (splitSign (skipSpace s)).2 → b = 0 ∨ b = 16)
    (hm : T.sg = true → (splitSign (skipSpace s)).1 = true →
      (evalFrom (splitBase b (splitSign (skipSpace s)).2).1 0
        (digitsOf (splitBase b (splitSign (skipSpace s)).2).1 (splitBase b (splitSign (skipSpace s)).2).2) : Int) ≠ T.max) :
    strToInt T s b = some (strtol T.min T.max b s) := by
  obtain ⟨⟨k0, kc⟩, he⟩ := strToInt_eq (T := T) (b := b) h0 hc
  obtain ⟨b1, b2, b3, b4, b5, b6⟩ := hT.bounds
  rw [he, strtol]
  have hs := splitSign_mem k0 kc
  by_cases hg : T.sg = true ∨ (splitSign (skipSpace s)).1 = false
  · have hn : (splitSign (skipSpace s)).1 = true → T.sg = true := by
      intro h; rcases hg with h' | h'
      · exact h'
      · rw [h] at h'; cases h'
    rw [if_pos hg, strToIntImpl_eq hT hb hb' hn hs.1 hs.2, codeBase_eval hb hb' hs.1 hp,
      result_clamp hT hn (fun h => hm (hn h) h)]
  · rw [if_neg hg]
    simp only [not_or, Bool.not_eq_true, Bool.not_eq_false] at hg
    rw [strToIntImpl_eq hT hb hb' (by simp) k0 kc]
    have hd : digitsOf (codeBase b (skipSpace s)).1 (codeBase b (skipSpace s)).2 = [] := by
      obtain ⟨l, hl⟩ := splitSign_minus hg.2
      rw [hl]; simp [codeBase, digitsOf, digitVal]
    rw [hd]
    simp only [hg.2, signed, if_true]
    rw [result, if_neg (by simp [neg1, evalFrom]; omega), clampTo, b5 hg.1]
    generalize evalFrom (splitBase b (splitSign (skipSpace s)).2).1 0
        (digitsOf (splitBase b (splitSign (skipSpace s)).2).1 (splitBase b (splitSign (skipSpace s)).2).2) = v
    split
    · simp [signed, evalFrom]
    · rename_i h
      have : v = 0 := by omega
      simp only [this]
      rw [if_neg (by omega)]
      simp [signed, evalFrom]

/-- "-2147483647" gives -2147483648 -/
theorem C35_negative_max_false :
    ¬ ∀ (T : CInt) (s : List Int), T.Std → 0 ∈ s → (∀ c ∈ s, IsChar c) → asciiToInt T s = some (parseDec T.min T.max s) := by
  intro h
  have h' := h .int32 [0x2D, 0x32, 0x31, 0x34, 0x37, 0x34, 0x38, 0x33, 0x36, 0x34, 0x37, 0] (by simp [CInt.Std, CInt.int32])
    (by decide) (by unfold IsChar; decide)
  revert h'
  decide +kernel

/-- the same with `str_to_int` -/
theorem C35_str_negative_max_false :
    ¬ ∀ (T : CInt) (s : List Int), T.Std → 0 ∈ s → (∀ c ∈ s, IsChar c) → strToInt T s 10 = some (strtol T.min T.max 10 s) := by
  intro h
  have h' := h .int32 [0x2D, 0x32, 0x31, 0x34, 0x37, 0x34, 0x38, 0x33, 0x36, 0x34, 0x37, 0] (by simp [CInt.Std, CInt.int32])
    (by decide) (by unfold IsChar; decide)
  revert h'
  decide +kernel

/-- in base 10, "0x12" gives 12; the digits are just "0" -/
theorem C35_prefix_false :
    ¬ ∀ (s : List Int), 0 ∈ s → (∀ c ∈ s, IsChar c) → strToInt .int32 s 10 = some (strtol CInt.int32.min CInt.int32.max 10 s) := by
  intro h
  have h' := h [0x30, 0x78, 0x31, 0x32, 0] (by decide) (by unfold IsChar; decide)
  revert h'
  decide +kernel

/-- what the first exception gives, for every signed type -/
theorem C35_negative_max_wrong {T : CInt} (hT : T.Std) (hs : T.sg = true) {ds : List Int} (h0 : 0 ∈ ds) (hc : ∀ c ∈ ds, IsChar c)
    (hm : (evalFrom 10 0 (digitsOf 10 ds) : Int) = T.max) : asciiToInt T (0x2D :: ds) = some T.min := by
  obtain ⟨b1, -⟩ := hT.bounds
  have := asciiToIntImpl_eq hT (negative := true) (fun _ => hs) _ 0 h0 hc (by simp [neg1]; omega)
  rw [asciiToInt, if_neg (by decide), if_pos ⟨hs, rfl⟩]
  rw [show ((0 : Nat) : Int) = 0 from rfl] at this
  rw [this, result, if_pos (by rw [hm]; simp [neg1])]
  rfl

/-! non-vacuity -/

/-- " -128" and "128" as `signed char` -/
example : asciiToInt .int8 [0x20, 0x2D, 0x31, 0x32, 0x38, 0] = some (-128) ∧ asciiToInt .int8 [0x31, 0x32, 0x38, 0] = some 127 := by
  decide +kernel

/-- "0xfFg" in base 0 as `int` -/
example : strToInt .int32 [0x30, 0x78, 0x66, 0x46, 0x67, 0] 0 = some 255 := by decide +kernel

end Sprout
