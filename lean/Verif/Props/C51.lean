import Verif.Proofs.Weed7

/-!
# C51: the numeric parsers `uint_p` and `int_p`

Between `MinDigits` and `MaxDigits` digits, as many as possible, and the value of the numeral converted to the type. Refuted: a
minimum of two or more digits is not enforced before a character that is not a digit (`hex8f` on `1g`); `hex`, `oct` and `bin`
demand `size_t(-1)` digits and reject `ff`; `int_` is undefined on the least value.
-/

namespace Sprout
open Spec Spec.Peg Weed

/-- the result object at `i` for an accepted prefix of `k` characters with value `v` -/
def accept (i : Nat) (v : Int) (k : Nat) : Res Int := ⟨true, i + k, i + k, v⟩
def reject (i : Nat) : Res Int := ⟨false, i, i, 0⟩

/-- the value of the numeral `u` of at most `k` digits -/
def numeral (b : Nat) (u : List Int) (k : Nat) : Nat := evalFrom b 0 ((digitsOf b u).take k)

/-- the value after an optional sign -/
def signedNumeral (b : Nat) : List Int → Nat → Int
  | [], _ => 0
  | c :: u, k => if c = 0x2D then -(numeral b u (k - 1) : Int) else if c = 0x2B then numeral b u (k - 1) else numeral b (c :: u) k

/-- the full statement for `uint_p` -/
def C51_uint_statement : Prop := ∀ (s : List Int) (P : Num), NumWf P → ∀ i, i ≤ s.length →
  uintP s P i = some (match digits P.radix (max 1 P.mn) P.mx (s.drop i) with
    | some k => accept i (P.T.conv (numeral P.radix (s.drop i) k)) k
    | none => reject i)

/-- the full statement for `int_p` -/
def C51_int_statement : Prop := ∀ (s : List Int) (P : Num), NumWf P → ∀ i, i ≤ s.length →
  intP s P i = some (match signedDigits P.radix (max 1 P.mn) P.mx (s.drop i) with
    | some k => accept i (P.T.conv (signedNumeral P.radix (s.drop i) k)) k
    | none => reject i)

/-- with a minimum of one digit -/
theorem C51_uint_partial (s : List Int) (P : Num) (hP : NumWf P) (hmn : P.mn ≤ 1) (i : Nat) (hi : i ≤ s.length) :
    uintP s P i = some (match digits P.radix (max 1 P.mn) P.mx (s.drop i) with
      | some k => accept i (P.T.conv (numeral P.radix (s.drop i) k)) k
      | none => reject i) := by
  rw [uintP_eq (NumWf.wf hP) hi, show max 1 P.mn = 1 by omega]
  unfold numRes
  rw [numRec_spec (NumWf.wf hP) hmn]
  cases digits P.radix 1 P.mx (s.drop i) <;> rfl

/-- with a minimum of one digit, if the numeral is not the least value of a 32- or 64-bit type -/
theorem C51_int_partial (s : List Int) (P : Num) (hP : NumWf P) (hmn : P.mn ≤ 1) (hl : NoLeast s P) (i : Nat) (hi : i ≤ s.length) :
    intP s P i = some (match signedDigits P.radix (max 1 P.mn) P.mx (s.drop i) with
      | some k => accept i (P.T.conv (signedNumeral P.radix (s.drop i) k)) k
      | none => reject i) := by
  rw [intP_eq (NumWf.wf hP) hi (negOk_of (NumWf.wf hP) hmn hl i), show max 1 P.mn = 1 by omega]
  unfold intRes
  rw [signRec_spec (NumWf.wf hP) hmn]
  have e : ∀ u k, signVal P u k = signedNumeral P.radix u k := by
    intro u k
    cases u with
    | nil => rfl
    | cons c u =>
      simp only [signVal, signedNumeral]
      by_cases h : c = 0x2D
      · subst h; rfl
      · by_cases h2 : c = 0x2B
        · subst h2; rfl
        · simp only [h, h2, if_false]; rfl
  simp only [e]
  cases signedDigits P.radix 1 P.mx (s.drop i) <;> rfl

/-- a numeral that fits into the type is parsed exactly -/
theorem C51_value_partial (s : List Int) (P : Num) (hP : NumWf P) (hmn : P.mn ≤ 1) (i k : Nat) (hi : i ≤ s.length)
    (hd : digits P.radix 1 P.mx (s.drop i) = some k) (hv : (numeral P.radix (s.drop i) k : Int) ≤ P.T.max) :
    uintP s P i = some (accept i (numeral P.radix (s.drop i) k) k) := by
  rw [C51_uint_partial s P hP hmn i hi, show max 1 P.mn = 1 by omega, hd]
  have hn : P.T.min ≤ 0 := by
    have := (conv_has' hP.std 0).1
    rwa [conv_zero hP.std] at this
  have : P.T.Has (numeral P.radix (s.drop i) k : Nat) := ⟨by omega, hv⟩
  simp only [CInt.conv_ok hP.std this]

/-- what the code does with any minimum: accepted are `MaxDigits` digits if there are that many; otherwise all `D` of them, but
compared with the minimum are at most `limit_digits - 1` of them, plus one if the text goes on -/
theorem C51_code_partial (s : List Int) (P : Num) (hP : NumWf P) (i : Nat) (hi : i ≤ s.length) :
    uintP s P i = some (
      let D := (digitsOf P.radix (s.drop i)).length
      if D = 0 then reject i
      else if P.mx ≤ D then accept i (P.T.conv (numeral P.radix (s.drop i) P.mx)) P.mx
      else if min D (P.limit - 1) + (if i + D = s.length then 0 else 1) < P.mn then reject i
      else accept i (P.T.conv (numeral P.radix (s.drop i) D)) D) := by
  rw [uintP_eq (NumWf.wf hP) hi]
  unfold numRes numRec
  dsimp only
  by_cases h0 : (digitsOf P.radix (s.drop i)).length = 0
  · simp only [h0, if_true]; rfl
  · simp only [h0, if_false]
    by_cases h1 : P.mx ≤ (digitsOf P.radix (s.drop i)).length
    · simp only [h1, if_true]; rfl
    · simp only [h1, if_false, List.length_drop]
      have : ((digitsOf P.radix (s.drop i)).length = s.length - i) ↔ (i + (digitsOf P.radix (s.drop i)).length = s.length) := by omega
      simp only [this]
      by_cases h2 : min (digitsOf P.radix (s.drop i)).length (P.limit - 1) +
          (if i + (digitsOf P.radix (s.drop i)).length = s.length then 0 else 1) < P.mn
      · simp only [h2, if_true]; rfl
      · simp only [h2, if_false]; rfl

/-! ## Examples and refutations -/

/-- `uint_` -/
def uint_ : Num := ⟨.uint64, 10, 1, 2 ^ 64 - 1⟩
/-- `int_` (with `intmax_t`) and `int32` -/
def int_ : Num := ⟨.int64, 10, 1, 2 ^ 64 - 1⟩
def int32P : Num := ⟨.int32, 10, 1, 10⟩
/-- `hex8f`, `hex` -/
def hex8f : Num := ⟨.uint8, 16, 2, 2⟩
def hex : Num := ⟨.uint64, 16, 2 ^ 64 - 1, 16⟩

theorem wf_uint : NumWf uint_ := ⟨by decide, by decide, by decide⟩
theorem wf_int : NumWf int_ := ⟨by decide, by decide, by decide⟩
theorem wf_int32 : NumWf int32P := ⟨by decide, by decide, by decide⟩
theorem wf_hex8f : NumWf hex8f := ⟨by decide, by decide, by decide⟩
theorem wf_hex : NumWf hex := ⟨by decide, by decide, by decide⟩

/-- `uint_` on `120,` -/
example : uintP [0x31, 0x32, 0x30, 0x2C] uint_ 0 = some ⟨true, 3, 3, 120⟩ := by
  rw [C51_uint_partial _ _ wf_uint (by decide) 0 (by decide)]; decide +kernel

/-- `int_` on `-7` -/
example : intP [0x2D, 0x37] int_ 0 = some ⟨true, 2, 2, -7⟩ := by
  rw [intP_eq (NumWf.wf wf_int) (by decide)]
  · decide +kernel
  · intro v k h1 h2 _ _
    simp only [List.drop_zero, List.cons.injEq, true_and] at h1
    subst h1
    have e : numRec int_ [0x37] = some 1 := by decide +kernel
    rw [e] at h2
    cases h2
    decide +kernel

/-- `hex8f` (exactly two digits) accepts `1g` -/
theorem C51_min_digits_refuted : uintP [0x31, 0x67] hex8f 0 = some ⟨true, 1, 1, 1⟩ ∧ digits 16 2 2 [0x31, 0x67] = none := by
  constructor
  · rw [uintP_eq (NumWf.wf wf_hex8f) (by decide)]; decide +kernel
  · decide +kernel

/-- it rejects `1` at the end of the text -/
example : uintP [0x31] hex8f 0 = some ⟨false, 0, 0, 0⟩ := by
  rw [uintP_eq (NumWf.wf wf_hex8f) (by decide)]; decide +kernel

theorem C51_uint_refuted : ¬ C51_uint_statement := by
  intro h
  have := h [0x31, 0x67] hex8f wf_hex8f 0 (by decide)
  rw [C51_min_digits_refuted.1] at this
  revert this
  decide +kernel

/-- `hex` rejects `ff`, a numeral of one to sixteen hexadecimal digits -/
theorem C51_hex_refuted : uintP [0x66, 0x66] hex 0 = some ⟨false, 0, 0, 0⟩ ∧ digits 16 1 16 [0x66, 0x66] = some 2 := by
  constructor
  · rw [uintP_eq (NumWf.wf wf_hex) (by decide)]; decide +kernel
  · decide +kernel

/-- `int32` is undefined on `-2147483648` -/
theorem C51_int_min_refuted : intP [0x2D, 0x32, 0x31, 0x34, 0x37, 0x34, 0x38, 0x33, 0x36, 0x34, 0x38] int32P 0 = none := by
  refine intP_ub (NumWf.wf wf_int32) (by decide) fun h => ?_
  exact h [0x32, 0x31, 0x34, 0x37, 0x34, 0x38, 0x33, 0x36, 0x34, 0x38] 10 rfl (by decide +kernel) rfl (by decide) (by decide +kernel)

theorem C51_int_refuted : ¬ C51_int_statement := by
  intro h
  have := h [0x2D, 0x32, 0x31, 0x34, 0x37, 0x34, 0x38, 0x33, 0x36, 0x34, 0x38] int32P wf_int32 0 (by decide)
  rw [C51_int_min_refuted] at this
  cases this

end Sprout
