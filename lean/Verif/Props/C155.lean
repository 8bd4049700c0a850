import Verif.Model.StoI
import Verif.Props.C35

/-!
# C155: integers from strings and string views
-/

namespace Sprout

open StoI IntStr Ascii

namespace StoI

theorem char_zero (T : CInt) (b : Int) : charToInt T 0 b = T.conv (-1) := by
  simp only [charToInt, show Ascii.isdigit 0 = false by decide, show Ascii.islower 0 = false by decide, show Ascii.isupper 0 = false by decide,
    Bool.false_and, Bool.false_eq_true, if_false]

/-- the loop stops at the terminator -/
theorem loop_append (T : CInt) (b : Int) (neg : Bool) (rest : List Int) : ∀ (s : List Int) (v : Int),
    strToIntImpl1 T b neg (s ++ 0 :: rest) v (charToInt T (s.headD 0) b) = strToIntImpl1 T b neg (s ++ [0]) v (charToInt T (s.headD 0) b)
  | [], v => by simp [strToIntImpl1, char_zero]
  | a :: s, v => by
    have h1 : rd (s ++ 0 :: rest) 0 = some (s.headD 0) := by cases s <;> simp [rd]
    have h2 : rd (s ++ [0]) 0 = some (s.headD 0) := by cases s <;> simp [rd]
    simp only [List.cons_append, strToIntImpl1, h1, h2, Option.bind_eq_bind, Option.bind_some, loop_append T b neg rest s]

theorem impl_append (T : CInt) (b : Int) (neg : Bool) (rest s : List Int) :
    strToIntImpl T (s ++ 0 :: rest) b neg = strToIntImpl T (s ++ [0]) b neg := by
  have hd : ∀ (s r : List Int), rd (s ++ 0 :: r) 0 = some (s.headD 0) := by intro s r; cases s <;> simp [rd]
  unfold strToIntImpl
  rw [hd, hd]
  simp only [Option.bind_eq_bind, Option.bind_some]
  cases s with
  | nil =>
    simp only [List.headD_nil, show ¬(0 : Int) = 0x30 by decide, if_false]
    exact loop_append T _ neg rest [] 0
  | cons a s =>
    have hd1 : ∀ r : List Int, rd (a :: s ++ 0 :: r) 1 = some (s.headD 0) := by intro r; cases s <;> simp [rd]
    rw [hd1, hd1]
    simp only [List.headD_cons, Option.bind_some]
    have l1 := fun (b : Int) => loop_append T b neg rest (a :: s) 0
    have l2 := fun (b : Int) => loop_append T b neg rest s 0
    simp only [List.headD_cons] at l1
    by_cases h1 : a = 0x30
    · subst h1
      simp only [if_true]
      by_cases h2 : s.headD 0 = 0x78 ∨ s.headD 0 = 0x58
      · rw [if_pos h2, if_pos h2]
        cases s with
        | nil => simp at h2
        | cons c s =>
          have hd2 : ∀ r : List Int, rd (0x30 :: (c :: s) ++ 0 :: r) 2 = some (s.headD 0) := by intro r; cases s <;> simp [rd]
          rw [hd2, hd2]
          simp only [Option.bind_some, List.cons_append, List.drop_succ_cons, List.drop_zero]
          exact loop_append T _ neg rest s 0
      · rw [if_neg h2, if_neg h2]
        exact l2 _
    · simp only [h1, if_false]
      exact l1 _

theorem parse_append (T : CInt) (b : Int) (rest : List Int) : ∀ s : List Int, strToInt T (s ++ 0 :: rest) b = strToInt T (s ++ [0]) b
  | [] => by
    have := impl_append T b false rest []
    simp only [List.nil_append] at this ⊢
    unfold strToInt
    simp only [show Ascii.isspace 0 = false by decide, show ¬(0 : Int) = 0x2D by decide, show ¬(0 : Int) = 0x2B by decide, and_false, if_false,
      Bool.false_eq_true, this]
  | a :: s => by
    have i1 := fun n => impl_append T b n rest s
    have i2 := impl_append T b false rest (a :: s)
    simp only [List.cons_append] at i2 ⊢
    unfold strToInt
    rw [parse_append T b rest s, i1, i1, i2]

end StoI

/-- the integer in a string depends on its characters only, not on what follows the terminator in the array -/
theorem C155_string (T : CInt) (chars rest : List Int) (b : Int) :
    stringToInt T ⟨chars.length, chars ++ 0 :: rest⟩ b = strToInt T (chars ++ [0]) b := parse_append T b rest chars

/-- the integer in a view is that of its characters if they are followed by a terminator. What is missing are the views that end elsewhere, see
`C155_view_refuted` and `C155_view_end_refuted`. -/
theorem C155_view_partial (T : CInt) (pre chars rest : List Int) (b : Int) :
    viewToInt T (pre ++ (chars ++ 0 :: rest)) pre.length chars.length b = strToInt T (chars ++ [0]) b := by
  simp only [viewToInt, List.drop_left]
  exact parse_append T b rest chars

/-- the view "123" in "123456" gives 123456 -/
theorem C155_view_refuted : viewToInt .int32 [0x31, 0x32, 0x33, 0x34, 0x35, 0x36, 0] 0 3 10 = some 123456 ∧
    strToInt .int32 ([0x31, 0x32, 0x33] ++ [0]) 10 = some 123 := by
  constructor <;> decide +kernel

/-- a view of digits at the end of an array is read past the end -/
theorem C155_view_end_refuted : viewToInt .int32 [0x31, 0x32, 0x33] 0 3 10 = none := by decide +kernel

/-- with `idx`, types of 64 bits give what they give without, where `str_to_int` agrees with `strtol` (`C35_str_to_int_partial`). What is missing
are narrower types, see `C155_idx_refuted`. -/
theorem C155_idx_partial (chars rest : List Int) (b : ℕ) (hb : b = 0 ∨ 2 ≤ b) (hb' : b ≤ 36) (hc : ∀ c ∈ chars ++ 0 :: rest, IsChar c)
    (hp : HexPrefix (Spec.splitSign (Spec.skipSpace (chars ++ 0 :: rest))).2 → b = 0 ∨ b = 16)
    (hm : (Spec.splitSign (Spec.skipSpace (chars ++ 0 :: rest))).1 = false) :
    some (stringToIntIdx .int64 ⟨chars.length, chars ++ 0 :: rest⟩ b) = stringToInt .int64 ⟨chars.length, chars ++ 0 :: rest⟩ b := by
  have h := C35_str_to_int_partial (T := .int64) (by simp [CInt.Std, CInt.int64]) hb hb' (s := chars ++ 0 :: rest) (by simp) hc hp
    (by intro _ h; rw [hm] at h; cases h)
  rw [stringToInt, h, stringToIntIdx]
  congr 1
  have hr : CInt.int64.min ≤ Spec.strtol CInt.int64.min CInt.int64.max b (chars ++ 0 :: rest) ∧
      Spec.strtol CInt.int64.min CInt.int64.max b (chars ++ 0 :: rest) ≤ CInt.int64.max := by
    simp only [Spec.strtol, Spec.clampTo]
    have : CInt.int64.min ≤ CInt.int64.max := by decide
    split_ifs <;> omega
  generalize Spec.strtol CInt.int64.min CInt.int64.max b (chars ++ 0 :: rest) = r at hr
  have e1 : CInt.int64.min = -9223372036854775808 := by decide
  have e2 : CInt.int64.max = 9223372036854775807 := by decide
  rw [e1, e2] at hr
  simp only [CInt.conv, e1, show CInt.int64.w = 64 from rfl]
  omega

/-- `stoi("4294967296", &n)` is 0, whereas `stoi("4294967296")` is the largest `int` -/
theorem C155_idx_refuted : let s : Str := ⟨10, [0x34, 0x32, 0x39, 0x34, 0x39, 0x36, 0x37, 0x32, 0x39, 0x36, 0]⟩
    stringToIntIdx .int32 s 10 = 0 ∧ stringToInt .int32 s 10 = some 2147483647 := by
  decide +kernel

/-- " -42" in an array of 7 -/
example : stringToInt .int32 ⟨4, [0x20, 0x2D, 0x34, 0x32] ++ 0 :: [0, 0]⟩ 10 = some (-42) := by decide +kernel

end Sprout
