import Verif.Model.Nocase
import Verif.Proofs.Ascii

/-!
# C173: comparison without regard to case

Two characters are equal without regard to case if they are equal or the two forms of one letter.
-/

namespace Sprout
open Nocase Ascii Spec

/-- the upper and the lower form of one letter of the basic alphabet -/
def TwoForms (x y : Int) : Prop := 0x41 ≤ x ∧ x ≤ 0x5A ∧ y = x + 0x20

theorem tolower_char {c : Int} (h : IsChar c) : Ascii.tolower c = if 0x41 ≤ c ∧ c ≤ 0x5A then c + 0x20 else c := by
  have hu := Ascii.isupper_eq h
  unfold Ascii.isupper at hu
  unfold Ascii.tolower
  rw [hu]
  by_cases hc : 0x41 ≤ c ∧ c ≤ 0x5A
  · rw [if_pos hc, if_pos (decide_eq_true (show Ctype.upper c from hc))]; omega
  · rw [if_neg hc, if_neg (fun e => hc (of_decide_eq_true (p := Ctype.upper c) e))]

theorem toupper_char {c : Int} (h : IsChar c) : Ascii.toupper c = if 0x61 ≤ c ∧ c ≤ 0x7A then c - 0x20 else c := by
  have hu := Ascii.islower_eq h
  unfold Ascii.islower at hu
  unfold Ascii.toupper
  rw [hu]
  by_cases hc : 0x61 ≤ c ∧ c ≤ 0x7A
  · rw [if_pos hc, if_pos (decide_eq_true (show Ctype.lower c from hc))]; omega
  · rw [if_neg hc, if_neg (fun e => hc (of_decide_eq_true (p := Ctype.lower c) e))]

/-- equal without regard to case: equal, or the two forms of a letter -/
theorem C173_nocase (x y : Int) (hx : IsChar x) (hy : IsChar y) :
    nocaseEqualTo x y = true ↔ x = y ∨ TwoForms x y ∨ TwoForms y x := by
  unfold nocaseEqualTo TwoForms
  rw [beq_iff_eq, tolower_char hx, tolower_char hy]
  split <;> split <;> omega

/-- the two functors are opposite -/
theorem C173_not (x y : Int) : nocaseNotEqualTo x y = !nocaseEqualTo x y := rfl

/-- it is an equivalence -/
theorem C173_equivalence : Equivalence fun x y => nocaseEqualTo x y = true := by
  refine ⟨fun x => beq_self_eq_true _, fun {x y} h => ?_, fun {x y z} h k => ?_⟩
  · simp only [nocaseEqualTo, beq_iff_eq] at *; exact h.symm
  · simp only [nocaseEqualTo, beq_iff_eq] at *; exact h.trans k

/-- a character and its converted forms are equal without regard to case -/
theorem C173_converted (x : Int) (h : IsChar x) :
    nocaseEqualTo x (toLower x) = true ∧ nocaseEqualTo x (toUpper x) = true := by
  have hl : IsChar (toLower x) := by
    unfold toLower; rw [tolower_char h]; unfold IsChar at *; split <;> omega
  have hu : IsChar (toUpper x) := by
    unfold toUpper; rw [toupper_char h]; unfold IsChar at *; split <;> omega
  rw [C173_nocase x _ h hl, C173_nocase x _ h hu]
  unfold toLower toUpper TwoForms
  rw [tolower_char h, toupper_char h]
  constructor <;> split <;> omega

/-- comparing upper forms would give the same -/
theorem C173_upper (x y : Int) (hx : IsChar x) (hy : IsChar y) : nocaseEqualTo x y = true ↔ toUpper x = toUpper y := by
  rw [C173_nocase x y hx hy]
  unfold toUpper TwoForms
  rw [toupper_char hx, toupper_char hy]
  split <;> split <;> omega

example : nocaseEqualTo 0x51 0x71 = true ∧ nocaseEqualTo 0x40 0x60 = false ∧ nocaseEqualTo (-1) (-1) = true := by decide

end Sprout
