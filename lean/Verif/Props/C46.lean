import Verif.Proofs.Ascii

/-!
# C46: ASCII character classification

The twelve `isxxx` functions, `tolower` and `toupper` are those of the "C" locale for every code unit (of a type of at most 32 bits, signed or not).
`isclassified(m, c)`, which should test the classes in the mask `m`, ignores `m`: it combines with `|` instead of `&`.
-/

namespace Sprout
open Spec Ascii

theorem C46_classes {c : Int} (h : IsChar c) :
    (isalnum c = true ↔ Ctype.alnum c) ∧ (isalpha c = true ↔ Ctype.alpha c) ∧ (isblank c = true ↔ Ctype.blank c) ∧
    (iscntrl c = true ↔ Ctype.cntrl c) ∧ (isdigit c = true ↔ Ctype.digit c) ∧ (isgraph c = true ↔ Ctype.graph c) ∧
    (islower c = true ↔ Ctype.lower c) ∧ (isprint c = true ↔ Ctype.print c) ∧ (ispunct c = true ↔ Ctype.punct c) ∧
    (isspace c = true ↔ Ctype.space c) ∧ (isupper c = true ↔ Ctype.upper c) ∧ (isxdigit c = true ↔ Ctype.xdigit c) := by
  simp only [isalnum_eq h, isalpha_eq h, isblank_eq h, iscntrl_eq h, isdigit_eq h, isgraph_eq h, islower_eq h, isprint_eq h,
    ispunct_eq h, isspace_eq h, isupper_eq h, isxdigit_eq h, decide_eq_true_eq, and_self]

/-- `tolower`/`toupper` map exactly the letters of the other case, to the corresponding letter -/
theorem C46_case {c : Int} (h : IsChar c) :
    (Ctype.upper c → tolower c = c + 32 ∧ Ctype.lower (tolower c)) ∧ (¬ Ctype.upper c → tolower c = c) ∧
    (Ctype.lower c → toupper c = c - 32 ∧ Ctype.upper (toupper c)) ∧ (¬ Ctype.lower c → toupper c = c) := by
  have hu : (getValue c &&& upper != 0) = decide (Ctype.upper c) := isupper_eq h
  have hl : (getValue c &&& lower != 0) = decide (Ctype.lower c) := islower_eq h
  unfold tolower toupper
  rw [hu, hl]
  simp only [decide_eq_true_eq]
  refine ⟨fun hc => ?_, fun hc => if_neg hc, fun hc => ?_, fun hc => if_neg hc⟩
  · rw [if_pos hc]; unfold Ctype.upper at hc; unfold Ctype.lower; omega
  · rw [if_pos hc]; unfold Ctype.lower at hc; unfold Ctype.upper; omega

/-- converting back and forth -/
theorem C46_case_inverse {c : Int} (h : IsChar c) (ha : Ctype.alpha c) :
    (Ctype.lower c → tolower (toupper c) = c) ∧ (Ctype.upper c → toupper (tolower c) = c) := by
  have h' : IsChar (c + 32) ∧ IsChar (c - 32) := by
    simp only [Ctype.alpha, Ctype.lower, Ctype.upper] at ha; unfold IsChar; omega
  refine ⟨fun hl => ?_, fun hu => ?_⟩
  · obtain ⟨e, hu⟩ := (C46_case h).2.2.1 hl
    rw [e] at hu ⊢
    rw [((C46_case h'.2).1 hu).1]; omega
  · obtain ⟨e, hl⟩ := (C46_case h).1 hu
    rw [e] at hl ⊢
    rw [((C46_case h'.1).2.2.1 hl).1]; omega

/-- a character belongs to one of the classes in a mask -/
def inClasses (M : Masks) (m : Nat) (c : Int) : Prop :=
  (m &&& M.alnum = M.alnum ∧ Ctype.alnum c) ∨ (m &&& M.alpha = M.alpha ∧ Ctype.alpha c) ∨
  (m &&& M.blank = M.blank ∧ Ctype.blank c) ∨ (m &&& M.cntrl = M.cntrl ∧ Ctype.cntrl c) ∨
  (m &&& M.digit = M.digit ∧ Ctype.digit c) ∨ (m &&& M.graph = M.graph ∧ Ctype.graph c) ∨
  (m &&& M.lower = M.lower ∧ Ctype.lower c) ∨ (m &&& M.print = M.print ∧ Ctype.print c) ∨
  (m &&& M.punct = M.punct ∧ Ctype.punct c) ∨ (m &&& M.space = M.space ∧ Ctype.space c) ∨
  (m &&& M.upper = M.upper ∧ Ctype.upper c) ∨ (m &&& M.xdigit = M.xdigit ∧ Ctype.xdigit c)

/-- the masks of glibc (`_IS...` of <ctype.h> on a little-endian machine, as used by libstdc++) -/
def glibcMasks : Masks where
  upper := 0x100
  lower := 0x200
  alpha := 0x400
  digit := 0x800
  xdigit := 0x1000
  space := 0x2000
  print := 0x4000
  graph := 0x400 ||| 0x800 ||| 0x4
  blank := 0x1
  cntrl := 0x2
  punct := 0x4
  alnum := 0x400 ||| 0x800

/-- `isclassified(upper, '5')` is true -/
theorem C46_isclassified_false :
    ¬ ∀ (m : Nat) (c : Int), IsChar c → (isclassified glibcMasks m c = true ↔ inClasses glibcMasks m c) := by
  intro h
  have := (h 0x100 0x35 (by unfold IsChar; omega)).1 (by decide +kernel)
  revert this
  simp only [inClasses, glibcMasks]
  simp [Ctype.upper]

/-- what it computes: whether the character is ASCII at all, whatever the mask (all masks of the implementation being nonzero) -/
theorem C46_isclassified_partial (M : Masks) (hp : M.print ≠ 0) (hc : M.cntrl ≠ 0) (m : Nat) {c : Int} (h : IsChar c) :
    isclassified M m c = decide (0 ≤ c ∧ c < 128) := by
  by_cases hr : 0 ≤ c ∧ c < 128
  · rw [decide_eq_true hr]
    have h1 : (getValue c &&& cntrl != 0) = decide (Ctype.cntrl c) := iscntrl_eq h
    have h2 : (getValue c &&& print != 0) = decide (Ctype.print c) := isprint_eq h
    have e1 : (m ||| M.print != 0) = true := by simp [hp]
    have e2 : (m ||| M.cntrl != 0) = true := by simp [hc]
    unfold isclassified
    rw [e1, e2, h1, h2]
    by_cases hcn : Ctype.cntrl c
    · simp [hcn]
    · have : Ctype.print c := by simp only [Ctype.cntrl, Ctype.print] at *; omega
      simp [this]
  · rw [decide_eq_false hr]
    simp [isclassified, getValue_out h hr]

/-! non-vacuity -/
example : isxdigit 0x66 = true ∧ isxdigit 0x67 = false ∧ isspace 0x0B = true ∧ isalpha (-23) = false ∧ toupper 0x71 = 0x51 := by
  decide +kernel

end Sprout
