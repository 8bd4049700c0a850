import Verif.Model.Ascii
import Verif.Spec.Ctype

/-! # Lemmas about character classification -/

namespace Sprout.Ascii
open Spec

/-- a code unit: the value of some character type (at most 32 bits wide) -/
def IsChar (c : Int) : Prop := -2 ^ 31 ≤ c ∧ c < 2 ^ 32

theorem getValue_out {c : Int} (h : IsChar c) (ho : ¬ (0 ≤ c ∧ c < 128)) : getValue c = 0 := by
  unfold IsChar at h
  rw [getValue, if_neg]
  unfold toSize tableSize
  omega

/-- a class given by a bit of the table -/
theorem class_iff (b : Nat) (P : Int → Prop) [DecidablePred P] (hP : ∀ c, P c → 0 ≤ c ∧ c < 128)
    (ht : ∀ k : Fin 128, (getValue (k.1 : Nat) &&& b != 0) = decide (P (k.1 : Nat))) {c : Int} (h : IsChar c) :
    (getValue c &&& b != 0) = decide (P c) := by
  by_cases hc : 0 ≤ c ∧ c < 128
  · have := ht ⟨c.toNat, by omega⟩
    simp only at this
    rwa [show ((c.toNat : Nat) : Int) = c by omega] at this
  · rw [getValue_out h hc, decide_eq_false (fun hp => hc (hP c hp))]
    simp

theorem isalnum_eq {c : Int} (h : IsChar c) : isalnum c = decide (Ctype.alnum c) :=
  class_iff _ _ (by simp only [Ctype.alnum, Ctype.alpha, Ctype.lower, Ctype.upper, Ctype.digit]; omega) (by decide +kernel) h
theorem isalpha_eq {c : Int} (h : IsChar c) : isalpha c = decide (Ctype.alpha c) :=
  class_iff _ _ (by simp only [Ctype.alpha, Ctype.lower, Ctype.upper]; omega) (by decide +kernel) h
theorem isblank_eq {c : Int} (h : IsChar c) : isblank c = decide (Ctype.blank c) :=
  class_iff _ _ (by simp only [Ctype.blank]; omega) (by decide +kernel) h
theorem iscntrl_eq {c : Int} (h : IsChar c) : iscntrl c = decide (Ctype.cntrl c) :=
  class_iff _ _ (by simp only [Ctype.cntrl]; omega) (by decide +kernel) h
theorem isdigit_eq {c : Int} (h : IsChar c) : isdigit c = decide (Ctype.digit c) :=
  class_iff _ _ (by simp only [Ctype.digit]; omega) (by decide +kernel) h
theorem isgraph_eq {c : Int} (h : IsChar c) : isgraph c = decide (Ctype.graph c) :=
  class_iff _ _ (by simp only [Ctype.graph, Ctype.print]; omega) (by decide +kernel) h
theorem islower_eq {c : Int} (h : IsChar c) : islower c = decide (Ctype.lower c) :=
  class_iff _ _ (by simp only [Ctype.lower]; omega) (by decide +kernel) h
theorem isprint_eq {c : Int} (h : IsChar c) : isprint c = decide (Ctype.print c) :=
  class_iff _ _ (by simp only [Ctype.print]; omega) (by decide +kernel) h
theorem ispunct_eq {c : Int} (h : IsChar c) : ispunct c = decide (Ctype.punct c) :=
  class_iff _ _ (by simp only [Ctype.punct, Ctype.graph, Ctype.print]; omega) (by decide +kernel) h
theorem isspace_eq {c : Int} (h : IsChar c) : isspace c = decide (Ctype.space c) :=
  class_iff _ _ (by simp only [Ctype.space]; omega) (by decide +kernel) h
theorem isupper_eq {c : Int} (h : IsChar c) : isupper c = decide (Ctype.upper c) :=
  class_iff _ _ (by simp only [Ctype.upper]; omega) (by decide +kernel) h
theorem isxdigit_eq {c : Int} (h : IsChar c) : isxdigit c = decide (Ctype.xdigit c) :=
  class_iff _ _ (by simp only [Ctype.xdigit, Ctype.digit]; omega) (by decide +kernel) h

end Sprout.Ascii
