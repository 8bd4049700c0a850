import Verif.Spec.OptionalT

/-! # Lemmas about `optional` -/

namespace Sprout
namespace Opt
open Spec
variable {H P α : Type} {p : Policy H P α}

theorem laws_obj (d : α) : HolderLaws (objPolicy d) :=
  ⟨fun h a e => ⟨h, rfl, e⟩, fun _ _ _ => rfl⟩

theorem laws_ref (m : List α) : HolderLaws (refPolicy m) := by
  refine ⟨fun h a e => ?_, fun h a e => ?_⟩ <;> cases h with
  | none => simp [refPolicy] at e
  | some i => first | exact ⟨i, rfl, e⟩ | rfl

theorem laws_cref (m : List α) : HolderLaws (crefPolicy m) := by
  refine ⟨fun h a e => ?_, fun h a e => ?_⟩ <;> cases h with
  | none => simp [crefPolicy] at e
  | some i => first | exact ⟨i, rfl, e⟩ | rfl

theorem init_holds {o : O H} {x : Option α} (h : Holds p o x) : o.init = x.isSome := by
  cases x with
  | none => exact h
  | some a => exact h.1

theorem deref_holds {o : O H} {x : Option α} (h : Holds p o x) : deref p o = x := by
  cases x with
  | none => rw [deref, if_neg (by rw [show o.init = false from h]; decide)]
  | some a => rw [deref, if_pos h.1, h.2]

end Opt
end Sprout
