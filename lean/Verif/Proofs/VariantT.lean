import Verif.Spec.VariantT
import Verif.Proofs.TypeList

/-! # Lemmas about `variant` -/

namespace Sprout
namespace Var
open Spec
variable {τ V R : Type} {ts : List τ}

theorem findIndexIf_eq {α : Type} (p : α → Bool) (l : List α) : TypeList.findIndexIf p l = some (l.findIdx p) := by
  by_cases h : l.length = 0
  · obtain rfl := List.length_eq_zero_iff.1 h
    simp [TypeList.findIndexIf]
  · have := TypeList.findImpl_eq p l l.length 0 l.length (by omega) (by omega) le_rfl
    rw [TypeList.seg_all, Nat.sub_zero, Nat.zero_add] at this
    rw [TypeList.findIndexIf, if_neg h, this]

theorem vholds_lt {x : Variant V} {i : Nat} {t : τ} {v : V} (h : VHolds ts x i t v) : i < ts.length := by
  obtain ⟨hi, -⟩ := List.getElem?_eq_some_iff.1 h.2.2.1
  exact hi

theorem cmpFrom_eq (c : τ → V → V → Bool) {l r : List V} {i : Nat} {t : τ} {v w : V} (ht : ts[i]? = some t) (hl : l[i]? = some v)
    (hr : r[i]? = some w) : ∀ (d I : Nat), I + d = i → cmpFrom ts c l r i I = some (c t v w) := by
  have hi : i < ts.length := (List.getElem?_eq_some_iff.1 ht).1
  intro d
  induction d with
  | zero =>
    intro I e
    rw [cmpFrom, if_pos (by omega), if_pos (by omega), show I = i by omega, ht, hl, hr]
    rfl
  | succ d ih =>
    intro I e
    rw [cmpFrom, if_pos (by omega), if_neg (by omega)]
    exact ih (I + 1) (by omega)

theorem outputFrom_eq (w : τ → V → List Nat) {l : List V} {i : Nat} {t : τ} {v : V} (ht : ts[i]? = some t) (hl : l[i]? = some v) :
    ∀ (d I : Nat), I + d = i → outputFrom ts w l i I = some (w t v) := by
  have hi : i < ts.length := (List.getElem?_eq_some_iff.1 ht).1
  intro d
  induction d with
  | zero =>
    intro I e
    rw [outputFrom, if_pos (by omega), if_pos (by omega), show I = i by omega, ht, hl]
    rfl
  | succ d ih =>
    intro I e
    rw [outputFrom, if_pos (by omega), if_neg (by omega)]
    exact ih (I + 1) (by omega)

theorem visitFrom_eq (f : τ → V → R) {l : List V} {i : Nat} {t : τ} {v : V} (ht : ts[i]? = some t) (hl : l[i]? = some v) :
    ∀ (d I : Nat), I + d = i → visitFrom ts f l i I = some (f t v) := by
  have hi : i < ts.length := (List.getElem?_eq_some_iff.1 ht).1
  intro d
  induction d with
  | zero =>
    intro I e
    obtain rfl : I = i := by omega
    rw [visitFrom, if_pos hi, ht, hl]
    by_cases hc : I = ts.length - 1
    · rw [if_pos hc]; rfl
    · rw [if_neg hc, if_pos rfl]; rfl
  | succ d ih =>
    intro I e
    rw [visitFrom, if_pos (by omega), if_neg (by omega), if_neg (by omega)]
    exact ih (I + 1) (by omega)

end Var
end Sprout
