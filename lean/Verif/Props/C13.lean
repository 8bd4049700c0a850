import Verif.Proofs.Includes
import Verif.Props.C07

/-!
# C13: set operations compute multiset union, intersection and differences

Stated for any strict weak order, so multiplicities count equivalent elements (`Spec.mult`); the class
statements additionally say which of them are written and in which order.
The output range has room for the result and is disjoint from the inputs.
-/

namespace Sprout
open Spec
variable {α : Type}

/-- Sorted output `zs` written at `d`, its class for every key given by `F` from those of the inputs -/
def SetOp (op : List α → Nat → Nat → Nat → Nat → Nat → Option (List α × Nat)) (comp : α → α → Bool)
    (F : List α → List α → List α) : Prop :=
  ∀ xs ys : List α, SortedBy comp xs → SortedBy comp ys → ∃ zs : List α, SortedBy comp zs ∧
    (∀ v, cls comp v zs = F (cls comp v xs) (cls comp v ys)) ∧
    ∀ (m : List α) (a b d : Nat), Stored m a xs → Stored m b ys → (d + zs.length ≤ a ∨ a + xs.length ≤ d) → (d + zs.length ≤ b ∨ b + ys.length ≤ d) →
      d + zs.length ≤ m.length → op m a (a + xs.length) b (b + ys.length) d = some (overwrite m d zs, d + zs.length)

theorem C13_set_union (comp : α → α → Bool) (hc : StrictWeak comp) :
    SetOp (setUnion comp) comp (fun a b => a ++ b.drop a.length) := by
  intro xs ys hx hy
  refine ⟨zm (unionDec comp) true true xs ys, zm_sorted hc ?_ ?_ ?_ xs ys hx hy, fun v => ?_, fun m a b d h1 h2 h3 h4 h5 => merge2_spec _ _ _ xs ys m a b d h1 h2 h3 h4 h5⟩
  · intro x y e h; unfold unionDec at h; split at h
    · exact hc.asymm ‹_›
    · split at h <;> cases h
  · intro x y e h; unfold unionDec at h; split at h
    · cases h
    · split at h <;> simp_all
  · intro x y e h; unfold unionDec at h; split at h
    · cases h
    · split at h <;> simp_all
  · refine zm_cls hc (fun a b => a ++ b.drop a.length) (by simp) (by simp) ?_ ?_ ?_ v xs ys hx hy
    · intro x y e h; unfold unionDec at h; split at h
      · cases h
        refine ⟨hc.asymm ‹_›, fun a b hb => ?_⟩
        rw [hb ‹_›]; simp [em]
      · split at h <;> cases h
    · intro x y e h; unfold unionDec at h; split at h
      · cases h
      · split at h
        · cases h; exact ⟨‹_›, fun b => by simp [em]⟩
        · cases h
    · intro x y e h; unfold unionDec at h; split at h
      · cases h
      · split at h
        · cases h
        · cases h; exact ⟨by simp_all, by simp_all, fun a b => by simp [em]⟩

theorem C13_set_intersection (comp : α → α → Bool) (hc : StrictWeak comp) :
    SetOp (setIntersection comp) comp (fun a b => a.take b.length) := by
  intro xs ys hx hy
  refine ⟨zm (intersectionDec comp) false false xs ys, zm_sorted hc ?_ ?_ ?_ xs ys hx hy, fun v => ?_, fun m a b d h1 h2 h3 h4 h5 => merge2_spec _ _ _ xs ys m a b d h1 h2 h3 h4 h5⟩
  · intro x y e h; unfold intersectionDec at h; split at h
    · exact hc.asymm ‹_›
    · split at h <;> cases h
  · intro x y e h; unfold intersectionDec at h; split at h
    · cases h
    · split at h <;> simp_all
  · intro x y e h; unfold intersectionDec at h; split at h
    · cases h
    · split at h <;> simp_all
  · refine zm_cls hc (fun a b => a.take b.length) (by simp) (by simp) ?_ ?_ ?_ v xs ys hx hy
    · intro x y e h; unfold intersectionDec at h; split at h
      · cases h
        refine ⟨hc.asymm ‹_›, fun a b hb => ?_⟩
        rw [hb ‹_›]; simp [em]
      · split at h <;> cases h
    · intro x y e h; unfold intersectionDec at h; split at h
      · cases h
      · split at h
        · cases h; exact ⟨‹_›, fun b => by simp [em]⟩
        · cases h
    · intro x y e h; unfold intersectionDec at h; split at h
      · cases h
      · split at h
        · cases h
        · cases h; exact ⟨by simp_all, by simp_all, fun a b => by simp [em]⟩

theorem C13_set_difference (comp : α → α → Bool) (hc : StrictWeak comp) :
    SetOp (setDifference comp) comp (fun a b => a.drop b.length) := by
  intro xs ys hx hy
  refine ⟨zm (differenceDec comp) true false xs ys, zm_sorted hc ?_ ?_ ?_ xs ys hx hy, fun v => ?_, fun m a b d h1 h2 h3 h4 h5 => merge2_spec _ _ _ xs ys m a b d h1 h2 h3 h4 h5⟩
  · intro x y e h; unfold differenceDec at h; split at h
    · exact hc.asymm ‹_›
    · split at h <;> cases h
  · intro x y e h; unfold differenceDec at h; split at h
    · cases h
    · split at h <;> simp_all
  · intro x y e h; unfold differenceDec at h; split at h
    · cases h
    · split at h <;> simp_all
  · refine zm_cls hc (fun a b => a.drop b.length) (by simp) (by simp) ?_ ?_ ?_ v xs ys hx hy
    · intro x y e h; unfold differenceDec at h; split at h
      · cases h
        refine ⟨hc.asymm ‹_›, fun a b hb => ?_⟩
        rw [hb ‹_›]; simp [em]
      · split at h <;> cases h
    · intro x y e h; unfold differenceDec at h; split at h
      · cases h
      · split at h
        · cases h; exact ⟨‹_›, fun b => by simp [em]⟩
        · cases h
    · intro x y e h; unfold differenceDec at h; split at h
      · cases h
      · split at h
        · cases h
        · cases h; exact ⟨by simp_all, by simp_all, fun a b => by simp [em]⟩

theorem C13_set_symmetric_difference (comp : α → α → Bool) (hc : StrictWeak comp) :
    SetOp (setSymmetricDifference comp) comp (fun a b => a.drop b.length ++ b.drop a.length) := by
  intro xs ys hx hy
  refine ⟨zm (symmetricDifferenceDec comp) true true xs ys, zm_sorted hc ?_ ?_ ?_ xs ys hx hy, fun v => ?_, fun m a b d h1 h2 h3 h4 h5 => merge2_spec _ _ _ xs ys m a b d h1 h2 h3 h4 h5⟩
  · intro x y e h; unfold symmetricDifferenceDec at h; split at h
    · exact hc.asymm ‹_›
    · split at h <;> cases h
  · intro x y e h; unfold symmetricDifferenceDec at h; split at h
    · cases h
    · split at h <;> simp_all
  · intro x y e h; unfold symmetricDifferenceDec at h; split at h
    · cases h
    · split at h <;> simp_all
  · refine zm_cls hc (fun a b => a.drop b.length ++ b.drop a.length) (by simp) (by simp) ?_ ?_ ?_ v xs ys hx hy
    · intro x y e h; unfold symmetricDifferenceDec at h; split at h
      · cases h
        refine ⟨hc.asymm ‹_›, fun a b hb => ?_⟩
        rw [hb ‹_›]; simp [em]
      · split at h <;> cases h
    · intro x y e h; unfold symmetricDifferenceDec at h; split at h
      · cases h
      · split at h
        · cases h; exact ⟨‹_›, fun b => by simp [em]⟩
        · cases h
    · intro x y e h; unfold symmetricDifferenceDec at h; split at h
      · cases h
      · split at h
        · cases h
        · cases h; exact ⟨by simp_all, by simp_all, fun a b => by simp [em]⟩

/-- The multiplicity laws. -/
theorem C13_multiplicities (comp : α → α → Bool) (hc : StrictWeak comp) (m xs ys : List α) (a b d : Nat) (hsx : SortedBy comp xs) (hsy : SortedBy comp ys)
    (hx : Stored m a xs) (hy : Stored m b ys) (hda : d + (xs.length + ys.length) ≤ a ∨ a + xs.length ≤ d)
    (hdb : d + (xs.length + ys.length) ≤ b ∨ b + ys.length ≤ d) (hd : d + (xs.length + ys.length) ≤ m.length) :
    (∃ zs, setUnion comp m a (a + xs.length) b (b + ys.length) d = some (overwrite m d zs, d + zs.length) ∧ SortedBy comp zs ∧
      ∀ v, mult comp v zs = max (mult comp v xs) (mult comp v ys)) ∧
    (∃ zs, setIntersection comp m a (a + xs.length) b (b + ys.length) d = some (overwrite m d zs, d + zs.length) ∧ SortedBy comp zs ∧
      ∀ v, mult comp v zs = min (mult comp v xs) (mult comp v ys)) ∧
    (∃ zs, setDifference comp m a (a + xs.length) b (b + ys.length) d = some (overwrite m d zs, d + zs.length) ∧ SortedBy comp zs ∧
      ∀ v, mult comp v zs = mult comp v xs - mult comp v ys) ∧
    (∃ zs, setSymmetricDifference comp m a (a + xs.length) b (b + ys.length) d = some (overwrite m d zs, d + zs.length) ∧ SortedBy comp zs ∧
      ∀ v, mult comp v zs = (mult comp v xs - mult comp v ys) + (mult comp v ys - mult comp v xs)) := by
  have len : ∀ zs : List α, (∀ v, mult comp v zs ≤ mult comp v (xs ++ ys)) → zs.length ≤ xs.length + ys.length := by
    intro zs h
    classical
    have : zs.length ≤ (xs ++ ys).length := cls_length_le hc zs (xs ++ ys) h
    simpa using this
  have hcat : ∀ v, mult comp v (xs ++ ys) = mult comp v xs + mult comp v ys := by intro v; simp [mult, cls_append]
  refine ⟨?_, ?_, ?_, ?_⟩
  · obtain ⟨zs, h1, h2, h3⟩ := C13_set_union comp hc xs ys hsx hsy
    have hm : ∀ v, mult comp v zs = max (mult comp v xs) (mult comp v ys) := by
      intro v; simp only [mult, h2, List.length_append, List.length_drop]; omega
    have := len zs (fun v => by rw [hcat, hm]; omega)
    exact ⟨zs, h3 m a b d hx hy (by omega) (by omega) (by omega), h1, hm⟩
  · obtain ⟨zs, h1, h2, h3⟩ := C13_set_intersection comp hc xs ys hsx hsy
    have hm : ∀ v, mult comp v zs = min (mult comp v xs) (mult comp v ys) := by
      intro v; simp only [mult, h2, List.length_take]; omega
    have := len zs (fun v => by rw [hcat, hm]; omega)
    exact ⟨zs, h3 m a b d hx hy (by omega) (by omega) (by omega), h1, hm⟩
  · obtain ⟨zs, h1, h2, h3⟩ := C13_set_difference comp hc xs ys hsx hsy
    have hm : ∀ v, mult comp v zs = mult comp v xs - mult comp v ys := by
      intro v; simp only [mult, h2, List.length_drop]
    have := len zs (fun v => by rw [hcat, hm]; omega)
    exact ⟨zs, h3 m a b d hx hy (by omega) (by omega) (by omega), h1, hm⟩
  · obtain ⟨zs, h1, h2, h3⟩ := C13_set_symmetric_difference comp hc xs ys hsx hsy
    have hm : ∀ v, mult comp v zs = (mult comp v xs - mult comp v ys) + (mult comp v ys - mult comp v xs) := by
      intro v; simp only [mult, h2, List.length_append, List.length_drop]
    have := len zs (fun v => by rw [hcat, hm]; omega)
    exact ⟨zs, h3 m a b d hx hy (by omega) (by omega) (by omega), h1, hm⟩

/-- `includes` decides multiset inclusion (both implementations). -/
theorem C13_includes (comp : α → α → Bool) (hc : StrictWeak comp) (pre1 xs post1 pre2 ys post2 : List α) (hsx : SortedBy comp xs) (hsy : SortedBy comp ys) :
    ∃ r, includesRa comp (pre1 ++ xs ++ post1) (pre2 ++ ys ++ post2) pre1.length (pre1.length + xs.length) pre2.length (pre2.length + ys.length) = some r ∧
      includesIn comp (pre1 ++ xs ++ post1) (pre2 ++ ys ++ post2) pre1.length (pre1.length + xs.length) pre2.length (pre2.length + ys.length) = some r ∧
      (r = true ↔ ∀ v, mult comp v ys ≤ mult comp v xs) := by
  refine ⟨inc comp xs ys, ?_, ?_, inc_iff hc xs ys hsx hsy⟩
  · unfold includesRa
    by_cases h : xs = []
    · subst h
      rw [if_pos (by simp)]
      cases ys <;> simp [inc]
    · have hl : 0 < xs.length := List.length_pos_iff.mpr h
      rw [if_neg (by omega), Nat.add_sub_cancel_left, includesImplRa_eq _ _ _ _ _ _ _ hl]
      obtain ⟨r, h1, h2⟩ := runInc_spec comp _ _ xs ys _ _ (Seg.of_append pre1 xs post1) (Seg.of_append pre2 ys post2)
      rw [h1]
      simp [← h2]
  · unfold includesIn
    by_cases h : ys = []
    · subst h
      rw [if_pos (by simp), inc_nil]
    · have hl : 0 < ys.length := List.length_pos_iff.mpr h
      rw [if_neg (by omega)]
      obtain ⟨k, r, h1, h2⟩ := includesIn_run comp _ _ xs ys _ _ (Seg.of_append pre1 xs post1) (Seg.of_append pre2 ys post2)
      rw [dbl_run (finIf_idem _) _ _ _ 1 (Nat.le_refl _) h1]
      simp [← h2]

/-! Non-trivial instances. -/

example : ∃ zs, setUnion keyLt ([(1, 0), (1, 1), (2, 0)] ++ [(1, 7), (3, 7)] ++ List.replicate 5 (0, 0)) 0 3 3 5 5
      = some (overwrite ([(1, 0), (1, 1), (2, 0)] ++ [(1, 7), (3, 7)] ++ List.replicate 5 (0, 0)) 5 zs, 5 + zs.length) ∧ SortedBy keyLt zs ∧
      ∀ v, mult keyLt v zs = max (mult keyLt v [(1, 0), (1, 1), (2, 0)]) (mult keyLt v [(1, 7), (3, 7)]) :=
  (C13_multiplicities keyLt strictWeak_keyLt ([(1, 0), (1, 1), (2, 0)] ++ [(1, 7), (3, 7)] ++ List.replicate 5 (0, 0)) [(1, 0), (1, 1), (2, 0)] [(1, 7), (3, 7)] 0 3 5
    (by unfold SortedBy; decide) (by unfold SortedBy; decide) (by unfold Stored; decide) (by unfold Stored; decide) (by decide) (by decide) (by decide)).1

example : ¬ ∀ v, mult keyLt v [(1, 0), (1, 1)] ≤ mult keyLt v [(1, 7), (3, 7)] := fun h => absurd (h (1, 0)) (by decide)

end Sprout
