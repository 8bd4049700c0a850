import Verif.Proofs.MinMax

/-!
# C18: min/max element positions and tie rules

For both implementations of each algorithm (random access halving and forward doubling).
For an empty range all of them return `last` (`minmax_element`: `(first, first)`).
-/

namespace Sprout
variable {α : Type}

theorem C18_min_element (comp : α → α → Bool) (hc : StrictWeak comp) (pre xs post : List α) (hx : xs ≠ []) :
    (∃ k, minElementRa comp (pre ++ xs ++ post) pre.length (pre.length + xs.length) = some (pre.length + k) ∧ Spec.FirstMin comp xs k) ∧
    (∃ k, minElementFw comp (pre ++ xs ++ post) pre.length (pre.length + xs.length) = some (pre.length + k) ∧ Spec.FirstMin comp xs k) := by
  have hxl : 0 < xs.length := List.length_pos_iff.mpr hx
  have d := xs.head hx
  have hcmp : ∀ i j, pre.length ≤ i → i < pre.length + xs.length → pre.length ≤ j → j < pre.length + xs.length →
      cmpAt comp (pre ++ xs ++ post) i j = some (posLt comp (pre ++ xs ++ post) d i j) :=
    fun i j _ _ _ _ => cmpAt_eq (by simp; omega) (by simp; omega)
  have hsw := posLt_sw hc (pre ++ xs ++ post) d
  constructor
  · obtain ⟨r, h1, h2⟩ := minElementImplRa_spec hsw _ _ _ rfl (by omega) hcmp
    obtain ⟨k, rfl, h3⟩ := firstMin_of_pos h2
    exact ⟨k, by unfold minElementRa; rw [if_neg (by omega), h1], h3⟩
  · obtain ⟨n, r, h1, h2⟩ := minElementFw_run hsw pre.length _ _ (pre.length + 1) pre.length rfl (by omega) (.single hsw _) hcmp
    obtain ⟨k, rfl, h3⟩ := firstMin_of_pos h2
    refine ⟨k, ?_, h3⟩
    unfold minElementFw
    rw [if_neg (by omega), dbl_run (finIf_idem _) _ _ _ 1 (Nat.le_refl _) h1]
    rfl

theorem C18_max_element (comp : α → α → Bool) (hc : StrictWeak comp) (pre xs post : List α) (hx : xs ≠ []) :
    (∃ k, maxElementRa comp (pre ++ xs ++ post) pre.length (pre.length + xs.length) = some (pre.length + k) ∧ Spec.FirstMax comp xs k) ∧
    (∃ k, maxElementFw comp (pre ++ xs ++ post) pre.length (pre.length + xs.length) = some (pre.length + k) ∧ Spec.FirstMax comp xs k) := by
  have hxl : 0 < xs.length := List.length_pos_iff.mpr hx
  have d := xs.head hx
  have hcf := strictWeak_flip hc
  have hcmp : ∀ i j, pre.length ≤ i → i < pre.length + xs.length → pre.length ≤ j → j < pre.length + xs.length →
      (fun i j => cmpAt comp (pre ++ xs ++ post) j i) i j = some (posLt (fun a b => comp b a) (pre ++ xs ++ post) d i j) :=
    fun i j _ _ _ _ => cmpAt_eq (d := d) (by simp; omega) (by simp; omega)
  have hsw := posLt_sw hcf (pre ++ xs ++ post) d
  constructor
  · obtain ⟨r, h1, h2⟩ := minElementImplRa_spec hsw _ _ _ rfl (by omega) hcmp
    obtain ⟨k, rfl, h3⟩ := firstMin_of_pos h2
    refine ⟨k, ?_, h3⟩
    unfold maxElementRa
    rw [if_neg (by omega), maxElementImplRa_eq _ _ _ _ rfl (by omega), h1]
  · obtain ⟨n, r, h1, h2⟩ := minElementFw_run hsw pre.length _ _ (pre.length + 1) pre.length rfl (by omega) (.single hsw _) hcmp
    obtain ⟨k, rfl, h3⟩ := firstMin_of_pos h2
    refine ⟨k, ?_, h3⟩
    unfold maxElementFw
    have := dbl_run (finIf_idem _) _ _ _ 1 (Nat.le_refl _) h1
    rw [if_neg (by omega)]
    simp only [iterMin] at this
    simp only [iterMax]
    rw [this]
    rfl

theorem C18_minmax_element (comp : α → α → Bool) (hc : StrictWeak comp) (pre xs post : List α) (hx : xs ≠ []) :
    (∃ k l, minmaxElementRa comp (pre ++ xs ++ post) pre.length (pre.length + xs.length) = some (pre.length + k, pre.length + l) ∧
      Spec.FirstMin comp xs k ∧ Spec.LastMax comp xs l) ∧
    (∃ k l, minmaxElementFw comp (pre ++ xs ++ post) pre.length (pre.length + xs.length) = some (pre.length + k, pre.length + l) ∧
      Spec.FirstMin comp xs k ∧ Spec.LastMax comp xs l) := by
  have hxl : 0 < xs.length := List.length_pos_iff.mpr hx
  have d := xs.head hx
  have hcmp : ∀ i j, pre.length ≤ i → i < pre.length + xs.length → pre.length ≤ j → j < pre.length + xs.length →
      cmpAt comp (pre ++ xs ++ post) i j = some (posLt comp (pre ++ xs ++ post) d i j) :=
    fun i j _ _ _ _ => cmpAt_eq (by simp; omega) (by simp; omega)
  have hsw := posLt_sw hc (pre ++ xs ++ post) d
  constructor
  · suffices ∃ r, minmaxElementRa comp (pre ++ xs ++ post) pre.length (pre.length + xs.length) = some r ∧
        FirstMinP (posLt comp (pre ++ xs ++ post) d) pre.length (pre.length + xs.length) r.1 ∧
        LastMaxP (posLt comp (pre ++ xs ++ post) d) pre.length (pre.length + xs.length) r.2 by
      obtain ⟨⟨r1, r2⟩, h1, h2, h3⟩ := this
      obtain ⟨k, hk, h4⟩ := firstMin_of_pos h2
      obtain ⟨l, hl, h5⟩ := lastMax_of_pos h3
      exact ⟨k, l, by rw [h1]; simp only at hk hl; rw [hk, hl], h4, h5⟩
    unfold minmaxElementRa
    by_cases h1 : pre.length = pre.length + xs.length ∨ pre.length + 1 = pre.length + xs.length
    · rw [if_pos h1]
      have : xs.length = 1 := by omega
      rw [this]
      exact ⟨_, rfl, .single hsw _, .single hsw _⟩
    · rw [if_neg h1, Nat.add_sub_cancel_left]
      obtain ⟨r, g1, g2, g3⟩ := minmaxElementImplRa_spec hsw (xs.length / 2) pre.length (by omega)
        (fun i j _ _ _ _ => hcmp i j (by omega) (by omega) (by omega) (by omega))
      by_cases h2 : xs.length % 2 = 0
      · rw [if_pos h2, g1]
        rw [show 2 * (xs.length / 2) = xs.length by omega] at g2 g3
        exact ⟨r, rfl, g2, g3⟩
      · rw [if_neg h2, g1]
        have e : pre.length + xs.length = pre.length + 2 * (xs.length / 2) + 1 := by omega
        rw [e]
        simp only [Option.bind_eq_bind, Option.bind_some, iterMinmax2, Nat.add_sub_cancel]
        have := g2.1; have := g2.2.1; have := g3.1; have := g3.2.1
        rw [hcmp _ r.1 (by omega) (by omega) (by omega) (by omega), hcmp _ r.2 (by omega) (by omega) (by omega) (by omega)]
        exact ⟨_, rfl, g2.join hsw (.single hsw _), g3.join hsw (.single hsw _)⟩
  · suffices ∃ r, minmaxElementFw comp (pre ++ xs ++ post) pre.length (pre.length + xs.length) = some r ∧
        FirstMinP (posLt comp (pre ++ xs ++ post) d) pre.length (pre.length + xs.length) r.1 ∧
        LastMaxP (posLt comp (pre ++ xs ++ post) d) pre.length (pre.length + xs.length) r.2 by
      obtain ⟨⟨r1, r2⟩, h1, h2, h3⟩ := this
      obtain ⟨k, hk, h4⟩ := firstMin_of_pos h2
      obtain ⟨l, hl, h5⟩ := lastMax_of_pos h3
      exact ⟨k, l, by rw [h1]; simp only at hk hl; rw [hk, hl], h4, h5⟩
    unfold minmaxElementFw
    rw [if_neg (by omega)]
    by_cases h1 : pre.length + 1 = pre.length + xs.length
    · rw [if_pos h1]
      obtain ⟨n, r, g1, g2⟩ := minmaxFw_run hsw pre.length (pre.length + xs.length) hcmp _ (pre.length + 1) (pre.length, pre.length) rfl (by omega)
        (.single hsw _) (.single hsw _)
      simp only [Option.bind_eq_bind, Option.bind_some]
      rw [dbl_run (finIf_idem _) _ _ _ 1 (Nat.le_refl _) g1]
      exact ⟨r, rfl, g2⟩
    · rw [if_neg h1]
      obtain ⟨p, e, p1, p2⟩ := iterMinmax_spec (cmp := cmpAt comp (pre ++ xs ++ post)) hsw (a := pre.length)
        (hcmp _ _ (by omega) (by omega) (by omega) (by omega))
      obtain ⟨n, r, g1, g2⟩ := minmaxFw_run hsw pre.length (pre.length + xs.length) hcmp _ (pre.length + 2) p rfl (by omega) p1 p2
      simp only [Option.bind_eq_bind, e, Option.bind_some]
      rw [dbl_run (finIf_idem _) _ _ _ 1 (Nat.le_refl _) g1]
      exact ⟨r, rfl, g2⟩

theorem C18_empty (comp : α → α → Bool) (m : List α) (p : Nat) :
    minElementRa comp m p p = some p ∧ minElementFw comp m p p = some p ∧
    maxElementRa comp m p p = some p ∧ maxElementFw comp m p p = some p ∧
    minmaxElementRa comp m p p = some (p, p) ∧ minmaxElementFw comp m p p = some (p, p) ∧
    isSortedUntilRa comp m p p = some p ∧ isSortedUntilFw comp m p p = some p := by
  refine ⟨?_, ?_, ?_, ?_, ?_, ?_, ?_, ?_⟩ <;>
    simp [minElementRa, minElementFw, maxElementRa, maxElementFw, minmaxElementRa, minmaxElementFw, isSortedUntilRa, isSortedUntilFw]

theorem C18_is_sorted_until (comp : α → α → Bool) (hc : StrictWeak comp) (pre xs post : List α) :
    (∃ k, isSortedUntilRa comp (pre ++ xs ++ post) pre.length (pre.length + xs.length) = some (pre.length + k) ∧ Spec.SortedUntil comp xs k) ∧
    (∃ k, isSortedUntilFw comp (pre ++ xs ++ post) pre.length (pre.length + xs.length) = some (pre.length + k) ∧ Spec.SortedUntil comp xs k) := by
  rcases Nat.eq_zero_or_pos xs.length with hx | hxl
  · obtain rfl := List.length_eq_zero_iff.mp hx
    refine ⟨⟨0, ?_, ?_⟩, ⟨0, ?_, ?_⟩⟩
    · simp [isSortedUntilRa]
    · simp [Spec.SortedUntil, SortedBy]
    · simp [isSortedUntilFw]
    · simp [Spec.SortedUntil, SortedBy]
  have hx : xs ≠ [] := List.length_pos_iff.mp hxl
  have d := xs.head hx
  have hcmp : ∀ i, pre.length ≤ i → i < pre.length + xs.length - 1 →
      cmpAt comp (pre ++ xs ++ post) (i + 1) i = some (posLt comp (pre ++ xs ++ post) d (i + 1) i) :=
    fun i _ _ => cmpAt_eq (by simp; omega) (by simp; omega)
  constructor
  · unfold isSortedUntilRa
    by_cases h1 : pre.length = pre.length + xs.length ∨ pre.length + xs.length - pre.length = 1
    · rw [if_pos h1]
      have : xs.length = 1 := by omega
      refine ⟨xs.length, rfl, Nat.le_refl _, ?_, by omega⟩
      rw [List.take_length]
      obtain ⟨x, rfl⟩ := List.length_eq_one_iff.mp this
      simp [SortedBy]
    · rw [if_neg h1]
      obtain ⟨r, g1, g2⟩ := isSortedUntilImplRa_spec (cmp := cmpAt comp (pre ++ xs ++ post)) _ pre.length (pre.length + xs.length - 1) rfl (by omega) hcmp
      rw [show pre.length + (pre.length + xs.length - pre.length - 1) = pre.length + xs.length - 1 by omega,
        show pre.length + xs.length - pre.length - 1 = pre.length + xs.length - 1 - pre.length by omega, g1]
      obtain ⟨k, hk, h5⟩ := sortedUntil_of_pos hc hx g2
      exact ⟨k, by simp only [Option.bind_eq_bind, Option.bind_some, hk], h5⟩
  · unfold isSortedUntilFw
    rw [if_neg (by omega)]
    obtain ⟨n, r, e, g1, g2⟩ := isSortedUntilFw_run (cmp := cmpAt comp (pre ++ xs ++ post)) _ pre.length (pre.length + xs.length - 1) rfl (by omega) hcmp
    rw [show pre.length + xs.length - 1 + 1 = pre.length + xs.length by omega] at g1
    rw [dbl_run (finIf_idem _) _ _ _ 1 (Nat.le_refl _) g1]
    obtain ⟨k, hk, h5⟩ := sortedUntil_of_pos hc hx g2
    exact ⟨k, by simp only [Option.bind_eq_bind, Option.bind_some, hk], h5⟩

theorem C18_is_sorted (comp : α → α → Bool) (hc : StrictWeak comp) (pre xs post : List α) :
    (∃ b, isSortedRa comp (pre ++ xs ++ post) pre.length (pre.length + xs.length) = some b ∧ (b = true ↔ SortedBy comp xs)) ∧
    (∃ b, isSortedFw comp (pre ++ xs ++ post) pre.length (pre.length + xs.length) = some b ∧ (b = true ↔ SortedBy comp xs)) := by
  constructor
  · unfold isSortedRa
    by_cases h1 : pre.length = pre.length + xs.length ∨ pre.length + xs.length - pre.length = 1
    · rw [if_pos h1]
      refine ⟨true, rfl, ⟨fun _ => ?_, fun _ => rfl⟩⟩
      rcases xs with _ | ⟨x, _ | ⟨y, r⟩⟩
      · simp [SortedBy]
      · simp [SortedBy]
      · simp at h1
    · rw [if_neg h1]
      have hx : xs ≠ [] := by rintro rfl; simp at h1
      have d := xs.head hx
      have hxl : 0 < xs.length := List.length_pos_iff.mpr hx
      obtain ⟨r, g1, g2⟩ := isSortedImplRa_spec (cmp := cmpAt comp (pre ++ xs ++ post)) (lt := posLt comp (pre ++ xs ++ post) d)
        _ pre.length (pre.length + xs.length - 1) rfl (by omega)
        (fun i _ _ => cmpAt_eq (by simp; omega) (by simp; omega))
      rw [show pre.length + (pre.length + xs.length - pre.length - 1) = pre.length + xs.length - 1 by omega,
        show pre.length + xs.length - pre.length - 1 = pre.length + xs.length - 1 - pre.length by omega, g1]
      refine ⟨r, rfl, g2.trans ⟨fun h => ?_, fun h i h1 h2 => ?_⟩⟩
      · apply sortedBy_of_adj hc
        intro i hi
        have := h (pre.length + i) (by omega) (by omega)
        rwa [Nat.add_assoc, posLt_seg (by omega) (by omega)] at this
      · obtain ⟨k, rfl⟩ := Nat.exists_eq_add_of_le h1
        rw [Nat.add_assoc, posLt_seg (by omega) (by omega)]
        unfold SortedBy at h
        rw [List.pairwise_iff_getElem] at h
        exact h k (k + 1) _ _ (by omega)
  · obtain ⟨k, h1, h2, h3, h4⟩ := (C18_is_sorted_until comp hc pre xs post).2
    unfold isSortedFw
    rw [h1]
    refine ⟨_, rfl, ?_⟩
    rw [beq_iff_eq]
    constructor
    · intro h
      have : k = xs.length := by omega
      rwa [this, List.take_length] at h3
    · intro hs
      by_contra hk
      apply h4 (by omega)
      exact List.Pairwise.sublist (List.take_sublist _ _) hs

/-! Non-trivial instances. -/

theorem strictWeak_nat_lt : StrictWeak (fun a b : Nat => decide (a < b)) :=
  ⟨by simp, fun a b c h1 h2 => by simp at *; omega, fun a b c h => by simp at *; omega⟩

example : ∃ k l, minmaxElementRa (fun a b : Nat => decide (a < b)) [9, 3, 1, 4, 1, 4, 0] 1 6 = some (1 + k, 1 + l) ∧
    Spec.FirstMin (fun a b : Nat => decide (a < b)) [3, 1, 4, 1, 4] k ∧ Spec.LastMax (fun a b : Nat => decide (a < b)) [3, 1, 4, 1, 4] l :=
  (C18_minmax_element _ strictWeak_nat_lt [9] [3, 1, 4, 1, 4] [0] (by simp)).1
example : ∃ k, isSortedUntilFw (fun a b : Nat => decide (a < b)) [9, 1, 3, 2, 0] 1 4 = some (1 + k) ∧
    Spec.SortedUntil (fun a b : Nat => decide (a < b)) [1, 3, 2] k :=
  (C18_is_sorted_until _ strictWeak_nat_lt [9] [1, 3, 2] [0]).2

end Sprout
