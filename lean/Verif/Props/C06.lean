import Verif.Model.IsHeap
import Verif.Spec.Heap
import Verif.Spec.Find
import Verif.Proofs.Find
import Verif.Proofs.Heap

/-!
# C06: is_heap recognises exactly the heaps

False for the code: the leaf test (sprout/algorithm/is_heap_until.hpp 27) reports an offset unless the
element is *strictly less* than its parent, so heaps with equivalent elements are rejected
(`C06_is_heap_false`: `[5,5]`). The partial theorems cover all ranges in which no element is equivalent to
its parent.
-/

namespace Sprout
variable {α : Type}

/-- `i` is the first offset whose element compares greater than its parent. -/
def Spec.HeapUntil (comp : α → α → Bool) (xs : List α) (r : Nat) : Prop :=
  Spec.FirstIdx (fun i => 0 < i ∧ ∃ x y, xs[(i - 1) / 2]? = some x ∧ xs[i]? = some y ∧ comp x y = true) xs.length r

def IsHeapFull (f : (Nat → Nat → Bool) → List Nat → Nat → Nat → Option Bool) : Prop :=
  ∀ comp, StrictWeak comp → ∀ pre xs post : List Nat,
    ∃ b, f comp (pre ++ xs ++ post) pre.length (pre.length + xs.length) = some b ∧ (b = true ↔ Spec.IsHeap comp xs)

def IsHeapUntilFull (f : (Nat → Nat → Bool) → List Nat → Nat → Nat → Option Nat) : Prop :=
  ∀ comp, StrictWeak comp → ∀ pre xs post : List Nat,
    ∃ r, f comp (pre ++ xs ++ post) pre.length (pre.length + xs.length) = some (pre.length + r) ∧ Spec.HeapUntil comp xs r

/-- What the code computes: the first offset that is not strictly less than its parent. -/
theorem C06_is_heap_until_strict (comp : α → α → Bool) (pre xs post : List α) :
    ∃ r, isHeapUntil comp (pre ++ xs ++ post) pre.length (pre.length + xs.length) = some (pre.length + r) ∧
      Spec.FirstIdx (fun i => 0 < i ∧ ∃ x y, xs[(i - 1) / 2]? = some x ∧ xs[i]? = some y ∧ comp y x = false) xs.length r := by
  unfold isHeapUntil
  rw [Nat.add_sub_cancel_left]
  by_cases h : xs.length < 2
  · rw [if_pos h]
    refine ⟨xs.length, rfl, Nat.le_refl _, ?_, fun h => by omega⟩
    rintro k hk ⟨h0, _⟩; omega
  · rw [if_neg h]
    obtain ⟨r, h1, h2⟩ := halveFind_spec (test := fun i _ => heapTest comp (pre ++ xs ++ post) pre.length i)
      (t := fun i => (heapTest comp (pre ++ xs ++ post) pre.length i).getD false) _ 1 xs.length rfl (by omega) (by
        intro k hk hk'
        simp only [heapTest, rd, seg_get pre xs post k hk', seg_get pre xs post ((k - 1) / 2) (by omega)]
        rfl)
    have hv : ∀ k (hk : k < xs.length), (heapTest comp (pre ++ xs ++ post) pre.length k).getD false = !comp xs[k] (xs[(k - 1) / 2]'(by omega)) := by
      intro k hk
      simp only [heapTest, rd, seg_get pre xs post k hk, seg_get pre xs post ((k - 1) / 2) (by omega)]
      rfl
    rw [h1]
    refine ⟨r, rfl, h2.le, ?_, ?_⟩
    · rintro k hk ⟨h0, x, y, hx, hy, hxy⟩
      have hkl : k < xs.length := by have := h2.le; omega
      have := h2.before k (by omega) hk
      rw [hv k hkl] at this
      rw [List.getElem?_eq_getElem (by omega)] at hx hy
      cases hx; cases hy
      simp [hxy] at this
    · intro hr
      have := h2.at_ hr
      have h3 := h2.ge
      rw [hv r hr] at this
      exact ⟨by omega, _, _, List.getElem?_eq_getElem (by omega), List.getElem?_eq_getElem hr, by simpa using this⟩

/-- no element is equivalent to its parent -/
def NoTies (comp : α → α → Bool) (xs : List α) : Prop :=
  ∀ i, 0 < i → ∀ x y, xs[(i - 1) / 2]? = some x → xs[i]? = some y → comp x y = true ∨ comp y x = true

/-- Missing compared to `IsHeapUntilFull`: ranges with an element equivalent to its parent. -/
theorem C06_is_heap_until_partial (comp : α → α → Bool) (hc : StrictWeak comp) (pre xs post : List α) (hn : NoTies comp xs) :
    ∃ r, isHeapUntil comp (pre ++ xs ++ post) pre.length (pre.length + xs.length) = some (pre.length + r) ∧
      Spec.HeapUntil comp xs r := by
  obtain ⟨r, h1, h2, h3, h4⟩ := C06_is_heap_until_strict comp pre xs post
  refine ⟨r, h1, h2, ?_, ?_⟩
  · rintro k hk ⟨h0, x, y, hx, hy, hxy⟩
    exact h3 k hk ⟨h0, x, y, hx, hy, hc.asymm hxy⟩
  · intro hr
    obtain ⟨h0, x, y, hx, hy, hxy⟩ := h4 hr
    refine ⟨h0, x, y, hx, hy, ?_⟩
    rcases hn r h0 x y hx hy with h | h
    · exact h
    · rw [hxy] at h; cases h

theorem heapUntil_end_iff {comp : α → α → Bool} {xs : List α} {r : Nat} (h : Spec.HeapUntil comp xs r) :
    r = xs.length ↔ Spec.IsHeap comp xs := by
  obtain ⟨h2, h3, h4⟩ := h
  constructor
  · rintro rfl i h0 hi
    by_contra hcon
    exact h3 i hi ⟨h0, _, _, List.getElem?_eq_getElem (by omega), List.getElem?_eq_getElem hi, by simpa using hcon⟩
  · intro hh
    by_contra hr
    obtain ⟨h0, x, y, hx, hy, hxy⟩ := h4 (by omega)
    rw [List.getElem?_eq_getElem (by omega)] at hx hy
    cases hx; cases hy
    rw [hh r h0 (by omega)] at hxy; cases hxy

/-- Missing compared to `IsHeapFull`: ranges with an element equivalent to its parent. -/
theorem C06_is_heap_partial (comp : α → α → Bool) (hc : StrictWeak comp) (pre xs post : List α) (hn : NoTies comp xs) :
    ∃ b, isHeap comp (pre ++ xs ++ post) pre.length (pre.length + xs.length) = some b ∧ (b = true ↔ Spec.IsHeap comp xs) := by
  obtain ⟨r, h1, h2⟩ := C06_is_heap_until_partial comp hc pre xs post hn
  unfold isHeap
  rw [h1]
  refine ⟨_, rfl, ?_⟩
  rw [← heapUntil_end_iff h2]
  simp

/-- One direction holds without restriction: whatever is accepted is a heap. -/
theorem C06_is_heap_sound_partial (comp : α → α → Bool) (hc : StrictWeak comp) (pre xs post : List α)
    (h : isHeap comp (pre ++ xs ++ post) pre.length (pre.length + xs.length) = some true) : Spec.IsHeap comp xs := by
  obtain ⟨r, h1, h2, h3, h4⟩ := C06_is_heap_until_strict comp pre xs post
  unfold isHeap at h
  rw [h1] at h
  have hr : r = xs.length := by simpa using h
  subst hr
  intro i h0 hi
  by_contra hcon
  exact h3 i hi ⟨h0, _, _, List.getElem?_eq_getElem (by omega), List.getElem?_eq_getElem hi, hc.asymm (by simpa using hcon)⟩

theorem isHeap_five_five : isHeap (fun a b : Nat => decide (a < b)) [5, 5] 0 2 = some false ∧
    isHeapUntil (fun a b : Nat => decide (a < b)) [5, 5] 0 2 = some 1 := by
  have h : isHeapUntil (fun a b : Nat => decide (a < b)) [5, 5] 0 2 = some 1 := by
    unfold isHeapUntil
    rw [if_neg (by omega), halveFind]
    simp [heapTest, rd]
  exact ⟨by unfold isHeap; rw [h]; rfl, h⟩

/-- The full statements fail: `[5,5]` is a heap but is rejected. -/
theorem C06_is_heap_false : ¬ IsHeapFull isHeap ∧ ¬ IsHeapUntilFull isHeapUntil := by
  have hsw : StrictWeak (fun a b : Nat => decide (a < b)) :=
    ⟨by simp, fun a b c h1 h2 => by simp at *; omega, fun a b c h => by simp at *; omega⟩
  constructor
  · intro h
    obtain ⟨b, h1, h2⟩ := h _ hsw [] [5, 5] []
    have := isHeap_five_five.1
    simp only [List.length_nil, List.nil_append, List.append_nil, List.length_cons, Nat.zero_add] at h1
    rw [this] at h1
    cases h1
    have := h2.mpr (by decide)
    cases this
  · intro h
    obtain ⟨r, h1, h2⟩ := h _ hsw [] [5, 5] []
    have h3 := isHeap_five_five.2
    simp only [List.length_nil, List.nil_append, List.append_nil, List.length_cons, Nat.zero_add] at h1
    rw [h3] at h1
    cases h1
    have := (heapUntil_end_iff h2).mpr (by decide)
    cases this

/-! Non-trivial instances: `[5,3,4]` accepted, no ties. -/

example : ∃ b, isHeap (fun a b : Nat => decide (a < b)) [9, 5, 3, 4, 9] 1 4 = some b ∧
    (b = true ↔ Spec.IsHeap (fun a b : Nat => decide (a < b)) [5, 3, 4]) :=
  C06_is_heap_partial _
    ⟨by simp, fun a b c h1 h2 => by simp at *; omega, fun a b c h => by simp at *; omega⟩ [9] [5, 3, 4] [9] (by
    intro i h0 x y hx hy
    have hi : i = 1 ∨ i = 2 ∨ 3 ≤ i := by omega
    rcases hi with rfl | rfl | hi
    · simp at hx hy; subst hx hy; decide
    · simp at hx hy; subst hx hy; decide
    · rw [List.getElem?_eq_none (by simpa using hi)] at hy; cases hy)

end Sprout
