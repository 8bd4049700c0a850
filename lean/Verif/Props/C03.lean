import Verif.Proofs.NthElement

/-!
# C03: nth_element places the n-th order statistic
-/

namespace Sprout
variable {α : Type}

/-- With `nth = first + k`: a permutation, with a middle element `v` at index `k`, nothing greater before
it and nothing smaller after it. -/
theorem C03_nth_element (comp : α → α → Bool) (hc : StrictWeak comp) (pre xs post : List α) (k : Nat) (hk : k < xs.length) :
    ∃ as v bs, nthElement comp (pre ++ xs ++ post) pre.length (pre.length + k) (pre.length + xs.length) = some (pre ++ (as ++ v :: bs) ++ post) ∧
      (as ++ v :: bs).Perm xs ∧ as.length = k ∧ (∀ x ∈ as, comp v x = false) ∧ (∀ x ∈ bs, comp x v = false) := by
  obtain ⟨r, h1, h2, v, h3, h4, h5⟩ := nthElement_spec hc (pre.length + k) _ (pre ++ xs ++ post) pre.length (pre.length + xs.length) rfl
    (by omega) (by omega) (by simp)
  obtain ⟨ys, rfl, h6⟩ := h2.segment
  have hyl : ys.length = xs.length := h6.length_eq
  have hky : k < ys.length := by omega
  rw [seg_get pre ys post k hky] at h3
  have hv : ys[k] = v := by simpa using h3
  have e : ys = ys.take k ++ v :: ys.drop (k + 1) := by
    rw [← hv, List.cons_getElem_drop_succ, List.take_append_drop]
  refine ⟨ys.take k, v, ys.drop (k + 1), by rw [← e]; exact h1, by rw [← e]; exact h6, by simp; omega, ?_, ?_⟩
  · intro x hx
    obtain ⟨i, hi, rfl⟩ := List.getElem_of_mem hx
    rw [List.length_take] at hi
    refine h4 (pre.length + i) _ (by omega) (by omega) ?_
    rw [seg_get pre ys post i (by omega)]; simp
  · intro x hx
    obtain ⟨i, hi, rfl⟩ := List.getElem_of_mem hx
    rw [List.length_drop] at hi
    refine h5 (pre.length + (k + 1 + i)) _ (by omega) (by omega) ?_
    rw [seg_get pre ys post (k + 1 + i) (by omega)]; simp

/-- `nth == last` changes nothing. -/
theorem C03_nth_last (comp : α → α → Bool) (m : List α) (first last : Nat) : nthElement comp m first last last = some m := by
  rw [nthElement, if_pos rfl]

/-! A non-trivial instance: nine elements, median. -/
example : ∃ as v bs, nthElement (fun a b : Nat => decide (a < b)) [9, 5, 3, 8, 3, 1, 4, 1, 7, 6, 0] 1 5 10 = some ([9] ++ (as ++ v :: bs) ++ [0]) ∧
    (as ++ v :: bs).Perm [5, 3, 8, 3, 1, 4, 1, 7, 6] ∧ as.length = 4 ∧ (∀ x ∈ as, decide (v < x) = false) ∧ (∀ x ∈ bs, decide (x < v) = false) :=
  C03_nth_element _ ⟨by simp, fun a b c h1 h2 => by simp at *; omega, fun a b c h => by simp at *; omega⟩ [9] [5, 3, 8, 3, 1, 4, 1, 7, 6] [0] 4 (by decide)

end Sprout
