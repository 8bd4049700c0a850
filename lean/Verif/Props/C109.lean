import Verif.Proofs.FixedMerge
import Verif.Props.C66
import Verif.Props.C10

/-!
# C109: merging, set operations and permutations that return containers

`sprout::fixed`: `merge`, `inplace_merge`, `set_union`, `set_intersection`, `set_difference`, `set_symmetric_difference`,
`next_permutation`, `prev_permutation`.
-/

namespace Sprout

open ContOp FixedAlg Spec
open SetIter (listOf iterate_eq of_setOp)

variable {α : Type} [Inhabited α] {comp : α → α → Bool}

/-- the operation writes over the beginning of the window, as far as there is room, a sorted list whose classes of equivalent
elements are given by `F` -/
def FixedSetOp (f : List α → List α → Cont α → Option (Cont α)) (comp : α → α → Bool) (F : List α → List α → List α) : Prop :=
  ∀ (xs ys : List α), SortedBy comp xs → SortedBy comp ys →
    ∃ zs, SortedBy comp zs ∧ (∀ v, cls comp v zs = F (cls comp v xs) (cls comp v ys)) ∧
      ∀ c : Cont α, c.Ok → Rewrites (f xs ys c) c (writeFront c.vis zs)

theorem listOf_merge (hc : StrictWeak comp) (xs ys : List α) (hx : SortedBy comp xs) (hy : SortedBy comp ys) :
    StableSorted comp (xs ++ ys) (listOf comp .merge xs ys) := by
  have st1 : Stored (xs ++ ys) 0 xs := by intro i hi; simp [List.getElem?_append, hi]
  have st2 : Stored (xs ++ ys) xs.length ys := by intro i hi; simp [List.getElem?_append]
  obtain ⟨zs, h1, h2, -⟩ := C66_merge_iterator comp hc _ _ xs ys 0 xs.length hx hy st1 st2
  rw [iterate_eq .merge comp _ _ xs ys 0 xs.length st1 st2] at h1
  cases h1
  exact h2

/-- `merge`: the stable merge of the two ranges, as far as there is room -/
theorem C109_merge (hc : StrictWeak comp) (xs ys : List α) (hx : SortedBy comp xs) (hy : SortedBy comp ys) :
    ∃ zs, StableSorted comp (xs ++ ys) zs ∧ zs.Perm (xs ++ ys) ∧ ∀ c : Cont α, c.Ok → Rewrites (mergeTo comp xs ys c) c (writeFront c.vis zs) :=
  ⟨_, listOf_merge hc xs ys hx hy, StableSorted.perm hc (listOf_merge hc xs ys hx hy).2, fun _ h => mergeImpl_rewrites h _ _ _ _ _⟩

/-- `inplace_merge`: two sorted parts become one, the order of equivalent elements is kept -/
theorem C109_inplace_merge (hc : StrictWeak comp) {c : Cont α} (h : c.Ok) {m : ℕ} (hm : m ≤ c.vis.length)
    (h1 : SortedBy comp (c.vis.take m)) (h2 : SortedBy comp (c.vis.drop m)) :
    ∃ w, Rewrites (inplaceMergeTo comp m c) c w ∧ StableSorted comp c.vis w ∧ w.Perm c.vis := by
  obtain ⟨zs, s, p, r⟩ := C109_merge hc _ _ h1 h2
  rw [List.take_append_drop] at s p
  have := r c h
  have hl := p.length_eq
  rw [writeFront, List.take_of_length_le hl.le, List.drop_of_length_le hl.ge, List.append_nil] at this
  refine ⟨zs, ?_, s, p⟩
  rw [inplaceMergeTo, elems_eq h]
  simp only [Option.bind_eq_bind, Option.bind_some]
  rw [if_pos hm]
  exact this

/-- `set_union`: of each class the elements of the first range, then those of the second by which it has more -/
theorem C109_set_union (hc : StrictWeak comp) : FixedSetOp (setUnionTo comp) comp (fun a b => a ++ b.drop a.length) := by
  intro xs ys hx hy
  obtain ⟨s, k⟩ := of_setOp (k := .union) (C13_set_union comp hc) xs ys hx hy
  exact ⟨_, s, k, fun _ h => mergeImpl_rewrites h _ _ _ _ _⟩

/-- `set_intersection`: of each class as many elements of the first range as the smaller number -/
theorem C109_set_intersection (hc : StrictWeak comp) : FixedSetOp (setIntersectionTo comp) comp (fun a b => a.take b.length) := by
  intro xs ys hx hy
  obtain ⟨s, k⟩ := of_setOp (k := .inter) (C13_set_intersection comp hc) xs ys hx hy
  exact ⟨_, s, k, fun _ h => mergeImpl_rewrites h _ _ _ _ _⟩

/-- `set_difference`: of each class the elements of the first range by which it has more -/
theorem C109_set_difference (hc : StrictWeak comp) : FixedSetOp (setDifferenceTo comp) comp (fun a b => a.drop b.length) := by
  intro xs ys hx hy
  obtain ⟨s, k⟩ := of_setOp (k := .diff) (C13_set_difference comp hc) xs ys hx hy
  exact ⟨_, s, k, fun _ h => mergeImpl_rewrites h _ _ _ _ _⟩

/-- `set_symmetric_difference`: of each class the elements by which one range has more -/
theorem C109_set_symmetric_difference (hc : StrictWeak comp) :
    FixedSetOp (setSymmetricDifferenceTo comp) comp (fun a b => a.drop b.length ++ b.drop a.length) := by
  intro xs ys hx hy
  obtain ⟨s, k⟩ := of_setOp (k := .symm) (C13_set_symmetric_difference comp hc) xs ys hx hy
  exact ⟨_, s, k, fun _ h => mergeImpl_rewrites h _ _ _ _ _⟩

/-- the container and the flag of a permutation -/
def RewritesFlag (r : Option (Cont α × Bool)) (c : Cont α) (w : List α) (b : Bool) : Prop :=
  Rewrites (r.map (·.1)) c w ∧ r.map (·.2) = some b

/-- `next_permutation`: the next greater arrangement; when there is none, the sorted one and `false` -/
theorem C109_next_permutation (hc : StrictWeak comp) {c : Cont α} (h : c.Ok) :
    ∃ zs b, RewritesFlag (nextPermutationTo comp c) c zs b ∧ zs.Perm c.vis ∧
      (b = true ↔ ∃ ys, ys.Perm c.vis ∧ LexLt comp c.vis ys) ∧
      (b = true → LexLt comp c.vis zs ∧ ∀ ys, ys.Perm c.vis → LexLt comp c.vis ys → ¬ LexLt comp ys zs) ∧
      (b = false → SortedBy comp zs ∧ ∀ ys, ys.Perm c.vis → ¬ LexLt comp ys zs) := by
  obtain ⟨zs, b, h1, h2⟩ := C10_next_permutation comp hc [] c.vis []
  refine ⟨zs, b, ?_, h2⟩
  simp only [List.append_nil, List.nil_append, List.length_nil, Nat.zero_add] at h1
  obtain ⟨d, d1, d2, d3⟩ := permImpl_eq h (fun l i j => cmpAt comp l i j) h1
  rw [nextPermutationTo, d1]
  exact ⟨(rewrites_iff h).2 ⟨d, rfl, d2, d3⟩, rfl⟩

/-- `prev_permutation`: the next smaller arrangement; when there is none, the reversely sorted one and `false` -/
theorem C109_prev_permutation (hc : StrictWeak comp) {c : Cont α} (h : c.Ok) :
    ∃ zs b, RewritesFlag (prevPermutationTo comp c) c zs b ∧ zs.Perm c.vis ∧
      (b = true ↔ ∃ ys, ys.Perm c.vis ∧ LexLt comp ys c.vis) ∧
      (b = true → LexLt comp zs c.vis ∧ ∀ ys, ys.Perm c.vis → LexLt comp ys c.vis → ¬ LexLt comp zs ys) ∧
      (b = false → SortedBy (fun x y => comp y x) zs ∧ ∀ ys, ys.Perm c.vis → ¬ LexLt comp zs ys) := by
  obtain ⟨zs, b, h1, h2⟩ := C10_prev_permutation comp hc [] c.vis []
  refine ⟨zs, b, ?_, h2⟩
  simp only [List.append_nil, List.nil_append, List.length_nil, Nat.zero_add] at h1
  obtain ⟨d, d1, d2, d3⟩ := permImpl_eq h (fun l i j => cmpAt comp l j i) h1
  rw [prevPermutationTo, d1]
  exact ⟨(rewrites_iff h).2 ⟨d, rfl, d2, d3⟩, rfl⟩

/-! ## examples -/

private def lt (x y : ℕ) : Bool := x < y

example : mergeTo lt [1, 3, 5] [2, 3] (.sub (.array [9, 0, 0, 0, 0, 0, 8]) 1 6) = some (.sub (.array [9, 1, 2, 3, 3, 5, 8]) 1 6) := by decide +kernel
example : mergeTo lt [1, 3, 5] [2, 3] (.array [0, 0, 0]) = some (.array [1, 2, 3]) := by decide +kernel
example : inplaceMergeTo lt 2 (.array [1, 4, 2, 3]) = some (.array [1, 2, 3, 4]) := by decide +kernel
example : setUnionTo lt [1, 3, 3] [2, 3] (.array [0, 0, 0, 0, 0]) = some (.array [1, 2, 3, 3, 0]) := by decide +kernel
example : setIntersectionTo lt [1, 3, 3] [2, 3] (.array [0, 0]) = some (.array [3, 0]) := by decide +kernel
example : setDifferenceTo lt [1, 3, 3] [2, 3] (.string [7, 7, 7, 0, 0] 3) = some (.string [1, 3, 7, 0, 0] 3) := by decide +kernel
example : setSymmetricDifferenceTo lt [1, 3, 3] [2, 3] (.array [0, 0, 0, 0]) = some (.array [1, 2, 3, 0]) := by decide +kernel
example : nextPermutationTo lt (.sub (.array [9, 1, 3, 2, 8]) 1 4) = some (.sub (.array [9, 2, 1, 3, 8]) 1 4, true) := by decide +kernel
example : nextPermutationTo lt (.array [3, 2, 1]) = some (.array [1, 2, 3], false) := by decide +kernel
example : prevPermutationTo lt (.array [2, 1, 3]) = some (.array [1, 3, 2], true) := by decide +kernel
example : SortedBy lt [1, 3, 3] ∧ SortedBy lt [2, 3] := by unfold SortedBy lt; decide

end Sprout
