import Verif.Proofs.SetIter
import Verif.Props.C13

/-!
# C66: merge and set operation iterators yield merges, unions, intersections and differences

A loop over `merge_iterator`, `set_union_iterator`, `set_intersection_iterator`, `set_difference_iterator` or
`set_symmetric_difference_iterator` never leaves the two ranges, ends, and sees exactly what the corresponding algorithm writes:
for sorted ranges a sorted list whose classes of equivalent elements are those of the stable merge, multiset union, intersection or difference.
-/

namespace Sprout
open Spec
variable {α : Type}

namespace SetIter

/-- what the iterator of each kind lists -/
def listOf (comp : α → α → Bool) : Kind → List α → List α → List α
  | .merge => zm (mergeDec comp) true true
  | .union => zm (unionDec comp) true true
  | .inter => zm (intersectionDec comp) false false
  | .diff => zm (differenceDec comp) true false
  | .symm => zm (symmetricDifferenceDec comp) true true

/-- the algorithm of each kind (C07, C13) -/
def algorithm (comp : α → α → Bool) : Kind → List α → Nat → Nat → Nat → Nat → Nat → Option (List α × Nat)
  | .merge => merge comp
  | .union => setUnion comp
  | .inter => setIntersection comp
  | .diff => setDifference comp
  | .symm => setSymmetricDifference comp

theorem yields (k : Kind) (comp : α → α → Bool) (m1 m2 xs ys : List α) (i j last1 last2 : Nat) (h1 : At m1 last1 i xs) (h2 : At m2 last2 j ys) :
    ∃ it, construct k comp m1 m2 i last1 j last2 = some it ∧ Y k comp m1 m2 last1 last2 it (listOf comp k xs ys) := by
  cases k with
  | merge => exact merge_yields _ xs ys i j rfl h1 h2
  | union => exact union_yields _ xs ys i j rfl h1 h2
  | inter => exact inter_yields _ xs ys i j rfl h1 h2
  | diff => exact diff_yields _ xs ys i j rfl h1 h2
  | symm =>
    obtain ⟨xs', ys', i', j', a1, a2, a3, a4, a5, e⟩ := findSymm_spec (comp := comp) _ xs ys i j rfl h1 h2
    obtain ⟨it, e1, e2⟩ := symm_yields _ xs' ys' i' j' rfl a1 a2 a5
    exact ⟨it, by simp [construct, e, e1], by simpa only [listOf, a4] using e2⟩

theorem iterate_eq (k : Kind) (comp : α → α → Bool) (m1 m2 xs ys : List α) (a b : Nat) (h1 : Stored m1 a xs) (h2 : Stored m2 b ys) :
    iterate k comp m1 m2 a (a + xs.length) b (b + ys.length) = some (listOf comp k xs ys) := by
  obtain ⟨it, e1, e2⟩ := yields k comp m1 m2 xs ys a b _ _ ⟨h1, rfl⟩ ⟨h2, rfl⟩
  obtain ⟨e, e3, -⟩ := yields k comp m1 m2 [] [] (a + xs.length) (b + ys.length) (a + xs.length) (b + ys.length) ⟨by intro i h; simp at h, rfl⟩ ⟨by intro i h; simp at h, rfl⟩
  have he : (fun it => eqIt it e) = atEnd (a + xs.length) (b + ys.length) := by
    have : e.1 = a + xs.length ∧ e.2.1 = b + ys.length := by
      cases k <;> simp [construct, mk, leftTest, checkInLeft, findIntersection, findDifference, findSymmetricDifference, dbl, finIf] at e3 <;> subst e <;> exact ⟨rfl, rfl⟩
    funext it; simp [atEnd, eqIt, this.1, this.2]
  simp only [iterate, e1, e3, Option.bind_eq_bind, Option.bind_some, he]
  exact drain_eq e2

/-- the result of an algorithm determines the list -/
theorem algorithm_eq (k : Kind) (comp : α → α → Bool) (m xs ys : List α) (a b d : Nat) (h1 : Stored m a xs) (h2 : Stored m b ys)
    (h3 : d + (listOf comp k xs ys).length ≤ a ∨ a + xs.length ≤ d) (h4 : d + (listOf comp k xs ys).length ≤ b ∨ b + ys.length ≤ d)
    (h5 : d + (listOf comp k xs ys).length ≤ m.length) :
    algorithm comp k m a (a + xs.length) b (b + ys.length) d = some (overwrite m d (listOf comp k xs ys), d + (listOf comp k xs ys).length) := by
  cases k <;> exact merge2_spec _ _ _ xs ys m a b d h1 h2 h3 h4 h5

theorem overwrite_inj {m zs zs' : List α} {d : Nat} (hl : zs.length = zs'.length) (h : overwrite m d zs = overwrite m d zs') : zs = zs' := by
  unfold overwrite at h
  rw [hl] at h
  exact List.append_cancel_left (List.append_cancel_right h)

theorem of_setOp {k : Kind} {comp : α → α → Bool} {F : List α → List α → List α} (h : SetOp (algorithm comp k) comp F) (xs ys : List α)
    (hx : SortedBy comp xs) (hy : SortedBy comp ys) :
    SortedBy comp (listOf comp k xs ys) ∧ ∀ v, cls comp v (listOf comp k xs ys) = F (cls comp v xs) (cls comp v ys) := by
  obtain ⟨zs, s1, s2, s3⟩ := h xs ys hx hy
  have hz : zs = listOf comp k xs ys := by
    have st1 : Stored (xs ++ ys ++ (zs ++ listOf comp k xs ys)) 0 xs := by
      intro i hi; simp [List.getElem?_append, hi, show i < xs.length + ys.length by omega]
    have st2 : Stored (xs ++ ys ++ (zs ++ listOf comp k xs ys)) xs.length ys := by
      intro i hi; simp [List.getElem?_append, hi]
    have r1 := s3 _ 0 xs.length (xs.length + ys.length) st1 st2 (by omega) (by omega) (by simp; omega)
    have r2 := algorithm_eq k comp _ xs ys 0 xs.length (xs.length + ys.length) st1 st2 (by omega) (by omega) (by simp; omega)
    rw [r1] at r2
    simp only [Option.some.injEq, Prod.mk.injEq] at r2
    exact overwrite_inj (by omega) r2.1
  rw [← hz]
  exact ⟨s1, s2⟩

end SetIter
open SetIter

/-- For any comparison whatsoever a loop over the iterator sees exactly the elements that the algorithm writes: the number of them is the
number of positions written and they are what is found there -/
theorem C66_same_as_algorithm (k : Kind) (comp : α → α → Bool) (xs ys : List α) : ∃ zs : List α,
    (∀ (m1 m2 : List α) (a b : Nat), Stored m1 a xs → Stored m2 b ys → iterate k comp m1 m2 a (a + xs.length) b (b + ys.length) = some zs) ∧
    ∀ (m : List α) (a b d : Nat), Stored m a xs → Stored m b ys → (d + zs.length ≤ a ∨ a + xs.length ≤ d) → (d + zs.length ≤ b ∨ b + ys.length ≤ d) →
      d + zs.length ≤ m.length → algorithm comp k m a (a + xs.length) b (b + ys.length) d = some (overwrite m d zs, d + zs.length) :=
  ⟨listOf comp k xs ys, fun m1 m2 a b h1 h2 => iterate_eq k comp m1 m2 xs ys a b h1 h2,
    fun m a b d h1 h2 h3 h4 h5 => algorithm_eq k comp m xs ys a b d h1 h2 h3 h4 h5⟩

/-- a loop over the iterator sees a sorted list with classes given by `F` -/
def IterOp (k : Kind) (comp : α → α → Bool) (F : List α → List α → List α) : Prop :=
  ∀ (m1 m2 xs ys : List α) (a b : Nat), SortedBy comp xs → SortedBy comp ys → Stored m1 a xs → Stored m2 b ys →
    ∃ zs, iterate k comp m1 m2 a (a + xs.length) b (b + ys.length) = some zs ∧ SortedBy comp zs ∧
      ∀ v, cls comp v zs = F (cls comp v xs) (cls comp v ys)

theorem C66_set_union_iterator (comp : α → α → Bool) (hc : StrictWeak comp) : IterOp .union comp (fun a b => a ++ b.drop a.length) :=
  fun m1 m2 xs ys a b hx hy h1 h2 => ⟨_, iterate_eq .union comp m1 m2 xs ys a b h1 h2, of_setOp (k := .union) (C13_set_union comp hc) xs ys hx hy⟩

theorem C66_set_intersection_iterator (comp : α → α → Bool) (hc : StrictWeak comp) : IterOp .inter comp (fun a b => a.take b.length) :=
  fun m1 m2 xs ys a b hx hy h1 h2 => ⟨_, iterate_eq .inter comp m1 m2 xs ys a b h1 h2, of_setOp (k := .inter) (C13_set_intersection comp hc) xs ys hx hy⟩

theorem C66_set_difference_iterator (comp : α → α → Bool) (hc : StrictWeak comp) : IterOp .diff comp (fun a b => a.drop b.length) :=
  fun m1 m2 xs ys a b hx hy h1 h2 => ⟨_, iterate_eq .diff comp m1 m2 xs ys a b h1 h2, of_setOp (k := .diff) (C13_set_difference comp hc) xs ys hx hy⟩

theorem C66_set_symmetric_difference_iterator (comp : α → α → Bool) (hc : StrictWeak comp) :
    IterOp .symm comp (fun a b => a.drop b.length ++ b.drop a.length) :=
  fun m1 m2 xs ys a b hx hy h1 h2 => ⟨_, iterate_eq .symm comp m1 m2 xs ys a b h1 h2, of_setOp (k := .symm) (C13_set_symmetric_difference comp hc) xs ys hx hy⟩

/-- the merge is stable, the first range before the second -/
theorem C66_merge_iterator (comp : α → α → Bool) (hc : StrictWeak comp) (m1 m2 xs ys : List α) (a b : Nat) (hx : SortedBy comp xs) (hy : SortedBy comp ys)
    (h1 : Stored m1 a xs) (h2 : Stored m2 b ys) :
    ∃ zs, iterate .merge comp m1 m2 a (a + xs.length) b (b + ys.length) = some zs ∧ StableSorted comp (xs ++ ys) zs ∧ zs.Perm (xs ++ ys) := by
  have st1 : Stored (xs ++ ys ++ (xs ++ ys)) 0 xs := by
    intro i hi; simp [List.getElem?_append, hi, show i < xs.length + ys.length by omega]
  have st2 : Stored (xs ++ ys ++ (xs ++ ys)) xs.length ys := by
    intro i hi; simp [List.getElem?_append, hi]
  obtain ⟨zs, r1, s, p⟩ := C07_merge comp hc _ xs ys 0 xs.length (xs.length + ys.length) st1 st2 (by omega) (by omega) (by simp; omega) hx hy
  have hl : zs.length = xs.length + ys.length := by simpa using p.length_eq
  have hl' : (listOf comp .merge xs ys).length = xs.length + ys.length := by
    simp only [listOf]
    clear r1 s p hl h1 h2 st1 st2 hx hy
    induction hn : xs.length + ys.length using Nat.strongRecOn generalizing xs ys with
    | ind n ih =>
      cases xs with
      | nil => simp [zm] at hn ⊢; omega
      | cons x xs => cases ys with
        | nil => rw [zm_nil_right]; simpa using hn
        | cons y ys =>
          simp only [List.length_cons] at hn
          rw [zm]
          by_cases h : comp y x = true
          · have := ih (xs.length + 1 + ys.length) (by omega) (x :: xs) ys (by simp)
            simp [mergeDec, h, em, this]; omega
          · have := ih (xs.length + (ys.length + 1)) (by omega) xs (y :: ys) (by simp)
            simp [mergeDec, h, em, this]; omega
  have r2 := algorithm_eq .merge comp _ xs ys 0 xs.length (xs.length + ys.length) st1 st2 (by omega) (by omega) (by simp; omega)
  have r1 : algorithm comp .merge (xs ++ ys ++ (xs ++ ys)) 0 (0 + xs.length) xs.length (xs.length + ys.length) (xs.length + ys.length) = _ := r1
  rw [r1] at r2
  simp only [Option.some.injEq, Prod.mk.injEq] at r2
  have hz := overwrite_inj (by omega) r2.1
  exact ⟨zs, by rw [hz]; exact iterate_eq .merge comp m1 m2 xs ys a b h1 h2, s, p⟩

/-- {1,3,3,5} and {2,3,6} inside larger blocks -/
example : iterate .union (fun a b : Nat => decide (a < b)) [9, 1, 3, 3, 5, 9] [2, 3, 6, 0] 1 5 0 3 = some [1, 2, 3, 3, 5, 6] ∧
    iterate .symm (fun a b : Nat => decide (a < b)) [9, 1, 3, 3, 5, 9] [2, 3, 6, 0] 1 5 0 3 = some [1, 2, 3, 5, 6] ∧
    iterate .diff (fun a b : Nat => decide (a < b)) [9, 1, 3, 3, 5, 9] [2, 3, 6, 0] 1 5 0 3 = some [1, 3, 5] ∧
    iterate .inter (fun a b : Nat => decide (a < b)) [9, 1, 3, 3, 5, 9] [2, 3, 6, 0] 1 5 0 3 = some [3] ∧
    iterate .merge (fun a b : Nat => decide (a < b)) [9, 1, 3, 3, 5, 9] [2, 3, 6, 0] 1 5 0 3 = some [1, 2, 3, 3, 3, 5, 6] := by
  have h1 : Stored [9, 1, 3, 3, 5, 9] 1 [1, 3, 3, 5] := by unfold Stored; decide
  have h2 : Stored [2, 3, 6, 0] 0 [2, 3, 6] := by unfold Stored; decide
  refine ⟨?_, ?_, ?_, ?_, ?_⟩ <;> (refine (iterate_eq _ _ _ _ _ _ _ _ h1 h2).trans ?_) <;> simp [listOf, zm, unionDec, symmetricDifferenceDec, differenceDec, intersectionDec, mergeDec, em]

end Sprout
