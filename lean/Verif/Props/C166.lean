import Verif.Model.Shrink
import Mathlib.Tactic.Linarith

/-!
# C166: conversions of strings to other capacities

Refuted: `shrink` of a literal without a capacity is ill-formed.
-/

namespace Sprout
open Shrink Str

/-- a string of the capacity `N` -/
def StrOk (x : BStr) (N : Nat) : Prop := x.elems.length = N + 1 ∧ x.len ≤ N ∧ x.elems[x.len]? = some 0

/-- its characters -/
def strChars (x : BStr) : List Int := x.elems.take x.len

/-- `y` is the beginning of `x`, as long as possible, as a string of the capacity `M` -/
def Truncated (x y : BStr) (M : Nat) : Prop := StrOk y M ∧ strChars y = (strChars x).take M

private theorem mapM_some {f : Nat → Option Int} {g : Nat → Int} : ∀ l : List Nat, (∀ i ∈ l, f i = some (g i)) → l.mapM f = some (l.map g)
  | [], _ => rfl
  | a :: l, h => by
    rw [List.mapM_cons, h a (by simp), mapM_some l fun i hi => h i (by simp [hi])]
    rfl

private theorem conv_eq (x : BStr) (N len k : Nat) (hx : x.elems.length = N + 1) (hk : k ≤ N) (hl : len ≤ k) :
    implicitConversion x N len k = some ⟨x.elems.take len ++ List.replicate (k + 1 - len) 0, len⟩ := by
  have h : (List.range k).mapM (fun i => if i < N then x.elems[i]? else some 0) = some ((List.range k).map fun i => x.elems.getD i 0) := by
    apply mapM_some
    intro i hi
    have : i < k := List.mem_range.mp hi
    rw [if_pos (by omega), List.getD_eq_getElem?_getD, List.getElem?_eq_getElem (by omega)]
    rfl
  simp only [implicitConversion, h, Option.bind_eq_bind, Option.bind_some, rawConstruct, Option.some.injEq, BStr.mk.injEq, and_true]
  apply List.ext_getElem
  · simp; omega
  · intro i h1 h2
    simp only [List.length_append, List.length_mapIdx, List.length_map, List.length_range, List.length_singleton] at h1
    by_cases hi : i < k
    · rw [List.getElem_append_left (by simpa using hi)]
      simp only [List.getElem_mapIdx, List.getElem_map, List.getElem_range]
      by_cases hn : i < len
      · rw [if_pos hn, List.getElem_append_left (by simp; omega), List.getElem_take, List.getD_eq_getElem?_getD, List.getElem?_eq_getElem (by omega), Option.getD_some]
      · rw [if_neg hn, List.getElem_append_right (by simp; omega), List.getElem_replicate]
    · rw [List.getElem_append_right (by simpa using hi), List.getElem_append_right (by simp; omega), List.getElem_replicate]
      simp

private theorem widen_eq (x : BStr) (N N2 : Nat) (hx : x.elems.length = N2 + 1) (hl : x.len ≤ N2) (hN : N2 < N) :
    widen x N N2 = some ⟨x.elems.take x.len ++ List.replicate (N + 1 - x.len) 0, x.len⟩ := by
  have h : (List.range N2).mapM (fun i => if i < x.len then x.elems[i]? else some 0) =
      some ((List.range N2).map fun i => if i < x.len then x.elems.getD i 0 else 0) := by
    apply mapM_some
    intro i hi
    have : i < N2 := List.mem_range.mp hi
    split
    · rw [List.getD_eq_getElem?_getD, List.getElem?_eq_getElem (by omega)]
      rfl
    · rfl
  simp only [widen, h, Option.bind_eq_bind, Option.bind_some, Option.some.injEq, BStr.mk.injEq, and_true]
  apply List.ext_getElem
  · simp; omega
  · intro i h1 h2
    by_cases hi : i < N2
    · rw [List.getElem_append_left (by simpa using hi)]
      simp only [List.getElem_map, List.getElem_range]
      by_cases hn : i < x.len
      · rw [if_pos hn, List.getElem_append_left (by simp; omega), List.getElem_take, List.getD_eq_getElem?_getD, List.getElem?_eq_getElem (by omega), Option.getD_some]
      · rw [if_neg hn, List.getElem_append_right (by simp; omega), List.getElem_replicate]
    · rw [List.getElem_append_right (by simpa using hi), List.getElem_append_right (by simp; omega), List.getElem_replicate, List.getElem_replicate]

private theorem capacity_eq (x : BStr) (N M : Nat) (hx : StrOk x N) :
    toCapacity x N M = some ⟨x.elems.take (min M x.len) ++ List.replicate (M + 1 - min M x.len) 0, min M x.len⟩ := by
  obtain ⟨h1, h2, -⟩ := hx
  by_cases h : N < M
  · have hm : min M x.len = x.len := by omega
    simp only [toCapacity, if_pos h, hm, conv_eq x N x.len N h1 (Nat.le_refl _) h2, Option.bind_eq_bind, Option.bind_some]
    rw [widen_eq ⟨x.elems.take x.len ++ List.replicate (N + 1 - x.len) 0, x.len⟩ M N (by simp; omega) h2 h]
    simp only [Option.some.injEq, BStr.mk.injEq, and_true]
    rw [List.take_append_of_le_length (by simp; omega), List.take_take, Nat.min_self]
  · simp only [toCapacity, if_neg h, conv_eq x N (min M x.len) M h1 (by omega) (by omega), Option.bind_eq_bind, Option.bind_some, Nat.lt_irrefl, if_false]

/-- the conversion to any capacity: the first characters, as many as there is room for, followed by zeros -/
theorem C166_convert (x : BStr) (N M : Nat) (hx : StrOk x N) : ∃ y, toCapacity x N M = some y ∧ Truncated x y M ∧ ∀ i, y.len ≤ i → i ≤ M → y.elems[i]? = some 0 := by
  refine ⟨_, capacity_eq x N M hx, ⟨⟨?_, ?_, ?_⟩, ?_⟩, ?_⟩
  · have := hx.1; have := hx.2.1; simp; omega
  · simp
  · have := hx.1; have := hx.2.1
    rw [List.getElem?_append_right (by simp), List.getElem?_replicate]
    simp; omega
  · have := hx.1; have := hx.2.1
    simp only [strChars]
    rw [List.take_append_of_le_length (by simp; omega), List.take_take, List.take_take]
    simp
  · intro i h1 h2
    have := hx.1; have := hx.2.1
    dsimp only at h1
    rw [List.getElem?_append_right (by simp; omega), List.getElem?_replicate]
    simp; omega

/-- `shrink<To>` of strings -/
theorem C166_shrink (x : BStr) (N M : Nat) (hx : StrOk x N) : ∃ y, shrink x N M = some y ∧ Truncated x y M := by
  unfold shrink
  split
  · rename_i h
    subst h
    refine ⟨x, rfl, hx, ?_⟩
    rw [List.take_of_length_le]
    simp [strChars, hx.2.1]
  · obtain ⟨y, h1, h2, -⟩ := C166_convert x N M hx
    exact ⟨y, h1, h2⟩

/-- nothing is lost if there is room -/
theorem C166_room (x : BStr) (N M : Nat) (hx : StrOk x N) (h : x.len ≤ M) : ∃ y, shrink x N M = some y ∧ strChars y = strChars x := by
  obtain ⟨y, h1, h2⟩ := C166_shrink x N M hx
  refine ⟨y, h1, h2.2.trans (List.take_of_length_le ?_)⟩
  simp [strChars]
  omega

private theorem toString_ok (arr : List Int) (h : arr ≠ []) :
    StrOk (Shrink.toString arr) (arr.length - 1) ∧ strChars (Shrink.toString arr) = (arr.take (arr.length - 1)).takeWhile (· ≠ 0) := by
  have hp : 1 ≤ arr.length := List.length_pos_of_ne_nil h
  have hle : ((arr.take (arr.length - 1)).takeWhile (· ≠ 0)).length ≤ arr.length - 1 := by
    have := (List.takeWhile_sublist (fun c : Int => decide (c ≠ 0)) (l := arr.take (arr.length - 1))).length_le
    rw [List.length_take] at this
    omega
  have hpre := List.takeWhile_prefix (fun c : Int => decide (c ≠ 0)) (l := arr.take (arr.length - 1))
  set s := arr.take (arr.length - 1) with hs
  have hsl : s.length = arr.length - 1 := by rw [hs, List.length_take]; omega
  set t := s.takeWhile (· ≠ 0) with ht
  have hu : Shrink.toString arr = ⟨s.mapIdx (fun i a => if i < t.length then a else 0) ++ [0], t.length⟩ := rfl
  rw [hu]
  refine ⟨⟨by simp [hsl], hle, ?_⟩, ?_⟩
  · dsimp only
    by_cases he : t.length < s.length
    · rw [List.getElem?_append_left (by simpa using he), List.getElem?_mapIdx]
      simp [he]
    · rw [List.getElem?_append_right (by simpa using he)]
      have : t.length = s.length := by omega
      simp [this]
  · simp only [strChars]
    rw [List.take_append_of_le_length (by simp; omega)]
    apply List.ext_getElem
    · simp; omega
    · intro i h1 h2
      simp only [List.getElem_take, List.getElem_mapIdx, if_pos h2]
      exact (hpre.getElem h2).symm

/-- `shrink<To>` of literals -/
theorem C166_literal_partial (arr : List Int) (h : arr ≠ []) (M : Nat) :
    ∃ y, shrinkArr arr M = some y ∧ StrOk y M ∧ strChars y = ((arr.take (arr.length - 1)).takeWhile (· ≠ 0)).take M := by
  obtain ⟨h1, h2⟩ := toString_ok arr h
  obtain ⟨y, h3, h4, h5⟩ := C166_shrink _ _ M h1
  exact ⟨y, h3, h4, by rw [h5, h2]⟩

/-- `shrink` of literals without a capacity is ill-formed. What is missing in `C166_literal_partial` is this function. -/
theorem C166_holder_refuted (arr : List Int) (h : arr ≠ []) : shrinkArrHolder arr = none := by
  have : 1 ≤ arr.length := List.length_pos_of_ne_nil h
  simp only [shrinkArrHolder, returnAs]
  rw [if_neg (by omega)]

example : shrink ⟨[97, 98, 99, 0, 0], 3⟩ 4 2 = some ⟨[97, 98, 0], 2⟩ ∧ shrink ⟨[97, 98, 99, 0, 0], 3⟩ 4 6 = some ⟨[97, 98, 99, 0, 0, 0, 0], 3⟩ ∧
    shrinkArr [97, 98, 0] 1 = some ⟨[97, 0], 1⟩ := by decide

end Sprout
