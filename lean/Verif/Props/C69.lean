import Verif.Proofs.Numeric
import Verif.Spec.Merge
import Mathlib.Algebra.Group.Basic

/-!
# C69: partial_sum, scans, adjacent_difference and iota

Input and output lie in one block so that the ranges may overlap. Output `ys` at `r`: the block becomes `overwrite m r ys`, the returned
iterator is `r + ys.length`. The scans with an initial value and on empty ranges deviate from the standard.
-/

namespace Sprout
variable {α : Type}
open Spec (overwrite Stored)

/-- generalised sum of a non-empty list from the left -/
def fold1 (op : α → α → α) : List α → Option α
  | [] => none
  | x :: xs => some (xs.foldl op x)

/-- `ys` are the inclusive prefix sums of `xs` -/
def Inclusive (op : α → α → α) (xs ys : List α) : Prop := ys.length = xs.length ∧ ∀ i, i < xs.length → ys[i]? = fold1 op (xs.take (i + 1))

/-- `ys` are the exclusive prefix sums of `xs` -/
def Exclusive (op : α → α → α) (init : α) (xs ys : List α) : Prop :=
  ys.length = xs.length ∧ ∀ i, i < xs.length → ys[i]? = some ((xs.take i).foldl op init)

/-- `ys` are the inclusive prefix sums with an initial value, as the standard has them: `xs.length` of them -/
def InclusiveInit (op : α → α → α) (init : α) (xs ys : List α) : Prop :=
  ys.length = xs.length ∧ ∀ i, i < xs.length → ys[i]? = some ((xs.take (i + 1)).foldl op init)

/-- `transform_inclusive_scan` without initial value; the output range is disjoint from the input or begins not after it (in place is allowed) -/
theorem C69_transform_inclusive_scan (op : α → α → α) (un : α → α) (m xs : List α) (a r : Nat) (h : Stored m a xs) (ho : r ≤ a ∨ a + xs.length ≤ r)
    (hl : r + xs.length ≤ m.length) :
    ∃ ys, transformInclusiveScan op un m a (a + xs.length) r = some (overwrite m r ys, r + xs.length) ∧ Inclusive op (xs.map un) ys := by
  cases xs with
  | nil => exact ⟨[], by simp [transformInclusiveScan, overwrite], by simp [Inclusive]⟩
  | cons x xs =>
    simp only [List.length_cons] at ho hl
    obtain ⟨h1, h2⟩ := Seg.cons h
    have := psLoop_eq op un xs (m.set r (un x)) a r (un x) (Seg.set h2 (by omega)) (by omega) (by simp; omega)
    refine ⟨un x :: scan op (un x) (xs.map un), ?_, ?_⟩
    · rw [transformInclusiveScan, if_neg (by simp)]
      simp only [rd, h1, Option.bind_eq_bind, Option.bind_some]
      rw [wr_eq (by omega)]
      simp only [Option.bind_some]
      rw [show a + (x :: xs).length = a + 1 + xs.length by simp; omega, this, overwrite_cons (by rw [scan_length, List.length_map]; omega)]
      simp only [List.length_cons]
      congr 2; omega
    · refine ⟨by simp [scan_length], fun i hi => ?_⟩
      cases i with
      | zero => simp [fold1]
      | succ i =>
        rw [List.getElem?_cons_succ, scan_get op _ _ _ (by simpa using hi)]
        simp [fold1]

/-- `partial_sum`, and `inclusive_scan` without initial value -/
theorem C69_partial_sum (op : α → α → α) (m xs : List α) (a r : Nat) (h : Stored m a xs) (ho : r ≤ a ∨ a + xs.length ≤ r)
    (hl : r + xs.length ≤ m.length) :
    ∃ ys, partialSum op m a (a + xs.length) r = some (overwrite m r ys, r + xs.length) ∧ Inclusive op xs ys := by
  have := C69_transform_inclusive_scan op id m xs a r h ho hl
  rwa [List.map_id] at this

/-- What holds of `transform_exclusive_scan`: right for non-empty ranges whose output is disjoint or begins before the input.
Missing: empty ranges and in place -/
theorem C69_transform_exclusive_scan_partial (op : α → α → α) (un : α → α) (m xs : List α) (a r : Nat) (init : α) (h : Stored m a xs) (hx : xs ≠ [])
    (ho : r < a ∨ a + xs.length ≤ r) (hl : r + xs.length ≤ m.length) :
    ∃ ys, transformExclusiveScan op un m a (a + xs.length) r init = some (overwrite m r ys, r + xs.length) ∧ Exclusive op init (xs.map un) ys := by
  cases xs with
  | nil => exact absurd rfl hx
  | cons x xs =>
    simp only [List.length_cons] at ho hl
    obtain ⟨h1, h2⟩ := Seg.cons (Seg.set h (d := r) (y := init) (by simp; omega))
    have := exLoop_eq op un xs (m.set r init) a r init (un x) h2 (by omega) (by simp; omega)
    refine ⟨init :: scan op init ((un x :: xs.map un).take xs.length), ?_, ?_⟩
    · rw [transformExclusiveScan]
      rw [wr_eq (by omega)]
      simp only [Option.bind_eq_bind, Option.bind_some]
      rw [if_neg (by simp)]
      simp only [rd, h1, Option.bind_some]
      rw [show a + (x :: xs).length = a + 1 + xs.length by simp; omega, this,
        overwrite_cons (by rw [scan_length, List.length_take]; simp; omega)]
      simp only [List.length_cons]
      congr 2; omega
    · refine ⟨by simp [scan_length], fun i hi => ?_⟩
      cases i with
      | zero => simp
      | succ i =>
        simp only [List.length_map, List.length_cons] at hi
        rw [List.getElem?_cons_succ, scan_get op _ _ _ (by simp; omega), List.take_take, Nat.min_eq_left (by omega)]
        simp

theorem C69_exclusive_scan_partial (op : α → α → α) (m xs : List α) (a r : Nat) (init : α) (h : Stored m a xs) (hx : xs ≠ [])
    (ho : r < a ∨ a + xs.length ≤ r) (hl : r + xs.length ≤ m.length) :
    ∃ ys, exclusiveScan op m a (a + xs.length) r init = some (overwrite m r ys, r + xs.length) ∧ Exclusive op init xs ys := by
  have := C69_transform_exclusive_scan_partial op id m xs a r init h hx ho hl
  rwa [List.map_id] at this

/-- [exclusive.scan] allows `result == first`, but the first element is overwritten before it is read: scanning [1, 2, 3] from 10 in place
gives [10, 20, 40] instead of [10, 11, 13] -/
theorem C69_exclusive_scan_in_place_false : exclusiveScan (· + ·) [1, 2, 3] 0 3 0 (10 : Int) = some ([10, 20, 40], 3) ∧
    ¬ Exclusive (· + ·) (10 : Int) [1, 2, 3] [10, 20, 40] := by
  constructor
  · simp [exclusiveScan, transformExclusiveScan, exLoop, wr, rd]
  · intro h; have := h.2 1 (by decide); revert this; decide

/-- an empty range writes one element: one past the end of an empty output -/
theorem C69_exclusive_scan_empty_false (op : α → α → α) (init : α) : exclusiveScan op [] 0 0 0 init = none := by
  simp [exclusiveScan, transformExclusiveScan, wr]

/-- What `transform_inclusive_scan` with an initial value does: it writes the initial value and then the sums, one element more than the
standard's. Missing: the standard's `InclusiveInit`, refuted by `C69_inclusive_scan_init_false` -/
theorem C69_transform_inclusive_scan_init_partial (op : α → α → α) (un : α → α) (m xs : List α) (a r : Nat) (init : α) (h : Stored m a xs)
    (ho : r + 1 ≤ a ∨ a + xs.length ≤ r) (hl : r + (xs.length + 1) ≤ m.length) :
    ∃ ys, transformInclusiveScanInit op un m a (a + xs.length) r init = some (overwrite m r (init :: ys), r + (xs.length + 1)) ∧
      InclusiveInit op init (xs.map un) ys := by
  cases xs with
  | nil =>
    refine ⟨[], ?_, by simp [InclusiveInit]⟩
    simp only [List.length_nil] at hl
    rw [transformInclusiveScanInit]
    simp only []
    rw [wr_eq (by omega)]
    simp only [Option.bind_eq_bind, Option.bind_some]
    rw [if_pos (by simp), ← overwrite_cons (by simpa using hl), overwrite_nil]; simp
  | cons x xs =>
    simp only [List.length_cons] at ho hl
    obtain ⟨h1, h2⟩ := Seg.cons (Seg.set h (d := r) (y := init) (by simp; omega))
    have := psLoop_eq op un xs ((m.set r init).set (r + 1) (op init (un x))) a (r + 1) (op init (un x)) (Seg.set h2 (by omega)) (by omega) (by simp; omega)
    refine ⟨op init (un x) :: scan op (op init (un x)) (xs.map un), ?_, ?_⟩
    · rw [transformInclusiveScanInit]
      simp only []
      rw [wr_eq (by omega)]
      simp only [Option.bind_eq_bind, Option.bind_some]
      rw [if_neg (by simp)]
      simp only [rd, h1, Option.bind_some]
      rw [wr_eq (by simp; omega)]
      simp only [Option.bind_some]
      rw [show a + (x :: xs).length = a + 1 + xs.length by simp; omega, this, overwrite_cons (by simp [scan_length]; omega),
        overwrite_cons (by simp [scan_length]; omega)]
      simp only [List.length_cons]
      congr 2; omega
    · refine ⟨by simp [scan_length], fun i hi => ?_⟩
      have := scan_get op (un x :: xs.map un) init i (by simpa using hi)
      simpa [scan] using this

/-- [10, 11, 13, 16] is written for [1, 2, 3] from 10 where the standard has [11, 13, 16]; an output range of three elements overflows -/
theorem C69_inclusive_scan_init_false : inclusiveScanInit (· + ·) [1, 2, 3, 0, 0, 0] 0 3 3 (10 : Int) = none ∧
    inclusiveScanInit (· + ·) [1, 2, 3, 0, 0, 0, 0] 0 3 3 (10 : Int) = some ([1, 2, 3, 10, 11, 13, 16], 7) ∧
    InclusiveInit (· + ·) (10 : Int) [1, 2, 3] [11, 13, 16] := by
  refine ⟨?_, ?_, rfl, ?_⟩
  · simp [inclusiveScanInit, transformInclusiveScanInit, psLoop, wr, rd]
  · simp [inclusiveScanInit, transformInclusiveScanInit, psLoop, wr, rd]
  · decide

/-- `adjacent_difference`, also in place -/
theorem C69_adjacent_difference (op : α → α → α) (m xs : List α) (a r : Nat) (h : Stored m a xs) (ho : r ≤ a ∨ a + xs.length ≤ r)
    (hl : r + xs.length ≤ m.length) :
    ∃ ys, adjacentDifference op m a (a + xs.length) r = some (overwrite m r ys, r + xs.length) ∧ ys.length = xs.length ∧
      ys[0]? = xs[0]? ∧ ∀ i, (hi : i + 1 < xs.length) → ys[i + 1]? = some (op xs[i + 1] xs[i]) := by
  cases xs with
  | nil => exact ⟨[], by simp [adjacentDifference, overwrite], rfl, rfl, by simp⟩
  | cons x xs =>
    simp only [List.length_cons] at ho hl
    obtain ⟨h1, h2⟩ := Seg.cons h
    have := adLoop_eq op xs (m.set r x) a r x (Seg.set h2 (by omega)) (by omega) (by simp; omega)
    refine ⟨x :: adj op x xs, ?_, by simp [adj_length], rfl, ?_⟩
    · rw [adjacentDifference, if_neg (by simp)]
      simp only [rd, h1, Option.bind_eq_bind, Option.bind_some]
      rw [wr_eq (by omega)]
      simp only [Option.bind_some]
      rw [show a + (x :: xs).length = a + 1 + xs.length by simp; omega, this, overwrite_cons (by rw [adj_length]; omega)]
      simp only [List.length_cons]
      congr 2; omega
    · clear this h1 h2 h ho hl
      intro i
      induction xs generalizing x i with
      | nil => intro hi; simp at hi
      | cons y xs ih =>
        intro hi
        cases i with
        | zero => simp [adj]
        | succ i =>
          have := ih y i (by simpa using hi)
          rw [List.getElem?_cons_succ] at this ⊢
          rw [adj, List.getElem?_cons_succ, this]
          rfl

/-- `adjacent_difference` undoes `partial_sum` over a group -/
theorem C69_inverse [AddCommGroup α] (xs ys : List α) (h : Inclusive (· + ·) xs ys) (i : Nat) (hi : i + 1 < xs.length) :
    ∃ s t, ys[i]? = some s ∧ ys[i + 1]? = some t ∧ t - s = xs[i + 1] := by
  have h1 := h.2 i (by omega)
  have h2 := h.2 (i + 1) hi
  cases xs with
  | nil => simp at hi
  | cons x xs =>
    simp only [List.length_cons] at hi
    simp only [List.take_succ_cons, fold1] at h1 h2
    refine ⟨_, _, h1, h2, ?_⟩
    rw [show List.take (i + 1) xs = List.take i xs ++ [xs[i]] by rw [List.take_add_one, List.getElem?_eq_getElem (by omega)]; rfl, List.foldl_append]
    simp

theorem C69_iota (succ : α → α) (m : List α) (first n : Nat) (v : α) (h : first + n ≤ m.length) :
    iota succ m first (first + n) v = some (overwrite m first ((List.range n).map fun i => succ^[i] v)) := iota_eq succ n m first v h

example : partialSum (· + ·) [1, 2, 3, 4] 0 4 0 = some ([1, 3, 6, 10], 4) := by
  simp [partialSum, transformInclusiveScan, psLoop, wr, rd]
example : adjacentDifference (· - ·) [1, 3, 6, 10] 0 4 0 = some ([1, 2, 3, (4 : Int)], 4) := by
  simp [adjacentDifference, adLoop, wr, rd]
example : iota (· + 1) [9, 9, 9, 9] 1 4 (5 : Int) = some [9, 5, 6, 7] := by simp [iota, wr]

end Sprout
