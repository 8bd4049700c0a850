import Verif.Proofs.FixedNumeric
import Verif.Props.C69

/-!
# C111: numeric algorithms that return containers

`Inclusive`, `Exclusive`, `InclusiveInit` are those of C69. `Rewrites r c (writeFront c.vis ys)` (Spec/FixedAlg): the result is `c` with
`ys` written over the beginning of its window, as far as there is room.
-/

namespace Sprout

open ContOp FixedAlg

variable {α β : Type} [Inhabited α]

/-- partial_sum, inclusive_scan and transform_inclusive_scan without initial value write the prefix sums. Missing: empty windows of
arrays that are not empty, refuted by `C111_empty_window_refuted` -/
theorem C111_inclusive_scan_partial (op : α → α → α) (un : β → α) (xs : List β) (ys : List α) {c : Cont α} (h : c.Ok)
    (hc : c.vis ≠ [] ∨ c.static = 0 ∨ xs = []) :
    (∃ w, Rewrites (transformInclusiveScanTo op un xs c) c (writeFront c.vis w) ∧ Inclusive op (xs.map un) w) ∧
    (c.vis ≠ [] ∨ c.static = 0 ∨ ys = [] → ∃ w, Rewrites (partialSumTo op ys c) c (writeFront c.vis w) ∧ Inclusive op ys w) := by
  have key : ∀ {γ : Type} (un : γ → α) (xs : List γ), (c.vis ≠ [] ∨ c.static = 0 ∨ xs = []) →
      ∃ w, Rewrites (transformInclusiveScanTo op un xs c) c (writeFront c.vis w) ∧ Inclusive op (xs.map un) w := by
    intro γ un xs hc
    rw [transformInclusiveScanTo.eq_def]
    cases xs with
    | nil =>
      refine ⟨[], ?_, by simp [Inclusive]⟩
      split_ifs with hs
      · exact remake_nil_rewrites h hs _
      · exact complate_rewrites h (by simp)
    | cons x xs =>
      refine ⟨(xs.map un).scanl op (un x), ?_, by simp, fun i hi => ?_⟩
      · by_cases hs : c.static = 0
        · rw [if_pos hs]; exact remake_nil_rewrites h hs _
        · rw [if_neg hs]
          have : c.vis ≠ [] := by simpa [hs] using hc
          simpa using inclusiveImpl1_rewrites h op un xs (un x) [] (List.length_pos_iff.2 this)
      · simp only [List.length_map, List.length_cons] at hi
        rw [List.getElem?_scanl, if_pos (by simp; omega)]
        simp [fold1]
  refine ⟨key un xs hc, fun hc => ?_⟩
  obtain ⟨w, h1, h2⟩ := key id ys hc
  exact ⟨w, h1, by simpa using h2⟩

/-- exclusive_scan and transform_exclusive_scan write the sums of the elements before. Missing: empty ranges, refuted by
`C111_exclusive_scan_empty_refuted`, and empty windows -/
theorem C111_exclusive_scan_partial (op : α → α → α) (un : β → α) (x : β) (xs : List β) (y : α) (ys : List α) (init : α) {c : Cont α}
    (h : c.Ok) (hc : c.vis ≠ [] ∨ c.static = 0) :
    (∃ w, Rewrites (transformExclusiveScanTo op un (x :: xs) init c) c (writeFront c.vis w) ∧ Exclusive op init ((x :: xs).map un) w) ∧
    (∃ w, Rewrites (exclusiveScanTo op (y :: ys) init c) c (writeFront c.vis w) ∧ Exclusive op init (y :: ys) w) := by
  have key : ∀ {γ : Type} (un : γ → α) (x : γ) (xs : List γ),
      ∃ w, Rewrites (transformExclusiveScanTo op un (x :: xs) init c) c (writeFront c.vis w) ∧ Exclusive op init ((x :: xs).map un) w := by
    intro γ un x xs
    have hle := vis_le_static h
    refine ⟨(((x :: xs).map un).scanl op init).take (xs.length + 1), ?_, by simp, fun i hi => ?_⟩
    · rw [transformExclusiveScanTo]
      by_cases h0 : c.static = 0
      · rw [if_pos h0, complate_full h0]
        exact remake_nil_rewrites h h0 _
      · rw [if_neg h0]
        have hv : c.vis ≠ [] := by simpa [h0] using hc
        have hv := List.length_pos_iff.2 hv
        by_cases h1 : c.static = 1
        · rw [if_pos h1, List.map_cons, List.scanl_cons, List.take_succ_cons]
          have := complate_rewrites h (ws := [init]) (by simp; omega)
          rwa [← writeFront_cut _ _ _ (by simp; omega), List.singleton_append] at this
        · rw [if_neg h1]
          simpa using exclusiveImpl1_rewrites h op un xs init (un x) [] hv
    · simp only [List.length_map, List.length_cons] at hi
      rw [List.getElem?_take_of_lt hi, List.getElem?_scanl, if_pos (by simp; omega)]
  refine ⟨key un x xs, ?_⟩
  obtain ⟨w, h1, h2⟩ := key id y ys
  exact ⟨w, h1, by simpa using h2⟩

/-- inclusive_scan and transform_inclusive_scan with an initial value write it first and then what std demands. Missing: the sums alone
(`C111_inclusive_scan_init_refuted`), transform_inclusive_scan to containers of `static_size` below 2 (no overload) -/
theorem C111_inclusive_scan_init_partial (op : α → α → α) (un : β → α) (xs : List β) (ys : List α) (init : α) {c : Cont α} (h : c.Ok)
    (hc : c.vis ≠ []) :
    (2 ≤ c.static → ∃ w, Rewrites (transformInclusiveScanInitTo op un xs init c) c (writeFront c.vis (init :: w)) ∧
      InclusiveInit op init (xs.map un) w) ∧
    (∃ w, Rewrites (inclusiveScanInitTo op ys init c) c (writeFront c.vis (init :: w)) ∧ InclusiveInit op init ys w) := by
  have hv := List.length_pos_iff.2 hc
  have hle := vis_le_static h
  have spec : ∀ zs : List α, ∃ w, zs.scanl op init = init :: w ∧ InclusiveInit op init zs w := by
    intro zs
    have h1 : zs.scanl op init = init :: (zs.scanl op init).tail := by cases zs <;> simp
    refine ⟨(zs.scanl op init).tail, h1, by simp, fun i hi => ?_⟩
    rw [List.getElem?_tail, List.getElem?_scanl, if_pos (by omega)]
  constructor
  · intro hs
    obtain ⟨w, h1, h2⟩ := spec (xs.map un)
    refine ⟨w, ?_, h2⟩
    rw [transformInclusiveScanInitTo.eq_def, if_neg (by omega)]
    cases xs with
    | nil =>
      simp at h1
      subst h1
      exact complate_rewrites h (by simp; omega)
    | cons x xs =>
      rw [← h1]
      simpa using inclusiveImpl1_rewrites h op un (x :: xs) init [] hv
  · obtain ⟨w, h1, h2⟩ := spec ys
    refine ⟨w, ?_, h2⟩
    rw [inclusiveScanInitTo, if_neg (by omega)]
    have hb := complate_rewrites h (ws := [init]) (by simp; omega)
    by_cases hs : c.static = 1
    · rw [if_pos hs]
      rw [complate_full (by simpa using hs)] at hb
      rwa [← writeFront_cut _ _ w (by simp; omega), List.singleton_append] at hb
    · rw [if_neg hs]
      by_cases he : ys = []
      · subst he
        simp at h1
        subst h1
        rw [if_pos rfl]
        exact hb
      · rw [if_neg he, ← h1]
        simpa using inclusiveImpl1_rewrites h op id ys init [] hv

/-- `ys` are the first element and the differences of neighbours -/
def Differences (op : α → α → α) (xs ys : List α) : Prop :=
  ys.length = xs.length ∧ ys[0]? = xs[0]? ∧ ∀ i a b, xs[i]? = some a → xs[i + 1]? = some b → ys[i + 1]? = some (op b a)

omit [Inhabited α] in
theorem diffs_get (op : α → α → α) : ∀ (xs : List α) (v : α), (diffs op v xs).length = xs.length ∧
    ∀ (i : ℕ) a b, (v :: xs)[i]? = some a → xs[i]? = some b → (diffs op v xs)[i]? = some (op b a)
  | [], v => by simp [diffs]
  | x :: xs, v => by
    have := diffs_get op xs x
    refine ⟨by simp [diffs, this.1], fun i a b ha hb => ?_⟩
    cases i with
    | zero => simp_all [diffs]
    | succ i =>
      rw [diffs, List.getElem?_cons_succ]
      exact this.2 i a b (by simpa using ha) (by simpa using hb)

/-- adjacent_difference to a container of `static_size` 0; and what the version for others would do if it were called by that name.
Missing: adjacent_difference to any other container does not compile, `C111_adjacent_difference_refuted` -/
theorem C111_adjacent_difference_partial (op : α → α → α) (xs : List α) {c : Cont α} (h : c.Ok) :
    (c.static = 0 → Rewrites (adjacentDifferenceTo op xs c) c []) ∧
    (c.vis ≠ [] ∨ xs = [] → ∃ w, Rewrites (adjDiffEntry c op xs) c (writeFront c.vis w) ∧ Differences op xs w) := by
  constructor
  · intro hs
    rw [adjacentDifferenceTo, if_pos hs]
    simpa [vis_nil_of_static h hs, writeFront] using remake_nil_rewrites h hs []
  · intro hc
    cases xs with
    | nil => exact ⟨[], complate_rewrites h (by simp), by simp [Differences]⟩
    | cons x xs =>
      have hv : c.vis ≠ [] := by simpa using hc
      have hv := List.length_pos_iff.2 hv
      refine ⟨x :: diffs op x xs, ?_, ?_, by simp, ?_⟩
      · simpa [adjDiffEntry] using adjDiffImpl1_rewrites h op xs x [x] (by simp; omega)
      · simp [(diffs_get op xs x).1]
      · intro i a b ha hb
        rw [List.getElem?_cons_succ]
        exact (diffs_get op xs x).2 i a b ha (by simpa using hb)

/-- iota fills the window with `value`, `value + 1`, … and changes nothing else -/
theorem C111_iota (value : ℤ) {c : Cont ℤ} (h : c.Ok) :
    Rewrites (iotaTo (value + ·) c) c ((List.range c.vis.length).map fun k : ℕ => value + k) := iotaTo_rewrites h _

/-! ## refutations -/

/-- the first prefix sum is written to a window without elements: the array around it changes -/
theorem C111_empty_window_refuted :
    (Cont.sub (.array [1, 2, 3]) 1 1).Ok ∧ (Cont.sub (.array [1, 2, (3 : ℤ)]) 1 1).vis = [] ∧
    partialSumTo (· + ·) [5, 6] (.sub (.array [1, 2, (3 : ℤ)]) 1 1) = some (.sub (.array [1, 5, 3]) 1 1) := by decide +kernel

/-- the exclusive scan of an empty range writes the initial value -/
theorem C111_exclusive_scan_empty_refuted :
    exclusiveScanTo (· + ·) [] 7 (.array [1, 2, (3 : ℤ)]) = some (.array [7, 2, 3]) ∧ ∀ w, Exclusive (· + ·) (7 : ℤ) [] w → w = [] := by
  refine ⟨by decide +kernel, fun w h => List.eq_nil_of_length_eq_zero h.1⟩

/-- the inclusive scan with an initial value writes it, too: std's result is 11, 13, 16 -/
theorem C111_inclusive_scan_init_refuted :
    inclusiveScanInitTo (· + ·) [1, 2, 3] 10 (.array [0, 0, 0, (0 : ℤ)]) = some (.array [10, 11, 13, 16]) ∧
    InclusiveInit (· + ·) (10 : ℤ) [1, 2, 3] [11, 13, 16] ∧
    transformInclusiveScanInitTo (· + ·) id [1] 10 (.array [(0 : ℤ)]) = none := by
  refine ⟨by decide +kernel, ⟨rfl, ?_⟩, by decide +kernel⟩
  decide +kernel

/-- adjacent_difference to a container that is not empty -/
theorem C111_adjacent_difference_refuted (op : α → α → α) (xs : List α) {c : Cont α} (hs : c.static ≠ 0) :
    adjacentDifferenceTo op xs c = none := if_neg hs

/-! ## non-vacuity -/

example : partialSumTo (· + ·) [1, 2, 3, 4] (.sub (.array [9, 8, 7, 6, (5 : ℤ)]) 1 4) = some (.sub (.array [9, 1, 3, 6, 5]) 1 4) := by
  decide +kernel
example : transformInclusiveScanTo (· + ·) (fun x : ℤ => x * x) [1, 2, 3] (.array [9, 8, 7, 6, (5 : ℤ)]) = some (.array [1, 5, 14, 6, 5]) := by
  decide +kernel
example : exclusiveScanTo (· + ·) [1, 2, 3] 10 (.array [0, 0, 0, (9 : ℤ)]) = some (.array [10, 11, 13, 9]) := by decide +kernel
example : adjDiffEntry (.array [0, 0, 0, (9 : ℤ)]) (· - ·) [1, 4, 9] = some (.array [1, 3, 5, 9]) := by decide +kernel
example : iotaTo (3 + ·) (.sub (.array [9, 8, 7, (6 : ℤ)]) 1 3) = some (.sub (.array [9, 3, 4, 6]) 1 3) := by decide +kernel
example : Inclusive (· + ·) [1, 2, (3 : ℤ)] [1, 3, 6] ∧ ¬ Inclusive (· + ·) [1, 2, (3 : ℤ)] [1, 3, 5] := by
  refine ⟨⟨rfl, by decide +kernel⟩, fun h => ?_⟩
  have := h.2 2 (by simp)
  simp [fold1] at this
example : Differences (· - ·) [1, 4, (9 : ℤ)] [1, 3, 5] := by
  refine ⟨rfl, rfl, fun i a b ha hb => ?_⟩
  match i with
  | 0 => simp_all; omega
  | 1 => simp_all; omega
  | i + 2 => simp at hb

end Sprout
