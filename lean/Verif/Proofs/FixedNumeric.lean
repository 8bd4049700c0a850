import Verif.Proofs.FixedSort3
import Verif.Model.FixedNumeric

/-! # Numeric algorithms that return containers -/

namespace Sprout.FixedAlg

open ContOp

variable {α β : Type} [Inhabited α]

/-- as many as there is room for: values behind do not count -/
theorem writeFront_cut (v a b : List α) (h : v.length ≤ a.length) : writeFront v (a ++ b) = writeFront v a := by
  rw [writeFront, writeFront, List.take_append_of_le_length h, List.drop_of_length_le h, List.drop_of_length_le (by simp; omega)]

theorem inclusiveImpl1_rewrites {c : Cont α} (h : c.Ok) (op : α → α → α) (un : β → α) : ∀ (xs : List β) (value : α) (args : List α),
    args.length < c.vis.length →
    Rewrites (inclusiveImpl1 c op un xs value args) c (writeFront c.vis (args ++ (xs.map un).scanl op value)) := by
  obtain ⟨_, _, hp⟩ := parts' h
  have hl := hp.len
  have hst := vis_le_static h
  intro xs
  induction xs with
  | nil =>
    intro value args ha
    have := complate_rewrites h (ws := args ++ [value]) (by simp; omega)
    rw [inclusiveImpl1]
    split_ifs with hs
    · rw [complate_full (by simpa using hs)] at this; simpa using this
    · simpa using this
  | cons x xs ih =>
    intro value args ha
    have := complate_rewrites h (ws := args ++ [value]) (by simp; omega)
    rw [inclusiveImpl1, List.map_cons, List.scanl_cons]
    have hcut (T : List α) (hv : c.vis.length ≤ (args ++ [value]).length) :
        writeFront c.vis (args ++ value :: T) = writeFront c.vis (args ++ [value]) := by
      rw [← writeFront_cut c.vis (args ++ [value]) T hv]; simp
    by_cases hs : c.static = args.length + 1
    · rw [if_pos hs, hcut _ (by simp; omega)]
      rw [complate_full (by simpa using hs)] at this
      exact this
    · rw [if_neg hs]
      by_cases hz : ((args.length + 1 : ℕ) : ℤ) < c.size
      · rw [if_pos hz]
        simpa using ih (op value (un x)) (args ++ [value]) (by simp; omega)
      · rw [if_neg hz, hcut _ (by simp; omega)]
        exact this

theorem exclusiveImpl1_rewrites {c : Cont α} (h : c.Ok) (op : α → α → α) (un : β → α) : ∀ (xs : List β) (value temp : α) (args : List α),
    args.length < c.vis.length →
    Rewrites (exclusiveImpl1 c op un xs value temp args) c
      (writeFront c.vis (args ++ ((temp :: xs.map un).scanl op value).take (xs.length + 1))) := by
  obtain ⟨_, _, hp⟩ := parts' h
  have hl := hp.len
  have hst := vis_le_static h
  intro xs
  induction xs with
  | nil =>
    intro value temp args ha
    have := complate_rewrites h (ws := args ++ [value]) (by simp; omega)
    rw [exclusiveImpl1]
    split_ifs with hs
    · rw [complate_full (by simpa using hs)] at this; simpa using this
    · simpa using this
  | cons x xs ih =>
    intro value temp args ha
    have := complate_rewrites h (ws := args ++ [value]) (by simp; omega)
    rw [exclusiveImpl1, List.map_cons, List.scanl_cons, List.length_cons, List.take_succ_cons]
    have hcut (T : List α) (hv : c.vis.length ≤ (args ++ [value]).length) :
        writeFront c.vis (args ++ value :: T) = writeFront c.vis (args ++ [value]) := by
      rw [← writeFront_cut c.vis (args ++ [value]) T hv]; simp
    by_cases hs : c.static = args.length + 1
    · rw [if_pos hs, hcut _ (by simp; omega)]
      rw [complate_full (by simpa using hs)] at this
      exact this
    · rw [if_neg hs]
      by_cases hz : ((args.length + 1 : ℕ) : ℤ) < c.size
      · rw [if_pos hz]
        have := ih (op value temp) (un x) (args ++ [value]) (by simp; omega)
        rwa [List.append_assoc, List.singleton_append] at this
      · rw [if_neg hz, hcut _ (by simp; omega)]
        exact this

/-- the differences of neighbours -/
def diffs (op : α → α → α) : α → List α → List α
  | _, [] => []
  | v, x :: xs => op x v :: diffs op x xs

theorem adjDiffImpl1_rewrites {c : Cont α} (h : c.Ok) (op : α → α → α) : ∀ (xs : List α) (value : α) (args : List α),
    args.length ≤ c.vis.length →
    Rewrites (adjDiffImpl1 c op xs value args) c (writeFront c.vis (args ++ diffs op value xs)) := by
  obtain ⟨_, _, hp⟩ := parts' h
  have hl := hp.len
  have hst := vis_le_static h
  intro xs
  induction xs with
  | nil =>
    intro value args ha
    have := complate_rewrites h (ws := args) (by omega)
    rw [adjDiffImpl1]
    split_ifs with hs
    · rw [complate_full hs] at this; simpa [diffs] using this
    · simpa [diffs] using this
  | cons x xs ih =>
    intro value args ha
    have := complate_rewrites h (ws := args) (by omega)
    rw [adjDiffImpl1, diffs]
    by_cases hs : c.static = args.length
    · rw [if_pos hs, writeFront_cut _ _ _ (by omega)]
      rw [complate_full hs] at this
      exact this
    · rw [if_neg hs]
      by_cases hz : (args.length : ℤ) < c.size
      · rw [if_pos hz]
        simpa using ih x (args ++ [op x value]) (by simp; omega)
      · rw [if_neg hz, writeFront_cut _ _ _ (by omega)]
        exact this

omit [Inhabited α] in
theorem vis_nil_of_static {c : Cont α} (h : c.Ok) (hs : c.static = 0) : c.vis = [] := by
  have := vis_le_static h
  exact List.eq_nil_of_length_eq_zero (by omega)

/-- a container of `static_size` 0 -/
theorem remake_nil_rewrites {c : Cont α} (h : c.Ok) (hs : c.static = 0) (ws : List α) :
    Rewrites (some (remake c c c.size [])) c (writeFront c.vis ws) := by
  have := complate_rewrites h (ws := []) (by simp)
  rw [complate_full hs] at this
  simpa [vis_nil_of_static h hs, writeFront] using this

theorem iotaTo_rewrites {c : Cont α} (h : c.Ok) (step : ℤ → α) :
    Rewrites (iotaTo step c) c ((List.range c.vis.length).map fun k : ℕ => step k) := by
  obtain ⟨X, Z, hp⟩ := parts' h
  have e1 := hp.pre
  have e2 := hp.len
  refine pack_rewrites hp (by simp) ?_ ?_ ?_
  · intro i hi
    rw [if_neg (by omega)]
  · intro j hj
    simp at hj
    rw [if_pos (by push_cast; omega), show ((X.length + j : ℕ) : ℤ) - c.beginOff = j by push_cast; omega]
    simp [hj]
  · intro i hi _
    simp at hi
    rw [if_neg (by omega)]

end Sprout.FixedAlg
