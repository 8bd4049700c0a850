import Verif.Model.Moves
import Verif.Proofs.Find
import Verif.Spec.Moves

namespace Sprout
variable {α : Type}
open Spec (overwrite dedup dedupFrom)

theorem rd_split {p r : List α} {x : α} {i : Nat} (h : i = p.length) : rd (p ++ x :: r) i = some x := by
  subst h; simp [rd]

theorem wr_split {p r : List α} {x y : α} {i : Nat} (h : i = p.length) :
    wr (p ++ x :: r) i y = some (p ++ y :: r) := by
  subst h; simp [wr]

theorem swp_split {p q r : List α} {x z : α} {i j : Nat} (hi : i = p.length) (hj : j = p.length + 1 + q.length) :
    swp (p ++ x :: (q ++ z :: r)) i j = some (p ++ z :: (q ++ x :: r)) := by
  have h1 : (p ++ x :: (q ++ z :: r)) = (p ++ x :: q) ++ z :: r := by simp
  have h2 : (p ++ z :: (q ++ z :: r)) = (p ++ z :: q) ++ z :: r := by simp
  unfold swp
  rw [rd_split hi]
  conv in (rd _ j) => rw [h1]
  rw [rd_split (by simp; omega)]
  simp only [Option.bind_eq_bind, Option.bind_some]
  rw [wr_split hi]
  simp only [Option.bind_some]
  rw [h2, wr_split (by simp; omega)]
  simp

theorem swp_comm_split {p q r : List α} {x z : α} {i j : Nat} (hi : i = p.length) (hj : j = p.length + 1 + q.length) :
    swp (p ++ x :: (q ++ z :: r)) j i = some (p ++ z :: (q ++ x :: r)) := by
  have h1 : (p ++ x :: (q ++ z :: r)) = (p ++ x :: q) ++ z :: r := by simp
  unfold swp
  rw [rd_split hi]
  conv in (rd _ j) => rw [h1]
  rw [rd_split (by simp; omega)]
  simp only [Option.bind_eq_bind, Option.bind_some]
  rw [h1, wr_split (by simp; omega)]
  simp only [Option.bind_some, List.append_assoc, List.cons_append]
  rw [wr_split hi]

/-! ### overwrite -/

theorem overwrite_getElem? {m : List α} {d : Nat} {ys : List α} (h : d + ys.length ≤ m.length) (i : Nat) :
    (overwrite m d ys)[i]? = if i < d then m[i]? else if i < d + ys.length then ys[i - d]? else m[i]? := by
  unfold overwrite
  have hl : (m.take d).length = d := by simp; omega
  rcases Nat.lt_or_ge i d with h1 | h1
  · rw [if_pos h1, List.append_assoc, List.getElem?_append_left (by omega), List.getElem?_take_of_lt h1]
  · rw [if_neg (by omega), List.append_assoc, List.getElem?_append_right (by omega), hl]
    rcases Nat.lt_or_ge i (d + ys.length) with h2 | h2
    · rw [if_pos h2, List.getElem?_append_left (by omega)]
    · rw [if_neg (by omega), List.getElem?_append_right (by omega), List.getElem?_drop]
      congr 1; omega

theorem overwrite_length {m : List α} {d : Nat} {ys : List α} (h : d + ys.length ≤ m.length) :
    (overwrite m d ys).length = m.length := by
  unfold overwrite; simp; omega

theorem overwrite_nil {m : List α} {d : Nat} : overwrite m d [] = m := by simp [overwrite]

theorem overwrite_cons {m : List α} {d : Nat} {y : α} {ys : List α} (h : d + (ys.length + 1) ≤ m.length) :
    overwrite (m.set d y) (d + 1) ys = overwrite m d (y :: ys) := by
  apply List.ext_getElem?
  intro i
  rw [overwrite_getElem? (by simp; omega), overwrite_getElem? (by simp; omega)]
  grind

theorem overwrite_snoc {m : List α} {d : Nat} {y : α} {ys : List α} (h : d + (ys.length + 1) ≤ m.length) :
    overwrite (m.set (d + ys.length) y) d ys = overwrite m d (ys ++ [y]) := by
  apply List.ext_getElem?
  intro i
  rw [overwrite_getElem? (by simp; omega), overwrite_getElem? (by simp; omega)]
  grind

theorem overwrite_segment {pre xs post ys : List α} (h : ys.length ≤ xs.length) :
    overwrite (pre ++ xs ++ post) pre.length ys = pre ++ ys ++ xs.drop ys.length ++ post := by
  simp [overwrite, List.drop_append, Nat.sub_eq_zero_of_le h]

/-- `xs` is stored at position `s` of `m`. -/
def Seg (m : List α) (s : Nat) (xs : List α) : Prop := ∀ i, i < xs.length → m[s + i]? = xs[i]?

theorem Seg.of_append (A xs B : List α) : Seg (A ++ xs ++ B) A.length xs := by
  intro i hi
  rw [List.append_assoc, List.getElem?_append_right (by omega), Nat.add_sub_cancel_left, List.getElem?_append_left hi]

theorem Seg.cons {m : List α} {s : Nat} {x : α} {xs : List α} (h : Seg m s (x :: xs)) :
    m[s]? = some x ∧ Seg m (s + 1) xs := by
  refine ⟨by simpa using h 0 (by simp), fun i hi => ?_⟩
  have := h (i + 1) (by simpa using hi)
  rw [show s + 1 + i = s + (i + 1) by omega]; simpa using this

theorem Seg.snoc {m : List α} {s : Nat} {x : α} {xs : List α} (h : Seg m s (xs ++ [x])) :
    m[s + xs.length]? = some x ∧ Seg m s xs := by
  refine ⟨by simpa using h xs.length (by simp), fun i hi => ?_⟩
  have := h i (by simp; omega)
  rw [this, List.getElem?_append_left hi]

theorem Seg.set {m : List α} {s : Nat} {xs : List α} (h : Seg m s xs) {d : Nat} {y : α}
    (hd : d < s ∨ s + xs.length ≤ d) : Seg (m.set d y) s xs := by
  intro i hi
  rw [List.getElem?_set_ne (by omega)]; exact h i hi

/-! ### forward copying loops -/

theorem emitLoop_spec (emit : α → Option α) : ∀ (xs m : List α) (s d : Nat), Seg m s xs →
    (d ≤ s ∨ s + xs.length ≤ d) → d + (xs.filterMap emit).length ≤ m.length →
    emitLoop emit m s (s + xs.length) d
      = some (overwrite m d (xs.filterMap emit), d + (xs.filterMap emit).length) := by
  intro xs
  induction xs with
  | nil => intro m s d _ _ _; rw [emitLoop]; simp [overwrite_nil]
  | cons x xs ih =>
    intro m s d hs hd hr
    obtain ⟨h1, h2⟩ := hs.cons
    rw [emitLoop, if_neg (by simp)]
    simp only [rd, h1, Option.bind_eq_bind, Option.bind_some, List.length_cons] at hd ⊢
    rw [show s + (xs.length + 1) = s + 1 + xs.length by omega]
    cases he : emit x with
    | none =>
      simp only
      rw [List.filterMap_cons_none he] at hr ⊢
      exact ih m (s + 1) d h2 (by omega) hr
    | some y =>
      simp only
      rw [List.filterMap_cons_some he] at hr ⊢
      simp only [List.length_cons] at hr ⊢
      rw [wr_eq (by omega)]
      simp only [Option.bind_some]
      rw [ih (m.set d y) (s + 1) (d + 1) (h2.set (by omega)) (by omega) (by simp; omega), overwrite_cons hr]
      congr 2; omega

/-- in-place instance: destination = source -/
theorem emitLoop_inplace (emit : α → Option α) (pre xs post : List α) :
    emitLoop emit (pre ++ xs ++ post) pre.length (pre.length + xs.length) pre.length
      = some (pre ++ xs.filterMap emit ++ xs.drop (xs.filterMap emit).length ++ post,
          pre.length + (xs.filterMap emit).length) := by
  have hl := List.length_filterMap_le emit xs
  rw [emitLoop_spec emit xs _ _ _ (Seg.of_append _ _ _) (Or.inl (Nat.le_refl _)) (by simp; omega), overwrite_segment hl]

theorem filterMap_not (p : α → Bool) (xs : List α) :
    xs.filterMap (fun x => if !p x then some x else none) = xs.filter (fun x => !p x) := by
  induction xs with
  | nil => rfl
  | cons x xs ih => cases h : p x <;> simp_all

theorem filterMap_if (p : α → Bool) (xs : List α) :
    xs.filterMap (fun x => if p x then some x else none) = xs.filter p := by
  induction xs with
  | nil => rfl
  | cons x xs ih => cases h : p x <;> simp_all

theorem filterMap_map' (f : α → α) (xs : List α) : xs.filterMap (fun x => some (f x)) = xs.map f := by
  induction xs with
  | nil => rfl
  | cons x xs ih => simp_all

/-! ### backward copying -/

theorem copyBackward_spec : ∀ (n : Nat) (xs m : List α) (s d : Nat), xs.length = n → Seg m s xs →
    (d + n ≤ s ∨ s ≤ d) → d + n ≤ m.length →
    copyBackward m s (s + n) (d + n) = some (overwrite m d xs, d) := by
  intro n
  induction n with
  | zero =>
    intro xs m s d hn _ _ _
    have : xs = [] := List.length_eq_zero_iff.mp hn
    subst this
    rw [copyBackward]; simp [overwrite_nil]
  | succ n ih =>
    intro xs m s d hn hs hd hr
    have hne : xs ≠ [] := by rintro rfl; simp at hn
    obtain ⟨ys, y, rfl⟩ : ∃ ys y, xs = ys ++ [y] := ⟨xs.dropLast, xs.getLast hne, (List.dropLast_append_getLast hne).symm⟩
    obtain ⟨h1, h2⟩ := hs.snoc
    have hyl : ys.length = n := by simpa using hn
    rw [copyBackward, if_neg (by omega), if_neg (by omega)]
    rw [show s + (n + 1) - 1 = s + n by omega, show d + (n + 1) - 1 = d + n by omega]
    rw [hyl] at h1
    simp only [rd, h1, Option.bind_eq_bind, Option.bind_some]
    rw [wr_eq (by omega)]
    simp only [Option.bind_some]
    rw [ih ys (m.set (d + n) y) s d hyl (h2.set (by omega)) (by omega) (by simp; omega)]
    have := overwrite_snoc (m := m) (d := d) (y := y) (ys := ys) (by omega)
    rw [hyl] at this
    rw [this]

theorem moveBackward_diverges : ∀ (first : Nat) (m : List α) (last result : Nat), first < last →
    moveBackward m first last result = none := by
  intro first
  induction first with
  | zero => intro m last result h; rw [moveBackward, if_neg (by omega), if_pos (by omega)]
  | succ n ih =>
    intro m last result h
    rw [moveBackward, if_neg (by omega)]
    split
    · rfl
    · simp only [Nat.add_sub_cancel, Option.bind_eq_bind]
      cases rd m n with
      | none => rfl
      | some x =>
        simp only [Option.bind_some]
        cases wr m (result - 1) x with
        | none => rfl
        | some m' => simp only [Option.bind_some]; exact ih m' last (result - 1) (by omega)

theorem reverse_spec : ∀ (n : Nat) (pre xs post : List α), xs.length = n →
    reverse (pre ++ xs ++ post) pre.length (pre.length + xs.length) = some (pre ++ xs.reverse ++ post) := by
  intro n
  induction n using Nat.strongRecOn with
  | ind n ih =>
    intro pre xs post hn
    rw [reverse]
    rcases xs with _ | ⟨x, xs⟩
    · simp
    · rw [if_neg (by simp), if_neg (by simp)]
      by_cases hx : xs = []
      · subst hx; simp
      · obtain ⟨ys, y, rfl⟩ : ∃ ys y, xs = ys ++ [y] := ⟨xs.dropLast, xs.getLast hx, (List.dropLast_append_getLast hx).symm⟩
        rw [if_neg (by simp)]
        have e : pre ++ (x :: (ys ++ [y])) ++ post = pre ++ x :: (ys ++ y :: post) := by simp
        rw [e, swp_split rfl (by simp; omega)]
        simp only [Option.bind_eq_bind, Option.bind_some]
        have := ih ys.length (by simp at hn; omega) (pre ++ [y]) ys (x :: post) rfl
        have e2 : pre ++ [y] ++ ys ++ x :: post = pre ++ y :: (ys ++ x :: post) := by simp
        rw [e2] at this
        simp only [List.length_append, List.length_cons, List.length_nil, Nat.zero_add] at this ⊢
        rw [show pre.length + (ys.length + 1 + 1) - 1 = pre.length + 1 + ys.length by omega, this]
        simp

theorem reverseCopy_spec : ∀ (n : Nat) (xs m : List α) (s d : Nat), xs.length = n → Seg m s xs →
    (d + n ≤ s ∨ s + n ≤ d) → d + n ≤ m.length →
    reverseCopy m s (s + n) d = some (overwrite m d xs.reverse, d + n) := by
  intro n
  induction n with
  | zero =>
    intro xs m s d hn _ _ _
    have : xs = [] := List.length_eq_zero_iff.mp hn
    subst this
    rw [reverseCopy]; simp [overwrite_nil]
  | succ n ih =>
    intro xs m s d hn hs hd hr
    have hne : xs ≠ [] := by rintro rfl; simp at hn
    obtain ⟨ys, y, rfl⟩ : ∃ ys y, xs = ys ++ [y] := ⟨xs.dropLast, xs.getLast hne, (List.dropLast_append_getLast hne).symm⟩
    obtain ⟨h1, h2⟩ := hs.snoc
    have hyl : ys.length = n := by simpa using hn
    rw [reverseCopy, if_neg (by omega), if_neg (by omega)]
    rw [show s + (n + 1) - 1 = s + n by omega]
    rw [hyl] at h1
    simp only [rd, h1, Option.bind_eq_bind, Option.bind_some]
    rw [wr_eq (by omega)]
    simp only [Option.bind_some]
    rw [ih ys (m.set d y) s (d + 1) hyl (h2.set (by omega)) (by omega) (by simp; omega),
      overwrite_cons (by simp; omega)]
    simp; omega

theorem swapRanges_spec : ∀ (xs ys A B C : List α), xs.length = ys.length →
    swapRanges (A ++ (xs ++ (B ++ (ys ++ C)))) A.length (A.length + xs.length) (A.length + xs.length + B.length)
      = some (A ++ (ys ++ (B ++ (xs ++ C))), A.length + xs.length + B.length + ys.length) := by
  intro xs
  induction xs with
  | nil => intro ys A B C h; have : ys = [] := List.length_eq_zero_iff.mp h.symm; subst this; rw [swapRanges]; simp
  | cons x xs ih =>
    intro ys A B C h
    rcases ys with _ | ⟨y, ys⟩
    · simp at h
    · rw [swapRanges, if_neg (by simp)]
      have hs := swp_split (p := A) (q := xs ++ B) (r := ys ++ C) (x := x) (z := y) (i := A.length)
        (j := A.length + (x :: xs).length + B.length) rfl (by simp; omega)
      simp only [List.append_assoc] at hs
      simp only [List.cons_append, hs, Option.bind_eq_bind, Option.bind_some]
      have := ih ys (A ++ [y]) (B ++ [x]) C (by simpa using h)
      simp only [List.length_append, List.length_cons, List.length_nil, List.append_assoc, List.cons_append, List.nil_append, Nat.zero_add] at this ⊢
      rw [show A.length + (xs.length + 1) = A.length + 1 + xs.length by omega]
      rw [show A.length + 1 + xs.length + (B.length + 1) = A.length + 1 + xs.length + B.length + 1 by omega] at this
      rw [this]
      congr 2; omega

theorem swapRanges_spec' : ∀ (xs ys A B C : List α), xs.length = ys.length →
    swapRanges (A ++ (ys ++ (B ++ (xs ++ C)))) (A.length + ys.length + B.length) (A.length + ys.length + B.length + xs.length) A.length
      = some (A ++ (xs ++ (B ++ (ys ++ C))), A.length + ys.length) := by
  intro xs
  induction xs with
  | nil => intro ys A B C h; have : ys = [] := List.length_eq_zero_iff.mp h.symm; subst this; rw [swapRanges]; simp
  | cons x xs ih =>
    intro ys A B C h
    rcases ys with _ | ⟨y, ys⟩
    · simp at h
    · rw [swapRanges, if_neg (by simp)]
      have hs := swp_comm_split (p := A) (q := ys ++ B) (r := xs ++ C) (x := y) (z := x) (i := A.length)
        (j := A.length + (y :: ys).length + B.length) rfl (by simp; omega)
      simp only [List.append_assoc] at hs
      simp only [List.cons_append, hs, Option.bind_eq_bind, Option.bind_some]
      have := ih ys (A ++ [x]) (B ++ [y]) C (by simpa using h)
      simp only [List.length_append, List.length_cons, List.length_nil, List.append_assoc, List.cons_append, List.nil_append, Nat.zero_add] at this ⊢
      rw [show A.length + (ys.length + 1) + B.length + 1 = A.length + 1 + ys.length + (B.length + 1) by omega,
        show A.length + (ys.length + 1) + B.length + (xs.length + 1) = A.length + 1 + ys.length + (B.length + 1) + xs.length by omega, this]
      congr 2; omega

/-! ### rotate -/

theorem rotateLoop2_spec (n : Nat) : ∀ (pre X Y Z post : List α), X.length + Y.length + Z.length = n → X ≠ [] → Z ≠ [] →
    rotateLoop2 (pre ++ (X ++ (Y ++ (Z ++ post)))) pre.length (pre.length + X.length + Y.length)
      (pre.length + X.length) (pre.length + X.length + Y.length + Z.length)
      = some (pre ++ (Z ++ (Y ++ (X ++ post)))) := by
  induction n with
  | zero => intro pre X Y Z post h hX; cases X <;> simp_all
  | succ n ih =>
    intro pre X Y Z post h hX hZ
    obtain ⟨x, X, rfl⟩ := List.exists_cons_of_ne_nil hX
    obtain ⟨z, Z, rfl⟩ := List.exists_cons_of_ne_nil hZ
    simp only [List.length_cons] at h ⊢
    rw [rotateLoop2]
    have hs := swp_split (p := pre) (q := X ++ Y) (r := Z ++ post) (x := x) (z := z)
      (i := pre.length) (j := pre.length + (X.length + 1) + Y.length) rfl (by simp; omega)
    simp only [List.append_assoc] at hs
    simp only [List.cons_append, Option.bind_eq_bind, hs, Option.bind_some]
    rcases Z with _ | ⟨z', Z⟩
    · rw [if_pos (by simp)]
      rcases X with _ | ⟨x', X⟩
      · rw [if_pos (by simp)]
      · rw [if_neg (by simp)]
        rcases Y with _ | ⟨y, Y⟩
        · have := ih (pre ++ [z]) (x' :: X) [] [x] post (by simp at h ⊢; omega) (by simp) (by simp)
          simp only [List.length_append, List.length_cons, List.length_nil, List.append_assoc, List.cons_append, List.nil_append] at this ⊢
          rw [← this]; congr 1 <;> omega
        · have := ih (pre ++ [z]) (x' :: X) [] (y :: Y ++ [x]) post (by simp at h ⊢; omega) (by simp) (by simp)
          simp only [List.length_append, List.length_cons, List.length_nil, List.append_assoc, List.cons_append, List.nil_append] at this ⊢
          rw [← this]; congr 1 <;> omega
    · rw [if_neg (by simp)]
      rcases X with _ | ⟨x', X⟩
      · have := ih (pre ++ [z]) (Y ++ [x]) [] (z' :: Z) post (by simp at h ⊢; omega) (by simp) (by simp)
        simp only [List.length_append, List.length_cons, List.length_nil, List.append_assoc, List.cons_append, List.nil_append] at this ⊢
        rw [← this]; congr 1 <;> (try split) <;> omega
      · have := ih (pre ++ [z]) (x' :: X) (Y ++ [x]) (z' :: Z) post (by simp at h ⊢; omega) (by simp) (by simp)
        simp only [List.length_append, List.length_cons, List.length_nil, List.append_assoc, List.cons_append, List.nil_append] at this ⊢
        rw [← this]; congr 1 <;> (try split) <;> omega

theorem rotateLoop1_spec (n : Nat) : ∀ (pre X Y Z post : List α), X.length + Y.length + Z.length = n → X ≠ [] → Z ≠ [] →
    ∃ X' Y', rotateLoop1 (pre ++ (X ++ (Y ++ (Z ++ post)))) pre.length (pre.length + X.length + Y.length)
      (pre.length + X.length) (pre.length + X.length + Y.length + Z.length)
      = some (pre ++ (Z ++ (X' ++ (Y' ++ post))), pre.length + Z.length, pre.length + Z.length + X'.length) ∧
      Y' ++ X' = Y ++ X ∧ Y' ≠ [] := by
  induction n with
  | zero => intro pre X Y Z post h hX; cases X <;> simp_all
  | succ n ih =>
    intro pre X Y Z post h hX hZ
    obtain ⟨x, X, rfl⟩ := List.exists_cons_of_ne_nil hX
    obtain ⟨z, Z, rfl⟩ := List.exists_cons_of_ne_nil hZ
    simp only [List.length_cons] at h ⊢
    rw [rotateLoop1]
    have hs := swp_split (p := pre) (q := X ++ Y) (r := Z ++ post) (x := x) (z := z)
      (i := pre.length) (j := pre.length + (X.length + 1) + Y.length) rfl (by simp; omega)
    simp only [List.append_assoc] at hs
    simp only [List.cons_append, Option.bind_eq_bind, hs, Option.bind_some]
    rcases Z with _ | ⟨z', Z⟩
    · rw [if_pos (by simp)]
      refine ⟨X, Y ++ [x], ?_, by simp, by simp⟩
      simp; omega
    · rw [if_neg (by simp)]
      rcases X with _ | ⟨x', X⟩
      · obtain ⟨X', Y', h1, h2, h3⟩ := ih (pre ++ [z]) (Y ++ [x]) [] (z' :: Z) post (by simp at h ⊢; omega) (by simp) (by simp)
        refine ⟨X', Y', ?_, by simpa using h2, h3⟩
        simp only [List.length_append, List.length_cons, List.length_nil, List.append_assoc, List.cons_append, List.nil_append] at h1 ⊢
        rw [show pre.length + (Z.length + 1 + 1) = pre.length + (0 + 1) + (Z.length + 1) by omega, ← h1]
        congr 1 <;> (try split) <;> omega
      · obtain ⟨X', Y', h1, h2, h3⟩ := ih (pre ++ [z]) (x' :: X) (Y ++ [x]) (z' :: Z) post (by simp at h ⊢; omega) (by simp) (by simp)
        refine ⟨X', Y', ?_, by simpa using h2, h3⟩
        simp only [List.length_append, List.length_cons, List.length_nil, List.append_assoc, List.cons_append, List.nil_append] at h1 ⊢
        rw [show pre.length + (Z.length + 1 + 1) = pre.length + (0 + 1) + (Z.length + 1) by omega, ← h1]
        congr 1 <;> (try split) <;> omega

theorem rotate_spec (pre X Z post : List α) :
    rotate (pre ++ (X ++ (Z ++ post))) pre.length (pre.length + X.length) (pre.length + X.length + Z.length)
      = some (pre ++ (Z ++ (X ++ post)), pre.length + Z.length) := by
  unfold rotate
  by_cases hX : X = []
  · subst hX; simp
  · by_cases hZ : Z = []
    · subst hZ; simp
    · have hX' : 0 < X.length := List.length_pos_iff.mpr hX
      have hZ' : 0 < Z.length := List.length_pos_iff.mpr hZ
      rw [if_neg (by omega), if_neg (by omega)]
      obtain ⟨X', Y', h1, h2, h3⟩ := rotateLoop1_spec _ pre X [] Z post rfl hX hZ
      simp only [List.length_nil, Nat.add_zero, List.nil_append] at h1 h2
      rw [h1]
      simp only [Option.bind_eq_bind, Option.bind_some]
      by_cases hX' : X' = []
      · subst hX'
        simp only [List.append_nil] at h2
        subst h2
        simp
      · have : 0 < X'.length := List.length_pos_iff.mpr hX'
        rw [if_neg (by omega)]
        have h4 := rotateLoop2_spec _ (pre ++ Z) X' [] Y' post rfl hX' h3
        simp only [List.length_append, List.length_nil, Nat.add_zero, List.nil_append, List.append_assoc] at h4
        have h5 : X.length = Y'.length + X'.length := by rw [← h2]; simp
        rw [show pre.length + X.length + Z.length = pre.length + Z.length + X'.length + Y'.length by omega, h4]
        simp only [Option.bind_some]
        rw [← h2]; simp

/-! ### unique -/

theorem dedupFrom_length (p : α → α → Bool) : ∀ (xs : List α) (v : α), (dedupFrom p v xs).length ≤ xs.length := by
  intro xs
  induction xs with
  | nil => intro v; simp [dedupFrom]
  | cons x xs ih =>
    intro v
    simp only [dedupFrom]
    split
    · have := ih v; simp; omega
    · have := ih x; simp; omega

theorem dedup_length (p : α → α → Bool) (xs : List α) : (dedup p xs).length ≤ xs.length := by
  rcases xs with _ | ⟨x, xs⟩
  · simp [dedup]
  · simp [dedup, dedupFrom_length]

theorem uniqueLoop_spec (p : α → α → Bool) : ∀ (xs m : List α) (s d : Nat) (v : α), Seg m s xs → d < s → s + xs.length ≤ m.length →
    uniqueLoop p m s (s + xs.length) d v
      = some (overwrite m d (v :: dedupFrom p v xs), d + (dedupFrom p v xs).length + 1) := by
  intro xs
  induction xs with
  | nil =>
    intro m s d v _ hd hl
    rw [uniqueLoop, if_pos (by simp)]
    simp only [List.length_nil, Nat.add_zero] at hl
    rw [wr_eq (by omega)]
    simp only [dedupFrom, Option.bind_eq_bind, Option.bind_some]
    rw [← overwrite_cons (by simp; omega), overwrite_nil]; simp
  | cons x xs ih =>
    intro m s d v hs hd hl
    obtain ⟨h1, h2⟩ := hs.cons
    simp only [List.length_cons] at hl
    rw [uniqueLoop, if_neg (by simp)]
    simp only [rd, h1, Option.bind_eq_bind, Option.bind_some, List.length_cons]
    rw [show s + (xs.length + 1) = s + 1 + xs.length by omega]
    cases hp : p v x with
    | true =>
      simp only [Bool.not_true, Bool.false_eq_true, if_false, dedupFrom, hp, if_true]
      exact ih m (s + 1) d v h2 (by omega) (by omega)
    | false =>
      simp only [Bool.not_false, if_true, dedupFrom, hp, Bool.false_eq_true, if_false]
      rw [wr_eq (by omega)]
      simp only [Option.bind_some]
      rw [List.getElem?_set_ne (by omega), h1]
      simp only [Option.bind_some]
      have hle := dedupFrom_length p xs x
      rw [ih (m.set d v) (s + 1) (d + 1) x (h2.set (by omega)) (by omega) (by simp; omega),
        overwrite_cons (by simp; omega)]
      simp; omega

theorem unique_spec (p : α → α → Bool) (pre xs post : List α) :
    unique p (pre ++ xs ++ post) pre.length (pre.length + xs.length)
      = some (pre ++ dedup p xs ++ xs.drop (dedup p xs).length ++ post, pre.length + (dedup p xs).length) := by
  unfold unique
  rcases xs with _ | ⟨x, xs⟩
  · simp [dedup]
  · rw [if_neg (by simp)]
    obtain ⟨h1, h2⟩ := (Seg.of_append pre (x :: xs) post).cons
    simp only [rd, h1, Option.bind_eq_bind, Option.bind_some, List.length_cons]
    rw [show pre.length + (xs.length + 1) = pre.length + 1 + xs.length by omega,
      uniqueLoop_spec p xs _ _ _ _ h2 (by omega) (by simp; omega)]
    have hle := dedupFrom_length p xs x
    rw [overwrite_segment (by simp; omega)]
    simp only [dedup, List.length_cons, Nat.add_assoc]

theorem uniqueCopyLoop_spec (p : α → α → Bool) : ∀ (xs m : List α) (s d : Nat) (v : α), Seg m s xs →
    (d ≤ s ∨ s + xs.length ≤ d) → d + (dedupFrom p v xs).length ≤ m.length →
    uniqueCopyLoop p m s (s + xs.length) d v
      = some (overwrite m d (dedupFrom p v xs), d + (dedupFrom p v xs).length) := by
  intro xs
  induction xs with
  | nil => intro m s d v _ _ _; rw [uniqueCopyLoop]; simp [overwrite_nil, dedupFrom]
  | cons x xs ih =>
    intro m s d v hs hd hr
    obtain ⟨h1, h2⟩ := hs.cons
    rw [uniqueCopyLoop, if_neg (by simp)]
    simp only [rd, h1, Option.bind_eq_bind, Option.bind_some, List.length_cons] at hd ⊢
    rw [show s + (xs.length + 1) = s + 1 + xs.length by omega]
    cases hp : p v x with
    | true =>
      simp only [Bool.not_true, Bool.false_eq_true, if_false, dedupFrom, hp, if_true] at hr ⊢
      exact ih m (s + 1) d v h2 (by omega) hr
    | false =>
      simp only [Bool.not_false, if_true, dedupFrom, hp, Bool.false_eq_true, if_false, List.length_cons] at hr ⊢
      rw [wr_eq (by omega)]
      simp only [Option.bind_some]
      rw [ih (m.set d x) (s + 1) (d + 1) x (h2.set (by omega)) (by omega) (by simp; omega), overwrite_cons hr]
      congr 2; omega

theorem uniqueCopy_spec (p : α → α → Bool) (xs m : List α) (s d : Nat) (hs : Seg m s xs)
    (hd : d ≤ s ∨ s + xs.length ≤ d) (hr : d + (dedup p xs).length ≤ m.length) :
    uniqueCopy p m s (s + xs.length) d = some (overwrite m d (dedup p xs), d + (dedup p xs).length) := by
  unfold uniqueCopy
  rcases xs with _ | ⟨x, xs⟩
  · simp [dedup, overwrite_nil]
  · rw [if_neg (by simp)]
    obtain ⟨h1, h2⟩ := hs.cons
    simp only [dedup, List.length_cons] at hr hd ⊢
    simp only [rd, h1, Option.bind_eq_bind, Option.bind_some]
    rw [wr_eq (by omega)]
    simp only [Option.bind_some]
    rw [show s + (xs.length + 1) = s + 1 + xs.length by omega,
      uniqueCopyLoop_spec p xs (m.set d x) (s + 1) (d + 1) x (h2.set (by omega)) (by omega) (by simp; omega),
      overwrite_cons hr]
    congr 2; omega

/-! ### partition -/

theorem findIfNotRa_eq (pre xs post : List α) (p : α → Bool) :
    findIfNotRa (pre ++ xs ++ post) pre.length (pre.length + xs.length) p
      = some (pre.length + xs.findIdx (fun x => !p x)) := findIfRa_eq pre xs post _

theorem findIdx_append_false {p : α → Bool} : ∀ (xs ys : List α), (∀ x ∈ xs, p x = false) →
    (xs ++ ys).findIdx p = xs.length + ys.findIdx p := by
  intro xs
  induction xs with
  | nil => intro ys _; simp
  | cons x xs ih =>
    intro ys h
    have h1 := h x (by simp)
    have h2 := ih ys (fun y hy => h y (by simp [hy]))
    simp [List.findIdx_cons, h1, h2]; omega

theorem partitionLoop_spec (p : α → Bool) : ∀ (n : Nat) (pre T F U post : List α), U.length = n →
    (∀ x ∈ T, p x = true) → (∀ x ∈ F, p x = false) → F ≠ [] → (U.findIdx p = 0 ) →
    ∃ T' F', partitionLoop p (pre ++ (T ++ (F ++ (U ++ post)))) (pre.length + T.length)
      (pre.length + T.length + F.length) (pre.length + T.length + F.length + U.length)
      = some (pre ++ (T' ++ (F' ++ post)), pre.length + T'.length) ∧
      (∀ x ∈ T', p x = true) ∧ (∀ x ∈ F', p x = false) ∧ (T' ++ F').Perm (T ++ (F ++ U)) := by
  intro n
  induction n using Nat.strongRecOn with
  | ind n ih =>
    intro pre T F U post hn hT hF hF0 hU
    rw [partitionLoop]
    rcases U with _ | ⟨u, U⟩
    · rw [if_pos (by simp)]
      exact ⟨T, F, by simp, hT, hF, by simp⟩
    · rw [if_neg (by simp)]
      obtain ⟨f, F, rfl⟩ := List.exists_cons_of_ne_nil hF0
      have hpu : p u = true := by
        rw [List.findIdx_cons] at hU
        cases h : p u with
        | true => rfl
        | false => simp [h] at hU
      have hpf : p f = false := hF f (by simp)
      have hs := swp_split (p := pre ++ T) (q := F) (r := U ++ post) (x := f) (z := u)
        (i := pre.length + T.length) (j := pre.length + T.length + (f :: F).length) (by simp) (by simp; omega)
      simp only [List.append_assoc] at hs
      simp only [List.cons_append, hs, Option.bind_eq_bind, Option.bind_some]
      -- find_if_not from the boundary
      have h1 := findIfNotRa_eq (pre ++ T) (u :: (F ++ f :: U)) post p
      have e1 : (u :: (F ++ f :: U)).findIdx (fun x => !p x) = 1 := by
        rw [List.findIdx_cons]
        simp only [hpu, Bool.not_true, cond_false]
        rcases F with _ | ⟨g, F⟩
        · simp [List.findIdx_cons, hpf]
        · have : p g = false := hF g (by simp)
          simp [List.findIdx_cons, this]
      rw [e1] at h1
      simp only [List.length_append, List.append_assoc, List.cons_append, List.length_cons] at h1 ⊢
      rw [show pre.length + T.length + (F.length + 1) + (U.length + 1) = pre.length + T.length + (F.length + (U.length + 1) + 1) by omega, h1]
      simp only [Option.bind_some]
      -- find_if from the hole
      have h2 := findIfRa_eq (pre ++ (T ++ (u :: F))) (f :: U) post p
      have e2 : (f :: U).findIdx p = U.findIdx p + 1 := by simp [List.findIdx_cons, hpf]
      rw [e2] at h2
      simp only [List.length_append, List.append_assoc, List.cons_append, List.length_cons] at h2
      rw [show pre.length + T.length + (F.length + 1) = pre.length + (T.length + (F.length + 1)) by omega,
        show pre.length + T.length + (F.length + (U.length + 1) + 1) = pre.length + (T.length + (F.length + 1)) + (U.length + 1) by omega, h2]
      simp only [Option.bind_some]
      have hle := List.findIdx_le_length (p := p) (xs := U)
      obtain ⟨T', F', h3, h4, h5, h6⟩ := ih (U.drop (U.findIdx p)).length (by simp at hn ⊢; omega) pre (T ++ [u])
        (F ++ (f :: U.take (U.findIdx p))) (U.drop (U.findIdx p)) post rfl
        (by simpa [or_imp, forall_and, hpu] using hT)
        (by
          intro x hx
          simp only [List.mem_append, List.mem_cons] at hx
          rcases hx with hx | rfl | hx
          · exact hF x (by simp [hx])
          · exact hpf
          · obtain ⟨i, hi, rfl⟩ := List.getElem_of_mem hx
            simp only [List.length_take] at hi
            rw [List.getElem_take]
            simpa using List.not_of_lt_findIdx (show i < U.findIdx p by omega))
        (by simp)
        (by
          rcases Nat.lt_or_ge (U.findIdx p) U.length with h | h
          · have := List.findIdx_getElem (w := h)
            rw [List.drop_eq_getElem_cons h, List.findIdx_cons, this]; rfl
          · rw [List.drop_eq_nil_of_le h]; rfl)
      refine ⟨T', F', ?_, h4, h5, ?_⟩
      · have e3 : U.take (U.findIdx p) ++ (U.drop (U.findIdx p) ++ post) = U ++ post := by
          rw [← List.append_assoc, List.take_append_drop]
        simp only [List.length_append, List.append_assoc, List.cons_append, List.length_cons, List.length_nil, List.nil_append,
          List.length_take, List.length_drop, e3] at h3
        rw [← h3]
        congr 1 <;> omega
      · refine h6.trans ?_
        rw [show T ++ [u] ++ (F ++ f :: List.take (List.findIdx p U) U ++ List.drop (List.findIdx p U) U) = T ++ (u :: (F ++ f :: U)) by
          simp [List.take_append_drop]]
        refine List.Perm.append_left T ?_
        calc u :: (F ++ f :: U) |>.Perm (u :: f :: (F ++ U)) := List.Perm.cons u List.perm_middle
          _ |>.Perm (f :: u :: (F ++ U)) := List.Perm.swap ..
          _ |>.Perm (f :: (F ++ u :: U)) := List.Perm.cons f List.perm_middle.symm

theorem partition_spec (p : α → Bool) (pre xs post : List α) :
    ∃ T F, partition p (pre ++ xs ++ post) pre.length (pre.length + xs.length)
      = some (pre ++ T ++ F ++ post, pre.length + T.length) ∧
      (∀ x ∈ T, p x = true) ∧ (∀ x ∈ F, p x = false) ∧ (T ++ F).Perm xs := by
  unfold partition
  rw [findIfNotRa_eq]
  simp only [Option.bind_eq_bind, Option.bind_some]
  have hle := List.findIdx_le_length (p := fun x => !p x) (xs := xs)
  obtain ⟨T, U, hTU, hTl⟩ : ∃ T U, T ++ U = xs ∧ T.length = xs.findIdx (fun x => !p x) :=
    ⟨_, _, List.take_append_drop (xs.findIdx (fun x => !p x)) xs, by simp; omega⟩
  have hT : ∀ x ∈ T, p x = true := by
    intro x hx
    obtain ⟨i, hi, rfl⟩ := List.getElem_of_mem hx
    have := List.not_of_lt_findIdx (p := fun x => !p x) (xs := xs) (i := i) (by omega)
    subst hTU
    rw [List.getElem_append_left hi] at this
    simpa using this
  rw [← hTl]
  have hU0 : U ≠ [] → U.findIdx (fun x => !p x) = 0 := by
    intro hU
    have h1 : (T ++ U).findIdx (fun x => !p x) = T.length + U.findIdx (fun x => !p x) :=
      findIdx_append_false T U (fun x hx => by simp [hT x hx])
    rw [hTU] at h1; omega
  subst hTU
  have h2 := findIfRa_eq (pre ++ T) U post p
  simp only [List.length_append, List.append_assoc, Nat.add_assoc] at h2 ⊢
  rw [h2]
  simp only [Option.bind_some]
  by_cases hU : U = []
  · subst hU
    rw [partitionLoop]
    simp only [List.findIdx_nil, List.length_nil, Nat.add_zero, if_true, List.append_nil]
    exact ⟨T, [], by simp, hT, by simp, by simp⟩
  · obtain ⟨u, V, rfl⟩ := List.exists_cons_of_ne_nil hU
    have hpu : p u = false := by
      have := hU0 hU
      rw [List.findIdx_cons] at this
      cases h : p u with
      | true => simp [h] at this
      | false => rfl
    have hle2 := List.findIdx_le_length (p := p) (xs := V)
    obtain ⟨T', F', h3, h4, h5, h6⟩ := partitionLoop_spec p _ pre T (u :: V.take (V.findIdx p)) (V.drop (V.findIdx p)) post rfl
        hT
        (by
          intro x hx
          simp only [List.mem_cons] at hx
          rcases hx with rfl | hx
          · exact hpu
          · obtain ⟨i, hi, rfl⟩ := List.getElem_of_mem hx
            simp only [List.length_take] at hi
            rw [List.getElem_take]
            simpa using List.not_of_lt_findIdx (show i < V.findIdx p by omega))
        (by simp)
        (by
          rcases Nat.lt_or_ge (V.findIdx p) V.length with h | h
          · have := List.findIdx_getElem (w := h)
            rw [List.drop_eq_getElem_cons h, List.findIdx_cons, this]; rfl
          · rw [List.drop_eq_nil_of_le h]; rfl)
    have e3 : V.take (V.findIdx p) ++ (V.drop (V.findIdx p) ++ post) = V ++ post := by
      rw [← List.append_assoc, List.take_append_drop]
    have e2 : (u :: V).findIdx p = V.findIdx p + 1 := by simp [List.findIdx_cons, hpu]
    refine ⟨T', F', ?_, h4, h5, ?_⟩
    · rw [e2]
      simp only [List.length_append, List.append_assoc, List.cons_append, List.length_cons, List.length_nil, List.nil_append,
          List.length_take, List.length_drop, e3] at h3 ⊢
      rw [← h3]
      congr 1 <;> omega
    · simpa [List.take_append_drop] using h6

/-! ### stable_partition never moves anything -/

theorem findIfNotRa_total (m : List α) (first last : Nat) (h1 : first ≤ last) (h2 : last ≤ m.length) (p : α → Bool) :
    findIfNotRa m first last p = some (first + ((m.drop first).take (last - first)).findIdx (fun x => !p x)) := by
  have := findIfNotRa_eq (m.take first) ((m.drop first).take (last - first)) ((m.drop first).drop (last - first)) p
  rw [List.append_assoc, List.take_append_drop, List.take_append_drop] at this
  simp only [List.length_take, List.length_drop] at this
  rw [show min first m.length = first by omega, show first + min (last - first) (m.length - first) = last by omega] at this
  exact this

theorem inplaceStablePartition_noop (p : α → Bool) : ∀ (len : Nat) (m : List α) (first : Nat), 1 ≤ len → first + len ≤ m.length →
    inplaceStablePartition p m first len = some (m, first) := by
  intro len
  induction len using Nat.strongRecOn with
  | ind len ih =>
    intro m first h1 h2
    rw [inplaceStablePartition]
    by_cases h : len = 1
    · rw [if_pos h]
    · rw [if_neg h]
      simp only [Option.bind_eq_bind]
      rw [ih (len / 2) (by omega) m first (by omega) (by omega)]
      simp only [Option.bind_some]
      rw [findIfNotRa_total m _ _ (by omega) (by omega)]
      simp only [Option.bind_some]
      rw [if_pos (by omega), ih (len - len / 2) (by omega) m _ (by omega) (by omega)]
      simp only [Option.bind_some]
      unfold rotate
      rw [if_neg (by omega), if_pos rfl]
      simp

theorem stablePartition_noop (p : α → Bool) (pre xs post : List α) :
    stablePartition p (pre ++ xs ++ post) pre.length (pre.length + xs.length)
      = some (pre ++ xs ++ post, pre.length + xs.findIdx (fun x => !p x)) := by
  unfold stablePartition
  rw [findIfNotRa_eq]
  simp only [Option.bind_eq_bind, Option.bind_some]
  have hle := List.findIdx_le_length (p := fun x => !p x) (xs := xs)
  split
  · rfl
  · rw [inplaceStablePartition_noop p _ _ _ (by omega) (by simp; omega)]

/-! ### partition_copy -/

/-- Two-destination write, with destinations disjoint from the source and from each other. -/
theorem partitionCopy_spec (p : α → Bool) : ∀ (xs m : List α) (s d e : Nat), Seg m s xs →
    (d ≤ s ∨ s + xs.length ≤ d) → (e ≤ s ∨ s + xs.length ≤ e) →
    d + (xs.filter p).length ≤ m.length → e + (xs.filter (fun x => !p x)).length ≤ m.length →
    (d + (xs.filter p).length ≤ e ∨ e + (xs.filter (fun x => !p x)).length ≤ d) →
    partitionCopy p m s (s + xs.length) d e
      = some (overwrite (overwrite m d (xs.filter p)) e (xs.filter (fun x => !p x)),
          d + (xs.filter p).length, e + (xs.filter (fun x => !p x)).length) := by
  intro xs
  induction xs with
  | nil => intro m s d e _ _ _ _ _ _; rw [partitionCopy]; simp [overwrite_nil]
  | cons x xs ih =>
    intro m s d e hs hd he hr hr' hdis
    obtain ⟨h1, h2⟩ := hs.cons
    rw [partitionCopy, if_neg (by simp)]
    simp only [rd, h1, Option.bind_eq_bind, Option.bind_some, List.length_cons] at hd he ⊢
    rw [show s + (xs.length + 1) = s + 1 + xs.length by omega]
    cases hp : p x with
    | true =>
      simp only [List.filter_cons, hp, if_true, Bool.not_true, Bool.false_eq_true, if_false, List.length_cons] at hr hr' hdis ⊢
      rw [wr_eq (by omega)]
      simp only [Option.bind_some]
      rw [ih (m.set d x) (s + 1) (d + 1) e (h2.set (by omega)) (by omega) (by omega) (by simp; omega) (by simp; omega) (by omega),
        overwrite_cons hr]
      congr 3; omega
    | false =>
      simp only [List.filter_cons, hp, if_true, Bool.not_false, Bool.false_eq_true, if_false, List.length_cons] at hr hr' hdis ⊢
      rw [wr_eq (by omega)]
      simp only [Option.bind_some]
      rw [ih (m.set e x) (s + 1) d (e + 1) (h2.set (by omega)) (by omega) (by omega) (by simp; omega) (by simp; omega) (by omega)]
      have hov : overwrite (m.set e x) d (xs.filter p) = (overwrite m d (xs.filter p)).set e x := by
        apply List.ext_getElem?
        intro i
        rw [overwrite_getElem? (by simp; omega)]
        have := overwrite_getElem? (m := m) (d := d) (ys := xs.filter p) hr i
        have hl := overwrite_length (m := m) (d := d) (ys := xs.filter p) hr
        grind
      rw [hov, overwrite_cons (by rw [overwrite_length hr]; exact hr')]
      congr 3; omega

end Sprout
