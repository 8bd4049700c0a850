import Verif.Proofs.Permutation

/-!
# C10: next_permutation steps to the lexicographic successor

Stated for strict weak orders; for total orders the successor is unique (`C10_next_least`).
-/

namespace Sprout
open Spec
variable {α : Type}

/-- `next_permutation`: memory outside the range is unchanged, the new content is a permutation; it returns true
iff a greater arrangement exists, and then the new content is greater with none in between; otherwise
the new content is the smallest arrangement (sorted). -/
theorem C10_next_permutation (comp : α → α → Bool) (hc : StrictWeak comp) (pre xs post : List α) :
    ∃ zs b, nextPermutation comp (pre ++ xs ++ post) pre.length (pre.length + xs.length) = some (pre ++ zs ++ post, b) ∧ zs.Perm xs ∧
      (b = true ↔ ∃ ys, ys.Perm xs ∧ LexLt comp xs ys) ∧
      (b = true → LexLt comp xs zs ∧ ∀ ys, ys.Perm xs → LexLt comp xs ys → ¬ LexLt comp ys zs) ∧
      (b = false → SortedBy comp zs ∧ ∀ ys, ys.Perm xs → ¬ LexLt comp ys zs) := by
  obtain ⟨zs, b, h1, h2, h3, h4⟩ := perm_spec hc (cmp := fun m i j => cmpAt comp m i j) (fun m i j x y hx hy => cmpAt_some hx hy) pre xs post
  refine ⟨zs, b, h1, h2, ⟨fun hb => ⟨zs, h2, (h3 hb).1⟩, ?_⟩, fun hb => ⟨(h3 hb).1, fun ys hy => (h3 hb).2 ys (Same.of_perm hy)⟩,
    fun hb => ⟨(h4 hb).1, fun ys hy => (h4 hb).2.2 ys (Same.of_perm hy)⟩⟩
  rintro ⟨ys, hy, hl⟩
  cases hb : b with
  | true => rfl
  | false => exact absurd hl ((h4 hb).2.1 ys (Same.of_perm hy))

/-- `prev_permutation`: the mirror image. -/
theorem C10_prev_permutation (comp : α → α → Bool) (hc : StrictWeak comp) (pre xs post : List α) :
    ∃ zs b, prevPermutation comp (pre ++ xs ++ post) pre.length (pre.length + xs.length) = some (pre ++ zs ++ post, b) ∧ zs.Perm xs ∧
      (b = true ↔ ∃ ys, ys.Perm xs ∧ LexLt comp ys xs) ∧
      (b = true → LexLt comp zs xs ∧ ∀ ys, ys.Perm xs → LexLt comp ys xs → ¬ LexLt comp zs ys) ∧
      (b = false → SortedBy (fun x y => comp y x) zs ∧ ∀ ys, ys.Perm xs → ¬ LexLt comp zs ys) := by
  obtain ⟨zs, b, h1, h2, h3, h4⟩ := perm_spec hc.flip (cmp := fun m i j => cmpAt comp m j i) (fun m i j x y hx hy => cmpAt_some hy hx) pre xs post
  refine ⟨zs, b, h1, h2, ⟨fun hb => ⟨zs, h2, ?_⟩, ?_⟩, fun hb => ⟨?_, fun ys hy hl hl' => ?_⟩,
    fun hb => ⟨(h4 hb).1, fun ys hy hl => ?_⟩⟩
  · exact (lexLt_flip xs zs h2.length_eq.symm).mp (h3 hb).1
  · rintro ⟨ys, hy, hl⟩
    cases hb : b with
    | true => rfl
    | false => exact absurd ((lexLt_flip xs ys hy.length_eq.symm).mpr hl) ((h4 hb).2.1 ys (Same.of_perm hy))
  · exact (lexLt_flip xs zs h2.length_eq.symm).mp (h3 hb).1
  · exact (h3 hb).2 ys (Same.of_perm hy) ((lexLt_flip xs ys hy.length_eq.symm).mpr hl) ((lexLt_flip ys zs (hy.length_eq.trans h2.length_eq.symm)).mpr hl')
  · exact (h4 hb).2.2 ys (Same.of_perm hy) ((lexLt_flip ys zs (hy.length_eq.trans h2.length_eq.symm)).mpr hl)

/-- For a strict total order the result is the least greater arrangement. -/
theorem C10_next_least (comp : α → α → Bool) (hc : StrictWeak comp) (ht : ∀ a b, comp a b = false → comp b a = false → a = b) (pre xs zs post : List α)
    (h : nextPermutation comp (pre ++ xs ++ post) pre.length (pre.length + xs.length) = some (pre ++ zs ++ post, true)) :
    zs.Perm xs ∧ LexLt comp xs zs ∧ ∀ ys, ys.Perm xs → LexLt comp xs ys → ys = zs ∨ LexLt comp zs ys := by
  obtain ⟨zs', b, h1, h2, h3, h4, h5⟩ := C10_next_permutation comp hc pre xs post
  rw [h] at h1
  simp only [Option.some.injEq, Prod.mk.injEq, List.append_assoc, List.append_cancel_left_eq, List.append_cancel_right_eq] at h1
  obtain ⟨rfl, rfl⟩ := h1
  refine ⟨h2, (h4 rfl).1, fun ys hy hl => ?_⟩
  rcases lexLt_trichotomy ht ys zs with h | h | h
  · exact absurd h ((h4 rfl).2 ys hy hl)
  · exact Or.inl h
  · exact Or.inr h

/-- For a strict total order `prev_permutation` undoes a successful `next_permutation`. -/
theorem C10_prev_next (comp : α → α → Bool) (hc : StrictWeak comp) (ht : ∀ a b, comp a b = false → comp b a = false → a = b) (pre xs zs post : List α)
    (h : nextPermutation comp (pre ++ xs ++ post) pre.length (pre.length + xs.length) = some (pre ++ zs ++ post, true)) :
    prevPermutation comp (pre ++ zs ++ post) pre.length (pre.length + zs.length) = some (pre ++ xs ++ post, true) := by
  obtain ⟨p1, p2, p3⟩ := C10_next_least comp hc ht pre xs zs post h
  obtain ⟨ws, b, h1, h2, h3, h4, h5⟩ := C10_prev_permutation comp hc pre zs post
  have hb : b = true := h3.mpr ⟨xs, p1.symm, p2⟩
  obtain ⟨g1, g2⟩ := h4 hb
  rw [h1, hb]
  have : ws = xs := by
    rcases lexLt_trichotomy ht ws xs with h | h | h
    · exact absurd h (g2 xs p1.symm p2)
    · exact h
    · rcases p3 ws (h2.trans p1) h with e | e
      · rw [e] at g1; exact absurd g1 (lexLt_irrefl hc _)
      · exact (lexLt_asymm hc _ _ e g1).elim
  rw [this]

/-! Non-trivial instances. -/

theorem strictWeak_natLt : StrictWeak (fun a b : Nat => decide (a < b)) :=
  ⟨by simp, fun a b c h1 h2 => by simp at *; omega, fun a b c h => by simp at *; omega⟩

example : ∃ zs b, nextPermutation (fun a b : Nat => decide (a < b)) ([7] ++ [1, 3, 3, 2] ++ [0]) 1 5 = some ([7] ++ zs ++ [0], b) ∧ zs.Perm [1, 3, 3, 2] ∧
      (b = true ↔ ∃ ys, ys.Perm [1, 3, 3, 2] ∧ LexLt (fun a b : Nat => decide (a < b)) [1, 3, 3, 2] ys) ∧
      (b = true → LexLt (fun a b : Nat => decide (a < b)) [1, 3, 3, 2] zs ∧ ∀ ys, ys.Perm [1, 3, 3, 2] → LexLt (fun a b : Nat => decide (a < b)) [1, 3, 3, 2] ys →
        ¬ LexLt (fun a b : Nat => decide (a < b)) ys zs) ∧
      (b = false → SortedBy (fun a b : Nat => decide (a < b)) zs ∧ ∀ ys, ys.Perm [1, 3, 3, 2] → ¬ LexLt (fun a b : Nat => decide (a < b)) ys zs) :=
  C10_next_permutation _ strictWeak_natLt [7] [1, 3, 3, 2] [0]
example : LexLt (fun a b : Nat => decide (a < b)) [1, 3, 3, 2] [2, 1, 3, 3] :=
  ⟨0, by decide, by simp, by decide, Or.inr ⟨1, 2, rfl, rfl, rfl⟩⟩
/-- the hypothesis of `C10_prev_next` is satisfiable -/
example : nextPermutation (fun a b : Nat => decide (a < b)) ([] ++ [1, 2] ++ []) 0 2 = some ([] ++ [2, 1] ++ [], true) := by
  obtain ⟨zs, b, h1, h2, h3, h4, h5⟩ := C10_next_permutation (fun a b : Nat => decide (a < b)) strictWeak_natLt [] [1, 2] []
  have hb : b = true := h3.mpr ⟨[2, 1], by decide, 0, by decide, by simp, by decide, Or.inr ⟨1, 2, rfl, rfl, rfl⟩⟩
  obtain ⟨g1, -⟩ := h4 hb
  refine h1.trans ?_
  rw [hb]
  have hz : zs = [1, 2] ∨ zs = [2, 1] := by
    have hl := h2.length_eq
    match zs, hl with
    | [a, c], _ =>
      have ha : a ∈ [1, 2] := h2.mem_iff.mp (by simp)
      have hb' : c ∈ [1, 2] := h2.mem_iff.mp (by simp)
      simp only [List.mem_cons, List.not_mem_nil, or_false] at ha hb'
      rcases ha with rfl | rfl <;> rcases hb' with rfl | rfl
      · exact absurd h2 (by decide)
      · simp
      · simp
      · exact absurd h2 (by decide)
  rcases hz with rfl | rfl
  · exact absurd g1 (fun g => lexLt_asymm strictWeak_natLt _ _ g g)
  · rfl

end Sprout
