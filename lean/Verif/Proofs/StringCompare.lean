import Verif.Proofs.StringSearch
import Verif.Spec.StringClass
import Mathlib.Data.List.Lex
import Mathlib.Order.Defs.LinearOrder

/-!
# The verdict of a comparison is the lexicographic order
-/

namespace Sprout.Str
open Spec.Str

theorem verdict_cmp3 (a b : List Int) : Cmp3 a b (verdict Cstr.ilt a b) := by
  induction a generalizing b with
  | nil =>
    cases b with
    | nil => simp [verdict, Cmp3]
    | cons y b => simp [verdict, Cmp3]
  | cons x a ih =>
    cases b with
    | nil => simp [verdict, Cmp3]
    | cons y b =>
      obtain ⟨h1, h2, h3⟩ := ih b
      rw [verdict]
      simp only [Cstr.ilt, decide_eq_true_eq]
      by_cases hxy : x < y
      · rw [if_pos hxy]
        refine ⟨⟨fun _ => List.cons_lt_cons_iff.2 (Or.inl hxy), fun _ => by decide⟩, ⟨fun h => absurd h (by decide), fun h => ?_⟩,
          ⟨fun h => absurd h (by decide), fun h => ?_⟩⟩
        · rw [List.cons_lt_cons_iff] at h; omega
        · rw [List.cons.injEq] at h; omega
      · rw [if_neg hxy]
        by_cases hyx : y < x
        · rw [if_pos hyx]
          refine ⟨⟨fun h => absurd h (by decide), fun h => ?_⟩, ⟨fun _ => List.cons_lt_cons_iff.2 (Or.inl hyx), fun _ => by decide⟩,
            ⟨fun h => absurd h (by decide), fun h => ?_⟩⟩
          · rw [List.cons_lt_cons_iff] at h; omega
          · rw [List.cons.injEq] at h; omega
        · rw [if_neg hyx]
          have e : x = y := by omega
          subst e
          refine ⟨?_, ?_, ?_⟩
          · rw [h1, List.cons_lt_cons_iff]; simp
          · rw [h2, List.cons_lt_cons_iff]; simp
          · rw [h3]; simp

end Sprout.Str
