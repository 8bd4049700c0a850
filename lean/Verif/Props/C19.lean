import Verif.Proofs.Lex
import Verif.Props.C10

/-!
# C19: lexicographical_compare is the dictionary order

`Spec.LexLt` is the dictionary order, positionally (Spec/Lex). Both iterator categories; also the
three-way variant, and the comparison operators of `sprout::array`.
-/

namespace Sprout
open Spec
variable {α : Type}

theorem C19_lexicographical_compare (comp : α → α → Bool) (pre1 xs post1 pre2 ys post2 : List α) :
    ∃ b, lexCompareRa comp (pre1 ++ xs ++ post1) (pre2 ++ ys ++ post2) pre1.length (pre1.length + xs.length) pre2.length (pre2.length + ys.length) = some b ∧
      lexCompareIn comp (pre1 ++ xs ++ post1) (pre2 ++ ys ++ post2) pre1.length (pre1.length + xs.length) pre2.length (pre2.length + ys.length) = some b ∧
      (b = true ↔ LexLt comp xs ys) :=
  ⟨_, (triCompareRa_spec comp _ _ _ _ xs ys (Seg.of_append _ _ _) (Seg.of_append _ _ _)).2,
    (triCompareIn_spec comp _ _ _ _ xs ys (Seg.of_append _ _ _) (Seg.of_append _ _ _)).2, by rw [decide_eq_true_iff, verdict_lt]⟩

theorem C19_tristate (comp : α → α → Bool) (hc : StrictWeak comp) (pre1 xs post1 pre2 ys post2 : List α) :
    ∃ c, triCompareRa comp (pre1 ++ xs ++ post1) (pre2 ++ ys ++ post2) pre1.length (pre1.length + xs.length) pre2.length (pre2.length + ys.length) = some c ∧
      triCompareIn comp (pre1 ++ xs ++ post1) (pre2 ++ ys ++ post2) pre1.length (pre1.length + xs.length) pre2.length (pre2.length + ys.length) = some c ∧
      (c = -1 ∨ c = 0 ∨ c = 1) ∧ (c = -1 ↔ LexLt comp xs ys) ∧ (c = 1 ↔ LexLt comp ys xs) :=
  ⟨_, (triCompareRa_spec comp _ _ _ _ xs ys (Seg.of_append _ _ _) (Seg.of_append _ _ _)).1,
    (triCompareIn_spec comp _ _ _ _ xs ys (Seg.of_append _ _ _) (Seg.of_append _ _ _)).1, verdict_range .., verdict_lt .., verdict_gt hc ..⟩

/-- The dictionary order of a strict weak order is a strict weak order. -/
theorem C19_strict_weak (comp : α → α → Bool) (hc : StrictWeak comp) :
    (∀ a, ¬ LexLt comp a a) ∧ (∀ a b c, LexLt comp a b → LexLt comp b c → LexLt comp a c) ∧
    (∀ a b c, LexLt comp a c → LexLt comp a b ∨ LexLt comp b c) :=
  ⟨lexLt_irrefl hc, lexLt_trans hc, lexLt_cotrans hc⟩

/-- total if the order on the elements is -/
theorem C19_total (comp : α → α → Bool) (ht : ∀ a b, comp a b = false → comp b a = false → a = b) (a b : List α) :
    LexLt comp a b ∨ a = b ∨ LexLt comp b a := lexLt_trichotomy ht a b

theorem arrLt_spec (lt : α → α → Bool) (a b : List α) : arrLt lt a b = some (decide (verdict lt a b = -1)) := by
  have := (triCompareRa_spec lt a b 0 0 a b (by simpa using Seg.of_append [] a []) (by simpa using Seg.of_append [] b [])).2
  simpa [arrLt] using this

/-- All six operators of `sprout::array<T, N>` are defined, and consistent: `<` is the dictionary order,
`>` its converse, `<=` and `>=` the negations, `!=` the negation of `==`. -/
theorem C19_array_operators (lt eq : α → α → Bool) (a b : List α) (hl : a.length = b.length) :
    ∃ e l g, arrEq eq a b = some e ∧ arrNe eq a b = some (!e) ∧ arrLt lt a b = some l ∧ arrGt lt a b = some g ∧
      arrLe lt a b = some (!g) ∧ arrGe lt a b = some (!l) ∧ (l = true ↔ LexLt lt a b) ∧ (g = true ↔ LexLt lt b a) ∧
      (e = true ↔ ∀ (i : Nat) x y, a[i]? = some x → b[i]? = some y → eq x y = true) := by
  have h1 := equalRa_eq eq [] a [] [] b [] (by omega)
  simp only [List.nil_append, List.append_nil, List.length_nil, Nat.zero_add] at h1
  refine ⟨_, _, _, h1, by rw [arrNe, arrEq, h1]; rfl, arrLt_spec .., arrLt_spec .., by rw [arrLe, arrLt_spec]; rfl, by rw [arrGe, arrLt_spec]; rfl,
    by rw [decide_eq_true_iff, verdict_lt], by rw [decide_eq_true_iff, verdict_lt], ?_⟩
  rw [List.all_eq_true]
  constructor
  · intro h i x y hx hy
    exact h _ (List.mem_of_getElem? (i := i) (by rw [List.getElem?_zipWith, hx, hy]))
  · intro h v hv
    obtain ⟨i, hi, rfl⟩ := List.getElem_of_mem hv
    rw [List.length_zipWith] at hi
    rw [List.getElem_zipWith]
    exact h i _ _ (List.getElem?_eq_getElem (by omega)) (List.getElem?_eq_getElem (by omega))

/-- Trichotomy of the operators when `==` is the equivalence of `<`: exactly one of `a < b`, `a == b`, `a > b`. -/
theorem C19_array_trichotomy (lt eq : α → α → Bool) (hc : StrictWeak lt) (he : ∀ x y, eq x y = true ↔ Equiv lt x y) (a b : List α) (hl : a.length = b.length) :
    ∃ e l g, arrEq eq a b = some e ∧ arrLt lt a b = some l ∧ arrGt lt a b = some g ∧
      ((l = true ∧ e = false ∧ g = false) ∨ (l = false ∧ e = true ∧ g = false) ∨ (l = false ∧ e = false ∧ g = true)) := by
  have h1 := equalRa_eq eq [] a [] [] b [] (by omega)
  simp only [List.nil_append, List.append_nil, List.length_nil, Nat.zero_add] at h1
  refine ⟨_, _, _, h1, arrLt_spec .., arrLt_spec .., ?_⟩
  simp only [decide_eq_true_eq, decide_eq_false_iff_not, verdict_lt]
  clear h1
  induction a generalizing b with
  | nil =>
    cases b with
    | nil => simp [not_lexLt_nil]
    | cons y b => simp at hl
  | cons x a ih =>
    cases b with
    | nil => simp at hl
    | cons y b =>
      simp only [List.zipWith_cons_cons, List.all_cons, id, lexLt_cons]
      cases h1 : lt x y with
      | true =>
        have : eq x y = false := by rw [Bool.eq_false_iff]; intro h; rw [((he x y).mp h).1] at h1; cases h1
        simp [this, hc.asymm h1, Equiv, h1]
      | false =>
        cases h2 : lt y x with
        | true =>
          have : eq x y = false := by rw [Bool.eq_false_iff]; intro h; rw [((he x y).mp h).2] at h2; cases h2
          simp [this, Equiv, h2]
        | false =>
          have : eq x y = true := (he x y).mpr ⟨h1, h2⟩
          simpa [this, Equiv, h1, h2] using ih b (by simpa using hl)

/-! Non-trivial instances. -/

example : ∃ b, lexCompareRa (fun a b : Nat => decide (a < b)) ([0] ++ [3, 1, 4] ++ []) ([] ++ [3, 1, 5, 0] ++ [7]) 1 4 0 4 = some b ∧
      lexCompareIn (fun a b : Nat => decide (a < b)) ([0] ++ [3, 1, 4] ++ []) ([] ++ [3, 1, 5, 0] ++ [7]) 1 4 0 4 = some b ∧
      (b = true ↔ LexLt (fun a b : Nat => decide (a < b)) [3, 1, 4] [3, 1, 5, 0]) :=
  C19_lexicographical_compare _ [0] [3, 1, 4] [] [] [3, 1, 5, 0] [7]
example : arrLt (fun a b : Nat => decide (a < b)) [3, 1, 4] [3, 2, 0] = some true := (arrLt_spec _ _ _).trans (by decide)
example : ∃ e l g, arrEq (· == ·) [3, 1] [3, 0] = some e ∧ arrLt (fun a b : Nat => decide (a < b)) [3, 1] [3, 0] = some l ∧
    arrGt (fun a b : Nat => decide (a < b)) [3, 1] [3, 0] = some g ∧
      ((l = true ∧ e = false ∧ g = false) ∨ (l = false ∧ e = true ∧ g = false) ∨ (l = false ∧ e = false ∧ g = true)) :=
  C19_array_trichotomy _ _ strictWeak_natLt (fun x y => by simp [Equiv]; omega) [3, 1] [3, 0] rfl

end Sprout
