import Verif.Model.Pair
import Mathlib.Tactic.Common
import Mathlib.Order.Defs.Unbundled

/-!
# C156: pairs

Comparison, construction, assignment and exchange of pairs and arrays.
-/

namespace Sprout

open PairM

variable {α β γ δ : Type}

/-- the requirements of an order: a strict weak order -/
structure Swo (l : α → α → Bool) : Prop where
  irrefl : ∀ a, l a a = false
  trans : ∀ a b c, l a b = true → l b c = true → l a c = true
  incomp : ∀ a b c, l a b = false → l b a = false → l b c = false → l c b = false → l a c = false ∧ l c a = false

/-- equality is that of the elements -/
theorem C156_eq (e1 : α → α → Bool) (e2 : β → β → Bool) (h1 : ∀ a b, e1 a b = true ↔ a = b) (h2 : ∀ a b, e2 a b = true ↔ a = b)
    (x y : Pair α β) : (eq e1 e2 x y = true ↔ x = y) ∧ (ne e1 e2 x y = true ↔ x ≠ y) := by
  have : eq e1 e2 x y = true ↔ x = y := by
    cases x; cases y
    simp [eq, h1, h2]
  refine ⟨this, ?_⟩
  rw [ne, Bool.not_eq_true', ← Bool.not_eq_true, this]

/-- the order is that of dictionaries -/
theorem C156_lex (l1 : α → α → Bool) (l2 : β → β → Bool) (h1 : Swo l1) (x y : Pair α β) :
    lt l1 l2 x y = true ↔ l1 x.first y.first = true ∨
      (l1 x.first y.first = false ∧ l1 y.first x.first = false ∧ l2 x.second y.second = true) := by
  have := h1.trans x.first y.first x.first
  have := h1.irrefl x.first
  simp only [lt, Bool.or_eq_true, Bool.and_eq_true, Bool.not_eq_true']
  cases hx : l1 x.first y.first <;> simp

/-- the order of pairs is a strict weak order if those of the elements are -/
theorem C156_order (l1 : α → α → Bool) (l2 : β → β → Bool) (h1 : Swo l1) (h2 : Swo l2) : Swo (lt l1 l2 : Pair α β → Pair α β → Bool) := by
  have tr : ∀ a b c, l1 a b = true → l1 c b = false → l1 b c = false → l1 a c = true := by
    intro a b c h hc hb
    by_contra hn
    rw [Bool.not_eq_true] at hn
    by_cases hca : l1 c a = true
    · have := h1.trans c a b hca h
      simp_all
    · rw [Bool.not_eq_true] at hca
      have := h1.incomp a c b hn hca hc hb
      simp_all
  have tl : ∀ a b c, l1 a b = false → l1 b a = false → l1 b c = true → l1 a c = true := by
    intro a b c ha hb h
    by_contra hn
    rw [Bool.not_eq_true] at hn
    by_cases hca : l1 c a = true
    · have := h1.trans b c a h hca
      simp_all
    · rw [Bool.not_eq_true] at hca
      have := h1.incomp b a c hb ha hn hca
      simp_all
  refine ⟨?_, ?_, ?_⟩
  · intro a
    simp [lt, h1.irrefl, h2.irrefl]
  · intro a b c hab hbc
    rw [C156_lex _ _ h1] at hab hbc ⊢
    rcases hab with hab | ⟨p1, p2, p3⟩ <;> rcases hbc with hbc | ⟨q1, q2, q3⟩
    · exact Or.inl (h1.trans _ _ _ hab hbc)
    · exact Or.inl (tr _ _ _ hab q2 q1)
    · exact Or.inl (tl _ _ _ p1 p2 hbc)
    · obtain ⟨r1, r2⟩ := h1.incomp _ _ _ p1 p2 q1 q2
      exact Or.inr ⟨r1, r2, h2.trans _ _ _ p3 q3⟩
  · intro a b c hab hba hbc hcb
    simp only [lt, Bool.or_eq_false_iff, Bool.and_eq_false_iff, Bool.not_eq_false'] at *
    have p1 := hab.1
    have p2 := hba.1
    have q1 := hbc.1
    have q2 := hcb.1
    obtain ⟨r1, r2⟩ := h1.incomp _ _ _ p1 p2 q1 q2
    simp only [p1, p2, q1, q2, Bool.false_eq_true, false_or, true_and, r1, r2] at *
    exact h2.incomp _ _ _ hab hba hbc hcb

/-- the other comparisons -/
theorem C156_rel (l1 : α → α → Bool) (l2 : β → β → Bool) (x y : Pair α β) : gt l1 l2 x y = lt l1 l2 y x ∧ le l1 l2 x y = !lt l1 l2 y x ∧
    ge l1 l2 x y = !lt l1 l2 x y := ⟨rfl, rfl, rfl⟩

/-- construction and assignment take each element from its place; an assignment does so from pairs and from tuples that are moved. What is
missing is the assignment from tuples that are not, see `C156_assign_refuted`. -/
theorem C156_assign_partial (f : γ → Option α) (g : δ → Option β) (c : γ) (d : δ) (a : α) (b : β) (hf : f c = some a) (hg : g d = some b)
    (old : Pair α β) : mk2 f g c d = some ⟨a, b⟩ ∧ ofPair f g ⟨c, d⟩ = some ⟨a, b⟩ ∧ ofTuple f g (c, d) = some ⟨a, b⟩ ∧
      assignMove f g old (c, d) = some ⟨a, b⟩ := by
  simp [mk2, ofPair, ofTuple, assignMove, hf, hg]

/-- assigned from a tuple that is not moved, both elements are the first of the tuple -/
theorem C156_assign_refuted : assignConst some some (⟨0, 0⟩ : Pair Nat Nat) (1, 2) = some ⟨1, 1⟩ := by decide

/-- such an assignment is ill-formed where the first element of the tuple cannot be assigned to the second of the pair -/
theorem C156_assign_types_refuted (f : γ → Option α) (old : Pair α β) (t : γ × δ) : assignConst f (fun _ => none) old t = none := by
  simp only [assignConst]
  cases f t.1 <;> rfl

/-- the elements by number -/
theorem C156_get (p : Pair α α) (i : Nat) : get p i = [p.first, p.second][i]? := by
  match i with
  | 0 => rfl
  | 1 => rfl
  | _ + 2 => rfl

/-- `swap` exchanges pairs -/
theorem C156_swap (x y : Pair α β) : swapPair swapScalar swapScalar x y = (y, x) := rfl

/-- pairs of pairs, too -/
theorem C156_swap_nested (s1 : α → α → α × α) (s2 : β → β → β × β) (h1 : ∀ a b, s1 a b = (b, a)) (h2 : ∀ a b, s2 a b = (b, a))
    (x y : Pair α β) : swapPair s1 s2 x y = (y, x) := by
  simp [swapPair, h1, h2]

theorem PairM.swapArrFrom_eq (s : α → α → α × α) (h : ∀ a b, s a b = (b, a)) : ∀ (n : Nat) (p q a b : List α), p.length = q.length →
    a.length = n → b.length = n → swapArrFrom s n p.length (p ++ a) (q ++ b) = some (p ++ b, q ++ a)
  | 0, p, q, a, b, _, ha, hb => by
    rw [List.length_eq_zero_iff] at ha hb
    subst ha hb
    rfl
  | n + 1, p, q, a, b, hpq, ha, hb => by
    obtain ⟨x, a, rfl⟩ := List.exists_cons_of_length_eq_add_one ha
    obtain ⟨y, b, rfl⟩ := List.exists_cons_of_length_eq_add_one hb
    have i1 : (p ++ x :: a)[p.length]? = some x := by simp
    have i2 : (q ++ y :: b)[p.length]? = some y := by rw [hpq]; simp
    have s1 : (p ++ x :: a).set p.length y = (p ++ [y]) ++ a := by simp
    have s2 : (q ++ y :: b).set p.length x = (q ++ [x]) ++ b := by rw [hpq]; simp
    have ih := PairM.swapArrFrom_eq s h n (p ++ [y]) (q ++ [x]) a b (by simp [hpq]) (by simpa using ha) (by simpa using hb)
    simp only [swapArrFrom, i1, i2, Option.bind_eq_bind, Option.bind_some, h, s1, s2]
    simpa using ih

/-- `swap` exchanges arrays -/
theorem C156_swap_array (s : α → α → α × α) (h : ∀ a b, s a b = (b, a)) (N : Nat) (a b : List α) (ha : a.length = N) (hb : b.length = N) :
    swapArr s N a b = some (b, a) := by
  have := PairM.swapArrFrom_eq s h N [] [] a b rfl ha hb
  simpa [swapArr] using this

example : lt (fun a b : Nat => decide (a < b)) (fun a b : Nat => decide (a < b)) ⟨1, 5⟩ ⟨1, 7⟩ = true ∧
    lt (fun a b : Nat => decide (a < b)) (fun a b : Nat => decide (a < b)) ⟨2, 5⟩ ⟨1, 7⟩ = false := by decide

example : Swo fun a b : Nat => decide (a < b) := ⟨by simp, by simp; omega, by simp; omega⟩

example : swapArr swapScalar 3 [1, 2, 3] [4, 5, 6] = some ([4, 5, 6], [1, 2, 3]) := by decide

end Sprout
