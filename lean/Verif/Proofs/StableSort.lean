import Verif.Model.StableSort
import Verif.Proofs.Merge2

namespace Sprout
open Spec
variable {α : Type}

/-- `mb` moves the segment one place up, or (only if `T`) has no result -/
def MoveUp (mb : List α → Nat → Nat → Nat → Option (List α × Nat)) (T : Prop) : Prop :=
  ∀ (A xs : List α) (y : α) (B : List α), xs ≠ [] →
    (∃ d, mb (A ++ xs ++ (y :: B)) A.length (A.length + xs.length) (A.length + xs.length + 1) = some (A ++ (xs.headD y :: xs) ++ B, d)) ∨
    (T ∧ mb (A ++ xs ++ (y :: B)) A.length (A.length + xs.length) (A.length + xs.length + 1) = none)

theorem moveUp_copyBackward : MoveUp (α := α) copyBackward False := by
  intro A xs y B hx
  left
  obtain ⟨x, xs, rfl⟩ := List.exists_cons_of_ne_nil hx
  refine ⟨A.length + 1, ?_⟩
  have h := copyBackward_spec (x :: xs).length (x :: xs) (A ++ (x :: xs) ++ (y :: B)) A.length (A.length + 1) rfl (Seg.of_append A (x :: xs) (y :: B))
    (by omega) (by simp; omega)
  rw [show A.length + 1 + (x :: xs).length = A.length + (x :: xs).length + 1 by omega] at h
  rw [h]
  congr 2
  apply List.ext_getElem?
  intro i
  rw [overwrite_getElem? (by simp; omega)]
  simp only [List.headD_cons, List.append_assoc, List.cons_append]
  grind

theorem moveUp_moveBackward : MoveUp (α := α) moveBackward True := by
  intro A xs y B hx
  right
  refine ⟨trivial, moveBackward_diverges _ _ _ _ ?_⟩
  have := List.length_pos_iff.mpr hx
  omega

theorem linearInsertLoop_spec (comp : α → α → Bool) (val : α) : ∀ (n : Nat) (A S : List α) (s : α) (R : List α) (y : α) (B : List α), R.length = n →
    comp val s = false → (∀ x ∈ R, comp val x = true) →
    linearInsertLoop comp val (A ++ (S ++ [s]) ++ R ++ y :: B) (A.length + (S ++ [s]).length + R.length) = some (A ++ (S ++ [s]) ++ val :: R ++ B) := by
  intro n
  induction n with
  | zero =>
    intro A S s R y B hn hs hR
    have : R = [] := List.length_eq_zero_iff.mp hn
    subst this
    rw [linearInsertLoop, if_neg (by simp)]
    have h1 : rd (A ++ (S ++ [s]) ++ [] ++ y :: B) (A.length + (S ++ [s]).length + ([] : List α).length - 1) = some s := by
      unfold rd
      rw [show A.length + (S ++ [s]).length + ([] : List α).length - 1 = (A ++ S).length by simp]
      simp
    rw [h1]
    simp only [Option.bind_eq_bind, Option.bind_some, hs, Bool.false_eq_true, if_false]
    rw [wr_eq (by simp)]
    congr 1
    rw [show A ++ (S ++ [s]) ++ [] ++ y :: B = (A ++ (S ++ [s])) ++ y :: B by simp,
      show A.length + (S ++ [s]).length + ([] : List α).length = (A ++ (S ++ [s])).length by simp]
    rw [List.set_append_right _ _ (Nat.le_refl _)]
    simp
  | succ n ih =>
    intro A S s R y B hn hs hR
    obtain ⟨R', z, rfl⟩ : ∃ R' z, R = R' ++ [z] := by
      have hne : R ≠ [] := by rintro rfl; simp at hn
      exact ⟨R.dropLast, R.getLast hne, (List.dropLast_append_getLast hne).symm⟩
    rw [linearInsertLoop, if_neg (by simp)]
    have h1 : rd (A ++ (S ++ [s]) ++ (R' ++ [z]) ++ y :: B) (A.length + (S ++ [s]).length + (R' ++ [z]).length - 1) = some z := by
      unfold rd
      rw [show A.length + (S ++ [s]).length + (R' ++ [z]).length - 1 = (A ++ (S ++ [s]) ++ R').length by simp; omega]
      simp
    rw [h1]
    simp only [Option.bind_eq_bind, Option.bind_some, hR z (by simp), if_true]
    rw [wr_eq (by simp; omega)]
    simp only [Option.bind_some]
    have e : (A ++ (S ++ [s]) ++ (R' ++ [z]) ++ y :: B).set (A.length + (S ++ [s]).length + (R' ++ [z]).length) z
        = A ++ (S ++ [s]) ++ R' ++ z :: (z :: B) := by
      rw [show A.length + (S ++ [s]).length + (R' ++ [z]).length = (A ++ (S ++ [s]) ++ (R' ++ [z])).length by simp; omega,
        List.set_append_right _ _ (Nat.le_refl _)]
      simp
    rw [e, show A.length + (S ++ [s]).length + (R' ++ [z]).length - 1 = A.length + (S ++ [s]).length + R'.length by simp]
    rw [ih A S s R' z (z :: B) (by simpa using hn) hs (fun x hx => hR x (by simp [hx]))]
    simp

/-- inserting `x` behind its equivalents -/
theorem stable_insert {comp : α → α → Bool} (hc : StrictWeak comp) {P S1 S2 : List α} {x : α} (h : StableSorted comp P (S1 ++ S2))
    (h1 : ∀ s ∈ S1, comp x s = false) (h2 : ∀ s ∈ S2, comp x s = true) : StableSorted comp (P ++ [x]) (S1 ++ x :: S2) := by
  obtain ⟨hs, hcl⟩ := h
  obtain ⟨a, b, c⟩ := sorted_append.mp hs
  refine ⟨sorted_append.mpr ⟨a, sorted_cons.mpr ⟨fun s hs => hc.asymm (h2 s hs), b⟩, ?_⟩, fun v => ?_⟩
  · intro s hs y hy
    rcases List.mem_cons.mp hy with rfl | hy
    · exact h1 s hs
    · exact c s hs y hy
  · rw [cls_append, cls_append, ← hcl v, cls_append]
    by_cases d : comp x v = false ∧ comp v x = false
    · rw [cls_cons_pos d.1 d.2, cls_cons_pos d.1 d.2, cls_above hc d.1 h2, cls_nil]; simp
    · have d' : comp x v = true ∨ comp v x = true := by cases h1 : comp x v <;> cases h2 : comp v x <;> simp_all
      rw [cls_cons_neg d', cls_cons_neg d', cls_nil]; simp

theorem insertOne_spec {mb : List α → Nat → Nat → Nat → Option (List α × Nat)} {T : Prop} (hmb : MoveUp mb T) {comp : α → α → Bool} (hc : StrictWeak comp)
    (A P S : List α) (x : α) (B : List α) (hS : StableSorted comp P S) (hne : S ≠ []) :
    (∃ S', insertOne mb comp (A ++ S ++ x :: B) A.length (A.length + S.length) = some (A ++ S' ++ B) ∧ StableSorted comp (P ++ [x]) S' ∧ S'.length = S.length + 1 ∧
      ∀ s, S.head? = some s → comp x s = false → S'.head? = some s) ∨
    (T ∧ insertOne mb comp (A ++ S ++ x :: B) A.length (A.length + S.length) = none ∧ ∃ s, S.head? = some s ∧ comp x s = true) := by
  obtain ⟨S1, S2, rfl, hT, hF⟩ := sorted_split_upper hc x S hS.1
  have hst := stable_insert hc hS hT hF
  unfold insertOne
  have hx : (A ++ (S1 ++ S2) ++ x :: B)[A.length + (S1 ++ S2).length]? = some x := by
    rw [show A.length + (S1 ++ S2).length = (A ++ (S1 ++ S2)).length by simp]; simp
  rcases List.eq_nil_or_concat S1 with rfl | ⟨S1', s, rfl⟩
  · obtain ⟨s, S2, rfl⟩ := List.exists_cons_of_ne_nil hne
    have hs : (A ++ ([] ++ s :: S2) ++ x :: B)[A.length]? = some s := by simp
    rw [cmpAt_some hx hs, hF s (by simp)]
    simp only [Option.bind_eq_bind, Option.bind_some, if_true, rd, hx]
    rcases hmb A ([] ++ s :: S2) x B hne with ⟨d, h⟩ | ⟨t, h⟩
    · left
      rw [h]
      simp only [Option.bind_some]
      rw [wr_eq (by simp)]
      refine ⟨_, by simp, hst, by simp, ?_⟩
      intro s' hs' hx'
      simp at hs'
      rw [← hs', hF s (by simp)] at hx'
      cases hx'
    · right
      rw [h]
      exact ⟨t, rfl, s, rfl, hF s (by simp)⟩
  · left
    rw [List.concat_eq_append] at hx hst hT hS hne ⊢
    have hs0 : ∃ s0, (A ++ (S1' ++ [s] ++ S2) ++ x :: B)[A.length]? = some s0 ∧ comp x s0 = false := by
      cases S1' with
      | nil => exact ⟨s, by simp, hT s (by simp)⟩
      | cons s0 S1'' => exact ⟨s0, by simp, hT s0 (by simp)⟩
    obtain ⟨s0, g1, g2⟩ := hs0
    rw [cmpAt_some hx g1, g2]
    simp only [Option.bind_eq_bind, Option.bind_some, Bool.false_eq_true, if_false, unguardedLinearInsert, rd, hx]
    have := linearInsertLoop_spec comp x _ A S1' s S2 x B rfl (hT s (by simp)) hF
    refine ⟨S1' ++ [s] ++ x :: S2, ?_, hst, by simp; omega, fun s' h _ => by cases S1' <;> simpa using h⟩
    rw [show A ++ (S1' ++ [s] ++ S2) ++ x :: B = A ++ (S1' ++ [s]) ++ S2 ++ x :: B by simp,
      show A.length + (S1' ++ [s] ++ S2).length = A.length + (S1' ++ [s]).length + S2.length by simp; omega, this]
    simp

theorem insertionSortLoop_spec {mb : List α → Nat → Nat → Nat → Option (List α × Nat)} {T : Prop} (hmb : MoveUp mb T) {comp : α → α → Bool} (hc : StrictWeak comp)
    (A B : List α) : ∀ (R P S : List α), StableSorted comp P S → S ≠ [] →
    (∃ Z, insertionSortLoop mb comp (A ++ S ++ (R ++ B)) A.length (A.length + S.length + R.length) (A.length + S.length) = some (A ++ Z ++ B) ∧
      StableSorted comp (P ++ R) Z ∧ Z.length = S.length + R.length) ∨
    (T ∧ insertionSortLoop mb comp (A ++ S ++ (R ++ B)) A.length (A.length + S.length + R.length) (A.length + S.length) = none) := by
  intro R
  induction R with
  | nil =>
    intro P S h hne
    left
    rw [insertionSortLoop, if_pos (by simp)]
    exact ⟨S, by simp, by simpa using h, by simp⟩
  | cons x R ih =>
    intro P S h hne
    rw [insertionSortLoop, if_neg (by simp)]
    rw [List.cons_append]
    rcases insertOne_spec hmb hc A P S x (R ++ B) h hne with ⟨S', g1, g2, g3, -⟩ | ⟨t, g1, -⟩
    · rw [g1]
      simp only [Option.bind_eq_bind, Option.bind_some]
      have := ih (P ++ [x]) S' g2 (by rintro rfl; simp at g3)
      rw [g3] at this
      rw [show A.length + (S.length + 1) + R.length = A.length + S.length + (x :: R).length by simp; omega, ← Nat.add_assoc] at this
      simpa [Nat.add_comm, Nat.add_left_comm, Nat.add_assoc] using this
    · right
      rw [g1]
      exact ⟨t, rfl⟩

theorem insertionSort_spec {mb : List α → Nat → Nat → Nat → Option (List α × Nat)} {T : Prop} (hmb : MoveUp mb T) {comp : α → α → Bool} (hc : StrictWeak comp)
    (A xs B : List α) :
    (∃ Z, insertionSort mb comp (A ++ xs ++ B) A.length (A.length + xs.length) = some (A ++ Z ++ B) ∧ StableSorted comp xs Z ∧ Z.length = xs.length) ∨
    (T ∧ insertionSort mb comp (A ++ xs ++ B) A.length (A.length + xs.length) = none) := by
  unfold insertionSort
  cases xs with
  | nil =>
    left
    rw [if_pos (by simp)]
    exact ⟨[], by simp, ⟨.nil, fun _ => rfl⟩, rfl⟩
  | cons x xs =>
    rw [if_neg (by simp)]
    have h := insertionSortLoop_spec hmb hc A B xs [x] [x] ⟨by simp [SortedBy], fun _ => rfl⟩ (by simp)
    rw [show A ++ [x] ++ (xs ++ B) = A ++ (x :: xs) ++ B by simp, show A.length + [x].length + xs.length = A.length + (x :: xs).length by simp; omega] at h
    rcases h with ⟨Z, h1, h2, h3⟩ | h
    · exact .inl ⟨Z, h1, h2, by simp [h3]; omega⟩
    · exact .inr h

theorem StableSorted_trans {comp : α → α → Bool} {P Q Z : List α} (h : StableSorted comp Q Z) (h2 : ∀ v, cls comp v Q = cls comp v P) : StableSorted comp P Z :=
  ⟨h.1, fun v => (h.2 v).trans (h2 v)⟩

theorem inplaceStableSort_spec {mb : List α → Nat → Nat → Nat → Option (List α × Nat)} {T : Prop} (hmb : MoveUp mb T) {comp : α → α → Bool} (hc : StrictWeak comp) :
    ∀ (n : Nat) (A xs B : List α), xs.length = n →
    (∃ Z, inplaceStableSort mb comp (A ++ xs ++ B) A.length (A.length + xs.length) = some (A ++ Z ++ B) ∧ StableSorted comp xs Z ∧ Z.length = xs.length) ∨
    (T ∧ inplaceStableSort mb comp (A ++ xs ++ B) A.length (A.length + xs.length) = none) := by
  intro n
  induction n using Nat.strongRecOn with
  | ind n ih =>
    intro A xs B hn
    rw [inplaceStableSort, Nat.add_sub_cancel_left]
    by_cases h15 : xs.length < 15
    · rw [if_pos h15]
      exact insertionSort_spec hmb hc A xs B
    rw [if_neg h15]
    obtain ⟨X, Y, rfl, hX⟩ : ∃ X Y, xs = X ++ Y ∧ X.length = xs.length / 2 := ⟨xs.take (xs.length / 2), xs.drop (xs.length / 2), by simp, by simp; omega⟩
    have hYl : Y.length = (X ++ Y).length - (X ++ Y).length / 2 := by rw [← hX]; simp
    simp only [Option.bind_eq_bind]
    rw [← hX]
    have hlen : (X ++ Y).length = X.length + Y.length := by simp
    rcases ih X.length (by omega) A X (Y ++ B) rfl with ⟨Z1, g1, g2, g3⟩ | ⟨t, g1⟩
    · rw [show A ++ (X ++ Y) ++ B = A ++ X ++ (Y ++ B) by simp, g1]
      simp only [Option.bind_some]
      rcases ih Y.length (by omega) (A ++ Z1) Y B rfl with ⟨Z2, f1, f2, f3⟩ | ⟨t, f1⟩
      · left
        rw [show A ++ Z1 ++ (Y ++ B) = A ++ Z1 ++ Y ++ B by simp, show A.length + X.length = (A ++ Z1).length by simp [g3],
          show A.length + (X ++ Y).length = (A ++ Z1).length + Y.length by simp [g3]; omega, f1]
        simp only [Option.bind_some]
        obtain ⟨Z, e1, e2, e3⟩ := inplaceMergeImpl_spec hc _ A Z1 Z2 B rfl g2.1 f2.1
        refine ⟨Z, ?_, StableSorted_trans e2 (fun v => by rw [cls_append, cls_append, g2.2, f2.2]), by rw [e3]; simp [g3, f3]⟩
        rw [← e1]
        congr 1 <;> simp [g3, f3] <;> omega
      · right
        rw [show A ++ Z1 ++ (Y ++ B) = A ++ Z1 ++ Y ++ B by simp, show A.length + X.length = (A ++ Z1).length by simp [g3],
          show A.length + (X ++ Y).length = (A ++ Z1).length + Y.length by simp [g3]; omega, f1]
        exact ⟨t, rfl⟩
    · right
      rw [show A ++ (X ++ Y) ++ B = A ++ X ++ (Y ++ B) by simp, g1]
      exact ⟨t, rfl⟩

theorem insertionSortLoop_moveBackward {comp : α → α → Bool} (hc : StrictWeak comp) (A B : List α) (s0 : α) : ∀ (R P S : List α), StableSorted comp P S →
    S.head? = some s0 →
    ((insertionSortLoop moveBackward comp (A ++ S ++ (R ++ B)) A.length (A.length + S.length + R.length) (A.length + S.length)).isSome = true ↔
      ∀ r ∈ R, comp r s0 = false) := by
  intro R
  induction R with
  | nil =>
    intro P S h hne
    rw [insertionSortLoop, if_pos (by simp)]
    simp
  | cons x R ih =>
    intro P S h hs0
    have hne : S ≠ [] := by rintro rfl; simp at hs0
    rw [insertionSortLoop, if_neg (by simp)]
    rw [List.cons_append]
    by_cases hx : comp x s0 = true
    · have h1 : (A ++ S ++ x :: (R ++ B))[A.length + S.length]? = some x := by
        rw [show A.length + S.length = (A ++ S).length by simp]; simp
      have h2 : (A ++ S ++ x :: (R ++ B))[A.length]? = some s0 := by
        cases S with
        | nil => simp at hs0
        | cons a S => simp at hs0; simp [hs0]
      unfold insertOne
      rw [cmpAt_some h1 h2, hx]
      have hl := List.length_pos_iff.mpr hne
      simp only [Option.bind_eq_bind, Option.bind_some, if_true, rd, h1, moveBackward_diverges A.length (A ++ S ++ x :: (R ++ B)) (A.length + S.length)
        (A.length + S.length + 1) (by omega), Option.bind_none]
      simp [hx]
    · rw [Bool.not_eq_true] at hx
      rcases insertOne_spec moveUp_moveBackward hc A P S x (R ++ B) h hne with ⟨S', g1, g2, g3, g4⟩ | ⟨t, g1, s, g2, g3⟩
      · rw [g1]
        simp only [Option.bind_eq_bind, Option.bind_some]
        have := ih (P ++ [x]) S' g2 (g4 s0 hs0 hx)
        rw [g3] at this
        rw [show A.length + (S.length + 1) + R.length = A.length + S.length + (x :: R).length by simp; omega, ← Nat.add_assoc] at this
        rw [this]
        simp [hx]
      · rw [hs0] at g2; cases g2; rw [hx] at g3; cases g3

end Sprout
