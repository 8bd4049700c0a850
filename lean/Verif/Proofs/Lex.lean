import Verif.Model.Lex
import Verif.Proofs.Permutation
import Verif.Proofs.Find2
import Verif.Proofs.Doubling

namespace Sprout
open Spec
variable {α : Type}

/-- sequential scan of the common part -/
def lexScan (comp : α → α → Bool) : List α → List α → Int
  | x :: xs, y :: ys => if comp x y then -1 else if comp y x then 1 else lexScan comp xs ys
  | _, _ => 2

theorem lexScan_append (comp : α → α → Bool) : ∀ (a c b d : List α), a.length = c.length →
    lexScan comp (a ++ b) (c ++ d) = if lexScan comp a c ≠ 2 then lexScan comp a c else lexScan comp b d := by
  intro a
  induction a with
  | nil => intro c b d h; cases c with
    | nil => simp [lexScan]
    | cons y c => simp at h
  | cons x a ih =>
    intro c b d h
    cases c with
    | nil => simp at h
    | cons y c =>
      simp only [List.cons_append, lexScan]
      by_cases h1 : comp x y = true
      · simp [h1]
      · by_cases h2 : comp y x = true
        · simp [h1, h2]
        · simpa [h1, h2] using ih c b d (by simpa using h)

theorem lexImplRa_spec (comp : α → α → Bool) (m1 m2 : List α) : ∀ (n : Nat) (i j : Nat) (xs ys : List α), xs.length = n → ys.length = n → 0 < n →
    Seg m1 i xs → Seg m2 j ys → lexImplRa comp m1 m2 i j n 2 = some (lexScan comp xs ys) := by
  intro n
  induction n using Nat.strongRecOn with
  | ind n ih =>
    intro i j xs ys hx hy hn h1 h2
    rw [lexImplRa, if_neg (by simp)]
    by_cases hn1 : n = 1
    · subst hn1
      rw [if_pos rfl]
      match xs, ys, hx, hy with
      | [x], [y], _, _ =>
        have e1 := h1 0 (by simp)
        have e2 := h2 0 (by simp)
        simp only [Nat.add_zero, List.getElem?_cons_zero] at e1 e2
        simp [rd, e1, e2, lexScan]
    · rw [if_neg hn1]
      have hs : ∀ (m : List α) (k : Nat) (zs : List α), zs.length = n → Seg m k zs → Seg m k (zs.take (n / 2)) ∧ Seg m (k + n / 2) (zs.drop (n / 2)) := by
        intro m k zs hz h
        refine ⟨fun t ht => ?_, fun t ht => ?_⟩
        · rw [List.length_take] at ht
          rw [h t (by omega), List.getElem?_take_of_lt (by omega)]
        · rw [List.length_drop] at ht
          rw [Nat.add_assoc, h (n / 2 + t) (by omega), List.getElem?_drop]
      obtain ⟨a1, a2⟩ := hs m1 i xs hx h1
      obtain ⟨b1, b2⟩ := hs m2 j ys hy h2
      rw [ih (n / 2) (by omega) i j (xs.take (n / 2)) (ys.take (n / 2)) (by simp; omega) (by simp; omega) (by omega) a1 b1]
      simp only [Option.bind_eq_bind, Option.bind_some]
      have hap := lexScan_append comp (xs.take (n / 2)) (ys.take (n / 2)) (xs.drop (n / 2)) (ys.drop (n / 2)) (by simp; omega)
      rw [List.take_append_drop, List.take_append_drop] at hap
      rw [hap]
      by_cases hf : lexScan comp (xs.take (n / 2)) (ys.take (n / 2)) = 2
      · rw [hf, if_neg (by simp)]
        exact ih (n - n / 2) (by omega) _ _ _ _ (by simp; omega) (by simp; omega) (by omega) a2 b2
      · rw [lexImplRa, if_pos hf, if_pos hf]

/-- the three-valued verdict -/
def verdict (comp : α → α → Bool) : List α → List α → Int
  | [], [] => 0
  | [], _ :: _ => -1
  | _ :: _, [] => 1
  | x :: xs, y :: ys => if comp x y then -1 else if comp y x then 1 else verdict comp xs ys

theorem verdict_scan (comp : α → α → Bool) : ∀ (xs ys : List α), verdict comp xs ys =
    if lexScan comp (xs.take (min xs.length ys.length)) (ys.take (min xs.length ys.length)) ≠ 2 then
      lexScan comp (xs.take (min xs.length ys.length)) (ys.take (min xs.length ys.length))
    else if xs.length < ys.length then -1 else if xs.length > ys.length then 1 else 0 := by
  intro xs
  induction xs with
  | nil => intro ys; cases ys <;> simp [verdict, lexScan]
  | cons x xs ih =>
    intro ys
    cases ys with
    | nil => simp [verdict, lexScan]
    | cons y ys =>
      rw [verdict, List.length_cons, List.length_cons, show min (xs.length + 1) (ys.length + 1) = min xs.length ys.length + 1 by omega,
        List.take_succ_cons, List.take_succ_cons, lexScan]
      cases comp x y with
      | true => simp
      | false => cases comp y x with
        | true => simp
        | false => simpa using ih ys

theorem lexScan_range (comp : α → α → Bool) : ∀ (xs ys : List α), lexScan comp xs ys = -1 ∨ lexScan comp xs ys = 1 ∨ lexScan comp xs ys = 2 := by
  intro xs
  induction xs with
  | nil => intro ys; simp [lexScan]
  | cons x xs ih =>
    intro ys
    cases ys with
    | nil => simp [lexScan]
    | cons y ys =>
      rw [lexScan]
      cases comp x y with
      | true => simp
      | false => cases comp y x with
        | true => simp
        | false => simpa using ih ys

theorem verdict_lt {comp : α → α → Bool} : ∀ (xs ys : List α), verdict comp xs ys = -1 ↔ LexLt comp xs ys := by
  intro xs
  induction xs with
  | nil => intro ys; cases ys with
    | nil => simp [verdict, not_lexLt_nil]
    | cons y ys => simp [verdict, nil_lexLt_cons]
  | cons x xs ih =>
    intro ys
    cases ys with
    | nil => simp [verdict, not_lexLt_nil]
    | cons y ys =>
      rw [verdict, lexLt_cons, Equiv, ← ih]
      cases h1 : comp x y with
      | true => simp
      | false => cases h2 : comp y x with
        | true => simp
        | false => simp

theorem verdict_gt {comp : α → α → Bool} (hc : StrictWeak comp) : ∀ (xs ys : List α), verdict comp xs ys = 1 ↔ LexLt comp ys xs := by
  intro xs
  induction xs with
  | nil => intro ys; cases ys with
    | nil => simp [verdict, not_lexLt_nil]
    | cons y ys => simp [verdict, not_lexLt_nil]
  | cons x xs ih =>
    intro ys
    cases ys with
    | nil => simp [verdict, nil_lexLt_cons]
    | cons y ys =>
      rw [verdict, lexLt_cons, Equiv, ← ih]
      cases h1 : comp x y with
      | true => simp [hc.asymm h1]
      | false => cases h2 : comp y x with
        | true => simp
        | false => simp

theorem verdict_range (comp : α → α → Bool) : ∀ (xs ys : List α), verdict comp xs ys = -1 ∨ verdict comp xs ys = 0 ∨ verdict comp xs ys = 1 := by
  intro xs ys
  rw [verdict_scan]
  rcases lexScan_range comp (xs.take (min xs.length ys.length)) (ys.take (min xs.length ys.length)) with h | h | h
  · rw [h]; simp
  · rw [h]; simp
  · rw [h, if_neg (by simp)]
    by_cases h1 : xs.length < ys.length
    · rw [if_pos h1]; simp
    · rw [if_neg h1]
      by_cases h2 : xs.length > ys.length
      · rw [if_pos h2]; simp
      · rw [if_neg h2]; simp

theorem seg_take {m : List α} {k : Nat} {zs : List α} (h : Seg m k zs) (n : Nat) : Seg m k (zs.take n) := by
  intro t ht
  rw [List.length_take] at ht
  rw [h t (by omega), List.getElem?_take_of_lt (by omega)]

theorem triCompareRa_spec (comp : α → α → Bool) (m1 m2 : List α) (i j : Nat) (xs ys : List α) (h1 : Seg m1 i xs) (h2 : Seg m2 j ys) :
    triCompareRa comp m1 m2 i (i + xs.length) j (j + ys.length) = some (verdict comp xs ys) ∧
    lexCompareRa comp m1 m2 i (i + xs.length) j (j + ys.length) = some (decide (verdict comp xs ys = -1)) := by
  unfold triCompareRa lexCompareRa
  cases ys with
  | nil =>
    cases xs with
    | nil => simp [verdict]
    | cons x xs => simp [verdict]
  | cons y ys =>
    have hA : ¬ j = j + (y :: ys).length := by simp
    simp only [if_neg hA]
    cases xs with
    | nil => simp [verdict]
    | cons x xs =>
      have hB : ¬ i = i + (x :: xs).length := by simp
      simp only [if_neg hB, Nat.add_sub_cancel_left]
      rw [lexImplRa_spec comp m1 m2 _ i j _ _ (List.length_take.trans (by omega)) (List.length_take.trans (by omega)) (by simp only [List.length_cons]; omega) (seg_take h1 (min (x :: xs).length (y :: ys).length)) (seg_take h2 (min (x :: xs).length (y :: ys).length))]
      simp only [Option.bind_eq_bind, Option.bind_some]
      refine ⟨by rw [← verdict_scan], ?_⟩
      rw [verdict_scan]
      generalize (x :: xs).length = a
      generalize (y :: ys).length = b
      rcases lexScan_range comp (List.take (min a b) (x :: xs)) (List.take (min a b) (y :: ys)) with h | h | h <;> rw [h]
      · simp
      · simp
      · rw [if_neg (by simp)]
        by_cases hab : a < b
        · simp [hab]
        · rw [if_neg hab]
          by_cases hab' : a > b
          · simp [hab, hab']
          · simp [hab, hab']

theorem lexImplIn_run (comp : α → α → Bool) (m1 m2 : List α) : ∀ (xs ys : List α) (i j : Nat), Seg m1 i xs → Seg m2 j ys →
    ∃ k r, Run (finIf fun s : Nat × Nat => s.2 == j + ys.length || s.1 == i + xs.length)
      (fun s => do
        let x ← rd m1 s.1
        let y ← rd m2 s.2
        some (if comp x y then (i + xs.length, s.2) else if comp y x then (s.1, j + ys.length) else (s.1 + 1, s.2 + 1))) k (i, j) r ∧
      ((verdict comp xs ys = 0 ∧ r.1 = i + xs.length ∧ r.2 = j + ys.length) ∨ (verdict comp xs ys = 1 ∧ r.1 ≠ i + xs.length ∧ r.2 = j + ys.length) ∨
        (verdict comp xs ys = -1 ∧ r.1 = i + xs.length ∧ r.2 ≠ j + ys.length)) := by
  intro xs
  induction xs with
  | nil =>
    intro ys i j _ _
    refine ⟨0, (i, j), .stop (by simp [finIf]), ?_⟩
    cases ys <;> simp [verdict]
  | cons x xs ih =>
    intro ys i j h1 h2
    cases ys with
    | nil => exact ⟨0, (i, j), .stop (by simp [finIf]), by simp [verdict]⟩
    | cons y ys =>
      obtain ⟨hx, h1'⟩ := h1.cons
      obtain ⟨hy, h2'⟩ := h2.cons
      have e1 : i + (x :: xs).length = i + 1 + xs.length := by simp; omega
      have e2 : j + (y :: ys).length = j + 1 + ys.length := by simp; omega
      rw [e1, e2, verdict]
      have hfin : (finIf fun s : Nat × Nat => s.2 == j + 1 + ys.length || s.1 == i + 1 + xs.length) (i, j) = none := by
        unfold finIf; rw [if_neg]; simp; omega
      cases hxy : comp x y with
      | true =>
        refine ⟨1, (i + 1 + xs.length, j), .step hfin (t := (i + 1 + xs.length, j)) (by simp [rd, hx, hy, hxy]) (.stop (by simp [finIf])), ?_⟩
        simp; omega
      | false =>
        cases hyx : comp y x with
        | true =>
          refine ⟨1, (i, j + 1 + ys.length), .step hfin (t := (i, j + 1 + ys.length)) (by simp [rd, hx, hy, hxy, hyx]) (.stop (by simp [finIf])), ?_⟩
          simp; omega
        | false =>
          obtain ⟨k, r, g1, g2⟩ := ih ys (i + 1) (j + 1) h1' h2'
          exact ⟨k + 1, r, .step hfin (t := (i + 1, j + 1)) (by simp [rd, hx, hy, hxy, hyx]) g1, by simpa using g2⟩

theorem triCompareIn_spec (comp : α → α → Bool) (m1 m2 : List α) (i j : Nat) (xs ys : List α) (h1 : Seg m1 i xs) (h2 : Seg m2 j ys) :
    triCompareIn comp m1 m2 i (i + xs.length) j (j + ys.length) = some (verdict comp xs ys) ∧
    lexCompareIn comp m1 m2 i (i + xs.length) j (j + ys.length) = some (decide (verdict comp xs ys = -1)) := by
  obtain ⟨k, r, g1, g2⟩ := lexImplIn_run comp m1 m2 xs ys i j h1 h2
  have hr : lexImplIn comp m1 m2 i (i + xs.length) j (j + ys.length) = some r := dbl_run (finIf_idem _) _ _ _ 1 (Nat.le_refl _) g1
  unfold triCompareIn lexCompareIn
  rw [hr]
  simp only [Option.bind_eq_bind, Option.bind_some]
  rcases g2 with ⟨a, b, c⟩ | ⟨a, b, c⟩ | ⟨a, b, c⟩ <;> simp [a, b, c]

end Sprout
