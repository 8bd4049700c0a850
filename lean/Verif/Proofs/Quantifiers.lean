import Verif.Model.Quantifiers
import Verif.Proofs.Find
import Verif.Proofs.MinMax

/-! # one_of, is_partitioned, is_sorted for arbitrary comparisons -/

namespace Sprout
variable {α : Type}

theorem halveAll_list (q : α → Bool) (pre xs post : List α) (hx : 0 < xs.length) :
    halveAll (testAt (pre ++ xs ++ post) q) pre.length (pre.length + xs.length) (xs.length / 2) = some (xs.all q) := by
  have := allOfRa_eq pre xs post q
  rw [allOfRa, if_neg (by omega), Nat.add_sub_cancel_left] at this
  exact this

/-- halving `one_of` is right for at most two matches -/
theorem halveOne_spec (p : α → Bool) : ∀ n (pre xs post : List α), xs.length = n → 0 < n →
    ∃ v, halveOne (pre ++ xs ++ post) p pre.length (pre.length + n) (n / 2) = some v ∧
      (xs.countP p ≤ 2 → (v = true ↔ xs.countP p = 1)) := by
  intro n
  induction n using Nat.strongRecOn with
  | ind n ih =>
    intro pre xs post hn h0
    rw [halveOne]
    by_cases h : n / 2 = 0
    · obtain ⟨x, rfl⟩ := List.length_eq_one_iff.mp (show xs.length = 1 by omega)
      rw [if_pos h]
      refine ⟨p x, by simp [testAt, rd], fun _ => ?_⟩
      cases hpx : p x <;> simp [List.countP_cons, hpx]
    · rw [if_neg h]
      have e2 : pre ++ xs ++ post = (pre ++ xs.take (n / 2)) ++ xs.drop (n / 2) ++ post := by
        rw [List.append_assoc pre (xs.take _), List.take_append_drop]
      have e1 : pre ++ xs ++ post = pre ++ xs.take (n / 2) ++ (xs.drop (n / 2) ++ post) := by
        rw [e2, List.append_assoc]
      have hc : xs.countP p = (xs.take (n / 2)).countP p + (xs.drop (n / 2)).countP p := by
        rw [← List.countP_append, List.take_append_drop]
      obtain ⟨a, a1, a2⟩ := ih (n / 2) (by omega) pre (xs.take (n / 2)) (xs.drop (n / 2) ++ post) (by simp; omega) (by omega)
      obtain ⟨b, b1, b2⟩ := ih (n - n / 2) (by omega) (pre ++ xs.take (n / 2)) (xs.drop (n / 2)) post (by simp; omega) (by omega)
      have c1 := halveAll_list (fun x => !p x) (pre ++ xs.take (n / 2)) (xs.drop (n / 2)) post (by simp; omega)
      rw [← e1] at a1
      rw [← e2, List.length_append, List.length_take, hn, Nat.min_eq_left (by omega)] at b1 c1
      rw [List.length_drop, hn] at c1
      rw [show pre.length + n / 2 + (n - n / 2) = pre.length + n by omega] at b1 c1
      rw [show pre.length + n - pre.length - n / 2 = n - n / 2 by omega, a1]
      simp only [Option.bind_eq_bind, Option.bind_some]
      cases a with
      | false =>
        refine ⟨b, by simpa using b1, fun h2 => ?_⟩
        have := a2 (by omega)
        have := b2 (by omega)
        simp_all
        omega
      | true =>
        refine ⟨_, by simpa using c1, fun h2 => ?_⟩
        have a3 := (a2 (by omega)).1 rfl
        rw [hc, a3]
        simp only [List.all_eq_true, Bool.not_eq_true']
        constructor
        · intro h'
          have : (xs.drop (n / 2)).countP p = 0 := List.countP_eq_zero.2 (fun x hx => by simp [h' x hx])
          omega
        · intro h' x hx
          have := List.countP_eq_zero.1 (show (xs.drop (n / 2)).countP p = 0 by omega) x hx
          simpa using this

/-- the list function computed by `countTo2` -/
def fsm (z p : α → Bool) : Nat → List α → Nat
  | c, [] => c
  | 0, x :: xs => fsm z p (if z x then 0 else 1) xs
  | _ + 1, x :: xs => if !p x then fsm z p 1 xs else 2

theorem countTo2_run (z p : α → Bool) : ∀ (xs pre post : List α) (c : Nat), c ≤ 1 → ∃ k i,
    Run (finIf fun s : Nat × Nat => decide (s.2 > 1) || s.1 == pre.length + xs.length)
    (fun s => do
      let x ← rd (pre ++ xs ++ post) s.1
      some (if s.2 = 0 then (if z x then (s.1 + 1, 0) else (s.1 + 1, 1))
        else (if !p x then (s.1 + 1, 1) else (s.1, 2))))
      k (pre.length, c) (i, fsm z p c xs) := by
  intro xs
  induction xs with
  | nil => intro pre post c hc; exact ⟨0, pre.length, .stop (by simp [finIf, fsm])⟩
  | cons x xs ih =>
    intro pre post c hc
    have ih' := ih (pre ++ [x]) post
    simp only [List.length_append, List.length_cons, List.length_nil, List.append_assoc, List.cons_append,
      List.nil_append, Nat.zero_add] at ih' ⊢
    rw [show pre.length + 1 + xs.length = pre.length + (xs.length + 1) by omega] at ih'
    have hf : finIf (fun s : Nat × Nat => decide (s.2 > 1) || s.1 == pre.length + (xs.length + 1)) (pre.length, c) = none := by
      simp [finIf]; omega
    match c, hc with
    | 0, _ =>
      obtain ⟨k, i, r⟩ := ih' (if z x then 0 else 1) (by split <;> omega)
      refine ⟨k + 1, i, .step (t := (pre.length + 1, if z x then 0 else 1)) hf (by cases hz : z x <;> simp [rd, hz]) r⟩
    | 1, _ =>
      by_cases hp : p x = true
      · refine ⟨1, pre.length, .step (t := (pre.length, 2)) hf (by simp [rd, hp]) (.stop ?_)⟩
        simp [finIf, fsm, hp]
      · obtain ⟨k, i, r⟩ := ih' 1 (by omega)
        refine ⟨k + 1, i, .step (t := (pre.length + 1, 1)) hf (by simp [rd, hp]) ?_⟩
        simpa [fsm, hp] using r

theorem countTo2_eq (z p : α → Bool) (pre xs post : List α) :
    countTo2 z p (pre ++ xs ++ post) pre.length (pre.length + xs.length) = some (fsm z p 0 xs) := by
  obtain ⟨k, i, r⟩ := countTo2_run z p xs pre post 0 (by omega)
  rw [countTo2, dbl_run (finIf_idem _) _ _ _ 1 (Nat.le_refl _) r]
  rfl

theorem fsm_one (z p : α → Bool) (xs : List α) : fsm z p 1 xs = if xs.any p then 2 else 1 := by
  induction xs with
  | nil => simp [fsm]
  | cons x xs ih => cases h : p x <;> simp [fsm, h, ih]

theorem fsm_count (p : α → Bool) (xs : List α) : (fsm (fun x => !p x) p 0 xs = 1) ↔ xs.countP p = 1 := by
  induction xs with
  | nil => simp [fsm]
  | cons x xs ih =>
    cases h : p x
    · simpa [fsm, h, List.countP_cons] using ih
    · simp only [fsm, h, Bool.not_true, Bool.false_eq_true, if_false, fsm_one, List.countP_cons, if_true]
      by_cases ha : xs.any p = true
      · rw [if_pos ha]
        have : 0 < xs.countP p := by rw [List.countP_pos_iff]; simpa using ha
        omega
      · rw [if_neg ha]
        have : xs.countP p = 0 := by rw [List.countP_eq_zero]; simpa using ha
        omega

theorem fsm_part (p : α → Bool) (xs : List α) : (fsm p p 0 xs ≤ 1) ↔ ∃ ys zs, xs = ys ++ zs ∧ (∀ y ∈ ys, p y = true) ∧ ∀ z ∈ zs, p z = false := by
  induction xs with
  | nil => exact ⟨fun _ => ⟨[], [], by simp⟩, fun _ => by simp [fsm]⟩
  | cons x xs ih =>
    cases h : p x
    · simp only [fsm, h, Bool.false_eq_true, if_false, fsm_one]
      constructor
      · intro h1
        have ha : ¬ xs.any p = true := by intro ha; rw [if_pos ha] at h1; omega
        exact ⟨[], x :: xs, rfl, by simp, by simpa [h] using ha⟩
      · rintro ⟨ys, zs, e, h1, h2⟩
        cases ys with
        | nil =>
          simp only [List.nil_append] at e
          subst e
          have ha : ¬ xs.any p = true := by
            simp only [List.any_eq_true, not_exists, not_and]
            intro y hy; simp [h2 y (by simp [hy])]
          rw [if_neg ha]
          exact Nat.le_refl 1
        | cons y ys => cases e; simp [h1 x (by simp)] at h
    · simp only [fsm, h, if_true, ih]
      constructor
      · rintro ⟨ys, zs, rfl, h1, h2⟩; exact ⟨x :: ys, zs, rfl, by simpa [h] using h1, h2⟩
      · rintro ⟨ys, zs, e, h1, h2⟩
        cases ys with
        | nil => simp only [List.nil_append] at e; subst e; simp [h2 x (by simp)] at h
        | cons y ys => cases e; exact ⟨ys, zs, rfl, fun a ha => h1 a (by simp [ha]), h2⟩

/-- `is_sorted` tests the neighbours, whatever the comparison -/
theorem isSortedRa_adj (comp : α → α → Bool) (pre xs post : List α) :
    ∃ b, isSortedRa comp (pre ++ xs ++ post) pre.length (pre.length + xs.length) = some b ∧
      (b = true ↔ ∀ i (h : i + 1 < xs.length), comp xs[i + 1] xs[i] = false) := by
  unfold isSortedRa
  by_cases h1 : pre.length = pre.length + xs.length ∨ pre.length + xs.length - pre.length = 1
  · rw [if_pos h1]
    exact ⟨true, rfl, fun _ i h => absurd h (by omega), fun _ => rfl⟩
  · rw [if_neg h1]
    have hx : xs ≠ [] := by rintro rfl; simp at h1
    have d := xs.head hx
    have hxl : 0 < xs.length := List.length_pos_iff.mpr hx
    obtain ⟨r, g1, g2⟩ := isSortedImplRa_spec (cmp := cmpAt comp (pre ++ xs ++ post)) (lt := posLt comp (pre ++ xs ++ post) d)
      _ pre.length (pre.length + xs.length - 1) rfl (by omega)
      (fun i _ _ => cmpAt_eq (by simp; omega) (by simp; omega))
    rw [show pre.length + (pre.length + xs.length - pre.length - 1) = pre.length + xs.length - 1 by omega,
      show pre.length + xs.length - pre.length - 1 = pre.length + xs.length - 1 - pre.length by omega, g1]
    refine ⟨r, rfl, g2.trans ⟨fun h i hi => ?_, fun h i h1 h2 => ?_⟩⟩
    · have := h (pre.length + i) (by omega) (by omega)
      rwa [Nat.add_assoc, posLt_seg (by omega) (by omega)] at this
    · obtain ⟨k, rfl⟩ := Nat.exists_eq_add_of_le h1
      rw [Nat.add_assoc, posLt_seg (by omega) (by omega)]
      exact h k (by omega)

theorem isSortedFw_adj (comp : α → α → Bool) (pre xs post : List α) :
    ∃ b, isSortedFw comp (pre ++ xs ++ post) pre.length (pre.length + xs.length) = some b ∧
      (b = true ↔ ∀ i (h : i + 1 < xs.length), comp xs[i + 1] xs[i] = false) := by
  unfold isSortedFw isSortedUntilFw
  by_cases h0 : pre.length = pre.length + xs.length
  · rw [if_pos h0]
    exact ⟨true, by simp, fun _ i h => absurd h (by omega), fun _ => rfl⟩
  rw [if_neg h0]
  have hx : xs ≠ [] := by rintro rfl; simp at h0
  have d := xs.head hx
  obtain ⟨n, r, e, g1, g2, g3, g4, g5⟩ := isSortedUntilFw_run (cmp := cmpAt comp (pre ++ xs ++ post)) (lt := posLt comp (pre ++ xs ++ post) d)
    _ pre.length (pre.length + xs.length - 1) rfl (by omega) (fun i _ _ => cmpAt_eq (by simp; omega) (by simp; omega))
  rw [show pre.length + xs.length - 1 + 1 = pre.length + xs.length by omega] at g1
  rw [dbl_run (finIf_idem _) _ _ _ 1 (Nat.le_refl _) g1]
  refine ⟨_, rfl, ?_⟩
  rw [beq_iff_eq]
  constructor
  · intro h i hi
    have := g4 (pre.length + i) (by omega) (by simp at h; omega)
    rwa [Nat.add_assoc, posLt_seg (by omega) (by omega)] at this
  · intro h
    by_contra hr
    have := g5 (by simp at hr; omega)
    obtain ⟨k, rfl⟩ := Nat.exists_eq_add_of_le g2
    rw [Nat.add_assoc, posLt_seg (by simp at hr; omega) (by simp at hr; omega), h k (by simp at hr; omega)] at this
    cases this

end Sprout
