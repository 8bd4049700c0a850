import Verif.Proofs.Merge2
import Verif.Proofs.Doubling

namespace Sprout
open Spec
variable {α : Type}

/-- what `includes` computes, on lists -/
def inc (comp : α → α → Bool) : List α → List α → Bool
  | _, [] => true
  | [], _ :: _ => false
  | x :: xs, y :: ys => if comp y x then false else if comp x y then inc comp xs (y :: ys) else inc comp xs ys

theorem inc_nil (comp : α → α → Bool) (xs : List α) : inc comp xs [] = true := by cases xs <;> rfl

theorem mult_pos {comp : α → α → Bool} (hc : StrictWeak comp) {y : α} {ys : List α} : 0 < mult comp y (y :: ys) := by
  unfold mult; rw [cls_self hc]; simp

theorem inc_iff {comp : α → α → Bool} (hc : StrictWeak comp) : ∀ (xs ys : List α), SortedBy comp xs → SortedBy comp ys →
    (inc comp xs ys = true ↔ ∀ v, mult comp v ys ≤ mult comp v xs) := by
  intro xs
  induction xs with
  | nil =>
    intro ys _ _
    cases ys with
    | nil => simp [inc, mult]
    | cons y ys =>
      refine ⟨fun h => by simp [inc] at h, fun h => ?_⟩
      have := h y
      have h2 := mult_pos hc (y := y) (ys := ys)
      simp only [mult, cls_nil, List.length_nil] at this h2
      omega
  | cons x xs ih =>
    intro ys hx hy
    obtain ⟨hx1, hx2⟩ := sorted_cons.mp hx
    cases ys with
    | nil => simp [inc, mult, cls_nil]
    | cons y ys =>
      obtain ⟨hy1, hy2⟩ := sorted_cons.mp hy
      have dich : ∀ v, (comp x v = false ∧ comp v x = false) ∨ (comp x v = true ∨ comp v x = true) := by
        intro v; cases comp x v <;> cases comp v x <;> simp
      rw [inc]
      cases hyx : comp y x with
      | true =>
        refine ⟨fun h => by simp at h, fun h => ?_⟩
        have h1 := h y
        have h2 := mult_pos hc (y := y) (ys := ys)
        have h3 : cls comp y (x :: xs) = [] := by
          apply cls_above hc (hc.irrefl y)
          intro z hz
          rcases List.mem_cons.mp hz with rfl | hz
          · exact hyx
          · exact hc.lt_of_lt_of_le hyx (hx1 z hz)
        simp only [mult, h3, List.length_nil] at h1 h2
        omega
      | false =>
        simp only [Bool.false_eq_true, if_false]
        cases hxy : comp x y with
        | true =>
          simp only [if_true]
          rw [ih (y :: ys) hx2 hy]
          apply forall_congr'
          intro v
          unfold mult
          rcases dich v with ⟨d1, d2⟩ | d
          · have : cls comp v (y :: ys) = [] := by
              apply cls_above hc d1
              intro z hz
              rcases List.mem_cons.mp hz with rfl | hz
              · exact hxy
              · exact hc.lt_of_lt_of_le hxy (hy1 z hz)
            simp [this]
          · rw [cls_cons_neg d]
        | false =>
          simp only [Bool.false_eq_true, if_false]
          rw [ih ys hx2 hy2]
          apply forall_congr'
          intro v
          unfold mult
          rcases dich v with ⟨d1, d2⟩ | d
          · rw [cls_cons_pos d1 d2, cls_cons_pos (hc.le_trans d1 hyx) (hc.le_trans hxy d2)]; simp
          · have : comp y v = true ∨ comp v y = true := by
              rcases d with d | d
              · exact .inl (hc.lt_of_le_of_lt hxy d)
              · exact .inr (hc.lt_of_lt_of_le d hyx)
            rw [cls_cons_neg d, cls_cons_neg this]

/-- the sequential reading of `includes_impl_ra` -/
def runInc (comp : α → α → Bool) (m1 m2 : List α) (last2 : Nat) : Nat → Nat → Nat × Bool → Option (Nat × Bool)
  | _, 0, s => some s
  | i, n + 1, s => if s.2 ∨ s.1 = last2 then some s else (incLeaf comp m1 m2 i s.1).bind (runInc comp m1 m2 last2 (i + 1) n)

theorem runInc_stop {comp : α → α → Bool} {m1 m2 : List α} {last2 i n : Nat} {s : Nat × Bool} (h : s.2 = true ∨ s.1 = last2) :
    runInc comp m1 m2 last2 i n s = some s := by
  cases n
  · rfl
  · rw [runInc, if_pos h]

theorem runInc_succ {comp : α → α → Bool} {m1 m2 : List α} {last2 i n : Nat} {s : Nat × Bool} (h : ¬ (s.2 = true ∨ s.1 = last2)) :
    runInc comp m1 m2 last2 i (n + 1) s = (incLeaf comp m1 m2 i s.1).bind (runInc comp m1 m2 last2 (i + 1) n) := by
  rw [runInc, if_neg h]

theorem runInc_add (comp : α → α → Bool) (m1 m2 : List α) (last2 : Nat) : ∀ a i b s,
    runInc comp m1 m2 last2 i (a + b) s = (runInc comp m1 m2 last2 i a s).bind (runInc comp m1 m2 last2 (i + a) b) := by
  intro a
  induction a with
  | zero => intro i b s; rw [Nat.zero_add]; rfl
  | succ a ih =>
    intro i b s
    rw [show a + 1 + b = a + b + 1 by omega, runInc, runInc]
    by_cases h : s.2 = true ∨ s.1 = last2
    · rw [if_pos h, if_pos h, Option.bind_some, runInc_stop h]
    · rw [if_neg h, if_neg h, Option.bind_assoc]
      congr 1
      funext t
      rw [ih, show i + 1 + a = i + (a + 1) by omega]

theorem includesImplRa_eq (comp : α → α → Bool) (m1 m2 : List α) (last2 : Nat) : ∀ n i s, 0 < n →
    includesImplRa comp m1 m2 last2 i s n = runInc comp m1 m2 last2 i n s := by
  intro n
  induction n using Nat.strongRecOn with
  | ind n ih =>
    intro i s hn
    rw [includesImplRa]
    by_cases h : s.2 = true ∨ s.1 = last2
    · rw [if_pos h, runInc_stop h]
    · rw [if_neg h]
      by_cases h1 : n = 1
      · subst h1
        rw [if_pos rfl, runInc, if_neg h]
        cases incLeaf comp m1 m2 i s.1 <;> rfl
      · rw [if_neg h1]
        have e : n = n / 2 + (n - n / 2) := by omega
        conv_rhs => rw [e, runInc_add]
        rw [ih (n / 2) (by omega) i s (by omega), Option.bind_eq_bind]
        congr 1
        funext t
        rw [ih (n - n / 2) (by omega) _ t (by omega)]

theorem runInc_spec (comp : α → α → Bool) (m1 m2 : List α) : ∀ (xs ys : List α) (i j : Nat), Seg m1 i xs → Seg m2 j ys →
    ∃ r, runInc comp m1 m2 (j + ys.length) i xs.length (j, false) = some r ∧ (r.1 == j + ys.length) = inc comp xs ys := by
  intro xs
  induction xs with
  | nil =>
    intro ys i j _ _
    refine ⟨_, rfl, ?_⟩
    cases ys <;> simp [inc]
  | cons x xs ih =>
    intro ys i j h1 h2
    cases ys with
    | nil => exact ⟨(j, false), runInc_stop (.inr (by simp)), by simp [inc]⟩
    | cons y ys =>
      obtain ⟨hx, h1'⟩ := h1.cons
      obtain ⟨hy, h2'⟩ := h2.cons
      rw [List.length_cons (a := x), runInc_succ (by simp)]
      simp only [incLeaf, rd, hx, hy, Option.bind_eq_bind, Option.bind_some]
      rw [inc]
      cases hyx : comp y x with
      | true =>
        simp only [if_true]
        exact ⟨(j, true), runInc_stop (.inl rfl), by simp⟩
      | false =>
        simp only [Bool.false_eq_true, if_false]
        cases hxy : comp x y with
        | true =>
          simp only [if_true]
          exact ih (y :: ys) (i + 1) j h1' h2
        | false =>
          simp only [Bool.false_eq_true, if_false]
          have := ih ys (i + 1) (j + 1) h1' h2'
          rwa [show j + 1 + ys.length = j + (y :: ys).length by simp; omega] at this

theorem includesIn_run (comp : α → α → Bool) (m1 m2 : List α) : ∀ (xs ys : List α) (i j : Nat), Seg m1 i xs → Seg m2 j ys →
    ∃ k r, Run (finIf fun s : Nat × Nat => s.2 == j + ys.length || s.1 == i + xs.length)
      (fun s => do
        let x ← rd m1 s.1
        let y ← rd m2 s.2
        some (if comp y x then (i + xs.length, s.2) else (s.1 + 1, if comp x y then s.2 else s.2 + 1))) k (i, j) r ∧
      (r.2 == j + ys.length) = inc comp xs ys := by
  intro xs
  induction xs with
  | nil =>
    intro ys i j _ _
    refine ⟨0, (i, j), .stop (by simp [finIf]), ?_⟩
    cases ys <;> simp [inc]
  | cons x xs ih =>
    intro ys i j h1 h2
    cases ys with
    | nil => exact ⟨0, (i, j), .stop (by simp [finIf]), by simp [inc]⟩
    | cons y ys =>
      obtain ⟨hx, h1'⟩ := h1.cons
      obtain ⟨hy, h2'⟩ := h2.cons
      have e1 : i + (x :: xs).length = i + 1 + xs.length := by simp; omega
      rw [e1, inc]
      have hfin : (finIf fun s : Nat × Nat => s.2 == j + (y :: ys).length || s.1 == i + 1 + xs.length) (i, j) = none := by
        unfold finIf; rw [if_neg]; simp; omega
      cases hyx : comp y x with
      | true =>
        simp only [if_true]
        refine ⟨1, (i + 1 + xs.length, j), .step hfin (t := (i + 1 + xs.length, j)) (by simp [rd, hx, hy, hyx]) (.stop (by simp [finIf])), by simp⟩
      | false =>
        simp only [Bool.false_eq_true, if_false]
        cases hxy : comp x y with
        | true =>
          simp only [if_true]
          obtain ⟨k, r, g1, g2⟩ := ih (y :: ys) (i + 1) j h1' h2
          exact ⟨k + 1, r, .step hfin (t := (i + 1, j)) (by simp [rd, hx, hy, hyx, hxy]) g1, g2⟩
        | false =>
          simp only [Bool.false_eq_true, if_false]
          obtain ⟨k, r, g1, g2⟩ := ih ys (i + 1) (j + 1) h1' h2'
          rw [show j + 1 + ys.length = j + (y :: ys).length by simp; omega] at g1 g2
          exact ⟨k + 1, r, .step hfin (t := (i + 1, j + 1)) (by simp [rd, hx, hy, hyx, hxy]) g1, g2⟩

end Sprout

namespace Sprout
open Spec
variable {α : Type}

/-- fewer elements of every class: fewer elements -/
theorem cls_length_le {comp : α → α → Bool} (hc : StrictWeak comp) : ∀ (zs ws : List α), (∀ v, mult comp v zs ≤ mult comp v ws) → zs.length ≤ ws.length := by
  classical
  intro zs
  induction zs with
  | nil => intro ws _; simp
  | cons z zs ih =>
    intro ws h
    have h0 : 0 < (cls comp z ws).length := Nat.lt_of_lt_of_le (mult_pos hc) (h z)
    obtain ⟨w, hw⟩ := List.exists_mem_of_length_pos h0
    unfold cls at hw
    rw [List.mem_filter] at hw
    obtain ⟨hw1, hw2⟩ := hw
    simp only [Bool.and_eq_true, Bool.not_eq_true'] at hw2
    obtain ⟨s, t, rfl⟩ := List.append_of_mem hw1
    have := ih (s ++ t) (fun v => by
      have hv := h v
      have e1 : mult comp v (s ++ w :: t) = mult comp v (s ++ t) + mult comp v [w] := by
        rw [show w :: t = [w] ++ t by rfl]
        simp only [mult, cls_append, List.length_append]; omega
      have e2 : mult comp v (z :: zs) = mult comp v zs + mult comp v [z] := by
        rw [show z :: zs = [z] ++ zs by rfl]
        simp only [mult, cls_append, List.length_append]; omega
      have e3 : mult comp v [w] = mult comp v [z] := by
        unfold mult
        by_cases d : comp z v = false ∧ comp v z = false
        · rw [cls_cons_pos d.1 d.2, cls_cons_pos (hc.le_trans d.1 hw2.1) (hc.le_trans hw2.2 d.2)]; rfl
        · have d' : comp z v = true ∨ comp v z = true := by
            cases h1 : comp z v <;> cases h2 : comp v z <;> simp_all
          have : comp w v = true ∨ comp v w = true := by
            rcases d' with d | d
            · exact .inl (hc.lt_of_le_of_lt hw2.2 d)
            · exact .inr (hc.lt_of_lt_of_le d hw2.1)
          rw [cls_cons_neg d', cls_cons_neg this]
      omega)
    simp at this ⊢
    omega

end Sprout
