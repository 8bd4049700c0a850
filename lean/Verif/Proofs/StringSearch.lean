import Verif.Model.StringSearch
import Verif.Proofs.Cstring
import Verif.Proofs.Find

/-! Lemmas for C72, C73. -/

namespace Sprout.Str
open Spec.Str Cstr

variable {α : Type}

theorem seg_drop {m : List α} {s : Nat} {xs : List α} (h : Seg m s xs) (k : Nat) : Seg m (s + k) (xs.drop k) := by
  intro i hi
  rw [List.length_drop] at hi
  rw [List.getElem?_drop, Nat.add_assoc]
  exact h (k + i) (by omega)

theorem seg_sub {m : List α} {s : Nat} {xs : List α} (h : Seg m s xs) (k n : Nat) : Seg m (s + k) ((xs.drop k).take n) :=
  seg_take (seg_drop h k) n

theorem seg_eq {m : List α} {s : Nat} {xs : List α} (h : Seg m s xs) (hne : xs ≠ []) :
    m = m.take s ++ xs ++ m.drop (s + xs.length) ∧ (m.take s).length = s := by
  have hl : 0 < xs.length := List.length_pos_iff.2 hne
  have hs : s < m.length := by
    by_contra hc
    have := h 0 hl
    rw [Nat.add_zero, List.getElem?_eq_none (by omega), List.getElem?_eq_getElem hl] at this
    cases this
  refine ⟨?_, by rw [List.length_take]; omega⟩
  apply List.ext_getElem?
  intro i
  rw [List.append_assoc]
  by_cases h1 : i < s
  · rw [List.getElem?_append_left (by simp; omega), List.getElem?_take_of_lt h1]
  · rw [List.getElem?_append_right (by simp; omega), List.length_take, Nat.min_eq_left (by omega)]
    by_cases h2 : i - s < xs.length
    · rw [List.getElem?_append_left h2, ← h (i - s) h2]; congr 1; omega
    · rw [List.getElem?_append_right (by omega), List.getElem?_drop]; congr 1; omega

theorem traitsFind_found {m : List Int} {s : Nat} {ds : List Int} (h : Seg m s ds) (a : Int) :
    ∃ p, traitsFind m s ds.length a = some p ∧ isFound p (s + ds.length) = decide (a ∈ ds) ∧
      p = s + ds.findIdx (fun x => x == a) := by
  have hp : traitsFind m s ds.length a = some (s + ds.findIdx (fun x => x == a)) := by
    by_cases hne : ds = []
    · subst hne
      simp [traitsFind, findIfRa, findRa]
    · obtain ⟨e, hl⟩ := seg_eq h hne
      have := findIfRa_eq (m.take s) ds (m.drop (s + ds.length)) (fun x => x == a)
      rw [← e, hl] at this
      exact this
  refine ⟨_, hp, ?_, rfl⟩
  have : ds.findIdx (fun x => x == a) < ds.length ↔ a ∈ ds := by
    rw [List.findIdx_lt_length]
    constructor
    · rintro ⟨x, hx, e⟩; rw [beq_iff_eq] at e; exact e ▸ hx
    · intro hx; exact ⟨a, hx, by simp⟩
  have hle := List.findIdx_le_length (xs := ds) (p := fun x => x == a)
  rw [isFound]
  by_cases hm : a ∈ ds
  · have := this.2 hm
    simp only [hm, decide_true, bne_iff_ne, ne_eq]; omega
  · have : ¬ ds.findIdx (fun x => x == a) < ds.length := fun hc => hm (this.1 hc)
    simp only [hm, decide_false, bne_eq_false_iff_eq]; omega

/-! ### `Traits::compare` -/

/-- verdict of the first position that decides; 2: none does -/
def tw : List Int → List Int → Int
  | x :: xs, y :: ys =>
    if y = 0 then (if x = 0 then 0 else 1) else if x = 0 ∨ x < y then -1 else if y < x then 1 else tw xs ys
  | _, _ => 2

theorem tw_append : ∀ (a c b d : List Int), a.length = c.length →
    tw (a ++ b) (c ++ d) = if tw a c ≠ 2 then tw a c else tw b d := by
  intro a
  induction a with
  | nil => intro c b d h; cases c with
    | nil => simp [tw]
    | cons => simp at h
  | cons x a ih =>
    intro c b d h
    cases c with
    | nil => simp at h
    | cons y c =>
      rw [List.cons_append, List.cons_append, tw, tw, ih c b d (by simpa using h)]
      by_cases h1 : y = 0
      · by_cases h0 : x = 0 <;> simp [h1, h0]
      · by_cases h2 : x = 0 ∨ x < y
        · simp [h1, h2]
        · by_cases h3 : y < x
          · simp [h1, h2, h3]
          · simp only [h1, h2, h3, if_false]

theorem tri2_seg {m1 m2 : List Int} : ∀ (n : Nat), 1 ≤ n → ∀ (p q : Nat) (xs ys : List Int), xs.length = n → ys.length = n →
    Seg m1 p xs → Seg m2 q ys → tri2 m1 m2 p q n 2 = some (tw xs ys) := by
  intro n
  induction n using Nat.strongRecOn with
  | ind n ih =>
    intro hn p q xs ys hx hy h1 h2
    rw [tri2, if_neg (by simp)]
    by_cases h : n = 1
    · subst h
      rw [if_pos rfl]
      match xs, ys, hx, hy with
      | [x], [y], _, _ =>
        have e1 : rd m1 p = some x := (Seg.cons h1).1
        have e2 : rd m2 q = some y := (Seg.cons h2).1
        simp only [e1, e2, Option.bind_eq_bind, Option.bind_some, tw, beq_iff_eq, Bool.or_eq_true, decide_eq_true_eq]
    · have t1 : (xs.take (n / 2)).length = n / 2 := by simp; omega
      have t2 : (ys.take (n / 2)).length = n / 2 := by simp; omega
      rw [if_neg h, ih (n / 2) (by omega) (by omega) p q (xs.take (n / 2)) (ys.take (n / 2)) t1 t2 (seg_take h1 _) (seg_take h2 _)]
      simp only [Option.bind_eq_bind, Option.bind_some]
      have ha := tw_append (xs.take (n / 2)) (ys.take (n / 2)) (xs.drop (n / 2)) (ys.drop (n / 2)) (by omega)
      rw [List.take_append_drop, List.take_append_drop] at ha
      rw [ha]
      by_cases hf : tw (xs.take (n / 2)) (ys.take (n / 2)) = 2
      · rw [hf, if_neg (by simp)]
        exact ih (n - n / 2) (by omega) (by omega) _ _ _ _ (by simp; omega) (by simp; omega) (seg_drop h1 _) (seg_drop h2 _)
      · rw [tri2, if_pos hf, if_pos hf]

theorem traitsCompare_seg {m1 m2 : List Int} {p q : Nat} {xs ys : List Int} {n : Nat} (hx : xs.length = n) (hy : ys.length = n)
    (h1 : Seg m1 p xs) (h2 : Seg m2 q ys) : traitsCompare m1 m2 p q n = some (if tw xs ys ≠ 2 then tw xs ys else 0) := by
  rw [traitsCompare, strncmp]
  by_cases h : n = 0
  · subst h
    rw [List.length_eq_zero_iff] at hx hy
    subst hx hy
    simp [tw]
  · rw [if_neg h, tri2_seg n (by omega) p q xs ys hx hy h1 h2]; rfl

theorem tw_eq : ∀ (xs ys : List Int), xs.length = ys.length → (0 ∉ xs ∨ 0 ∉ ys) → tw xs ys ≠ 0 ∧ (tw xs ys = 2 ↔ xs = ys) := by
  intro xs
  induction xs with
  | nil => intro ys h _; cases ys with
    | nil => simp [tw]
    | cons => simp at h
  | cons x xs ih =>
    intro ys h h0
    cases ys with
    | nil => simp at h
    | cons y ys =>
      have := ih ys (by simpa using h) (by
        rcases h0 with h0 | h0
        · exact Or.inl (fun hc => h0 (by simp [hc]))
        · exact Or.inr (fun hc => h0 (by simp [hc])))
      rw [tw]
      by_cases h1 : y = 0
      · have hx : x ≠ 0 := by
          rcases h0 with h0 | h0
          · intro e; exact h0 (by simp [e])
          · exact absurd (by simp [h1]) h0
        simp [h1, hx]
      · by_cases h2 : x = 0 ∨ x < y
        · simp only [h1, h2, if_false, if_true]
          refine ⟨by decide, ?_⟩
          simp only [List.cons.injEq]
          constructor
          · intro hc; exact absurd hc (by decide)
          · rintro ⟨rfl, _⟩; omega
        · by_cases h3 : y < x
          · simp only [h1, h2, h3, if_false, if_true]
            refine ⟨by decide, ?_⟩
            simp only [List.cons.injEq]
            constructor
            · intro hc; exact absurd hc (by decide)
            · rintro ⟨rfl, _⟩; omega
          · simp only [h1, h2, h3, if_false]
            have e : x = y := by omega
            rw [List.cons.injEq]
            simp only [e, true_and]
            exact this

/-- characters are nonnegative; not both strings contain the terminator -/
theorem tw_scan : ∀ (xs ys : List Int), xs.length = ys.length → (0 ∉ xs ∨ 0 ∉ ys) → (∀ x ∈ xs, 0 ≤ x) → (∀ y ∈ ys, 0 ≤ y) →
    tw xs ys = lexScan ilt xs ys := by
  intro xs
  induction xs with
  | nil => intro ys h _ _ _; cases ys with
    | nil => simp [tw, lexScan]
    | cons => simp at h
  | cons x xs ih =>
    intro ys h h0 p1 p2
    cases ys with
    | nil => simp at h
    | cons y ys =>
      rw [tw, lexScan, ih ys (by simpa using h) (by
        rcases h0 with h0 | h0
        · exact Or.inl (fun hc => h0 (by simp [hc]))
        · exact Or.inr (fun hc => h0 (by simp [hc]))) (fun z hz => p1 z (by simp [hz])) (fun z hz => p2 z (by simp [hz]))]
      have px := p1 x (by simp)
      have py := p2 y (by simp)
      have hxy : x ≠ 0 ∨ y ≠ 0 := by
        rcases h0 with h0 | h0
        · left; intro e; exact h0 (by simp [e])
        · right; intro e; exact h0 (by simp [e])
      simp only [ilt, decide_eq_true_eq]
      by_cases h1 : y = 0
      · rw [if_pos h1, if_neg (by omega), if_neg (by omega), if_pos (by omega)]
      · rw [if_neg h1]
        by_cases h2 : x < y
        · rw [if_pos (Or.inr h2), if_pos h2]
        · rw [if_neg (by omega), if_neg h2]

theorem compareImpl_eq {m ms : List Int} {d pos1 s : Nat} {xs ys : List Int} (h1 : Seg m (d + pos1) xs) (h2 : Seg ms s ys)
    (h0 : 0 ∉ xs ∨ 0 ∉ ys) (p1 : ∀ x ∈ xs, 0 ≤ x) (p2 : ∀ y ∈ ys, 0 ≤ y) :
    compareImpl m ms d pos1 xs.length s ys.length = some (verdict ilt xs ys) := by
  have l1 : (xs.take (min xs.length ys.length)).length = min xs.length ys.length := by simp
  have l2 : (ys.take (min xs.length ys.length)).length = min xs.length ys.length := by simp
  rw [compareImpl, traitsCompare_seg l1 l2 (seg_take h1 _) (seg_take h2 _), verdict_scan]
  simp only [Option.bind_eq_bind, Option.bind_some]
  have h0' : 0 ∉ xs.take (min xs.length ys.length) ∨ 0 ∉ ys.take (min xs.length ys.length) := by
    rcases h0 with h0 | h0
    · exact Or.inl (fun hc => h0 (List.mem_of_mem_take hc))
    · exact Or.inr (fun hc => h0 (List.mem_of_mem_take hc))
  have hne := (tw_eq _ _ (by omega) h0').1
  rw [tw_scan _ _ (by omega) h0' (fun x hx => p1 x (List.mem_of_mem_take hx)) (fun y hy => p2 y (List.mem_of_mem_take hy))] at *
  by_cases hf : lexScan ilt (xs.take (min xs.length ys.length)) (ys.take (min xs.length ys.length)) = 2
  · simp only [hf, ne_eq, not_true_eq_false, if_false]
  · simp only [ne_eq, hf, not_false_eq_true, if_true, hne]

/-! ### loops -/

theorem up_spec {f : Nat → Option Nat} {B : Nat} {P : Nat → Prop} (h1 : ∀ i, i < B → P i → f i = some i)
    (h2 : ∀ i, i < B → ¬P i → f i = f (i + 1)) (h3 : ∀ i, B ≤ i → f i = some npos) (h4 : ∀ i, B ≤ i → ¬P i) (pos : Nat) :
    ∃ r, f pos = some r ∧ Lowest (fun i => pos ≤ i ∧ P i) r := by
  generalize hk : B - pos = k
  induction k generalizing pos with
  | zero =>
    refine ⟨npos, h3 pos (by omega), Or.inr ⟨rfl, ?_⟩⟩
    rintro i ⟨a, b⟩
    exact h4 i (by omega) b
  | succ k ih =>
    by_cases hp : P pos
    · refine ⟨pos, h1 pos (by omega) hp, Or.inl ⟨⟨Nat.le_refl _, hp⟩, ?_⟩⟩
      rintro i hi ⟨a, _⟩
      omega
    · obtain ⟨r, e, hr⟩ := ih (pos + 1) (by omega)
      refine ⟨r, by rw [h2 pos (by omega) hp, e], ?_⟩
      have key : ∀ i, (pos ≤ i ∧ P i) ↔ (pos + 1 ≤ i ∧ P i) := by
        intro i
        constructor
        · rintro ⟨a, b⟩
          refine ⟨?_, b⟩
          rcases Nat.lt_or_ge pos i with h | h
          · exact h
          · have : i = pos := by omega
            subst this; exact absurd b hp
        · rintro ⟨a, b⟩; exact ⟨by omega, b⟩
      simpa only [Lowest, key] using hr

theorem down_spec {f : Nat → Option Nat} {P : Nat → Prop} (h1 : ∀ i, P i → f i = some i) (h2 : ∀ i, ¬P (i + 1) → f (i + 1) = f i)
    (h0 : ¬P 0 → f 0 = some npos) (pos : Nat) : ∃ r, f pos = some r ∧ Highest (fun i => i ≤ pos ∧ P i) r := by
  induction pos with
  | zero =>
    by_cases hp : P 0
    · exact ⟨0, h1 0 hp, Or.inl ⟨⟨Nat.le_refl _, hp⟩, by rintro i hi ⟨a, _⟩; omega⟩⟩
    · refine ⟨npos, h0 hp, Or.inr ⟨rfl, ?_⟩⟩
      rintro i ⟨a, b⟩
      have : i = 0 := by omega
      subst this; exact hp b
  | succ k ih =>
    by_cases hp : P (k + 1)
    · exact ⟨k + 1, h1 _ hp, Or.inl ⟨⟨Nat.le_refl _, hp⟩, by rintro i hi ⟨a, _⟩; omega⟩⟩
    · obtain ⟨r, e, hr⟩ := ih
      refine ⟨r, by rw [h2 k hp, e], ?_⟩
      have key : ∀ i, (i ≤ k + 1 ∧ P i) ↔ (i ≤ k ∧ P i) := by
        intro i
        constructor
        · rintro ⟨a, b⟩
          refine ⟨?_, b⟩
          rcases Nat.lt_or_ge i (k + 1) with h | h
          · omega
          · have : i = k + 1 := by omega
            subst this; exact absurd b hp
        · rintro ⟨a, b⟩; exact ⟨by omega, b⟩
      simpa only [Highest, key] using hr

/-- as `down_spec`, where the tests succeed only below `B` -/
theorem down_spec_lt {f : Nat → Option Nat} {P : Nat → Prop} {B : Nat} (hB : 0 < B) (h1 : ∀ i, i < B → P i → f i = some i)
    (h2 : ∀ i, i + 1 < B → ¬P (i + 1) → f (i + 1) = f i) (h0 : ¬P 0 → f 0 = some npos) (h4 : ∀ i, B ≤ i → ¬P i) (pos : Nat) :
    ∃ r, f (if B - 1 > pos then pos else B - 1) = some r ∧ Highest (fun i => i ≤ pos ∧ P i) r := by
  obtain ⟨r, e, hr⟩ := down_spec (f := fun i => f (if B - 1 > i then i else B - 1)) (P := P) (by
      intro i hp
      have hi : i < B := by by_contra hc; exact h4 i (by omega) hp
      have : (if B - 1 > i then i else B - 1) = i := by split <;> omega
      simp only [this]
      exact h1 i hi hp) (by
      intro i hp
      by_cases hi : i + 1 < B
      · have e1 : (if B - 1 > i + 1 then i + 1 else B - 1) = i + 1 := by split <;> omega
        have e2 : (if B - 1 > i then i else B - 1) = i := by split <;> omega
        rw [e1, e2]
        exact h2 i hi hp
      · have e1 : (if B - 1 > i + 1 then i + 1 else B - 1) = B - 1 := by split <;> omega
        have e2 : (if B - 1 > i then i else B - 1) = B - 1 := by split <;> omega
        rw [e1, e2]) (by
      intro hp
      have e1 : (if B - 1 > 0 then 0 else B - 1) = 0 := by split <;> omega
      simp only [e1]
      exact h0 hp) pos
  exact ⟨r, e, hr⟩

theorem occursAt_iff {cs ds : List Int} {i : Nat} (h : i + ds.length ≤ cs.length) :
    OccursAt cs ds i ↔ (cs.drop i).take ds.length = ds := by
  constructor
  · rintro ⟨_, h2⟩
    apply List.ext_getElem?
    intro j
    by_cases hj : j < ds.length
    · rw [List.getElem?_take_of_lt hj, List.getElem?_drop, h2 j hj]
    · rw [List.getElem?_eq_none (by simp; omega), List.getElem?_eq_none (by omega)]
  · intro e
    refine ⟨h, fun j hj => ?_⟩
    have := congrArg (fun l => l[j]?) e
    rw [List.getElem?_take_of_lt hj, List.getElem?_drop] at this
    exact this

end Sprout.Str
