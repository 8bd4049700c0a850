import Verif.Proofs.Merge

namespace Sprout
open Spec
variable {α : Type}

theorem StableSorted.perm {comp : α → α → Bool} (hc : StrictWeak comp) {src zs : List α} (h : ∀ v, cls comp v zs = cls comp v src) : zs.Perm src := by
  classical
  rw [List.perm_iff_count]
  intro a
  have e : ∀ l : List α, l.count a = (cls comp a l).count a := by
    intro l
    unfold cls
    rw [List.count_filter]
    simp [hc.irrefl]
  rw [e zs, h, ← e src]

theorem cls_self {comp : α → α → Bool} (hc : StrictWeak comp) {x : α} {xs : List α} : cls comp x (x :: xs) = x :: cls comp x xs :=
  cls_cons_pos (hc.irrefl x) (hc.irrefl x)

theorem cls_cons_cancel {comp : α → α → Bool} {x v : α} {xs ys : List α} (h : cls comp v (x :: xs) = cls comp v (x :: ys)) :
    cls comp v xs = cls comp v ys := by
  unfold cls at *
  simp only [List.filter_cons] at h
  split at h
  · exact (List.cons.inj h).2
  · exact h

theorem sorted_cls_unique {comp : α → α → Bool} (hc : StrictWeak comp) : ∀ (xs ys : List α), SortedBy comp xs → SortedBy comp ys →
    (∀ v, cls comp v xs = cls comp v ys) → xs = ys := by
  intro xs
  induction xs with
  | nil =>
    intro ys _ _ h
    exact (List.Perm.nil_eq (StableSorted.perm hc h))
  | cons x xs ih =>
    intro ys hx hy h
    cases ys with
    | nil => exact (List.Perm.eq_nil (StableSorted.perm hc h))
    | cons y ys =>
      have hp := StableSorted.perm hc h
      obtain ⟨hx1, hx2⟩ := sorted_cons.mp hx
      obtain ⟨hy1, hy2⟩ := sorted_cons.mp hy
      have h1 : comp y x = false := by
        rcases List.mem_cons.mp (hp.mem_iff.mpr (List.mem_cons_self : y ∈ y :: ys)) with rfl | h'
        · exact hc.irrefl _
        · exact hx1 y h'
      have h2 : comp x y = false := by
        rcases List.mem_cons.mp (hp.mem_iff.mp (List.mem_cons_self : x ∈ x :: xs)) with rfl | h'
        · exact hc.irrefl _
        · exact hy1 x h'
      have h3 := h x
      rw [cls_self hc, cls_cons_pos h1 h2] at h3
      obtain ⟨rfl, -⟩ := List.cons.inj h3
      rw [ih ys hx2 hy2 (fun v => cls_cons_cancel (h v))]

theorem Spec.StableSorted.unique {comp : α → α → Bool} (hc : StrictWeak comp) {src xs ys : List α} (h1 : StableSorted comp src xs) (h2 : StableSorted comp src ys) :
    xs = ys := sorted_cls_unique hc xs ys h1.1 h2.1 (fun v => (h1.2 v).trans (h2.2 v).symm)

theorem sorted_append {comp : α → α → Bool} {xs ys : List α} :
    SortedBy comp (xs ++ ys) ↔ SortedBy comp xs ∧ SortedBy comp ys ∧ ∀ x ∈ xs, ∀ y ∈ ys, comp y x = false := List.pairwise_append

/-- elements of a stable arrangement come from the source -/
theorem Spec.StableSorted.mem {comp : α → α → Bool} (hc : StrictWeak comp) {src zs : List α} (h : StableSorted comp src zs) {x : α} (hx : x ∈ zs) : x ∈ src :=
  (StableSorted.perm hc h.2).mem_iff.mp hx

/-- the two halves of a cut, `X = X1 ++ X2`, `Y = Y1 ++ Y2`, with every element of `X1`, `Y1` at most every one of `X2`, `Y2`,
and those of `Y1` strictly below those of `X2` -/
theorem stable_cut {comp : α → α → Bool} (hc : StrictWeak comp) {X1 X2 Y1 Y2 Z1 Z2 : List α} (h1 : StableSorted comp (X1 ++ Y1) Z1)
    (h2 : StableSorted comp (X2 ++ Y2) Z2) (hle : ∀ x ∈ X1 ++ Y1, ∀ y ∈ X2 ++ Y2, comp y x = false) (hlt : ∀ y ∈ Y1, ∀ x ∈ X2, comp y x = true) :
    StableSorted comp ((X1 ++ X2) ++ (Y1 ++ Y2)) (Z1 ++ Z2) := by
  refine ⟨sorted_append.mpr ⟨h1.1, h2.1, fun x hx y hy => hle x (h1.mem hc hx) y (h2.mem hc hy)⟩, fun v => ?_⟩
  rw [cls_append, h1.2, h2.2]
  simp only [cls_append]
  have : cls comp v Y1 = [] ∨ cls comp v X2 = [] := by
    by_contra hcon
    rw [not_or] at hcon
    obtain ⟨y, hy⟩ := List.exists_mem_of_ne_nil _ hcon.1
    obtain ⟨x, hx⟩ := List.exists_mem_of_ne_nil _ hcon.2
    unfold cls at hx hy
    rw [List.mem_filter] at hx hy
    have hyx := hlt y hy.1 x hx.1
    simp only [Bool.and_eq_true, Bool.not_eq_true'] at hx hy
    rcases hc.cotrans y v x hyx with h | h
    · rw [hy.2.1] at h; cases h
    · rw [hx.2.2] at h; cases h
  rcases this with h | h <;> simp [h]

theorem rd_seg (pre X post : List α) (x : α) (i : Nat) (h : i = pre.length) : rd (pre ++ (x :: X) ++ post) i = some x := by
  subst h; simp [rd]

theorem inplaceMergeImpl_spec {comp : α → α → Bool} (hc : StrictWeak comp) : ∀ (n : Nat) (pre X Y post : List α), X.length + Y.length = n →
    SortedBy comp X → SortedBy comp Y →
    ∃ Z, inplaceMergeImpl comp (pre ++ (X ++ Y) ++ post) pre.length (pre.length + X.length) (pre.length + (X.length + Y.length)) X.length Y.length
      = some (pre ++ Z ++ post) ∧ StableSorted comp (X ++ Y) Z ∧ Z.length = X.length + Y.length := by
  intro n
  induction n using Nat.strongRecOn with
  | ind n ih =>
    intro pre X Y post hn hX hY
    rw [inplaceMergeImpl]
    by_cases h0 : X.length = 0 ∨ Y.length = 0
    · rw [if_pos h0]
      refine ⟨X ++ Y, rfl, ⟨?_, fun _ => rfl⟩, by simp⟩
      rcases h0 with h | h
      · rw [List.length_eq_zero_iff.mp h]; simpa using hY
      · rw [List.length_eq_zero_iff.mp h]; simpa using hX
    rw [if_neg h0]
    by_cases h2 : X.length + Y.length = 2
    · rw [if_pos h2]
      obtain ⟨x, rfl⟩ : ∃ x, X = [x] := List.length_eq_one_iff.mp (by omega)
      obtain ⟨y, rfl⟩ : ∃ y, Y = [y] := List.length_eq_one_iff.mp (by omega)
      have hx : (pre ++ ([x] ++ [y]) ++ post)[pre.length]? = some x := by simp
      have hy : (pre ++ ([x] ++ [y]) ++ post)[pre.length + [x].length]? = some y := by simp
      rw [cmpAt_some hy hx]
      simp only [Option.bind_eq_bind, Option.bind_some]
      cases hyx : comp y x with
      | true =>
        rw [if_pos rfl, swp_some hx hy]
        refine ⟨[y, x], by simp, ⟨?_, fun v => ?_⟩, rfl⟩
        · simp [SortedBy, hc.asymm hyx]
        · cases h1 : comp x v <;> cases h2 : comp v x <;> cases h3 : comp y v <;> cases h4 : comp v y <;> simp [cls, h1, h2, h3, h4]
          rcases hc.cotrans y v x hyx with h | h
          · rw [h3] at h; cases h
          · rw [h2] at h; cases h
      | false =>
        rw [if_neg (by simp)]
        exact ⟨[x, y], by simp, ⟨by simp [SortedBy, hyx], fun _ => rfl⟩, rfl⟩
    rw [if_neg h2]
    -- the common tail, after the cut points are known
    have tail : ∀ X1 X2 Y1 Y2 : List α, X = X1 ++ X2 → Y = Y1 ++ Y2 → (X1.length + Y1.length < n) → (X2.length + Y2.length < n) →
        (∀ x ∈ X1 ++ Y1, ∀ y ∈ X2 ++ Y2, comp y x = false) → (∀ y ∈ Y1, ∀ x ∈ X2, comp y x = true) →
        ∃ Z, ((rotate (pre ++ (X ++ Y) ++ post) (pre.length + X1.length) (pre.length + X.length) (pre.length + X.length + Y1.length)).bind fun r =>
          (inplaceMergeImpl comp r.1 pre.length (pre.length + X1.length) (pre.length + X1.length + Y1.length) X1.length Y1.length).bind fun m =>
            inplaceMergeImpl comp m (pre.length + X1.length + Y1.length) (pre.length + X.length + Y1.length) (pre.length + (X.length + Y.length))
              (X.length - X1.length) (Y.length - Y1.length)) = some (pre ++ Z ++ post) ∧ StableSorted comp (X ++ Y) Z ∧ Z.length = X.length + Y.length := by
      intro X1 X2 Y1 Y2 eX eY l1 l2 hle hlt
      subst eX eY
      have hr := rotate_spec (pre ++ X1) X2 Y1 (Y2 ++ post)
      have e1 : pre ++ X1 ++ (X2 ++ (Y1 ++ (Y2 ++ post))) = pre ++ (X1 ++ X2 ++ (Y1 ++ Y2)) ++ post := by simp
      rw [e1] at hr
      rw [show pre.length + X1.length = (pre ++ X1).length by simp, show pre.length + (X1 ++ X2).length = (pre ++ X1).length + X2.length by simp; omega, hr]
      simp only [Option.bind_some]
      obtain ⟨hX1, hX2, -⟩ := sorted_append.mp hX
      obtain ⟨hY1, hY2, -⟩ := sorted_append.mp hY
      obtain ⟨Z1, g1, g2, g3⟩ := ih _ l1 pre X1 Y1 (X2 ++ Y2 ++ post) rfl hX1 hY1
      have e2 : pre ++ X1 ++ (Y1 ++ (X2 ++ (Y2 ++ post))) = pre ++ (X1 ++ Y1) ++ (X2 ++ Y2 ++ post) := by simp
      rw [e2, show (pre ++ X1).length = pre.length + X1.length by simp, Nat.add_assoc pre.length X1.length Y1.length, g1]
      simp only [Option.bind_some]
      obtain ⟨Z2, f1, f2, f3⟩ := ih _ l2 (pre ++ Z1) X2 Y2 post rfl hX2 hY2
      have e3 : pre ++ Z1 ++ (X2 ++ Y2 ++ post) = pre ++ Z1 ++ (X2 ++ Y2) ++ post := by simp
      have e4 : (pre ++ Z1).length = pre.length + (X1.length + Y1.length) := by simp [g3]
      rw [e4] at f1
      rw [e3]
      have e5 : pre.length + X1.length + X2.length + Y1.length = pre.length + (X1.length + Y1.length) + X2.length := by omega
      have e6 : pre.length + ((X1 ++ X2).length + (Y1 ++ Y2).length) = pre.length + (X1.length + Y1.length) + (X2.length + Y2.length) := by simp; omega
      have e7 : (X1 ++ X2).length - X1.length = X2.length := by simp
      have e8 : (Y1 ++ Y2).length - Y1.length = Y2.length := by simp
      rw [e5, e6, e7, e8, f1]
      refine ⟨Z1 ++ Z2, by simp, stable_cut hc g2 f2 hle hlt, by simp [g3, f3]; omega⟩
    by_cases hgt : X.length > Y.length
    · rw [if_pos hgt]
      obtain ⟨X1, c, X2, rfl, hX1⟩ : ∃ X1 c X2, X = X1 ++ c :: X2 ∧ X1.length = X.length / 2 :=
        ⟨X.take (X.length / 2), X[X.length / 2]'(by omega), X.drop (X.length / 2 + 1), by simp, by simp; omega⟩
      obtain ⟨hS1, hS2, hS12⟩ := sorted_append.mp hX
      have hcX := (sorted_cons.mp hS2).1
      obtain ⟨Y1, Y2, rfl, hT, hF⟩ := sorted_split_lower hc c Y hY
      simp only [Option.bind_eq_bind]
      rw [show (pre ++ (X1 ++ c :: X2 ++ (Y1 ++ Y2)) ++ post) = (pre ++ X1) ++ (c :: X2) ++ ((Y1 ++ Y2) ++ post) by simp,
        rd_seg (pre ++ X1) X2 _ c _ (by rw [← hX1]; simp)]
      simp only [Option.bind_some]
      obtain ⟨calls, hb, -⟩ := bisect_part (pre ++ X1 ++ c :: X2) Y1 Y2 post (fun x => comp x c) hT hF
      have el : lowerBound (pre ++ X1 ++ (c :: X2) ++ ((Y1 ++ Y2) ++ post)) (pre.length + (X1 ++ c :: X2).length)
          (pre.length + ((X1 ++ c :: X2).length + (Y1 ++ Y2).length)) c comp = some (pre.length + (X1 ++ c :: X2).length + Y1.length, calls) := by
        unfold lowerBound
        rw [show pre.length + ((X1 ++ c :: X2).length + (Y1 ++ Y2).length) - (pre.length + (X1 ++ c :: X2).length) = (Y1 ++ Y2).length by omega]
        have := hb
        simp only [List.append_assoc, List.length_append, List.length_cons] at this ⊢
        rw [this]
      rw [el]
      simp only [Option.bind_some, Nat.add_sub_cancel_left, ← hX1]
      have := tail X1 (c :: X2) Y1 Y2 rfl rfl (by simp at hn ⊢; omega) (by simp only [List.length_append, List.length_cons] at *; omega) ?_ ?_
      · simpa using this
      · intro x hx y hy
        have hxc : comp c x = false := by
          rcases List.mem_append.mp hx with hx | hx
          · exact hS12 x hx c (by simp)
          · exact hc.asymm (hT x hx)
        have hcy : comp y c = false := by
          rcases List.mem_append.mp hy with hy | hy
          · rcases List.mem_cons.mp hy with rfl | hy
            · exact hc.irrefl _
            · exact hcX y hy
          · exact hF y hy
        exact hc.le_trans hxc hcy
      · intro y hy x hx
        rcases List.mem_cons.mp hx with rfl | hx
        · exact hT y hy
        · exact hc.lt_of_lt_of_le (hT y hy) (hcX x hx)
    · rw [if_neg hgt]
      obtain ⟨Y1, c, Y2, rfl, hY1⟩ : ∃ Y1 c Y2, Y = Y1 ++ c :: Y2 ∧ Y1.length = Y.length / 2 :=
        ⟨Y.take (Y.length / 2), Y[Y.length / 2]'(by omega), Y.drop (Y.length / 2 + 1), by simp, by simp; omega⟩
      obtain ⟨hS1, hS2, hS12⟩ := sorted_append.mp hY
      have hcY := (sorted_cons.mp hS2).1
      obtain ⟨X1, X2, rfl, hT, hF⟩ := sorted_split_upper hc c X hX
      simp only [Option.bind_eq_bind]
      rw [show (pre ++ (X1 ++ X2 ++ (Y1 ++ c :: Y2)) ++ post) = (pre ++ (X1 ++ X2) ++ Y1) ++ (c :: Y2) ++ post by simp,
        rd_seg (pre ++ (X1 ++ X2) ++ Y1) Y2 _ c _ (by rw [← hY1]; simp; omega)]
      simp only [Option.bind_some]
      obtain ⟨calls, hb, -⟩ := bisect_part pre X1 X2 (Y1 ++ c :: Y2 ++ post) (fun x => !comp c x) (fun x hx => by simp [hT x hx]) (fun x hx => by simp [hF x hx])
      have el : upperBound (pre ++ (X1 ++ X2) ++ Y1 ++ (c :: Y2) ++ post) pre.length (pre.length + (X1 ++ X2).length) c comp
          = some (pre.length + X1.length, calls) := by
        unfold upperBound
        rw [Nat.add_sub_cancel_left]
        have := hb
        simp only [List.append_assoc] at this ⊢
        rw [this]
      rw [el]
      simp only [Option.bind_some, Nat.add_sub_cancel_left, ← hY1]
      have := tail X1 X2 Y1 (c :: Y2) rfl rfl (by simp at hn ⊢; omega) (by simp only [List.length_append, List.length_cons] at *; omega) ?_ ?_
      · simpa using this
      · intro x hx y hy
        have hxc : comp c x = false := by
          rcases List.mem_append.mp hx with hx | hx
          · exact hT x hx
          · exact hS12 x hx c (by simp)
        have hcy : comp y c = false := by
          rcases List.mem_append.mp hy with hy | hy
          · exact hc.asymm (hF y hy)
          · rcases List.mem_cons.mp hy with rfl | hy
            · exact hc.irrefl _
            · exact hcY y hy
        exact hc.le_trans hxc hcy
      · intro y hy x hx
        exact hc.lt_of_le_of_lt (hS12 y hy c (by simp)) (hF x hx)

end Sprout
