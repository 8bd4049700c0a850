import Verif.Model.Merge
import Verif.Spec.Merge
import Verif.Proofs.Moves
import Verif.Proofs.BinarySearch
import Verif.Proofs.Sort

namespace Sprout
open Spec
variable {α : Type}

/-- optional singleton -/
def em (e : Bool) (x : α) : List α := if e then [x] else []

/-- the list computed by `merge2` -/
def zm (dec : α → α → Act) (k1 k2 : Bool) : List α → List α → List α
  | [], ys => if k2 then ys else []
  | x :: xs, [] => if k1 then x :: xs else []
  | x :: xs, y :: ys =>
    match dec x y with
    | .left e => em e x ++ zm dec k1 k2 xs (y :: ys)
    | .right e => em e y ++ zm dec k1 k2 (x :: xs) ys
    | .both e => em e x ++ zm dec k1 k2 xs ys
termination_by xs ys => xs.length + ys.length

theorem copy_spec (m xs : List α) (s d : Nat) (h : Seg m s xs) (hd : d ≤ s ∨ s + xs.length ≤ d) (hr : d + xs.length ≤ m.length) :
    copy m s (s + xs.length) d = some (overwrite m d xs, d + xs.length) := by
  have := emitLoop_spec (fun x => some x) xs m s d h hd (by simpa using hr)
  unfold copy
  rw [this]; simp

theorem merge2_spec (dec : α → α → Act) (k1 k2 : Bool) : ∀ (xs ys m : List α) (a b d : Nat), Seg m a xs → Seg m b ys →
    (d + (zm dec k1 k2 xs ys).length ≤ a ∨ a + xs.length ≤ d) → (d + (zm dec k1 k2 xs ys).length ≤ b ∨ b + ys.length ≤ d) →
    d + (zm dec k1 k2 xs ys).length ≤ m.length →
    merge2 dec k1 k2 m a (a + xs.length) b (b + ys.length) d
      = some (overwrite m d (zm dec k1 k2 xs ys), d + (zm dec k1 k2 xs ys).length) := by
  -- one emitting step followed by the rest
  have step : ∀ (e : Bool) (x : α) (R m : List α) (a b d : Nat) (xs ys : List α), Seg m a xs → Seg m b ys →
      (d + (em e x ++ R).length ≤ a ∨ a + xs.length ≤ d) → (d + (em e x ++ R).length ≤ b ∨ b + ys.length ≤ d) →
      d + (em e x ++ R).length ≤ m.length →
      (∀ (m' : List α) (d' : Nat), Seg m' a xs → Seg m' b ys → (d' + R.length ≤ a ∨ a + xs.length ≤ d') → (d' + R.length ≤ b ∨ b + ys.length ≤ d') →
        d' + R.length ≤ m'.length → merge2 dec k1 k2 m' a (a + xs.length) b (b + ys.length) d' = some (overwrite m' d' R, d' + R.length)) →
      (do let r ← emitIf e m d x
          merge2 dec k1 k2 r.1 a (a + xs.length) b (b + ys.length) r.2) = some (overwrite m d (em e x ++ R), d + (em e x ++ R).length) := by
    intro e x R m a b d xs ys h1 h2 h3 h4 h5 h6
    cases e with
    | false => simpa [emitIf, em] using h6 m d h1 h2 (by simpa [em] using h3) (by simpa [em] using h4) (by simpa [em] using h5)
    | true =>
      simp only [em, if_true, List.singleton_append, List.length_cons] at h3 h4 h5 ⊢
      simp only [emitIf, if_true, wr_eq (show d < m.length by omega), Option.bind_eq_bind, Option.bind_some]
      rw [h6 (m.set d x) (d + 1) (h1.set (by omega)) (h2.set (by omega)) (by omega) (by omega) (by simp; omega),
        overwrite_cons (by omega)]
      congr 2; omega
  intro xs ys
  induction hn : xs.length + ys.length using Nat.strongRecOn generalizing xs ys with
  | ind n ih =>
    intro m a b d hx hy hda hdb hr
    rw [merge2]
    cases xs with
    | nil =>
      rw [if_pos (by simp)]
      cases k2 with
      | false => simp [zm, overwrite_nil]
      | true =>
        simp only [zm, if_true] at hda hdb hr ⊢
        exact copy_spec m ys b d hy (by omega) hr
    | cons x xs =>
      rw [if_neg (by simp)]
      cases ys with
      | nil =>
        rw [if_pos (by simp)]
        cases k1 with
        | false => simp [zm, overwrite_nil]
        | true =>
          simp only [zm, if_true] at hda hdb hr ⊢
          exact copy_spec m (x :: xs) a d hx (by omega) hr
      | cons y ys =>
        rw [if_neg (by simp)]
        obtain ⟨x0, hx'⟩ := hx.cons
        obtain ⟨y0, hy'⟩ := hy.cons
        simp only [rd, x0, y0, Option.bind_eq_bind, Option.bind_some]
        have ea : a + (x :: xs).length = a + 1 + xs.length := by simp; omega
        have eb : b + (y :: ys).length = b + 1 + ys.length := by simp; omega
        simp only [List.length_cons] at hn
        rw [zm] at hda hdb hr ⊢
        cases hdec : dec x y with
        | left e =>
          simp only [hdec] at hda hdb hr ⊢
          rw [ea]
          refine step e x _ m (a + 1) b d xs (y :: ys) hx' hy (by omega) hdb hr ?_
          intro m' d' g1 g2 g3 g4 g5
          exact ih (xs.length + (y :: ys).length) (by simp; omega) xs (y :: ys) rfl m' (a + 1) b d' g1 g2 g3 g4 g5
        | right e =>
          simp only [hdec] at hda hdb hr ⊢
          rw [eb]
          refine step e y _ m a (b + 1) d (x :: xs) ys hx hy' hda (by omega) hr ?_
          intro m' d' g1 g2 g3 g4 g5
          exact ih ((x :: xs).length + ys.length) (by simp; omega) (x :: xs) ys rfl m' a (b + 1) d' g1 g2 g3 g4 g5
        | both e =>
          simp only [hdec] at hda hdb hr ⊢
          rw [ea, eb]
          refine step e x _ m (a + 1) (b + 1) d xs ys hx' hy' (by omega) (by omega) hr ?_
          intro m' d' g1 g2 g3 g4 g5
          exact ih (xs.length + ys.length) (by omega) xs ys rfl m' (a + 1) (b + 1) d' g1 g2 g3 g4 g5

/-! ### classes of equivalent elements -/

theorem cls_nil (comp : α → α → Bool) (v : α) : cls comp v [] = [] := rfl

theorem cls_append (comp : α → α → Bool) (v : α) (xs ys : List α) : cls comp v (xs ++ ys) = cls comp v xs ++ cls comp v ys := by
  simp [cls]

theorem cls_cons_pos {comp : α → α → Bool} {v x : α} {xs : List α} (h1 : comp x v = false) (h2 : comp v x = false) :
    cls comp v (x :: xs) = x :: cls comp v xs := by simp [cls, h1, h2]

theorem cls_cons_neg {comp : α → α → Bool} {v x : α} {xs : List α} (h : comp x v = true ∨ comp v x = true) :
    cls comp v (x :: xs) = cls comp v xs := by
  unfold cls
  rw [List.filter_cons_of_neg]
  rcases h with h | h <;> simp [h]

theorem cls_eq_nil {comp : α → α → Bool} {v : α} {xs : List α} (h : ∀ x ∈ xs, comp x v = true ∨ comp v x = true) : cls comp v xs = [] := by
  unfold cls
  rw [List.filter_eq_nil_iff]
  intro x hx
  rcases h x hx with h | h <;> simp [h]

/-- all elements above `x`, which is equivalent to `v` -/
theorem cls_above {comp : α → α → Bool} (hc : StrictWeak comp) {v x : α} {ys : List α} (hx : comp x v = false) (h : ∀ y ∈ ys, comp x y = true) :
    cls comp v ys = [] := by
  apply cls_eq_nil
  intro y hy
  exact .inr (hc.lt_of_le_of_lt hx (h y hy))

theorem mem_zm {dec : α → α → Act} {k1 k2 : Bool} : ∀ (xs ys : List α) (z : α), z ∈ zm dec k1 k2 xs ys → z ∈ xs ∨ z ∈ ys := by
  intro xs ys
  induction hn : xs.length + ys.length using Nat.strongRecOn generalizing xs ys with
  | ind n ih =>
    intro z hz
    cases xs with
    | nil => rw [zm] at hz; cases k2 <;> simp_all
    | cons x xs =>
      cases ys with
      | nil => rw [zm] at hz; cases k1 <;> simp_all
      | cons y ys =>
        simp only [List.length_cons] at hn
        have hem : ∀ e (w : α), z ∈ em e w → z = w := by intro e w h; cases e <;> simp_all [em]
        rw [zm] at hz
        cases hdec : dec x y with
        | left e =>
          simp only [hdec, List.mem_append] at hz
          rcases hz with hz | hz
          · rw [hem e x hz]; simp
          · rcases ih _ (by simp; omega) xs (y :: ys) rfl z hz with h | h <;> simp [h]
        | right e =>
          simp only [hdec, List.mem_append] at hz
          rcases hz with hz | hz
          · rw [hem e y hz]; simp
          · rcases ih _ (by simp; omega) (x :: xs) ys rfl z hz with h | h
            · exact .inl h
            · simp [h]
        | both e =>
          simp only [hdec, List.mem_append] at hz
          rcases hz with hz | hz
          · rw [hem e x hz]; simp
          · rcases ih _ (by omega) xs ys rfl z hz with h | h <;> simp [h]

theorem sorted_cons {comp : α → α → Bool} {x : α} {xs : List α} : SortedBy comp (x :: xs) ↔ (∀ y ∈ xs, comp y x = false) ∧ SortedBy comp xs :=
  List.pairwise_cons

theorem zm_sorted {comp : α → α → Bool} (hc : StrictWeak comp) {dec : α → α → Act} {k1 k2 : Bool}
    (hl : ∀ x y e, dec x y = .left e → comp y x = false) (hr : ∀ x y e, dec x y = .right e → comp y x = true)
    (hb : ∀ x y e, dec x y = .both e → comp x y = false ∧ comp y x = false) : ∀ (xs ys : List α), SortedBy comp xs → SortedBy comp ys →
    SortedBy comp (zm dec k1 k2 xs ys) := by
  intro xs ys
  induction hn : xs.length + ys.length using Nat.strongRecOn generalizing xs ys with
  | ind n ih =>
    intro hx hy
    have hem : ∀ e (w : α) (R : List α), SortedBy comp R → (∀ z ∈ R, comp z w = false) → SortedBy comp (em e w ++ R) := by
      intro e w R h1 h2
      cases e
      · exact h1
      · exact sorted_cons.mpr ⟨h2, h1⟩
    cases xs with
    | nil => rw [zm]; cases k2; exacts [.nil, hy]
    | cons x xs =>
      cases ys with
      | nil => rw [zm]; cases k1; exacts [.nil, hx]
      | cons y ys =>
        simp only [List.length_cons] at hn
        obtain ⟨hx1, hx2⟩ := sorted_cons.mp hx
        obtain ⟨hy1, hy2⟩ := sorted_cons.mp hy
        rw [zm]
        cases hdec : dec x y with
        | left e =>
          simp only []
          refine hem e x _ (ih _ (by simp; omega) xs (y :: ys) rfl hx2 hy) ?_
          intro z hz
          rcases mem_zm _ _ _ hz with h | h
          · exact hx1 z h
          · have hyx := hl x y e hdec
            rcases List.mem_cons.mp h with rfl | h
            · exact hyx
            · exact hc.le_trans hyx (hy1 z h)
        | right e =>
          simp only []
          refine hem e y _ (ih _ (by simp; omega) (x :: xs) ys rfl hx hy2) ?_
          intro z hz
          rcases mem_zm _ _ _ hz with h | h
          · have hyx := hc.asymm (hr x y e hdec)
            rcases List.mem_cons.mp h with rfl | h
            · exact hyx
            · exact hc.le_trans hyx (hx1 z h)
          · exact hy1 z h
        | both e =>
          simp only []
          refine hem e x _ (ih _ (by omega) xs ys rfl hx2 hy2) ?_
          intro z hz
          rcases mem_zm _ _ _ hz with h | h
          · exact hx1 z h
          · exact hc.le_trans (hb x y e hdec).2 (hy1 z h)

/-- Class by class, the loop computes `F`. -/
theorem zm_cls {comp : α → α → Bool} (hc : StrictWeak comp) {dec : α → α → Act} {k1 k2 : Bool} (F : List α → List α → List α)
    (hF1 : ∀ a, F a [] = if k1 then a else []) (hF2 : ∀ b, F [] b = if k2 then b else [])
    (hl : ∀ x y e, dec x y = .left e → comp y x = false ∧ ∀ a b, (comp x y = true → b = []) → F (x :: a) b = em e x ++ F a b)
    (hr : ∀ x y e, dec x y = .right e → comp y x = true ∧ ∀ b, F [] (y :: b) = em e y ++ F [] b)
    (hb : ∀ x y e, dec x y = .both e → comp x y = false ∧ comp y x = false ∧ ∀ a b, F (x :: a) (y :: b) = em e x ++ F a b) (v : α) :
    ∀ (xs ys : List α), SortedBy comp xs → SortedBy comp ys →
    cls comp v (zm dec k1 k2 xs ys) = F (cls comp v xs) (cls comp v ys) := by
  intro xs ys
  induction hn : xs.length + ys.length using Nat.strongRecOn generalizing xs ys with
  | ind n ih =>
    intro hx hy
    have hem1 : ∀ e (w : α), comp w v = false → comp v w = false → cls comp v (em e w) = em e w := by
      intro e w h1 h2; cases e
      · rfl
      · simp [em, cls, h1, h2]
    have hem2 : ∀ e (w : α), comp w v = true ∨ comp v w = true → cls comp v (em e w) = [] := by
      intro e w h; cases e
      · rfl
      · simp only [em, if_true]; exact cls_cons_neg h
    have dich : ∀ w, (comp w v = false ∧ comp v w = false) ∨ (comp w v = true ∨ comp v w = true) := by
      intro w; cases comp w v <;> cases comp v w <;> simp
    cases xs with
    | nil => rw [zm, cls_nil, hF2]; cases k2 <;> rfl
    | cons x xs =>
      cases ys with
      | nil => rw [zm, cls_nil, hF1]; cases k1 <;> rfl
      | cons y ys =>
        simp only [List.length_cons] at hn
        obtain ⟨hx1, hx2⟩ := sorted_cons.mp hx
        obtain ⟨hy1, hy2⟩ := sorted_cons.mp hy
        rw [zm]
        cases hdec : dec x y with
        | left e =>
          obtain ⟨h1, h2⟩ := hl x y e hdec
          simp only []
          rw [cls_append, ih _ (by simp; omega) xs (y :: ys) rfl hx2 hy]
          rcases dich x with ⟨d1, d2⟩ | d
          · rw [hem1 e x d1 d2, cls_cons_pos d1 d2]
            rw [h2]
            intro hxy
            apply cls_above hc d1
            intro z hz
            rcases List.mem_cons.mp hz with rfl | hz
            · exact hxy
            · exact hc.lt_of_lt_of_le hxy (hy1 z hz)
          · rw [hem2 e x d, cls_cons_neg d]; rfl
        | right e =>
          obtain ⟨h1, h2⟩ := hr x y e hdec
          simp only []
          rw [cls_append, ih _ (by simp; omega) (x :: xs) ys rfl hx hy2]
          rcases dich y with ⟨d1, d2⟩ | d
          · rw [hem1 e y d1 d2, cls_cons_pos d1 d2]
            have : cls comp v (x :: xs) = [] := by
              apply cls_above hc d1
              intro z hz
              rcases List.mem_cons.mp hz with rfl | hz
              · exact h1
              · exact hc.lt_of_lt_of_le h1 (hx1 z hz)
            rw [this, h2]
          · rw [hem2 e y d, cls_cons_neg d]; rfl
        | both e =>
          obtain ⟨h1, h2, h3⟩ := hb x y e hdec
          simp only []
          rw [cls_append, ih _ (by omega) xs ys rfl hx2 hy2]
          rcases dich x with ⟨d1, d2⟩ | d
          · rw [hem1 e x d1 d2, cls_cons_pos d1 d2, cls_cons_pos (xs := ys) (hc.le_trans d1 h2) (hc.le_trans h1 d2), h3]
          · rw [hem2 e x d, cls_cons_neg d]
            have : comp y v = true ∨ comp v y = true := by
              rcases d with d | d
              · exact .inl (hc.lt_of_le_of_lt h1 d)
              · exact .inr (hc.lt_of_lt_of_le d h2)
            rw [cls_cons_neg this]; rfl

end Sprout
