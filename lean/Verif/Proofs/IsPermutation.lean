import Verif.Model.IsPermutation
import Verif.Proofs.Find2
import Verif.Proofs.Doubling

namespace Sprout
variable {α : Type}

/-- an equivalence predicate -/
structure BoolEquiv (pred : α → α → Bool) : Prop where
  refl : ∀ a, pred a a = true
  symm : ∀ a b, pred a b = true → pred b a = true
  trans : ∀ a b c, pred a b = true → pred b c = true → pred a c = true

theorem BoolEquiv.congr {pred : α → α → Bool} (h : BoolEquiv pred) {a b : α} (hab : pred a b = true) (c : α) : pred c a = pred c b := by
  cases h1 : pred c b with
  | true => exact h.trans _ _ _ h1 (h.symm _ _ hab)
  | false => cases h2 : pred c a with
    | true => rw [h.trans _ _ _ h2 hab] at h1; cases h1
    | false => rfl

theorem BoolEquiv.congr_left {pred : α → α → Bool} (h : BoolEquiv pred) {a b : α} (hab : pred a b = true) (c : α) : pred a c = pred b c := by
  cases h1 : pred b c with
  | true => exact h.trans _ _ _ hab h1
  | false => cases h2 : pred a c with
    | true => rw [h.trans _ _ _ (h.symm _ _ hab) h2] at h1; cases h1
    | false => rfl

/-- the element test as a function of the split `X1 ++ x :: X2` of the first range -/
def oneTest (pred : α → α → Bool) (Y X1 : List α) (x : α) (X2 : List α) : Bool :=
  X1.any (fun z => pred z x) || (Y.countP (fun z => pred z x) == X2.countP (fun z => pred z x) + 1)

/-- what `find_if` and `count_if` do on segments -/
structure GoodFn (fnd cnt : FindFn α) : Prop where
  fnd : ∀ (pre xs post : List α) p, fnd (pre ++ xs ++ post) pre.length (pre.length + xs.length) p = some (pre.length + xs.findIdx p)
  cnt : ∀ (pre xs post : List α) p, cnt (pre ++ xs ++ post) pre.length (pre.length + xs.length) p = some (xs.countP p)

theorem permOne_spec {fnd cnt : FindFn α} (g : GoodFn fnd cnt) (pred : α → α → Bool) (pre1 X1 X2 post1 pre2 Y post2 : List α) (x : α) :
    permOne fnd cnt (pre1 ++ (X1 ++ x :: X2) ++ post1) (pre2 ++ Y ++ post2) pred pre1.length (pre1.length + (X1 ++ x :: X2).length)
      pre2.length (pre2.length + Y.length) (pre1.length + X1.length) = some (oneTest pred Y X1 x X2) := by
  have hx : (pre1 ++ (X1 ++ x :: X2) ++ post1)[pre1.length + X1.length]? = some x := by
    rw [show pre1 ++ (X1 ++ x :: X2) ++ post1 = (pre1 ++ X1) ++ x :: (X2 ++ post1) by simp, show pre1.length + X1.length = (pre1 ++ X1).length by simp]
    simp
  unfold permOne
  simp only [rd, hx, Option.bind_eq_bind, Option.bind_some]
  have h1 := g.fnd pre1 X1 (x :: X2 ++ post1) (fun z => pred z x)
  rw [show pre1 ++ X1 ++ (x :: X2 ++ post1) = pre1 ++ (X1 ++ x :: X2) ++ post1 by simp] at h1
  rw [h1]
  simp only [Option.bind_some]
  unfold oneTest
  by_cases h : ∃ z ∈ X1, pred z x = true
  · have : X1.any (fun z => pred z x) = true := by simpa using h
    rw [if_pos, this, Bool.true_or]
    have := List.findIdx_lt_length.mpr h
    omega
  · have h' : X1.any (fun z => pred z x) = false := by
      rw [Bool.eq_false_iff]; intro hh; exact h (by simpa using hh)
    have : X1.findIdx (fun z => pred z x) = X1.length := List.findIdx_eq_length.mpr (fun z hz => by
      rw [Bool.eq_false_iff]; intro hh; exact h ⟨z, hz, hh⟩)
    rw [if_neg (by omega), h', Bool.false_or, g.cnt]
    simp only [Option.bind_some]
    unfold permCheck
    have h2 := g.cnt (pre1 ++ X1 ++ [x]) X2 post1 (fun z => pred z x)
    rw [show pre1 ++ X1 ++ [x] ++ X2 ++ post1 = pre1 ++ (X1 ++ x :: X2) ++ post1 by simp,
      show (pre1 ++ X1 ++ [x]).length + X2.length = pre1.length + (X1 ++ x :: X2).length by simp; omega,
      show (pre1 ++ X1 ++ [x]).length = pre1.length + X1.length + 1 by simp; omega] at h2
    simp only [rd, hx, Option.bind_eq_bind, Option.bind_some, h2]
    split
    · congr 1
      rw [Bool.eq_iff_iff, beq_iff_eq, beq_iff_eq]
      omega
    · rename_i hz
      have hz : Y.countP (fun z => pred z x) = 0 := by simpa using hz
      rw [hz]
      simp

/-- all tests from a split point on -/
def allTests (pred : α → α → Bool) (Y : List α) : List α → List α → Bool
  | _, [] => true
  | X1, x :: X2 => oneTest pred Y X1 x X2 && allTests pred Y (X1 ++ [x]) X2

theorem permImplRa_spec {test : Nat → Option Bool} {t : Nat → Bool} : ∀ (n c : Nat), 0 < n → (∀ i, c ≤ i → i < c + n → test i = some (t i)) →
    permImplRa test c n = some ((List.range' c n).all t) := by
  intro n
  induction n using Nat.strongRecOn with
  | ind n ih =>
    intro c hn ht
    rw [permImplRa]
    by_cases h1 : n = 1
    · subst h1; simp [ht c (by omega) (by omega)]
    · rw [if_neg h1, ih (n / 2) (by omega) c (by omega) (fun i _ _ => ht i (by omega) (by omega))]
      simp only [Option.bind_eq_bind, Option.bind_some]
      have e : List.range' c n = List.range' c (n / 2) ++ List.range' (c + n / 2) (n - n / 2) := by
        have := List.range'_append (s := c) (m := n / 2) (n := n - n / 2) (step := 1)
        rw [Nat.one_mul, show n / 2 + (n - n / 2) = n by omega] at this
        exact this.symm
      rw [e, List.all_append]
      cases h : (List.range' c (n / 2)).all t with
      | true =>
        rw [if_pos rfl, ih (n - n / 2) (by omega) (c + n / 2) (by omega) (fun i _ _ => ht i (by omega) (by omega)), Bool.true_and]
      | false => simp

theorem permImplFwd_run {test : Nat → Option Bool} {t : Nat → Bool} : ∀ (n c : Nat), (∀ i, c ≤ i → i < c + n → test i = some (t i)) →
    ∃ k r, k ≤ n ∧ Run (finIf fun s : Nat × Bool => !s.2 || s.1 == c + n)
      (fun s => do if ← test s.1 then some (s.1 + 1, true) else some (s.1, false)) k (c, true) r ∧ r.2 = (List.range' c n).all t := by
  intro n
  induction n with
  | zero => intro c _; exact ⟨0, (c, true), by omega, .stop (by simp [finIf]), by simp⟩
  | succ n ih =>
    intro c ht
    have hfin : (finIf fun s : Nat × Bool => !s.2 || s.1 == c + (n + 1)) (c, true) = none := by
      unfold finIf; rw [if_neg]; simp
    rw [List.range'_succ, List.all_cons]
    have h0 := ht c (by omega) (by omega)
    cases h : t c with
    | true =>
      obtain ⟨k, r, g0, g1, g2⟩ := ih (c + 1) (fun i _ _ => ht i (by omega) (by omega))
      rw [show c + 1 + n = c + (n + 1) by omega] at g1
      exact ⟨k + 1, r, by omega, .step hfin (t := (c + 1, true)) (by simp [h0, h]) g1, by simpa using g2⟩
    | false =>
      exact ⟨1, (c, false), by omega, .step hfin (t := (c, false)) (by simp [h0, h]) (.stop (by simp [finIf])), by simp⟩

theorem permImplFwd_spec {test : Nat → Option Bool} {t : Nat → Bool} (n c : Nat) (ht : ∀ i, c ≤ i → i < c + n → test i = some (t i)) :
    permImplFwd test c (c + n) n = some ((List.range' c n).all t) := by
  unfold permImplFwd
  obtain ⟨k, r, g0, g1, g2⟩ := permImplFwd_run n c ht
  rcases Nat.eq_zero_or_pos n with rfl | hn
  · rw [dbl1]; simp [finIf]
  · obtain ⟨d, h1, h2⟩ := dbl1_run (finIf_idem _) n hn k _ r g1
    rw [h1]
    rw [show k - n = 0 by omega] at h2
    cases h2 with
    | stop h =>
      unfold finIf at h
      split at h
      · cases h; simp [g2]
      · cases h

theorem allTests_range (pred : α → α → Bool) (Y : List α) (t : Nat → Bool) (c : Nat) : ∀ (X2 X1 : List α),
    (∀ A x B, X1 ++ X2 = A ++ x :: B → t (c + A.length) = oneTest pred Y A x B) →
    (List.range' (c + X1.length) X2.length).all t = allTests pred Y X1 X2 := by
  intro X2
  induction X2 with
  | nil => intro X1 _; simp [allTests]
  | cons x X2 ih =>
    intro X1 h
    rw [List.length_cons, List.range'_succ, List.all_cons, h X1 x X2 rfl, allTests]
    have := ih (X1 ++ [x]) (fun A y B e => h A y B (by simpa using e))
    rw [← this]
    simp [Nat.add_assoc]

/-! ### What the tests mean -/

theorem countP_congr_pred {pred : α → α → Bool} (h : BoolEquiv pred) {x y : α} (hxy : pred x y = true) (X : List α) :
    X.countP (fun z => pred z x) = X.countP (fun z => pred z y) :=
  List.countP_congr (fun z _ => by rw [h.congr hxy])

theorem allTests_iff {pred : α → α → Bool} (h : BoolEquiv pred) (Y : List α) : ∀ (X2 X1 : List α),
    (∀ x ∈ X1, Y.countP (fun z => pred z x) = (X1 ++ X2).countP (fun z => pred z x)) →
    (allTests pred Y X1 X2 = true ↔ ∀ x ∈ X2, Y.countP (fun z => pred z x) = (X1 ++ X2).countP (fun z => pred z x)) := by
  intro X2
  induction X2 with
  | nil => intro X1 _; simp [allTests]
  | cons x X2 ih =>
    intro X1 h1
    have hx : oneTest pred Y X1 x X2 = true ↔ Y.countP (fun z => pred z x) = (X1 ++ x :: X2).countP (fun z => pred z x) := by
      unfold oneTest
      rw [Bool.or_eq_true, beq_iff_eq, List.countP_append, List.countP_cons]
      simp only [h.refl, if_true]
      by_cases hz : ∃ z ∈ X1, pred z x = true
      · obtain ⟨z, hz1, hz2⟩ := hz
        refine ⟨fun _ => ?_, fun _ => Or.inl (by simpa using ⟨z, hz1, hz2⟩)⟩
        have := h1 z hz1
        rw [countP_congr_pred h hz2, countP_congr_pred h hz2, List.countP_append, List.countP_cons] at this
        simpa [h.refl] using this
      · have : X1.countP (fun z => pred z x) = 0 := by
          rw [List.countP_eq_zero]; intro z hz1 hz2; exact hz ⟨z, hz1, hz2⟩
        rw [this]
        constructor
        · rintro (h' | h')
          · exact absurd (by simpa using h') hz
          · omega
        · intro h'; right; omega
    rw [allTests, Bool.and_eq_true, hx]
    constructor
    · rintro ⟨g1, g2⟩
      have := (ih (X1 ++ [x]) (by
        intro y hy
        rw [List.append_assoc, List.singleton_append]
        rcases List.mem_append.mp hy with hy | hy
        · exact h1 y hy
        · rw [List.mem_singleton.mp hy]; exact g1)).mp g2
      intro y hy
      rcases List.mem_cons.mp hy with rfl | hy
      · exact g1
      · simpa using this y hy
    · intro g
      refine ⟨g x (by simp), (ih (X1 ++ [x]) ?_).mpr ?_⟩
      · intro y hy
        rw [List.append_assoc, List.singleton_append]
        rcases List.mem_append.mp hy with hy | hy
        · exact h1 y hy
        · rw [List.mem_singleton.mp hy]; exact g x (by simp)
      · intro y hy
        rw [List.append_assoc, List.singleton_append]
        exact g y (by simp [hy])

/-- equal counts of the elements of `X`, and equal length, give equal counts of everything -/
theorem counts_all {pred : α → α → Bool} (h : BoolEquiv pred) : ∀ (n : Nat) (X Y : List α), X.length = n → Y.length = n →
    (∀ x ∈ X, Y.countP (fun z => pred z x) = X.countP (fun z => pred z x)) → ∀ v, Y.countP (fun z => pred z v) = X.countP (fun z => pred z v) := by
  intro n
  induction n using Nat.strongRecOn with
  | ind n ih =>
    intro X Y hX hY hxy v
    cases X with
    | nil =>
      simp at hX; subst hX
      rw [List.length_eq_zero_iff.mp hY]
    | cons x X =>
      cases hv : pred v x with
      | true => rw [countP_congr_pred h hv, countP_congr_pred h hv]; exact hxy x (by simp)
      | false =>
        have hfil : ∀ (w : α) (Z : List α), pred w x = false → (Z.filter (fun z => !pred z x)).countP (fun z => pred z w) = Z.countP (fun z => pred z w) := by
          intro w Z hw
          rw [List.countP_filter]
          refine List.countP_congr (fun z _ => ?_)
          constructor
          · intro hh; simp at hh; exact hh.1
          · intro hh
            simp only [Bool.and_eq_true, hh, true_and]
            cases hz : pred z x with
            | false => rfl
            | true => rw [h.trans _ _ _ (h.symm _ _ hh) hz] at hw; cases hw
        have hlen : ∀ Z : List α, (Z.filter (fun z => !pred z x)).length + Z.countP (fun z => pred z x) = Z.length := by
          intro Z
          rw [← List.countP_eq_length_filter]
          have := List.length_eq_countP_add_countP (fun z => pred z x) (l := Z)
          have e : Z.countP (fun z => decide ¬pred z x = true) = Z.countP (fun z => !pred z x) := by
            congr 1; funext z; cases pred z x <;> rfl
          rw [e] at this
          omega
        have l1 := hlen (x :: X)
        have l2 := hlen Y
        have l3 := hxy x (by simp)
        have l4 : 0 < (x :: X).countP (fun z => pred z x) := by rw [List.countP_pos_iff]; exact ⟨x, by simp, h.refl x⟩
        have := ih ((x :: X).filter (fun z => !pred z x)).length (by omega) ((x :: X).filter (fun z => !pred z x)) (Y.filter (fun z => !pred z x)) rfl (by omega) ?_ v
        · rwa [hfil v _ hv, hfil v _ hv] at this
        · intro y hy
          obtain ⟨hy1, hy2⟩ := List.mem_filter.mp hy
          have hy2 : pred y x = false := by simpa using hy2
          rw [hfil y _ hy2, hfil y _ hy2]
          exact hxy y hy1

/-- number of equal leading pairs -/
def agree (pred : α → α → Bool) (xs ys : List α) : Nat := (List.zipWith pred xs ys).findIdx (fun b => !b)

theorem agree_le (pred : α → α → Bool) (xs ys : List α) : agree pred xs ys ≤ xs.length ∧ agree pred xs ys ≤ ys.length := by
  have : agree pred xs ys ≤ (List.zipWith pred xs ys).length := List.findIdx_le_length
  rw [List.length_zipWith] at this
  omega

theorem counts_prefix {pred : α → α → Bool} (h : BoolEquiv pred) (v : α) : ∀ (xs ys : List α),
    (xs.take (agree pred xs ys)).countP (fun z => pred z v) = (ys.take (agree pred xs ys)).countP (fun z => pred z v) := by
  intro xs
  induction xs with
  | nil => intro ys; simp [agree]
  | cons x xs ih =>
    intro ys
    cases ys with
    | nil => simp [agree]
    | cons y ys =>
      cases hxy : pred x y with
      | false => simp [agree, List.findIdx_cons, hxy]
      | true =>
        have : agree pred (x :: xs) (y :: ys) = agree pred xs ys + 1 := by simp [agree, List.findIdx_cons, hxy]
        rw [this, List.take_succ_cons, List.take_succ_cons, List.countP_cons, List.countP_cons, ih, h.congr_left hxy]

theorem tests_iff {pred : α → α → Bool} (h : BoolEquiv pred) (xs ys : List α) (hl : xs.length = ys.length) :
    allTests pred (ys.drop (agree pred xs ys)) [] (xs.drop (agree pred xs ys)) = true ↔
      ∀ v, xs.countP (fun z => pred z v) = ys.countP (fun z => pred z v) := by
  rw [allTests_iff h _ _ _ (by simp)]
  have key : ∀ v, (ys.drop (agree pred xs ys)).countP (fun z => pred z v) = ([] ++ xs.drop (agree pred xs ys)).countP (fun z => pred z v) ↔
      xs.countP (fun z => pred z v) = ys.countP (fun z => pred z v) := by
    intro v
    have h1 := counts_prefix h v xs ys
    have h2 : xs.countP (fun z => pred z v) = (xs.take (agree pred xs ys) ++ xs.drop (agree pred xs ys)).countP (fun z => pred z v) := by rw [List.take_append_drop]
    have h3 : ys.countP (fun z => pred z v) = (ys.take (agree pred xs ys) ++ ys.drop (agree pred xs ys)).countP (fun z => pred z v) := by rw [List.take_append_drop]
    rw [List.countP_append] at h2 h3
    rw [List.nil_append]
    omega
  constructor
  · intro g v
    rw [← key]
    exact counts_all h _ _ _ rfl (by simp; omega) g v
  · intro g x _
    exact (key x).mpr (g x)

theorem goodFn_ra : GoodFn (findIfRa (α := α)) countIfRa := ⟨fun _ _ _ _ => findIfRa_eq .., fun _ _ _ _ => countIfRa_eq ..⟩
theorem goodFn_in : GoodFn (findIfIn (α := α)) countIfIn := ⟨fun _ _ _ _ => findIfIn_eq .., fun _ _ _ _ => countIfIn_eq ..⟩

/-- both recursions over the tests, on the segments behind the first difference -/
theorem impl_spec {fnd cnt : FindFn α} (g : GoodFn fnd cnt) (pred : α → α → Bool) (pre1 X post1 pre2 Y post2 : List α) :
    (X ≠ [] → permImplRa (permOne fnd cnt (pre1 ++ X ++ post1) (pre2 ++ Y ++ post2) pred pre1.length (pre1.length + X.length) pre2.length (pre2.length + Y.length))
      pre1.length X.length = some (allTests pred Y [] X)) ∧
    permImplFwd (permOne fnd cnt (pre1 ++ X ++ post1) (pre2 ++ Y ++ post2) pred pre1.length (pre1.length + X.length) pre2.length (pre2.length + Y.length))
      pre1.length (pre1.length + X.length) X.length = some (allTests pred Y [] X) := by
  let t : Nat → Bool := fun i => (permOne fnd cnt (pre1 ++ X ++ post1) (pre2 ++ Y ++ post2) pred pre1.length (pre1.length + X.length)
    pre2.length (pre2.length + Y.length) i).getD false
  have ht : ∀ A x B, X = A ++ x :: B → permOne fnd cnt (pre1 ++ X ++ post1) (pre2 ++ Y ++ post2) pred pre1.length (pre1.length + X.length)
      pre2.length (pre2.length + Y.length) (pre1.length + A.length) = some (oneTest pred Y A x B) := by
    rintro A x B rfl; exact permOne_spec g ..
  have ht1 : ∀ i, pre1.length ≤ i → i < pre1.length + X.length → permOne fnd cnt (pre1 ++ X ++ post1) (pre2 ++ Y ++ post2) pred pre1.length (pre1.length + X.length)
      pre2.length (pre2.length + Y.length) i = some (t i) := by
    intro i h1 h2
    have hi : i - pre1.length < X.length := by omega
    have e : X = X.take (i - pre1.length) ++ X[i - pre1.length] :: X.drop (i - pre1.length + 1) := by
      rw [← List.drop_eq_getElem_cons hi, List.take_append_drop]
    have := ht _ _ _ e
    rw [List.length_take, Nat.min_eq_left (by omega), show pre1.length + (i - pre1.length) = i by omega] at this
    simp only [t]
    rw [this]
    rfl
  have hr := allTests_range pred Y t pre1.length X [] (by
    intro A x B e
    simp only [List.nil_append] at e
    simp only [t]
    rw [ht A x B e]
    rfl)
  rw [List.length_nil, Nat.add_zero] at hr
  refine ⟨fun hX => ?_, ?_⟩
  · rw [permImplRa_spec _ _ (List.length_pos_iff.mpr hX) ht1, hr]
  · rw [permImplFwd_spec _ _ ht1, hr]

end Sprout
