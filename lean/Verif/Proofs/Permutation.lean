import Verif.Model.Permutation
import Verif.Spec.Lex
import Verif.Proofs.MinMax
import Verif.Proofs.Merge2

namespace Sprout
open Spec
variable {α : Type}

/-! ### The dictionary order, recursively -/

theorem not_lexLt_nil (comp : α → α → Bool) (a : List α) : ¬ LexLt comp a [] := by
  rintro ⟨k, h1, h2, h3, ⟨h4, h5⟩ | ⟨x, y, h4, h5, h6⟩⟩ <;> simp at *

theorem nil_lexLt_cons (comp : α → α → Bool) (y : α) (b : List α) : LexLt comp [] (y :: b) :=
  ⟨0, by simp, by simp, by simp, by simp⟩

theorem lexLt_cons {comp : α → α → Bool} {x y : α} {a b : List α} :
    LexLt comp (x :: a) (y :: b) ↔ comp x y = true ∨ (Equiv comp x y ∧ LexLt comp a b) := by
  constructor
  · rintro ⟨k, h1, h2, h3, h4⟩
    rcases k with _ | k
    · simp at h4; exact Or.inl h4
    · refine Or.inr ⟨h2 0 x y (by omega) rfl rfl, k, by simpa using h1, ?_, by simpa using h3, ?_⟩
      · intro i x' y' hi hx hy
        exact h2 (i + 1) x' y' (by omega) (by simpa using hx) (by simpa using hy)
      · simpa using h4
  · rintro (h | ⟨h, k, h1, h2, h3, h4⟩)
    · exact ⟨0, by simp, by simp, by simp, Or.inr ⟨x, y, rfl, rfl, h⟩⟩
    · refine ⟨k + 1, by simpa using h1, ?_, by simpa using h3, by simpa using h4⟩
      intro i x' y' hi hx hy
      rcases i with _ | i
      · simp at hx hy; subst hx hy; exact h
      · exact h2 i x' y' (by omega) (by simpa using hx) (by simpa using hy)

/-! ### Multisets up to equivalence -/

/-- the same multiplicities -/
def Same (comp : α → α → Bool) (ys xs : List α) : Prop := ∀ v, mult comp v ys = mult comp v xs

theorem Same.of_perm {comp : α → α → Bool} {ys xs : List α} (h : ys.Perm xs) : Same comp ys xs :=
  fun _ => (h.filter _).length_eq

theorem Same.symm {comp : α → α → Bool} {ys xs : List α} (h : Same comp ys xs) : Same comp xs ys := fun v => (h v).symm

theorem Same.trans {comp : α → α → Bool} {zs ys xs : List α} (h : Same comp zs ys) (h' : Same comp ys xs) : Same comp zs xs :=
  fun v => (h v).trans (h' v)

theorem Same.exists_equiv {comp : α → α → Bool} (hc : StrictWeak comp) {ys xs : List α} {c : α} (h : Same comp (c :: ys) xs) :
    ∃ c' ∈ xs, Equiv comp c' c := by
  have h1 := h c
  unfold mult at h1
  rw [cls_self hc] at h1
  have : cls comp c xs ≠ [] := by rintro e; rw [e] at h1; simp at h1
  obtain ⟨c', hc'⟩ := List.exists_mem_of_ne_nil _ this
  unfold cls at hc'
  simp only [List.mem_filter, Bool.and_eq_true, Bool.not_eq_eq_eq_not, Bool.not_true] at hc'
  exact ⟨c', hc'.1, hc'.2.1, hc'.2.2⟩

theorem Equiv.symm {comp : α → α → Bool} {a b : α} (h : Equiv comp a b) : Equiv comp b a := ⟨h.2, h.1⟩

theorem Same.cancel {comp : α → α → Bool} (hc : StrictWeak comp) {ys xs : List α} {c x : α} (h : Same comp (c :: ys) (x :: xs)) (he : Equiv comp c x) :
    Same comp ys xs := by
  intro v
  have h1 := h v
  unfold mult at h1 ⊢
  by_cases hv : comp c v = false ∧ comp v c = false
  · rw [cls_cons_pos hv.1 hv.2, cls_cons_pos (hc.le_trans hv.1 he.2) (hc.le_trans he.1 hv.2)] at h1
    simpa using h1
  · have h2 : comp c v = true ∨ comp v c = true := by
      by_contra hcon
      simp only [not_or, Bool.not_eq_true] at hcon
      exact hv hcon
    have h3 : comp x v = true ∨ comp v x = true := by
      rcases h2 with h2 | h2
      · exact Or.inl (hc.lt_of_le_of_lt he.1 h2)
      · exact Or.inr (hc.lt_of_lt_of_le h2 he.2)
    rw [cls_cons_neg h2, cls_cons_neg h3] at h1
    exact h1

/-- a descending sequence is maximal -/
theorem desc_max {comp : α → α → Bool} (hc : StrictWeak comp) : ∀ (S ys : List α), SortedBy (fun a b => comp b a) S → Same comp ys S →
    ¬ LexLt comp S ys := by
  intro S
  induction S with
  | nil =>
    intro ys _ h hl
    cases ys with
    | nil => exact not_lexLt_nil _ _ hl
    | cons c ys => obtain ⟨c', h1, -⟩ := h.exists_equiv hc; cases h1
  | cons s S ih =>
    intro ys hS h hl
    cases ys with
    | nil => exact not_lexLt_nil _ _ hl
    | cons c ys =>
      rw [lexLt_cons] at hl
      rcases hl with hl | ⟨he, hl⟩
      · obtain ⟨c', h1, h2⟩ := h.exists_equiv hc
        rcases List.mem_cons.mp h1 with rfl | h1
        · rw [h2.1] at hl; cases hl
        · have h3 : comp s c' = false := (sorted_cons.mp hS).1 c' h1
          have := hc.le_trans h2.1 h3
          rw [hl] at this
          cases this
      · exact ih ys (sorted_cons.mp hS).2 (h.cancel hc he.symm) hl

/-- an ascending sequence is minimal -/
theorem asc_min {comp : α → α → Bool} (hc : StrictWeak comp) : ∀ (T ys : List α), SortedBy comp T → Same comp ys T →
    ¬ LexLt comp ys T := by
  intro T
  induction T with
  | nil => intro ys _ _ hl; exact not_lexLt_nil _ _ hl
  | cons t T ih =>
    intro ys hS h hl
    cases ys with
    | nil => obtain ⟨c', h1, -⟩ := h.symm.exists_equiv hc; cases h1
    | cons c ys =>
      rw [lexLt_cons] at hl
      rcases hl with hl | ⟨he, hl⟩
      · obtain ⟨c', h1, h2⟩ := h.exists_equiv hc
        rcases List.mem_cons.mp h1 with rfl | h1
        · rw [h2.2] at hl; cases hl
        · have h3 : comp c' t = false := (sorted_cons.mp hS).1 c' h1
          have := hc.le_trans h3 h2.2
          rw [hl] at this
          cases this
      · exact ih ys (sorted_cons.mp hS).2 (h.cancel hc he) hl

/-- `zs` is the next arrangement after `xs` (`b = true`), or `xs` is the last one and `zs` the first. -/
def NextPerm (comp : α → α → Bool) (xs zs : List α) (b : Bool) : Prop :=
  zs.Perm xs ∧ (b = true → LexLt comp xs zs ∧ ∀ ys, Same comp ys xs → LexLt comp xs ys → ¬ LexLt comp ys zs) ∧
    (b = false → SortedBy comp zs ∧ (∀ ys, Same comp ys xs → ¬ LexLt comp xs ys) ∧ ∀ ys, Same comp ys xs → ¬ LexLt comp ys zs)

theorem lexLt_prefix {comp : α → α → Bool} (hc : StrictWeak comp) (P : List α) {a b : List α} : LexLt comp (P ++ a) (P ++ b) ↔ LexLt comp a b := by
  induction P with
  | nil => rfl
  | cons p P ih => simp [lexLt_cons, ih, hc.irrefl, Equiv]

theorem between {comp : α → α → Bool} (hc : StrictWeak comp) {a z : List α}
    (hb : ∀ ys, Same comp ys a → LexLt comp a ys → ¬ LexLt comp ys z) : ∀ (P ys : List α), Same comp ys (P ++ a) → LexLt comp (P ++ a) ys → ¬ LexLt comp ys (P ++ z) := by
  intro P
  induction P with
  | nil => exact hb
  | cons p P ih =>
    intro ys hs h1 h2
    cases ys with
    | nil => exact not_lexLt_nil _ _ h1
    | cons c ys =>
      rw [List.cons_append, lexLt_cons] at h1 h2
      have e : Equiv comp c p ∧ LexLt comp (P ++ a) ys ∧ LexLt comp ys (P ++ z) := by
        rcases h1 with h1 | ⟨h1, h1'⟩
        · rcases h2 with h2 | ⟨h2, h2'⟩
          · rw [hc.asymm h1] at h2; cases h2
          · rw [h2.2] at h1; cases h1
        · rcases h2 with h2 | ⟨h2, h2'⟩
          · rw [h1.2] at h2; cases h2
          · exact ⟨h2, h1', h2'⟩
      exact ih ys (hs.cancel hc e.1) e.2.1 e.2.2

theorem nextPerm_step {comp : α → α → Bool} (hc : StrictWeak comp) (P S1 S2 : List α) (x y : α)
    (hS : SortedBy (fun a b => comp b a) (S1 ++ y :: S2)) (hy : comp x y = true) (h2 : ∀ s ∈ S2, comp x s = false) :
    NextPerm comp (P ++ x :: (S1 ++ y :: S2)) (P ++ y :: (S1 ++ x :: S2).reverse) true := by
  rw [sorted_append, sorted_cons] at hS
  obtain ⟨g1, ⟨g2, g3⟩, g4⟩ := hS
  have hperm : (y :: (S1 ++ x :: S2).reverse).Perm (x :: (S1 ++ y :: S2)) := by
    refine ((List.reverse_perm _).cons _).trans ?_
    refine (List.perm_middle.cons _).trans ?_
    refine (List.Perm.swap _ _ _).trans ?_
    exact (List.perm_middle.symm).cons _
  have hsort : SortedBy comp (S1 ++ x :: S2).reverse := by
    unfold SortedBy
    rw [List.pairwise_reverse]
    change SortedBy (fun a b => comp b a) (S1 ++ x :: S2)
    rw [sorted_append, sorted_cons]
    refine ⟨g1, ⟨fun s hs => h2 s hs, g3⟩, ?_⟩
    intro a ha b hb
    rcases List.mem_cons.mp hb with rfl | hb
    · have : comp a y = false := g4 a ha y (by simp)
      exact hc.asymm (hc.lt_of_lt_of_le hy this)
    · exact g4 a ha b (by simp [hb])
  refine ⟨hperm.append_left P, fun _ => ⟨?_, ?_⟩, fun h => by cases h⟩
  · rw [lexLt_prefix hc, lexLt_cons]; exact Or.inl hy
  · apply between hc
    intro ys hs hl1 hl2
    cases ys with
    | nil => exact not_lexLt_nil _ _ hl1
    | cons c ys =>
      rw [lexLt_cons] at hl1 hl2
      rcases hl1 with hl1 | ⟨he, hl1⟩
      · rcases hl2 with hl2 | ⟨he, hl2⟩
        · obtain ⟨c', m1, m2⟩ := hs.exists_equiv hc
          rcases List.mem_cons.mp m1 with rfl | m1
          · rw [m2.1] at hl1; cases hl1
          · rcases List.mem_append.mp m1 with m1 | m1
            · have h3 : comp c' y = false := g4 c' m1 y (by simp)
              have := hc.le_trans h3 m2.2
              rw [hl2] at this; cases this
            · rcases List.mem_cons.mp m1 with rfl | m1
              · rw [m2.2] at hl2; cases hl2
              · have h3 := h2 c' m1
                have := hc.le_trans m2.1 h3
                rw [hl1] at this; cases this
        · exact asc_min hc _ ys hsort ((hs.trans (Same.of_perm hperm.symm)).cancel hc he) hl2
      · refine desc_max hc _ ys ?_ (hs.cancel hc he.symm) hl1
        rw [sorted_append, sorted_cons]
        exact ⟨g1, ⟨g2, g3⟩, g4⟩

/-! ### The loops -/

theorem permFind_spec {comp : α → α → Bool} {cmp : Nat → Nat → Option Bool} {m : List α} (hcmp : ∀ i j x y, m[i]? = some x → m[j]? = some y → cmp i j = some (comp x y))
    (i : Nat) (x : α) (hx : m[i]? = some x) : ∀ (n : Nat) (A U B : List α), U.length = n → m = A ++ U ++ B → (∃ u ∈ U, comp x u = true) →
    ∃ S1 y S2, U = S1 ++ y :: S2 ∧ comp x y = true ∧ (∀ s ∈ S2, comp x s = false) ∧ permFind cmp i (A.length + U.length) = some (A.length + S1.length) := by
  intro n
  induction n with
  | zero =>
    intro A U B hn hm hu
    obtain ⟨u, hu, -⟩ := hu
    rw [List.length_eq_zero_iff] at hn
    subst hn; cases hu
  | succ n ih =>
    intro A U B hn hm hu
    have hne : U ≠ [] := by rintro rfl; simp at hn
    obtain ⟨V, v, rfl⟩ : ∃ ys y, U = ys ++ [y] := ⟨U.dropLast, U.getLast hne, (List.dropLast_append_getLast hne).symm⟩
    rw [permFind, if_neg (by simp), hcmp i (A.length + (V ++ [v]).length - 1) x v hx ?_]
    · simp only [Option.bind_eq_bind, Option.bind_some]
      cases hv : comp x v with
      | true => exact ⟨V, v, [], by simp, hv, by simp, by simp⟩
      | false =>
        obtain ⟨S1, y, S2, h1, h2, h3, h4⟩ := ih A V ([v] ++ B) (by simpa using hn) (by rw [hm]; simp) (by
          obtain ⟨u, hu, hu'⟩ := hu
          rcases List.mem_append.mp hu with h | h
          · exact ⟨u, h, hu'⟩
          · simp at h; subst h; rw [hv] at hu'; cases hu')
        refine ⟨S1, y, S2 ++ [v], by simp [h1], h2, ?_, ?_⟩
        · intro s hs
          rcases List.mem_append.mp hs with h | h
          · exact h3 s h
          · simp at h; subst h; exact hv
        · rw [← h4]
          simp
    · rw [hm, show A.length + (V ++ [v]).length - 1 = (A ++ V).length by simp]
      simp

theorem permScan_spec {comp : α → α → Bool} (hc : StrictWeak comp) {cmp : List α → Nat → Nat → Option Bool}
    (hcmp : ∀ m i j x y, m[i]? = some x → m[j]? = some y → cmp m i j = some (comp x y)) (pre post : List α) : ∀ (n : Nat) (Q S : List α), Q.length = n → Q ≠ [] → S ≠ [] →
    SortedBy (fun a b => comp b a) S →
    ∃ zs b, permScan cmp (pre ++ (Q ++ S) ++ post) pre.length (pre.length + (Q ++ S).length) (pre.length + Q.length) = some (pre ++ zs ++ post, b) ∧ NextPerm comp (Q ++ S) zs b := by
  intro n
  induction n with
  | zero => intro Q S hn hQ; rw [List.length_eq_zero_iff] at hn; exact absurd hn hQ
  | succ n ih =>
    intro Q S hn hQ hSne hS
    obtain ⟨P, x, rfl⟩ : ∃ ys y, Q = ys ++ [y] := ⟨Q.dropLast, Q.getLast hQ, (List.dropLast_append_getLast hQ).symm⟩
    obtain ⟨s, S', rfl⟩ : ∃ s S', S = s :: S' := by cases S with
      | nil => exact absurd rfl hSne
      | cons s S' => exact ⟨s, S', rfl⟩
    have hx : (pre ++ (P ++ [x] ++ s :: S') ++ post)[pre.length + (P ++ [x]).length - 1]? = some x := by
      rw [show pre.length + (P ++ [x]).length - 1 = (pre ++ P).length by simp]
      rw [show pre ++ (P ++ [x] ++ s :: S') ++ post = (pre ++ P) ++ x :: (s :: S' ++ post) by simp]
      simp
    have hs : (pre ++ (P ++ [x] ++ s :: S') ++ post)[pre.length + (P ++ [x]).length]? = some s := by
      rw [show pre.length + (P ++ [x]).length = (pre ++ P ++ [x]).length by simp]
      rw [show pre ++ (P ++ [x] ++ s :: S') ++ post = (pre ++ P ++ [x]) ++ s :: (S' ++ post) by simp]
      rw [List.getElem?_append_right (Nat.le_refl _)]; simp
    rw [permScan, if_neg (by simp), hcmp _ _ _ x s hx hs]
    simp only [Option.bind_eq_bind, Option.bind_some]
    cases hxs : comp x s with
    | true =>
      obtain ⟨S1, y, S2, h1, h2, h3, h4⟩ := permFind_spec (hcmp _) _ x hx _ (pre ++ P ++ [x]) (s :: S') post rfl (by simp) ⟨s, by simp, hxs⟩
      rw [h1] at hS
      refine ⟨_, true, ?_, by rw [h1]; simpa using nextPerm_step hc P S1 S2 x y hS h2 h3⟩
      rw [if_pos rfl]
      rw [show (pre ++ P ++ [x]).length + (s :: S').length = pre.length + (P ++ [x] ++ s :: S').length by simp; omega] at h4
      rw [h4]
      simp only [Option.bind_some]
      rw [h1, show pre ++ (P ++ [x] ++ (S1 ++ y :: S2)) ++ post = (pre ++ P) ++ x :: (S1 ++ y :: (S2 ++ post)) by simp,
        swp_split (by simp) (by simp; omega)]
      simp only [Option.bind_some]
      have hr := reverse_spec _ (pre ++ P ++ [y]) (S1 ++ x :: S2) post rfl
      rw [show pre ++ P ++ [y] ++ (S1 ++ x :: S2) ++ post = pre ++ P ++ y :: (S1 ++ x :: (S2 ++ post)) by simp,
        show (pre ++ P ++ [y]).length + (S1 ++ x :: S2).length = pre.length + (P ++ [x] ++ (S1 ++ y :: S2)).length by simp; omega,
        show (pre ++ P ++ [y]).length = pre.length + (P ++ [x]).length by simp] at hr
      rw [hr]
      simp
    | false =>
      rw [if_neg (by simp)]
      have hS' : SortedBy (fun a b => comp b a) (x :: s :: S') := by
        refine sorted_cons.mpr ⟨?_, hS⟩
        intro t ht
        rcases List.mem_cons.mp ht with rfl | ht
        · exact hxs
        · exact hc.le_trans ((sorted_cons.mp hS).1 t ht) hxs
      by_cases hP : P = []
      · subst hP
        rw [if_pos (by simp), reverse_spec _ pre _ post rfl]
        refine ⟨(x :: s :: S').reverse, false, by simp, ?_⟩
        have hsort : SortedBy comp (x :: s :: S').reverse := by
          unfold SortedBy
          rw [List.pairwise_reverse]
          exact hS'
        refine ⟨?_, fun h => (by cases h), fun _ => ⟨hsort, ?_, ?_⟩⟩
        · exact List.reverse_perm _
        · intro ys h; exact desc_max hc _ _ hS' h
        · intro ys h; exact asc_min hc _ _ hsort (h.trans (Same.of_perm (List.reverse_perm _).symm))
      · rw [if_neg (by have := List.length_pos_iff.mpr hP; simp; omega)]
        obtain ⟨zs, b, h1, h2⟩ := ih P (x :: s :: S') (by simpa using hn) hP (by simp) hS'
        refine ⟨zs, b, ?_, by simpa using h2⟩
        rw [← h1]
        simp

theorem StrictWeak.flip {comp : α → α → Bool} (hc : StrictWeak comp) : StrictWeak (fun a b => comp b a) :=
  ⟨hc.irrefl, fun a b c h1 h2 => hc.trans c b a h2 h1, fun a b c h => (hc.cotrans c b a h).symm⟩

theorem perm_spec {comp : α → α → Bool} (hc : StrictWeak comp) {cmp : List α → Nat → Nat → Option Bool}
    (hcmp : ∀ m i j x y, m[i]? = some x → m[j]? = some y → cmp m i j = some (comp x y)) (pre xs post : List α) :
    ∃ zs b, (if pre.length = pre.length + xs.length then some (pre ++ xs ++ post, false)
      else if pre.length = pre.length + xs.length - 1 then some (pre ++ xs ++ post, false)
      else permScan cmp (pre ++ xs ++ post) pre.length (pre.length + xs.length) (pre.length + xs.length - 1)) = some (pre ++ zs ++ post, b) ∧
      NextPerm comp xs zs b := by
  by_cases hl : xs.length ≤ 1
  · have h1 : SortedBy comp xs ∧ SortedBy (fun a b => comp b a) xs := by
      rcases xs with _ | ⟨x, _ | ⟨y, xs⟩⟩
      · simp [SortedBy]
      · simp [SortedBy]
      · simp at hl
    refine ⟨xs, false, ?_, .refl _, fun h => (by cases h), fun _ => ⟨h1.1, fun ys h => desc_max hc _ _ h1.2 h, fun ys h => asc_min hc _ _ h1.1 h⟩⟩
    split
    · rfl
    · rw [if_pos (by omega)]
  · rw [if_neg (by omega), if_neg (by omega)]
    have hne : xs ≠ [] := by rintro rfl; simp at hl
    obtain ⟨Q, s, rfl⟩ : ∃ ys y, xs = ys ++ [y] := ⟨xs.dropLast, xs.getLast hne, (List.dropLast_append_getLast hne).symm⟩
    obtain ⟨zs, b, h1, h2⟩ := permScan_spec hc hcmp pre post _ Q [s] rfl (by rintro rfl; simp at hl) (by simp) (by simp [SortedBy])
    refine ⟨zs, b, ?_, h2⟩
    rw [← h1]
    simp

/-- mirror image -/
theorem lexLt_flip {comp : α → α → Bool} : ∀ (a b : List α), a.length = b.length → (LexLt (fun x y => comp y x) a b ↔ LexLt comp b a) := by
  intro a
  induction a with
  | nil => intro b h; cases b with
    | nil => simp [not_lexLt_nil]
    | cons y b => simp at h
  | cons x a ih =>
    intro b h
    cases b with
    | nil => simp at h
    | cons y b => rw [lexLt_cons, lexLt_cons, ih b (by simpa using h)]; simp [Equiv, and_comm]

theorem lexLt_trichotomy {comp : α → α → Bool} (ht : ∀ a b, comp a b = false → comp b a = false → a = b) : ∀ (a b : List α),
    LexLt comp a b ∨ a = b ∨ LexLt comp b a := by
  intro a
  induction a with
  | nil => intro b; cases b with
    | nil => simp
    | cons y b => exact Or.inl (nil_lexLt_cons ..)
  | cons x a ih =>
    intro b
    cases b with
    | nil => exact Or.inr (Or.inr (nil_lexLt_cons ..))
    | cons y b =>
      simp only [lexLt_cons, Equiv]
      cases h1 : comp x y with
      | true => simp
      | false => cases h2 : comp y x with
        | true => simp
        | false =>
          have := ht x y h1 h2
          subst this
          simpa using ih b

theorem Equiv.trans {comp : α → α → Bool} (hc : StrictWeak comp) {a b c : α} (h1 : Equiv comp a b) (h2 : Equiv comp b c) : Equiv comp a c :=
  ⟨hc.le_trans h2.1 h1.1, hc.le_trans h1.2 h2.2⟩

theorem lexLt_irrefl {comp : α → α → Bool} (hc : StrictWeak comp) : ∀ (a : List α), ¬ LexLt comp a a := by
  intro a
  induction a with
  | nil => exact not_lexLt_nil _ _
  | cons x a ih => simp [lexLt_cons, hc.irrefl, ih]

theorem lexLt_trans {comp : α → α → Bool} (hc : StrictWeak comp) : ∀ (a b c : List α), LexLt comp a b → LexLt comp b c → LexLt comp a c := by
  intro a
  induction a with
  | nil =>
    intro b c h1 h2
    cases c with
    | nil => exact absurd h2 (not_lexLt_nil _ _)
    | cons z c => exact nil_lexLt_cons ..
  | cons x a ih =>
    intro b c h1 h2
    cases b with
    | nil => exact absurd h1 (not_lexLt_nil _ _)
    | cons y b =>
      cases c with
      | nil => exact absurd h2 (not_lexLt_nil _ _)
      | cons z c =>
        rw [lexLt_cons] at *
        rcases h1 with h1 | ⟨e1, h1⟩
        · rcases h2 with h2 | ⟨e2, h2⟩
          · exact Or.inl (hc.trans _ _ _ h1 h2)
          · exact Or.inl (hc.lt_of_lt_of_le h1 e2.2)
        · rcases h2 with h2 | ⟨e2, h2⟩
          · exact Or.inl (hc.lt_of_le_of_lt e1.2 h2)
          · exact Or.inr ⟨Sprout.Equiv.trans hc e1 e2, ih _ _ h1 h2⟩

theorem lexLt_asymm {comp : α → α → Bool} (hc : StrictWeak comp) (a b : List α) (h1 : LexLt comp a b) (h2 : LexLt comp b a) : False :=
  lexLt_irrefl hc a (lexLt_trans hc _ _ _ h1 h2)

theorem lexLt_cotrans {comp : α → α → Bool} (hc : StrictWeak comp) : ∀ (a b c : List α), LexLt comp a c → LexLt comp a b ∨ LexLt comp b c := by
  intro a
  induction a with
  | nil =>
    intro b c h
    cases b with
    | nil => exact Or.inr h
    | cons y b => exact Or.inl (nil_lexLt_cons ..)
  | cons x a ih =>
    intro b c h
    cases c with
    | nil => exact absurd h (not_lexLt_nil _ _)
    | cons z c =>
      cases b with
      | nil => exact Or.inr (nil_lexLt_cons ..)
      | cons y b =>
        rw [lexLt_cons] at *
        rw [lexLt_cons]
        cases h1 : comp x y with
        | true => simp
        | false =>
          cases h2 : comp y z with
          | true => simp
          | false =>
            have h3 := hc.le_trans h2 h1
            rcases h with h | ⟨e, h⟩
            · rw [h] at h3; cases h3
            · have e1 : Equiv comp x y := ⟨h1, hc.le_trans e.2 h2⟩
              have e2 : Equiv comp y z := ⟨h2, hc.le_trans h1 e.2⟩
              rcases ih b c h with h' | h'
              · exact Or.inl (Or.inr ⟨e1, h'⟩)
              · exact Or.inr (Or.inr ⟨e2, h'⟩)

end Sprout
