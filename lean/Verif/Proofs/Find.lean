import Verif.Model.Find
import Verif.Proofs.Doubling

namespace Sprout
variable {α β : Type}

/-- `r` is the first position in `[a, b)` where `t` holds, or `b`. -/
structure IsFirst (t : Nat → Bool) (a b r : Nat) : Prop where
  ge : a ≤ r
  le : r ≤ b
  before : ∀ k, a ≤ k → k < r → t k = false
  at_ : r < b → t r = true

theorem IsFirst.unique {t : Nat → Bool} {a b r r' : Nat} (h : IsFirst t a b r) (h' : IsFirst t a b r') : r = r' := by
  rcases Nat.lt_trichotomy r r' with hl | hl | hl
  · have h1 := h'.before r h.ge hl
    have h2 := h.at_ (by have := h'.le; omega)
    rw [h1] at h2; cases h2
  · exact hl
  · have h1 := h.before r' h'.ge hl
    have h2 := h'.at_ (by have := h.le; omega)
    rw [h1] at h2; cases h2

theorem halveFind_spec {test : Nat → Nat → Option Bool} {t : Nat → Bool} :
    ∀ n a b, b - a = n → a < b → (∀ k, a ≤ k → k < b → test k (k + 1) = some (t k)) →
      ∃ r, halveFind test a b ((b - a) / 2) a = some r ∧ IsFirst t a b r := by
  intro n
  induction n using Nat.strongRecOn with
  | ind n ih =>
    intro a b hn hab ht
    rw [halveFind]
    simp only [ne_eq, not_true_eq_false, if_false]
    by_cases hp : (b - a) / 2 = 0
    · have hb : b = a + 1 := by omega
      subst hb
      simp only [hp, if_true, ht a (Nat.le_refl _) (by omega), Option.bind_eq_bind, Option.bind_some]
      refine ⟨_, rfl, ?_⟩
      split
      · rename_i h; exact ⟨Nat.le_refl _, by omega, fun k h1 h2 => by omega, fun _ => h⟩
      · rename_i h
        refine ⟨by omega, Nat.le_refl _, fun k h1 h2 => ?_, fun h => by omega⟩
        have : k = a := by omega
        subst this; simpa using h
    · simp only [hp, if_false]
      obtain ⟨f, hf, hfi⟩ := ih ((b - a) / 2) (by omega) a (a + (b - a) / 2) (by omega) (by omega)
        (fun k h1 h2 => ht k h1 (by omega))
      rw [show a + (b - a) / 2 - a = (b - a) / 2 by omega] at hf
      simp only [hf, Option.bind_eq_bind, Option.bind_some]
      by_cases hfe : f = a + (b - a) / 2
      · subst hfe
        obtain ⟨r, hr, hri⟩ := ih (b - (a + (b - a) / 2)) (by omega) (a + (b - a) / 2) b rfl (by omega)
          (fun k h1 h2 => ht k (by omega) h2)
        refine ⟨r, ?_, ?_⟩
        · rw [← hr]; congr 1
          rw [Nat.sub_sub]
        · refine ⟨by have := hri.ge; omega, hri.le, fun k h1 h2 => ?_, hri.at_⟩
          rcases Nat.lt_or_ge k (a + (b - a) / 2) with h | h
          · exact hfi.before k h1 h
          · exact hri.before k h h2
      · rw [halveFind, if_pos hfe]
        have := hfi.le
        exact ⟨f, rfl, hfi.ge, by omega, hfi.before, fun _ => hfi.at_ (by omega)⟩

theorem findRa_spec {test : Nat → Nat → Option Bool} {t : Nat → Bool} {a b : Nat} (hab : a ≤ b)
    (ht : ∀ k, a ≤ k → k < b → test k (k + 1) = some (t k)) :
    ∃ r, findRa test a b = some r ∧ IsFirst t a b r := by
  unfold findRa
  by_cases h : a = b
  · subst h; exact ⟨a, by simp, Nat.le_refl _, Nat.le_refl _, fun k _ _ => by omega, fun h => by omega⟩
  · simp only [h, if_false]
    exact halveFind_spec _ a b rfl (by omega) ht

theorem findIn_run {test : Nat → Option Bool} {t : Nat → Bool} {b : Nat} :
    ∀ n a, b - a = n → a ≤ b → (∀ k, a ≤ k → k < b → test k = some (t k)) →
    ∃ k r, Run (finIf fun s : Nat × Bool => s.2 || s.1 == b)
      (fun s => do
        let b ← test s.1
        some (if b then (s.1, true) else (s.1 + 1, false))) k (a, false) (r, decide (r < b)) ∧ IsFirst t a b r := by
  intro n
  induction n with
  | zero =>
    intro a hn hab ht
    have : a = b := by omega
    subst this
    exact ⟨0, a, .stop (by simp [finIf]), Nat.le_refl _, Nat.le_refl _, fun k _ _ => by omega, fun h => by omega⟩
  | succ n ih =>
    intro a hn hab ht
    have hfin : (finIf fun s : Nat × Bool => s.2 || s.1 == b) (a, false) = none := by
      simp [finIf]; omega
    cases hta : t a with
    | true =>
      refine ⟨1, a, .step hfin (t := (a, true)) ?_ (.stop ?_), ⟨Nat.le_refl _, hab, fun k _ _ => by omega, fun _ => hta⟩⟩
      · simp [ht a (Nat.le_refl _) (by omega), hta]
      · simp [finIf]; omega
    | false =>
      obtain ⟨k, r, hr, hf⟩ := ih (a + 1) (by omega) (by omega) (fun k h1 h2 => ht k (by omega) h2)
      refine ⟨k + 1, r, .step hfin (t := (a + 1, false)) ?_ hr, ?_⟩
      · simp [ht a (Nat.le_refl _) (by omega), hta]
      · refine ⟨by have := hf.ge; omega, hf.le, fun k h1 h2 => ?_, hf.at_⟩
        by_cases hk : k = a
        · subst hk; exact hta
        · exact hf.before k (by omega) h2

theorem findIn_spec {test : Nat → Option Bool} {t : Nat → Bool} {a b : Nat} (hab : a ≤ b)
    (ht : ∀ k, a ≤ k → k < b → test k = some (t k)) :
    ∃ r, findIn test a b = some r ∧ IsFirst t a b r := by
  obtain ⟨k, r, hr, hf⟩ := findIn_run _ a rfl hab ht
  refine ⟨r, ?_, hf⟩
  unfold findIn
  rw [dbl_run (finIf_idem _) k _ _ 1 (Nat.le_refl _) hr]
  simp

/-- position predicate read off a block -/
def atPos (m : List α) (p : α → Bool) (k : Nat) : Bool := (m[k]?).any p

theorem testAt_eq {m : List α} {p : α → Bool} {k : Nat} (h : k < m.length) :
    testAt m p k = some (atPos m p k) := by
  simp [testAt, atPos, rd, h]

theorem isFirst_findIdx (pre xs post : List α) (p : α → Bool) :
    IsFirst (atPos (pre ++ xs ++ post) p) pre.length (pre.length + xs.length) (pre.length + xs.findIdx p) := by
  refine ⟨by omega, by have := List.findIdx_le_length (p := p) (xs := xs); omega, fun k h1 h2 => ?_, fun h => ?_⟩
  · have hk : k - pre.length < xs.findIdx p := by omega
    have hl := List.findIdx_le_length (p := p) (xs := xs)
    have := List.not_of_lt_findIdx hk
    simp only [atPos, List.append_assoc]
    rw [List.getElem?_append_right h1, List.getElem?_append_left (by omega),
      List.getElem?_eq_getElem (by omega)]
    simpa using this
  · have hk : xs.findIdx p < xs.length := by omega
    have := List.findIdx_getElem (w := hk)
    simp only [atPos, List.append_assoc]
    rw [List.getElem?_append_right (by omega), List.getElem?_append_left (by omega),
      List.getElem?_eq_getElem (by omega)]
    simpa using this

theorem findIfRa_eq (pre xs post : List α) (p : α → Bool) :
    findIfRa (pre ++ xs ++ post) pre.length (pre.length + xs.length) p = some (pre.length + xs.findIdx p) := by
  obtain ⟨r, hr, hf⟩ := findRa_spec (test := fun i _ => testAt (pre ++ xs ++ post) p i)
    (t := atPos (pre ++ xs ++ post) p) (a := pre.length) (b := pre.length + xs.length) (by omega)
    (fun k _ h => testAt_eq (by simp; omega))
  unfold findIfRa
  rw [hr, hf.unique (isFirst_findIdx pre xs post p)]

theorem findIfIn_eq (pre xs post : List α) (p : α → Bool) :
    findIfIn (pre ++ xs ++ post) pre.length (pre.length + xs.length) p = some (pre.length + xs.findIdx p) := by
  obtain ⟨r, hr, hf⟩ := findIn_spec (test := testAt (pre ++ xs ++ post) p)
    (t := atPos (pre ++ xs ++ post) p) (a := pre.length) (b := pre.length + xs.length) (by omega)
    (fun k _ h => testAt_eq (by simp; omega))
  unfold findIfIn
  rw [hr, hf.unique (isFirst_findIdx pre xs post p)]

/-! ### counting -/

theorem halveCount_eq (p : α → Bool) : ∀ n (pre xs post : List α), xs.length = n → 0 < n →
    halveCount (pre ++ xs ++ post) p pre.length n = some (xs.countP p) := by
  intro n
  induction n using Nat.strongRecOn with
  | ind n ih =>
    intro pre xs post hn h0
    rw [halveCount]
    by_cases h : n = 1
    · obtain ⟨x, rfl⟩ := List.length_eq_one_iff.mp (hn.trans h)
      simp [h, rd, List.countP_cons]
    · simp only [h, if_false]
      have e2 : pre ++ xs ++ post = (pre ++ xs.take (n / 2)) ++ xs.drop (n / 2) ++ post := by
        rw [List.append_assoc pre (xs.take _), List.take_append_drop]
      have e1 : pre ++ xs ++ post = pre ++ xs.take (n / 2) ++ (xs.drop (n / 2) ++ post) := by
        rw [e2, List.append_assoc]
      have h1 := ih (n / 2) (by omega) pre (xs.take (n / 2)) (xs.drop (n / 2) ++ post) (by simp; omega) (by omega)
      have h2 := ih (n - n / 2) (by omega) (pre ++ xs.take (n / 2)) (xs.drop (n / 2)) post (by simp; omega) (by omega)
      rw [← e1] at h1
      rw [← e2, List.length_append, List.length_take, hn, Nat.min_eq_left (by omega)] at h2
      simp only [h1, h2, Option.bind_eq_bind, Option.bind_some]
      rw [← List.countP_append, List.take_append_drop]

theorem countIfRa_eq (pre xs post : List α) (p : α → Bool) :
    countIfRa (pre ++ xs ++ post) pre.length (pre.length + xs.length) p = some (xs.countP p) := by
  unfold countIfRa
  rcases xs with _ | ⟨x, xs⟩
  · simp
  · rw [if_neg (by simp), show pre.length + (x :: xs).length - pre.length = (x :: xs).length by omega]
    exact halveCount_eq p _ pre (x :: xs) post rfl (by simp)

theorem countIfIn_run (p : α → Bool) : ∀ (xs pre post : List α) (c : Nat),
    Run (finIf fun s : Nat × Nat => s.1 == pre.length + xs.length)
    (fun s => do
      let x ← rd (pre ++ xs ++ post) s.1
      some (s.1 + 1, s.2 + (if p x then 1 else 0)))
      xs.length (pre.length, c) (pre.length + xs.length, c + xs.countP p) := by
  intro xs
  induction xs with
  | nil => intro pre post c; exact .stop (by simp [finIf])
  | cons x xs ih =>
    intro pre post c
    refine .step (t := (pre.length + 1, c + (if p x then 1 else 0))) (by simp [finIf]) (by simp [rd]) ?_
    have := ih (pre ++ [x]) post (c + (if p x then 1 else 0))
    simp only [List.length_append, List.length_cons, List.length_nil, List.append_assoc, List.cons_append,
      List.nil_append, List.countP_cons, Nat.zero_add] at this ⊢
    rw [show pre.length + 1 + xs.length = pre.length + (xs.length + 1) by omega] at this
    rw [show c + (List.countP p xs + if p x = true then 1 else 0)
      = c + (if p x = true then 1 else 0) + List.countP p xs by omega]
    exact this

theorem countIfIn_eq (pre xs post : List α) (p : α → Bool) :
    countIfIn (pre ++ xs ++ post) pre.length (pre.length + xs.length) p = some (xs.countP p) := by
  unfold countIfIn
  rw [dbl_run (finIf_idem _) _ _ _ 1 (Nat.le_refl _) (countIfIn_run p xs pre post 0)]
  simp

/-! ### all / any -/

theorem halveAll_spec {test : Nat → Option Bool} {t : Nat → Bool} :
    ∀ n a b, b - a = n → a < b → (∀ k, a ≤ k → k < b → test k = some (t k)) →
      ∃ v, halveAll test a b ((b - a) / 2) = some v ∧ (v = true ↔ ∀ k, a ≤ k → k < b → t k = true) := by
  intro n
  induction n using Nat.strongRecOn with
  | ind n ih =>
    intro a b hn hab ht
    rw [halveAll]
    by_cases hp : (b - a) / 2 = 0
    · have hb : b = a + 1 := by omega
      subst hb
      simp only [hp, if_true, ht a (Nat.le_refl _) (by omega)]
      refine ⟨_, rfl, fun h k h1 h2 => ?_, fun h => h a (Nat.le_refl _) (by omega)⟩
      have : k = a := by omega
      subst this; exact h
    · simp only [hp, if_false]
      obtain ⟨v, hv, hvi⟩ := ih ((b - a) / 2) (by omega) a (a + (b - a) / 2) (by omega) (by omega)
        (fun k h1 h2 => ht k h1 (by omega))
      rw [show a + (b - a) / 2 - a = (b - a) / 2 by omega] at hv
      simp only [hv, Option.bind_eq_bind, Option.bind_some]
      cases v with
      | false =>
        simp only [Bool.false_eq_true, if_false]
        refine ⟨false, rfl, (fun h => by simp at h), fun h => ?_⟩
        exact hvi.mpr fun k h1 h2 => h k h1 (by omega)
      | true =>
        simp only [if_true]
        obtain ⟨w, hw, hwi⟩ := ih (b - (a + (b - a) / 2)) (by omega) (a + (b - a) / 2) b rfl (by omega)
          (fun k h1 h2 => ht k (by omega) h2)
        refine ⟨w, by rw [← hw]; congr 1; rw [Nat.sub_sub], fun h k h1 h2 => ?_, fun h => hwi.mpr fun k h1 h2 => h k (by omega) h2⟩
        rcases Nat.lt_or_ge k (a + (b - a) / 2) with h' | h'
        · exact hvi.mp rfl k h1 h'
        · exact hwi.mp h k h' h2

theorem halveAny_spec {test : Nat → Option Bool} {t : Nat → Bool} :
    ∀ n a b, b - a = n → a < b → (∀ k, a ≤ k → k < b → test k = some (t k)) →
      ∃ v, halveAny test a b ((b - a) / 2) = some v ∧ (v = true ↔ ∃ k, a ≤ k ∧ k < b ∧ t k = true) := by
  intro n
  induction n using Nat.strongRecOn with
  | ind n ih =>
    intro a b hn hab ht
    rw [halveAny]
    by_cases hp : (b - a) / 2 = 0
    · have hb : b = a + 1 := by omega
      subst hb
      simp only [hp, if_true, ht a (Nat.le_refl _) (by omega)]
      refine ⟨_, rfl, fun h => ⟨a, Nat.le_refl _, by omega, h⟩, fun ⟨k, h1, h2, h3⟩ => ?_⟩
      have : k = a := by omega
      subst this; exact h3
    · simp only [hp, if_false]
      obtain ⟨v, hv, hvi⟩ := ih ((b - a) / 2) (by omega) a (a + (b - a) / 2) (by omega) (by omega)
        (fun k h1 h2 => ht k h1 (by omega))
      rw [show a + (b - a) / 2 - a = (b - a) / 2 by omega] at hv
      simp only [hv, Option.bind_eq_bind, Option.bind_some]
      cases v with
      | true =>
        simp only [if_true]
        refine ⟨true, rfl, fun _ => ?_, fun _ => rfl⟩
        obtain ⟨k, h1, h2, h3⟩ := hvi.mp rfl
        exact ⟨k, h1, by omega, h3⟩
      | false =>
        simp only [Bool.false_eq_true, if_false]
        obtain ⟨w, hw, hwi⟩ := ih (b - (a + (b - a) / 2)) (by omega) (a + (b - a) / 2) b rfl (by omega)
          (fun k h1 h2 => ht k (by omega) h2)
        refine ⟨w, by rw [← hw]; congr 1; rw [Nat.sub_sub], fun h => ?_, fun ⟨k, h1, h2, h3⟩ => ?_⟩
        · obtain ⟨k, h1, h2, h3⟩ := hwi.mp h
          exact ⟨k, by omega, h2, h3⟩
        · rcases Nat.lt_or_ge k (a + (b - a) / 2) with h' | h'
          · have := hvi.mpr ⟨k, h1, h', h3⟩; cases this
          · exact hwi.mpr ⟨k, h', h2, h3⟩

/-- the positions of a segment enumerate its elements -/
theorem forall_atPos (pre xs post : List α) (p : α → Bool) :
    (∀ k, pre.length ≤ k → k < pre.length + xs.length → atPos (pre ++ xs ++ post) p k = true) ↔ ∀ x ∈ xs, p x = true := by
  constructor
  · intro h x hx
    obtain ⟨i, hi, rfl⟩ := List.getElem_of_mem hx
    have := h (pre.length + i) (by omega) (by omega)
    simpa [atPos, List.append_assoc, List.getElem?_append_right, List.getElem?_append_left hi, hi] using this
  · intro h k h1 h2
    simp only [atPos, List.append_assoc]
    rw [List.getElem?_append_right h1, List.getElem?_append_left (by omega), List.getElem?_eq_getElem (by omega)]
    simpa using h _ (List.getElem_mem _)

theorem exists_atPos (pre xs post : List α) (p : α → Bool) :
    (∃ k, pre.length ≤ k ∧ k < pre.length + xs.length ∧ atPos (pre ++ xs ++ post) p k = true) ↔ ∃ x ∈ xs, p x = true := by
  have := forall_atPos pre xs post (fun x => !p x)
  constructor
  · rintro ⟨k, h1, h2, h3⟩
    by_contra hc
    push Not at hc
    have h4 := this.mpr (by intro x hx; simpa using hc x hx) k h1 h2
    simp only [atPos, List.append_assoc] at h3 h4
    rw [List.getElem?_append_right h1, List.getElem?_append_left (by omega), List.getElem?_eq_getElem (by omega)] at h3 h4
    simp at h3 h4; rw [h3] at h4; cases h4
  · intro h
    by_contra hc
    push Not at hc
    obtain ⟨x, hx, hp⟩ := h
    have h4 := this.mp (by
      intro k h1 h2
      have := hc k h1 h2
      simp only [atPos, List.append_assoc] at this ⊢
      rw [List.getElem?_append_right h1, List.getElem?_append_left (by omega), List.getElem?_eq_getElem (by omega)] at this ⊢
      simpa using this) x hx
    simp [hp] at h4

theorem allOfRa_eq (pre xs post : List α) (p : α → Bool) :
    allOfRa (pre ++ xs ++ post) pre.length (pre.length + xs.length) p = some (xs.all p) := by
  unfold allOfRa
  rcases xs with _ | ⟨x, xs⟩
  · simp
  · rw [if_neg (by simp)]
    obtain ⟨v, hv, hvi⟩ := halveAll_spec (test := testAt (pre ++ (x :: xs) ++ post) p)
      (t := atPos (pre ++ (x :: xs) ++ post) p) _ pre.length (pre.length + (x :: xs).length) rfl (by simp)
      (fun k _ h => testAt_eq (by simp at h ⊢; omega))
    rw [hv]
    congr 1
    rw [Bool.eq_iff_iff, hvi, forall_atPos, List.all_eq_true]

theorem anyOfRa_eq (pre xs post : List α) (p : α → Bool) :
    anyOfRa (pre ++ xs ++ post) pre.length (pre.length + xs.length) p = some (xs.any p) := by
  unfold anyOfRa
  rcases xs with _ | ⟨x, xs⟩
  · simp
  · rw [if_neg (by simp)]
    obtain ⟨v, hv, hvi⟩ := halveAny_spec (test := testAt (pre ++ (x :: xs) ++ post) p)
      (t := atPos (pre ++ (x :: xs) ++ post) p) _ pre.length (pre.length + (x :: xs).length) rfl (by simp)
      (fun k _ h => testAt_eq (by simp at h ⊢; omega))
    rw [hv]
    congr 1
    rw [Bool.eq_iff_iff, hvi, exists_atPos, List.any_eq_true]

theorem noneOfRa_eq (pre xs post : List α) (p : α → Bool) :
    noneOfRa (pre ++ xs ++ post) pre.length (pre.length + xs.length) p = some (!xs.any p) := by
  have := allOfRa_eq pre xs post (fun x => !p x)
  unfold noneOfRa
  unfold allOfRa at this
  rw [this, List.not_any_eq_all_not]

/-- doubling runs of all_of / none_of -/
theorem allOfIn_run (p : α → Bool) : ∀ (xs pre post : List α),
    ∃ k r, Run (finIf fun s : Nat × Bool => !s.2 || s.1 == pre.length + xs.length)
    (fun s => do
      let x ← rd (pre ++ xs ++ post) s.1
      some (if p x then (s.1 + 1, true) else (s.1, false)))
      k (pre.length, true) (r, xs.all p) := by
  intro xs
  induction xs with
  | nil => intro pre post; exact ⟨0, pre.length, .stop (by simp [finIf])⟩
  | cons x xs ih =>
    intro pre post
    cases hp : p x with
    | false =>
      refine ⟨1, pre.length, .step (t := (pre.length, false)) (by simp [finIf]) (by simp [rd, hp]) (.stop ?_)⟩
      simp [finIf, hp]
    | true =>
      obtain ⟨k, r, h⟩ := ih (pre ++ [x]) post
      refine ⟨k + 1, r, .step (t := (pre.length + 1, true)) (by simp [finIf]) (by simp [rd, hp]) ?_⟩
      simp only [List.length_append, List.length_cons, List.length_nil, List.append_assoc, List.cons_append,
        List.nil_append, Nat.zero_add, List.all_cons, hp, Bool.true_and] at h ⊢
      rw [show pre.length + (xs.length + 1) = pre.length + 1 + xs.length by omega]
      exact h

theorem anyOfIn_run (p : α → Bool) : ∀ (xs pre post : List α),
    ∃ k r, Run (finIf fun s : Nat × Bool => s.2 || s.1 == pre.length + xs.length)
    (fun s => do
      let x ← rd (pre ++ xs ++ post) s.1
      some (if p x then (s.1, true) else (s.1 + 1, false)))
      k (pre.length, false) (r, xs.any p) := by
  intro xs
  induction xs with
  | nil => intro pre post; exact ⟨0, pre.length, .stop (by simp [finIf])⟩
  | cons x xs ih =>
    intro pre post
    cases hp : p x with
    | true =>
      refine ⟨1, pre.length, .step (t := (pre.length, true)) (by simp [finIf]) (by simp [rd, hp]) (.stop ?_)⟩
      simp [finIf, hp]
    | false =>
      obtain ⟨k, r, h⟩ := ih (pre ++ [x]) post
      refine ⟨k + 1, r, .step (t := (pre.length + 1, false)) (by simp [finIf]) (by simp [rd, hp]) ?_⟩
      simp only [List.length_append, List.length_cons, List.length_nil, List.append_assoc, List.cons_append,
        List.nil_append, Nat.zero_add, List.any_cons, hp, Bool.false_or] at h ⊢
      rw [show pre.length + (xs.length + 1) = pre.length + 1 + xs.length by omega]
      exact h

theorem allOfIn_eq (pre xs post : List α) (p : α → Bool) :
    allOfIn (pre ++ xs ++ post) pre.length (pre.length + xs.length) p = some (xs.all p) := by
  obtain ⟨k, r, h⟩ := allOfIn_run p xs pre post
  unfold allOfIn
  rw [dbl_run (finIf_idem _) _ _ _ 1 (Nat.le_refl _) h]
  simp

theorem anyOfIn_eq (pre xs post : List α) (p : α → Bool) :
    anyOfIn (pre ++ xs ++ post) pre.length (pre.length + xs.length) p = some (xs.any p) := by
  obtain ⟨k, r, h⟩ := anyOfIn_run p xs pre post
  unfold anyOfIn
  rw [dbl_run (finIf_idem _) _ _ _ 1 (Nat.le_refl _) h]
  simp

theorem noneOfIn_eq (pre xs post : List α) (p : α → Bool) :
    noneOfIn (pre ++ xs ++ post) pre.length (pre.length + xs.length) p = some (!xs.any p) := by
  have h : noneOfIn (pre ++ xs ++ post) pre.length (pre.length + xs.length) p
    = allOfIn (pre ++ xs ++ post) pre.length (pre.length + xs.length) (fun x => !p x) := rfl
  rw [h, allOfIn_eq, List.not_any_eq_all_not]

end Sprout
