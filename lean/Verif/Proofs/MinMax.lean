import Verif.Model.MinMax
import Verif.Spec.MinMax
import Verif.Proofs.Doubling
import Verif.Proofs.Heap

namespace Sprout
variable {α : Type}

/-! ## positions -/

def FirstMinP (lt : Nat → Nat → Bool) (a b r : Nat) : Prop :=
  a ≤ r ∧ r < b ∧ (∀ i, a ≤ i → i < b → lt i r = false) ∧ (∀ i, a ≤ i → i < r → lt r i = true)

def LastMaxP (lt : Nat → Nat → Bool) (a b r : Nat) : Prop :=
  a ≤ r ∧ r < b ∧ (∀ i, a ≤ i → i < b → lt r i = false) ∧ (∀ i, r < i → i < b → lt i r = true)

theorem FirstMinP.single {lt : Nat → Nat → Bool} (hc : StrictWeak lt) (a : Nat) : FirstMinP lt a (a + 1) a :=
  ⟨Nat.le_refl _, by omega, fun i h1 h2 => by rw [show i = a by omega]; exact hc.irrefl a, fun i h1 h2 => by omega⟩

theorem LastMaxP.single {lt : Nat → Nat → Bool} (hc : StrictWeak lt) (a : Nat) : LastMaxP lt a (a + 1) a :=
  ⟨Nat.le_refl _, by omega, fun i h1 h2 => by rw [show i = a by omega]; exact hc.irrefl a, fun i h1 h2 => by omega⟩

theorem FirstMinP.join {lt : Nat → Nat → Bool} (hc : StrictWeak lt) {a p b r1 r2 : Nat}
    (h1 : FirstMinP lt a p r1) (h2 : FirstMinP lt p b r2) : FirstMinP lt a b (if lt r2 r1 then r2 else r1) := by
  obtain ⟨a1, a2, a3, a4⟩ := h1
  obtain ⟨b1, b2, b3, b4⟩ := h2
  split
  · rename_i h
    refine ⟨by omega, b2, fun i hi hi' => ?_, fun i hi hi' => ?_⟩
    · by_cases hp : i < p
      · exact hc.le_trans (hc.asymm h) (a3 i hi hp)
      · exact b3 i (by omega) hi'
    · by_cases hp : i < p
      · exact hc.lt_of_lt_of_le h (a3 i hi hp)
      · exact b4 i (by omega) hi'
  · rename_i h
    rw [Bool.not_eq_true] at h
    refine ⟨a1, by omega, fun i hi hi' => ?_, a4⟩
    by_cases hp : i < p
    · exact a3 i hi hp
    · exact hc.le_trans h (b3 i (by omega) hi')

theorem LastMaxP.join {lt : Nat → Nat → Bool} (hc : StrictWeak lt) {a p b r1 r2 : Nat}
    (h1 : LastMaxP lt a p r1) (h2 : LastMaxP lt p b r2) : LastMaxP lt a b (if lt r2 r1 then r1 else r2) := by
  obtain ⟨a1, a2, a3, a4⟩ := h1
  obtain ⟨b1, b2, b3, b4⟩ := h2
  split
  · rename_i h
    refine ⟨a1, by omega, fun i hi hi' => ?_, fun i hi hi' => ?_⟩
    · by_cases hp : i < p
      · exact a3 i hi hp
      · exact hc.le_trans (b3 i (by omega) hi') (hc.asymm h)
    · by_cases hp : i < p
      · exact a4 i hi hp
      · exact hc.lt_of_le_of_lt (b3 i (by omega) hi') h
  · rename_i h
    rw [Bool.not_eq_true] at h
    refine ⟨by omega, b2, fun i hi hi' => ?_, fun i hi hi' => ?_⟩
    · by_cases hp : i < p
      · exact hc.le_trans (a3 i hi hp) h
      · exact b3 i (by omega) hi'
    · exact b4 i hi hi'

/-! ## the recursions -/

theorem minElementImplRa_spec {cmp : Nat → Nat → Option Bool} {lt : Nat → Nat → Bool} (hc : StrictWeak lt) :
    ∀ n a b, b - a = n → a < b → (∀ i j, a ≤ i → i < b → a ≤ j → j < b → cmp i j = some (lt i j)) →
    ∃ r, minElementImplRa cmp a b ((b - a) / 2) = some r ∧ FirstMinP lt a b r := by
  intro n
  induction n using Nat.strongRecOn with
  | ind n ih =>
    intro a b hn hab hcmp
    rw [minElementImplRa]
    by_cases hp : (b - a) / 2 = 0
    · rw [if_pos hp]
      have : b = a + 1 := by omega
      subst this
      exact ⟨a, rfl, .single hc a⟩
    · rw [if_neg hp]
      obtain ⟨r1, e1, s1⟩ := ih ((b - a) / 2) (by omega) a (a + (b - a) / 2) (by omega) (by omega)
        (fun i j _ _ _ _ => hcmp i j (by omega) (by omega) (by omega) (by omega))
      obtain ⟨r2, e2, s2⟩ := ih (b - a - (b - a) / 2) (by omega) (a + (b - a) / 2) b (by omega) (by omega)
        (fun i j _ _ _ _ => hcmp i j (by omega) (by omega) (by omega) (by omega))
      rw [Nat.add_sub_cancel_left] at e1
      rw [show b - (a + (b - a) / 2) = b - a - (b - a) / 2 by omega] at e2
      simp only [Option.bind_eq_bind]
      rw [e1, e2]
      simp only [Option.bind_some, iterMin, Option.bind_eq_bind]
      rw [hcmp r2 r1 (by have := s2.1; omega) s2.2.1 s1.1 (by have := s1.2.1; omega)]
      exact ⟨_, rfl, s1.join hc s2⟩

theorem maxElementImplRa_eq (cmp : Nat → Nat → Option Bool) : ∀ n a b, b - a = n → a < b →
    maxElementImplRa cmp a b ((b - a) / 2) = minElementImplRa (fun i j => cmp j i) a b ((b - a) / 2) := by
  intro n
  induction n using Nat.strongRecOn with
  | ind n ih =>
    intro a b hn hab
    rw [minElementImplRa, maxElementImplRa]
    by_cases hp : (b - a) / 2 = 0
    · rw [if_pos hp, if_pos hp]
    · rw [if_neg hp, if_neg hp]
      have e1 := ih ((b - a) / 2) (by omega) a (a + (b - a) / 2) (by omega) (by omega)
      have e2 := ih (b - a - (b - a) / 2) (by omega) (a + (b - a) / 2) b (by omega) (by omega)
      rw [Nat.add_sub_cancel_left] at e1
      rw [show b - (a + (b - a) / 2) = b - a - (b - a) / 2 by omega] at e2
      rw [e1, e2]
      rfl

theorem minElementFw_run {cmp : Nat → Nat → Option Bool} {lt : Nat → Nat → Bool} (hc : StrictWeak lt) (a : Nat) :
    ∀ n b c r0, b - c = n → c ≤ b → FirstMinP lt a c r0 → (∀ i j, a ≤ i → i < b → a ≤ j → j < b → cmp i j = some (lt i j)) →
    ∃ k r, Run (finIf fun s : Nat × Nat => s.1 == b)
      (fun s => do some (s.1 + 1, ← iterMin cmp s.2 s.1)) k (c, r0) (b, r) ∧ FirstMinP lt a b r := by
  intro n
  induction n with
  | zero =>
    intro b c r0 hn hcb h0 hcmp
    have : c = b := by omega
    subst this
    exact ⟨0, r0, .stop (by simp [finIf]), h0⟩
  | succ n ih =>
    intro b c r0 hn hcb h0 hcmp
    obtain ⟨k, r, h1, h2⟩ := ih b (c + 1) _ (by omega) (by omega) (h0.join hc (.single hc c)) hcmp
    refine ⟨k + 1, r, .step (by simp [finIf]; omega) ?_ h1, h2⟩
    have := h0.1
    have := h0.2.1
    simp only [iterMin]
    rw [hcmp c r0 (by omega) (by omega) (by omega) (by omega)]
    rfl

theorem iterMinmax_spec {cmp : Nat → Nat → Option Bool} {lt : Nat → Nat → Bool} (hc : StrictWeak lt) {a : Nat}
    (h : cmp (a + 1) a = some (lt (a + 1) a)) :
    ∃ r, iterMinmax cmp a (a + 1) = some r ∧ FirstMinP lt a (a + 2) r.1 ∧ LastMaxP lt a (a + 2) r.2 := by
  unfold iterMinmax
  rw [h]
  refine ⟨_, rfl, ?_, ?_⟩
  · have := (FirstMinP.single hc a).join hc (.single hc (a + 1))
    split <;> simp_all
  · have := (LastMaxP.single hc a).join hc (.single hc (a + 1))
    split <;> simp_all

theorem minmaxElementImplRa_spec {cmp : Nat → Nat → Option Bool} {lt : Nat → Nat → Bool} (hc : StrictWeak lt) :
    ∀ half a, 0 < half → (∀ i j, a ≤ i → i < a + 2 * half → a ≤ j → j < a + 2 * half → cmp i j = some (lt i j)) →
    ∃ r, minmaxElementImplRa cmp a half = some r ∧ FirstMinP lt a (a + 2 * half) r.1 ∧ LastMaxP lt a (a + 2 * half) r.2 := by
  intro half
  induction half using Nat.strongRecOn with
  | ind half ih =>
    intro a h0 hcmp
    rw [minmaxElementImplRa]
    by_cases h1 : half = 1
    · subst h1
      rw [if_pos rfl]
      exact iterMinmax_spec hc (hcmp _ _ (by omega) (by omega) (by omega) (by omega))
    · rw [if_neg h1]
      obtain ⟨r1, e1, s1, t1⟩ := ih (half / 2) (by omega) a (by omega)
        (fun i j _ _ _ _ => hcmp i j (by omega) (by omega) (by omega) (by omega))
      obtain ⟨r2, e2, s2, t2⟩ := ih ((half + 1) / 2) (by omega) (a + (half - half % 2)) (by omega)
        (fun i j _ _ _ _ => hcmp i j (by omega) (by omega) (by omega) (by omega))
      rw [show a + 2 * (half / 2) = a + (half - half % 2) by omega] at s1 t1
      rw [show a + (half - half % 2) + 2 * ((half + 1) / 2) = a + 2 * half by omega] at s2 t2
      simp only [Option.bind_eq_bind]
      rw [e1, e2]
      simp only [Option.bind_some, iterMinmaxPair, Option.bind_eq_bind]
      rw [hcmp r2.1 r1.1 (by have := s2.1; omega) s2.2.1 s1.1 (by have := s1.2.1; omega),
        hcmp r2.2 r1.2 (by have := t2.1; omega) t2.2.1 t1.1 (by have := t1.2.1; omega)]
      exact ⟨_, rfl, s1.join hc s2, t1.join hc t2⟩

theorem minmaxFw_run {cmp : Nat → Nat → Option Bool} {lt : Nat → Nat → Bool} (hc : StrictWeak lt) (a b : Nat)
    (hcmp : ∀ i j, a ≤ i → i < b → a ≤ j → j < b → cmp i j = some (lt i j)) :
    ∀ n c r0, b - c = n → c ≤ b → FirstMinP lt a c r0.1 → LastMaxP lt a c r0.2 →
    ∃ k r, Run (finIf fun s : Nat × (Nat × Nat) => s.1 == b)
      (fun s => minmaxStep cmp s.2 s.1 (s.1 + 1) b) k (c, r0) (b, r) ∧ FirstMinP lt a b r.1 ∧ LastMaxP lt a b r.2 := by
  intro n
  induction n using Nat.strongRecOn with
  | ind n ih =>
    intro c r0 hn hcb h1 h2
    by_cases hcb' : c = b
    · subst hcb'
      exact ⟨0, r0, .stop (by simp [finIf]), h1, h2⟩
    have := h1.1
    have := h1.2.1
    have := h2.1
    have := h2.2.1
    by_cases hb : c + 1 = b
    · subst hb
      refine ⟨1, (if lt c r0.1 then c else r0.1, if lt c r0.2 then r0.2 else c), .step (t := (c + 1, (if lt c r0.1 then c else r0.1, if lt c r0.2 then r0.2 else c))) (by simp [finIf]) ?_
        (.stop (by simp [finIf])), h1.join hc (.single hc c), h2.join hc (.single hc c)⟩
      simp only [minmaxStep, if_true, iterMinmax2, Option.bind_eq_bind]
      rw [hcmp c r0.1 (by omega) (by omega) (by omega) (by omega), hcmp c r0.2 (by omega) (by omega) (by omega) (by omega)]
      rfl
    · obtain ⟨p, e, p1, p2⟩ := iterMinmax_spec (cmp := cmp) hc (a := c) (hcmp _ _ (by omega) (by omega) (by omega) (by omega))
      obtain ⟨k, r, g1, g2⟩ := ih (b - (c + 2)) (by omega) (c + 2)
        (if lt p.1 r0.1 then p.1 else r0.1, if lt p.2 r0.2 then r0.2 else p.2) rfl (by omega)
        (h1.join hc p1) (h2.join hc p2)
      refine ⟨k + 1, r, .step (by simp [finIf]; omega) ?_ g1, g2⟩
      simp only [minmaxStep, if_neg hb, e, Option.bind_eq_bind, Option.bind_some, iterMinmaxPair]
      have := p1.1; have := p1.2.1; have := p2.1; have := p2.2.1
      rw [hcmp p.1 r0.1 (by omega) (by omega) (by omega) (by omega), hcmp p.2 r0.2 (by omega) (by omega) (by omega) (by omega)]
      rfl

/-! ## sortedness -/

/-- first `k` in `[a, b)` with `lt (k+1) k`, else `b` -/
def DescP (lt : Nat → Nat → Bool) (a b r : Nat) : Prop :=
  a ≤ r ∧ r ≤ b ∧ (∀ i, a ≤ i → i < r → lt (i + 1) i = false) ∧ (r < b → lt (r + 1) r = true)

theorem isSortedUntilImplRa_spec {cmp : Nat → Nat → Option Bool} {lt : Nat → Nat → Bool} :
    ∀ n a b, b - a = n → a < b → (∀ i, a ≤ i → i < b → cmp (i + 1) i = some (lt (i + 1) i)) →
    ∃ r, isSortedUntilImplRa cmp a b ((b - a) / 2) a = some r ∧ DescP lt a b r := by
  intro n
  induction n using Nat.strongRecOn with
  | ind n ih =>
    intro a b hn hab hcmp
    rw [isSortedUntilImplRa, if_neg (by simp)]
    by_cases hp : (b - a) / 2 = 0
    · rw [if_pos hp]
      have : b = a + 1 := by omega
      subst this
      rw [hcmp a (Nat.le_refl _) (by omega)]
      refine ⟨_, rfl, ?_⟩
      by_cases h : lt (a + 1) a = true
      · rw [if_pos h]; exact ⟨Nat.le_refl _, by omega, fun i _ _ => by omega, fun _ => h⟩
      · rw [if_neg h]; exact ⟨by omega, by omega, fun i _ _ => by rw [show i = a by omega]; simpa using h, fun _ => by omega⟩
    · rw [if_neg hp]
      obtain ⟨r1, e1, s1⟩ := ih ((b - a) / 2) (by omega) a (a + (b - a) / 2) (by omega) (by omega)
        (fun i _ _ => hcmp i (by omega) (by omega))
      obtain ⟨r2, e2, s2⟩ := ih (b - a - (b - a) / 2) (by omega) (a + (b - a) / 2) b (by omega) (by omega)
        (fun i _ _ => hcmp i (by omega) (by omega))
      rw [Nat.add_sub_cancel_left] at e1
      rw [show b - (a + (b - a) / 2) = b - a - (b - a) / 2 by omega] at e2
      simp only [Option.bind_eq_bind]
      rw [e1]
      simp only [Option.bind_some]
      obtain ⟨a1, a2, a3, a4⟩ := s1
      obtain ⟨b1, b2, b3, b4⟩ := s2
      by_cases hr : r1 = a + (b - a) / 2
      · rw [hr, e2]
        refine ⟨r2, rfl, by omega, b2, fun i h1 h2 => ?_, b4⟩
        by_cases hi : i < a + (b - a) / 2
        · exact a3 i h1 (by omega)
        · exact b3 i (by omega) h2
      · rw [isSortedUntilImplRa, if_pos hr]
        exact ⟨r1, rfl, a1, by omega, a3, fun _ => a4 (by omega)⟩

theorem isSortedUntilFw_run {cmp : Nat → Nat → Option Bool} {lt : Nat → Nat → Bool} :
    ∀ n a b, b - a = n → a ≤ b → (∀ i, a ≤ i → i < b → cmp (i + 1) i = some (lt (i + 1) i)) →
    ∃ k r e, Run (finIf fun s : Nat × Nat => s.2 == b + 1)
      (fun s => do some (if (← cmp s.2 s.1) then (s.1, b + 1) else (s.2, s.2 + 1))) k (a, a + 1) (r, e) ∧ DescP lt a b r := by
  intro n
  induction n with
  | zero =>
    intro a b hn hab hcmp
    have : a = b := by omega
    subst this
    exact ⟨0, a, a + 1, .stop (by simp [finIf]), Nat.le_refl _, Nat.le_refl _, fun i _ _ => by omega, fun _ => by omega⟩
  | succ n ih =>
    intro a b hn hab hcmp
    have hfin : (finIf fun s : Nat × Nat => s.2 == b + 1) (a, a + 1) = none := by simp [finIf]; omega
    have hca := hcmp a (Nat.le_refl _) (by omega)
    by_cases h : lt (a + 1) a = true
    · refine ⟨1, a, b + 1, .step hfin (t := (a, b + 1)) ?_ (.stop (by simp [finIf])), Nat.le_refl _, hab, fun i _ _ => by omega, fun _ => h⟩
      simp only [hca, h]; rfl
    · obtain ⟨k, r, e, h1, h2, h3, h4, h5⟩ := ih (a + 1) b (by omega) (by omega) (fun i _ _ => hcmp i (by omega) (by omega))
      refine ⟨k + 1, r, e, .step hfin (t := (a + 1, a + 1 + 1)) ?_ h1, by omega, h3, fun i hi hi' => ?_, h5⟩
      · simp only [hca, h]; rfl
      · by_cases hia : i = a
        · subst hia; simpa using h
        · exact h4 i (by omega) hi'

theorem isSortedImplRa_spec {cmp : Nat → Nat → Option Bool} {lt : Nat → Nat → Bool} :
    ∀ n a b, b - a = n → a < b → (∀ i, a ≤ i → i < b → cmp (i + 1) i = some (lt (i + 1) i)) →
    ∃ r, isSortedImplRa cmp a b ((b - a) / 2) = some r ∧ (r = true ↔ ∀ i, a ≤ i → i < b → lt (i + 1) i = false) := by
  intro n
  induction n using Nat.strongRecOn with
  | ind n ih =>
    intro a b hn hab hcmp
    rw [isSortedImplRa]
    by_cases hp : (b - a) / 2 = 0
    · rw [if_pos hp]
      have : b = a + 1 := by omega
      subst this
      rw [hcmp a (Nat.le_refl _) (by omega)]
      refine ⟨_, rfl, ?_⟩
      constructor
      · intro h i h1 h2; rw [show i = a by omega]; simpa using h
      · intro h; simpa using h a (Nat.le_refl _) (by omega)
    · rw [if_neg hp]
      obtain ⟨r1, e1, s1⟩ := ih ((b - a) / 2) (by omega) a (a + (b - a) / 2) (by omega) (by omega)
        (fun i _ _ => hcmp i (by omega) (by omega))
      obtain ⟨r2, e2, s2⟩ := ih (b - a - (b - a) / 2) (by omega) (a + (b - a) / 2) b (by omega) (by omega)
        (fun i _ _ => hcmp i (by omega) (by omega))
      rw [Nat.add_sub_cancel_left] at e1
      rw [show b - (a + (b - a) / 2) = b - a - (b - a) / 2 by omega] at e2
      simp only [Option.bind_eq_bind]
      rw [e1]
      simp only [Option.bind_some]
      cases hr : r1 with
      | true =>
        rw [if_pos rfl, e2]
        refine ⟨r2, rfl, s2.trans ⟨fun h i h1 h2 => ?_, fun h i h1 h2 => h i (by omega) h2⟩⟩
        by_cases hi : i < a + (b - a) / 2
        · exact s1.mp hr i h1 hi
        · exact h i (by omega) h2
      | false =>
        rw [if_neg (by simp)]
        refine ⟨false, rfl, ⟨fun h => (by cases h), fun h => ?_⟩⟩
        have := s1.mpr (fun i h1 h2 => h i h1 (by omega))
        rw [hr] at this; cases this

/-! ## from positions to elements -/

/-- the comparator on positions (`d` is any element) -/
def posLt (comp : α → α → Bool) (m : List α) (d : α) (i j : Nat) : Bool := comp (m.getD i d) (m.getD j d)

theorem posLt_sw {comp : α → α → Bool} (hc : StrictWeak comp) (m : List α) (d : α) : StrictWeak (posLt comp m d) :=
  ⟨fun a => hc.irrefl _, fun _ _ _ h1 h2 => hc.trans _ _ _ h1 h2, fun _ _ _ h => hc.cotrans _ _ _ h⟩

theorem cmpAt_eq {comp : α → α → Bool} {m : List α} {d : α} {i j : Nat} (hi : i < m.length) (hj : j < m.length) :
    cmpAt comp m i j = some (posLt comp m d i j) := by
  simp [cmpAt, posLt, rd, hi, hj]

theorem posLt_seg {comp : α → α → Bool} {pre xs post : List α} {d : α} {i j : Nat} (hi : i < xs.length) (hj : j < xs.length) :
    posLt comp (pre ++ xs ++ post) d (pre.length + i) (pre.length + j) = comp xs[i] xs[j] := by
  have h1 := seg_get pre xs post i hi
  have h2 := seg_get pre xs post j hj
  simp only [posLt, List.getD_eq_getElem?_getD, h1, h2]; rfl

theorem firstMin_of_pos {comp : α → α → Bool} {pre xs post : List α} {d : α} {r : Nat}
    (h : FirstMinP (posLt comp (pre ++ xs ++ post) d) pre.length (pre.length + xs.length) r) :
    ∃ k, r = pre.length + k ∧ Spec.FirstMin comp xs k := by
  obtain ⟨h1, h2, h3, h4⟩ := h
  obtain ⟨k, rfl⟩ := Nat.exists_eq_add_of_le h1
  have hk : k < xs.length := by omega
  refine ⟨k, rfl, xs[k], List.getElem?_eq_getElem hk, ?_, ?_⟩
  · intro y hy
    obtain ⟨i, hi, rfl⟩ := List.getElem_of_mem hy
    exact (posLt_seg (by omega) (by omega)).symm.trans (h3 _ (by omega) (by omega))
  · intro i y hi hy
    rw [List.getElem?_eq_getElem (by omega)] at hy
    cases hy
    exact (posLt_seg (by omega) (by omega)).symm.trans (h4 _ (by omega) (by omega))

theorem lastMax_of_pos {comp : α → α → Bool} {pre xs post : List α} {d : α} {r : Nat}
    (h : LastMaxP (posLt comp (pre ++ xs ++ post) d) pre.length (pre.length + xs.length) r) :
    ∃ k, r = pre.length + k ∧ Spec.LastMax comp xs k := by
  obtain ⟨h1, h2, h3, h4⟩ := h
  obtain ⟨k, rfl⟩ := Nat.exists_eq_add_of_le h1
  have hk : k < xs.length := by omega
  refine ⟨k, rfl, xs[k], List.getElem?_eq_getElem hk, ?_, ?_⟩
  · intro y hy
    obtain ⟨i, hi, rfl⟩ := List.getElem_of_mem hy
    exact (posLt_seg (by omega) (by omega)).symm.trans (h3 _ (by omega) (by omega))
  · intro i y hi hy
    have hil : i < xs.length := (List.getElem?_eq_some_iff.mp hy).1
    rw [List.getElem?_eq_getElem hil] at hy
    cases hy
    exact (posLt_seg (by omega) (by omega)).symm.trans (h4 _ (by omega) (by omega))

theorem strictWeak_flip {comp : α → α → Bool} (hc : StrictWeak comp) : StrictWeak (fun a b => comp b a) :=
  ⟨hc.irrefl, fun a b c h1 h2 => hc.trans c b a h2 h1, fun a b c h => (hc.cotrans c b a h).symm⟩

/-- adjacent order suffices -/
theorem sortedBy_of_adj {comp : α → α → Bool} (hc : StrictWeak comp) {xs : List α}
    (h : ∀ i (hi : i + 1 < xs.length), comp xs[i + 1] xs[i] = false) : SortedBy comp xs := by
  unfold SortedBy
  rw [List.pairwise_iff_getElem]
  intro i j hi hj hij
  induction j with
  | zero => omega
  | succ j ih =>
    by_cases hji : i = j
    · subst hji; exact h i hj
    · exact hc.le_trans (ih (by omega) (by omega)) (h j hj)

theorem sortedUntil_of_pos {comp : α → α → Bool} (hc : StrictWeak comp) {pre xs post : List α} {d : α} {r : Nat} (hx : xs ≠ [])
    (h : DescP (posLt comp (pre ++ xs ++ post) d) pre.length (pre.length + xs.length - 1) r) :
    ∃ k, r + 1 = pre.length + k ∧ Spec.SortedUntil comp xs k := by
  have hxl : 0 < xs.length := List.length_pos_iff.mpr hx
  obtain ⟨h1, h2, h3, h4⟩ := h
  obtain ⟨k, rfl⟩ := Nat.exists_eq_add_of_le h1
  refine ⟨k + 1, by omega, by omega, ?_, ?_⟩
  · apply sortedBy_of_adj hc
    intro i hi
    have hi' : i + 1 < min (k + 1) xs.length := by simpa using hi
    have := h3 (pre.length + i) (by omega) (by omega)
    rw [Nat.add_assoc, posLt_seg (by omega) (by omega)] at this
    simpa using this
  · intro hk hs
    have := h4 (by omega)
    rw [Nat.add_assoc, posLt_seg (by omega) (by omega)] at this
    unfold SortedBy at hs
    rw [List.pairwise_iff_getElem] at hs
    have h5 := hs k (k + 1) (by simp; omega) (by simp; omega) (by omega)
    simp only [List.getElem_take] at h5
    rw [this] at h5; cases h5

end Sprout
