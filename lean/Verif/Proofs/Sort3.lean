import Verif.Proofs.Sort2

namespace Sprout
variable {α : Type}

theorem posLt_some {comp : α → α → Bool} {m : List α} {d x y : α} {i j : Nat} (hi : m[i]? = some x) (hj : m[j]? = some y) :
    posLt comp m d i j = comp x y := by
  simp [posLt, List.getD_eq_getElem?_getD, hi, hj]

theorem eqPart_spec {comp : α → α → Bool} (hc : StrictWeak comp) (first last : Nat) (q : α) : ∀ n (m : List α) (i j : Nat),
    j - i = n → first < i → i ≤ j → j < last → last ≤ m.length → m[first]? = some q →
    AllP (fun x => comp q x = false) m first i → AllP (fun x => comp q x = true) m j last →
    ∃ r i', eqPart comp m first i j = some (r, i') ∧ first < i' ∧ i' ≤ j ∧ Rearr first last m r ∧
      AllP (fun x => comp q x = false) r first i' ∧ AllP (fun x => comp q x = true) r i' last := by
  intro n
  induction n using Nat.strongRecOn with
  | ind n ih =>
    intro m i j hn hi hij hj hl hq hL hR
    rw [eqPart]
    obtain ⟨xj, hxj⟩ := get_some (m := m) (i := j) (by omega)
    obtain ⟨i1, e1, a1, a2, a3, a4⟩ := scanUp_spec (test := fun k => do some (!(← cmpAt comp m first k)))
      (t := fun k => !posLt comp m q first k) _ i j rfl hij
      (by simp only [posLt_some hq hxj, hR j xj (Nat.le_refl _) hj hxj, Bool.not_true])
      (fun k h1 h2 => by rw [cmpAt_eq (d := q) (by omega) (by omega)]; rfl)
    obtain ⟨j1, e2, b1, b2, b3, b4⟩ := scanDown_spec (test := fun k => cmpAt comp m first k)
      (t := fun k => posLt comp m q first k) _ j first rfl (by omega)
      (by rw [posLt_some hq hq]; exact hc.irrefl q)
      (fun k h1 h2 => cmpAt_eq (by omega) (by omega))
    simp only [Option.bind_eq_bind] at e1 ⊢
    rw [e1]
    simp only [Option.bind_some]
    rw [e2]
    simp only [Option.bind_some]
    obtain ⟨x1, hx1⟩ := get_some (m := m) (i := i1) (by omega)
    obtain ⟨y1, hy1⟩ := get_some (m := m) (i := j1) (by omega)
    have hx1q : comp q x1 = true := by simp only [posLt_some hq hx1] at a3; simpa using a3
    have hy1q : comp q y1 = false := by rw [posLt_some hq hy1] at b3; exact b3
    have hL' : AllP (fun x => comp q x = false) m first i1 := by
      intro k x hk hk' hx
      by_cases hki : k < i
      · exact hL k x hk hki hx
      · have := a4 k (by omega) hk'
        simp only [posLt_some hq hx] at this
        simpa using this
    have hR' : AllP (fun x => comp q x = true) m (j1 + 1) last := by
      intro k x hk hk' hx
      by_cases hkj : k < j
      · have := b4 k (by omega) hkj
        rwa [posLt_some hq hx] at this
      · exact hR k x (by omega) hk' hx
    by_cases hji : j1 ≤ i1
    · rw [if_pos hji]
      refine ⟨m, i1, rfl, by omega, a2, Rearr.refl .., hL', ?_⟩
      intro k x hk hk' hx
      by_cases hkk : k = i1
      · subst hkk; rw [hx1] at hx; cases hx; exact hx1q
      · exact hR' k x (by omega) hk' hx
    · rw [if_neg hji, swp_some hx1 hy1]
      simp only [Option.bind_some]
      have g := getElem?_swap hx1 hy1
      have rr := set_swap_rearr (a := first) (b := last) hx1 hy1 (by omega) (by omega) (by omega) (by omega)
      obtain ⟨r, i', h1, h2, h3, h4, h5, h6⟩ := ih (j1 - (i1 + 1)) (by omega) ((m.set i1 y1).set j1 x1) (i1 + 1) j1 rfl (by omega) (by omega)
        (by omega) (by simpa using hl) (by rw [g, if_neg (by omega), if_neg (by omega), hq])
        (by
          intro k x hk hk' hx
          rw [g, if_neg (by omega)] at hx
          by_cases hkk : k = i1
          · rw [if_pos hkk] at hx; cases hx; exact hy1q
          · rw [if_neg hkk] at hx; exact hL' k x hk (by omega) hx)
        (by
          intro k x hk hk' hx
          rw [g] at hx
          by_cases hkk : k = j1
          · rw [if_pos hkk] at hx; cases hx; exact hx1q
          · rw [if_neg hkk, if_neg (by omega)] at hx; exact hR' k x (by omega) hk' hx)
      exact ⟨r, i', h1, h2, by omega, rr.trans h4, h5, h6⟩

theorem eqGuard_spec {comp : α → α → Bool} (first last : Nat) (q : α) (m : List α) (j : Nat)
    (hj : j < last) (hl : last ≤ m.length) (hq : m[first]? = some q) (hjq : ∀ x, m[j]? = some x → comp q x = false) : ∀ n (i : Nat),
    j - i = n → first < i → i ≤ j → AllP (fun x => comp q x = false) m first i →
    (eqGuard comp m first i j = some none ∧ AllP (fun x => comp q x = false) m first j) ∨
    (∃ r i', eqGuard comp m first i j = some (some (r, i')) ∧ first < i' ∧ i' ≤ j ∧ Rearr first last m r ∧ r[first]? = some q ∧
      AllP (fun x => comp q x = false) r first i' ∧ (∀ x, r[j]? = some x → comp q x = true)) := by
  intro n
  induction n with
  | zero =>
    intro i hn hi hij hL
    have : i = j := by omega
    subst this
    rw [eqGuard, if_pos rfl]
    exact .inl ⟨rfl, hL⟩
  | succ n ih =>
    intro i hn hi hij hL
    rw [eqGuard, if_neg (by omega)]
    obtain ⟨x, hx⟩ := get_some (m := m) (i := i) (by omega)
    obtain ⟨y, hy⟩ := get_some (m := m) (i := j) (by omega)
    rw [cmpAt_some hq hx]
    simp only [Option.bind_eq_bind, Option.bind_some]
    by_cases hqx : comp q x = true
    · rw [if_pos hqx, swp_some hx hy]
      have g := getElem?_swap hx hy
      refine .inr ⟨_, _, rfl, by omega, by omega, set_swap_rearr hx hy (by omega) (by omega) (by omega) (by omega),
        by rw [g, if_neg (by omega), if_neg (by omega), hq], ?_, ?_⟩
      · intro k z hk hk' hz
        rw [g, if_neg (by omega)] at hz
        by_cases hki : k = i
        · rw [if_pos hki] at hz; cases hz; exact hjq _ hy
        · rw [if_neg hki] at hz; exact hL k z hk (by omega) hz
      · intro z hz
        rw [g, if_pos rfl] at hz; cases hz; exact hqx
    · rw [if_neg hqx]
      apply ih (i + 1) (by omega) (by omega) (by omega)
      intro k z hk hk' hz
      by_cases hki : k = i
      · subst hki; rw [hx] at hz; cases hz; simpa using hqx
      · exact hL k z hk (by omega) hz

/-- a block of pairwise equivalent elements is sorted -/
theorem sortedAt_of_equiv {comp : α → α → Bool} (hc : StrictWeak comp) {V : List α} {a b : Nat} {q : α}
    (h1 : AllP (fun x => comp q x = false) V a b) (h2 : AllP (fun x => comp x q = false) V a b) : SortedAt comp V a b := by
  intro i j hi hij hj x y hx hy
  exact hc.le_trans (h1 i y hi (by omega) hy) (h2 j x (by omega) hj hx)

/-- `*first` is a smallest element -/
theorem eqPath_spec {comp : α → α → Bool} (hc : StrictWeak comp) (first last : Nat) (q : α) (m : List α)
    (hfl : first + 1 < last) (hl : last ≤ m.length) (hq : m[first]? = some q) (hmin : AllP (fun x => comp x q = false) m first last) :
    (∃ r, eqPath comp m first last = some (r, none) ∧ Rearr first last m r ∧ SortedAt comp r first last) ∨
    (∃ r i, eqPath comp m first last = some (r, some i) ∧ first < i ∧ i < last ∧ Rearr first last m r ∧
      AllP (fun x => comp x q = false) r first last ∧
      AllP (fun x => comp q x = false) r first i ∧ AllP (fun x => comp q x = true) r i last) := by
  unfold eqPath
  have hL0 : AllP (fun x => comp q x = false) m first (first + 1) := by
    intro k x hk hk' hx
    rw [show k = first by omega, hq] at hx
    cases hx; exact hc.irrefl q
  obtain ⟨y, hy⟩ := get_some (m := m) (i := last - 1) (by omega)
  -- the common tail
  have tail : ∀ (m1 : List α) (i : Nat), Rearr first last m m1 → first < i → i ≤ last - 1 → m1[first]? = some q →
      AllP (fun x => comp q x = false) m1 first i → (∀ x, m1[last - 1]? = some x → comp q x = true) →
      (∃ r, (if i = last - 1 then some (m1, none) else do
          let (m, i) ← eqPart comp m1 first i (last - 1)
          some (m, some i)) = some (r, none) ∧ Rearr first last m r ∧ SortedAt comp r first last) ∨
      (∃ r i', (if i = last - 1 then some (m1, none) else do
          let (m, i) ← eqPart comp m1 first i (last - 1)
          some (m, some i)) = some (r, some i') ∧ first < i' ∧ i' < last ∧ Rearr first last m r ∧
        AllP (fun x => comp x q = false) r first last ∧
        AllP (fun x => comp q x = false) r first i' ∧ AllP (fun x => comp q x = true) r i' last) := by
    intro m1 i rr hi hil hq1 hL hR
    have hmin1 := hmin.rearr rr hl (by omega) (.inl ⟨Nat.le_refl _, Nat.le_refl _⟩)
    by_cases hi' : i = last - 1
    · rw [if_pos hi']
      refine .inl ⟨m1, rfl, rr, ?_⟩
      subst hi'
      apply SortedAt.glue (c := last - 1) (sortedAt_of_equiv hc hL (fun k x hk hk' hx => hmin1 k x hk (by omega) hx)) (.trivial (by omega))
      intro i j h1 h2 h3 h4 x z hx hz
      have : j = last - 1 := by omega
      subst this
      exact hc.le_trans (hL i z h1 h2 hz) (hmin1 _ x (by omega) (by omega) hx)
    · rw [if_neg hi']
      obtain ⟨r, i', h1, h2, h3, h4, h5, h6⟩ := eqPart_spec hc first last q _ m1 i (last - 1) rfl hi (by omega) (by omega) (by rw [rr.len]; exact hl) hq1 hL
        (fun k x hk hk' hx => hR x (by rwa [show k = last - 1 by omega] at hx))
      simp only [Option.bind_eq_bind]
      rw [h1]
      exact .inr ⟨r, i', rfl, h2, by omega, rr.trans h4, hmin1.rearr h4 (by rw [rr.len]; exact hl) (by omega) (.inl ⟨Nat.le_refl _, Nat.le_refl _⟩), h5, h6⟩
  simp only [Option.bind_eq_bind] at tail ⊢
  rw [cmpAt_some hq hy]
  simp only [Option.bind_some]
  by_cases hqy : comp q y = true
  · rw [if_pos hqy]
    exact tail m (first + 1) (Rearr.refl ..) (by omega) (by omega) hq hL0 (fun x hx => by rw [hy] at hx; cases hx; exact hqy)
  · rw [if_neg hqy]
    rw [Bool.not_eq_true] at hqy
    rcases eqGuard_spec (comp := comp) first last q m (last - 1) (by omega) hl hq (fun x hx => by rw [hy] at hx; cases hx; exact hqy) _ (first + 1) rfl
      (by omega) (by omega) hL0 with ⟨h1, h2⟩ | ⟨r, i', h1, h2, h3, h4, h5, h6, h7⟩
    · rw [h1]
      refine .inl ⟨m, rfl, Rearr.refl .., sortedAt_of_equiv hc (q := q) ?_ hmin⟩
      intro k x hk hk' hx
      by_cases hkl : k = last - 1
      · subst hkl; rw [hy] at hx; cases hx; exact hqy
      · exact h2 k x hk (by omega) hx
    · rw [h1]
      exact tail r i' h4 h2 h3 h5 h6 h7

theorem partLoop_spec {comp : α → α → Bool} (hc : StrictWeak comp) (brk : Nat → Nat → Bool) (hbrk : ∀ i j, i ≠ j → brk i j = decide (j < i))
    (first last : Nat) (p : α) : ∀ n (m : List α) (i j pm c : Nat),
    j - i = n → first < i → i ≤ j → j < last → last ≤ m.length → m[pm]? = some p → pm < last → first ≤ pm →
    AllP (fun x => comp x p = true) m first i → AllP (fun x => comp x p = false) m j last →
    ∃ r i' pm' c', partLoop brk comp m i j pm c = some (r, i', pm', c') ∧ first < i' ∧ i' ≤ j ∧ Rearr first last m r ∧
      AllP (fun x => comp x p = true) r first i' ∧ AllP (fun x => comp x p = false) r i' last ∧ r[pm']? = some p ∧ first ≤ pm' ∧ pm' < last := by
  intro n
  induction n using Nat.strongRecOn with
  | ind n ih =>
    intro m i j pm c hn hi hij hj hl hp hpm hpm' hL hR
    rw [partLoop]
    obtain ⟨xj, hxj⟩ := get_some (m := m) (i := j) (by omega)
    obtain ⟨xf, hxf⟩ := get_some (m := m) (i := first) (by omega)
    obtain ⟨i1, e1, a1, a2, a3, a4⟩ := scanUp_spec (test := fun k => cmpAt comp m k pm)
      (t := fun k => posLt comp m p k pm) _ i j rfl hij
      (by simp only [posLt_some hxj hp]; exact hR j xj (Nat.le_refl _) hj hxj)
      (fun k h1 h2 => by rw [cmpAt_eq (d := p) (by omega) (by omega)])
    obtain ⟨j1, e2, b1, b2, b3, b4⟩ := scanDown_spec (test := fun k => do some (!(← cmpAt comp m k pm)))
      (t := fun k => !posLt comp m p k pm) _ j first rfl (by omega)
      (by simp only [posLt_some hxf hp, hL first xf (Nat.le_refl _) hi hxf, Bool.not_true])
      (fun k h1 h2 => by rw [cmpAt_eq (d := p) (by omega) (by omega)]; rfl)
    simp only [Option.bind_eq_bind] at e2 ⊢
    rw [e1]
    simp only [Option.bind_some]
    rw [e2]
    simp only [Option.bind_some]
    obtain ⟨x1, hx1⟩ := get_some (m := m) (i := i1) (by omega)
    obtain ⟨y1, hy1⟩ := get_some (m := m) (i := j1) (by omega)
    have hx1p : comp x1 p = false := by simp only [posLt_some hx1 hp] at a3; exact a3
    have hy1p : comp y1 p = true := by simp only [posLt_some hy1 hp] at b3; simpa using b3
    have hne : i1 ≠ j1 := by rintro rfl; rw [hx1] at hy1; cases hy1; rw [hx1p] at hy1p; cases hy1p
    have hL' : AllP (fun x => comp x p = true) m first i1 := by
      intro k x hk hk' hx
      by_cases hki : k < i
      · exact hL k x hk hki hx
      · have := a4 k (by omega) hk'
        simpa only [posLt_some hx hp] using this
    have hR' : AllP (fun x => comp x p = false) m (j1 + 1) last := by
      intro k x hk hk' hx
      by_cases hkj : k < j
      · have := b4 k (by omega) hkj
        simp only [posLt_some hx hp] at this
        simpa using this
      · exact hR k x (by omega) hk' hx
    rw [hbrk i1 j1 hne]
    by_cases hji : j1 < i1
    · rw [if_pos (by simpa using hji)]
      refine ⟨m, i1, pm, c, rfl, by omega, a2, Rearr.refl .., hL', ?_, hp, hpm', hpm⟩
      intro k x hk hk' hx
      exact hR' k x (by omega) hk' hx
    · rw [if_neg (by simpa using hji), swp_some hx1 hy1]
      simp only [Option.bind_some]
      have g := getElem?_swap hx1 hy1
      have rr := set_swap_rearr (a := first) (b := last) hx1 hy1 (by omega) (by omega) (by omega) (by omega)
      have hpj : pm ≠ j1 := by rintro rfl; rw [hp] at hy1; cases hy1; rw [hc.irrefl] at hy1p; cases hy1p
      obtain ⟨r, i', pm', c', h1, h2, h3, h4, h5, h6, h7, h8⟩ := ih (j1 - (i1 + 1)) (by omega) ((m.set i1 y1).set j1 x1) (i1 + 1) j1
        (if pm = i1 then j1 else pm) (c + 1) rfl (by omega) (by omega)
        (by omega) (by simpa using hl)
        (by
          by_cases hpi : pm = i1
          · rw [if_pos hpi, g, if_pos rfl]; subst hpi; rw [hx1] at hp; exact hp
          · rw [if_neg hpi, g, if_neg hpj, if_neg hpi, hp])
        (by split <;> omega) (by split <;> omega)
        (by
          intro k x hk hk' hx
          rw [g, if_neg (by omega)] at hx
          by_cases hkk : k = i1
          · rw [if_pos hkk] at hx; cases hx; exact hy1p
          · rw [if_neg hkk] at hx; exact hL' k x hk (by omega) hx)
        (by
          intro k x hk hk' hx
          rw [g] at hx
          by_cases hkk : k = j1
          · rw [if_pos hkk] at hx; cases hx; exact hx1p
          · rw [if_neg hkk, if_neg (by omega)] at hx; exact hR' k x (by omega) hk' hx)
      exact ⟨r, i', pm', c', h1, h2, by omega, rr.trans h4, h5, h6, h7, h8⟩

/-- what `partitionPhase` guarantees -/
def PartOk (comp : α → α → Bool) (m : List α) (first last : Nat) : PartRes α → Prop
  | .sorted r => Rearr first last m r ∧ SortedAt comp r first last
  | .restart r i => Rearr first last m r ∧ first < i ∧ i < last ∧ ∃ q, AllP (fun x => comp x q = false) r first last ∧
      AllP (fun x => comp q x = false) r first i ∧ AllP (fun x => comp q x = true) r i last
  | .split r i _ => Rearr first last m r ∧ first < i ∧ i < last ∧ ∃ p, r[i]? = some p ∧
      AllP (fun x => comp x p = true) r first i ∧ AllP (fun x => comp x p = false) r i last

theorem partitionPhase_spec {comp : α → α → Bool} (hc : StrictWeak comp) (brk : Nat → Nat → Bool) (hbrk : ∀ i j, i ≠ j → brk i j = decide (j < i))
    (first last pm n : Nat) (m : List α) (u p w : α) (hl : last ≤ m.length) (h1 : first < pm) (h2 : pm < last - 1)
    (hu : m[first]? = some u) (hp : m[pm]? = some p) (hw : m[last - 1]? = some w) (hpu : comp p u = false) (hwp : comp w p = false) :
    ∃ r, partitionPhase brk comp m first last pm n = some r ∧ PartOk comp m first last r := by
  -- the common end: partition done up to the final swap
  have fin : ∀ (m1 : List α) (i pm1 n : Nat), Rearr first last m m1 → first < i → i < last → first ≤ pm1 → pm1 < last → m1[pm1]? = some p →
      AllP (fun x => comp x p = true) m1 first i → AllP (fun x => comp x p = false) m1 i last →
      ∃ r, (do
        let c ← if i ≠ pm1 then cmpAt comp m1 pm1 i else some false
        if c then do
          let m ← swp m1 i pm1
          some (.split m i (n + 1))
        else some (.split m1 i n)) = some r ∧ PartOk comp m first last r := by
    intro m1 i pm1 n rr hi hil hpm hpm' hp1 hL hR
    have hl1 : last ≤ m1.length := by rw [rr.len]; exact hl
    obtain ⟨x, hx⟩ := get_some (m := m1) (i := i) (by omega)
    have hxp := hR i x (Nat.le_refl _) hil hx
    have hipm : i ≤ pm1 := by
      by_contra hcon
      have : comp p p = true := hL pm1 p hpm (by omega) hp1
      rw [hc.irrefl] at this; cases this
    by_cases hipm' : i = pm1
    · subst hipm'
      rw [if_neg (by simp)]
      refine ⟨_, rfl, rr, hi, hil, p, hp1, hL, hR⟩
    · rw [if_pos hipm', cmpAt_some hp1 hx]
      cases hpx : comp p x with
      | false =>
        refine ⟨_, rfl, rr, hi, hil, x, hx, ?_, ?_⟩
        · exact fun k y hk hk' hy => hc.lt_of_lt_of_le (hL k y hk hk' hy) hxp
        · exact fun k y hk hk' hy => hc.le_trans hpx (hR k y hk hk' hy)
      | true =>
        have g := getElem?_swap hx hp1
        simp only [Option.bind_eq_bind, Option.bind_some, if_true, swp_some hx hp1]
        have r2 := set_swap_rearr (a := i) (b := last) hx hp1 (by omega) (by omega) (by omega) (by omega)
        refine ⟨_, rfl, rr.trans (r2.mono (by omega) (by omega)), hi, hil, p, by rw [g, if_neg hipm', if_pos rfl], ?_, ?_⟩
        · exact hL.rearr r2 hl1 (by omega) (.inr (.inl (Nat.le_refl _)))
        · exact hR.rearr r2 hl1 (by omega) (.inl ⟨Nat.le_refl _, Nat.le_refl _⟩)
  -- from the guarded state on
  have mid : ∀ (m1 : List α) (j n : Nat), Rearr first last m m1 → first < j → j < last → m1[pm]? = some p →
      AllP (fun x => comp x p = true) m1 first (first + 1) → AllP (fun x => comp x p = false) m1 j last →
      ∃ r, (do
        let (m, i, pm, n) ← if first + 1 < j then partLoop brk comp m1 (first + 1) j pm n else some (m1, first + 1, pm, n)
        let c ← if i ≠ pm then cmpAt comp m pm i else some false
        if c then do
          let m ← swp m i pm
          some (PartRes.split m i (n + 1))
        else some (PartRes.split m i n)) = some r ∧ PartOk comp m first last r := by
    intro m1 j n rr hj hjl hp1 hL hR
    by_cases hij : first + 1 < j
    · rw [if_pos hij]
      obtain ⟨r, i', pm', c', g1, g2, g3, g4, g5, g6, g7, g8, g9⟩ := partLoop_spec hc brk hbrk first last p _ m1 (first + 1) j pm n rfl (by omega) (by omega)
        hjl (by rw [rr.len]; exact hl) hp1 (by omega) (by omega) hL hR
      rw [g1]
      exact fin r i' pm' c' (rr.trans g4) g2 (by omega) g8 g9 g7 g5 g6
    · rw [if_neg hij]
      have : j = first + 1 := by omega
      subst this
      exact fin m1 (first + 1) pm n rr (by omega) (by omega) (by omega) (by omega) hp1 hL hR
  simp only [Option.bind_eq_bind] at mid
  unfold partitionPhase
  simp only [Option.bind_eq_bind]
  rw [cmpAt_some hu hp]
  simp only [Option.bind_some]
  cases hup : comp u p with
  | true =>
    simp only [if_true, Option.bind_some]
    apply mid m (last - 1) n (Rearr.refl ..) (by omega) (by omega) hp
    · intro k x hk hk' hx
      rw [show k = first by omega, hu] at hx; cases hx; exact hup
    · intro k x hk hk' hx
      rw [show k = last - 1 by omega, hw] at hx; cases hx; exact hwp
  | false =>
    simp only [Bool.false_eq_true, if_false]
    rcases findGuard_spec (test := fun k => cmpAt comp m k pm) (t := fun k => posLt comp m p k pm) _ first (last - 1) rfl (by omega)
      (fun k h1 h2 => cmpAt_eq (by omega) (by omega)) with ⟨e, g⟩ | ⟨j, e, g1, g2, g3, g4⟩
    · rw [e]
      simp only [Option.bind_some]
      have hmin : AllP (fun x => comp x u = false) m first last := by
        intro k x hk hk' hx
        have hxp : comp x p = false := by
          by_cases h1 : k = first
          · subst h1; rw [hu] at hx; cases hx; exact hup
          · by_cases h2 : k = last - 1
            · subst h2; rw [hw] at hx; cases hx; exact hwp
            · have := g k (by omega) (by omega)
              rwa [posLt_some hx hp] at this
        exact hc.le_trans hpu hxp
      rcases eqPath_spec hc first last u m (by omega) hl hu hmin with ⟨r, e2, q1, q2⟩ | ⟨r, i, e2, q1, q2, q3, q4, q5, q6⟩
      · rw [e2]
        exact ⟨_, rfl, q1, q2⟩
      · rw [e2]
        exact ⟨_, rfl, q3, q1, q2, u, q4, q5, q6⟩
    · obtain ⟨y, hy⟩ := get_some (m := m) (i := j) (by omega)
      have hyp : comp y p = true := by rwa [posLt_some hy hp] at g3
      rw [e]
      simp only [Option.bind_some, swp_some hu hy]
      have gg := getElem?_swap hu hy
      have hpj : pm ≠ j := by rintro rfl; rw [hp] at hy; cases hy; rw [hc.irrefl] at hyp; cases hyp
      apply mid _ j (n + 1) (set_swap_rearr hu hy (by omega) (by omega) (by omega) (by omega)) g1 (by omega)
      · rw [gg, if_neg hpj, if_neg (by omega), hp]
      · intro k x hk hk' hx
        rw [gg, if_neg (by omega), if_pos (by omega)] at hx; cases hx; exact hyp
      · intro k x hk hk' hx
        rw [gg] at hx
        by_cases hkj : k = j
        · rw [if_pos hkj] at hx; cases hx; exact hup
        · rw [if_neg hkj, if_neg (by omega)] at hx
          by_cases hkl : k = last - 1
          · subst hkl; rw [hw] at hx; cases hx; exact hwp
          · have := g4 k (by omega) (by omega)
            rwa [posLt_some hx hp] at this

end Sprout
