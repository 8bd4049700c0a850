import Verif.Model.Sort
import Verif.Proofs.MinMax

namespace Sprout
variable {α : Type}

/-! ## small helpers -/

theorem cmpAt_some {comp : α → α → Bool} {m : List α} {i j : Nat} {x y : α} (hi : m[i]? = some x) (hj : m[j]? = some y) :
    cmpAt comp m i j = some (comp x y) := by
  simp [cmpAt, rd, hi, hj]

theorem swp_some {m : List α} {i j : Nat} {x y : α} (hi : m[i]? = some x) (hj : m[j]? = some y) :
    swp m i j = some ((m.set i y).set j x) := by
  have h1 : i < m.length := by grind
  have h2 : j < m.length := by grind
  rw [swp_eq h1 h2]
  grind

theorem get_some {m : List α} {i : Nat} (h : i < m.length) : ∃ x, m[i]? = some x := ⟨m[i], by simp [h]⟩

/-- all elements at positions `[a, b)` satisfy `Q` -/
def AllP (Q : α → Prop) (V : List α) (a b : Nat) : Prop := ∀ k x, a ≤ k → k < b → V[k]? = some x → Q x

theorem AllP.rearr {Q : α → Prop} {V V' : List α} {a b c d : Nat} (h : AllP Q V a b) (hr : Rearr c d V V') (hd : d ≤ V.length) (hcd : c ≤ d)
    (h1 : a ≤ c ∧ d ≤ b ∨ b ≤ c ∨ d ≤ a) : AllP Q V' a b := by
  intro k x hk hk' hx
  by_cases hin : c ≤ k ∧ k < d
  · rcases h1 with h1 | h1
    · obtain ⟨j, g1, g2, g3⟩ := hr.exists_pos hd hcd hin.1 hin.2 hx
      exact h j x (by omega) (by omega) g3
    · omega
  · rw [hr.out k (by omega)] at hx
    exact h k x hk hk' hx

theorem SortedAt.rearr_out {comp : α → α → Bool} {V V' : List α} {a b c d : Nat} (h : SortedAt comp V a b) (hr : Rearr c d V V')
    (h1 : b ≤ c ∨ d ≤ a) : SortedAt comp V' a b := by
  intro i j hi hij hj x y hx hy
  rw [hr.out _ (by omega)] at hx hy
  exact h i j hi hij hj x y hx hy

theorem SortedAt.glue {comp : α → α → Bool} {V : List α} {a c b : Nat} (h1 : SortedAt comp V a c) (h2 : SortedAt comp V c b)
    (h3 : ∀ i j, a ≤ i → i < c → c ≤ j → j < b → NLt comp V j i) : SortedAt comp V a b := by
  intro i j hi hij hj
  by_cases h : j < c
  · exact h1 i j hi hij h
  · by_cases h' : i < c
    · exact h3 i j hi h' (by omega) hj
    · exact h2 i j (by omega) hij hj

theorem SortedAt.trivial {comp : α → α → Bool} {V : List α} {a b : Nat} (h : b ≤ a + 1) : SortedAt comp V a b := by
  intro i j hi hij hj; omega

/-! ## sort3, sort4, sort5 -/

theorem sort3_spec {comp : α → α → Bool} (hc : StrictWeak comp) {m : List α} {x y z a b : Nat} {u v w : α}
    (hx : m[x]? = some u) (hy : m[y]? = some v) (hz : m[z]? = some w) (hxy : x ≠ y) (hxz : x ≠ z) (hyz : y ≠ z)
    (ha : a ≤ x ∧ a ≤ y ∧ a ≤ z) (hb : x < b ∧ y < b ∧ z < b) :
    ∃ r n u' v' w', sort3 comp m x y z = some (r, n) ∧ r[x]? = some u' ∧ r[y]? = some v' ∧ r[z]? = some w' ∧
      comp v' u' = false ∧ comp w' v' = false ∧ Rearr a b m r ∧ (∀ k, k ≠ x → k ≠ y → k ≠ z → r[k]? = m[k]?) := by
  obtain ⟨ha1, ha2, ha3⟩ := ha
  obtain ⟨hb1, hb2, hb3⟩ := hb
  unfold sort3
  rw [cmpAt_some hy hx, cmpAt_some hz hy]
  cases hvu : comp v u with
  | false =>
    cases hwv : comp w v with
    | false => exact ⟨m, 0, u, v, w, rfl, hx, hy, hz, hvu, hwv, Rearr.refl .., fun _ _ _ _ => rfl⟩
    | true =>
      have g := getElem?_swap hy hz
      have r1 := set_swap_rearr (a := a) (b := b) hy hz ha2 hb2 ha3 hb3
      simp only [Option.bind_eq_bind, Option.bind_some, Bool.not_false, Bool.not_true, if_true, swp_some hy hz]
      have hx' : ((m.set y w).set z v)[x]? = some u := by rw [g, if_neg hxz, if_neg hxy, hx]
      have hy' : ((m.set y w).set z v)[y]? = some w := by rw [g, if_neg hyz, if_pos rfl]
      have hz' : ((m.set y w).set z v)[z]? = some v := by rw [g, if_pos rfl]
      rw [cmpAt_some hy' hx']
      cases hwu : comp w u with
      | false =>
        exact ⟨_, 1, u, w, v, rfl, hx', hy', hz', hwu, hc.asymm hwv, r1, fun k h1 h2 h3 => by rw [g, if_neg h3, if_neg h2]⟩
      | true =>
        have g2 := getElem?_swap hx' hy'
        simp only [Option.bind_some, if_true, swp_some hx' hy']
        refine ⟨_, 2, w, u, v, rfl, by rw [g2, if_neg hxy, if_pos rfl], by rw [g2, if_pos rfl],
          by rw [g2, if_neg (Ne.symm hyz), if_neg (Ne.symm hxz), hz'], hc.asymm hwu, hvu,
          r1.trans (set_swap_rearr hx' hy' ha1 hb1 ha2 hb2), fun k h1 h2 h3 => by rw [g2, if_neg h2, if_neg h1, g, if_neg h3, if_neg h2]⟩
  | true =>
    cases hwv : comp w v with
    | true =>
      have g := getElem?_swap hx hz
      simp only [Option.bind_eq_bind, Option.bind_some, Bool.not_true, if_true, swp_some hx hz]
      exact ⟨_, 1, w, v, u, rfl, by rw [g, if_neg hxz, if_pos rfl], by rw [g, if_neg hyz, if_neg (Ne.symm hxy), hy],
        by rw [g, if_pos rfl], hc.asymm hwv, hc.asymm hvu, set_swap_rearr hx hz ha1 hb1 ha3 hb3,
        fun k h1 h2 h3 => by rw [g, if_neg h3, if_neg h1]⟩
    | false =>
      have g := getElem?_swap hx hy
      have r1 := set_swap_rearr (a := a) (b := b) hx hy ha1 hb1 ha2 hb2
      simp only [Option.bind_eq_bind, Option.bind_some, Bool.not_true, swp_some hx hy]
      have hx' : ((m.set x v).set y u)[x]? = some v := by rw [g, if_neg hxy, if_pos rfl]
      have hy' : ((m.set x v).set y u)[y]? = some u := by rw [g, if_pos rfl]
      have hz' : ((m.set x v).set y u)[z]? = some w := by rw [g, if_neg (Ne.symm hyz), if_neg (Ne.symm hxz), hz]
      rw [cmpAt_some hz' hy']
      cases hwu : comp w u with
      | false =>
        exact ⟨_, 1, v, u, w, rfl, hx', hy', hz', hc.asymm hvu, hwu, r1, fun k h1 h2 h3 => by rw [g, if_neg h2, if_neg h1]⟩
      | true =>
        have g2 := getElem?_swap hy' hz'
        simp only [Option.bind_some, if_true, swp_some hy' hz']
        refine ⟨_, 2, v, w, u, rfl, by rw [g2, if_neg hxz, if_neg hxy, hx'], by rw [g2, if_neg hyz, if_pos rfl],
          by rw [g2, if_pos rfl], hwv, hc.asymm hwu, r1.trans (set_swap_rearr hy' hz' ha2 hb2 ha3 hb3),
          fun k h1 h2 h3 => by rw [g2, if_neg h3, if_neg h2, g, if_neg h2, if_neg h1]⟩

theorem sort4_spec {comp : α → α → Bool} (hc : StrictWeak comp) {m : List α} {x1 x2 x3 x4 a b : Nat} {u v w t : α}
    (h1 : m[x1]? = some u) (h2 : m[x2]? = some v) (h3 : m[x3]? = some w) (h4 : m[x4]? = some t)
    (h12 : x1 < x2) (h23 : x2 < x3) (h34 : x3 < x4) (ha : a ≤ x1) (hb : x4 < b) :
    ∃ r n u' v' w' t', sort4 comp m x1 x2 x3 x4 = some (r, n) ∧ r[x1]? = some u' ∧ r[x2]? = some v' ∧ r[x3]? = some w' ∧
      r[x4]? = some t' ∧ comp v' u' = false ∧ comp w' v' = false ∧ comp t' w' = false ∧ Rearr a b m r ∧
      (∀ k, k ≠ x1 → k ≠ x2 → k ≠ x3 → k ≠ x4 → r[k]? = m[k]?) := by
  obtain ⟨m1, n, u, v, w, e, g1, g2, g3, c1, c2, rr, ho⟩ := sort3_spec (a := a) (b := b) hc h1 h2 h3 (by omega) (by omega) (by omega)
    ⟨by omega, by omega, by omega⟩ ⟨by omega, by omega, by omega⟩
  have g4 : m1[x4]? = some t := by rw [ho x4 (by omega) (by omega) (by omega), h4]
  unfold sort4
  rw [e]
  simp only [Option.bind_eq_bind, Option.bind_some]
  rw [cmpAt_some g4 g3]
  cases htw : comp t w with
  | false =>
    exact ⟨m1, n, u, v, w, t, rfl, g1, g2, g3, g4, c1, c2, htw, rr, fun k k1 k2 k3 _ => ho k k1 k2 k3⟩
  | true =>
    have s := getElem?_swap g3 g4
    simp only [Option.bind_some, if_true, swp_some g3 g4]
    have i1 : ((m1.set x3 t).set x4 w)[x1]? = some u := by rw [s, if_neg (by omega), if_neg (by omega), g1]
    have i2 : ((m1.set x3 t).set x4 w)[x2]? = some v := by rw [s, if_neg (by omega), if_neg (by omega), g2]
    have i3 : ((m1.set x3 t).set x4 w)[x3]? = some t := by rw [s, if_neg (by omega), if_pos rfl]
    have i4 : ((m1.set x3 t).set x4 w)[x4]? = some w := by rw [s, if_pos rfl]
    have ri := rr.trans (set_swap_rearr g3 g4 (by omega) (by omega) (by omega) (by omega))
    have hoi : ∀ k, k ≠ x1 → k ≠ x2 → k ≠ x3 → k ≠ x4 → ((m1.set x3 t).set x4 w)[k]? = m[k]? := fun k k1 k2 k3 k4 => by
      rw [s, if_neg k4, if_neg k3, ho k k1 k2 k3]
    rw [cmpAt_some i3 i2]
    generalize (m1.set x3 t).set x4 w = m2 at *
    cases htv : comp t v with
    | false => exact ⟨_, _, u, v, t, w, rfl, i1, i2, i3, i4, c1, htv, hc.asymm htw, ri, hoi⟩
    | true =>
      have s2 := getElem?_swap i2 i3
      simp only [Option.bind_some, if_true, swp_some i2 i3]
      have j1 : ((m2.set x2 t).set x3 v)[x1]? = some u := by rw [s2, if_neg (by omega), if_neg (by omega), i1]
      have j2 : ((m2.set x2 t).set x3 v)[x2]? = some t := by rw [s2, if_neg (by omega), if_pos rfl]
      have j3 : ((m2.set x2 t).set x3 v)[x3]? = some v := by rw [s2, if_pos rfl]
      have j4 : ((m2.set x2 t).set x3 v)[x4]? = some w := by rw [s2, if_neg (by omega), if_neg (by omega), i4]
      have rj := ri.trans (set_swap_rearr i2 i3 (by omega) (by omega) (by omega) (by omega))
      have hoj : ∀ k, k ≠ x1 → k ≠ x2 → k ≠ x3 → k ≠ x4 → ((m2.set x2 t).set x3 v)[k]? = m[k]? := fun k k1 k2 k3 k4 => by
        rw [s2, if_neg k3, if_neg k2, hoi k k1 k2 k3 k4]
      rw [cmpAt_some j2 j1]
      generalize (m2.set x2 t).set x3 v = m3 at *
      cases htu : comp t u with
      | false => exact ⟨_, _, u, t, v, w, rfl, j1, j2, j3, j4, htu, hc.asymm htv, c2, rj, hoj⟩
      | true =>
        have s3 := getElem?_swap j1 j2
        simp only [Option.bind_some, if_true, swp_some j1 j2]
        exact ⟨_, _, t, u, v, w, rfl, by rw [s3, if_neg (by omega), if_pos rfl], by rw [s3, if_pos rfl],
          by rw [s3, if_neg (by omega), if_neg (by omega), j3], by rw [s3, if_neg (by omega), if_neg (by omega), j4],
          hc.asymm htu, c1, c2, rj.trans (set_swap_rearr j1 j2 (by omega) (by omega) (by omega) (by omega)),
          fun k k1 k2 k3 k4 => by rw [s3, if_neg k2, if_neg k1, hoj k k1 k2 k3 k4]⟩

theorem sort5_spec {comp : α → α → Bool} (hc : StrictWeak comp) {m : List α} {x1 x2 x3 x4 x5 a b : Nat} {u v w t q : α}
    (h1 : m[x1]? = some u) (h2 : m[x2]? = some v) (h3 : m[x3]? = some w) (h4 : m[x4]? = some t) (h5 : m[x5]? = some q)
    (h12 : x1 < x2) (h23 : x2 < x3) (h34 : x3 < x4) (h45 : x4 < x5) (ha : a ≤ x1) (hb : x5 < b) :
    ∃ r n u' v' w' t' q', sort5 comp m x1 x2 x3 x4 x5 = some (r, n) ∧ r[x1]? = some u' ∧ r[x2]? = some v' ∧ r[x3]? = some w' ∧
      r[x4]? = some t' ∧ r[x5]? = some q' ∧ comp v' u' = false ∧ comp w' v' = false ∧ comp t' w' = false ∧ comp q' t' = false ∧
      Rearr a b m r := by
  obtain ⟨m1, n, u, v, w, t, e, g1, g2, g3, g4, c1, c2, c3, rr, ho⟩ := sort4_spec (a := a) (b := b) hc h1 h2 h3 h4
    h12 h23 h34 ha (by omega)
  have g5 : m1[x5]? = some q := by rw [ho x5 (by omega) (by omega) (by omega) (by omega), h5]
  unfold sort5
  rw [e]
  simp only [Option.bind_eq_bind, Option.bind_some]
  rw [cmpAt_some g5 g4]
  cases hqt : comp q t with
  | false =>
    exact ⟨m1, n, u, v, w, t, q, rfl, g1, g2, g3, g4, g5, c1, c2, c3, hqt, rr⟩
  | true =>
    have s := getElem?_swap g4 g5
    simp only [Option.bind_some, if_true, swp_some g4 g5]
    have i1 : ((m1.set x4 q).set x5 t)[x1]? = some u := by rw [s, if_neg (by omega), if_neg (by omega), g1]
    have i2 : ((m1.set x4 q).set x5 t)[x2]? = some v := by rw [s, if_neg (by omega), if_neg (by omega), g2]
    have i3 : ((m1.set x4 q).set x5 t)[x3]? = some w := by rw [s, if_neg (by omega), if_neg (by omega), g3]
    have i4 : ((m1.set x4 q).set x5 t)[x4]? = some q := by rw [s, if_neg (by omega), if_pos rfl]
    have i5 : ((m1.set x4 q).set x5 t)[x5]? = some t := by rw [s, if_pos rfl]
    have ri := rr.trans (set_swap_rearr g4 g5 (by omega) (by omega) (by omega) (by omega))
    rw [cmpAt_some i4 i3]
    generalize (m1.set x4 q).set x5 t = m2 at *
    cases hqw : comp q w with
    | false => exact ⟨_, _, u, v, w, q, t, rfl, i1, i2, i3, i4, i5, c1, c2, hqw, hc.asymm hqt, ri⟩
    | true =>
      have s2 := getElem?_swap i3 i4
      simp only [Option.bind_some, if_true, swp_some i3 i4]
      have j1 : ((m2.set x3 q).set x4 w)[x1]? = some u := by rw [s2, if_neg (by omega), if_neg (by omega), i1]
      have j2 : ((m2.set x3 q).set x4 w)[x2]? = some v := by rw [s2, if_neg (by omega), if_neg (by omega), i2]
      have j3 : ((m2.set x3 q).set x4 w)[x3]? = some q := by rw [s2, if_neg (by omega), if_pos rfl]
      have j4 : ((m2.set x3 q).set x4 w)[x4]? = some w := by rw [s2, if_pos rfl]
      have j5 : ((m2.set x3 q).set x4 w)[x5]? = some t := by rw [s2, if_neg (by omega), if_neg (by omega), i5]
      have rj := ri.trans (set_swap_rearr i3 i4 (by omega) (by omega) (by omega) (by omega))
      rw [cmpAt_some j3 j2]
      generalize (m2.set x3 q).set x4 w = m3 at *
      cases hqv : comp q v with
      | false => exact ⟨_, _, u, v, q, w, t, rfl, j1, j2, j3, j4, j5, c1, hqv, hc.asymm hqw, c3, rj⟩
      | true =>
        have s3 := getElem?_swap j2 j3
        simp only [Option.bind_some, if_true, swp_some j2 j3]
        have k1 : ((m3.set x2 q).set x3 v)[x1]? = some u := by rw [s3, if_neg (by omega), if_neg (by omega), j1]
        have k2 : ((m3.set x2 q).set x3 v)[x2]? = some q := by rw [s3, if_neg (by omega), if_pos rfl]
        have k3 : ((m3.set x2 q).set x3 v)[x3]? = some v := by rw [s3, if_pos rfl]
        have k4 : ((m3.set x2 q).set x3 v)[x4]? = some w := by rw [s3, if_neg (by omega), if_neg (by omega), j4]
        have k5 : ((m3.set x2 q).set x3 v)[x5]? = some t := by rw [s3, if_neg (by omega), if_neg (by omega), j5]
        have rk := rj.trans (set_swap_rearr j2 j3 (by omega) (by omega) (by omega) (by omega))
        rw [cmpAt_some k2 k1]
        generalize (m3.set x2 q).set x3 v = m4 at *
        cases hqu : comp q u with
        | false => exact ⟨_, _, u, q, v, w, t, rfl, k1, k2, k3, k4, k5, hqu, hc.asymm hqv, c2, c3, rk⟩
        | true =>
          have s4 := getElem?_swap k1 k2
          simp only [Option.bind_some, if_true, swp_some k1 k2]
          exact ⟨_, _, q, u, v, w, t, rfl, by rw [s4, if_neg (by omega), if_pos rfl], by rw [s4, if_pos rfl],
            by rw [s4, if_neg (by omega), if_neg (by omega), k3], by rw [s4, if_neg (by omega), if_neg (by omega), k4],
            by rw [s4, if_neg (by omega), if_neg (by omega), k5],
            hc.asymm hqu, c1, c2, c3, rk.trans (set_swap_rearr k1 k2 (by omega) (by omega) (by omega) (by omega))⟩

/-! ## insertion -/

/-- adjacent order suffices for `SortedAt` -/
theorem sortedAt_of_adj {comp : α → α → Bool} (hc : StrictWeak comp) {V : List α} {a b : Nat} (hb : b ≤ V.length)
    (h : ∀ i, a ≤ i → i + 1 < b → NLt comp V (i + 1) i) : SortedAt comp V a b := by
  intro i j hi hij hj
  induction j with
  | zero => omega
  | succ j ih =>
    by_cases hji : i = j
    · subst hji; exact h i hi hj
    · intro x y hx hy
      obtain ⟨z, hz⟩ := get_some (m := V) (i := j) (by omega)
      exact hc.le_trans (ih (by omega) (by omega) z y hz hy) (h j (by omega) hj x z hx hz)

theorem insertDo_spec {comp : α → α → Bool} (hc : StrictWeak comp) (first e : Nat) (t : α) : ∀ (k : Nat) (m : List α) (y : α),
    first ≤ k → k + 1 < e → e ≤ m.length → m[k]? = some y → comp t y = true →
    SortedAt comp m first (k + 1) → SortedAt comp m (k + 2) e →
    (∀ i j, first ≤ i → i < k + 1 → k + 2 ≤ j → j < e → NLt comp m j i) →
    (∀ j z, k + 2 ≤ j → j < e → m[j]? = some z → comp z t = false) →
    ∃ r, insertDo comp m first t (k + 1) k = some r ∧ Rearr first e (m.set (k + 1) t) r ∧ SortedAt comp r first e := by
  intro k
  induction k with
  | zero =>
    intro m y hk hke hel hy hlt hs1 hs2 hb ht
    have hf : first = 0 := by omega
    subst hf
    rw [insertDo]
    have hl : 0 < m.length := by omega
    simp only [rd, hy, Option.bind_eq_bind, Option.bind_some]
    rw [wr_eq (by omega)]
    simp only [Option.bind_some, if_true]
    rw [wr_eq (by simp; omega)]
    refine ⟨_, rfl, ?_, ?_⟩
    · have h1 : (m.set (0 + 1) t)[0 + 1]? = some t := List.getElem?_set_self (by omega)
      have h0 : (m.set (0 + 1) t)[0]? = some y := by simpa using hy
      have := set_swap_rearr (a := 0) (b := e) h1 h0 (by omega) (by omega) (by omega) (by omega)
      simpa using this
    · apply sortedAt_of_adj hc (by simp; omega)
      intro i _ hi x z hx hz
      rcases Nat.lt_trichotomy i 1 with h | h | h
      · have : i = 0 := by omega
        subst this
        have e1 : y = x := by simpa [show 1 < m.length by omega] using hx
        have e2 : t = z := by simpa [show 0 < m.length by omega] using hz
        subst e1 e2; exact hc.asymm hlt
      · subst h
        have e2 : y = z := by simpa [show 1 < m.length by omega] using hz
        have e1 : m[2]? = some x := by simpa using hx
        subst e2
        exact hb 0 2 (by omega) (by omega) (by omega) (by omega) x y e1 hy
      · have e1 : m[i + 1]? = some x := by grind
        have e2 : m[i]? = some z := by grind
        exact hs2 i (i + 1) (by omega) (by omega) (by omega) x z e1 e2
  | succ k ih =>
    intro m y hk hke hel hy hlt hs1 hs2 hb ht
    rw [insertDo]
    simp only [rd, hy, Option.bind_eq_bind, Option.bind_some]
    rw [wr_eq (by omega)]
    simp only [Option.bind_some]
    have hrr : Rearr first e (m.set (k + 1 + 1) t) ((m.set (k + 1 + 1) y).set (k + 1) t) := by
      have h1 : (m.set (k + 1 + 1) t)[k + 1 + 1]? = some t := List.getElem?_set_self (by omega)
      have h0 : (m.set (k + 1 + 1) t)[k + 1]? = some y := by rw [List.getElem?_set_ne (by omega)]; exact hy
      have := set_swap_rearr (a := first) (b := e) h1 h0 (by omega) (by omega) (by omega) (by omega)
      simpa using this
    by_cases hkf : k + 1 = first
    · rw [if_pos hkf, wr_eq (by simp; omega)]
      refine ⟨_, rfl, hrr, ?_⟩
      apply sortedAt_of_adj hc (by simp; omega)
      intro i hi0 hi x z hx hz
      rcases Nat.lt_trichotomy i (k + 2) with h | h | h
      · have : i = k + 1 := by omega
        subst this
        have e1 : y = x := by grind
        have e2 : t = z := by grind
        subst e1 e2; exact hc.asymm hlt
      · subst h
        have e2 : y = z := by grind
        have e1 : m[k + 3]? = some x := by grind
        subst e2
        exact hb (k + 1) (k + 3) (by omega) (by omega) (by omega) (by omega) x y e1 hy
      · have e1 : m[i + 1]? = some x := by grind
        have e2 : m[i]? = some z := by grind
        exact hs2 i (i + 1) (by omega) (by omega) (by omega) x z e1 e2
    · rw [if_neg hkf, if_neg (by omega)]
      obtain ⟨w, hw⟩ := get_some (m := m) (i := k) (by omega)
      have hw' : (m.set (k + 1 + 1) y)[k]? = some w := by grind
      simp only [Nat.add_sub_cancel, hw', Option.bind_some]
      by_cases htw : comp t w = true
      · rw [if_pos htw]
        suffices ∃ r, insertDo comp (m.set (k + 1 + 1) y) first t (k + 1) k = some r ∧
            Rearr first e ((m.set (k + 1 + 1) y).set (k + 1) t) r ∧ SortedAt comp r first e by
          obtain ⟨r, g1, g2, g3⟩ := this
          exact ⟨r, g1, hrr.trans g2, g3⟩
        refine ih (m.set (k + 1 + 1) y) w (by omega) (by omega) (by rw [List.length_set]; omega) hw' htw ?_ ?_ ?_ ?_
        · intro i j hi hij hj x z hx hz
          rw [List.getElem?_set_ne (by omega)] at hx hz
          exact hs1 i j hi hij (by omega) x z hx hz
        · intro i j hi hij hj x z hx hz
          rw [List.getElem?_set_ne (by omega)] at hx
          by_cases hi2 : i = k + 1 + 1
          · subst hi2
            have : y = z := by grind
            subst this
            exact hb (k + 1) j (by omega) (by omega) (by omega) hj x y hx hy
          · rw [List.getElem?_set_ne (by omega)] at hz
            exact hs2 i j (by omega) hij hj x z hx hz
        · intro i j hi hi' hj hj' x z hx hz
          rw [List.getElem?_set_ne (by omega)] at hz
          by_cases hj2 : j = k + 1 + 1
          · subst hj2
            have : y = x := by grind
            subst this
            exact hs1 i (k + 1) hi (by omega) (by omega) y z hy hz
          · rw [List.getElem?_set_ne (by omega)] at hx
            exact hb i j hi (by omega) (by omega) hj' x z hx hz
        · intro j z hj hj' hz
          by_cases hj2 : j = k + 1 + 1
          · subst hj2
            have : y = z := by grind
            subst this
            exact hc.asymm hlt
          · rw [List.getElem?_set_ne (by omega)] at hz
            exact ht j z (by omega) hj' hz
      · rw [if_neg htw, wr_eq (by simp; omega)]
        rw [Bool.not_eq_true] at htw
        refine ⟨_, rfl, hrr, ?_⟩
        apply sortedAt_of_adj hc (by simp; omega)
        intro i hi0 hi x z hx hz
        rcases Nat.lt_trichotomy i (k + 2) with h | h | h
        · by_cases hik : i = k + 1
          · subst hik
            have e1 : y = x := by grind
            have e2 : t = z := by grind
            subst e1 e2; exact hc.asymm hlt
          · by_cases hik' : i = k
            · subst hik'
              have e1 : t = x := by grind
              have e2 : w = z := by grind
              subst e1 e2; exact htw
            · have e1 : m[i + 1]? = some x := by grind
              have e2 : m[i]? = some z := by grind
              exact hs1 i (i + 1) hi0 (by omega) (by omega) x z e1 e2
        · subst h
          have e2 : y = z := by grind
          have e1 : m[k + 3]? = some x := by grind
          subst e2
          exact hb (k + 1) (k + 3) (by omega) (by omega) (by omega) (by omega) x y e1 hy
        · have e1 : m[i + 1]? = some x := by grind
          have e2 : m[i]? = some z := by grind
          exact hs2 i (i + 1) (by omega) (by omega) (by omega) x z e1 e2

/-- inserting the element at `i` into the sorted `[first, i)`, when it is less than its predecessor -/
theorem insertDo_at {comp : α → α → Bool} (hc : StrictWeak comp) {m : List α} {first i : Nat} {t y : α}
    (hi : first < i) (ht : m[i]? = some t) (hy : m[i - 1]? = some y) (hlt : comp t y = true) (hs : SortedAt comp m first i) :
    ∃ r, insertDo comp m first t i (i - 1) = some r ∧ Rearr first (i + 1) m r ∧ SortedAt comp r first (i + 1) := by
  have hil : i < m.length := by grind
  obtain ⟨r, h1, h2, h3⟩ := insertDo_spec hc first (i + 1) t (i - 1) m y (by omega) (by omega) (by omega) hy hlt
    (by rw [show i - 1 + 1 = i by omega]; exact hs) (.trivial (by omega)) (by intros; omega) (by intros; omega)
  rw [show i - 1 + 1 = i by omega] at h1 h2
  rw [show m.set i t = m by apply List.ext_getElem? ; intro n; by_cases hn : n = i <;> grind] at h2
  exact ⟨r, h1, h2, h3⟩

/-- extending by one element that is not less than its predecessor -/
theorem SortedAt.extend {comp : α → α → Bool} (hc : StrictWeak comp) {V : List α} {a i : Nat} (hi : a < i)
    (h : SortedAt comp V a i) (hl : NLt comp V i (i - 1)) (hil : i < V.length) : SortedAt comp V a (i + 1) := by
  apply sortedAt_of_adj hc (by omega)
  intro k hk hk'
  by_cases h1 : k + 1 = i
  · subst h1; exact hl
  · exact h k (k + 1) hk (by omega) (by omega)

end Sprout
