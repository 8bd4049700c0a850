import Verif.Model.Heap
import Verif.Spec.Heap

namespace Sprout
variable {α : Type}

/-- the element at `i` is not less than the element at `j` -/
def NLt (comp : α → α → Bool) (V : List α) (i j : Nat) : Prop :=
  ∀ x y, V[i]? = some x → V[j]? = some y → comp x y = false

/-- the block holds a heap at `first .. first+len-1` -/
def HeapAt (comp : α → α → Bool) (V : List α) (first len : Nat) : Prop :=
  ∀ i, 0 < i → i < len → NLt comp V (first + (i - 1) / 2) (first + i)

/-- heap except for the edges from `p` to its children -/
def HeapExDown (comp : α → α → Bool) (V : List α) (first len p : Nat) : Prop :=
  (∀ i, 0 < i → i < len → (i - 1) / 2 ≠ p → NLt comp V (first + (i - 1) / 2) (first + i)) ∧
  (∀ i, 0 < i → i < len → (i - 1) / 2 = p → 0 < p → NLt comp V (first + (p - 1) / 2) (first + i))

/-- heap except for the edge into `p` -/
def HeapExUp (comp : α → α → Bool) (V : List α) (first len p : Nat) : Prop :=
  (∀ i, 0 < i → i < len → i ≠ p → NLt comp V (first + (i - 1) / 2) (first + i)) ∧
  (∀ i, 0 < i → i < len → (i - 1) / 2 = p → 0 < p → NLt comp V (first + (p - 1) / 2) (first + i))

theorem getElem?_swap {V : List α} {i j : Nat} {x y : α} (hi : V[i]? = some x) (hj : V[j]? = some y) (k : Nat) :
    ((V.set i y).set j x)[k]? = if k = j then some x else if k = i then some y else V[k]? := by
  have h1 : i < V.length := by grind
  have h2 : j < V.length := by grind
  grind

theorem set_swap_rearr {V : List α} {i j a b : Nat} {x y : α} (hi : V[i]? = some x) (hj : V[j]? = some y)
    (hai : a ≤ i) (hib : i < b) (haj : a ≤ j) (hjb : j < b) : Rearr a b V ((V.set i y).set j x) := by
  have h1 : i < V.length := by grind
  have h2 : j < V.length := by grind
  have e1 : V[i] = x := by grind
  have e2 : V[j] = y := by grind
  have := swap_rearr h1 h2 hai hib haj hjb
  rw [e1, e2] at this; exact this

theorem pickChild_spec (comp : α → α → Bool) (hc : StrictWeak comp) (V : List α) (first len p : Nat)
    (hl : first + len ≤ V.length) (h : 2 * p + 2 ≤ len) :
    ∃ c, pickChild comp V first len (2 * p + 2) = some c ∧ c < len ∧ (c = 2 * p + 1 ∨ c = 2 * p + 2) ∧
      (∀ d, (d = 2 * p + 1 ∨ d = 2 * p + 2) → d < len → NLt comp V (first + c) (first + d)) := by
  unfold pickChild
  by_cases h2 : 2 * p + 2 = len
  · rw [if_pos h2]
    refine ⟨_, rfl, by omega, by omega, ?_⟩
    intro d hd hd'
    have : d = 2 * p + 2 - 1 := by omega
    subst this
    intro x y hx hy
    rw [hx] at hy; cases hy; exact hc.irrefl x
  · rw [if_neg h2, rd_eq (by omega), rd_eq (by omega)]
    simp only [Option.bind_eq_bind, Option.bind_some]
    have e : first + (2 * p + 2) - 1 = first + (2 * p + 1) := by omega
    by_cases h3 : comp (V[first + (2 * p + 2)]'(by omega)) (V[first + (2 * p + 2) - 1]'(by omega)) = true
    · rw [if_pos h3]
      refine ⟨_, rfl, by omega, by omega, ?_⟩
      rintro d (rfl | rfl) hd x y hx hy
      · have e2 : 2 * p + 2 - 1 = 2 * p + 1 := by omega
        rw [e2] at hx; rw [hx] at hy; cases hy; exact hc.irrefl x
      · have := hc.asymm h3
        rw [show first + (2 * p + 2 - 1) = first + (2 * p + 2) - 1 by omega] at hx
        rw [List.getElem?_eq_getElem (by omega)] at hx hy
        cases hx; cases hy; exact this
    · rw [if_neg h3]
      refine ⟨_, rfl, by omega, by omega, ?_⟩
      rintro d (rfl | rfl) hd x y hx hy
      · rw [show first + (2 * p + 1) = first + (2 * p + 2) - 1 by omega] at hy
        rw [List.getElem?_eq_getElem (by omega)] at hx hy
        cases hx; cases hy; simpa using h3
      · rw [hx] at hy; cases hy; exact hc.irrefl x

theorem heapExDown_swap {comp : α → α → Bool} (hc : StrictWeak comp) {V : List α} {first len p c : Nat} {t y : α}
    (hex : HeapExDown comp V first len p) (hp : V[first + p]? = some t) (hy : V[first + c]? = some y)
    (hcc : c = 2 * p + 1 ∨ c = 2 * p + 2) (hclen : c < len)
    (hmax : ∀ d, (d = 2 * p + 1 ∨ d = 2 * p + 2) → d < len → NLt comp V (first + c) (first + d))
    (hlt : comp t y = true) :
    HeapExDown comp ((V.set (first + p) y).set (first + c) t) first len c := by
  have hg := getElem?_swap hp hy
  constructor
  · intro i h0 h1 h2 x z hx hz
    rw [hg] at hx hz
    have hpc : p ≠ c := by omega
    by_cases hip : i = p
    · subst hip
      rw [if_neg (by omega), if_pos rfl] at hz
      rw [if_neg (by omega), if_neg (by omega)] at hx
      cases hz
      exact hex.2 c (by omega) hclen (by omega) h0 _ _ hx hy
    · by_cases hic : i = c
      · subst hic
        rw [if_pos rfl] at hz
        rw [if_neg (by omega), if_pos (by omega)] at hx
        cases hx; cases hz
        exact hc.asymm hlt
      · rw [if_neg (by omega), if_neg (by omega)] at hz
        rw [if_neg (by omega)] at hx
        by_cases hq : (i - 1) / 2 = p
        · rw [if_pos (by omega)] at hx
          cases hx
          exact hmax i (by omega) h1 _ _ hy hz
        · rw [if_neg (by omega)] at hx
          exact hex.1 i h0 h1 hq _ _ hx hz
  · intro i h0 h1 h2 h3 x z hx hz
    rw [hg] at hx hz
    rw [if_neg (by omega), if_pos (by omega)] at hx
    rw [if_neg (by omega), if_neg (by omega)] at hz
    cases hx
    have := hex.1 i h0 h1 (by omega)
    rw [h2] at this
    exact this _ _ hy hz

theorem heapExDown_done {comp : α → α → Bool} {V : List α} {first len p : Nat}
    (hex : HeapExDown comp V first len p)
    (h : ∀ i, 0 < i → i < len → (i - 1) / 2 = p → NLt comp V (first + p) (first + i)) : HeapAt comp V first len := by
  intro i h0 h1
  by_cases hq : (i - 1) / 2 = p
  · have := h i h0 h1 hq
    rwa [hq]
  · exact hex.1 i h0 h1 hq

theorem siftDownLoop_spec (comp : α → α → Bool) (hc : StrictWeak comp) (first len : Nat) (t : α) : ∀ (n : Nat) (m : List α) (p c : Nat),
    len - p = n → first + len ≤ m.length → p < len → c < len → (c = 2 * p + 1 ∨ c = 2 * p + 2) →
    HeapExDown comp (m.set (first + p) t) first len p →
    (∀ d, (d = 2 * p + 1 ∨ d = 2 * p + 2) → d < len → NLt comp (m.set (first + p) t) (first + c) (first + d)) →
    (∀ y, m[first + c]? = some y → comp t y = true) →
    ∃ r, siftDownLoop comp m first len t p c = some r ∧ Rearr first (first + len) (m.set (first + p) t) r ∧
      HeapAt comp r first len := by
  intro n
  induction n using Nat.strongRecOn with
  | ind n ih =>
    intro m p c hn hl hp hclen hcc hex hmax hlt
    rw [siftDownLoop]
    obtain ⟨y, hy⟩ : ∃ y, m[first + c]? = some y := ⟨_, List.getElem?_eq_getElem (by omega)⟩
    simp only [rd, hy, Option.bind_eq_bind, Option.bind_some]
    rw [wr_eq (by omega)]
    simp only [Option.bind_some]
    have hlt' := hlt y hy
    have hVp : (m.set (first + p) t)[first + p]? = some t := by rw [List.getElem?_set_self (by omega)]
    have hVc : (m.set (first + p) t)[first + c]? = some y := by rw [List.getElem?_set_ne (by omega)]; exact hy
    have hV' : ((m.set (first + p) t).set (first + p) y).set (first + c) t = (m.set (first + p) y).set (first + c) t := by
      rw [List.set_set]
    have hex' := heapExDown_swap hc hex hVp hVc hcc hclen hmax hlt'
    have hre := set_swap_rearr (a := first) (b := first + len) hVp hVc (by omega) (by omega) (by omega) (by omega)
    rw [hV'] at hex' hre
    by_cases hend : len < (c + 1) * 2
    · rw [if_pos hend, wr_eq (by simp; omega)]
      exact ⟨_, rfl, hre, heapExDown_done hex' (fun i h0 h1 h2 => by omega)⟩
    · rw [if_neg hend]
      rw [show (c + 1) * 2 = 2 * c + 2 by omega]
      obtain ⟨c', h1, h2, h3, h4⟩ := pickChild_spec comp hc (m.set (first + p) y) first len c (by simp; omega) (by omega)
      rw [h1]
      simp only [Option.bind_some]
      obtain ⟨z, hz⟩ : ∃ z, (m.set (first + p) y)[first + c']? = some z := ⟨_, List.getElem?_eq_getElem (by simp; omega)⟩
      rw [hz]
      simp only [Option.bind_some]
      have hmax' : ∀ d, (d = 2 * c + 1 ∨ d = 2 * c + 2) → d < len →
          NLt comp ((m.set (first + p) y).set (first + c) t) (first + c') (first + d) := by
        intro d hd hd' a b ha hb
        rw [List.getElem?_set_ne (by omega)] at ha hb
        exact h4 d hd hd' a b ha hb
      by_cases hcz : comp t z = true
      · rw [if_pos hcz]
        obtain ⟨r, h5, h6, h7⟩ := ih (len - c) (by omega) (m.set (first + p) y) c c' rfl (by simp; omega) hclen h2 h3 hex' hmax'
          (fun y' hy' => by rw [hz] at hy'; cases hy'; exact hcz)
        exact ⟨r, h5, hre.trans h6, h7⟩
      · rw [if_neg hcz, wr_eq (by simp; omega)]
        refine ⟨_, rfl, hre, heapExDown_done hex' ?_⟩
        intro i h0 h5 h6 a b ha hb
        rw [List.getElem?_set_self (by simp; omega)] at ha
        cases ha
        have hz' : ((m.set (first + p) y).set (first + c) t)[first + c']? = some z := by
          rw [List.getElem?_set_ne (by omega)]; exact hz
        have := hmax' i (by omega) h5 z b hz' hb
        exact hc.le_trans this (by simpa using hcz) |> fun h => h

theorem pushHeapFront_spec (comp : α → α → Bool) (hc : StrictWeak comp) (m : List α) (first len : Nat)
    (hl : first + len ≤ m.length) (hex : HeapExDown comp m first len 0) :
    ∃ r, pushHeapFront comp m first len = some r ∧ Rearr first (first + len) m r ∧ HeapAt comp r first len := by
  unfold pushHeapFront
  by_cases h1 : 1 < len
  · rw [if_pos h1]
    obtain ⟨c, h2, h3, h4, h5⟩ := pickChild_spec comp hc m first len 0 hl (by omega)
    simp only [Nat.mul_zero, Nat.zero_add] at h2
    rw [h2]
    obtain ⟨x, hx⟩ : ∃ x, m[first]? = some x := ⟨_, List.getElem?_eq_getElem (by omega)⟩
    obtain ⟨y, hy⟩ : ∃ y, m[first + c]? = some y := ⟨_, List.getElem?_eq_getElem (by omega)⟩
    simp only [rd, Option.bind_eq_bind, Option.bind_some, hx, hy]
    have hset : m.set (first + 0) x = m := by
      apply List.ext_getElem?; intro i; simp only [Nat.add_zero]; grind
    by_cases hxy : comp x y = true
    · rw [if_pos hxy]
      obtain ⟨r, h6, h7, h8⟩ := siftDownLoop_spec comp hc first len x _ m 0 c rfl hl (by omega) h3 h4
        (by rw [hset]; exact hex) (by rw [hset]; exact h5) (fun y' hy' => by rw [hy] at hy'; cases hy'; exact hxy)
      rw [hset] at h7
      exact ⟨r, h6, h7, h8⟩
    · rw [if_neg hxy]
      refine ⟨m, rfl, Rearr.refl .., heapExDown_done hex ?_⟩
      intro i h0 h6 h7 a b ha hb
      simp only [Nat.add_zero] at ha
      rw [hx] at ha; cases ha
      exact hc.le_trans (h5 i (by omega) h6 y b hy hb) (by simpa using hxy)
  · rw [if_neg h1]
    exact ⟨m, rfl, Rearr.refl .., fun i h0 h1' => by omega⟩

/-! ### sift up -/

theorem siftUpLoop_rearr (comp : α → α → Bool) (first b : Nat) (t : α) : ∀ (n : Nat) (m : List α) (hole : Nat),
    b ≤ m.length → first ≤ hole → hole < b → first + n < b → hole ≠ first + n →
    ∃ r, siftUpLoop comp m first t n hole = some r ∧ Rearr first b (m.set hole t) r := by
  intro n
  induction n using Nat.strongRecOn with
  | ind n ih =>
    intro m hole hb h1 h2 h3 h4
    rw [siftUpLoop]
    obtain ⟨x, hx⟩ : ∃ x, m[first + n]? = some x := ⟨_, List.getElem?_eq_getElem (by omega)⟩
    simp only [rd, hx, Option.bind_eq_bind, Option.bind_some]
    rw [wr_eq (by omega)]
    simp only [Option.bind_some]
    have hre := set_swap_rearr (V := m.set hole t) (i := hole) (j := first + n) (a := first) (b := b) (x := t) (y := x)
      (List.getElem?_set_self (by omega)) (by rw [List.getElem?_set_ne (by omega)]; exact hx) h1 h2 (by omega) h3
    rw [List.set_set] at hre
    by_cases hn : n = 0
    · rw [if_pos hn, wr_eq (by simp; omega)]
      exact ⟨_, rfl, hre⟩
    · rw [if_neg hn]
      obtain ⟨x', hx'⟩ : ∃ x', (m.set hole x)[first + (n - 1) / 2]? = some x' := ⟨_, List.getElem?_eq_getElem (by simp; omega)⟩
      rw [hx']
      simp only [Option.bind_some]
      by_cases hcx : comp x' t = true
      · rw [if_pos hcx]
        obtain ⟨r, h5, h6⟩ := ih ((n - 1) / 2) (by omega) (m.set hole x) (first + n) (by simp; omega) (by omega) h3 (by omega) (by omega)
        exact ⟨r, h5, hre.trans h6⟩
      · rw [if_neg hcx, wr_eq (by simp; omega)]
        exact ⟨_, rfl, hre⟩

theorem heapExUp_swap {comp : α → α → Bool} (hc : StrictWeak comp) {V : List α} {first len p q : Nat} {t y : α}
    (hex : HeapExUp comp V first len p) (hp : V[first + p]? = some t) (hy : V[first + q]? = some y)
    (hp0 : 0 < p) (hplen : p < len) (hq : q = (p - 1) / 2) (hlt : comp y t = true) :
    HeapExUp comp ((V.set (first + p) y).set (first + q) t) first len q := by
  have hg := getElem?_swap hp hy
  constructor
  · intro i h0 h1 h2 x z hx hz
    rw [hg] at hx hz
    by_cases hip : i = p
    · subst hip
      rw [if_pos (by omega)] at hx
      rw [if_neg (by omega), if_pos rfl] at hz
      cases hx; cases hz
      exact hc.asymm hlt
    · rw [if_neg (by omega), if_neg (by omega)] at hz
      by_cases hiq : (i - 1) / 2 = q
      · rw [if_pos (by omega)] at hx
        cases hx
        have := hex.1 i h0 h1 hip
        rw [hiq] at this
        have := this _ _ hy hz
        by_contra hcon
        rw [hc.trans y _ z hlt (by simpa using hcon)] at this
        cases this
      · rw [if_neg (by omega)] at hx
        by_cases hipp : (i - 1) / 2 = p
        · rw [if_pos (by omega)] at hx
          cases hx
          have := hex.2 i h0 h1 hipp hp0
          rw [← hq] at this
          exact this _ _ hy hz
        · rw [if_neg (by omega)] at hx
          exact hex.1 i h0 h1 hip _ _ hx hz
  · intro i h0 h1 h2 h3 x z hx hz
    rw [hg] at hx hz
    rw [if_neg (by omega), if_neg (by omega)] at hx
    have hq' := hex.1 q h3 (by omega) (by omega) _ _ hx hy
    by_cases hip : i = p
    · subst hip
      rw [if_neg (by omega), if_pos rfl] at hz
      cases hz
      exact hq'
    · rw [if_neg (by omega), if_neg (by omega)] at hz
      have := hex.1 i h0 h1 hip
      rw [h2] at this
      exact hc.le_trans (this _ _ hy hz) hq' |> fun h => h

theorem siftUpLoop_heap (comp : α → α → Bool) (hc : StrictWeak comp) (first len : Nat) (t : α) : ∀ (n : Nat) (m : List α) (p : Nat) (r : List α),
    first + len ≤ m.length → 0 < p → p < len → n = (p - 1) / 2 →
    HeapExUp comp (m.set (first + p) t) first len p → (∀ y, m[first + n]? = some y → comp y t = true) →
    siftUpLoop comp m first t n (first + p) = some r → HeapAt comp r first len := by
  intro n
  induction n using Nat.strongRecOn with
  | ind n ih =>
    intro m p r hl h0 h1 hn hex hlt hr
    rw [siftUpLoop] at hr
    obtain ⟨x, hx⟩ : ∃ x, m[first + n]? = some x := ⟨_, List.getElem?_eq_getElem (by omega)⟩
    simp only [rd, hx, Option.bind_eq_bind, Option.bind_some] at hr
    rw [wr_eq (by omega)] at hr
    simp only [Option.bind_some] at hr
    have hex' := heapExUp_swap hc hex (t := t) (y := x) (List.getElem?_set_self (by omega))
      (by rw [List.getElem?_set_ne (by omega)]; exact hx) h0 h1 hn (hlt x hx)
    rw [List.set_set] at hex'
    by_cases hn0 : n = 0
    · rw [if_pos hn0, wr_eq (by simp; omega)] at hr
      cases hr
      intro i h2 h3
      exact hex'.1 i h2 h3 (by omega)
    · rw [if_neg hn0] at hr
      obtain ⟨x', hx'⟩ : ∃ x', (m.set (first + p) x)[first + (n - 1) / 2]? = some x' := ⟨_, List.getElem?_eq_getElem (by simp; omega)⟩
      rw [hx'] at hr
      simp only [Option.bind_some] at hr
      by_cases hcx : comp x' t = true
      · rw [if_pos hcx] at hr
        exact ih ((n - 1) / 2) (by omega) (m.set (first + p) x) n r (by simp; omega) (by omega) (by omega) rfl hex'
          (fun y hy => by rw [hx'] at hy; cases hy; exact hcx) hr
      · rw [if_neg hcx, wr_eq (by simp; omega)] at hr
        cases hr
        intro i h2 h3
        by_cases hin : i = n
        · subst hin
          intro a b ha hb
          rw [List.getElem?_set_self (by simp; omega)] at hb
          rw [List.getElem?_set_ne (by omega), hx'] at ha
          cases ha; cases hb
          simpa using hcx
        · exact hex'.1 i h2 h3 hin

/-- `push_heap_back` always permutes `[first, last)` in bounds, whatever `len ≤ last - first` is passed. -/
theorem pushHeapBack_rearr (comp : α → α → Bool) (m : List α) (first last len : Nat)
    (hl : last ≤ m.length) (h1 : len ≤ last - first) :
    ∃ r, pushHeapBack comp m first last len = some r ∧ Rearr first last m r := by
  unfold pushHeapBack
  by_cases h : 1 < len
  · rw [if_pos h]
    have hne : ¬ last = 0 := by omega
    simp only [if_neg hne]
    obtain ⟨x, hx⟩ : ∃ x, m[first + (len - 2) / 2]? = some x := ⟨_, List.getElem?_eq_getElem (by omega)⟩
    obtain ⟨t, ht⟩ : ∃ t, m[last - 1]? = some t := ⟨_, List.getElem?_eq_getElem (by omega)⟩
    simp only [rd, Option.bind_eq_bind, Option.bind_some, hx, ht]
    have hset : m.set (last - 1) t = m := by apply List.ext_getElem?; intro i; grind
    by_cases hc : comp x t = true
    · rw [if_pos hc]
      obtain ⟨r, h2, h3⟩ := siftUpLoop_rearr comp first last t ((len - 2) / 2) m (last - 1) hl (by omega) (by omega) (by omega) (by omega)
      rw [hset] at h3
      exact ⟨r, h2, h3⟩
    · rw [if_neg hc]
      exact ⟨m, rfl, Rearr.refl ..⟩
  · rw [if_neg h]
    exact ⟨m, rfl, Rearr.refl ..⟩

theorem pushHeap_spec (comp : α → α → Bool) (hc : StrictWeak comp) (m : List α) (first len : Nat)
    (hl : first + len ≤ m.length) (hh : HeapAt comp m first (len - 1)) :
    ∃ r, pushHeap comp m first (first + len) = some r ∧ Rearr first (first + len) m r ∧ HeapAt comp r first len := by
  obtain ⟨r, h1, h2⟩ := pushHeapBack_rearr comp m first (first + len) len hl (by omega)
  unfold pushHeap
  rw [Nat.add_sub_cancel_left]
  refine ⟨r, h1, h2, ?_⟩
  unfold pushHeapBack at h1
  by_cases h : 1 < len
  · rw [if_pos h] at h1
    have hne : ¬ first + len = 0 := by omega
    simp only [if_neg hne] at h1
    obtain ⟨x, hx⟩ : ∃ x, m[first + (len - 2) / 2]? = some x := ⟨_, List.getElem?_eq_getElem (by omega)⟩
    obtain ⟨t, ht⟩ : ∃ t, m[first + len - 1]? = some t := ⟨_, List.getElem?_eq_getElem (by omega)⟩
    simp only [rd, Option.bind_eq_bind, Option.bind_some, hx, ht] at h1
    have e : first + len - 1 = first + (len - 1) := by omega
    have hset : m.set (first + (len - 1)) t = m := by apply List.ext_getElem?; intro i; grind
    by_cases hcx : comp x t = true
    · rw [if_pos hcx, e] at h1
      refine siftUpLoop_heap comp hc first len t _ m (len - 1) r hl (by omega) (by omega) (by omega) ?_
        (fun y hy => by rw [hx] at hy; cases hy; exact hcx) h1
      rw [hset]
      exact ⟨fun i h3 h4 h5 => hh i h3 (by omega), fun i h3 h4 h5 h6 => by omega⟩
    · rw [if_neg hcx] at h1
      cases h1
      intro i h3 h4
      by_cases hi : i = len - 1
      · subst hi
        intro a b ha hb
        rw [show (len - 1 - 1) / 2 = (len - 2) / 2 by omega, hx] at ha
        rw [← e, ht] at hb
        cases ha; cases hb
        simpa using hcx
      · exact hh i h3 (by omega)
  · intro i h3 h4; omega

theorem makeHeapLoop_rearr (comp : α → α → Bool) (first len : Nat) : ∀ (n : Nat) (m : List α) (i : Nat), len - i = n →
    first + len ≤ m.length →
    ∃ r, makeHeapLoop comp m first len i = some r ∧ Rearr first (first + len) m r := by
  intro n
  induction n with
  | zero => intro m i hn hl; rw [makeHeapLoop, if_neg (by omega)]; exact ⟨m, rfl, Rearr.refl ..⟩
  | succ n ih =>
    intro m i hn hl
    rw [makeHeapLoop, if_pos (by omega)]
    obtain ⟨r, h1, h2⟩ := pushHeapBack_rearr comp m first (first + i + 1) i (by omega) (by omega)
    rw [h1]
    simp only [Option.bind_eq_bind, Option.bind_some]
    obtain ⟨r', h3, h4⟩ := ih r (i + 1) (by omega) (by rw [h2.len]; exact hl)
    exact ⟨r', h3, (h2.mono (Nat.le_refl _) (by omega)).trans h4⟩

theorem makeHeap_rearr (comp : α → α → Bool) (m : List α) (first last : Nat) (h : first ≤ last) (hl : last ≤ m.length) :
    ∃ r, makeHeap comp m first last = some r ∧ Rearr first last m r := by
  unfold makeHeap
  split
  · have := makeHeapLoop_rearr comp first (last - first) _ m 1 rfl (by omega)
    rw [show first + (last - first) = last by omega] at this
    exact this
  · exact ⟨m, rfl, Rearr.refl ..⟩

/-! ### pop and sort -/

theorem HeapAt.root_max {comp : α → α → Bool} (hc : StrictWeak comp) {V : List α} {first len : Nat} (h : HeapAt comp V first len)
    (hl : first + len ≤ V.length) : ∀ i, i < len → NLt comp V first (first + i) := by
  intro i
  induction i using Nat.strongRecOn with
  | ind i ih =>
    intro hi x y hx hy
    by_cases h0 : i = 0
    · subst h0; rw [Nat.add_zero, hx] at hy; cases hy; exact hc.irrefl x
    · obtain ⟨z, hz⟩ : ∃ z, V[first + (i - 1) / 2]? = some z := ⟨_, List.getElem?_eq_getElem (by omega)⟩
      exact hc.le_trans (h i (by omega) hi z y hz hy) (ih ((i - 1) / 2) (by omega) (by omega) x z hx hz) |> fun h => h

theorem popHeapLen_spec (comp : α → α → Bool) (hc : StrictWeak comp) (m : List α) (first len : Nat)
    (hl : first + len ≤ m.length) (hlen : 1 < len) (hh : HeapAt comp m first len) :
    ∃ r, popHeapLen comp m first (first + len) len = some r ∧ Rearr first (first + len) m r ∧
      HeapAt comp r first (len - 1) ∧ r[first + len - 1]? = m[first]? := by
  unfold popHeapLen
  rw [if_pos hlen, swp_eq (by omega) (by omega)]
  simp only [Option.bind_eq_bind, Option.bind_some]
  have hx : m[first]? = some (m[first]'(by omega)) := List.getElem?_eq_getElem (by omega)
  have hy : m[first + len - 1]? = some (m[first + len - 1]'(by omega)) := List.getElem?_eq_getElem (by omega)
  have hg := getElem?_swap hx hy
  have hre := set_swap_rearr (a := first) (b := first + len) hx hy (by omega) (by omega) (by omega) (by omega)
  have hex : HeapExDown comp ((m.set first (m[first + len - 1]'(by omega))).set (first + len - 1) (m[first]'(by omega))) first (len - 1) 0 := by
    constructor
    · intro i h0 h1 h2 a b ha hb
      rw [hg, if_neg (by omega), if_neg (by omega)] at ha hb
      exact hh i h0 (by omega) a b ha hb
    · intro i h0 h1 h2 h3; omega
  obtain ⟨r, h1, h2, h3⟩ := pushHeapFront_spec comp hc _ first (len - 1) (by simp; omega) hex
  refine ⟨r, h1, hre.trans (h2.mono (Nat.le_refl _) (by omega)), h3, ?_⟩
  rw [h2.out _ (Or.inr (by omega)), hg, if_pos rfl, hx]

/-- sorted window -/
def SortedAt (comp : α → α → Bool) (V : List α) (a b : Nat) : Prop :=
  ∀ i j, a ≤ i → i < j → j < b → NLt comp V j i

theorem sortHeapLoop_spec (comp : α → α → Bool) (hc : StrictWeak comp) (first tot : Nat) : ∀ (len : Nat) (m : List α),
    len ≤ tot → first + tot ≤ m.length → HeapAt comp m first len → SortedAt comp m (first + len) (first + tot) →
    (∀ i j, first ≤ i → i < first + len → first + len ≤ j → j < first + tot → NLt comp m j i) →
    ∃ r, sortHeapLoop comp m first (first + len) len = some r ∧ Rearr first (first + tot) m r ∧
      SortedAt comp r first (first + tot) := by
  intro len
  induction len with
  | zero =>
    intro m h1 h2 h3 h4 h5
    rw [sortHeapLoop, if_neg (by omega)]
    exact ⟨m, rfl, Rearr.refl .., by simpa using h4⟩
  | succ len ih =>
    intro m h1 h2 h3 h4 h5
    rw [sortHeapLoop]
    by_cases hlen : 1 < len + 1
    · rw [if_pos hlen]
      obtain ⟨r, h6, h7, h8, h9⟩ := popHeapLen_spec comp hc m first (len + 1) (by omega) hlen h3
      rw [h6]
      simp only [Option.bind_eq_bind, Option.bind_some, Nat.add_sub_cancel]
      rw [show first + (len + 1) - 1 = first + len by omega] at h9 ⊢
      have hmax := h3.root_max hc (by omega)
      -- everything in the old heap is at most the old root
      have hall : ∀ i x, first ≤ i → i < first + (len + 1) → r[i]? = some x →
          ∀ y, r[first + len]? = some y → comp y x = false := by
        intro i x hi hi' hx y hy
        refine h7.forall_pos (P := fun x => comp y x = false) (by omega) (by omega) ?_ i x hi hi' hx
        intro j z hj hj' hz
        obtain ⟨k, rfl⟩ := Nat.exists_eq_add_of_le hj
        exact hmax k (by omega) y z (h9 ▸ hy) hz
      have hbig : ∀ i j, first ≤ i → i < first + (len + 1) → first + (len + 1) ≤ j → j < first + tot → NLt comp r j i := by
        intro i j hi hi' hj hj' a b ha hb
        rw [h7.out j (Or.inr (by omega))] at ha
        refine h7.forall_pos (P := fun x => comp a x = false) (by omega) (by omega) ?_ i b hi hi' hb
        intro k z hk hk' hz
        exact h5 k j hk hk' hj hj' a z ha hz
      obtain ⟨r', h10, h11, h12⟩ := ih r (by omega) (by rw [h7.len]; exact h2) (by simpa using h8)
        (by
          intro i j hi hij hj a b ha hb
          rcases Nat.lt_or_ge i (first + (len + 1)) with h | h
          · exact hbig i j (by omega) h (by omega) hj a b ha hb
          · rw [h7.out j (Or.inr (by omega))] at ha
            rw [h7.out i (Or.inr (by omega))] at hb
            exact h4 i j h hij hj a b ha hb)
        (by
          intro i j hi hi' hj hj' a b ha hb
          rcases Nat.lt_or_ge j (first + (len + 1)) with h | h
          · have : j = first + len := by omega
            subst this
            exact hall i b hi (by omega) hb a ha
          · exact hbig i j hi (by omega) h hj' a b ha hb)
      exact ⟨r', h10, (h7.mono (Nat.le_refl _) (by omega)).trans h11, h12⟩
    · rw [if_neg hlen]
      refine ⟨m, rfl, Rearr.refl .., ?_⟩
      intro i j hi hij hj
      rcases Nat.lt_or_ge i (first + (len + 1)) with h | h
      · exact h5 i j hi h (by omega) hj
      · exact h4 i j h hij hj

theorem sortHeap_spec (comp : α → α → Bool) (hc : StrictWeak comp) (m : List α) (first len : Nat)
    (hl : first + len ≤ m.length) (hh : HeapAt comp m first len) :
    ∃ r, sortHeap comp m first (first + len) = some r ∧ Rearr first (first + len) m r ∧
      SortedAt comp r first (first + len) := by
  unfold sortHeap
  rw [Nat.add_sub_cancel_left]
  exact sortHeapLoop_spec comp hc first len len m (Nat.le_refl _) hl hh (fun i j h1 h2 h3 => by omega) (fun i j h1 h2 h3 h4 => by omega)

/-! ### partial_sort -/

theorem heapExDown_replace {comp : α → α → Bool} {m : List α} {first len : Nat} {x : α} (hh : HeapAt comp m first len) :
    HeapExDown comp (m.set first x) first len 0 := by
  constructor
  · intro i h0 h1 h2 a b ha hb
    rw [List.getElem?_set_ne (by omega)] at ha hb
    exact hh i h0 h1 a b ha hb
  · intro i h0 h1 h2 h3; omega

theorem partialSortLoop_spec (comp : α → α → Bool) (hc : StrictWeak comp) (first len last : Nat) (hpos : 0 < len) : ∀ (n : Nat) (m : List α) (i : Nat),
    last - i = n → first + len ≤ i → i ≤ last → last ≤ m.length → HeapAt comp m first len →
    (∀ j, first + len ≤ j → j < i → NLt comp m j first) →
    ∃ r, partialSortLoop comp m first len i last = some r ∧ Rearr first last m r ∧ HeapAt comp r first len ∧
      (∀ j, first + len ≤ j → j < last → NLt comp r j first) := by
  intro n
  induction n with
  | zero =>
    intro m i hn h1 h2 h3 h4 h5
    rw [partialSortLoop, if_pos (by omega)]
    exact ⟨m, rfl, Rearr.refl .., h4, fun j h6 h7 => h5 j h6 (by omega)⟩
  | succ n ih =>
    intro m i hn h1 h2 h3 h4 h5
    rw [partialSortLoop, if_neg (by omega)]
    obtain ⟨x, hx⟩ : ∃ x, m[i]? = some x := ⟨_, List.getElem?_eq_getElem (by omega)⟩
    obtain ⟨y, hy⟩ : ∃ y, m[first]? = some y := ⟨_, List.getElem?_eq_getElem (by omega)⟩
    simp only [rd, hx, hy, Option.bind_eq_bind, Option.bind_some]
    by_cases hxy : comp x y = true
    · rw [if_pos hxy, swp_eq (by omega) (by omega)]
      simp only [Option.bind_some]
      have e1 : m[i]'(by omega) = x := by grind
      have e2 : m[first]'(by omega) = y := by grind
      rw [e1, e2]
      have hre := set_swap_rearr (a := first) (b := last) hx hy (by omega) (by omega) (by omega) (by omega)
      have hg := getElem?_swap hx hy
      have hex : HeapExDown comp ((m.set i y).set first x) first len 0 := by
        apply heapExDown_replace
        intro j h6 h7 a b ha hb
        rw [List.getElem?_set_ne (by omega)] at ha hb
        exact h4 j h6 h7 a b ha hb
      obtain ⟨r, h6, h7, h8⟩ := pushHeapFront_spec comp hc _ first len (by simp; omega) hex
      rw [h6]
      simp only [Option.bind_some]
      -- the root never exceeds the old root
      have hroot : ∀ z, r[first]? = some z → comp y z = false := by
        intro z hz
        refine h7.forall_pos (P := fun z => comp y z = false) (by simp; omega) (by omega) ?_ first z (Nat.le_refl _) (by omega) hz
        intro j w hj hj' hw
        rw [hg] at hw
        by_cases hjf : j = first
        · rw [if_pos hjf] at hw; cases hw; exact hc.asymm hxy
        · rw [if_neg hjf, if_neg (by omega)] at hw
          obtain ⟨k, rfl⟩ := Nat.exists_eq_add_of_le hj
          exact h4.root_max hc (by omega) k (by omega) y w hy hw
      obtain ⟨r', h9, h10, h11, h12⟩ := ih r (i + 1) (by omega) (by omega) (by omega) (by rw [h7.len]; simp; omega) h8
        (by
          intro j hj hj' a b ha hb
          rw [h7.out j (Or.inr hj), hg, if_neg (by omega)] at ha
          by_cases hji : j = i
          · rw [if_pos hji] at ha; cases ha; exact hroot b hb
          · rw [if_neg hji] at ha
            have := h5 j hj (by omega) a y ha hy
            exact hc.le_trans (hroot b hb) this |> fun h => h)
      exact ⟨r', h9, (hre.trans (h7.mono (Nat.le_refl _) (by omega))).trans h10, h11, h12⟩
    · rw [if_neg hxy]
      exact ih m (i + 1) (by omega) (by omega) (by omega) h3 h4 (fun j hj hj' a b ha hb => by
        by_cases hji : j = i
        · subst hji; rw [hx] at ha; rw [hy] at hb; cases ha; cases hb; simpa using hxy
        · exact h5 j hj (by omega) a b ha hb)

/-! ### unconditional facts: every heap routine permutes its range in bounds, heap or not -/

theorem pickChild_bounds (comp : α → α → Bool) (V : List α) (first len p : Nat)
    (hl : first + len ≤ V.length) (h : 2 * p + 2 ≤ len) :
    ∃ c, pickChild comp V first len (2 * p + 2) = some c ∧ c < len ∧ (c = 2 * p + 1 ∨ c = 2 * p + 2) := by
  unfold pickChild
  by_cases h2 : 2 * p + 2 = len
  · rw [if_pos h2]
    exact ⟨_, rfl, by omega, by omega⟩
  · rw [if_neg h2, rd_eq (by omega), rd_eq (by omega)]
    simp only [Option.bind_eq_bind, Option.bind_some]
    split
    · exact ⟨_, rfl, by omega, by omega⟩
    · exact ⟨_, rfl, by omega, by omega⟩

theorem siftDownLoop_rearr (comp : α → α → Bool) (first len : Nat) (t : α) : ∀ (n : Nat) (m : List α) (p c : Nat),
    len - p = n → first + len ≤ m.length → p < len → c < len → p < c →
    ∃ r, siftDownLoop comp m first len t p c = some r ∧ Rearr first (first + len) (m.set (first + p) t) r := by
  intro n
  induction n using Nat.strongRecOn with
  | ind n ih =>
    intro m p c hn hl hp hclen hpc
    rw [siftDownLoop]
    obtain ⟨y, hy⟩ : ∃ y, m[first + c]? = some y := ⟨_, List.getElem?_eq_getElem (by omega)⟩
    simp only [rd, hy, Option.bind_eq_bind, Option.bind_some]
    rw [wr_eq (by omega)]
    simp only [Option.bind_some]
    have hVp : (m.set (first + p) t)[first + p]? = some t := by rw [List.getElem?_set_self (by omega)]
    have hVc : (m.set (first + p) t)[first + c]? = some y := by rw [List.getElem?_set_ne (by omega)]; exact hy
    have hre := set_swap_rearr (a := first) (b := first + len) hVp hVc (by omega) (by omega) (by omega) (by omega)
    rw [List.set_set] at hre
    by_cases hend : len < (c + 1) * 2
    · rw [if_pos hend, wr_eq (by simp; omega)]
      exact ⟨_, rfl, hre⟩
    · rw [if_neg hend]
      rw [show (c + 1) * 2 = 2 * c + 2 by omega]
      obtain ⟨c', h1, h2, h3⟩ := pickChild_bounds comp (m.set (first + p) y) first len c (by simp; omega) (by omega)
      rw [h1]
      simp only [Option.bind_some]
      obtain ⟨z, hz⟩ : ∃ z, (m.set (first + p) y)[first + c']? = some z := ⟨_, List.getElem?_eq_getElem (by simp; omega)⟩
      rw [hz]
      simp only [Option.bind_some]
      by_cases hcz : comp t z = true
      · rw [if_pos hcz]
        obtain ⟨r, h5, h6⟩ := ih (len - c) (by omega) (m.set (first + p) y) c c' rfl (by simp; omega) hclen h2 (by omega)
        exact ⟨r, h5, hre.trans h6⟩
      · rw [if_neg hcz, wr_eq (by simp; omega)]
        exact ⟨_, rfl, hre⟩

theorem pushHeapFront_rearr (comp : α → α → Bool) (m : List α) (first len : Nat) (hl : first + len ≤ m.length) :
    ∃ r, pushHeapFront comp m first len = some r ∧ Rearr first (first + len) m r := by
  unfold pushHeapFront
  by_cases h1 : 1 < len
  · rw [if_pos h1]
    obtain ⟨c, h2, h3, h4⟩ := pickChild_bounds comp m first len 0 hl (by omega)
    simp only [Nat.mul_zero, Nat.zero_add] at h2
    rw [h2]
    obtain ⟨x, hx⟩ : ∃ x, m[first]? = some x := ⟨_, List.getElem?_eq_getElem (by omega)⟩
    obtain ⟨y, hy⟩ : ∃ y, m[first + c]? = some y := ⟨_, List.getElem?_eq_getElem (by omega)⟩
    simp only [rd, Option.bind_eq_bind, Option.bind_some, hx, hy]
    have hset : m.set (first + 0) x = m := by
      apply List.ext_getElem?; intro i; simp only [Nat.add_zero]; grind
    by_cases hxy : comp x y = true
    · rw [if_pos hxy]
      obtain ⟨r, h6, h7⟩ := siftDownLoop_rearr comp first len x _ m 0 c rfl hl (by omega) h3 (by omega)
      rw [hset] at h7
      exact ⟨r, h6, h7⟩
    · rw [if_neg hxy]
      exact ⟨m, rfl, Rearr.refl ..⟩
  · rw [if_neg h1]
    exact ⟨m, rfl, Rearr.refl ..⟩

theorem popHeapLen_rearr (comp : α → α → Bool) (m : List α) (first len : Nat) (hl : first + len ≤ m.length) :
    ∃ r, popHeapLen comp m first (first + len) len = some r ∧ Rearr first (first + len) m r := by
  unfold popHeapLen
  split
  · rw [swp_eq (by omega) (by omega)]
    simp only [Option.bind_eq_bind, Option.bind_some]
    have hre := swap_rearr (m := m) (i := first) (j := first + len - 1) (a := first) (b := first + len) (by omega) (by omega)
      (by omega) (by omega) (by omega) (by omega)
    obtain ⟨r, h1, h2⟩ := pushHeapFront_rearr comp _ first (len - 1) (by rw [hre.len]; omega)
    exact ⟨r, h1, hre.trans (h2.mono (Nat.le_refl _) (by omega))⟩
  · exact ⟨m, rfl, Rearr.refl ..⟩

theorem sortHeapLoop_rearr (comp : α → α → Bool) (first : Nat) : ∀ (len : Nat) (m : List α), first + len ≤ m.length →
    ∃ r, sortHeapLoop comp m first (first + len) len = some r ∧ Rearr first (first + len) m r := by
  intro len
  induction len with
  | zero => intro m h; rw [sortHeapLoop, if_neg (by omega)]; exact ⟨m, rfl, Rearr.refl ..⟩
  | succ len ih =>
    intro m h
    rw [sortHeapLoop]
    split
    · obtain ⟨r, h1, h2⟩ := popHeapLen_rearr comp m first (len + 1) h
      rw [h1]
      simp only [Option.bind_eq_bind, Option.bind_some, Nat.add_sub_cancel]
      rw [show first + (len + 1) - 1 = first + len by omega]
      obtain ⟨r', h3, h4⟩ := ih r (by rw [h2.len]; omega)
      exact ⟨r', h3, h2.trans (h4.mono (Nat.le_refl _) (by omega))⟩
    · exact ⟨m, rfl, Rearr.refl ..⟩

theorem sortHeap_rearr (comp : α → α → Bool) (m : List α) (first len : Nat) (hl : first + len ≤ m.length) :
    ∃ r, sortHeap comp m first (first + len) = some r ∧ Rearr first (first + len) m r := by
  unfold sortHeap
  rw [Nat.add_sub_cancel_left]
  exact sortHeapLoop_rearr comp first len m hl

theorem partialSortLoop_rearr (comp : α → α → Bool) (first len last : Nat) : ∀ (n : Nat) (m : List α) (i : Nat),
    last - i = n → first + len ≤ i → i ≤ last → last ≤ m.length →
    ∃ r, partialSortLoop comp m first len i last = some r ∧ Rearr first last m r := by
  intro n
  induction n with
  | zero =>
    intro m i hn h1 h2 h3
    rw [partialSortLoop, if_pos (by omega)]
    exact ⟨m, rfl, Rearr.refl ..⟩
  | succ n ih =>
    intro m i hn h1 h2 h3
    rw [partialSortLoop, if_neg (by omega)]
    obtain ⟨x, hx⟩ : ∃ x, m[i]? = some x := ⟨_, List.getElem?_eq_getElem (by omega)⟩
    obtain ⟨y, hy⟩ : ∃ y, m[first]? = some y := ⟨_, List.getElem?_eq_getElem (by omega)⟩
    simp only [rd, hx, hy, Option.bind_eq_bind, Option.bind_some]
    by_cases hxy : comp x y = true
    · rw [if_pos hxy, swp_eq (by omega) (by omega)]
      simp only [Option.bind_some]
      have hre := swap_rearr (m := m) (i := i) (j := first) (a := first) (b := last) (by omega) (by omega)
        (by omega) (by omega) (by omega) (by omega)
      obtain ⟨r, h6, h7⟩ := pushHeapFront_rearr comp ((m.set i m[first]).set first m[i]) first len (by rw [hre.len]; omega)
      rw [h6]
      simp only [Option.bind_some]
      obtain ⟨r', h9, h10⟩ := ih r (i + 1) (by omega) (by omega) (by omega) (by rw [h7.len]; simp; omega)
      exact ⟨r', h9, (hre.trans (h7.mono (Nat.le_refl _) (by omega))).trans h10⟩
    · rw [if_neg hxy]
      exact ih m (i + 1) (by omega) (by omega) (by omega) h3

theorem partialSort_rearr (comp : α → α → Bool) (m : List α) (first middle last : Nat) (h1 : first ≤ middle)
    (h2 : middle ≤ last) (h3 : last ≤ m.length) :
    ∃ r, partialSort comp m first middle last = some r ∧ Rearr first last m r := by
  unfold partialSort
  obtain ⟨r, h4, h5⟩ := makeHeap_rearr comp m first middle h1 (by omega)
  rw [h4]
  simp only [Option.bind_eq_bind, Option.bind_some]
  obtain ⟨r', h6, h7⟩ := partialSortLoop_rearr comp first (middle - first) last _ r middle rfl (by omega) h2 (by rw [h5.len]; exact h3)
  rw [h6]
  simp only [Option.bind_some]
  obtain ⟨r'', h8, h9⟩ := sortHeap_rearr comp r' first (middle - first) (by rw [h7.len, h5.len]; omega)
  rw [show first + (middle - first) = middle by omega] at h8 h9
  exact ⟨r'', h8, ((h5.mono (Nat.le_refl _) h2).trans h7).trans (h9.mono (Nat.le_refl _) h2)⟩

/-- `partial_sort` is right whenever its call of `make_heap` yields a heap. -/
theorem partialSort_spec (comp : α → α → Bool) (hc : StrictWeak comp) (m : List α) (first middle last : Nat)
    (h1 : first ≤ middle) (h2 : middle ≤ last) (h3 : last ≤ m.length)
    (hmk : ∀ r, makeHeap comp m first middle = some r → HeapAt comp r first (middle - first)) :
    ∃ r, partialSort comp m first middle last = some r ∧ Rearr first last m r ∧
      SortedAt comp r first middle ∧ (∀ i j, first ≤ i → i < middle → middle ≤ j → j < last → NLt comp r j i) := by
  by_cases hmid : first = middle
  · subst hmid
    obtain ⟨r, h4, h5⟩ := partialSort_rearr comp m first first last h1 h2 h3
    exact ⟨r, h4, h5, fun i j a b c => by omega, fun i j a b c d => by omega⟩
  · unfold partialSort
    obtain ⟨r, h4, h5⟩ := makeHeap_rearr comp m first middle h1 (by omega)
    rw [h4]
    simp only [Option.bind_eq_bind, Option.bind_some]
    have hh := hmk r h4
    obtain ⟨r', h6, h7, h8, h9⟩ := partialSortLoop_spec comp hc first (middle - first) last (by omega) _ r middle rfl
      (by omega) h2 (by rw [h5.len]; exact h3) hh (fun j a b => by omega)
    rw [h6]
    simp only [Option.bind_some]
    obtain ⟨r'', h10, h11, h12⟩ := sortHeap_spec comp hc r' first (middle - first) (by rw [h7.len, h5.len]; omega) h8
    rw [show first + (middle - first) = middle by omega] at h9 h10 h11 h12
    refine ⟨r'', h10, ((h5.mono (Nat.le_refl _) h2).trans h7).trans (h11.mono (Nat.le_refl _) h2), h12, ?_⟩
    intro i j hi hi' hj hj' a b ha hb
    rw [h11.out j (Or.inr hj)] at ha
    have hl : r'.length = m.length := by rw [h7.len, h5.len]
    refine h11.forall_pos (P := fun x => comp a x = false) (by omega) h1 ?_ i b hi hi' hb
    intro k z hk hk' hz
    obtain ⟨d, rfl⟩ := Nat.exists_eq_add_of_le hk
    obtain ⟨w, hw⟩ : ∃ w, r'[first]? = some w := ⟨_, List.getElem?_eq_getElem (by omega)⟩
    exact hc.le_trans (h8.root_max hc (by omega) d (by omega) w z hw hz) (h9 j hj hj' a w ha hw) |> fun h => h

/-! ### bridging to list segments -/

theorem seg_get (pre xs post : List α) (i : Nat) (h : i < xs.length) :
    (pre ++ xs ++ post)[pre.length + i]? = some xs[i] := by
  rw [List.append_assoc, List.getElem?_append_right (by omega), Nat.add_sub_cancel_left,
    List.getElem?_append_left h, List.getElem?_eq_getElem h]

theorem heapAt_segment {comp : α → α → Bool} {pre xs post : List α} :
    HeapAt comp (pre ++ xs ++ post) pre.length xs.length ↔ Spec.IsHeap comp xs := by
  constructor
  · intro h i h0 hi
    exact h i h0 hi _ _ (seg_get pre xs post _ (by omega)) (seg_get pre xs post i hi)
  · intro h i h0 hi x y hx hy
    rw [seg_get pre xs post _ (by omega)] at hx
    rw [seg_get pre xs post _ hi] at hy
    cases hx; cases hy
    exact h i h0 hi

theorem heapAt_prefix {comp : α → α → Bool} {pre xs ys post : List α} :
    HeapAt comp (pre ++ (xs ++ ys) ++ post) pre.length xs.length ↔ Spec.IsHeap comp xs := by
  have := heapAt_segment (comp := comp) (pre := pre) (xs := xs) (post := ys ++ post)
  simpa using this

theorem sortedAt_segment {comp : α → α → Bool} {pre xs post : List α} :
    SortedAt comp (pre ++ xs ++ post) pre.length (pre.length + xs.length) ↔ SortedBy comp xs := by
  unfold SortedBy
  rw [List.pairwise_iff_getElem]
  constructor
  · intro h i j hi hj hij
    exact h (pre.length + i) (pre.length + j) (by omega) (by omega) (by omega) _ _
      (seg_get pre xs post j hj) (seg_get pre xs post i hi)
  · intro h i j hi hij hj x y hx hy
    obtain ⟨a, rfl⟩ := Nat.exists_eq_add_of_le hi
    obtain ⟨b, rfl⟩ := Nat.exists_eq_add_of_le (show pre.length ≤ j by omega)
    rw [seg_get pre xs post b (by omega)] at hx
    rw [seg_get pre xs post a (by omega)] at hy
    cases hx; cases hy
    exact h a b (by omega) (by omega) (by omega)

/-- a non-increasing window is left alone by `make_heap` -/
theorem makeHeap_descending (comp : α → α → Bool) (m : List α) (first last : Nat) (hl : last ≤ m.length)
    (hd : ∀ i j, first ≤ i → i < j → j < last → NLt comp m i j) : makeHeap comp m first last = some m := by
  have hloop : ∀ (n i : Nat), last - first - i = n → 1 ≤ i → makeHeapLoop comp m first (last - first) i = some m := by
    intro n
    induction n with
    | zero => intro i h _; rw [makeHeapLoop, if_neg (by omega)]
    | succ n ih =>
      intro i h h1
      rw [makeHeapLoop, if_pos (by omega)]
      have : pushHeapBack comp m first (first + i + 1) i = some m := by
        unfold pushHeapBack
        split
        · rename_i hi
          have hne : ¬ first + i + 1 = 0 := by omega
          simp only [if_neg hne]
          obtain ⟨x, hx⟩ : ∃ x, m[first + (i - 2) / 2]? = some x := ⟨_, List.getElem?_eq_getElem (by omega)⟩
          obtain ⟨t, ht⟩ : ∃ t, m[first + i + 1 - 1]? = some t := ⟨_, List.getElem?_eq_getElem (by omega)⟩
          simp only [rd, hx, ht, Option.bind_eq_bind, Option.bind_some]
          have := hd (first + (i - 2) / 2) (first + i + 1 - 1) (by omega) (by omega) (by omega) x t hx ht
          simp [this]
        · rfl
      rw [this]
      exact ih (i + 1) (by omega) (by omega)
  unfold makeHeap
  split
  · exact hloop _ 1 rfl (Nat.le_refl _)
  · rfl

/-! ### partial_sort_copy -/

theorem partialSortCopyFill_spec : ∀ (src pre R old post : List α),
    ∃ done rest old', partialSortCopyFill (pre ++ (R ++ old) ++ post) (pre.length + R.length) (pre.length + R.length + old.length) src
      = some (pre ++ (R ++ done ++ old') ++ post, rest, pre.length + R.length + done.length) ∧ src = done ++ rest ∧
        done.length + old'.length = old.length ∧ (rest = [] ∨ old' = []) := by
  intro src
  induction src with
  | nil => intro pre R old post; exact ⟨[], [], old, by simp [partialSortCopyFill], rfl, by simp, Or.inl rfl⟩
  | cons x src ih =>
    intro pre R old post
    rw [partialSortCopyFill]
    rcases old with _ | ⟨o, old⟩
    · rw [if_pos (by simp)]
      exact ⟨[], x :: src, [], by simp, rfl, rfl, Or.inr rfl⟩
    · rw [if_neg (by simp)]
      have hw : wr (pre ++ (R ++ o :: old) ++ post) (pre.length + R.length) x = some (pre ++ (R ++ [x] ++ old) ++ post) := by
        rw [wr_eq (by simp)]
        congr 1
        rw [show pre ++ (R ++ o :: old) ++ post = (pre ++ R) ++ o :: (old ++ post) by simp,
          List.set_append_right _ _ (by simp)]
        simp
      rw [hw]
      simp only [Option.bind_eq_bind, Option.bind_some]
      obtain ⟨done, rest, old', h1, h2, h3, h4⟩ := ih pre (R ++ [x]) old post
      refine ⟨x :: done, rest, old', ?_, by simp [h2], by simp; omega, h4⟩
      simp only [List.length_append, List.length_cons, List.length_nil] at h1 ⊢
      rw [show pre.length + R.length + 1 = pre.length + (R.length + (0 + 1)) by omega,
        show pre.length + R.length + (old.length + 1) = pre.length + (R.length + (0 + 1)) + old.length by omega, h1]
      simp; omega

theorem partialSortCopyRest_spec (comp : α → α → Bool) (hc : StrictWeak comp) : ∀ (src pre R post D : List α), R ≠ [] →
    Spec.IsHeap comp R → (∀ d ∈ D, ∀ x ∈ R, comp d x = false) →
    ∃ R' D', partialSortCopyRest comp (pre ++ R ++ post) pre.length R.length src = some (pre ++ R' ++ post) ∧
      R'.length = R.length ∧ Spec.IsHeap comp R' ∧ (R' ++ D').Perm (R ++ D ++ src) ∧ (∀ d ∈ D', ∀ x ∈ R', comp d x = false) := by
  intro src
  induction src with
  | nil =>
    intro pre R post D h0 h1 h2
    exact ⟨R, D, rfl, rfl, h1, by simp, h2⟩
  | cons x src ih =>
    intro pre R post D h0 h1 h2
    rw [partialSortCopyRest]
    obtain ⟨y, R0, rfl⟩ := List.exists_cons_of_ne_nil h0
    have hmaxR : ∀ z ∈ y :: R0, comp y z = false := by
      have hr := (heapAt_segment (pre := []) (post := []) |>.mpr h1).root_max hc (by simp)
      intro z hz
      obtain ⟨i, hi, rfl⟩ := List.getElem_of_mem hz
      exact hr i (by simpa using hi) y _ (by simp) (by simp)
    have hrd : rd (pre ++ y :: R0 ++ post) pre.length = some y := by simp [rd]
    rw [hrd]
    simp only [Option.bind_eq_bind, Option.bind_some]
    by_cases hxy : comp x y = true
    · rw [if_pos hxy]
      have hw : wr (pre ++ y :: R0 ++ post) pre.length x = some (pre ++ x :: R0 ++ post) := by
        rw [wr_eq (by simp)]; simp
      rw [hw]
      simp only [Option.bind_some]
      have hex : HeapExDown comp (pre ++ x :: R0 ++ post) pre.length (y :: R0).length 0 := by
        have := heapExDown_replace (x := x) (heapAt_segment (pre := pre) (post := post) |>.mpr h1)
        simpa using this
      obtain ⟨r, h3, h4, h5⟩ := pushHeapFront_spec comp hc _ pre.length (y :: R0).length (by simp) hex
      rw [h3]
      simp only [Option.bind_some]
      have h4' : Rearr pre.length (pre.length + (x :: R0).length) (pre ++ x :: R0 ++ post) r := by simpa using h4
      obtain ⟨R1, rfl, hp⟩ := h4'.segment
      have hlen : R1.length = (y :: R0).length := by rw [hp.length_eq]; simp
      have hh1 : Spec.IsHeap comp R1 := by
        rw [← hlen] at h5; exact heapAt_segment.mp h5
      have hne : R1 ≠ [] := by rintro rfl; simp at hlen
      obtain ⟨R', D', h6, h7, h8, h9, h10⟩ := ih pre R1 post (y :: D) hne hh1 (by
        intro d hd z hz
        have hz' := hp.mem_iff.mp hz
        have hyz : comp y z = false := by
          rcases List.mem_cons.mp hz' with rfl | hz'
          · exact hc.asymm hxy
          · exact hmaxR z (by simp [hz'])
        rcases List.mem_cons.mp hd with rfl | hd
        · exact hyz
        · exact hc.le_trans hyz (h2 d hd y (by simp)))
      rw [hlen] at h6
      refine ⟨R', D', h6, by omega, h8, h9.trans ?_, h10⟩
      have e1 : (R1 ++ y :: D ++ src).Perm (x :: R0 ++ y :: D ++ src) := (hp.append_right _).append_right _
      refine e1.trans ?_
      simp only [List.cons_append, List.append_assoc]
      have e2 : (x :: (R0 ++ (y :: (D ++ src)))).Perm (x :: (y :: (R0 ++ (D ++ src)))) := List.Perm.cons x List.perm_middle
      refine e2.trans ((List.Perm.swap ..).trans (List.Perm.cons y ?_))
      have := (List.perm_middle (a := x) (l₁ := R0 ++ D) (l₂ := src)).symm
      simpa using this
    · rw [if_neg hxy]
      obtain ⟨R', D', h6, h7, h8, h9, h10⟩ := ih pre (y :: R0) post (x :: D) h0 h1 (by
        intro d hd z hz
        rcases List.mem_cons.mp hd with rfl | hd
        · exact hc.le_trans (hmaxR z hz) (by simpa using hxy)
        · exact h2 d hd z hz)
      refine ⟨R', D', h6, h7, h8, h9.trans ?_, h10⟩
      have := (List.perm_middle (a := x) (l₁ := y :: R0 ++ D) (l₂ := src)).symm
      have e3 : (y :: R0 ++ x :: D ++ src).Perm (y :: R0 ++ D ++ x :: src) := by
        refine List.Perm.trans ?_ this
        simp only [List.cons_append, List.append_assoc]
        exact (List.Perm.cons y List.perm_middle).trans (List.Perm.swap ..)
      exact e3

end Sprout
