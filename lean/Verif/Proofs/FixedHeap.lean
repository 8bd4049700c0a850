import Verif.Spec.Heap
import Mathlib.Data.List.Perm.Basic

/-! # Heaps in lists, by subtrees -/

namespace Sprout.FixedAlg

variable {α : Type}

/-- `j` lies in the subtree of `n` -/
inductive Desc (n : Nat) : Nat → Prop
  | self : Desc n n
  | left {k} : Desc n k → Desc n (k * 2 + 1)
  | right {k} : Desc n k → Desc n (k * 2 + 2)

theorem Desc.le {n j : Nat} (h : Desc n j) : n ≤ j := by
  induction h with
  | self => exact Nat.le_refl _
  | left _ ih => omega
  | right _ ih => omega

theorem Desc.trans {a b c : Nat} (h : Desc a b) (h' : Desc b c) : Desc a c := by
  induction h' with
  | self => exact h
  | left _ ih => exact ih.left
  | right _ ih => exact ih.right

/-- the subtree is its root and the subtrees of the children -/
theorem Desc.cases' {n j : Nat} (h : Desc n j) : j = n ∨ Desc (n * 2 + 1) j ∨ Desc (n * 2 + 2) j := by
  induction h with
  | self => exact .inl rfl
  | left _ ih =>
    rcases ih with rfl | h | h
    · exact .inr (.inl .self)
    · exact .inr (.inl h.left)
    · exact .inr (.inr h.left)
  | right _ ih =>
    rcases ih with rfl | h | h
    · exact .inr (.inr .self)
    · exact .inr (.inl h.right)
    · exact .inr (.inr h.right)

theorem Desc.parent {n j : Nat} (h : Desc n j) : j = n ∨ Desc n ((j - 1) / 2) := by
  cases h with
  | self => exact .inl rfl
  | @left k h => exact .inr (by rwa [show (k * 2 + 1 - 1) / 2 = k by omega])
  | @right k h => exact .inr (by rwa [show (k * 2 + 2 - 1) / 2 = k by omega])

theorem Desc.chain {a b j : Nat} (h : Desc a j) (h' : Desc b j) : Desc a b ∨ Desc b a := by
  induction j using Nat.strongRecOn with
  | _ j ih =>
    rcases h.parent with rfl | h1
    · exact .inr h'
    · rcases h'.parent with rfl | h2
      · exact .inl h
      · by_cases hj : j = 0
        · subst hj
          have := h.le
          have := h'.le
          have : a = b := by omega
          subst this
          exact .inl .self
        · exact ih _ (by omega) h1 h2

theorem Desc.disjoint {n j : Nat} (h : Desc (n * 2 + 1) j) (h' : Desc (n * 2 + 2) j) : False := by
  rcases h.chain h' with h | h
  · rcases h.parent with h | h
    · omega
    · have := h.le
      omega
  · have := h.le
    omega

theorem desc_zero (j : Nat) : Desc 0 j := by
  induction j using Nat.strongRecOn with
  | _ j ih =>
    by_cases h : j = 0
    · subst h
      exact .self
    · by_cases h2 : j % 2 = 1
      · have := (ih (j / 2) (by omega)).left
        rwa [show j / 2 * 2 + 1 = j by omega] at this
      · have := (ih (j / 2 - 1) (by omega)).right
        rwa [show (j / 2 - 1) * 2 + 2 = j by omega] at this

/-- in the subtree of `n`, within the first `N` elements, no element is less than one of its children -/
def HeapOn (comp : α → α → Bool) (l : List α) (N n : Nat) : Prop :=
  ∀ j, Desc n j → ∀ i, (i = j * 2 + 1 ∨ i = j * 2 + 2) → i < N → ∀ x y, l[j]? = some x → l[i]? = some y → comp x y = false

theorem HeapOn.mono {comp : α → α → Bool} {l : List α} {N n m : Nat} (h : HeapOn comp l N n) (hm : Desc n m) : HeapOn comp l N m :=
  fun j hj => h j (hm.trans hj)

theorem HeapOn.root {comp : α → α → Bool} (hc : StrictWeak comp) {l : List α} {N n : Nat} (hN : N ≤ l.length) (h : HeapOn comp l N n) {j : Nat}
    (hj : Desc n j) (hjN : j < N) {x y : α} (hx : l[n]? = some x) (hy : l[j]? = some y) : comp x y = false := by
  induction hj generalizing y with
  | self =>
    rw [hx] at hy
    cases hy
    exact hc.irrefl x
  | @left k hk ih =>
    have hz := List.getElem?_eq_getElem (l := l) (i := k) (by omega)
    have h1 := ih (by omega) hz
    have h2 := h _ hk _ (.inl rfl) hjN _ _ hz hy
    by_contra h3
    rcases hc.cotrans x l[k] y (by simpa using h3) with h4 | h4
    · rw [h1] at h4; cases h4
    · rw [h2] at h4; cases h4
  | @right k hk ih =>
    have hz := List.getElem?_eq_getElem (l := l) (i := k) (by omega)
    have h1 := ih (by omega) hz
    have h2 := h _ hk _ (.inr rfl) hjN _ _ hz hy
    by_contra h3
    rcases hc.cotrans x l[k] y (by simpa using h3) with h4 | h4
    · rw [h1] at h4; cases h4
    · rw [h2] at h4; cases h4

/-- elements are moved within the subtree of `n`, within the first `N` elements -/
structure Move (N n : Nat) (l l' : List α) : Prop where
  perm : l'.Perm l
  frame : ∀ j, ¬ (Desc n j ∧ j < N) → l'[j]? = l[j]?
  vals : ∀ j, Desc n j → j < N → ∃ k, Desc n k ∧ k < N ∧ l'[j]? = l[k]?

theorem Move.refl (N n : Nat) (l : List α) : Move N n l l := ⟨.refl _, fun _ _ => rfl, fun j h1 h2 => ⟨j, h1, h2, rfl⟩⟩

theorem Move.trans {N n : Nat} {a b c : List α} (h : Move N n a b) (h' : Move N n b c) : Move N n a c := by
  refine ⟨h'.perm.trans h.perm, fun j hj => (h'.frame j hj).trans (h.frame j hj), fun j h1 h2 => ?_⟩
  obtain ⟨k, k1, k2, k3⟩ := h'.vals j h1 h2
  obtain ⟨i, i1, i2, i3⟩ := h.vals k k1 k2
  exact ⟨i, i1, i2, k3.trans i3⟩

theorem Move.up {N n m : Nat} {a b : List α} (h : Move N m a b) (hm : Desc n m) : Move N n a b := by
  refine ⟨h.perm, fun j hj => h.frame j fun hj' => hj ⟨hm.trans hj'.1, hj'.2⟩, fun j h1 h2 => ?_⟩
  by_cases hj : Desc m j
  · obtain ⟨k, k1, k2, k3⟩ := h.vals j hj h2
    exact ⟨k, hm.trans k1, k2, k3⟩
  · exact ⟨j, h1, h2, h.frame j fun h => hj h.1⟩

/-- two elements are exchanged -/
structure Swapped (n m : Nat) (l l' : List α) : Prop where
  perm : l'.Perm l
  get : ∀ k, l'[k]? = if k = n then l[m]? else if k = m then l[n]? else l[k]?

theorem Swapped.move {N n m : Nat} {l l' : List α} (h : Swapped n m l l') (hm : Desc n m) (hmN : m < N) : Move N n l l' := by
  have := hm.le
  refine ⟨h.perm, fun j hj => ?_, fun j h1 h2 => ?_⟩
  · rw [h.get, if_neg (by rintro rfl; exact hj ⟨.self, by omega⟩), if_neg (by rintro rfl; exact hj ⟨hm, hmN⟩)]
  · rw [h.get]
    split_ifs with h3 h4
    · exact ⟨m, hm, hmN, rfl⟩
    · exact ⟨n, .self, by omega, rfl⟩
    · exact ⟨j, h1, h2, rfl⟩

/-- an element goes down to its greater child; below, order is restored -/
theorem sift_step {comp : α → α → Bool} (hc : StrictWeak comp) {N n m o : Nat} (hmo : (m = n * 2 + 1 ∧ o = n * 2 + 2) ∨ (m = n * 2 + 2 ∧ o = n * 2 + 1))
    {l l1 l2 : List α} (hN : N ≤ l.length) (hmN : m < N) (hm : HeapOn comp l N m) (ho : HeapOn comp l N o)
    (hlt : ∀ x y, l[n]? = some x → l[m]? = some y → comp x y = true)
    (hmax : o < N → ∀ x y, l[m]? = some x → l[o]? = some y → comp x y = false)
    (h1 : Swapped n m l l1) (h2 : Move N m l1 l2) (h3 : HeapOn comp l2 N m) : Move N n l l2 ∧ HeapOn comp l2 N n := by
  have dm : Desc n m := by rcases hmo with ⟨rfl, -⟩ | ⟨rfl, -⟩ <;> [exact .left .self; exact .right .self]
  have dis : ∀ j, Desc o j → ¬ Desc m j := by
    intro j a b
    rcases hmo with ⟨rfl, rfl⟩ | ⟨rfl, rfl⟩
    · exact b.disjoint a
    · exact a.disjoint b
  have nm : n ≠ m := by omega
  have no : ∀ j, Desc o j → j ≠ n := by
    intro j hj e
    have := hj.le
    omega
  refine ⟨(h1.move dm hmN).trans (h2.up dm), ?_⟩
  have hnm : ¬ Desc m n := fun h => by have := h.le; omega
  have hn : l2[n]? = l[m]? := by rw [h2.frame n fun h => hnm h.1, h1.get, if_pos rfl]
  have hoeq : ∀ j, Desc o j → l2[j]? = l[j]? := by
    intro j hj
    rw [h2.frame j fun h => dis j hj h.1, h1.get, if_neg (no j hj), if_neg]
    rintro rfl
    exact dis _ hj .self
  intro j hj i hi hiN x y hx hy
  rcases (show j = n ∨ Desc m j ∨ Desc o j by
    rcases hj.cases' with h | h | h
    · exact .inl h
    · rcases hmo with ⟨rfl, rfl⟩ | ⟨rfl, rfl⟩ <;> simp [h]
    · rcases hmo with ⟨rfl, rfl⟩ | ⟨rfl, rfl⟩ <;> simp [h]) with rfl | hj | hj
  · rw [hn] at hx
    rcases (show i = m ∨ i = o by omega) with rfl | rfl
    · obtain ⟨k, k1, k2, k3⟩ := h2.vals i .self hiN
      have hkn : k ≠ j := by
        rintro rfl
        exact hnm k1
      rw [k3, h1.get, if_neg hkn] at hy
      split_ifs at hy with hki
      · exact hc.asymm (hlt _ _ hy hx)
      · exact hm.root hc hN k1 k2 hx hy
    · rw [hoeq i .self] at hy
      exact hmax hiN _ _ hx hy
  · exact h3 j hj i hi hiN x y hx hy
  · rw [hoeq j hj] at hx
    rw [hoeq i (by rcases hi with rfl | rfl <;> [exact hj.left; exact hj.right])] at hy
    exact ho j hj i hi hiN x y hx hy

/-- nothing to do -/
theorem sift_done {comp : α → α → Bool} {N n : Nat} {l : List α} (hl : HeapOn comp l N (n * 2 + 1)) (hr : HeapOn comp l N (n * 2 + 2))
    (h : ∀ i, (i = n * 2 + 1 ∨ i = n * 2 + 2) → i < N → ∀ x y, l[n]? = some x → l[i]? = some y → comp x y = false) : HeapOn comp l N n := by
  intro j hj
  rcases hj.cases' with rfl | hj | hj
  · exact h
  · exact hl j hj
  · exact hr j hj

theorem heapOn_leaf {comp : α → α → Bool} {N n : Nat} (l : List α) (h : N ≤ n * 2 + 1) : HeapOn comp l N n := by
  intro j hj i hi hiN
  have := hj.le
  omega

theorem HeapOn.of_move {comp : α → α → Bool} {N n m : Nat} {l l' : List α} (h : HeapOn comp l N n) (h' : Move N m l l')
    (hd : ∀ j, Desc n j → ¬ Desc m j) : HeapOn comp l' N n := by
  intro j hj i hi hiN x y hx hy
  rw [h'.frame j fun h => hd j hj h.1] at hx
  rw [h'.frame i fun h => hd i (by rcases hi with rfl | rfl <;> [exact hj.left; exact hj.right]) h.1] at hy
  exact h j hj i hi hiN x y hx hy

theorem heapOn_iff {comp : α → α → Bool} {l : List α} {N : Nat} (hN : N ≤ l.length) : HeapOn comp l N 0 ↔ Spec.IsHeap comp (l.take N) := by
  have hlen : (l.take N).length = N := by simp; omega
  constructor
  · intro h i h0 hi
    have e : ∀ k, k < N → (l.take N)[k]? = l[k]? := fun k hk => List.getElem?_take_of_lt hk
    refine h ((i - 1) / 2) (desc_zero _) i (by omega) (by omega) _ _ ?_ ?_
    · rw [← e _ (by omega), List.getElem?_eq_getElem (by omega)]
    · rw [← e _ (by omega), List.getElem?_eq_getElem (by omega)]
  · intro h j _ i hi hiN x y hx hy
    have := h i (by omega) (by omega)
    have e : (i - 1) / 2 = j := by omega
    simp only [e, List.getElem_take] at this
    rw [List.getElem?_eq_getElem (by omega)] at hx hy
    cases hx
    cases hy
    exact this

/-- moves within the first elements, in parts -/
theorem Move.split {N : Nat} {A B l' : List α} (h : Move N 0 (A ++ B) l') (hA : A.length = N) : ∃ A', l' = A' ++ B ∧ A'.Perm A := by
  have hl := h.perm.length_eq
  simp only [List.length_append] at hl
  have e : l'.drop N = B := by
    apply List.ext_getElem?
    intro i
    rw [List.getElem?_drop, h.frame _ (by omega), List.getElem?_append_right (by omega)]
    congr 1
    omega
  refine ⟨l'.take N, ?_, ?_⟩
  · rw [← e, List.take_append_drop]
  · have hp := h.perm
    rw [← List.take_append_drop N l', e] at hp
    exact (List.perm_append_right_iff B).1 hp

end Sprout.FixedAlg
