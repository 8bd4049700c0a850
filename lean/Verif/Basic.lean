import Mathlib.Data.List.Perm.Basic
import Mathlib.Data.List.TakeDrop

/-!
# Memory blocks, strict weak orders, and confinement of effects

A mutable C++ range lives in a memory block, a `List α`; iterators into it are positions (`Nat`).
Dereferencing a position that is not inside the block is undefined behaviour: the outcome `none`.
-/

namespace Sprout

variable {α : Type}

/-- `*it` as an rvalue; out of the block: UB (`none`). -/
def rd (m : List α) (i : Nat) : Option α := m[i]?

/-- `*it = x`; out of the block: UB (`none`). -/
def wr (m : List α) (i : Nat) (x : α) : Option (List α) :=
  if i < m.length then some (m.set i x) else none

/-- `sprout::swap(*a, *b)` / `sprout::iter_swap(a, b)`
(sprout/algorithm/cxx14/iter_swap.hpp, sprout/utility/swap.hpp): three moves through a temporary. -/
def swp (m : List α) (i j : Nat) : Option (List α) := do
  let a ← rd m i
  let b ← rd m j
  let m ← wr m i b
  wr m j a

/-- The standard's requirement on a comparator: a strict weak ordering
(irreflexive, transitive, incomparability is transitive; stated via co-transitivity). -/
structure StrictWeak (comp : α → α → Bool) : Prop where
  irrefl : ∀ a, comp a a = false
  trans : ∀ a b c, comp a b = true → comp b c = true → comp a c = true
  cotrans : ∀ a b c, comp a c = true → comp a b = true ∨ comp b c = true

/-- Sortedness with respect to `comp`: no later element is less than an earlier one. -/
def SortedBy (comp : α → α → Bool) (l : List α) : Prop :=
  l.Pairwise (fun x y => comp y x = false)

namespace StrictWeak
variable {comp : α → α → Bool} (h : StrictWeak comp)
include h

theorem asymm {a b : α} (hab : comp a b = true) : comp b a = false := by
  by_contra hc
  have := h.trans a b a hab (by simpa using hc)
  rw [h.irrefl] at this; cases this

/-- `¬ b < a`, `¬ c < b` imply `¬ c < a` (transitivity of `≤`). -/
theorem le_trans {a b c : α} (h1 : comp b a = false) (h2 : comp c b = false) : comp c a = false := by
  by_contra hc
  rcases h.cotrans c b a (by simpa using hc) with h' | h'
  · rw [h'] at h2; cases h2
  · rw [h'] at h1; cases h1

theorem lt_of_lt_of_le {a b c : α} (h1 : comp a b = true) (h2 : comp c b = false) : comp a c = true := by
  rcases h.cotrans a c b h1 with h' | h'
  · exact h'
  · rw [h'] at h2; cases h2

theorem lt_of_le_of_lt {a b c : α} (h1 : comp b a = false) (h2 : comp b c = true) : comp a c = true := by
  rcases h.cotrans b a c h2 with h' | h'
  · rw [h'] at h1; cases h1
  · exact h'

end StrictWeak

@[simp] theorem rd_eq {m : List α} {i : Nat} (h : i < m.length) : rd m i = some m[i] := by
  simp [rd, h]

theorem rd_some {m : List α} {i : Nat} {x : α} : rd m i = some x ↔ m[i]? = some x := Iff.rfl

@[simp] theorem wr_eq {m : List α} {i : Nat} {x : α} (h : i < m.length) : wr m i x = some (m.set i x) := by
  simp [wr, h]

theorem swp_eq {m : List α} {i j : Nat} (hi : i < m.length) (hj : j < m.length) :
    swp m i j = some ((m.set i m[j]).set j m[i]) := by
  simp [swp, rd, wr, hi, hj]

/-- `m'` arises from `m` by rearranging positions inside `[a, b)` only. -/
structure Rearr (a b : Nat) (m m' : List α) : Prop where
  len : m'.length = m.length
  out : ∀ i, i < a ∨ b ≤ i → m'[i]? = m[i]?
  perm : m'.Perm m

namespace Rearr

theorem refl (a b : Nat) (m : List α) : Rearr a b m m := ⟨rfl, fun _ _ => rfl, .refl _⟩

theorem trans {a b : Nat} {m m' m'' : List α} (h1 : Rearr a b m m') (h2 : Rearr a b m' m'') :
    Rearr a b m m'' :=
  ⟨h2.len.trans h1.len, fun i hi => (h2.out i hi).trans (h1.out i hi), h2.perm.trans h1.perm⟩

theorem mono {a b a' b' : Nat} {m m' : List α} (h : Rearr a b m m') (ha : a' ≤ a) (hb : b ≤ b') :
    Rearr a' b' m m' :=
  ⟨h.len, fun i hi => h.out i (by omega), h.perm⟩

/-- Segment form: a rearrangement of the segment `xs` of `pre ++ xs ++ post`. -/
theorem segment {pre xs post m' : List α}
    (h : Rearr pre.length (pre.length + xs.length) (pre ++ xs ++ post) m') :
    ∃ ys, m' = pre ++ ys ++ post ∧ ys.Perm xs := by
  obtain ⟨hl, ho, hp⟩ := h
  have h1 : m'.take pre.length = pre := by
    apply List.ext_getElem?
    intro i
    rcases Nat.lt_or_ge i pre.length with hi | hi
    · rw [List.getElem?_take_of_lt hi, ho i (Or.inl hi)]; simp [hi, Nat.lt_add_right]
    · rw [List.getElem?_eq_none (by simp; omega), List.getElem?_eq_none hi]
  have h2 : m'.drop (pre.length + xs.length) = post := by
    apply List.ext_getElem?
    intro i
    rw [List.getElem?_drop, ho _ (Or.inr (by omega)), List.getElem?_append_right (by simp)]
    simp
  refine ⟨(m'.drop pre.length).take xs.length, ?_, ?_⟩
  · conv_lhs => rw [← List.take_append_drop pre.length m', h1,
      ← List.take_append_drop xs.length (m'.drop pre.length), List.drop_drop, h2]
    simp
  · have : m' = pre ++ ((m'.drop pre.length).take xs.length ++ post) := by
      conv_lhs => rw [← List.take_append_drop pre.length m', h1,
        ← List.take_append_drop xs.length (m'.drop pre.length), List.drop_drop, h2]
    rw [this, List.append_assoc] at hp
    exact (List.perm_append_right_iff post).mp ((List.perm_append_left_iff pre).mp hp)

theorem exists_pos {a b : Nat} {m m' : List α} (h : Rearr a b m m') (hb : b ≤ m.length) (hab : a ≤ b)
    {i : Nat} {x : α} (hi : a ≤ i) (hi' : i < b) (hx : m'[i]? = some x) :
    ∃ j, a ≤ j ∧ j < b ∧ m[j]? = some x := by
  have hm : m = m.take a ++ (m.drop a).take (b - a) ++ m.drop b := by
    conv_lhs => rw [← List.take_append_drop a m, ← List.take_append_drop (b - a) (m.drop a), List.drop_drop,
      show a + (b - a) = b by omega]
    simp
  have hla : (m.take a).length = a := by simp; omega
  have hlb : ((m.drop a).take (b - a)).length = b - a := by simp; omega
  have h' : Rearr (m.take a).length ((m.take a).length + ((m.drop a).take (b - a)).length)
      (m.take a ++ (m.drop a).take (b - a) ++ m.drop b) m' := by
    rw [← hm, hla, hlb, show a + (b - a) = b by omega]; exact h
  obtain ⟨ys, hy, hp⟩ := segment h'
  have hyl : ys.length = b - a := by rw [hp.length_eq, hlb]
  rw [hy, List.append_assoc, List.getElem?_append_right (by omega), hla,
    List.getElem?_append_left (by omega)] at hx
  have : x ∈ (m.drop a).take (b - a) := hp.mem_iff.mp (List.mem_of_getElem? hx)
  obtain ⟨j, hj, hjx⟩ := List.getElem_of_mem this
  refine ⟨a + j, by omega, by omega, ?_⟩
  rw [hlb] at hj
  rw [List.getElem_take, List.getElem_drop] at hjx
  rw [List.getElem?_eq_getElem (by omega), hjx]

/-- A property of all elements in a window is preserved. -/
theorem forall_pos {a b : Nat} {m m' : List α} (h : Rearr a b m m') (hb : b ≤ m.length) (hab : a ≤ b)
    {P : α → Prop} (hP : ∀ j x, a ≤ j → j < b → m[j]? = some x → P x) :
    ∀ i x, a ≤ i → i < b → m'[i]? = some x → P x := by
  intro i x hi hi' hx
  obtain ⟨j, h1, h2, h3⟩ := h.exists_pos hb hab hi hi' hx
  exact hP j x h1 h2 h3

end Rearr

theorem swap_perm {m : List α} {i j : Nat} (hi : i < m.length) (hj : j < m.length) :
    ((m.set i m[j]).set j m[i]).Perm m := by
  classical
  rw [List.perm_iff_count]
  intro c
  by_cases hij : i = j
  · subst hij; simp
  · rw [List.count_set (by simpa using hj), List.count_set hi]
    simp only [List.getElem_set, hij, if_false]
    have h1 : (if m[i] == c then 1 else 0) ≤ List.count c m := by
      split
      · rename_i h; rw [← (beq_iff_eq.mp h)]; exact List.count_pos_iff.mpr (List.getElem_mem hi)
      · omega
    omega

theorem swap_rearr {m : List α} {i j a b : Nat} (hi : i < m.length) (hj : j < m.length)
    (hai : a ≤ i) (hib : i < b) (haj : a ≤ j) (hjb : j < b) :
    Rearr a b m ((m.set i m[j]).set j m[i]) :=
  ⟨by simp, fun k hk => by grind, swap_perm hi hj⟩

end Sprout
