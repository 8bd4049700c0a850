import Verif.Model.PtrIndex

/-!
# C151 ptr_index_iterator stands for a pointer

An iterator into an array stands for the pointer `p + index`; every operation on iterators is the operation on these pointers.
-/

namespace Sprout
open PtrIx

variable {α : Type}

/-- iterator `i` stands for the position `q` of `m` -/
def Stands (m : List α) (i : It) (q : Nat) : Prop := (i.p : Int) + i.index = q ∧ q ≤ m.length

/-- every iterator stands for at most one position -/
theorem C151_unique {m : List α} {i : It} {q q' : Nat} (h : Stands m i q) (h' : Stands m i q') : q = q' := by
  have := h.1
  have := h'.1
  omega

theorem C151_make {m : List α} {p : Nat} (h : p ≤ m.length) : Stands m (make p) p := ⟨by simp [make], h⟩
theorem C151_make2 {m : List α} {p q : Nat} {n : Int} (h : (p : Int) + n = q) (hq : q ≤ m.length) : Stands m (make2 p n) q := ⟨h, hq⟩

theorem addPtr_stands {m : List α} {p q : Nat} {n : Int} (h : (p : Int) + n = q) (hq : q ≤ m.length) : addPtr m p n = some q := by
  unfold addPtr
  rw [if_pos (by omega), h]
  rfl

/-- `ptr()`, `operator->`, `ptr_unindex` -/
theorem C151_ptr {m : List α} {i : It} {q : Nat} (h : Stands m i q) : ptr m i = some q := addPtr_stands h.1 h.2

/-- `*it` -/
theorem C151_deref {m : List α} {i : It} {q : Nat} (h : Stands m i q) : deref m i = m[q]? := by
  unfold deref subscript
  rw [addPtr_stands h.1 h.2]
  rfl

/-- `it[n]`, whatever lies between -/
theorem C151_at {m : List α} {i : It} {q r : Nat} {n : Int} (h : Stands m i q) (hr : (q : Int) + n = r) (hm : r ≤ m.length) :
    at_ m i n = m[r]? := by
  unfold at_ subscript
  rw [addPtr_stands (q := r) (by have := h.1; omega) hm]
  rfl

/-- `it + n`, `it += n`, `n + it` -/
theorem C151_add {m : List α} {i : It} {q r : Nat} {n : Int} (h : Stands m i q) (hr : (q : Int) + n = r) (hm : r ≤ m.length) :
    Stands m (add i n) r := ⟨by have := h.1; simp only [add]; omega, hm⟩

/-- `it - n`, `it -= n` -/
theorem C151_sub {m : List α} {i : It} {q r : Nat} {n : Int} (h : Stands m i q) (hr : (q : Int) - n = r) (hm : r ≤ m.length) :
    Stands m (sub i n) r := ⟨by have := h.1; simp only [sub]; omega, hm⟩

/-- `++it`, `it++`, `next`, and `--it`, `it--`, `prev` -/
theorem C151_inc {m : List α} {i : It} {q : Nat} (h : Stands m i q) (hq : q < m.length) :
    Stands m (inc i) (q + 1) ∧ next i = inc i ∧ postInc i = (i, inc i) :=
  ⟨⟨by have := h.1; simp only [inc, next]; omega, hq⟩, rfl, rfl⟩
theorem C151_dec {m : List α} {i : It} {q : Nat} (h : Stands m i (q + 1)) :
    Stands m (decr i) q ∧ prev i = decr i ∧ postDec i = (i, decr i) :=
  ⟨⟨by have := h.1; simp only [decr, prev]; omega, by have := h.2; omega⟩, rfl, rfl⟩

/-- comparison and difference, of iterators made from the same pointer -/
theorem C151_compare_partial {m : List α} {a b : It} {q r : Nat} (ha : Stands m a q) (hb : Stands m b r) (hp : a.p = b.p) :
    (eq a b = decide (q = r)) ∧ (ne a b = decide (q ≠ r)) ∧ (lt a b = decide (q < r)) ∧ (gt a b = decide (q > r)) ∧
    (le a b = decide (q ≤ r)) ∧ (ge a b = decide (q ≥ r)) ∧ diff a b = (q : Int) - r := by
  have h1 := ha.1
  have h2 := hb.1
  rw [hp] at h1
  have e : a.index = b.index ↔ q = r := by omega
  have l : a.index < b.index ↔ q < r := by omega
  have g : b.index < a.index ↔ r < q := by omega
  refine ⟨?_, ?_, ?_, ?_, ?_, ?_, by simp only [diff]; omega⟩ <;>
    rw [Bool.eq_iff_iff] <;> simp [eq, ne, lt, gt, le, ge, e, l, g]

/-- in general comparison and difference are off by the distance of the pointers -/
theorem C151_compare {m : List α} {a b : It} {q r : Nat} (ha : Stands m a q) (hb : Stands m b r) :
    (eq a b = true ↔ (q : Int) - r = (a.p : Int) - b.p) ∧ diff a b = (q : Int) - r - ((a.p : Int) - b.p) := by
  have h1 := ha.1
  have h2 := hb.1
  refine ⟨?_, by simp only [diff]; omega⟩
  simp only [eq, beq_iff_eq]
  omega

/-- what is added can be subtracted, and the difference tells how much; for all iterators -/
theorem C151_add_sub (i : It) (n : Int) : sub (add i n) n = i ∧ diff (add i n) i = n ∧ lt i (add i n) = decide (0 < n) := by
  refine ⟨?_, by simp only [diff, add]; omega, ?_⟩
  · simp only [sub, add]
    congr 1
    omega
  · show decide (i.index < i.index + n) = decide (0 < n)
    rw [decide_eq_decide]
    omega

example : Stands [10, 20, 30] (add (make 1) 1) 2 ∧ deref [10, 20, 30] (add (make 1) 1) = some 30 ∧ at_ [10, 20, 30] (make2 0 2) (-1) = some 20 :=
  ⟨⟨by decide, by decide⟩, by decide, by decide⟩
example : deref [10, 20, 30] (make2 0 3) = none := by decide

/-- `ptr_index(a, 1)` and `ptr_index(a + 1)` stand for the same element and are not equal; `ptr_index(a)` and `ptr_index(a + 1)` stand for
different elements and are equal -/
theorem C151_compare_refuted :
    (∃ (m : List Nat) (a b : It), Stands m a 1 ∧ Stands m b 1 ∧ eq a b = false) ∧
    (∃ (m : List Nat) (a b : It), Stands m a 0 ∧ Stands m b 1 ∧ eq a b = true ∧ deref m a ≠ deref m b) :=
  ⟨⟨[5, 6], make2 0 1, make 1, ⟨rfl, by decide⟩, ⟨rfl, by decide⟩, by decide⟩,
   ⟨[5, 6], make 0, make 1, ⟨rfl, by decide⟩, ⟨rfl, by decide⟩, by decide, by decide⟩⟩

/-- a range from `ptr_index(a)` to `ptr_index(a + n)` is taken for an empty one -/
theorem C151_end_refuted (n : Nat) : ne (make 0) (make n) = false ∧ diff (make n) (make 0) = 0 := by
  simp [ne, eq, make, diff]

/-- The conversion to the iterator of constants names a pointer type instead of a constant one: its body is ill-formed for every type -/
theorem C151_convert_refuted (T : Ty) : convertTo T ≠ .const T ∧ wellFormed T (convertTo T) = false := by
  have key : ∀ t : Ty, Ty.ptr (.const t) ≠ t := by
    intro t
    intro h
    have := congrArg sizeOf h
    simp at this
    omega
  have key2 : ∀ t : Ty, Ty.ptr (.const t) ≠ .const t := by intro t; exact fun h => by cases h
  cases T <;> simp [convertTo, constPointer, wellFormed] <;> first | exact key2 _ | (intro h; exact absurd (congrArg sizeOf h) (by simp; omega))

end Sprout
