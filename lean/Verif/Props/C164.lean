import Verif.Model.ExemptPtr
import Mathlib.Tactic.Linarith

/-!
# C164: `exempt_ptr`

Refuted: `swap` is ill-formed, and null is not ordered.
-/

namespace Sprout
open ExemptPtr

/-- two pointers into the same array, given by their positions -/
def SameArray (x y : E) (b i j : Nat) : Prop := x.p = .at b i ∧ y.p = .at b j

/-- `release` gives the pointer and leaves null, `reset` replaces the pointer; null is false and equal to null -/
theorem C164_state (p q : Ptr) : (release (mk p)).1 = p ∧ (release (mk p)).2 = mkNull ∧ (reset (mk p) q).p = q ∧
    (asBool (mk p) = true ↔ p ≠ .null) ∧ (eqNull (mk p) = true ↔ eq (mk p) mkNull = true) ∧ (eq (mk p) (mk q) = true ↔ p = q) := by
  refine ⟨rfl, rfl, rfl, decide_eq_true_iff, ?_, decide_eq_true_iff⟩
  cases p <;> exact Iff.rfl

/-- positions: adding, subtracting and the difference fit together inside an array -/
theorem C164_arith (m : Mem) (b i j : Nat) (hi : i ≤ m.size b) (hj : j ≤ m.size b) :
    add m ⟨.at b i⟩ ((j : Int) - i) = some ⟨.at b j⟩ ∧ sub m ⟨.at b i⟩ ((i : Int) - j) = some ⟨.at b j⟩ ∧
    diff ⟨.at b j⟩ ⟨.at b i⟩ = some ((j : Int) - i) := by
  have h1 : 0 ≤ (i : Int) + ((j : Int) - i) ∧ (i : Int) + ((j : Int) - i) ≤ m.size b := by omega
  have h2 : 0 ≤ (i : Int) + -((i : Int) - j) ∧ (i : Int) + -((i : Int) - j) ≤ m.size b := by omega
  refine ⟨?_, ?_, ?_⟩
  · simp only [add, ptrAdd, h1, and_self, if_true, Option.map_some, mk, Option.some.injEq, E.mk.injEq, Ptr.at.injEq, true_and]
    omega
  · simp only [sub, ptrAdd, h2, and_self, if_true, Option.map_some, mk, Option.some.injEq, E.mk.injEq, Ptr.at.injEq, true_and]
    omega
  · simp [diff, ptrSub]

/-- a position outside the array cannot be reached -/
theorem C164_bounds (m : Mem) (b i : Nat) (d : Int) (h : (i : Int) + d < 0 ∨ m.size b < (i : Int) + d) : add m ⟨.at b i⟩ d = none := by
  have : ¬(0 ≤ (i : Int) + d ∧ (i : Int) + d ≤ m.size b) := by omega
  simp only [add, ptrAdd, this, if_false, Option.map_none]

/-- increments and decrements go to the neighbours and return the old pointer -/
theorem C164_steps (m : Mem) (b i : Nat) (h : i < m.size b) :
    postInc m ⟨.at b i⟩ = some (⟨.at b i⟩, ⟨.at b (i + 1)⟩) ∧ postDec m ⟨.at b (i + 1)⟩ = some (⟨.at b (i + 1)⟩, ⟨.at b i⟩) := by
  have h1 : 0 ≤ (i : Int) + 1 ∧ (i : Int) + 1 ≤ m.size b := by omega
  have h2 : 0 ≤ ((i + 1 : Nat) : Int) + -1 ∧ ((i + 1 : Nat) : Int) + -1 ≤ m.size b := by omega
  constructor
  · simp only [postInc, ptrAdd, h1, and_self, if_true, Option.map_some, Option.some.injEq, Prod.mk.injEq, E.mk.injEq, Ptr.at.injEq, true_and]
    omega
  · simp only [postDec, ptrAdd, h2, and_self, if_true, Option.map_some, Option.some.injEq, Prod.mk.injEq, E.mk.injEq, Ptr.at.injEq, true_and]
    omega

/-- elements: `x[k]` is `*(x + k)`, and reading is defined inside the array only -/
theorem C164_elements (m : Mem) (x : E) (k : Int) (b i : Nat) : index m x k = (add m x k).bind (deref m) ∧
    deref m ⟨.at b i⟩ = (if i < m.size b then some (m.val b i) else none) ∧ deref m mkNull = none := by
  refine ⟨?_, rfl, rfl⟩
  simp only [index, add]
  cases ptrAdd m x.p k <;> rfl

/-- inside an array the pointers are ordered as their positions. What is missing are null and other arrays, see `C164_null_order_refuted`. -/
theorem C164_order_partial (x y : E) (b i j : Nat) (h : SameArray x y b i j) :
    lt x y = some (decide (i < j)) ∧ gt x y = some (decide (j < i)) ∧ le x y = some (decide (i ≤ j)) ∧ ge x y = some (decide (j ≤ i)) ∧
    (eq x y = true ↔ i = j) := by
  obtain ⟨⟨p⟩, ⟨q⟩⟩ := x, y
  obtain ⟨rfl, rfl⟩ := h
  refine ⟨?_, ?_, ?_, ?_, ?_⟩
  · simp [ExemptPtr.lt, ptrLt]
  · simp [ExemptPtr.gt, ExemptPtr.lt, ptrLt]
  · simp only [ExemptPtr.le, ExemptPtr.lt, ptrLt, if_true, Option.map_some, Option.some.injEq]
    rw [← decide_not]; simp
  · simp only [ExemptPtr.ge, ExemptPtr.lt, ptrLt, if_true, Option.map_some, Option.some.injEq]
    rw [← decide_not]; simp
  · simp [ExemptPtr.eq]

/-- null is not ordered with respect to any pointer into an array, in contrast to `std::less`; so `exempt_ptr` cannot be a key in constant expressions -/
theorem C164_null_order_refuted (b i : Nat) : ltNull ⟨.at b i⟩ = none ∧ nullLt ⟨.at b i⟩ = none ∧ lt ⟨.at b i⟩ mkNull = none := ⟨rfl, rfl, rfl⟩

/-- neither are pointers into different arrays -/
theorem C164_arrays_refuted (b c i j : Nat) (h : b ≠ c) : lt ⟨.at b i⟩ ⟨.at c j⟩ = none := by
  simp [lt, ptrLt, h]

/-- no two objects can be exchanged; a function that is not hidden would do it -/
theorem C164_swap_refuted (x y : E) : swap x y = none ∧ swapWith (.free 2) x y = some (y, x) := ⟨rfl, rfl⟩

example : add ⟨fun _ => 3, fun _ i => 10 * i⟩ ⟨.at 0 1⟩ 2 = some ⟨.at 0 3⟩ ∧ index ⟨fun _ => 3, fun _ i => 10 * i⟩ ⟨.at 0 1⟩ 1 = some 20 ∧
    index ⟨fun _ => 3, fun _ i => 10 * i⟩ ⟨.at 0 1⟩ 2 = none := by decide

end Sprout
