import Verif.Model.GenDispatch

/-!
# C169: objects, results and iterators as generators

A callable object, a pair of a value and a generator, and an iterator are documented to be generators (generator/next_value.hpp
18-30, generator/generated_value.hpp 18-31). `genDraw` is what the calls of the callable object return.
-/

namespace Sprout
open GenDispatch

variable {γ ρ : Type}

/-- the object after `n` calls -/
def genAfter (step : γ → ρ × γ) (g : γ) : Nat → γ
  | 0 => g
  | n + 1 => (step (genAfter step g n)).2

/-- the value returned by the call number `n`, counted from 0 -/
def genDraw (step : γ → ρ × γ) (g : γ) (n : Nat) : ρ := (step (genAfter step g n)).1

/-- `next_value` applied `n + 1` times -/
def nextValues (step : γ → ρ × γ) (o : GObj γ ρ) : Nat → Option (GObj γ ρ)
  | 0 => nextValue step o
  | n + 1 => (nextValues step o n).bind (nextValue step)

/-- the callable object at the end of nested pairs -/
def wrapped (g : γ) : List ρ → GObj γ ρ
  | [] => .call g
  | r :: rs => .pair r (wrapped g rs)

theorem nextValue_wrapped (step : γ → ρ × γ) (g : γ) (rs : List ρ) :
    nextValue step (wrapped g rs) = some (.pair (step g).1 (.call (step g).2)) := by
  induction rs with
  | nil => rfl
  | cons r rs ih => exact ih

/-- from a callable object, or from a result of it, `next_value` and `generated_value` enumerate the values it draws -/
theorem C169_values_partial (step : γ → ρ × γ) (g : γ) (rs : List ρ) (n : Nat) :
    (nextValues step (wrapped g rs) n).bind generatedValue = some (genDraw step g n) := by
  have key : ∀ n, nextValues step (wrapped g rs) n = some (.pair (genDraw step g n) (.call (genAfter step g (n + 1)))) := by
    intro n
    induction n with
    | zero => exact nextValue_wrapped step g rs
    | succ n ih => rw [nextValues, ih]; rfl
  rw [key]; rfl

/-- `next_value` of a result is `next_value` of its next generator -/
theorem C169_result (step : γ → ρ × γ) (r : ρ) (o : GObj γ ρ) :
    nextValue step (.pair r o) = (nextGenerator step (.pair r o)).bind (nextValue step) := rfl

theorem genAfter_shift (step : γ → ρ × γ) (g : γ) (n : Nat) : genAfter step (step g).2 n = genAfter step g (n + 1) := by
  induction n with
  | zero => rfl
  | succ n ih => rw [genAfter, ih]; rfl

theorem generate1_call (step : γ → ρ × γ) (k : Nat) : ∀ g : γ,
    generate1 step k (.pair (step g).1 (.call (step g).2)) = some ((List.range (k + 1)).map (genDraw step g)) := by
  induction k with
  | zero => intro g; rfl
  | succ k ih =>
    intro g
    have h : generate1 step (k + 1) (.pair (step g).1 (.call (step g).2))
        = (generate1 step k (.pair (step (step g).2).1 (.call (step (step g).2).2))).map fun t => (step g).1 :: t := rfl
    rw [h, ih, List.range_succ_eq_map (n := k + 1)]
    simp only [Option.map_some, List.map_cons, List.map_map]
    congr 2
    apply List.map_congr_left
    intro i _
    show (step (genAfter step (step g).2 i)).1 = (step (genAfter step g (i + 1))).1
    rw [genAfter_shift]

/-- `generate` with a callable object draws the values one after the other -/
theorem C169_generate (step : γ → ρ × γ) (g : γ) (n : Nat) :
    fixedGenerate step n (.call g) = some ((List.range n).map (genDraw step g)) := by
  cases n with
  | zero => rfl
  | succ k => exact generate1_call step k g

/-- refuted: no iterator and no pointer is a generator, because the traits are asked about a reference -/
theorem C169_iterators_refuted (step : γ → ρ × γ) (l : List ρ) (p : Nat) (o : GObj γ ρ) (h : o = .iter l p ∨ o = .ptr l p) :
    generatedValue o = none ∧ nextGenerator step o = none ∧ nextValue step o = none := by
  rcases h with rfl | rfl <;> exact ⟨rfl, rfl, rfl⟩

/-- with the type instead of a reference to it, the documented functions walk over the sequence after the position -/
theorem C169_iterators_intended (step : γ → ρ × γ) (l : List ρ) (p : Nat) (h : p < l.length) :
    getGeneratedValue .plain (.iter (γ := γ) l p) = l[p]? ∧
    getNextGenerator step .plain (.iter l p) = some (.iter l p) ∧
    generateNextValue step .plain (.iter l p) = some (.iter l (p + 1)) := by
  refine ⟨rfl, rfl, ?_⟩
  show (if p < l.length then some (GObj.iter (γ := γ) l (p + 1)) else none) = _
  rw [if_pos h]

theorem callObj_git (step : γ → ρ × γ) (r : ρ) (g : γ) (i : Int) (h : -2 ^ 63 < i) :
    callObj step (.git r (.call g) i) = some (.git (step g).1 (.call (step g).2) (i - 1)) := by
  show (if -2 ^ 63 < i then some (GObj.git (step g).1 (.call (step g).2) (i - 1)) else none) = _
  rw [if_pos h]

/-- stepping a `generator_iterator` gives the values one after the other -/
theorem C169_generator_iterator (step : γ → ρ × γ) (r : ρ) (g : γ) (i : Int) (n : Nat) (h : -2 ^ 63 + (n : Int) < i) :
    nextValues step (.git r (.call g) i) n
      = some (.git (genDraw step g n) (.call (genAfter step g (n + 1))) (i - (n + 1))) := by
  induction n with
  | zero =>
    have := callObj_git step r g i (by omega)
    exact this.trans (by rfl)
  | succ n ih =>
    rw [nextValues, ih (by omega)]
    have := callObj_git step (genDraw step g n) (genAfter step g (n + 1)) (i - (n + 1)) (by omega)
    refine (show _ = _ from this).trans ?_
    have e : i - ((n : Int) + 1) - 1 = i - (((n + 1 : Nat) : Int) + 1) := by omega
    rw [e]; rfl

theorem generate1_git (step : γ → ρ × γ) (k : Nat) : ∀ (g : γ) (i : Int), -2 ^ 63 + 2 * (k : Int) < i →
    generate1 step k (.git (step g).1 (.call (step g).2) i) = some ((List.range (k + 1)).map fun j => genDraw step g (2 * j)) := by
  induction k with
  | zero => intro g i _; rfl
  | succ k ih =>
    intro g i h
    have h1 := callObj_git step (step g).1 (step g).2 i (by omega)
    have h2 := callObj_git step (step (step g).2).1 (step (step g).2).2 (i - 1) (by omega)
    have e : generate1 step (k + 1) (.git (step g).1 (.call (step g).2) i)
        = ((callObj step (.git (step g).1 (.call (step g).2) i)).bind fun a => (callObj step a).bind fun b =>
            (generate1 step k b).map fun t => (step g).1 :: t) := rfl
    rw [e, h1, Option.bind_some, h2, Option.bind_some, ih _ _ (by omega), List.range_succ_eq_map (n := k + 1)]
    simp only [Option.map_some, List.map_cons, List.map_map]
    congr 2
    apply List.map_congr_left
    intro j _
    show (step (genAfter step (step (step g).2).2 (2 * j))).1 = (step (genAfter step g (2 * (j + 1)))).1
    rw [genAfter_shift, genAfter_shift]; rfl

/-- `generate` with a `generator_iterator` takes every second value: `next_generator()` has already made the call -/
theorem C169_generate_skips (step : γ → ρ × γ) (r : ρ) (g : γ) (i : Int) (n : Nat) (h : -2 ^ 63 + 2 * (n : Int) < i) :
    fixedGenerate step n (.git r (.call g) i) = some ((List.range n).map fun j => genDraw step g (2 * j)) := by
  cases n with
  | zero => rfl
  | succ k =>
    show (callObj step (.git r (.call g) i)).bind (generate1 step k) = _
    rw [callObj_git step r g i (by omega), Option.bind_some]
    exact generate1_git step k g (i - 1) (by omega)

/-- refuted: `generate` with a `generator_iterator` does not give the values that follow -/
theorem C169_generate_refuted : ¬ ∀ (step : Nat → Nat × Nat) (r g : Nat) (i : Int) (n : Nat), -2 ^ 63 + 2 * (n : Int) < i →
    fixedGenerate step n (.git r (.call g) i) = some ((List.range n).map (genDraw step g)) := by
  intro h
  have h1 := h (fun s => (s, s + 1)) 0 1 10 3 (by decide)
  rw [C169_generate_skips _ _ _ _ _ (by decide)] at h1
  revert h1
  decide

example : fixedGenerate (fun s : Nat => (s, s + 1)) 3 (.call 1) = some [1, 2, 3] := by decide
example : fixedGenerate (fun s : Nat => (s, s + 1)) 3 (.git 0 (.call 1) 10) = some [1, 3, 5] := by decide
example : (nextValues (fun s : Nat => (s * s, s + 1)) (wrapped 3 [7, 8]) 2).bind generatedValue = some 25 := by decide

end Sprout
