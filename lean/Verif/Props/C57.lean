import Verif.Proofs.UniformInt5

/-!
# C57: `uniform_int_distribution` stays within its bounds

For every engine with integral results and at least two values, every integer type and all bounds: the result lies between the bounds, and
nothing undefined happens. Refuted: if the number of values is a power of the number of values of the engine, the smallest value is not added;
and if the engine's result type is narrower than the distribution's, adding a negative smallest value goes wrong.
-/

namespace Sprout
open UInt Spec

/-- the numbers come from the engine -/
def FromEngine (E : Engine) (l : List Int) : Prop := ∀ v ∈ l, E.min ≤ v ∧ v ≤ E.max

/-- the full statement (`twice`: with C++14 constexpr) -/
def C57_statement (twice : Bool) : Prop :=
  ∀ (E : Engine) (T : CInt) (mn mx : Int), E.Ok → T.Std → T.Has mn → T.Has mx → mn ≤ mx →
    ∀ l, FromEngine E l →
      (∀ r l', gen twice E T mn mx l = some (r, l') → mn ≤ r ∧ r ≤ mx) ∧
      (gen twice E T mn mx l = none → ∃ l' r, FromEngine E l' ∧ gen twice E T mn mx (l ++ l') = some (r, []))

/-- the bounds -/
theorem C57_bounds_partial (twice : Bool) {E : Engine} {T : CInt} {mn mx : Int} (h : DistOk E T mn mx) {l l' : List Int} {r : Int}
    (hl : FromEngine E l) (e : gen twice E T mn mx l = some (r, l')) : mn ≤ r ∧ r ≤ mx := gen_range h twice hl e

/-- no undefined behaviour: if there is no result, only because the engine has to be asked for more numbers -/
theorem C57_defined_partial (twice : Bool) {E : Engine} {T : CInt} {mn mx : Int} (h : DistOk E T mn mx) {l : List Int}
    (hl : FromEngine E l) (e : gen twice E T mn mx l = none) :
    ∃ l' r, FromEngine E l' ∧ gen twice E T mn mx (l ++ l') = some (r, []) := by
  obtain ⟨l', h1, r, h2⟩ := gen_more h twice hl e
  exact ⟨l', r, h1, h2⟩

/-- nothing but the two defects is excluded if the result type is not wider than the engine's and `mn = 0` -/
theorem C57_zero {E : Engine} {T : CInt} {mx : Int} (hE : E.Ok) (hT : T.Std) (hmx : T.Has mx) (h0 : 0 ≤ mx) : DistOk E T 0 mx where
  eng := hE
  std := hT
  hmn := by have := hT.bounds; unfold CInt.Has; omega
  hmx := hmx
  le := h0
  add := fun _ _ => Or.inr (Or.inl (Int.le_refl 0))
  pow := fun _ _ _ => rfl

/-- an engine with all 32-bit numbers, such as `mt19937` -/
def engine32 : Engine := ⟨.uint32, 0, 4294967295⟩
/-- an engine with all 8-bit numbers -/
def engine8 : Engine := ⟨.uint8, 0, 255⟩
/-- an engine with two values -/
def engine1 : Engine := ⟨.uint8, 0, 1⟩

theorem engine32_ok : engine32.Ok := ⟨by decide, by decide, by decide, by decide⟩
theorem engine8_ok : engine8.Ok := ⟨by decide, by decide, by decide, by decide⟩
theorem engine1_ok : engine1.Ok := ⟨by decide, by decide, by decide, by decide⟩

/-- `uniform_int_distribution<int>(1, 4)` and an engine with two values: the results are 0, 1, 2, 3 -/
theorem C57_power (twice : Bool) {l l' : List Int} {r : Int} (hl : FromEngine engine1 l)
    (e : gen twice engine1 .int32 1 4 l = some (r, l')) : 0 ≤ r ∧ r ≤ 3 := by
  obtain ⟨z, h1, h2, rfl⟩ := gen_power engine1_ok (by decide) (by decide) (by decide) (by decide) (k := 2) (by decide) twice hl e
  rw [CInt.conv_ok (by decide) (by unfold CInt.Has; simp only [CInt.int32, CInt.min, CInt.max]; norm_num; omega)]
  exact ⟨h1, by simpa using h2⟩

/-- in particular 0, below the smallest value, is one of them -/
theorem C57_power_zero (twice : Bool) : gen twice engine1 .int32 1 4 [0, 0] = some (0, []) := by
  have e1 : subtract .int32 4 1 = some 3 := by decide
  have e2 : subtract engine1.T engine1.max engine1.min = some 1 := by decide
  have e3 : limitOf CInt.int32.uns 3 1 = some 2 := by decide
  have e4 : lowDigits engine1 CInt.int32.uns 3 1 2 0 1 [0, 0] = some (.inl (0, [])) := by decide
  rw [gen.eq_def, e1, e2]
  simp only [Option.bind_eq_bind, Option.bind_some]
  rw [if_neg (by decide), if_neg (by decide), if_pos (by decide), gen2.eq_def]
  simp only [Option.bind_eq_bind, e3, Option.bind_some, e4]
  decide

theorem C57_power_false (twice : Bool) : ¬ C57_statement twice := by
  intro h
  have := (h engine1 .int32 1 4 engine1_ok (by decide) (by decide) (by decide) (by decide) [0, 0] (by unfold FromEngine; decide)).1 0 [] (C57_power_zero twice)
  omega

/-- `uniform_int_distribution<long long>(-5, 5)` with a 32-bit engine: instead of -1 the result is 4294967295 -/
theorem C57_wide (twice : Bool) : gen twice engine32 .int64 (-5) 5 [1561806288] = some (4294967295, []) := by
  have e1 : subtract .int64 5 (-5) = some 10 := by decide
  have e2 : subtract engine32.T engine32.max engine32.min = some 4294967295 := by decide
  have e3 : bucketOf engine32.T.uns 10 4294967295 = some 390451572 := by decide
  rw [gen.eq_def, e1, e2]
  simp only [Option.bind_eq_bind, Option.bind_some]
  rw [if_neg (by decide), if_neg (by decide), if_neg (by decide), e3, Option.bind_some]
  decide

theorem C57_wide_false (twice : Bool) : ¬ C57_statement twice := by
  intro h
  have := (h engine32 .int64 (-5) 5 engine32_ok (by decide) (by decide) (by decide) (by decide) [1561806288] (by unfold FromEngine; decide)).1 _ _ (C57_wide twice)
  omega

/-- `uniform_int_distribution<int>(-257, -247)` with an 8-bit engine: instead of -257 the result is -1 -/
theorem C57_narrow (twice : Bool) : gen twice engine8 .int32 (-257) (-247) [0] = some (-1, []) := by
  have e1 : subtract .int32 (-247) (-257) = some 10 := by decide
  have e2 : subtract engine8.T engine8.max engine8.min = some 255 := by decide
  have e3 : bucketOf engine8.T.uns 10 255 = some 23 := by decide
  rw [gen.eq_def, e1, e2]
  simp only [Option.bind_eq_bind, Option.bind_some]
  rw [if_neg (by decide), if_neg (by decide), if_neg (by decide), e3, Option.bind_some]
  decide

/-- with C++14 constexpr two numbers are taken from the engine if it has as many values as the distribution, otherwise one -/
theorem C57_twice : gen true engine8 .int32 0 255 [1, 2] = some (2, []) ∧ gen false engine8 .int32 0 255 [1, 2] = some (1, [2]) := by
  have e1 : subtract .int32 255 0 = some 255 := by decide
  have e2 : subtract engine8.T engine8.max engine8.min = some 255 := by decide
  constructor <;> rw [gen.eq_def, e1, e2] <;> simp only [Option.bind_eq_bind, Option.bind_some] <;>
    rw [if_neg (by decide), if_pos (by decide)] <;> decide

/-- `uniform_int_distribution<int>(1, 6)` and `mt19937` -/
example : DistOk engine32 .int32 1 6 where
  eng := engine32_ok
  std := by decide
  hmn := by decide
  hmx := by decide
  le := by decide
  add := fun _ _ => Or.inr (Or.inl (by decide))
  pow := fun h => absurd h (by decide)

example (twice : Bool) : gen twice engine32 .int32 1 6 [4000000000] = some (6, []) := by
  have e1 : subtract .int32 6 1 = some 5 := by decide
  have e2 : subtract engine32.T engine32.max engine32.min = some 4294967295 := by decide
  have e3 : bucketOf engine32.T.uns 5 4294967295 = some 715827882 := by decide
  rw [gen.eq_def, e1, e2]
  simp only [Option.bind_eq_bind, Option.bind_some]
  rw [if_neg (by decide), if_neg (by decide), if_neg (by decide), e3, Option.bind_some]
  decide

end Sprout
