import Verif.Proofs.UniformSmall
import Verif.Props.C57

/-!
# C59: `uniform_smallint`

One engine number `v` gives `min + (v - engine.min) mod (max - min + 1)`, for all engines with integral results, all integer types and bounds.
Refuted: the range of the engine is computed in the result type of the distribution and may be truncated, and then the result lies
outside the bounds; with C++14 constexpr `range + 1` may overflow in the (signed) result type of the engine.
-/

namespace Sprout
open UInt

/-- the full statement (`cxx14`: with C++14 constexpr) -/
def C59_statement (cxx14 : Bool) : Prop :=
  ∀ (E : Engine) (T : CInt) (mn mx : Int), E.Ok → T.Std → T.Has mn → T.Has mx → mn ≤ mx →
    ∀ v l, E.min ≤ v → v ≤ E.max → smallint cxx14 E T mn mx (v :: l) = some (mn + (v - E.min) % (mx - mn + 1), l)

theorem C59_smallint_partial (cxx14 : Bool) {E : Engine} (hE : E.Ok) {T : CInt} (hT : T.Std) {mn mx : Int} (hmn : T.Has mn) (hmx : T.Has mx)
    (hle : mn ≤ mx) (hs : SmallOk E T mn mx) (hc : cxx14 = true → E.T.sg = true → mx - mn < E.T.max) (v : Int) (l : List Int) (h1 : E.min ≤ v)
    (h2 : v ≤ E.max) : smallint cxx14 E T mn mx (v :: l) = some (mn + (v - E.min) % (mx - mn + 1), l) :=
  smallint_eq hE hT hmn hmx hle hs hc ⟨h1, h2⟩ l

/-- hence between the bounds -/
theorem C59_bounds_partial (cxx14 : Bool) {E : Engine} (hE : E.Ok) {T : CInt} (hT : T.Std) {mn mx : Int} (hmn : T.Has mn) (hmx : T.Has mx)
    (hle : mn ≤ mx) (hs : SmallOk E T mn mx) (hc : cxx14 = true → E.T.sg = true → mx - mn < E.T.max) (v : Int) (l : List Int) (h1 : E.min ≤ v)
    (h2 : v ≤ E.max) : ∃ r, smallint cxx14 E T mn mx (v :: l) = some (r, l) ∧ mn ≤ r ∧ r ≤ mx := by
  refine ⟨_, smallint_eq hE hT hmn hmx hle hs hc ⟨h1, h2⟩ l, ?_⟩
  have a := Int.emod_nonneg (v - E.min) (show mx - mn + 1 ≠ 0 by omega)
  have b := Int.emod_lt_of_pos (v - E.min) (show 0 < mx - mn + 1 by omega)
  omega

/-- `minstd_rand0` -/
def engineMinstd : Engine := ⟨.int32, 1, 2147483646⟩
theorem engineMinstd_ok : engineMinstd.Ok := ⟨by decide, by decide, by decide, by decide⟩

/-- `uniform_smallint<short>(-32768, 32766)(minstd_rand0)` may return 32767 -/
theorem C59_truncated (cxx14 : Bool) : smallint cxx14 engineMinstd .int16 (-32768) 32766 [65536] = some (32767, []) := by
  cases cxx14 <;> decide

theorem C59_truncated_false (cxx14 : Bool) : ¬ C59_statement cxx14 := by
  intro h
  have := h engineMinstd .int16 (-32768) 32766 engineMinstd_ok (by decide) (by decide) (by decide) (by decide) 65536 [] (by decide) (by decide)
  rw [C59_truncated] at this
  revert this
  decide

/-- with an engine that has all `int`s, `uniform_smallint<int>(0, INT_MAX)` overflows with C++14 constexpr -/
theorem C59_overflow : smallint true ⟨.int32, -2147483648, 2147483647⟩ .int32 0 2147483647 [0] = none ∧
    smallint false ⟨.int32, -2147483648, 2147483647⟩ .int32 0 2147483647 [0] = some (0, []) := by decide

/-- dice with `minstd_rand0` -/
example : smallint true engineMinstd .int32 1 6 [16807, 282475249] = some (1, [282475249]) := by decide

example : SmallOk engineMinstd .int32 1 6 ∧ SmallOk engine32 .int16 (-32768) 32767 := by
  constructor <;> unfold SmallOk <;> decide

end Sprout
