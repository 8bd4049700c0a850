import Verif.Props.C57

/-!
# C58: `uniform_int_distribution` is uniform

For every engine with integral results and at least two values, every integer type and all bounds: if the engine's numbers are independent and
equally likely, so are the results; for each `n`, every number between the bounds is produced by the same number of sequences of `n` engine
numbers. Refuted in the two cases of C57.
-/

namespace Sprout
open UInt Spec

/-- the full statement -/
def C58_statement (twice : Bool) : Prop :=
  ∀ (E : Engine) (T : CInt) (mn mx : Int), E.Ok → T.Std → T.Has mn → T.Has mx → mn ≤ mx →
    Equidistributed (gen twice E T mn mx) E.min E.max mn mx

theorem C58_uniform_partial (twice : Bool) {E : Engine} {T : CInt} {mn mx : Int} (h : DistOk E T mn mx) :
    Equidistributed (gen twice E T mn mx) E.min E.max mn mx := gen_equi h twice

/-- `uniform_int_distribution<T>(0, mx)`: without exceptions -/
theorem C58_zero (twice : Bool) {E : Engine} {T : CInt} {mx : Int} (hE : E.Ok) (hT : T.Std) (hmx : T.Has mx) (h0 : 0 ≤ mx) :
    Equidistributed (gen twice E T 0 mx) E.min E.max 0 mx := gen_equi (C57_zero hE hT hmx h0) twice

/-- an unsigned result type: without exceptions but for the powers -/
theorem C58_unsigned (twice : Bool) {E : Engine} {T : CInt} {mn mx : Int} (hE : E.Ok) (hT : T.Std) (hu : T.sg = false) (hmn : T.Has mn)
    (hmx : T.Has mx) (h : mn ≤ mx) (hp : ∀ k : Nat, 2 ≤ k → (E.max - E.min + 1) ^ k ≠ mx - mn + 1) :
    Equidistributed (gen twice E T mn mx) E.min E.max mn mx := by
  refine gen_equi ⟨hE, hT, hmn, hmx, h, fun _ _ => Or.inl hu, fun hlt k hk => ?_⟩ twice
  rcases Nat.lt_or_ge k 2 with h2 | h2
  · rcases Nat.lt_or_ge k 1 with h1 | h1
    · have : k = 0 := by omega
      subst this
      have := hE.lt
      rw [pow_zero] at hk
      omega
    · have : k = 1 := by omega
      subst this
      rw [pow_one] at hk
      omega
  · exact absurd hk (hp k h2)

/-- `uniform_int_distribution<int>(1, 4)` and an engine with two values: 4 is never produced -/
theorem C58_power_false (twice : Bool) : ¬ C58_statement twice := by
  intro h
  obtain ⟨n, hn⟩ := (h engine1 .int32 1 4 engine1_ok (by decide) (by decide) (by decide) (by decide)).2 4 (by decide) (by decide)
  obtain ⟨l, hl, e⟩ := ways_pos hn
  have := C57_power twice hl e
  omega

/-- the spec is not vacuous: taking the remainder of an 8-bit number modulo 6 is not uniform -/
example : ¬ Equidistributed (fun l => match l with | [] => none | v :: l => some (v % 6, l)) 0 255 0 5 := by
  intro h
  have := h.1 1 0 5 (by decide) (by decide) (by decide) (by decide)
  revert this
  decide +kernel

/-- and taking it modulo 4 is -/
example : ways (fun l => match l with | [] => none | v :: l => some (v % 4, l)) 0 255 1 3 = 64 := by decide +kernel

/-- dice with `mt19937` -/
example : Equidistributed (gen true engine32 .int32 1 6) 0 4294967295 1 6 :=
  C58_uniform_partial true (E := engine32)
    ⟨engine32_ok, by decide, by decide, by decide, by decide, fun _ _ => Or.inr (Or.inl (by decide)), fun h => absurd h (by decide)⟩

/-- a 64-bit distribution from 8-bit numbers -/
example : Equidistributed (gen true engine8 .uint64 0 999999999999) 0 255 0 999999999999 :=
  C58_zero true (E := engine8) engine8_ok (by decide) (by decide) (by decide)

end Sprout
