import Verif.Proofs.ConstMod

/-!
# C40: power and inverse modulo a constant

`pow` and `invert` are exact for arguments less than the modulus, which is how the engines call them. Refuted: bases not less than the modulus,
`pow(a, 0)` modulo 1, and 64-bit moduli for which the general product is not implemented.
-/

namespace Sprout
open CMod CInt

/-- the full statement for powers: all moduli, bases and exponents of the types -/
def C40_pow_statement : Prop := ∀ (T : CInt) (m a : Int) (e : Nat), CMod.Mod T m → 0 ≤ a → a ≤ T.max → e < 2 ^ 64 →
  CMod.pow T m a e = some (a ^ e % m)

/-- `pow(10, 1)` modulo 7 is 10 -/
theorem C40_pow_base_false : ¬ C40_pow_statement := by
  intro h
  have := h .uint32 7 10 1 ⟨by decide, by decide, by decide⟩ (by decide) (by decide) (by decide)
  have e : CMod.pow .uint32 7 10 1 = some 10 := by
    rw [CMod.pow, pow1, if_pos (by decide), show mult .uint32 7 10 10 = some 2 by decide]
    simp only [Option.bind_eq_bind, Option.bind_some]
    rw [if_pos (by decide), show mult .uint32 7 1 10 = some 10 by decide]
    simp only [Option.bind_some]
    rw [pow1, if_neg (by decide)]
  rw [e] at this
  exact absurd this (by decide)

/-- `pow(0, 0)` modulo 1 is 1 -/
theorem C40_pow_one_false : ¬ C40_pow_statement := by
  intro h
  have := h .uint32 1 0 0 ⟨by decide, by decide, by decide⟩ (by decide) (by decide) (by decide)
  rw [CMod.pow, pow1, if_neg (by decide)] at this
  exact absurd this (by decide)

/-- `uint64_t`, modulus `2^64 - 1`: already the square of the base is not implemented -/
theorem C40_pow_general_false : ¬ C40_pow_statement := by
  intro h
  have := h .uint64 (2 ^ 64 - 1) (2 ^ 63) 1 ⟨by decide, by decide, by decide⟩ (by decide) (by decide) (by decide)
  rw [CMod.pow, pow1, if_pos (by decide), show mult .uint64 (2 ^ 64 - 1) (2 ^ 63) (2 ^ 63) = none by decide] at this
  exact absurd this (by simp)

/-- powers of reduced bases, all exponents -/
theorem C40_pow_partial (T : CInt) (m a : Int) (e : Nat) (h : CMod.Mod T m) (hm : 2 ≤ m) (ha0 : 0 ≤ a) (ham : a < m)
    (hA : T.w ≤ 32 ∨ m * m < 2 ^ 64 ∨ ∃ k : Nat, m = 2 ^ k) : CMod.pow T m a e = some (a ^ e % m) := by
  refine pow_eq h ?_ hm ⟨ha0, ham⟩ e
  rcases hA with hA | hA | hA
  · exact ableAll_narrow h hA
  · exact Or.inr hA
  · exact Or.inl ((pow2_iff h.pos).2 hA)

/-- the inverse, for all types and moduli: no intermediate result overflows, the loop terminates, the result is reduced -/
theorem C40_invert (T : CInt) (m x : Int) (h : CMod.Mod T m) (hm : 2 ≤ m) (hx0 : 1 ≤ x) (hxm : x < m) (hg : Int.gcd x m = 1) :
    ∃ v, invert T m x = some v ∧ 1 ≤ v ∧ v < m ∧ v * x % m = 1 := by
  obtain ⟨v, h1, h2, h3, h4⟩ := invert_eq h hm ⟨hx0, hxm⟩
  refine ⟨v, h1, h2, h3, ?_⟩
  rw [hg] at h4
  obtain ⟨k, hk⟩ := h4
  exact emod_unique (k := k) (by omega) (by omega) (by push_cast at hk; omega)

/-- if `x` is not coprime to `m`, the product of `x` and the result is the greatest common divisor; so 1 only if there is an inverse -/
theorem C40_invert_gcd (T : CInt) (m x : Int) (h : CMod.Mod T m) (hm : 2 ≤ m) (hx0 : 1 ≤ x) (hxm : x < m) :
    ∃ v, invert T m x = some v ∧ 1 ≤ v ∧ v < m ∧ v * x % m = Int.gcd x m := by
  obtain ⟨v, h1, h2, h3, h4⟩ := invert_eq h hm ⟨hx0, hxm⟩
  refine ⟨v, h1, h2, h3, ?_⟩
  have hle : (Int.gcd x m : Int) ≤ x := Int.le_of_dvd (by omega) (Int.gcd_dvd_left ..)
  obtain ⟨k, hk⟩ := h4
  exact emod_unique (k := k) (by omega) (by omega) (by omega)

/-- zero has no inverse; the code gives 0 -/
theorem C40_invert_zero (T : CInt) (m : Int) : invert T m 0 = some 0 := rfl

example : ∃ v, invert .uint32 7 3 = some v ∧ v = 5 := by
  obtain ⟨v, h1, h2, h3, h4⟩ := C40_invert .uint32 7 3 ⟨by decide, by decide, by decide⟩ (by decide) (by decide) (by decide) (by decide)
  exact ⟨v, h1, by omega⟩
example : CMod.pow .uint32 2147483647 16807 3 = some 1622650073 := by
  rw [C40_pow_partial _ _ _ _ ⟨by decide, by decide, by decide⟩ (by decide) (by decide) (by decide) (Or.inl (by decide))]; decide

end Sprout
