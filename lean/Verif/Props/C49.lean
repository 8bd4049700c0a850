import Verif.Proofs.ConstMod

/-!
# C49: `rand48`

The state follows the recurrence of POSIX `lrand48`. Refuted: the result is not the 31 high bits of the state; the state is cut down to 32 bits
before the shift, which leaves 15 bits although `max()` is `2^31 - 1`.
-/

namespace Sprout
open CMod CInt

/-- the full statement: POSIX `lrand48` -/
def C49_statement : Prop := ∀ x : Int, 0 ≤ x → x < 2 ^ 48 →
  Rand48.next x = some ((0x5DEECE66D * x + 0xB) % 2 ^ 48 / 2 ^ 17, (0x5DEECE66D * x + 0xB) % 2 ^ 48)

/-- what holds: the recurrence of the state; the result has bits 17 to 31 only -/
theorem C49_next_partial (x : Int) (h0 : 0 ≤ x) (h1 : x < 2 ^ 48) :
    Rand48.next x = some ((0x5DEECE66D * x + 0xB) % 2 ^ 48 % 2 ^ 32 / 2 ^ 17, (0x5DEECE66D * x + 0xB) % 2 ^ 48) := by
  have hM : CMod.Mod .uint64 (2 ^ 48) := ⟨by decide, by decide, by decide⟩
  have := multAdd_eq (a := Rand48.a) (x := x) (c := Rand48.c) hM ⟨by decide, by decide⟩ ⟨h0, h1⟩ ⟨by decide, by decide⟩ (Or.inl (by decide))
  unfold Rand48.next Lcg.next
  rw [show Rand48.m = 2 ^ 48 from rfl, this]
  simp only [Option.bind_eq_bind, Option.bind_some, Option.some.injEq, Prod.mk.injEq]
  refine ⟨?_, rfl⟩
  show _ = (Rand48.a * x + Rand48.c) % 2 ^ 48 % 2 ^ 32 / 2 ^ 17
  generalize (Rand48.a * x + Rand48.c) % 2 ^ 48 = y
  have hc : CInt.uint32.conv y = y % 2 ^ 32 := by simp [conv, CInt.min, uint32]
  have hn := Int.emod_nonneg y (by decide : (2 : Int) ^ 32 ≠ 0)
  rw [hc, Nat.shiftRight_eq_div_pow]
  generalize y % 2 ^ 32 = u at *
  omega

/-- so no result exceeds 32767 -/
theorem C49_small (x : Int) (h0 : 0 ≤ x) (h1 : x < 2 ^ 48) : ∃ r y, Rand48.next x = some (r, y) ∧ 0 ≤ r ∧ r ≤ 32767 ∧ r < Rand48.staticMax := by
  refine ⟨_, _, C49_next_partial x h0 h1, ?_⟩
  unfold Rand48.staticMax
  omega

/-- the successor of 1 is 0x5DEECE678, whose 31 high bits are 0x2EF76; the code gives 0x6F76 -/
theorem C49_statement_false : ¬ C49_statement := by
  intro h
  have h1 := h 1 (by decide) (by decide)
  rw [C49_next_partial 1 (by decide) (by decide)] at h1
  exact absurd h1 (by decide)

/-- seeding as `srand48` -/
theorem C49_seed (x0 : Int) (h0 : 0 ≤ x0) (h1 : x0 < 2 ^ 32) : Rand48.seed x0 = some (x0 * 2 ^ 16 + 0x330E) := by
  have hv : ((x0.toNat <<< 16 ||| 0x330e : Nat) : Int) = x0 * 2 ^ 16 + 0x330E := by
    rw [Nat.shiftLeft_eq, Nat.mul_comm, ← Nat.two_pow_add_eq_or_of_lt (by decide : 0x330e < 2 ^ 16)]
    push_cast
    rw [Int.toNat_of_nonneg h0]
    omega
  unfold Rand48.seed Lcg.initSeed
  rw [hv, rem_ok (by decide) (by omega) (by have : uint64.max = 18446744073709551615 := by decide
                                            omega) (by decide)]
  have hm : (x0 * 2 ^ 16 + 0x330E) % Rand48.m = x0 * 2 ^ 16 + 0x330E := Int.emod_eq_of_lt (by omega) (by unfold Rand48.m; omega)
  rw [hm]
  simp only [Option.map_some, Option.bind_eq_bind, Option.bind_some]
  rw [conv_ok (by decide) (has_nn (by decide) (by omega) (by have : uint64.max = 18446744073709551615 := by decide
                                                             omega)), if_neg (by omega)]
  simp only [Option.bind_some]
  unfold Lcg.staticMin Lcg.staticMax Rand48.m Rand48.c
  simp
  omega

example : Rand48.next 1 = some (0x6F76, 0x5DEECE678) := by
  rw [C49_next_partial 1 (by decide) (by decide)]; decide

end Sprout
