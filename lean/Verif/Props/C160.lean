import Verif.Model.IntFloat
import Mathlib.Tactic.Linarith
import Mathlib.Tactic.Positivity
import Mathlib.Tactic.FieldSimp

/-!
# C160: integers from an engine of floating point numbers

Refuted: the code is ill-formed. With `generator_bits::value()` of type `int` the const function would be right, the other one would not.
-/

namespace Sprout
open IntFloat

/-- the full statement: a function of the numbers in [0, 1) gives every integer below `2 ^ k` on an interval of the same length -/
def C160_statement (f : Nat → Nat → ℚ → Option Int) : Prop :=
  ∀ W d : Nat, 1 ≤ W → 1 ≤ d → ∀ r : ℚ, 0 ≤ r → r < 1 →
    ∃ v : Int, f W d r = some v ∧ 0 ≤ v ∧ v < 2 ^ min W d ∧ (v : ℚ) / 2 ^ min W d ≤ r ∧ r < ((v : ℚ) + 1) / 2 ^ min W d

/-- `min` of an `int` and a `size_t` is ill-formed, and with it all calls -/
theorem C160_ill_formed_refuted : (∀ W d r, callConst W d r = none ∧ call W d r = none) ∧ ¬ C160_statement callConst ∧ ¬ C160_statement call := by
  have h : ∀ W d r, callConst W d r = none ∧ call W d r = none := by
    intro W d r
    exact ⟨rfl, rfl⟩
  refine ⟨h, fun g => ?_, fun g => ?_⟩
  · obtain ⟨v, hv, -⟩ := g 32 24 (by norm_num) (by norm_num) 0 le_rfl one_pos
    simp [(h 32 24 0).1] at hv
  · obtain ⟨v, hv, -⟩ := g 32 24 (by norm_num) (by norm_num) 0 le_rfl one_pos
    simp [(h 32 24 0).2] at hv

/-- with arguments of the same type the largest number has all bits set; the shift of 2 does not leave the type, or leaves zero -/
theorem C160_max (W d : Nat) (hW : 1 ≤ W) (hd : 1 ≤ d) : maxT .int W d = some (2 ^ min W d - 1) := by
  have e : (if d < W then d else W) = min W d := by
    split <;> omega
  have h2 : 2 <<< (min W d - 1) = 2 ^ min W d := by
    rw [Nat.shiftLeft_eq, ← pow_succ']
    congr 1
    omega
  simp only [maxT, minT, if_true, e, Option.bind_eq_bind, Option.bind_some, h2, Option.some.injEq]
  have hp := Nat.two_pow_pos (min W d)
  rcases Nat.lt_or_ge d W with h | h
  · have hlt : 2 ^ min W d < 2 ^ W := Nat.pow_lt_pow_right (by norm_num) (by omega)
    rw [Nat.mod_eq_of_lt hlt, show 2 ^ min W d + 2 ^ W - 1 = 2 ^ min W d - 1 + 2 ^ W by omega, Nat.add_mod_right, Nat.mod_eq_of_lt (by omega)]
  · rw [show min W d = W by omega] at hp ⊢
    rw [Nat.mod_self, Nat.zero_add, Nat.mod_eq_of_lt (by omega)]

/-- the const function, if `generator_bits::value()` were an `int`, as a partial result -/
theorem C160_const_partial : C160_statement (callConstT .int) := by
  intro W d hW hd r h0 h1
  have hp : (0 : ℚ) < 2 ^ min W d := by positivity
  have hm : ((2 ^ min W d - 1 : Nat) : ℚ) + 1 = 2 ^ min W d := by
    rw [Nat.cast_sub Nat.one_le_two_pow]
    push_cast
    ring
  refine ⟨⌊r * 2 ^ min W d⌋, ?_, ?_, ?_, ?_, ?_⟩
  · simp only [callConstT, C160_max W d hW hd, Option.bind_eq_bind, Option.bind_some, hm]
  · exact Int.floor_nonneg.mpr (by positivity)
  · rw [Int.floor_lt]
    push_cast
    nlinarith
  · rw [div_le_iff₀ hp]
    exact Int.floor_le _
  · rw [lt_div_iff₀ hp]
    exact Int.lt_floor_add_one _

/-- the other function would give numbers from one to the maximum: zero is never reached -/
theorem C160_zero_refuted (W d : Nat) (hW : 1 ≤ W) (hd : 1 ≤ d) (r : ℚ) (h0 : 0 ≤ r) (h1 : r < 1) :
    ∃ v : Int, callT .int W d r = some v ∧ 1 ≤ v ∧ v < 2 ^ min W d := by
  have hm : ((2 ^ min W d - 1 : Nat) : ℚ) + 1 = 2 ^ min W d := by
    rw [Nat.cast_sub Nat.one_le_two_pow]
    push_cast
    ring
  have hn : (0 : ℚ) < ((2 ^ min W d - 1 : Nat) : ℚ) := by
    have : (1 : ℕ) < 2 ^ min W d := Nat.one_lt_two_pow (by omega)
    exact_mod_cast Nat.sub_pos_of_lt this
  refine ⟨⌊r * ((2 ^ min W d - 1 : Nat) : ℚ) + 1⌋, ?_, ?_, ?_⟩
  · simp only [callT, C160_max W d hW hd, Option.bind_eq_bind, Option.bind_some]
  · rw [Int.le_floor]
    push_cast
    have := mul_nonneg h0 hn.le
    push_cast at this
    linarith
  · rw [Int.floor_lt]
    push_cast
    rw [← hm]
    nlinarith

/-- so it does not satisfy the statement -/
theorem C160_call_refuted : ¬ C160_statement (callT .int) := by
  intro h
  obtain ⟨v, hv, -, -, h1, -⟩ := h 32 24 (by norm_num) (by norm_num) 0 le_rfl one_pos
  obtain ⟨w, hw, h2, -⟩ := C160_zero_refuted 32 24 (by norm_num) (by norm_num) 0 le_rfl one_pos
  rw [hv] at hw
  cases hw
  have : (1 : ℚ) ≤ v := by exact_mod_cast h2
  rw [div_le_iff₀ (by positivity)] at h1
  linarith

/-- not vacuous: half of the numbers of eight bits -/
example : callConstT .int 8 24 (1 / 2) = some 128 ∧ callT .int 8 24 0 = some 1 := by
  constructor
  · simp only [callConstT, C160_max 8 24 (by norm_num) (by norm_num)]
    norm_num
  · simp only [callT, C160_max 8 24 (by norm_num) (by norm_num)]
    norm_num

end Sprout
