import Verif.Model.Engines
import Verif.Props.C39
import Mathlib.Data.ZMod.Basic
import Mathlib.FieldTheory.Finite.Basic
import Mathlib.Tactic.NormNum.Prime

/-!
# C60: inversive congruential engine

For all integer types, primes `p` and `0 <= a, b < p`: the state `x` is followed by `a / x + b` in the field with `p` elements (0 for `1 / 0`).
Refuted for 64-bit types where the product is not implemented (as in C39), and for `a = b = 0`.
-/

namespace Sprout
open CMod CInt

/-- what follows `x` -/
def Spec.iceNext (p : Nat) (a b x y : Int) : Prop := (y : ZMod p) = (a : ZMod p) * (x : ZMod p)⁻¹ + (b : ZMod p)

/-- the full statement -/
def C60_statement : Prop := ∀ (T : CInt) (a b : Int) (p : Nat) (x : Int), p.Prime → LcgParams T a b p → Ice.staticMin b ≤ x → x ≤ Ice.staticMax p →
  ∃ y, Ice.next T a b p x = some y ∧ Spec.iceNext p a b x y ∧ Ice.staticMin b ≤ y ∧ y ≤ Ice.staticMax p

set_option maxRecDepth 100000 in
theorem prime4294967311 : Nat.Prime 4294967311 := by norm_num

set_option maxRecDepth 100000 in
theorem prime2147483647 : Nat.Prime 2147483647 := by norm_num

theorem C60_general_false : ¬ C60_statement := by
  intro h
  obtain ⟨y, h1, -⟩ := h .uint64 4294967310 1 4294967311 1 prime4294967311
    ⟨by decide, by decide, by decide, by decide, by decide, by decide, by decide⟩ (by decide) (by decide)
  have e : Ice.next .uint64 4294967310 1 ((4294967311 : Nat) : Int) 1 = none := by
    rw [Ice.next, show invert .uint64 ((4294967311 : Nat) : Int) 1 = some 1 from rfl]
    decide
  rw [e] at h1
  cases h1

/-- `a = b = 0`: every state is followed by 0, below `min() = 1` -/
theorem C60_zero_false : ¬ C60_statement := by
  intro h
  obtain ⟨y, h1, h2, h3, h4⟩ := h .uint32 0 0 7 1 (by decide)
    ⟨by decide, by decide, by decide, by decide, by decide, by decide, by decide⟩ (by decide) (by decide)
  have : Ice.next .uint32 0 0 ((7 : Nat) : Int) 1 = some 0 := by decide
  rw [this] at h1
  cases h1
  exact absurd h3 (by decide)

/-- the inverse in the field -/
theorem invert_field {T : CInt} {p : Nat} (hp : p.Prime) (h : CMod.Mod T p) {x : Int} (h0 : 0 ≤ x) (h1 : x < p) :
    ∃ v, invert T p x = some v ∧ 0 ≤ v ∧ v < p ∧ (v : ZMod p) = (x : ZMod p)⁻¹ := by
  haveI := Fact.mk hp
  have hm : (2 : Int) ≤ p := by have := hp.two_le; omega
  rcases Int.lt_or_eq_of_le h0 with hx | hx
  · obtain ⟨v, e, v0, v1, hd⟩ := invert_eq h hm ⟨hx, h1⟩
    refine ⟨v, e, by omega, v1, ?_⟩
    have hg : Int.gcd x p = 1 := by
      have hnd : ¬ p ∣ x.natAbs := fun hd => by
        have := Nat.le_of_dvd (by omega) hd
        omega
      exact ((hp.coprime_iff_not_dvd.2 hnd).symm : _)
    rw [hg] at hd
    have : ((v * x - (1 : Nat) : Int) : ZMod p) = 0 := (ZMod.intCast_zmod_eq_zero_iff_dvd _ p).2 hd
    push_cast at this
    exact eq_inv_of_mul_eq_one_left (sub_eq_zero.1 this)
  · subst hx
    exact ⟨0, rfl, by omega, by omega, by simp⟩

/-- the recurrence, wherever the product can be computed -/
theorem C60_next_partial (T : CInt) (a b : Int) (p : Nat) (x : Int) (hp : p.Prime) (h : LcgParams T a b p) (hx0 : 0 ≤ x) (hxm : x < p)
    (hA : (p : Int) * p < 2 ^ 64 ∨ a ≤ 1 ∨ p * a ≤ T.max ∨ (T.sg = true ∧ (p : Int) % a < p / a)) :
    ∃ y, Ice.next T a b p x = some y ∧ Spec.iceNext p a b x y ∧ 0 ≤ y ∧ y < p := by
  have hpos : (0 : Int) < p := by have := hp.pos; omega
  obtain ⟨v, e, v0, v1, hv⟩ := invert_field hp h.mod hx0 hxm
  refine ⟨(a * v + b) % p, ?_, ?_, Int.emod_nonneg _ (by omega), Int.emod_lt_of_pos _ hpos⟩
  · rw [Ice.next, e]
    exact multAdd_eq h.mod ⟨h.a0, h.am⟩ ⟨v0, v1⟩ ⟨h.c0, h.cm⟩ (Or.inr hA)
  · unfold Spec.iceNext
    rw [ZMod.intCast_mod]
    push_cast
    rw [hv]

/-- the bounds of the engine -/
theorem C60_range_partial (a b : Int) (p : Nat) (x y : Int) (hp : p.Prime) (hab : b ≠ 0 ∨ 0 < a) (ha : a < p) (hx0 : Ice.staticMin b ≤ x)
    (hxm : x ≤ Ice.staticMax p) (h : Spec.iceNext p a b x y) (hy0 : 0 ≤ y) (hy : y < p) : Ice.staticMin b ≤ y ∧ y ≤ Ice.staticMax p := by
  haveI := Fact.mk hp
  unfold Ice.staticMin Ice.staticMax at *
  refine ⟨?_, by omega⟩
  by_cases hb : b = 0
  · rw [if_pos hb] at hx0 ⊢
    by_contra hc
    have : y = 0 := by omega
    subst this; subst hb
    unfold Spec.iceNext at h
    simp only [Int.cast_zero, add_zero] at h
    have nz : ∀ z : Int, 0 < z → z < p → (z : ZMod p) ≠ 0 := fun z z0 z1 hz => by
      have := Int.le_of_dvd z0 ((ZMod.intCast_zmod_eq_zero_iff_dvd z p).1 hz)
      omega
    exact mul_ne_zero (nz a (by omega) ha) (inv_ne_zero (nz x (by omega) (by omega))) h.symm
  · rw [if_neg hb]; exact hy0

/-- different states have different successors (`a != 0`), so the sequence of states is purely periodic -/
theorem C60_injective (a b : Int) (p : Nat) (x x' y : Int) (hp : p.Prime) (ha0 : 0 < a) (ha : a < p) (hx : 0 ≤ x ∧ x < p) (hx' : 0 ≤ x' ∧ x' < p)
    (h : Spec.iceNext p a b x y) (h' : Spec.iceNext p a b x' y) : x = x' := by
  haveI := Fact.mk hp
  unfold Spec.iceNext at h h'
  have nz : (a : ZMod p) ≠ 0 := fun hz => by
    have := Int.le_of_dvd ha0 ((ZMod.intCast_zmod_eq_zero_iff_dvd a p).1 hz)
    omega
  have e := inv_injective (mul_left_cancel₀ nz (add_right_cancel (h.symm.trans h')))
  have := (ZMod.intCast_eq_intCast_iff x x' p).1 e
  unfold Int.ModEq at this
  rwa [Int.emod_eq_of_lt hx.1 hx.2, Int.emod_eq_of_lt hx'.1 hx'.2] at this

/-- seeding: the seed modulo `p`, but 1 instead of 0 when `b = 0` -/
theorem C60_seed (T : CInt) (b p x0 : Int) (h : CMod.Mod T p) (hp : 2 ≤ p) (hx : T.Has x0) :
    Ice.initSeed T b p x0 = some (if b = 0 ∧ x0 % p = 0 then 1 else x0 % p) ∧
    Ice.staticMin b ≤ (if b = 0 ∧ x0 % p = 0 then 1 else x0 % p) ∧ (if b = 0 ∧ x0 % p = 0 then 1 else x0 % p) ≤ Ice.staticMax p :=
  C39_seed T b p x0 h hp hx

/-- types of at most 32 bits: all parameters but `a = b = 0` -/
theorem C60_32 (T : CInt) (a b : Int) (p : Nat) (x : Int) (hp : p.Prime) (h : LcgParams T a b p) (hw : T.w ≤ 32) (hab : b ≠ 0 ∨ 0 < a)
    (hx0 : Ice.staticMin b ≤ x) (hxm : x ≤ Ice.staticMax p) :
    ∃ y, Ice.next T a b p x = some y ∧ Spec.iceNext p a b x y ∧ Ice.staticMin b ≤ y ∧ y ≤ Ice.staticMax p := by
  have hpp : (p : Int) * p < 2 ^ 64 := by
    have h1 := max_lt h.std
    have h2 := h.mT
    have h3 : (2 : Int) ^ T.w ≤ 2 ^ 32 := pow_le_pow_right₀ (by omega) hw
    nlinarith [hp.pos]
  obtain ⟨y, e, hy, y0, y1⟩ := C60_next_partial T a b p x hp h (by unfold Ice.staticMin at hx0; split at hx0 <;> omega)
    (by unfold Ice.staticMax at hxm; omega) (Or.inl hpp)
  exact ⟨y, e, hy, C60_range_partial a b p x y hp hab h.am hx0 hxm hy y0 y1⟩

/-- `hellekalek1995`, with `std::uint_fast32_t` of 32 or 64 bits -/
theorem C60_hellekalek1995 (T : CInt) (hT : T = .uint32 ∨ T = .uint64) (x : Int) (hx : 0 ≤ x) (h : x ≤ 2147483646) :
    ∃ y, Ice.next T 9102 2110599482 ((2147483647 : Nat) : Int) x = some y ∧ Spec.iceNext 2147483647 9102 2110599482 x y ∧ 0 ≤ y ∧ y ≤ 2147483646 := by
  have hp : LcgParams T 9102 2110599482 ((2147483647 : Nat) : Int) := by
    rcases hT with rfl | rfl <;> exact ⟨by decide, by decide, by decide, by decide, by decide, by decide, by decide⟩
  obtain ⟨y, h1, h2, h3, h4⟩ := C60_next_partial T _ _ 2147483647 x prime2147483647 hp hx (by omega) (Or.inl (by decide))
  exact ⟨y, h1, h2, h3, by omega⟩

/-- `x -> 2 / x + 1` modulo 7: 1 is followed by 3, and 3 by 4 -/
example : Ice.next .int32 2 1 ((7 : Nat) : Int) 1 = some 3 ∧ Ice.next .int32 2 1 ((7 : Nat) : Int) 3 = some 4 := by
  have e : invert .int32 ((7 : Nat) : Int) 3 = some 5 := by
    rw [invert, if_neg (by decide), if_pos (by decide), if_neg (by decide), invertLoop]
    decide
  constructor
  · decide
  · rw [Ice.next, e]; decide

end Sprout
