import Verif.Proofs.Lcg
import Mathlib.Data.Nat.Prime.Basic
import Mathlib.RingTheory.Coprime.Lemmas

/-!
# C48: `discard(z)` of the linear congruential engine jumps `z` steps

Proved for moduli that are powers of two, for `a` and `a - 1` coprime to `m` (which covers `minstd_rand0` and `minstd_rand`), and more generally.
Refuted in three corners: `a = 1` divides by zero; `a^z = 0 (mod m)` subtracts one from zero; `(a - 1) / gcd(a - 1, m)` not
coprime to `m` has no inverse.
-/

namespace Sprout
open CMod CInt

/-- the full statement -/
def C48_statement : Prop := ∀ (T : CInt) (a c m x : Int) (z : Nat), CMod.Mod T m → AbleAll m → 0 ≤ a → a < m → 0 ≤ c → c < m → 0 ≤ x → x < m →
  z < 2 ^ 64 → Lcg.discard T a c m x z = some ((fun x => (a * x + c) % m)^[z] x)

/-- `a = 1`: division by zero, for all other parameters -/
theorem C48_one_undefined (T : CInt) (c m x : Int) (z : Nat) (h : CMod.Mod T m) : Lcg.discard T 1 c m x z = none := by
  have hb := h.std.bounds
  have hpos := h.pos
  have hm0 : mult T m 0 0 = some 0 := by
    by_cases hp : pow2 m = true
    · rw [mult_pow2 h hp (Or.inl ⟨by omega, by omega⟩)]; simp
    · rw [mult, if_neg hp, if_pos rfl]
  unfold Lcg.discard
  rw [show (1 : Int) - 1 = 0 by omega, ar_ok h.std (has_nn h.std (Int.le_refl _) (by omega))]
  simp only [Option.bind_eq_bind, Option.bind_some, show invert T m 0 = some 0 from rfl, hm0]
  rw [if_neg (by decide)]
  rfl

theorem C48_one_false : ¬ C48_statement := by
  intro h
  have h1 := h .uint32 1 1 8 0 1 ⟨by decide, by decide, by decide⟩ (Or.inl (by decide)) (by decide) (by decide) (by decide) (by decide) (by decide) (by decide) (by decide)
  rw [C48_one_undefined _ _ _ _ _ ⟨by decide, by decide, by decide⟩] at h1
  cases h1

/-- `a = 6, c = 1, m = 12`: two steps from 0 are at 7, `discard(2)` is at 11 -/
theorem C48_zero_power_false : ¬ C48_statement := by
  intro h
  have hM : CMod.Mod .uint32 12 := ⟨by decide, by decide, by decide⟩
  have h1 := h .uint32 6 1 12 0 2 hM (Or.inr (by decide)) (by decide) (by decide) (by decide) (by decide) (by decide) (by decide) (by decide)
  obtain ⟨v, v1, v2, v3, v4⟩ := invert_eq (c := 5) hM (by decide) (by decide)
  have : v = 5 := by
    rw [show Int.gcd 5 12 = 1 by decide] at v4
    omega
  subst this
  have hpw := pow_eq (a := 6) hM (Or.inr (by decide)) (by decide) (by decide) 2
  unfold Lcg.discard at h1
  rw [show ar uint32 (6 - 1) = some 5 by decide] at h1
  simp only [Option.bind_eq_bind, Option.bind_some, v1] at h1
  rw [show mult .uint32 12 5 5 = some 1 by decide] at h1
  simp only [Option.bind_some, if_true, hpw] at h1
  exact absurd h1 (by decide)

/-- `a = 9, c = 1, m = 12`: one step from 0 is at 1, `discard(1)` is at 2 -/
theorem C48_gcd_false : ¬ C48_statement := by
  intro h
  have hM : CMod.Mod .uint32 12 := ⟨by decide, by decide, by decide⟩
  have h1 := h .uint32 9 1 12 0 1 hM (Or.inr (by decide)) (by decide) (by decide) (by decide) (by decide) (by decide) (by decide) (by decide)
  obtain ⟨v, v1, v2, v3, v4⟩ := invert_eq (c := 8) hM (by decide) (by decide)
  rw [show Int.gcd 8 12 = 4 by decide] at v4
  obtain ⟨i, i1, i2, i3, i4⟩ := invert_eq (c := 2) hM (by decide) (by decide)
  rw [show Int.gcd 2 12 = 2 by decide] at i4
  have hA : AbleAll 12 := Or.inr (by decide)
  have m1 : mult .uint32 12 8 v = some 4 := by
    rw [mult_eq hM (by decide) ⟨by omega, by omega⟩ (hA.able _)]
    congr 1; omega
  have m2 : mult .uint32 12 i 2 = some 2 := by
    rw [mult_eq hM ⟨by omega, by omega⟩ (by decide) (hA.able _)]
    congr 1; omega
  have l1 := Lcg.discardLoop_eq hM hA 9 4 2 (by decide) 1 0 1
  rw [show (4 : Int) % 12 = 4 by decide, show (2 : Int) * Lcg.G 9 0 % 12 = 0 by decide, show (2 : Int) * Lcg.G 9 1 % 12 = 2 by decide] at l1
  unfold Lcg.discard at h1
  rw [show ar uint32 (9 - 1) = some 8 by decide] at h1
  simp only [Option.bind_eq_bind, Option.bind_some, v1, m1] at h1
  rw [if_neg (by decide), show Option.map uint32.conv (div uint32 8 4) = some 2 by decide] at h1
  simp only [Option.bind_some, l1, i1] at h1
  rw [show multAdd .uint32 12 4 2 1 = some 9 by decide, show mult .uint32 12 1 2 = some 2 by decide] at h1
  simp only [Option.bind_some, m2] at h1
  exact absurd h1 (by decide)

/-- the general positive statement -/
theorem C48_discard_partial (T : CInt) (a c m x : Int) (z : Nat) (h : CMod.Mod T m) (hA : T.w ≤ 32 ∨ m * m < 2 ^ 64 ∨ ∃ k : Nat, m = 2 ^ k)
    (ha : 2 ≤ a) (ham : a < m) (hc0 : 0 ≤ c) (hcm : c < m) (hx0 : 0 ≤ x) (hxm : x < m)
    (hok : (Int.gcd (a - 1) m = 1 ∧ ((∃ k : Nat, m = 2 ^ k) ∨ a ^ z % m ≠ 0)) ∨
      (Int.gcd (a - 1) m ≠ 1 ∧ Int.gcd ((a - 1) / Int.gcd (a - 1) m) m = 1)) :
    Lcg.discard T a c m x z = some ((fun x => (a * x + c) % m)^[z] x) := by
  refine Lcg.discard_eq h ?_ ⟨ha, ham⟩ ⟨hc0, hcm⟩ ⟨hx0, hxm⟩ z ?_
  · rcases hA with hA | hA | hA
    · exact ableAll_narrow h hA
    · exact Or.inr hA
    · exact Or.inl ((pow2_iff h.pos).2 hA)
  · rw [pow2_iff h.pos]; exact hok

/-- `a` and `a - 1` coprime to `m` -/
theorem C48_coprime (T : CInt) (a c m x : Int) (z : Nat) (h : CMod.Mod T m) (hA : T.w ≤ 32 ∨ m * m < 2 ^ 64)
    (ha : 2 ≤ a) (ham : a < m) (hc0 : 0 ≤ c) (hcm : c < m) (hx0 : 0 ≤ x) (hxm : x < m)
    (h1 : Int.gcd a m = 1) (h2 : Int.gcd (a - 1) m = 1) :
    Lcg.discard T a c m x z = some ((fun x => (a * x + c) % m)^[z] x) := by
  refine C48_discard_partial T a c m x z h (by tauto) ha ham hc0 hcm hx0 hxm (Or.inl ⟨h2, Or.inr ?_⟩)
  intro h0
  have hd : m ∣ a ^ z := Int.dvd_of_emod_eq_zero h0
  have hcop : IsCoprime (a ^ z) m := (Int.isCoprime_iff_gcd_eq_one.2 h1).pow_left
  have := hcop.isUnit_of_dvd' hd (dvd_refl m)
  rcases Int.isUnit_iff.1 this with h | h <;> omega

/-- powers of two: every multiplier but 0 and 1, every `z` -/
theorem C48_pow2 (T : CInt) (a c x : Int) (k z : Nat) (h : CMod.Mod T (2 ^ k))
    (ha : 2 ≤ a) (ham : a < 2 ^ k) (hc0 : 0 ≤ c) (hcm : c < 2 ^ k) (hx0 : 0 ≤ x) (hxm : x < 2 ^ k) :
    Lcg.discard T a c (2 ^ k) x z = some ((fun x => (a * x + c) % 2 ^ k)^[z] x) := by
  refine C48_discard_partial T a c _ x z h (Or.inr (Or.inr ⟨k, rfl⟩)) ha ham hc0 hcm hx0 hxm ?_
  by_cases hg : Int.gcd (a - 1) (2 ^ k) = 1
  · exact Or.inl ⟨hg, Or.inl ⟨k, rfl⟩⟩
  · refine Or.inr ⟨hg, ?_⟩
    have hg0 : 0 < Int.gcd (a - 1) (2 ^ k) := Int.gcd_pos_of_ne_zero_left _ (by omega)
    have hle : (Int.gcd (a - 1) (2 ^ k) : Int) ≤ a - 1 := Int.le_of_dvd (by omega) (Int.gcd_dvd_left ..)
    have hone := Int.gcd_ediv_gcd_ediv_gcd (i := a - 1) (j := 2 ^ k) hg0
    have hdv : Int.gcd (a - 1) (2 ^ k) ∣ 2 ^ k := by
      have : Int.gcd (a - 1) (2 ^ k) ∣ ((2 : Int) ^ k).natAbs := Int.gcd_dvd_natAbs_right ..
      rw [Int.natAbs_pow] at this
      exact this
    obtain ⟨j, hj, hgj⟩ := (Nat.dvd_prime_pow Nat.prime_two).1 hdv
    rw [hgj] at hone hle ⊢
    have hjk : j < k := by
      by_contra hc
      have : j = k := by omega
      subst this
      push_cast at hle
      omega
    have hdiv : (2 : Int) ^ k / ((2 ^ j : Nat) : Int) = 2 ^ (k - j) := by
      rw [show (2 : Int) ^ k = 2 ^ (k - j) * 2 ^ j by rw [← pow_add]; congr 1; omega]
      push_cast
      exact Int.mul_ediv_cancel _ (by positivity)
    rw [hdiv] at hone
    have hcop := Int.isCoprime_iff_gcd_eq_one.2 hone
    have h2 : IsCoprime ((a - 1) / ((2 ^ j : Nat) : Int)) 2 := (IsCoprime.pow_right_iff (by omega)).1 hcop
    exact Int.isCoprime_iff_gcd_eq_one.1 h2.pow_right

/-- `minstd_rand0`, `minstd_rand` -/
theorem C48_minstd (T : CInt) (hT : T = .uint32 ∨ T = .uint64) (a x : Int) (ha : a = 16807 ∨ a = 48271) (hx : 1 ≤ x ∧ x ≤ 2147483646) (z : Nat) :
    Lcg.discard T a 0 2147483647 x z = some ((fun x => (a * x + 0) % 2147483647)^[z] x) := by
  have hM : CMod.Mod T 2147483647 := by rcases hT with rfl | rfl <;> exact ⟨by decide, by decide, by decide⟩
  rcases ha with rfl | rfl <;>
    exact C48_coprime T _ _ _ x z hM (Or.inr (by decide)) (by decide) (by decide) (by decide) (by decide) (by omega) (by omega)
      (by decide +kernel) (by decide +kernel)

/-- the engine inside `rand48` -/
theorem C48_rand48 (x : Int) (hx : 0 ≤ x ∧ x < 2 ^ 48) (z : Nat) :
    Lcg.discard .uint64 Rand48.a Rand48.c (2 ^ 48) x z = some ((fun x => (Rand48.a * x + Rand48.c) % 2 ^ 48)^[z] x) :=
  C48_pow2 .uint64 _ _ x 48 z ⟨by decide, by decide, by decide⟩ (by decide) (by decide) (by decide) (by decide) hx.1 hx.2

example : Lcg.discard .uint32 5 3 16 1 3 = some 10 := by
  have := C48_pow2 .uint32 5 3 1 4 3 ⟨by decide, by decide, by decide⟩ (by decide) (by decide) (by decide) (by decide) (by decide) (by decide)
  exact this.trans (by decide)

end Sprout
