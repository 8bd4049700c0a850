import Verif.Props.C64
import Verif.Proofs.TausPeriod

/-!
# C65: the period of `taus88`

For every seed: `T` is a period of the numbers iff it is a multiple of `(2^31 - 1) (2^29 - 1) (2^28 - 1)`, which is about `2^88`.
-/

namespace Sprout
open XorCombine Spec Lfsr TausPeriod

/-- the numbers of `taus88` with a given seed -/
theorem C65_period (x0 : BitVec 32) : ∃ st, taus88Seed x0 = some st ∧ ∃ out : Nat → BitVec 32,
    (∀ n, ∃ st', nth taus88 n st = some (out n, st')) ∧
    ∀ T, (∀ n, out (n + T) = out n) ↔ (2 ^ 31 - 1) * (2 ^ 29 - 1) * (2 ^ 28 - 1) ∣ T := by
  obtain ⟨st, e, b1, b2, b3, t1, t2, t3, z1, z2, z3, h⟩ := C64_taus88 x0
  choose out hout using h
  refine ⟨st, e, out, fun n => ⟨_, (hout n).choose_spec.1⟩, fun T => ?_⟩
  have hb := fun n => (hout n).choose_spec.2
  have p1 := per31 t1 z1
  have p2 := per29 t2 z2
  have p3 := per28 t3 z3
  have c12 : Nat.Coprime 2147483647 536870911 := by decide +kernel
  have c13 : Nat.Coprime 2147483647 268435455 := by decide +kernel
  have c23 : Nat.Coprime 536870911 268435455 := by decide +kernel
  have s1 := ((p1 _).2 (Nat.dvd_refl _)).sample
  have s2 := ((p2 _).2 (Nat.dvd_refl _)).sample
  have s3 := ((p3 _).2 (Nat.dvd_refl _)).sample
  constructor
  · intro hT
    -- the top bit
    have hv : Per T (fun n => (b1 (n * 12 + 12) ^^ b2 (n * 4 + 4)) ^^ b3 (n * 17 + 17)) := by
      intro n
      have h1 := hb (n + T) 0 (by decide)
      have h2 := hb n 0 (by decide)
      rw [hT n, h2] at h1
      simp only [Nat.add_mul, Nat.add_zero, Nat.one_mul] at h1
      simp only [Nat.add_mul]
      exact h1.symm
    have lift : ∀ {P Q : Nat} {a b : Nat → Bool}, Per P a → Per Q b → Per (P * Q) (fun n => a n ^^ b n) := by
      intro P Q a b ha hb n
      simp only [ha.mul Q n, (hb.dvd (Nat.dvd_mul_left Q P)) n]
    have d3 : 268435455 ∣ T := by
      have hs := diff_const (s3 17 17) (lift (s1 12 12) (s2 4 4)) (Nat.Coprime.mul_right c13.symm c23.symm)
        (T := T) (by intro n; have := hv n; simp only at this ⊢; rw [Bool.xor_comm, this, Bool.xor_comm])
      obtain ⟨c, hc⟩ := hs
      exact const_diff t3 p3 (by decide) (by decide +kernel) c hc
    have d2 : 536870911 ∣ T := by
      have hs := diff_const (s2 4 4) (lift (s1 12 12) (s3 17 17)) (Nat.Coprime.mul_right c12.symm c23)
        (T := T) (by
          intro n
          have := hv n
          simp only at this ⊢
          rw [← Bool.xor_assoc, Bool.xor_comm (b2 _), this, ← Bool.xor_assoc, Bool.xor_comm (b2 (n * 4 + 4))])
      obtain ⟨c, hc⟩ := hs
      exact const_diff t2 p2 (by decide) (by decide +kernel) c hc
    have d1 : 2147483647 ∣ T := by
      have hs := diff_const (s1 12 12) (lift (s2 4 4) (s3 17 17)) (Nat.Coprime.mul_right c12 c13)
        (T := T) (by
          intro n
          have := hv n
          simp only at this ⊢
          rw [← Bool.xor_assoc, this, Bool.xor_assoc])
      obtain ⟨c, hc⟩ := hs
      exact const_diff t1 p1 (by decide) (by decide +kernel) c hc
    exact Nat.Coprime.mul_dvd_of_dvd_of_dvd (Nat.Coprime.mul_left c13 c23) (Nat.Coprime.mul_dvd_of_dvd_of_dvd c12 d1 d2) d3
  · intro hT n
    have d1 : 2147483647 ∣ T := Nat.dvd_trans ⟨536870911 * 268435455, by decide +kernel⟩ hT
    have d2 : 536870911 ∣ T := Nat.dvd_trans ⟨2147483647 * 268435455, by decide +kernel⟩ hT
    have d3 : 268435455 ∣ T := Nat.dvd_trans ⟨2147483647 * 536870911, by decide +kernel⟩ hT
    apply BitVec.eq_of_toNat_eq
    apply Nat.eq_of_testBit_eq
    intro j
    rcases Nat.lt_or_ge j 32 with hj | hj
    · have h1 := hb (n + T) (31 - j) (by omega)
      have h2 := hb n (31 - j) (by omega)
      simp only [leadBit, show 32 - 1 - (31 - j) = j by omega] at h1 h2
      rw [h1, h2]
      have q1 : b1 ((n + 1 + T) * 12 + (31 - j)) = b1 ((n + 1) * 12 + (31 - j)) := ((s1 12 (31 - j)).dvd d1) (n + 1)
      have q2 : b2 ((n + 1 + T) * 4 + (31 - j)) = b2 ((n + 1) * 4 + (31 - j)) := ((s2 4 (31 - j)).dvd d2) (n + 1)
      have q3 : b3 ((n + 1 + T) * 17 + (31 - j)) = b3 ((n + 1) * 17 + (31 - j)) := ((s3 17 (31 - j)).dvd d3) (n + 1)
      rw [show n + T + 1 = n + 1 + T by omega, q1, q2, q3]
    · have h1 : 2 ^ 32 ≤ 2 ^ j := Nat.pow_le_pow_right (by decide) hj
      rw [Nat.testBit_lt_two_pow (Nat.lt_of_lt_of_le (out (n + T)).isLt h1), Nat.testBit_lt_two_pow (Nat.lt_of_lt_of_le (out n).isLt h1)]

/-- any linear feedback shift engine with the parameters of a component: the leading bits have the period `2^k - 1` -/
theorem C65_components (b : Nat → Bool) (T : Nat) :
    (IsTaus 31 13 b → NeverZero 31 b → ((∀ n, b (n + T) = b n) ↔ 2 ^ 31 - 1 ∣ T)) ∧
    (IsTaus 29 2 b → NeverZero 29 b → ((∀ n, b (n + T) = b n) ↔ 2 ^ 29 - 1 ∣ T)) ∧
    (IsTaus 28 3 b → NeverZero 28 b → ((∀ n, b (n + T) = b n) ↔ 2 ^ 28 - 1 ∣ T)) :=
  ⟨fun h z => per31 h z T, fun h z => per29 h z T, fun h z => per28 h z T⟩

example : 2 ^ 87 < (2 ^ 31 - 1) * (2 ^ 29 - 1) * (2 ^ 28 - 1) := by decide

end Sprout
