import Verif.Proofs.ConstMod
import Mathlib.Tactic.Ring
import Mathlib.Tactic.LinearCombination

/-! # `discard` of the linear congruential engine -/

namespace Sprout.Lcg
open CMod CInt

theorem rng {m : Int} (hm : 1 ≤ m) (y : Int) : 0 ≤ y % m ∧ y % m < m := ⟨Int.emod_nonneg _ (by omega), Int.emod_lt_of_pos _ (by omega)⟩

theorem mult_mod {T : CInt} {m : Int} (h : CMod.Mod T m) (hA : AbleAll m) (A B : Int) : mult T m (A % m) (B % m) = some (A * B % m) := by
  rw [mult_eq h (rng h.pos _) (rng h.pos _) (hA.able _), ← Int.mul_emod]

theorem add_mod {T : CInt} {m : Int} (h : CMod.Mod T m) (A B : Int) : add T m (A % m) (B % m) = some ((A + B) % m) := by
  rw [add_eq h (rng h.pos _) (rng h.pos _), ← Int.add_emod]

theorem multAdd_mod {T : CInt} {m : Int} (h : CMod.Mod T m) (hA : AbleAll m) (A B C : Int) :
    multAdd T m (A % m) (B % m) (C % m) = some ((A * B + C) % m) := by
  rw [multAdd_eq h (rng h.pos _) (rng h.pos _) (rng h.pos _) (hA.able _)]
  congr 1
  exact ((Int.mod_modEq A m).mul (Int.mod_modEq B m)).add (Int.mod_modEq C m)

/-- `1 + a + ... + a^(z-1)` -/
def G (a : Int) : Nat → Int
  | 0 => 0
  | z + 1 => a * G a z + 1

theorem G_geom (a : Int) (z : Nat) : (a - 1) * G a z = a ^ z - 1 := by
  induction z with
  | zero => simp [G]
  | succ z ih => rw [G, pow_succ]; linear_combination a * ih

theorem G_add (a : Int) (u k : Nat) : G a (u + k) = (a - 1) * (G a u * G a k) + (G a u + G a k) := by
  induction u with
  | zero => simp [G]
  | succ u ih =>
    rw [show u + 1 + k = u + k + 1 by omega, G, ih, G]
    ring

theorem iterate_eq (a c m x : Int) (hx : 0 ≤ x ∧ x < m) (z : Nat) :
    (fun x => (a * x + c) % m)^[z] x = (a ^ z * x + c * G a z) % m := by
  induction z with
  | zero => simp [G, Int.emod_eq_of_lt hx.1 hx.2]
  | succ z ih =>
    rw [Function.iterate_succ_apply', ih]
    have : a * (a ^ z * x + c * G a z) + c = a ^ (z + 1) * x + c * G a (z + 1) := by rw [G, pow_succ]; ring
    rw [← this]
    exact ((Int.mod_modEq _ m).mul_left a).add_right c

theorem discardLoop_eq {T : CInt} {m : Int} (h : CMod.Mod T m) (hA : AbleAll m) (a g f : Int) (hf : g * f = a - 1) :
    ∀ (e u k : Nat), discardLoop T m (g % m) e (f * G a u % m) (f * G a k % m) = some (f * G a (u + k * e) % m) := by
  intro e
  induction e using Nat.strongRecOn with
  | ind e ih =>
    intro u k
    have step : ∀ u k, (do
        let p ← mult T m (f * G a u % m) (f * G a k % m)
        let s ← add T m (f * G a u % m) (f * G a k % m)
        multAdd T m (g % m) p s) = some (f * G a (u + k) % m) := by
      intro u k
      rw [mult_mod h hA, add_mod h]
      simp only [Option.bind_eq_bind, Option.bind_some]
      rw [multAdd_mod h hA, G_add, ← hf]
      congr 2
      ring
    rw [discardLoop]
    by_cases he : e = 0
    · subst he; simp
    · rw [if_pos he]
      have st2 := step k k
      simp only [Option.bind_eq_bind] at st2 step ⊢
      have last : ∀ (w : Nat), ((mult T m (f * G a k % m) (f * G a k % m)).bind fun p =>
          (add T m (f * G a k % m) (f * G a k % m)).bind fun s => (multAdd T m (g % m) p s).bind fun ak' =>
            discardLoop T m (g % m) (e / 2) (f * G a w % m) ak') = some (f * G a (w + (k + k) * (e / 2)) % m) := by
        intro w
        have : ((mult T m (f * G a k % m) (f * G a k % m)).bind fun p =>
          (add T m (f * G a k % m) (f * G a k % m)).bind fun s => (multAdd T m (g % m) p s).bind fun ak' =>
            discardLoop T m (g % m) (e / 2) (f * G a w % m) ak')
          = (((mult T m (f * G a k % m) (f * G a k % m)).bind fun p =>
          (add T m (f * G a k % m) (f * G a k % m)).bind fun s => multAdd T m (g % m) p s).bind fun ak' =>
            discardLoop T m (g % m) (e / 2) (f * G a w % m) ak') := by
          simp only [Option.bind_assoc]
        rw [this, st2]
        exact ih (e / 2) (by omega) w (k + k)
      by_cases ho : e % 2 = 1
      · rw [if_pos ho, step u k]
        simp only [Option.bind_some]
        rw [last (u + k)]
        congr 4
        conv_rhs => rw [← Nat.div_add_mod e 2, ho]
        rw [Nat.mul_add, Nat.mul_one, ← Nat.mul_assoc, Nat.mul_comm k 2, Nat.two_mul]
        omega
      · rw [if_neg ho]
        simp only [Option.bind_some]
        rw [last u]
        congr 4
        conv_rhs => rw [← Nat.div_add_mod e 2, show e % 2 = 0 by omega]
        rw [Nat.add_zero, ← Nat.mul_assoc, Nat.mul_comm k 2, Nat.two_mul]

theorem ar_neg_one {T : CInt} {m : Int} (h : CMod.Mod T m) (hp : pow2 m = true) : ∃ d, T.ar (-1) = some d ∧ d ≡ -1 [ZMOD m] := by
  obtain ⟨h1, h2, h3, h4, h5, h6⟩ := h.std.bounds
  have hc := conv_neg_one h.std
  by_cases hs : T.sg = true
  · rw [if_pos hs] at hc
    refine ⟨-1, ?_, Int.ModEq.refl _⟩
    exact ar_ok h.std (by unfold Has; have := h4 hs; omega)
  · rw [if_neg hs] at hc
    have h0 := h5 (by simpa using hs)
    have hmod : T.max ≡ -1 [ZMOD m] := by
      refine (Int.modEq_iff_dvd.2 ?_).symm
      have := (h.pow2_dvd hp).1
      rw [h6, h0] at this
      rwa [show T.max - -1 = T.max - 0 + 1 by omega]
    refine ⟨T.max, ?_, hmod⟩
    unfold ar arith
    split
    · rw [if_pos (by omega)]; exact congrArg some hc
    · rw [h6, h0]
      have : (-1 : Int) % (T.max - 0 + 1) = T.max := emod_unique (k := -1) (by omega) (by omega) (by omega)
      rw [this]
      exact congrArg some (conv_ok h.std (by unfold Has; omega))

theorem discard_eq {T : CInt} {a c m x : Int} (h : CMod.Mod T m) (hA : AbleAll m) (ha : 2 ≤ a ∧ a < m) (hc : 0 ≤ c ∧ c < m) (hx : 0 ≤ x ∧ x < m)
    (z : Nat) (hok : (Int.gcd (a - 1) m = 1 ∧ (pow2 m = true ∨ a ^ z % m ≠ 0)) ∨
      (Int.gcd (a - 1) m ≠ 1 ∧ Int.gcd ((a - 1) / Int.gcd (a - 1) m) m = 1)) :
    discard T a c m x z = some ((fun x => (a * x + c) % m)^[z] x) := by
  have hle := h.le
  rw [iterate_eq a c m x hx]
  obtain ⟨v, v1, v2, v3, v4⟩ := invert_eq (c := a - 1) h (by omega) (by omega)
  have hgle : (Int.gcd (a - 1) m : Int) ≤ a - 1 := Int.le_of_dvd (by omega) (Int.gcd_dvd_left ..)
  have hgd : (Int.gcd (a - 1) m : Int) ∣ a - 1 := Int.gcd_dvd_left ..
  have hg0 : 0 < Int.gcd (a - 1) m := Int.gcd_pos_of_ne_zero_left _ (by omega)
  have hgm : v * (a - 1) % m = Int.gcd (a - 1) m := by
    obtain ⟨k, hk⟩ := v4
    exact emod_unique (k := k) (by omega) (by omega) (by omega)
  unfold discard
  rw [ar_ok h.std (has_nn h.std (by omega) (by omega))]
  simp only [Option.bind_eq_bind, Option.bind_some]
  rw [v1]
  simp only [Option.bind_some]
  rw [mult_eq h ⟨by omega, by omega⟩ ⟨by omega, by omega⟩ (hA.able _), Int.mul_comm, hgm]
  simp only [Option.bind_some]
  have xm : x = x % m := (Int.emod_eq_of_lt hx.1 hx.2).symm
  have cm : c = c % m := (Int.emod_eq_of_lt hc.1 hc.2).symm
  have vm : v = v % m := (Int.emod_eq_of_lt (by omega) (by omega)).symm
  by_cases hg : Int.gcd (a - 1) m = 1
  · rw [if_pos (by omega), pow_eq h hA (by omega) (by omega)]
    simp only [Option.bind_some]
    have r := rng h.pos (a ^ z)
    have key : (T.ar (a ^ z % m - 1)).bind (fun d => (mult T m (c * v % m) d)) = some (c * v * (a ^ z - 1) % m) := by
      by_cases hz : a ^ z % m = 0
      · rcases hok with ⟨-, hp | hne⟩ | ⟨hne, -⟩
        · rw [hz]
          obtain ⟨d, hd, hdm⟩ := ar_neg_one h hp
          rw [show (0 : Int) - 1 = -1 by omega, hd, Option.bind_some, mult_pow2 h hp (Or.inl (rng h.pos _))]
          congr 1
          have e1 : a ^ z ≡ 0 [ZMOD m] := hz.trans (by simp)
          exact ((Int.mod_modEq _ m).mul hdm).trans (Int.ModEq.mul_left _ (by simpa using (e1.sub_right 1).symm))
        · exact absurd hz hne
        · exact absurd hg hne
      · rw [ar_ok h.std (has_nn h.std (by omega) (by omega)), Option.bind_some]
        have : a ^ z % m - 1 = (a ^ z - 1) % m := by
          have e1 := (Int.mod_modEq (a ^ z) m).sub_right 1
          rw [← Int.emod_eq_of_lt (a := a ^ z % m - 1) (b := m) (by omega) (by omega)]
          exact e1
        rw [this, mult_mod h hA]
    have e0 : mult T m c v = some (c * v % m) := by
      rw [mult_eq h hc ⟨by omega, by omega⟩ (hA.able _)]
    have : ((T.ar (a ^ z % m - 1)).bind fun d => (mult T m c v).bind fun k => (mult T m k d).bind fun k => multAdd T m (a ^ z % m) x k)
        = ((T.ar (a ^ z % m - 1)).bind (fun d => (mult T m (c * v % m) d))).bind fun k => multAdd T m (a ^ z % m) x k := by
      rw [e0, Option.bind_assoc]; rfl
    rw [this, key, Option.bind_some]
    conv_lhs => rw [xm]
    rw [multAdd_mod h hA]
    congr 1
    refine Int.ModEq.add_left _ ?_
    have e1 : v * (a - 1) ≡ 1 [ZMOD m] := by
      rw [Int.ModEq, hgm, hg]
      exact (Int.emod_eq_of_lt (by omega) (by omega)).symm
    have e2 : c * v * (a ^ z - 1) = (v * (a - 1)) * (c * G a z) := by rw [← G_geom]; ring
    rw [e2]
    simpa using e1.mul_right (c * G a z)
  · rw [if_neg (by omega)]
    rcases hok with ⟨h1, -⟩ | ⟨-, hcop⟩
    · exact absurd h1 hg
    · have hb := h.std.bounds
      rw [div_ok h.std (by omega) (by omega) (by omega)]
      generalize hgg : (Int.gcd (a - 1) m : Int) = g at *
      obtain ⟨f, hf⟩ := hgd
      have hfd : (a - 1) / g = f := by rw [hf, Int.mul_ediv_cancel_left _ (by omega)]
      rw [hfd] at hcop ⊢
      have hf1 : 1 ≤ f := by
        by_contra hc
        have : g * f ≤ 0 := Int.mul_nonpos_of_nonneg_of_nonpos (by omega) (by omega)
        omega
      have hfm : f ≤ a - 1 := by rw [hf]; have := le_mul_pos (x := f) (by omega) (by omega : 1 ≤ g); rw [Int.mul_comm] at this; exact this
      simp only [Option.map_some, Option.bind_some]
      rw [conv_ok h.std (has_nn h.std (by omega) (by omega))]
      have gm : g = g % m := (Int.emod_eq_of_lt (by omega) (by omega)).symm
      have fm : f = f % m := (Int.emod_eq_of_lt (by omega) (by omega)).symm
      have l1 := discardLoop_eq h hA a g f hf.symm z 0 1
      have eG1 : f * G a 1 = f := by simp [G]
      have eG0 : f * G a 0 = 0 := by simp [G]
      rw [eG0, eG1, ← gm, ← fm, Int.zero_emod, Nat.zero_add, Nat.one_mul] at l1
      rw [l1]
      simp only [Option.bind_some]
      have one : (1 : Int) = 1 % m := (Int.emod_eq_of_lt (by omega) (by omega)).symm
      have l2 : multAdd T m g (f * G a z % m) 1 = some ((g * (f * G a z) + 1) % m) := by
        have := multAdd_mod h hA g (f * G a z) 1
        rwa [← gm, ← one] at this
      rw [l2]
      simp only [Option.bind_some]
      obtain ⟨i, i1, i2, i3, i4⟩ := invert_eq (c := f) h (by omega) (by omega)
      rw [i1]
      simp only [Option.bind_some]
      have l3 : mult T m c (f * G a z % m) = some (c * (f * G a z) % m) := by
        have := mult_mod h hA c (f * G a z)
        rwa [← cm] at this
      rw [l3]
      simp only [Option.bind_some]
      have im : i = i % m := (Int.emod_eq_of_lt (by omega) (by omega)).symm
      have l4 : mult T m i (c * (f * G a z) % m) = some (i * (c * (f * G a z)) % m) := by
        have := mult_mod h hA i (c * (f * G a z))
        rwa [← im] at this
      rw [l4]
      simp only [Option.bind_some]
      conv_lhs => rw [xm]
      rw [multAdd_mod h hA]
      congr 1
      have e1 : i * f ≡ 1 [ZMOD m] := by
        rw [hcop] at i4
        refine (Int.modEq_iff_dvd.2 ?_).symm
        simpa using i4
      have e2 : i * (c * (f * G a z)) = (i * f) * (c * G a z) := by ring
      have e3 : g * (f * G a z) + 1 = a ^ z := by rw [← Int.mul_assoc, ← hf, G_geom]; ring
      rw [e2, e3]
      refine Int.ModEq.add_left _ ?_
      simpa using e1.mul_right (c * G a z)

end Sprout.Lcg
