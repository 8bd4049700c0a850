import Verif.Model.UniformInt
import Verif.Proofs.ConstMod
import Verif.Proofs.CIntMod

/-! # `uniform_int_distribution`: the machine arithmetic -/

namespace Sprout.UInt

theorem subtract_eq {T : CInt} (hT : T.Std) {x y : Int} (hx : T.Has x) (hy : T.Has y) (h : y ≤ x) : subtract T x y = some (x - y) := by
  obtain ⟨w, sg⟩ := T
  unfold CInt.Has at hx hy
  rcases hT with hw | hw | hw | hw <;> simp only at hw <;> subst hw <;> cases sg <;>
    simp [CInt.min, CInt.max] at hx hy <;>
    simp [subtract, CInt.ar, CInt.arith, CInt.uns, CInt.conv, CInt.min, CInt.max, CInt.Has] <;>
    (repeat' split) <;>
    (repeat (first | rw [if_pos (by omega)] | simp only [Option.bind_some])) <;> (try simp) <;> (first | omega | skip)

/-- when adding the smallest value with `add<T1, T2>` is right -/
def AddOk (T1 T2 : CInt) (y : Int) : Prop := T2.sg = false ∨ 0 ≤ y ∨ T2.w ≤ T1.w ∨ (T1.w < 32 ∧ -y ≤ 2 ^ T1.w)

theorem add_eq {T1 T2 : CInt} (h1 : T1.Std) (hu : T1.sg = false) (h2 : T2.Std) {x y : Int} (h0 : 0 ≤ x) (hx : x ≤ T1.max) (hy : T2.Has y)
    (hs : T2.Has (x + y)) (ha : AddOk T1 T2 y) : add T1 T2 x y = some (x + y) := by
  obtain ⟨b1, b2, b3, b4, b5, b6⟩ := h1.bounds
  obtain ⟨c1, c2, c3, c4, c5, c6⟩ := h2.bounds
  have b5 := b5 hu
  unfold CInt.Has at hy hs
  have simple : x ≤ T2.max → T2.ar (T2.conv x + y) = some (x + y) := by
    intro h
    rw [CInt.conv_ok h2 (by unfold CInt.Has; omega), CInt.ar_ok h2 (by unfold CInt.Has; omega)]
  unfold add
  split
  · rename_i hsg
    have c4 := c4 hsg
    split
    · exact simple (by omega)
    · rename_i hy0
      rw [CInt.arith_ok h2 (by unfold CInt.Has; omega)]
      simp only [Option.bind_eq_bind, Option.bind_some]
      rw [CInt.arith_ok h2 (by unfold CInt.Has; omega)]
      simp only [Option.bind_some]
      have hn : -(y + 1) ≤ T1.max := by
        rcases ha with ha | ha | ha | ha
        · rw [hsg] at ha; cases ha
        · omega
        · have e : (2 : Int) ^ T2.w ≤ 2 ^ T1.w := pow_le_pow_right₀ (by omega) ha
          omega
        · omega
      rw [CInt.conv_ok h1 (by unfold CInt.Has; omega)]
      split
      · rw [CInt.arith_ok h1 (by unfold CInt.Has; omega)]
        simp only [Option.bind_some]
        by_cases hlt : x - -(y + 1) = 0
        · have hxy : x + y = -1 := by omega
          have hc : T2.conv (-1) = -1 := by rw [CInt.conv_neg_one h2, if_pos hsg]
          rw [hlt, hxy]
          unfold CInt.arith
          split
          · rw [if_pos (by omega), Option.bind_some]
            exact congrArg some hc
          · rename_i hw
            rw [if_neg (by simp [hu]), Option.bind_some]
            have hle : T2.w ≤ T1.w := by
              rcases ha with ha | ha | ha | ha
              · rw [hsg] at ha; cases ha
              · omega
              · exact ha
              · omega
            rw [← hc]
            congr 1
            apply CInt.conv_congr
            have := (Int.mod_modEq (0 - 1) (2 ^ T1.w)).of_dvd (pow_dvd_pow 2 hle)
            simpa using this
        · rw [CInt.arith_ok h1 (by unfold CInt.Has; omega), Option.bind_some, show x - -(y + 1) - 1 = x + y by omega,
            CInt.conv_ok h2 (by unfold CInt.Has; omega)]
      · exact simple (by omega)
  · rename_i hsg
    have c5 := c5 (by simpa using hsg)
    exact simple (by omega)

end Sprout.UInt
