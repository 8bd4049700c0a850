import Verif.Proofs.UniformInt2

/-! # `uniform_smallint` -/

namespace Sprout.UInt

theorem subtract_wrap {T : CInt} (hT : T.Std) {x y : Int} (hx : T.Has x) (hy : T.Has y) : subtract T x y = some ((x - y) % 2 ^ T.w) := by
  obtain ⟨w, sg⟩ := T
  unfold CInt.Has at hx hy
  rcases hT with hw | hw | hw | hw <;> simp only at hw <;> subst hw <;> cases sg <;>
    simp [CInt.min, CInt.max] at hx hy <;>
    simp [subtract, CInt.ar, CInt.arith, CInt.uns, CInt.conv, CInt.min, CInt.max, CInt.Has] <;>
    (repeat' split) <;>
    (repeat (first | rw [if_pos (by omega)] | simp only [Option.bind_some])) <;> (try simp) <;> (first | omega | skip)

theorem conv_has {T : CInt} (hT : T.Std) (x : Int) : T.Has (T.conv x) := by
  obtain ⟨b1, b2, b3, b4, b5, b6⟩ := hT.bounds
  have h1 := Int.emod_nonneg (x - T.min) (show (2 : Int) ^ T.w ≠ 0 by omega)
  have h2 := Int.emod_lt_of_pos (x - T.min) (show (0 : Int) < 2 ^ T.w by omega)
  unfold CInt.conv CInt.Has
  omega

/-- when the comparison with the (truncated) range of the engine does no harm -/
def SmallOk (E : Engine) (T : CInt) (mn mx : Int) : Prop :=
  E.max - E.min < 2 ^ T.w ∨ mx - mn < (E.max - E.min) % 2 ^ T.w ∨ mx - mn = 2 ^ T.w - 1

/-- the result of `uniform_smallint` -/
theorem smallint_eq {E : Engine} (hE : E.Ok) {T : CInt} (hT : T.Std) {mn mx : Int} (hmn : T.Has mn) (hmx : T.Has mx) (hle : mn ≤ mx)
    (hs : SmallOk E T mn mx) {cxx14 : Bool} (hc : cxx14 = true → E.T.sg = true → mx - mn < E.T.max) {v : Int} (hv : E.min ≤ v ∧ v ≤ E.max)
    (l : List Int) : smallint cxx14 E T mn mx (v :: l) = some (mn + (v - E.min) % (mx - mn + 1), l) := by
  obtain ⟨b1, b2, b3, b4, b5, b6⟩ := hT.bounds
  obtain ⟨e1, e2, e3, e4, e5, e6⟩ := hE.std.bounds
  obtain ⟨u1, u2, u3, u4, u5, u6⟩ := (Uns.of hT).std.bounds
  obtain ⟨w1, w2, w3, w4, w5, w6⟩ := (Uns.of hE.std).std.bounds
  have u5 := u5 rfl
  have w5 := w5 rfl
  have h1 := hE.hmin; have h2 := hE.hmax; have h3 := hE.lt
  have hmn' := hmn; have hmx' := hmx
  unfold CInt.Has at h1 h2 hmn' hmx'
  have uw : T.uns.w = T.w := rfl
  have ew : E.T.uns.w = E.T.w := rfl
  rw [uw] at u6; rw [ew] at w6
  obtain ⟨R, hR⟩ : ∃ R : Int, mx - mn = R := ⟨_, rfl⟩
  obtain ⟨B, hB⟩ : ∃ B : Int, E.max - E.min = B := ⟨_, rfl⟩
  obtain ⟨d, hd⟩ : ∃ d : Int, v - E.min = d := ⟨_, rfl⟩
  have hb : subtract T (T.conv E.max) (T.conv E.min) = some (B % 2 ^ T.w) := by
    rw [subtract_wrap hT (conv_has hT _) (conv_has hT _), ← hB]
    exact congrArg some ((T.conv_modEq _).sub (T.conv_modEq _))
  unfold SmallOk at hs
  rw [hR, hB] at hs
  have hbn := Int.emod_nonneg B (show (2 : Int) ^ T.w ≠ 0 by omega)
  have hbl := Int.emod_lt_of_pos B (show (0 : Int) < 2 ^ T.w by omega)
  have hbB : B % 2 ^ T.w ≤ B := by
    by_cases h : B < 2 ^ T.w
    · rw [Int.emod_eq_of_lt (by omega) h]
    · omega
  have hcb : E.T.uns.conv (B % 2 ^ T.w) = B % 2 ^ T.w := CInt.conv_ok (Uns.of hE.std).std ((Uns.of hE.std).has hbn (by omega))
  -- the last step
  have fin : ∀ q : Int, 0 ≤ q → q ≤ R → add T.uns T (T.uns.conv q) mn = some (mn + q) := by
    intro q q0 q1
    rw [CInt.conv_ok (Uns.of hT).std ((Uns.of hT).has q0 (by omega)), add_eq (Uns.of hT).std rfl hT q0 (by omega) hmn (by unfold CInt.Has; omega)
      (Or.inr (Or.inr (Or.inl (Nat.le_refl _)))), Int.add_comm]
  rw [smallint, subtract_eq hT hmx hmn hle, hb]
  simp only [Option.bind_eq_bind, Option.bind_some]
  rw [subtract_eq hE.std (by unfold CInt.Has; omega) hE.hmin hv.1, hcb, hR, hd]
  simp only [Option.bind_some]
  have hmod0 := Int.emod_nonneg d (show R + 1 ≠ 0 by omega)
  have hmod1 := Int.emod_lt_of_pos d (show 0 < R + 1 by omega)
  split
  · rename_i hc'
    by_cases hBw : B < 2 ^ T.w
    · rw [Int.emod_eq_of_lt (by omega) hBw] at hc'
      rw [fin d (by omega) (by omega), Option.bind_some, Int.emod_eq_of_lt (by omega) (by omega)]
    · have hR' : R = 2 ^ T.w - 1 := by omega
      have e : T.uns.conv d = T.uns.conv (d % (R + 1)) := by
        rw [hR', Int.sub_add_cancel]
        exact T.uns.conv_congr (Int.mod_modEq _ _).symm
      rw [e, fin _ hmod0 (by omega), Option.bind_some]
  · rename_i hc'
    have hRB : R < B := by omega
    have hrem : E.T.uns.rem d (R + 1) = some (d % (R + 1)) := CInt.rem_ok (Uns.of hE.std).std (by omega) (by omega) (by omega)
    split
    · rename_i h14
      have hmax : R + 1 ≤ E.T.max := by
        cases hsg : E.T.sg with
        | true => have := hc h14 hsg; omega
        | false => have := e5 hsg; omega
      rw [CInt.conv_ok hE.std (by unfold CInt.Has; omega), CInt.arith_ok hE.std (by unfold CInt.Has; omega)]
      simp only [Option.bind_some]
      rw [CInt.conv_ok (Uns.of hE.std).std ((Uns.of hE.std).has (by omega) (by omega)), ite_self, hrem, Option.bind_some, fin _ hmod0 (by omega),
        Option.bind_some]
    · rw [CInt.conv_ok (Uns.of hE.std).std ((Uns.of hE.std).has (by omega) (by omega)), CInt.arith_ok (Uns.of hE.std).std ((Uns.of hE.std).has (by omega) (by omega))]
      simp only [Option.bind_some]
      rw [hrem, Option.bind_some, fin _ hmod0 (by omega), Option.bind_some]

end Sprout.UInt
