import Verif.Model.Mt
import Verif.Spec.Mersenne
import Mathlib.Data.Nat.Bitwise

/-!
# Proofs about the Mersenne twister: words, tempering, seeding
-/

namespace Sprout
namespace Mt
open Spec

variable {W : Nat}

/-- the parameters as numbers -/
def Par.nat (P : Par W) : MtPar :=
  ⟨P.w, P.n, P.m, P.r, P.a.toNat, P.u, P.d.toNat, P.s, P.b.toNat, P.t, P.c.toNat, P.l, P.f.toNat⟩

/-- `w` fits into the type, and no shift is by the whole width -/
structure Par.Fits (P : Par W) : Prop where
  ok : P.nat.Ok
  wW : P.w ≤ W
  r0 : 0 < P.r
  rW : P.r < W
  uW : P.u < W
  sW : P.s < W
  tW : P.t < W
  lW : P.l < W

theorem xor_lt {x y w : Nat} (hx : x < 2 ^ w) (hy : y < 2 ^ w) : x ^^^ y < 2 ^ w := Nat.xor_lt_two_pow hx hy

theorem toNat_and_shl (z b : BitVec W) (s w : Nat) (hw : w ≤ W) (hb : b.toNat < 2 ^ w) :
    ((z <<< s) &&& b).toNat = (z.toNat * 2 ^ s % 2 ^ w) &&& b.toNat := by
  rw [BitVec.toNat_and, BitVec.toNat_shiftLeft, Nat.shiftLeft_eq]
  apply Nat.eq_of_testBit_eq
  intro i
  rw [Nat.testBit_and, Nat.testBit_and, Nat.testBit_mod_two_pow, Nat.testBit_mod_two_pow]
  by_cases hi : i < w
  · have : i < W := by omega
    simp [hi, this]
  · rw [Nat.testBit_lt_two_pow (i := i) (x := b.toNat)]
    · simp
    · exact Nat.lt_of_lt_of_le hb (Nat.pow_le_pow_right (by omega) (by omega))

theorem toNat_and_shr (z d : BitVec W) (u : Nat) : ((z >>> u) &&& d).toNat = (z.toNat / 2 ^ u) &&& d.toNat := by
  rw [BitVec.toNat_and, BitVec.toNat_ushiftRight, Nat.shiftRight_eq_div_pow]

theorem shl_some {k : Nat} (x : BitVec W) (h : k < W) : shl x k = some (x <<< k) := if_pos h
theorem shr_some {k : Nat} (x : BitVec W) (h : k < W) : shr x k = some (x >>> k) := if_pos h

theorem temper_eq {P : Par W} (h : P.Fits) (z : BitVec W) :
    ∃ v, temper P z = some v ∧ v.toNat = mtTemper P.nat z.toNat := by
  unfold temper
  rw [shr_some _ h.uW]
  simp only [Option.bind_eq_bind, Option.bind_some, shl_some _ h.sW, shl_some _ h.tW, shr_some _ h.lW]
  refine ⟨_, rfl, ?_⟩
  unfold mtTemper Par.nat
  simp only [BitVec.toNat_xor, toNat_and_shr, toNat_and_shl _ _ _ P.w h.wW h.ok.b, toNat_and_shl _ _ _ P.w h.wW h.ok.c,
    BitVec.toNat_ushiftRight, Nat.shiftRight_eq_div_pow]

theorem mtTemper_lt {P : MtPar} (h : P.Ok) {x : Nat} (hx : x < 2 ^ P.w) : mtTemper P x < 2 ^ P.w := by
  unfold mtTemper
  have z1 : x ^^^ ((x / 2 ^ P.u) &&& P.d) < 2 ^ P.w := xor_lt hx (Nat.and_lt_two_pow _ h.d)
  have z2 := xor_lt z1 (Nat.and_lt_two_pow ((x ^^^ ((x / 2 ^ P.u) &&& P.d)) * 2 ^ P.s % 2 ^ P.w) h.b)
  have z3 := xor_lt z2 (Nat.and_lt_two_pow (((x ^^^ ((x / 2 ^ P.u) &&& P.d)) ^^^ ((x ^^^ ((x / 2 ^ P.u) &&& P.d)) * 2 ^ P.s % 2 ^ P.w) &&& P.b) * 2 ^ P.t % 2 ^ P.w) h.c)
  exact xor_lt z3 (Nat.lt_of_le_of_lt (Nat.div_le_self _ _) z3)

/-- bits of the concatenation -/
theorem testBit_join (x x' r i : Nat) :
    (x / 2 ^ r * 2 ^ r + x' % 2 ^ r).testBit i = if i < r then x'.testBit i else x.testBit i := by
  rw [Nat.mul_comm, Nat.testBit_two_pow_mul_add _ (Nat.mod_lt _ (Nat.two_pow_pos _))]
  split
  · rename_i hi; rw [Nat.testBit_mod_two_pow]; simp [hi]
  · rename_i hi
    rw [Nat.testBit_div_two_pow]; congr 1; omega

theorem join_toNat (x x' : BitVec W) (r : Nat) :
    ((x &&& (~~~0#W <<< r)) ||| (x' &&& ~~~(~~~0#W <<< r))).toNat = x.toNat / 2 ^ r * 2 ^ r + x'.toNat % 2 ^ r := by
  apply Nat.eq_of_testBit_eq
  intro i
  rw [testBit_join, BitVec.testBit_toNat, BitVec.testBit_toNat, BitVec.testBit_toNat]
  by_cases hW : i < W
  · by_cases hi : i < r
    · simp [hi, hW]
    · have : ¬ i < r := hi
      simp [hi, hW]
  · rw [BitVec.getLsbD_of_ge _ _ (by omega), BitVec.getLsbD_of_ge _ _ (by omega), BitVec.getLsbD_of_ge _ _ (by omega)]
    simp

theorem join_lt {x x' r w : Nat} (hr : r ≤ w) (hx : x < 2 ^ w) (_hx' : x' < 2 ^ w) : x / 2 ^ r * 2 ^ r + x' % 2 ^ r < 2 ^ w := by
  have h1 : x / 2 ^ r < 2 ^ (w - r) := by
    rw [Nat.div_lt_iff_lt_mul (Nat.two_pow_pos _), ← Nat.pow_add]; rwa [Nat.sub_add_cancel hr]
  have h2 : x' % 2 ^ r < 2 ^ r := Nat.mod_lt _ (Nat.two_pow_pos _)
  have h3 : (x / 2 ^ r + 1) * 2 ^ r ≤ 2 ^ (w - r) * 2 ^ r := Nat.mul_le_mul_right _ h1
  rw [← Nat.pow_add, Nat.sub_add_cancel hr, Nat.add_mul] at h3
  omega

theorem mtA_lt {P : MtPar} (h : P.Ok) {x x' : Nat} (hx : x < 2 ^ P.w) (hx' : x' < 2 ^ P.w) : mtA P x x' < 2 ^ P.w := by
  unfold mtA
  have := join_lt h.rw hx hx'
  refine xor_lt (by omega) ?_
  have h1 : (x / 2 ^ P.r * 2 ^ P.r + x' % 2 ^ P.r) % 2 < 2 := Nat.mod_lt _ (by omega)
  have := h.a
  have : P.a * ((x / 2 ^ P.r * 2 ^ P.r + x' % 2 ^ P.r) % 2) ≤ P.a * 1 := Nat.mul_le_mul_left _ (by omega)
  omega

theorem low_bit (x x' r : Nat) (hr : 0 < r) : (x / 2 ^ r * 2 ^ r + x' % 2 ^ r) % 2 = x' % 2 := by
  have h := testBit_join x x' r 0
  rw [if_pos hr, Nat.testBit_zero, Nat.testBit_zero] at h
  have h1 : (x / 2 ^ r * 2 ^ r + x' % 2 ^ r) % 2 < 2 := Nat.mod_lt _ (by omega)
  have h2 : x' % 2 < 2 := Nat.mod_lt _ (by omega)
  simp only [decide_eq_decide] at h
  omega

theorem toNat_bit_mul (x' a : BitVec W) (hW : 0 < W) : ((x' &&& 1#W) * a).toNat = a.toNat * (x'.toNat % 2) := by
  have e : (x' &&& 1#W).toNat = x'.toNat % 2 := by
    rw [BitVec.toNat_and, BitVec.toNat_ofNat]
    have : 1 % 2 ^ W = 1 := Nat.mod_eq_of_lt (Nat.one_lt_two_pow (by omega))
    rw [this, Nat.and_one_is_mod]
  rw [BitVec.toNat_mul, e]
  rcases Nat.mod_two_eq_zero_or_one x'.toNat with h | h <;> rw [h]
  · simp
  · rw [Nat.one_mul, Nat.mul_one, Nat.mod_eq_of_lt a.isLt]

theorem upper_some {P : Par W} (h : P.Fits) : upper P = some (~~~0#W <<< P.r) := shl_some _ h.rW

/-- one assignment of the twist -/
theorem twistAt_eq {P : Par W} (h : P.Fits) {x : List (BitVec W)} {j j1 jm : Nat} (hj : j < x.length) (hj1 : j1 < x.length) (hjm : jm < x.length) :
    ∃ v : BitVec W, twistAt P x j j1 jm = some (x.set j v) ∧ v.toNat = x[jm].toNat ^^^ mtA P.nat x[j].toNat x[j1].toNat := by
  unfold twistAt
  have hW : 1 < W := by have := h.r0; have := h.rW; omega
  rw [upper_some h]
  simp only [rd, List.getElem?_eq_getElem hj, List.getElem?_eq_getElem hj1, List.getElem?_eq_getElem hjm, Option.bind_eq_bind,
    Option.bind_some, shr_some _ hW, wr, if_pos hj]
  refine ⟨_, rfl, ?_⟩
  rw [BitVec.toNat_xor, BitVec.toNat_xor, BitVec.toNat_ushiftRight, join_toNat, toNat_bit_mul _ _ (by omega), Nat.shiftRight_eq_div_pow,
    Nat.pow_one, Nat.xor_assoc]
  unfold mtA Par.nat
  simp only
  rw [low_bit _ _ _ h.r0]

/-! ### Seeding -/

theorem maxv_toNat {P : Par W} (h : P.Fits) (x : BitVec W) : (x &&& maxv P).toNat = x.toNat % 2 ^ P.w := by
  have h1 : 2 ^ P.w ≤ 2 ^ W := Nat.pow_le_pow_right (by omega) h.wW
  have h0 : 0 < 2 ^ P.w := Nat.two_pow_pos _
  rw [BitVec.toNat_and, maxv, BitVec.toNat_ofNat, Nat.mod_eq_of_lt (a := 2 ^ P.w - 1) (by omega), Nat.and_two_pow_sub_one_eq_mod]

/-- a list holds the words `X p .. X (p + length - 1)` -/
def Holds (x : List (BitVec W)) (X : Nat → Nat) (p : Nat) : Prop := ∀ k (hk : k < x.length), x[k].toNat = X (p + k)

theorem initSeed1_eq {P : Par W} (h : P.Fits) {X : Nat → Nat} (hX : ∀ i, 0 < i → i < P.n →
      X i = (P.f.toNat * (X (i - 1) ^^^ (X (i - 1) / 2 ^ (P.w - 2))) + i) % 2 ^ P.w) :
    ∀ (k : Nat) (value : BitVec W) (args : List (BitVec W)), args.length + 1 + k = P.n → Holds (args ++ [value]) X 0 →
      ∃ x, initSeed1 P k value args = some x ∧ x.length = P.n ∧ Holds x X 0 := by
  intro k
  induction k with
  | zero => intro value args hl hh; exact ⟨_, rfl, by simp; omega, hh⟩
  | succ k ih =>
    intro value args hl hh
    have hw2 := h.ok.w2
    have hwW := h.wW
    simp only [Par.nat] at hw2
    unfold initSeed1
    rw [if_neg (by omega), shr_some _ (by omega)]
    simp only [Option.bind_eq_bind, Option.bind_some]
    refine ih _ (args ++ [value]) (by simp; omega) ?_
    intro j hj
    by_cases hj' : j < (args ++ [value]).length
    · rw [List.getElem_append_left hj']; exact hh j hj'
    · have hje : j = (args ++ [value]).length := by simp at hj hj' ⊢; omega
      subst hje
      rw [List.getElem_concat_length rfl, maxv_toNat h]
      have hv := hh args.length (by simp)
      rw [List.getElem_concat_length rfl] at hv
      have hi := hX (args.length + 1) (by omega) (by omega)
      simp only [List.length_append, List.length_singleton, Nat.zero_add, Nat.add_sub_cancel] at hi hv ⊢
      rw [hi]
      rw [BitVec.toNat_add, BitVec.toNat_mul, BitVec.toNat_xor, BitVec.toNat_ushiftRight, Nat.shiftRight_eq_div_pow, hv, BitVec.toNat_ofNat,
        Nat.mod_mod_of_dvd _ (Nat.pow_dvd_pow 2 hwW), Nat.add_mod, Nat.mod_mod_of_dvd _ (Nat.pow_dvd_pow 2 hwW),
        Nat.mod_mod_of_dvd _ (Nat.pow_dvd_pow 2 hwW), ← Nat.add_mod]

theorem seed_eq {P : Par W} (h : P.Fits) {value : BitVec W} {X : Nat → Nat} (hX : IsMt P.nat value.toNat X) :
    ∃ x, seed P value = some ⟨x, P.n⟩ ∧ x.length = P.n ∧ Holds x X 0 := by
  have hm := h.ok.mn
  have hm0 := h.ok.m0
  simp only [Par.nat] at hm hm0
  obtain ⟨x, h1, h2, h3⟩ := initSeed1_eq h (X := X) hX.init (P.n - 1) (value &&& maxv P) [] (by simp; omega) (by
    intro k hk
    have : k = 0 := by simp at hk; omega
    subst this
    simpa [Par.nat] using (maxv_toNat h value).trans hX.first.symm)
  refine ⟨x, ?_, h2, h3⟩
  unfold seed initSeed
  rw [if_neg (by omega), h1]
  rfl

end Mt
end Sprout
