import Verif.Proofs.Bits2

/-! # Lemmas about rotations and masks -/

namespace Sprout
open Spec
variable {w : Nat}

theorem rotl_spec (hw : Width w) (x : BitVec w) (s : Nat) (hs : s < w) (h0 : 0 < s ∨ w < 32) :
    ∃ r, rotl x s = some r ∧ ∀ i < w, r.getLsbD ((i + s) % w) = x.getLsbD i := by
  have hp := le_prom w
  have hsm : w < 32 → w ≤ 16 ∧ w < prom w := by
    obtain ⟨a, rfl⟩ := hw
    intro h; have := width_small a h; exact ⟨this, by unfold prom; omega⟩
  have e1 : shlP w (ext x) s = some (ext x <<< s) := by
    apply shlP_eq _ (by omega)
    intro h
    have h16 := (hsm h).1
    rw [ext_toNat]
    have h1 : x.toNat * 2 ^ s < 2 ^ w * 2 ^ s := Nat.mul_lt_mul_of_pos_right x.isLt (Nat.pow_pos (by omega))
    rw [← Nat.pow_add] at h1
    exact Nat.lt_of_lt_of_le h1 (Nat.pow_le_pow_right (by omega) (by omega))
  have e2 : shlr x ((w : Int) - s) = some (x >>> (w - s)) := by
    rw [show ((w : Int) - s) = ((w - s : Nat) : Int) by omega]
    apply shlr_eq
    rcases h0 with h | h
    · omega
    · have := (hsm h).2; omega
  unfold rotl
  rw [e1, e2]
  refine ⟨_, rfl, ?_⟩
  intro i hi
  have hm : (i + s) % w < w := Nat.mod_lt _ (by omega)
  rw [back_getLsbD _ hm, BitVec.getLsbD_or, ext_getLsbD, BitVec.getLsbD_ushiftRight, BitVec.getLsbD_shiftLeft,
    ext_getLsbD]
  rcases Nat.lt_or_ge (i + s) w with h | h
  · rw [Nat.mod_eq_of_lt h, BitVec.getLsbD_of_ge x (w - s + (i + s)) (by omega)]
    have h1 : i + s < prom w := by omega
    simp [h1]
  · have hmod : (i + s) % w = i + s - w := by
      rw [Nat.mod_eq_sub_mod h, Nat.mod_eq_of_lt (by omega)]
    rw [hmod, show w - s + (i + s - w) = i by omega]
    have h1 : i + s - w < s := by omega
    simp [h1]

theorem rotr_spec (hw : Width w) (x : BitVec w) (s : Nat) (hs : s < w) (h0 : 0 < s ∨ w < 32) :
    ∃ r, rotr x s = some r ∧ ∀ i < w, r.getLsbD i = x.getLsbD ((i + s) % w) := by
  have hp := le_prom w
  have hsm : w < 32 → w ≤ 16 ∧ w < prom w := by
    obtain ⟨a, rfl⟩ := hw
    intro h; have := width_small a h; exact ⟨this, by unfold prom; omega⟩
  have hws : w - s < prom w := by
    rcases h0 with h | h
    · omega
    · have := (hsm h).2; omega
  have e1 : shlP w (ext x) ((w : Int) - s) = some (ext x <<< (w - s)) := by
    rw [show ((w : Int) - s) = ((w - s : Nat) : Int) by omega]
    apply shlP_eq _ hws
    intro h
    have h16 := (hsm h).1
    rw [ext_toNat]
    have h1 : x.toNat * 2 ^ (w - s) < 2 ^ w * 2 ^ (w - s) := Nat.mul_lt_mul_of_pos_right x.isLt (Nat.pow_pos (by omega))
    rw [← Nat.pow_add] at h1
    exact Nat.lt_of_lt_of_le h1 (Nat.pow_le_pow_right (by omega) (by omega))
  have e2 : shlr x s = some (x >>> s) := shlr_eq x (by omega)
  unfold rotr
  rw [e1, e2]
  refine ⟨_, rfl, ?_⟩
  intro i hi
  rw [back_getLsbD _ hi, BitVec.getLsbD_or, ext_getLsbD, BitVec.getLsbD_ushiftRight, BitVec.getLsbD_shiftLeft,
    ext_getLsbD]
  rcases Nat.lt_or_ge (i + s) w with h | h
  · rw [Nat.mod_eq_of_lt h, Nat.add_comm s i]
    have h1 : i < w - s := by omega
    simp [h1]
  · have hmod : (i + s) % w = i + s - w := by
      rw [Nat.mod_eq_sub_mod h, Nat.mod_eq_of_lt (by omega)]
    rw [hmod, BitVec.getLsbD_of_ge x (s + i) (by omega), show i - (w - s) = i + s - w by omega]
    have h1 : ¬ i < w - s := by omega
    have h2 : i < prom w := by omega
    simp [h1, h2]

theorem one_toNat : (1 : BitVec (prom w)).toNat = 1 := by
  have : 1 < 2 ^ prom w := Nat.one_lt_two_pow (by have := @prom_pos w; omega)
  change 1 % 2 ^ prom w = 1
  exact Nat.mod_eq_of_lt this

theorem shlP_one {b : Nat} (hb : b < prom w) : shlP w 1 b = some ((1 : BitVec (prom w)) <<< b) := by
  apply shlP_eq _ hb
  intro h
  rw [one_toNat, Nat.one_mul]
  exact Nat.pow_lt_pow_right (by omega) (by unfold prom at hb; omega)

theorem one_shl_getLsbD {b i : Nat} (hi : i < prom w) :
    ((1 : BitVec (prom w)) <<< b).getLsbD i = decide (i = b) := by
  have hp := @prom_pos w
  rw [BitVec.getLsbD_shiftLeft]
  have h1 : (1 : BitVec (prom w)).getLsbD (i - b) = decide (i - b = 0) := by
    change (1#(prom w)).getLsbD _ = _
    rw [BitVec.getLsbD_one]; simp [hp]
  rw [h1]
  rw [Bool.eq_iff_iff]
  simp [hi]; omega

theorem low_mask_getLsbD {b i : Nat} (hb : b < prom w) (hi : i < prom w) :
    ((1 : BitVec (prom w)) <<< b - 1).getLsbD i = decide (i < b) := by
  rw [getLsbD_sub_one hi, one_shl_getLsbD hi]
  rw [Bool.eq_iff_iff]
  rcases Nat.lt_trichotomy i b with h | h | h
  · have : ¬ i = b := by omega
    simp only [this, decide_false, Bool.false_xor, decide_eq_true_eq, h, iff_true]
    intro j hj
    rw [one_shl_getLsbD (by omega)]; simp; omega
  · subst h
    have : ∀ j < i, ((1 : BitVec (prom w)) <<< i).getLsbD j = false := by
      intro j hj; rw [one_shl_getLsbD (by omega)]; simp; omega
    rw [decide_eq_true this]
    simp
  · have h1 : ¬ i = b := by omega
    have h2 : ¬ i < b := by omega
    simp only [h1, decide_false, Bool.false_xor, decide_eq_true_eq, h2]
    refine ⟨fun hh => ?_, fun hh => by simp at hh⟩
    have := hh b h
    rw [one_shl_getLsbD hb] at this; simp at this

theorem ext_sub_one {x : BitVec w} {i : Nat} (hi : i < w) :
    (ext x - 1).getLsbD i = (x.getLsbD i ^^ decide (AllBelow false x i)) := by
  have hp := le_prom w
  rw [getLsbD_sub_one (by omega)]
  simp only [ext_getLsbD]; rfl

theorem ext_add_one {x : BitVec w} {i : Nat} (hi : i < w) :
    (ext x + 1).getLsbD i = (x.getLsbD i ^^ decide (AllBelow true x i)) := by
  have hp := le_prom w
  rw [getLsbD_add_one (by omega)]
  simp only [ext_getLsbD]; rfl

theorem ext_neg {x : BitVec w} {i : Nat} (hi : i < w) :
    (- ext x).getLsbD i = (x.getLsbD i ^^ !decide (AllBelow false x i)) := by
  have hp := le_prom w
  rw [getLsbD_negOne (by omega)]
  simp only [ext_getLsbD, ← decide_not]
  congr 2
  simp [AllBelow]

end Sprout
