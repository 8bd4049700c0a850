import Verif.Proofs.Bits

/-! # Lemmas about counting leading and trailing bits, lengths and reversals -/

namespace Sprout
open Spec
variable {w : Nat}

theorem shll_eq (x : BitVec w) {s : Nat} (h : s < prom w) (hov : w < 32 → w + s ≤ 32) :
    shll x s = some (x <<< s) := by
  unfold shll
  rw [shlP_eq _ h]
  · simp only [Option.map_some]
    congr 1
    apply BitVec.eq_of_getLsbD_eq
    intro i hi
    rw [back_shl_getLsbD _ _ _ hi, ext_getLsbD, BitVec.getLsbD_shiftLeft]
    by_cases h : i < s
    · simp [h]; omega
    · simp [h, hi]; omega
  · intro hw
    rw [ext_toNat]
    have h1 : x.toNat * 2 ^ s < 2 ^ w * 2 ^ s := Nat.mul_lt_mul_of_pos_right x.isLt (Nat.pow_pos (by omega))
    rw [← Nat.pow_add] at h1
    exact Nat.lt_of_lt_of_le h1 (Nat.pow_le_pow_right (by omega) (hov hw))

theorem shrP_eq (X : BitVec (prom w)) {s : Nat} (h : s < prom w) : shrP w X s = some (X >>> s) := by
  unfold shrP
  rw [if_pos ⟨by omega, by exact_mod_cast h⟩, Int.toNat_natCast]

theorem ushiftRight_top (u : BitVec w) (hw : 0 < w) : (u >>> (w - 1)).toNat = (u.getLsbD (w - 1)).toNat := by
  change _ = (u.toNat.testBit _).toNat
  rw [BitVec.toNat_ushiftRight, Nat.testBit_eq_decide_div_mod_eq, Nat.shiftRight_eq_div_pow]
  have hlt := u.isLt
  have : u.toNat / 2 ^ (w - 1) < 2 := by
    rw [Nat.div_lt_iff_lt_mul (Nat.pow_pos (by omega)), ← Nat.pow_succ', Nat.succ_eq_add_one, Nat.sub_add_cancel hw]
    exact hlt
  have h01 : u.toNat / 2 ^ (w - 1) = 0 ∨ u.toNat / 2 ^ (w - 1) = 1 := by
    revert this; generalize u.toNat / 2 ^ (w - 1) = q; omega
  rcases h01 with h | h <;> simp [h]

theorem clzStep_spec (m : Nat) (x : BitVec w) (n : Int) (k : Nat) (hm : 0 < m) (hmw : m ≤ w)
    (hmp : m < prom w) (hov : w < 32 → w + m ≤ 32) (hk : Leading false x k) (hk2 : k < 2 * m) (hkw : k < w) :
    ∃ (y : BitVec w) (k' : Nat), clzStep m (x, n) = some (y, n + (k : Int) - k') ∧ k' ≤ k ∧ Leading false y k' ∧ k' < m := by
  obtain ⟨-, hz, hone⟩ := hk
  have hone := hone hkw
  unfold clzStep
  have e : ((w : Int) - m) = ((w - m : Nat) : Int) := by omega
  have hp := le_prom w
  simp only [e]
  rw [shlr_eq x (by omega)]
  simp only [Option.bind_eq_bind, Option.bind_some]
  by_cases hkm : k < m
  · refine ⟨x, k, ?_, Nat.le_refl _, ⟨by omega, hz, fun _ => hone⟩, hkm⟩
    rw [if_pos]
    · congr 2; omega
    · intro h0
      have : (x >>> (w - m)).getLsbD (m - 1 - k) = false := by rw [h0]; simp
      rw [BitVec.getLsbD_ushiftRight, show w - m + (m - 1 - k) = w - 1 - k by omega, hone] at this
      simp at this
  · refine ⟨x <<< m, k - m, ?_, by omega, ⟨by omega, ?_, ?_⟩, by omega⟩
    · rw [if_neg]
      · rw [shll_eq x hmp hov]
        simp only [Option.bind_some]; congr 2; omega
      · rw [ne_eq, Decidable.not_not]
        apply BitVec.eq_of_getLsbD_eq
        intro i hi
        rw [BitVec.getLsbD_ushiftRight]
        by_cases him : i < m
        · have := hz (m - 1 - i) (by omega)
          rw [show w - 1 - (m - 1 - i) = w - m + i by omega] at this
          rw [this]; simp
        · rw [BitVec.getLsbD_of_ge _ _ (by omega)]; simp
    · intro i hi
      rw [BitVec.getLsbD_shiftLeft, show w - 1 - i - m = w - 1 - (i + m) by omega, hz (i + m) (by omega)]
      simp
    · intro _
      rw [BitVec.getLsbD_shiftLeft, show w - 1 - (k - m) - m = w - 1 - k by omega, hone]
      have h1 : w - 1 - (k - m) < w := by omega
      have h2 : ¬ (w - 1 - (k - m) < m) := by omega
      simp [h1, h2]

theorem clzBytes_spec (a : Nat) : ∀ (x : BitVec w) (n : Int) (k : Nat), 8 * 2 ^ a ≤ w →
    (w < 32 → w + 4 * 2 ^ a ≤ 32) → Leading false x k → k < 8 * 2 ^ a →
    ∃ (y : BitVec w) (k' : Nat), clzBytes (2 ^ a) (x, n) = some (y, n + (k : Int) - k') ∧ k' ≤ k ∧ Leading false y k' ∧ k' < 8 := by
  induction a with
  | zero =>
    intro x n k hw hov hk hk8
    refine ⟨x, k, ?_, Nat.le_refl _, hk, by simpa using hk8⟩
    rw [clzBytes]; simp
  | succ a ih =>
    intro x n k hw hov hk hk8
    have hpow : 2 ^ (a + 1) = 2 * 2 ^ a := by rw [Nat.pow_succ]; omega
    have hpos : 0 < 2 ^ a := Nat.pow_pos (by omega)
    have hp := le_prom w
    rw [clzBytes, if_neg (by omega), if_neg (by omega)]
    rw [hpow, Nat.mul_div_cancel_left _ (by omega)]
    obtain ⟨y, k', h1, h2, h3, h4⟩ := clzStep_spec (2 ^ a * 8) x n k (by omega) (by omega) (by omega)
      (fun h => by have := hov h; omega) hk (by omega) (by omega)
    rw [h1]
    simp only [Option.bind_eq_bind, Option.bind_some]
    obtain ⟨z, k'', h5, h6, h7, h8⟩ := ih y (n + k - k') k' (by omega) (fun h => by have := hov h; omega) h3 (by omega)
    refine ⟨z, k'', ?_, by omega, h7, h8⟩
    rw [h5]; congr 2; omega

theorem exists_leading (b : Bool) (x : BitVec w) : ∃ k, Leading b x k := by
  suffices ∀ n, n ≤ w → ((∀ i < n, x.getLsbD (w - 1 - i) = b) ∨ ∃ k, Leading b x k) by
    rcases this w (Nat.le_refl _) with h | h
    · exact ⟨w, Nat.le_refl _, h, fun h => by omega⟩
    · exact h
  intro n
  induction n with
  | zero => intro _; left; intro i hi; omega
  | succ n ih =>
    intro hn
    rcases ih (by omega) with h | h
    · by_cases hb : x.getLsbD (w - 1 - n) = b
      · left; intro i hi
        by_cases hin : i = n
        · subst hin; exact hb
        · exact h i (by omega)
      · right; exact ⟨n, by omega, h, fun _ => by revert hb; cases x.getLsbD (w - 1 - n) <;> cases b <;> simp⟩
    · exact Or.inr h

theorem exists_trailing (b : Bool) (x : BitVec w) : ∃ k, Trailing b x k := by
  suffices ∀ n, n ≤ w → ((∀ i < n, x.getLsbD i = b) ∨ ∃ k, Trailing b x k) by
    rcases this w (Nat.le_refl _) with h | h
    · exact ⟨w, Nat.le_refl _, h, fun h => by omega⟩
    · exact h
  intro n
  induction n with
  | zero => intro _; left; intro i hi; omega
  | succ n ih =>
    intro hn
    rcases ih (by omega) with h | h
    · by_cases hb : x.getLsbD n = b
      · left; intro i hi
        by_cases hin : i = n
        · subst hin; exact hb
        · exact h i (by omega)
      · right; exact ⟨n, by omega, h, fun _ => by revert hb; cases x.getLsbD n <;> cases b <;> simp⟩
    · exact Or.inr h

theorem leading_zero : Leading false (0 : BitVec w) w := ⟨Nat.le_refl _, by simp, by omega⟩
theorem trailing_zero : Trailing false (0 : BitVec w) w := ⟨Nat.le_refl _, by simp, by omega⟩

theorem leading_lt {x : BitVec w} {k : Nat} (h : Leading false x k) (hx : x ≠ 0) : k < w := by
  rcases Nat.lt_or_ge k w with h1 | h1
  · exact h1
  · exfalso; apply hx
    apply BitVec.eq_of_getLsbD_eq
    intro i hi
    have := h.2.1 (w - 1 - i) (by omega)
    rw [show w - 1 - (w - 1 - i) = i by omega] at this
    rw [this]; simp

theorem trailing_lt {x : BitVec w} {k : Nat} (h : Trailing false x k) (hx : x ≠ 0) : k < w := by
  rcases Nat.lt_or_ge k w with h1 | h1
  · exact h1
  · exfalso; apply hx
    apply BitVec.eq_of_getLsbD_eq
    intro i hi
    have := h.2.1 i (by omega)
    rw [this]; simp

theorem leading_unique {b : Bool} {x : BitVec w} {k l : Nat} (h1 : Leading b x k) (h2 : Leading b x l) : k = l := by
  have aux : ∀ {k l : Nat}, Leading b x k → Leading b x l → ¬ k < l := by
    intro k l h1 h2 hlt
    have a := h2.2.1 k hlt
    have c := h1.2.2 (by have := h2.1; omega)
    rw [a] at c; cases b <;> simp at c
  have := aux h1 h2; have := aux h2 h1; omega

theorem trailing_unique {b : Bool} {x : BitVec w} {k l : Nat} (h1 : Trailing b x k) (h2 : Trailing b x l) : k = l := by
  have aux : ∀ {k l : Nat}, Trailing b x k → Trailing b x l → ¬ k < l := by
    intro k l h1 h2 hlt
    have a := h2.2.1 k hlt
    have c := h1.2.2 (by have := h2.1; omega)
    rw [a] at c; cases b <;> simp at c
  have := aux h1 h2; have := aux h2 h1; omega

theorem width_small (a : Nat) (h : 8 * 2 ^ a < 32) : 8 * 2 ^ a ≤ 16 := by
  rcases Nat.lt_or_ge a 2 with h1 | h1
  · have : 2 ^ a ≤ 2 ^ 1 := Nat.pow_le_pow_right (by omega) (by omega)
    omega
  · have : 2 ^ 2 ≤ 2 ^ a := Nat.pow_le_pow_right (by omega) h1
    omega

theorem clz_spec (hw : Width w) (x : BitVec w) {k : Nat} (hk : Leading false x k) : clz x = some (k : Int) := by
  obtain ⟨a, rfl⟩ := hw
  unfold clz
  by_cases hx : x = 0
  · rw [if_pos hx]; subst hx; rw [leading_unique leading_zero hk]
  · rw [if_neg hx]
    have hkw := leading_lt hk hx
    have hpos : 0 < 2 ^ a := Nat.pow_pos (by omega)
    have hp := le_prom (8 * 2 ^ a)
    have hs := width_small a
    obtain ⟨y, k1, h1, h2, h3, h4⟩ := clzBytes_spec a x 1 k (Nat.le_refl _) (by omega) hk hkw
    rw [Nat.mul_div_cancel_left _ (by omega), h1]
    simp only [Option.bind_eq_bind, Option.bind_some]
    unfold clzBits
    obtain ⟨z, k2, g1, g2, g3, g4⟩ := clzStep_spec 4 y (1 + (k : Int) - k1) k1 (by omega) (by omega) (by omega)
      (by omega) h3 (by omega) (by omega)
    rw [g1]
    simp only [Option.bind_eq_bind, Option.bind_some]
    unfold clzBits2
    obtain ⟨u, k3, f1, f2, f3, f4⟩ := clzStep_spec 2 z (1 + (k : Int) - k1 + k1 - k2) k2 (by omega) (by omega) (by omega)
      (by omega) g3 (by omega) (by omega)
    rw [f1]
    simp only [Option.bind_eq_bind, Option.bind_some]
    unfold clzBits1
    have e : ((8 * 2 ^ a : Nat) : Int) - 1 = ((8 * 2 ^ a - 1 : Nat) : Int) := by omega
    rw [e, shlr_eq u (by omega)]
    simp only [Option.bind_eq_bind, Option.bind_some]
    have hb := ushiftRight_top u (by omega)
    rw [hb]
    rcases Nat.lt_or_ge k3 1 with hk3 | hk3
    · have h0 : k3 = 0 := by omega
      subst h0
      have := f3.2.2 (by omega)
      rw [Nat.sub_zero] at this
      rw [this]; congr 1; simp; omega
    · have := f3.2.1 0 (by omega)
      rw [Nat.sub_zero] at this
      rw [this]; congr 1; simp; omega

theorem mask_ne_zero_iff (x : BitVec w) (m : Nat) :
    x &&& BitVec.ofNat w (2 ^ m - 1) ≠ 0 ↔ ∃ i < m, x.getLsbD i = true := by
  constructor
  · intro h
    obtain ⟨i, hi, hb, -⟩ := exists_lowest h
    rw [BitVec.getLsbD_and, BitVec.getLsbD_ofNat] at hb
    simp only [Nat.testBit_two_pow_sub_one, Bool.and_eq_true, decide_eq_true_eq] at hb
    exact ⟨i, hb.2.2, hb.1⟩
  · rintro ⟨i, hi, hb⟩ h0
    have : (x &&& BitVec.ofNat w (2 ^ m - 1)).getLsbD i = false := by rw [h0]; simp
    have hiw := BitVec.lt_of_getLsbD hb
    rw [BitVec.getLsbD_and, BitVec.getLsbD_ofNat, hb] at this
    simp [hi, hiw] at this

theorem ctzStep_spec (m : Nat) (x : BitVec w) (n : Int) (k : Nat)
    (hmp : m < prom w) (hk : Trailing false x k) (hk2 : k < 2 * m) (hkw : k < w) :
    ∃ (y : BitVec w) (k' : Nat), ctzStep m (x, n) = some (y, n + (k : Int) - k') ∧ k' ≤ k ∧ Trailing false y k' ∧ k' < m := by
  obtain ⟨-, hz, hone⟩ := hk
  have hone := hone hkw
  unfold ctzStep
  by_cases hkm : k < m
  · refine ⟨x, k, ?_, Nat.le_refl _, ⟨by omega, hz, fun _ => hone⟩, hkm⟩
    rw [if_pos]
    · congr 2; omega
    · exact (mask_ne_zero_iff x m).2 ⟨k, hkm, hone⟩
  · refine ⟨x >>> m, k - m, ?_, by omega, ⟨by omega, ?_, ?_⟩, by omega⟩
    · rw [if_neg]
      · rw [shlr_eq x hmp]
        simp only [Option.bind_eq_bind, Option.bind_some]; congr 2; omega
      · intro h
        obtain ⟨i, hi, hb⟩ := (mask_ne_zero_iff x m).1 h
        rw [hz i (by omega)] at hb; simp at hb
    · intro i hi
      rw [BitVec.getLsbD_ushiftRight]; exact hz _ (by omega)
    · intro _
      rw [BitVec.getLsbD_ushiftRight, show m + (k - m) = k by omega]; exact hone

theorem ctzBytes_spec (a : Nat) : ∀ (x : BitVec w) (n : Int) (k : Nat), 8 * 2 ^ a ≤ w →
    Trailing false x k → k < 8 * 2 ^ a →
    ∃ (y : BitVec w) (k' : Nat), ctzBytes (2 ^ a) (x, n) = some (y, n + (k : Int) - k') ∧ k' ≤ k ∧ Trailing false y k' ∧ k' < 8 := by
  induction a with
  | zero =>
    intro x n k hw hk hk8
    refine ⟨x, k, ?_, Nat.le_refl _, hk, by simpa using hk8⟩
    rw [ctzBytes]; simp
  | succ a ih =>
    intro x n k hw hk hk8
    have hpow : 2 ^ (a + 1) = 2 * 2 ^ a := by rw [Nat.pow_succ]; omega
    have hpos : 0 < 2 ^ a := Nat.pow_pos (by omega)
    have hp := le_prom w
    rw [ctzBytes, if_neg (by omega), if_neg (by omega)]
    rw [hpow, Nat.mul_div_cancel_left _ (by omega)]
    obtain ⟨y, k', h1, h2, h3, h4⟩ := ctzStep_spec (2 ^ a * 8) x n k (by omega) hk (by omega) (by omega)
    rw [h1]
    simp only [Option.bind_eq_bind, Option.bind_some]
    obtain ⟨z, k'', h5, h6, h7, h8⟩ := ih y (n + k - k') k' (by omega) h3 (by omega)
    refine ⟨z, k'', ?_, by omega, h7, h8⟩
    rw [h5]; congr 2; omega

theorem ctz_spec (hw : Width w) (x : BitVec w) {k : Nat} (hk : Trailing false x k) : ctz x = some (k : Int) := by
  obtain ⟨a, rfl⟩ := hw
  unfold ctz
  by_cases hx : x = 0
  · rw [if_pos hx]; subst hx; rw [trailing_unique trailing_zero hk]
  · rw [if_neg hx]
    have hkw := trailing_lt hk hx
    have hpos : 0 < 2 ^ a := Nat.pow_pos (by omega)
    have hp := le_prom (8 * 2 ^ a)
    obtain ⟨y, k1, h1, h2, h3, h4⟩ := ctzBytes_spec a x 0 k (Nat.le_refl _) hk hkw
    rw [Nat.mul_div_cancel_left _ (by omega), h1]
    simp only [Option.bind_eq_bind, Option.bind_some]
    unfold ctzBits
    obtain ⟨z, k2, g1, g2, g3, g4⟩ := ctzStep_spec 4 y (0 + (k : Int) - k1) k1 (by omega) h3 (by omega) (by omega)
    rw [g1]
    simp only [Option.bind_eq_bind, Option.bind_some]
    unfold ctzBits2
    obtain ⟨u, k3, f1, f2, f3, f4⟩ := ctzStep_spec 2 z (0 + (k : Int) - k1 + k1 - k2) k2 (by omega) g3 (by omega) (by omega)
    rw [f1]
    simp only [Option.bind_eq_bind, Option.bind_some]
    unfold ctzBits1
    have hm : u &&& 1 ≠ 0 ↔ ∃ i < 1, u.getLsbD i = true := mask_ne_zero_iff u 1
    rcases Nat.lt_or_ge k3 1 with hk3 | hk3
    · have h0 : k3 = 0 := by omega
      subst h0
      rw [if_pos (hm.2 ⟨0, by omega, f3.2.2 (by omega)⟩)]
      congr 1; simp only []; omega
    · rw [if_neg (fun h => by
        obtain ⟨i, hi, hb⟩ := hm.1 h
        rw [f3.2.1 i (by omega)] at hb; simp at hb)]
      congr 1; simp only []; omega

theorem width_prom (hw : Width w) : Width (prom w) := by
  obtain ⟨a, rfl⟩ := hw
  rcases Nat.lt_or_ge (8 * 2 ^ a) 32 with h | h
  · refine ⟨2, ?_⟩
    unfold prom; omega
  · exact ⟨a, by unfold prom; omega⟩

theorem cntt1_spec (hw : Width w) (x : BitVec w) {k : Nat} (hk : Trailing true x k) : cntt1 x = some (k : Int) := by
  have hp := le_prom w
  apply ctz_spec (width_prom hw)
  obtain ⟨h1, h2, h3⟩ := hk
  refine ⟨by omega, ?_, ?_⟩
  · intro i hi
    rw [BitVec.getLsbD_not, ext_getLsbD, h2 i hi]; simp
  · intro hkp
    rw [BitVec.getLsbD_not, ext_getLsbD]
    rcases Nat.lt_or_ge k w with h | h
    · rw [h3 h]; simp [hkp]
    · rw [BitVec.getLsbD_of_ge _ _ h]; simp [hkp]

theorem cntl1_wide (hw : Width w) (h32 : 32 ≤ w) (x : BitVec w) {k : Nat} (hk : Leading true x k) :
    cntl1 x = some (k : Int) := by
  have hp : prom w = w := by unfold prom; omega
  unfold cntl1 clrsb
  apply clz_spec (width_prom hw)
  obtain ⟨h1, h2, h3⟩ := hk
  refine ⟨by omega, ?_, ?_⟩
  · intro i hi
    rw [BitVec.getLsbD_not, ext_getLsbD, hp, h2 i hi]; simp
  · intro hkp
    rw [BitVec.getLsbD_not, ext_getLsbD, hp, h3 (by omega)]; simp; omega

theorem cntl1_narrow (hw : Width w) (h32 : w < 32) (x : BitVec w) : cntl1 x = some 0 := by
  have hp : prom w = 32 := by unfold prom; omega
  unfold cntl1 clrsb
  apply clz_spec (width_prom hw) (k := 0)
  refine ⟨by omega, by omega, ?_⟩
  intro _
  rw [BitVec.getLsbD_not, ext_getLsbD, hp, BitVec.getLsbD_of_ge _ _ (by omega)]; simp

/-! ### bit_length -/

def bitLenCheck : Bool :=
  (List.range 256).all (fun i => match bitLenTable[i]? with
      | some n => decide (i < 2 ^ n) && (List.range n).all (fun m => decide (2 ^ m ≤ i)) && decide (n ≤ 8)
      | none => false)

theorem bitLenCheck_true : bitLenCheck = true := by decide +kernel

theorem bitLenTable_spec : ∀ i < 256, ∃ n, bitLenTable[i]? = some n ∧ Length i n ∧ n ≤ 8 := by
  intro i hi
  have := List.all_eq_true.1 bitLenCheck_true i (List.mem_range.2 hi)
  cases hn : bitLenTable[i]? with
  | none => rw [hn] at this; simp at this
  | some n =>
    rw [hn] at this
    simp only [Bool.and_eq_true, decide_eq_true_eq, List.all_eq_true, List.mem_range] at this
    exact ⟨n, rfl, this.1, this.2⟩

theorem toNat_and_255 (n : Nat) : (n &&& 255) % 256 = n % 256 := by
  rw [show (255 : Nat) = 2 ^ 8 - 1 by rfl, Nat.and_two_pow_sub_one_eq_mod]; omega

theorem bitLen_spec (S : Nat) (x : BitVec w) (hS : 0 < S) (hx : x.toNat < 2 ^ (8 * S)) (hw : 8 * S ≤ w) :
    ∃ n, bitLen S x = some (BitVec.ofNat w n) ∧ Length x.toNat n ∧ n ≤ 8 * S := by
  induction S with
  | zero => omega
  | succ S ih =>
    have hp := le_prom w
    cases S with
    | zero =>
      rw [bitLen]
      rw [toNat_and_255, Nat.mod_eq_of_lt (by simpa using hx)]
      obtain ⟨n, h1, h2, h3⟩ := bitLenTable_spec x.toNat (by simpa using hx)
      rw [h1]
      exact ⟨n, rfl, h2, by omega⟩
    | succ S =>
      rw [bitLen]
      have e : shrP w (ext x) (((S + 1) * 8 : Nat) : Int) = some (ext x >>> ((S + 1) * 8)) :=
        shrP_eq _ (by omega)
      rw [e]
      simp only [Option.bind_eq_bind, Option.bind_some, toNat_and_255]
      rw [BitVec.toNat_ushiftRight, ext_toNat, Nat.shiftRight_eq_div_pow]
      have hlt : x.toNat / 2 ^ ((S + 1) * 8) < 256 := by
        rw [Nat.div_lt_iff_lt_mul (Nat.pow_pos (by omega)), show 256 = 2 ^ 8 by rfl, ← Nat.pow_add]
        rw [show 8 + (S + 1) * 8 = 8 * (S + 1 + 1) by omega]; exact hx
      rw [Nat.mod_eq_of_lt hlt]
      obtain ⟨n, h1, ⟨h2, h2'⟩, h3⟩ := bitLenTable_spec _ hlt
      rw [h1]
      simp only [Option.bind_some]
      have hpos : 0 < 2 ^ ((S + 1) * 8) := Nat.pow_pos (by omega)
      by_cases hn : n = 0
      · rw [if_neg (by simpa using hn)]
        subst hn
        have h0 : x.toNat / 2 ^ ((S + 1) * 8) = 0 := by simpa using h2
        have hxlt : x.toNat < 2 ^ (8 * (S + 1)) := by
          have := Nat.lt_of_div_eq_zero hpos h0
          rwa [Nat.mul_comm] at this
        obtain ⟨m, g1, g2, g3⟩ := ih (by omega) hxlt (by omega)
        exact ⟨m, g1, g2, by omega⟩
      · rw [if_pos hn]
        refine ⟨_, rfl, ⟨?_, ?_⟩, by omega⟩
        · rw [Nat.pow_add]; exact (Nat.div_lt_iff_lt_mul hpos).1 h2
        · intro m hm
          have hge : 2 ^ (n - 1) * 2 ^ ((S + 1) * 8) ≤ x.toNat := (Nat.le_div_iff_mul_le hpos).1 (h2' (n - 1) (by omega))
          rw [← Nat.pow_add] at hge
          exact Nat.le_trans (Nat.pow_le_pow_right (by omega) (by omega)) hge

theorem bitLength_spec (hw : Width w) (x : BitVec w) :
    ∃ r, bitLength x = some r ∧ Length x.toNat r.toNat := by
  obtain ⟨a, rfl⟩ := hw
  have hpos : 0 < 2 ^ a := Nat.pow_pos (by omega)
  obtain ⟨n, h1, h2, h3⟩ := bitLen_spec (2 ^ a) x hpos x.isLt (Nat.le_refl _)
  refine ⟨_, by unfold bitLength; rw [Nat.mul_div_cancel_left _ (by omega)]; exact h1, ?_⟩
  rw [BitVec.toNat_ofNat, Nat.mod_eq_of_lt]
  · exact h2
  · exact Nat.lt_of_le_of_lt h3 Nat.lt_two_pow_self

/-! ### bit_reverse -/

theorem bitRevTable_spec : ∀ n < 256, ∃ r, bitRevTable[n]? = some r ∧ r < 256 ∧ ∀ i < 8, r.testBit i = n.testBit (7 - i) := by
  have h : ∀ n < 256, bitRevTable[n]? = some ((bitRevTable[n]?).getD 0) ∧ ((bitRevTable[n]?).getD 0) < 256 ∧
      ∀ i < 8, ((bitRevTable[n]?).getD 0).testBit i = n.testBit (7 - i) := by
    decide +kernel
  intro i hi
  obtain ⟨h1, h2, h3⟩ := h i hi
  exact ⟨(bitRevTable[i]?).getD 0, h1, h2, h3⟩

theorem bitRev_spec (a : Nat) : ∀ (X : BitVec (prom w)), 8 * 2 ^ a ≤ prom w → (w < 32 → a ≤ 1) →
    ∃ r, bitRev w (2 ^ a) X = some r ∧
      ∀ i, r.getLsbD i = (decide (i < 8 * 2 ^ a) && X.getLsbD (8 * 2 ^ a - 1 - i)) := by
  induction a with
  | zero =>
    intro X hp _
    rw [bitRev]
    simp only [Nat.pow_zero, Nat.one_ne_zero, if_false, if_true, toNat_and_255]
    obtain ⟨r, h1, h2, h3⟩ := bitRevTable_spec (X.toNat % 256) (Nat.mod_lt _ (by omega))
    rw [h1]
    refine ⟨_, rfl, ?_⟩
    intro i
    rw [BitVec.getLsbD_ofNat]
    by_cases hi : i < 8
    · rw [h3 i hi, show (256 : Nat) = 2 ^ 8 by rfl, Nat.testBit_mod_two_pow]
      change _ = (_ && X.toNat.testBit _)
      have h4 : i < prom w := by omega
      have h5 : 7 - i < 8 := by omega
      simp [hi, h4, h5]
    · have : r.testBit i = false := Nat.testBit_lt_two_pow (Nat.lt_of_lt_of_le h2 (by
        rw [show (256 : Nat) = 2 ^ 8 by rfl]; exact Nat.pow_le_pow_right (by omega) (by omega)))
      simp [hi, this]
  | succ a ih =>
    intro X hp hn
    have hpow : 2 ^ (a + 1) = 2 * 2 ^ a := by rw [Nat.pow_succ]; omega
    have hpos : 0 < 2 ^ a := Nat.pow_pos (by omega)
    rw [bitRev, if_neg (by omega), if_neg (by omega)]
    rw [hpow, Nat.mul_div_cancel_left _ (by omega)]
    obtain ⟨r1, h1, h2⟩ := ih X (by omega) (fun h => by have := hn h; omega)
    obtain ⟨r2, h3, h4⟩ := ih (X >>> (2 ^ a * 8)) (by omega) (fun h => by have := hn h; omega)
    have e1 : shlP w r1 ((2 ^ a * 8 : Nat) : Int) = some (r1 <<< (2 ^ a * 8)) := by
      apply shlP_eq _ (by omega)
      intro hw
      have ha : a = 0 := by have := hn hw; omega
      subst ha
      have : r1.toNat < 2 ^ 8 := by
        apply Nat.lt_pow_two_of_testBit
        intro i hi
        have := h2 i
        change r1.toNat.testBit i = _ at this
        rw [this]; simp; omega
      simp at this ⊢; omega
    have e2 : shrP w X ((2 ^ a * 8 : Nat) : Int) = some (X >>> (2 ^ a * 8)) :=
      shrP_eq _ (by omega)
    simp only [Option.bind_eq_bind]
    rw [h1, Option.bind_some, e1, Option.bind_some, e2, Option.bind_some, h3, Option.bind_some]
    refine ⟨_, rfl, ?_⟩
    intro i
    rw [BitVec.getLsbD_or, BitVec.getLsbD_shiftLeft, h2, h4, BitVec.getLsbD_ushiftRight]
    by_cases hi : i < 2 ^ a * 8
    · have c1 : i < 8 * 2 ^ a := by omega
      have c2 : i < 8 * (2 * 2 ^ a) := by omega
      simp only [hi, c1, c2, decide_true, Bool.not_true, Bool.and_false, Bool.false_and, Bool.false_or, Bool.true_and]
      congr 1; omega
    · have c1 : ¬ i < 8 * 2 ^ a := by omega
      by_cases c2 : i < 8 * (2 * 2 ^ a)
      · have c3 : i < prom w := by omega
        have c4 : i - 2 ^ a * 8 < 8 * 2 ^ a := by omega
        simp only [hi, c1, c2, c3, c4, decide_true, decide_false, Bool.not_false, Bool.and_true, Bool.true_and, Bool.false_and,
          Bool.or_false]
        congr 1; omega
      · have c4 : ¬ i - 2 ^ a * 8 < 8 * 2 ^ a := by omega
        simp [c1, c2, c4]

theorem width_exp_small (a : Nat) (h : 8 * 2 ^ a < 32) : a ≤ 1 := by
  rcases Nat.lt_or_ge a 2 with h1 | h1
  · omega
  · have : 2 ^ 2 ≤ 2 ^ a := Nat.pow_le_pow_right (by omega) h1
    omega

theorem bitRev_width (hw : Width w) (x : BitVec w) :
    ∃ r, bitRev w (w / 8) (ext x) = some r ∧ ∀ i, r.getLsbD i = (decide (i < w) && x.getLsbD (w - 1 - i)) := by
  obtain ⟨a, rfl⟩ := hw
  obtain ⟨r, h1, h2⟩ := bitRev_spec a (ext x) (le_prom _) (width_exp_small a)
  rw [Nat.mul_div_cancel_left _ (by omega)]
  exact ⟨r, h1, fun i => by rw [h2, ext_getLsbD]⟩

end Sprout
