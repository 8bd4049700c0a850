import Verif.Proofs.Hash
import Verif.Model.HashFloat
import Verif.Props.C90

/-!
# C124: hash values
-/

namespace Sprout
open Hash
variable {α β : Type}

/-! ### combination -/

/-- `hash_combine` of hash values is a value of `size_t`. -/
theorem C124_combine_lt (w seed x : Nat) (hs : seed < 2 ^ w) : combine w seed x < 2 ^ w := combine_lt hs

/-- For the same seed, `hash_combine` gives different values for different hash values. -/
theorem C124_combine_injective (w seed a b : Nat) (ha : a < 2 ^ w) (hb : b < 2 ^ w) : combine w seed a = combine w seed b ↔ a = b :=
  ⟨combine_inj ha hb, fun h => by rw [h]⟩

example : combine 32 1 2 = 0x9e3779fa := by decide

/-- `hash_combine(seed, x, y...)` and `hash_values(x, y...)` combine from the left. Missing: no values, see `C124_combine_refuted`. -/
theorem C124_combine_partial (w seed x : Nat) (l : List Nat) :
    combineAll w seed (x :: l) = some ((x :: l).foldl (combine w) seed)
    ∧ hashValues w (x :: l) = some (hashSeq w id (x :: l)) := ⟨combineAll_eq w l seed x, combineAll_eq w l 0 x⟩

/-- `hash_combine(seed)`, `hash_values()` and with them the hash value of `tuple<>` do not compile. -/
theorem C124_combine_refuted (w seed : Nat) : combineAll w seed [] = none ∧ hashValues w [] = none ∧ hashTuple w [] = none := ⟨rfl, rfl, rfl⟩

/-! ### ranges -/

/-- the hash value of a range of hashed values is a value of `size_t` -/
theorem C124_range_lt (w : Nat) (h : α → Nat) (l : List α) (seed : Nat) (hs : seed < 2 ^ w) : hashRange w h seed l < 2 ^ w := by
  induction l generalizing seed with
  | nil => exact hs
  | cons a l ih => exact ih _ (combine_lt hs)

/-- hash values of ranges can be computed piece by piece -/
theorem C124_range_append (w : Nat) (h : α → Nat) (seed : Nat) (l m : List α) :
    hashRange w h seed (l ++ m) = hashRange w h (hashRange w h seed l) m := List.foldl_append

/-- Ranges of equal elements have equal hash values, whatever the types of the ranges and elements. -/
theorem C124_range_equal (w : Nat) (h : α → Nat) (k : β → Nat) (eqv : α → β → Prop) (hh : ∀ a b, eqv a b → h a = k b) (l : List α)
    (m : List β) (e : List.Forall₂ eqv l m) (seed : Nat) : hashRange w h seed l = hashRange w k seed m := by
  induction e generalizing seed with
  | nil => rfl
  | cons hab _ ih =>
    simp only [hashRange, List.foldl_cons, hh _ _ hab]
    exact ih _

example : hashSeq 64 (fun c : Nat => c) [97, 98] = hashSeq 64 (hashInt 64) [97, 98] :=
  C124_range_equal 64 _ _ (fun (a : Nat) (b : Int) => a = hashInt 64 b) (fun _ _ h => h) _ _ (by decide +kernel) 0

/-- Ranges that differ in one element only, the last one, have the same hash value exactly if the elements have. -/
theorem C124_range_last (w : Nat) (h : α → Nat) (hh : ∀ a, h a < 2 ^ w) (l : List α) (a b : α) (seed : Nat) :
    hashRange w h seed (l ++ [a]) = hashRange w h seed (l ++ [b]) ↔ h a = h b := by
  simp only [C124_range_append]
  exact C124_combine_injective w _ _ _ (hh a) (hh b)

/-- Pairs of values with equal hash values have equal hash values. -/
theorem C124_pair (w : Nat) (h : α → Nat) (k : β → Nat) (x y : α × β) (h1 : h x.1 = h y.1) (h2 : k x.2 = k y.2) :
    hashPair w h k x = hashPair w h k y ∧ (hashPair w h k x).isSome := by
  rw [hashPair, hashPair, h1, h2]
  exact ⟨rfl, rfl⟩

/-- The hash value of a variant tells alternatives with the same hash value of the value apart. -/
theorem C124_variant (w x i j : Nat) (hi : i < 2 ^ w) (hj : j < 2 ^ w) : hashVariant w x i = hashVariant w x j ↔ i = j := by
  rw [hashVariant, hashVariant, combineAll, combineAll, Option.some_inj]
  exact C124_combine_injective w x i j hi hj

/-! ### integers -/

/-- Integers of types not longer than `size_t` have different hash values. -/
theorem C124_int (w : Nat) (a b : Int) (h : |a - b| < 2 ^ w) : hashInt w a < 2 ^ w ∧ (hashInt w a = hashInt w b ↔ a = b) := by
  have hp : (0 : Int) < 2 ^ w := by positivity
  have ha := Int.emod_nonneg a hp.ne'
  have hb := Int.emod_nonneg b hp.ne'
  refine ⟨?_, fun e => ?_, fun e => by rw [e]⟩
  · have := Int.emod_lt_of_pos a hp
    rw [hashInt, Int.toNat_lt ha]
    exact_mod_cast this
  · unfold hashInt at e
    have e : a % 2 ^ w = b % 2 ^ w := by omega
    have hd : (2 ^ w : Int) ∣ a - b := Int.ModEq.dvd (Int.ModEq.symm e)
    have := Int.eq_zero_of_abs_lt_dvd hd h
    omega

example : hashInt 64 (-1) = 2 ^ 64 - 1 := by decide +kernel

/-- Unsigned integers longer than `size_t` have hash values. -/
theorem C124_long_unsigned (b w val : Nat) : hashUnsigned b w val < 2 ^ w := by
  have h : ∀ k seed, seed < 2 ^ w → hashUnsigned2 b w val k seed < 2 ^ w := by
    intro k
    induction k with
    | zero => exact fun seed hs => xor_lt hs (mod_lt' _ _)
    | succ k ih => exact fun seed hs => ih _ (xor_lt hs (mod_lt' _ _))
  exact h _ 0 (Nat.two_pow_pos w)

/-- Small values have the same hash value in long types as in short ones. -/
theorem C124_long_small (b w val : Nat) (hw : 0 < w) (hb : w + 1 ≤ b) (h : val < 2 ^ w) :
    hashUnsigned b w val = hashInt w val ∧ hashSigned b w val = some (hashInt w val) := by
  have hv : hashInt w val = val := by
    unfold hashInt
    rw [show ((val : Int) % 2 ^ w) = ((val % 2 ^ w : Nat) : Int) by push_cast; rfl, Nat.mod_eq_of_lt h]
    rfl
  have hlt : val < 2 ^ (b - 1) := lt_of_lt_of_le h (Nat.pow_le_pow_right (by norm_num) (by omega))
  have hlt2 : val < 2 ^ b := lt_of_lt_of_le h (Nat.pow_le_pow_right (by norm_num) (by omega))
  have hs : signed b val = some (val : Int) := signed_ok (by have : (0 : Int) < 2 ^ (b - 1) := by positivity
                                                             omega) (by exact_mod_cast hlt)
  have hs0 : signed b 0 = some 0 := signed_ok (by have : (0 : Int) < 2 ^ (b - 1) := by positivity
                                                  omega) (by positivity)
  have hdiv : ∀ k, val / 2 ^ ((k + 1) * w) = 0 := fun k => Nat.div_eq_of_lt
    (lt_of_lt_of_le h (Nat.pow_le_pow_right (by norm_num) (by nlinarith)))
  rw [hv]
  constructor
  · have : ∀ k, hashUnsigned2 b w val k 0 = val := by
      intro k
      induction k with
      | zero => simp [hashUnsigned2, Nat.mod_eq_of_lt h, Nat.mod_eq_of_lt hlt2]
      | succ k ih => simpa [hashUnsigned2, hdiv] using ih
    exact this _
  · have : ∀ k, hashSigned2 b w val val k 0 = some val := by
      intro k
      induction k with
      | zero =>
        have : (val : Int) % 2 ^ w = ((val % 2 ^ w : Nat) : Int) := by push_cast; rfl
        simp [hashSigned2, hs, this, Nat.mod_eq_of_lt h]
      | succ k ih =>
        have hd : (val : Int) / 2 ^ ((k + 1) * w) = 0 := by
          have := hdiv k
          have e : (val : Int) / 2 ^ ((k + 1) * w) = ((val / 2 ^ ((k + 1) * w) : Nat) : Int) := by push_cast; rfl
          rw [e, this]; rfl
        simp only [hashSigned2, hd]
        simpa [hs0] using ih
    rw [hashSigned, if_neg (by omega)]
    exact this _

example : hashUnsigned 128 64 (2 ^ 64 + 5) = (2 ^ 6 + 5) ^^^ 1 ∧ hashSigned 128 64 (-2) = some (2 ^ 64 - 2)
    ∧ hashSigned 128 64 (2 ^ 64 + 5) = some ((2 ^ 6 + 5) ^^^ 1) ∧ hashPointer 64 (2 ^ 64 - 8) = 2 ^ 61 - 9 := by decide +kernel

/-- Signed integers longer than `size_t` have hash values, except near the largest one. Missing: see `C124_long_signed_refuted`. -/
theorem C124_long_signed_partial (b w : Nat) (hw : 0 < w) (hb : w + 3 ≤ b) (val : Int) (h1 : -2 ^ (b - 1) ≤ val)
    (h2 : val < 2 ^ (b - 1) - 2 ^ (w + 1)) : ∃ r, hashSigned b w val = some r ∧ r < 2 ^ w := by
  have e1 : (2 : Int) ^ (w + 1) = 2 ^ w + 2 ^ w := by ring
  have e2 : (2 : Int) ^ (b - 1) = 2 ^ (b - 2) + 2 ^ (b - 2) := by
    rw [show b - 1 = b - 2 + 1 by omega]; ring
  have e3 : (2 : Int) ^ (w + 1) ≤ 2 ^ (b - 2) := pow_le_pow_right₀ (by norm_num) (by omega)
  have hpw : (0 : Int) < 2 ^ w := by positivity
  have key : ∀ positive : Int, 0 ≤ positive → positive < 2 ^ (b - 1) → ∀ k seed, seed < 2 ^ w →
      ∃ r, hashSigned2 b w val positive k seed = some r ∧ r < 2 ^ w := by
    intro positive hp1 hp2 k
    induction k with
    | zero =>
      intro seed hs
      have a1 := shl_lt w seed
      have a2 := shr_lt hs
      refine ⟨_, ?_, xor_lt hs (emod_toNat_lt w (val + ((seed <<< 6) % 2 ^ w : Nat) + (seed >>> 2 : Nat)))⟩
      rw [hashSigned2, signed_ok (by omega) (by omega)]
      simp only [Option.bind_eq_bind, Option.bind_some]
      rw [signed_ok (by omega) (by omega)]
      rfl
    | succ k ih =>
      intro seed hs
      have a1 := shl_lt w seed
      have a2 := shr_lt hs
      have hk : (0 : Int) < 2 ^ ((k + 1) * w) := by positivity
      have q1 : 0 ≤ positive / 2 ^ ((k + 1) * w) := Int.ediv_nonneg hp1 hk.le
      have q2 : positive / 2 ^ ((k + 1) * w) < 2 ^ (b - 2) := by
        rw [Int.ediv_lt_iff_lt_mul hk]
        have h2 : (2 : Int) ≤ 2 ^ ((k + 1) * w) := by
          calc (2 : Int) = 2 ^ 1 := by norm_num
            _ ≤ _ := pow_le_pow_right₀ (by norm_num) (by nlinarith)
        have h3 : (0 : Int) < 2 ^ (b - 2) := by positivity
        nlinarith
      obtain ⟨q, hq⟩ : ∃ q, q = positive / 2 ^ ((k + 1) * w) := ⟨_, rfl⟩
      rw [← hq] at q1 q2
      obtain ⟨r, hr, hl⟩ := ih (seed ^^^ ((q + ((seed <<< 6) % 2 ^ w : Nat) + (seed >>> 2 : Nat)) % 2 ^ w).toNat)
        (xor_lt hs (emod_toNat_lt _ _))
      refine ⟨r, ?_, hl⟩
      clear ih
      rw [hashSigned2, ← hq]
      clear hq
      rw [signed_ok (by omega) (by omega)]
      simp only [Option.bind_eq_bind, Option.bind_some]
      rw [signed_ok (by omega) (by omega)]
      exact hr
  rw [hashSigned]
  by_cases hv : val < 0
  · rw [if_pos hv, signed_ok (by omega) (by omega)]
    exact key _ (by omega) (by omega) _ 0 (Nat.two_pow_pos w)
  · rw [if_neg hv]
    exact key _ (by omega) (by omega) _ 0 (Nat.two_pow_pos w)

example : ∃ r, hashSigned 64 32 (-2 ^ 63) = some r ∧ r < 2 ^ 32 := C124_long_signed_partial 64 32 (by decide) (by decide) _ (by decide) (by decide)

/-- The hash value of the largest `long long` (64 bits) is undefined where `size_t` has 32 bits: a sum overflows; likewise that of the
largest signed 128 bit integer where it has 64 bits. -/
theorem C124_long_signed_refuted : hashSigned 64 32 (2 ^ 63 - 1) = none ∧ hashSigned 128 64 (2 ^ 127 - 1) = none := by
  decide +kernel

/-! ### floating types -/
section
open Classical FV Fmt MathRound MathScale MathClass

/-- Zeros, infinities and NaN. -/
theorem C124_float_special (F C : Fmt) (il : FV → Option (Ret ℤ)) (s : Bool) :
    floatHash F C il (.zero s) = some (.ret 0) ∧ floatHash F C il (.inf s) = some (.ret (if s then 2 ^ 64 - 2 else 2 ^ 64 - 1))
    ∧ floatHash F C il .nan = some (.ret (2 ^ 64 - 3)) := by
  refine ⟨?_, ?_, ?_⟩
  · cases s <;> simp [floatHash, iszero]
  · have e1 : iszero (.inf s) = false := decide_eq_false (by simp [FV.eq])
    have e2 : isinf (.inf s) = true := by
      unfold isinf
      rw [Bool.or_eq_true, decide_eq_true_iff, decide_eq_true_iff]
      cases s <;> simp [FV.eq, FV.neg]
    unfold floatHash
    rw [e1, e2]
    cases s <;> simp [FV.lt]
  · simp [floatHash, iszero, isinf, isnan]

namespace Hash

theorem toSize_nat (n : ℕ) (h : n < 2 ^ 64) : toSize (.num n) = some n := by
  unfold toSize toInteger
  have h1 : ¬ ((FV.num (n : ℝ)).val < 0) := not_lt.2 (Nat.cast_nonneg n)
  have h2 : ⌊(FV.num (n : ℝ)).val⌋ = (n : ℤ) := Int.floor_natCast n
  simp only
  rw [if_neg h1, h2, if_pos (by constructor <;> omega)]
  simp

theorem toSize_zero (s : Bool) : toSize (.zero s) = some 0 := by
  unfold toSize toInteger
  simp [FV.val]

theorem digit_zero (F C : Fmt) : digit F C (.zero false) = some (0, .zero false) := by
  unfold digit
  rw [toSize_zero]
  have e : F.sub (.zero false) (F.ofInt ((0 : ℕ) : ℤ)) = .zero false := by
    unfold Fmt.ofInt Fmt.sub
    simp only [Nat.cast_zero, Int.cast_zero, ofReal_zero]
    rfl
  rw [Option.bind_some, e, C90_scalbn_special F C _ _ _ (Or.inr (Or.inl rfl))]
  rfl

theorem floatHash4_zero (F C : Fmt) (exp : ℤ) : ∀ k, floatHash4 F C exp k 0 (.zero false) = some (fcombine 0 (intToSize exp))
  | 0 => rfl
  | k + 1 => by
    rw [floatHash4, digit_zero]
    exact floatHash4_zero F C exp k

/-- positive numbers below 1 with at most 64 digits -/
theorem floatHash3_num (F : Fmt) (hp : F.p ≤ 64) (he : 64 < F.emax) (y : ℝ) (hy : F.Has (.num y)) (h1 : 1 / 2 ≤ y) (h2 : y < 1)
    (exp : ℤ) : ∃ n : ℕ, y * (2 : ℝ) ^ 64 = n ∧ floatHash3 F F (.num y) exp = some (fcombine (fcombine n 0) (intToSize exp)) := by
  have hint : ∃ n : ℕ, y * (2 : ℝ) ^ 64 = n := by
    obtain ⟨m, e, -, hm, hye⟩ := hy.2.1
    have he2 : -(F.p : ℤ) ≤ e := by
      by_contra hc
      have h3 : (m : ℝ) < 2 ^ F.p := by
        have := (abs_lt.1 hm).2
        exact_mod_cast this
      have hpe : (0 : ℝ) < (2 : ℝ) ^ e := by positivity
      have h4 : y < (2 : ℝ) ^ F.p * (2 : ℝ) ^ e := by rw [hye]; exact mul_lt_mul_of_pos_right h3 hpe
      have h5 : (2 : ℝ) ^ F.p * (2 : ℝ) ^ e ≤ (2 : ℝ) ^ (-1 : ℤ) := by
        rw [← zpow_natCast, ← zpow_add₀ (by norm_num)]
        exact zpow_le_zpow_right₀ (by norm_num) (by omega)
      norm_num at h5
      linarith
    have hmp : 0 ≤ m := by
      by_contra hc
      have : (m : ℝ) < 0 := by exact_mod_cast not_le.1 hc
      have hpe : (0 : ℝ) < (2 : ℝ) ^ e := by positivity
      have := mul_neg_of_neg_of_pos this hpe
      linarith
    refine ⟨m.toNat * 2 ^ (e + 64).toNat, ?_⟩
    have c1 : ((m.toNat : ℕ) : ℝ) = (m : ℝ) := by
      have : ((m.toNat : ℕ) : ℤ) = m := Int.toNat_of_nonneg hmp
      exact_mod_cast this
    have c2 : (2 : ℝ) ^ (e + 64).toNat = (2 : ℝ) ^ (e + 64) := by
      rw [← zpow_natCast, Int.toNat_of_nonneg (by omega)]
    push_cast
    rw [c1, c2, hye, zpow_add₀ (by norm_num)]
    norm_num [mul_assoc]
  obtain ⟨n, hn⟩ := hint
  refine ⟨n, hn, ?_⟩
  have hmin := F.emin_le
  have hp2 := F.two_le_p
  have hlt : n < 2 ^ 64 := by
    have : (n : ℝ) < 2 ^ 64 := by rw [← hn]; nlinarith
    exact_mod_cast this
  have hpos : (1 : ℝ) ≤ n := by rw [← hn]; nlinarith
  have hr : Rep F.p F.emin (n : ℝ) := by
    rw [← hn, show (2 : ℝ) ^ 64 = (2 : ℝ) ^ (64 : ℤ) by norm_num]
    obtain ⟨m, e, h3, hm, hye⟩ := hy.2.1
    exact Rep.mul_zpow m e hye hm 64 (by omega)
  have hb : |(n : ℝ)| < (2 : ℝ) ^ F.emax := by
    rw [abs_of_pos (by linarith)]
    calc (n : ℝ) < (2 : ℝ) ^ (64 : ℤ) := by exact_mod_cast hlt
      _ ≤ _ := zpow_le_zpow_right₀ (by norm_num) (by omega)
  have hs : scalbn F F minInt (.num y) 64 = some (.num n) := by
    rw [C90_scalbn_partial F minInt y hy 64 (by decide) (by omega) he (by omega)]
    unfold scaled
    rw [show y * (2 : ℝ) ^ (64 : ℤ) = n by rw [← hn]; norm_num, ofReal_num hr hb (by linarith)]
  have hd : digit F F (.num n) = some (n, .zero false) := by
    unfold digit
    rw [toSize_nat n hlt, Option.bind_some]
    have e1 : F.ofInt (n : ℤ) = .num n := by
      unfold Fmt.ofInt
      rw [Int.cast_natCast, ofReal_num hr hb (by linarith)]
    have e2 : F.sub (.num n) (.num n) = .zero false := by
      show F.ofReal (decide ((n : ℝ) + -n < 0)) ((n : ℝ) + -n) = _
      rw [add_neg_cancel, ofReal_zero]
      simp
    rw [e1, e2, C90_scalbn_special F F _ _ _ (Or.inr (Or.inl rfl))]
    rfl
  have hl : (F.p + 63) / 64 = 1 := by omega
  unfold floatHash3
  rw [hs, Option.bind_some, hd, Option.bind_some, hl, floatHash4, digit_zero]
  rfl

end Hash

/-- The hash value of a number `x` with the exponent `k`: the 64 most significant bits and the exponent are combined; negative numbers
have the exponent increased. Missing: numbers in the topmost binade and small subnormal ones, see `C124_float_refuted`,
`C124_float_top_refuted`; types with more than 64 digits. -/
theorem C124_float_partial (F : Fmt) (hp : F.p ≤ 64) (he : 64 < F.emax) (he2 : F.emax < 2 ^ 29) (he3 : -2 ^ 29 < F.emin)
    (il : FV → Option (Ret ℤ)) (x : ℝ) (hx : F.Has (.num x)) (k : ℤ) (hk : IsExp k x) (h : il (.num x) = some (.ret k))
    (h1 : -F.emax < k + 1) (h2 : k + 1 < F.emax) (h3 : F.emin ≤ k + 1) :
    ∃ n : ℕ, |x| * (2 : ℝ) ^ (63 - k) = n ∧ floatHash F F il (.num x)
      = some (.ret (fcombine (fcombine n 0) (intToSize (if x < 0 then k + 1 + (F.emax - (F.emin + F.p)) else k + 1)))) := by
  obtain ⟨m, m1, m2, hm, -, -, hs⟩ := C90_float_sig_exp_partial F il x hx k hk h (by constructor <;> omega) h1 h2 h3
  have h0 := hx.1
  have hpk : (0 : ℝ) < (2 : ℝ) ^ (k + 1) := by positivity
  have hmin := F.emin_le
  have hp2 := F.two_le_p
  have hpe := F.p_lt_emax
  have hmx : m = x * (2 : ℝ) ^ (-(k + 1)) := by
    rw [hm, mul_assoc, ← zpow_add₀ (by norm_num)]; simp
  have hr : Rep F.p F.emin m := by
    have := hx.2.1.scale (q := F.p) (emin' := F.emin) (-(k + 1)) (le_refl _)
    rw [← hmx] at this
    refine this (le_trans ?_ m1)
    calc _ ≤ (2 : ℝ) ^ (-1 : ℤ) := zpow_le_zpow_right₀ (by norm_num) (by omega)
      _ = _ := by norm_num
  have hH : F.Has (.num |m|) := by
    refine ⟨by linarith, hr.abs, ?_⟩
    rw [abs_abs]
    exact lt_trans m2 (one_lt_emax F)
  obtain ⟨n, hn, hf⟩ := floatHash3_num F hp he |m| hH m1 m2 (if x < 0 then k + 1 + (F.emax - (F.emin + F.p)) else k + 1)
  refine ⟨n, ?_, ?_⟩
  · rw [← hn, hm, abs_mul, abs_of_pos hpk, mul_assoc, ← zpow_add₀ (by norm_num)]
    rw [show k + 1 + (63 - k) = 64 by ring]
    norm_num
  · have hsg : m < 0 ↔ x < 0 := by
      rw [hm]
      constructor
      · intro h; exact mul_neg_of_neg_of_pos h hpk
      · intro h; by_contra hc; exact absurd h (not_lt.2 (mul_nonneg (not_lt.1 hc) hpk.le))
    have h1' : floatHash1 F F (.num m, k + 1) = some (fcombine (fcombine n 0)
        (intToSize (if x < 0 then k + 1 + (F.emax - (F.emin + F.p)) else k + 1))) := by
      unfold floatHash1
      rw [← hf]
      by_cases hxs : x < 0
      · have hms := hsg.2 hxs
        have hin : inTo minInt maxInt (k + 1 + (F.emax - (F.emin + F.p))) = some (k + 1 + (F.emax - (F.emin + F.p))) := by
          unfold inTo minInt maxInt; rw [if_pos]; constructor <;> omega
        rw [if_pos (by exact hms), hin, if_pos hxs, abs_of_neg hms]
        rfl
      · have hms : ¬ m < 0 := fun h => hxs (hsg.1 h)
        rw [if_neg (by exact hms), if_neg hxs, abs_of_nonneg (not_lt.1 hms)]
    unfold floatHash
    rw [hs]
    simp only [iszero, isinf, isnan, eq_num_num, eq_num_zero, eq_num_inf, h0, FV.neg, decide_true, decide_false, Bool.not_true,
      Bool.false_eq_true, if_false, Bool.or_self]
    show (floatHash1 F F (.num m, k + 1)).map Ret.ret = _
    rw [h1']
    rfl

example (F : Fmt) (hp : F.p ≤ 64) (he : 64 < F.emax) (he2 : F.emax < 2 ^ 29) (he3 : -2 ^ 29 < F.emin) (il : FV → Option (Ret ℤ))
    (h : il (.num 1) = some (.ret 0)) (hx : F.Has (.num 1)) :
    floatHash F F il (.num 1) = some (.ret (fcombine (fcombine (2 ^ 63) 0) 1)) := by
  have := F.emin_le_zero
  obtain ⟨n, hn, e⟩ := C124_float_partial F hp he he2 he3 il 1 hx 0 (by unfold IsExp; norm_num) h (by omega) (by omega) (by omega)
  have : n = 2 ^ 63 := by
    have : (n : ℝ) = 2 ^ 63 := by rw [← hn]; norm_num
    exact_mod_cast this
  rw [e, this]
  norm_num [intToSize]

/-- The hash value of small subnormal numbers is undefined: their significand is computed as infinite. -/
theorem C124_float_refuted (F C : Fmt) (il : FV → Option (Ret ℤ)) (x : ℝ) (hx : F.Has (.num x)) (hpos : 0 < x) (k : ℤ)
    (h : il (.num x) = some (.ret k)) (hi : -2 ^ 30 < k ∧ k < 2 ^ 30) (hk : k + 1 ≤ -F.emax) : floatHash F C il (.num x) = none := by
  obtain ⟨-, hr⟩ := C90_float_sig_exp_refuted F il x hx hpos k h hi
  have e := (hr hk).1
  have h0 := hx.1
  unfold floatHash
  rw [e]
  simp only [iszero, isinf, isnan, eq_num_num, eq_num_zero, eq_num_inf, h0, FV.neg, decide_true, decide_false, Bool.not_true,
    Bool.false_eq_true, if_false, Bool.or_self]
  show (floatHash1 F C (.inf false, k + 1)).map Ret.ret = _
  have : floatHash1 F C (.inf false, k + 1) = none := by
    unfold floatHash1
    rw [if_neg (by simp [FV.lt])]
    unfold floatHash3
    rw [C90_scalbn_special F C _ _ _ (Or.inl rfl)]
    rfl
  rw [this]
  rfl

/-- All positive numbers of the topmost binade have the same hash value: their significand is computed as 0. -/
theorem C124_float_top_refuted (F C : Fmt) (il : FV → Option (Ret ℤ)) (x : ℝ) (hx : F.Has (.num x)) (hpos : 0 < x)
    (h : il (.num x) = some (.ret (F.emax - 1))) (hi : F.emax < 2 ^ 30) :
    floatHash F C il (.num x) = some (.ret (fcombine 0 (intToSize F.emax))) := by
  have := F.emax_pos
  obtain ⟨hr, -⟩ := C90_float_sig_exp_refuted F il x hx hpos _ h (by omega)
  have e := (hr (by ring)).1
  have h0 := hx.1
  unfold floatHash
  rw [e]
  simp only [iszero, isinf, isnan, eq_num_num, eq_num_zero, eq_num_inf, h0, FV.neg, decide_true, decide_false, Bool.not_true,
    Bool.false_eq_true, if_false, Bool.or_self]
  show (floatHash1 F C (.zero false, F.emax - 1 + 1)).map Ret.ret = _
  have : floatHash1 F C (.zero false, F.emax - 1 + 1) = some (fcombine 0 (intToSize F.emax)) := by
    unfold floatHash1
    rw [if_neg (by simp [FV.lt, FV.val]), show F.emax - 1 + 1 = F.emax by ring]
    unfold floatHash3
    rw [C90_scalbn_special F C _ _ _ (Or.inr (Or.inl rfl)), Option.bind_some, digit_zero, Option.bind_some, floatHash4_zero]
  rw [this]
  rfl

end

end Sprout
