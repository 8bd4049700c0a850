import Verif.Proofs.StaticInt

/-! # C114: compile-time integers -/

namespace Sprout
open Spec StaticInt

/-! ## powers -/

/-- `static_pow<T, X, Y>` for a signed or narrow type is `X^Y` when that is a value of `T`; otherwise it does not compile. -/
theorem C114_pow (T : CInt) (hT : T.Std) (hw : T.sg = true ∨ T.w < 32) (X : Int) (hX : T.Has X) (Y : Nat) :
    staticPow T X Y = if T.Has (X ^ Y) then some (X ^ Y) else none := staticPow_sound hT hw X hX Y

example : staticPow CInt.int32 (-3) (19 : Nat) = some (-1162261467) := by
  rw [C114_pow _ (by decide) (by decide) _ (by decide)]; decide +kernel
example : staticPow CInt.int32 3 (20 : Nat) = none := by
  rw [C114_pow _ (by decide) (by decide) _ (by decide)]; decide +kernel

/-- For `unsigned` and the wider unsigned types it is `X^Y` modulo `2^w`. -/
theorem C114_pow_unsigned (T : CInt) (hsg : T.sg = false) (hw : 32 ≤ T.w) (X : Int) (hX : T.Has X) (Y : Nat) :
    staticPow T X Y = some (X ^ Y % 2 ^ T.w) := staticPow_uns hsg (by omega) X hX Y

example : staticPow CInt.uint32 3 (21 : Nat) = some 1870418611 := by
  rw [C114_pow_unsigned _ rfl (by decide) _ (by decide)]; decide +kernel

/-- A negative exponent never gives a value: the instantiation does not end. -/
theorem C114_pow_negative (T : CInt) (X Y : Int) (hY : Y < 0) : staticPow T X Y = none := by
  have h : ∀ v, staticPow T X Y = some v → 0 ≤ Y := by
    intro v
    refine staticPow.partial_correctness T X (fun Y _ => 0 ≤ Y) ?_ Y v
    intro f ih Y r hr
    by_cases h0 : Y = 0
    · omega
    by_cases h1 : Y = 1
    · omega
    by_cases h2 : Y = 2
    · omega
    rw [if_neg h0, if_neg h1, if_neg h2] at hr
    split at hr
    · rename_i hm
      cases hf : f (Y.tdiv 2) with
      | none => rw [hf] at hr; cases hr
      | some a =>
        have h := ih _ a hf
        have := Int.mul_tdiv_add_tmod Y 2
        omega
    · cases hf : f (Y - 1) with
      | none => rw [hf] at hr; cases hr
      | some a => have h := ih _ a hf; omega
  cases hs : staticPow T X Y with
  | none => rfl
  | some v => have := h v hs; omega

example : staticPow CInt.int32 2 (-1) = none := C114_pow_negative _ _ _ (by decide)

/-- The full claim about `static_pow2`. -/
def Pow2Full : Prop :=
  ∀ T : CInt, T.Std → ∀ X : Nat, T.Has (2 ^ X) → staticPow2 T X = some (2 ^ X)

/-- `static_pow2<T, X>` is `2^X` for `X ≤ 30`. Missing: larger exponents of the 64 bit types and of `unsigned`; the shifted `1` is an `int`. -/
theorem C114_pow2_partial (T : CInt) (X : Nat) (hX : X ≤ 30) (h : T.Has (2 ^ X)) : staticPow2 T X = some (2 ^ X) := by
  unfold staticPow2
  rw [shl_has (by decide) 1 X (by show X < 32; omega) (by norm_num) (by rw [one_mul]; exact has_pow (by show X + 1 < 32; omega))]
  simp only [Option.bind_eq_bind, Option.bind_some, one_mul]
  exact icon_has h

example : staticPow2 CInt.int16 (14 : Nat) = some 16384 := C114_pow2_partial _ 14 (by decide) (by decide)

/-- `static_pow2<long long, 31>` is `-2147483648`, and `static_pow2<long long, 32>` does not compile. -/
theorem C114_pow2_false : ¬ Pow2Full ∧ staticPow2 CInt.int64 31 = some (-2147483648) ∧ staticPow2 CInt.int64 32 = none := by
  refine ⟨fun h => ?_, by decide +kernel, by decide +kernel⟩
  have := h CInt.int64 (by decide) 32 (by decide)
  revert this
  decide +kernel

/-- The full claim about `static_pow2m1`. -/
def Pow2m1Full : Prop :=
  ∀ T : CInt, T.Std → ∀ X : Nat, T.Has X → T.Has (2 ^ X - 1) → staticPow2m1 T X = some (2 ^ X - 1)

/-- `static_pow2m1<T, X>` is `2^X - 1` for every positive `X` for which that is a value of `T`. Missing: `X = 0`. -/
theorem C114_pow2m1_partial (T : CInt) (hT : T.Std) (X : Nat) (hX : 0 < X) (h : T.Has (2 ^ X - 1)) :
    staticPow2m1 T X = some (2 ^ X - 1) := by
  have hb : X ≤ T.w := by
    by_contra hc
    have h1 : (2 : Int) ^ (T.w + 1) ≤ 2 ^ X := pow_le_pow_right₀ (by norm_num) (by omega)
    have h2 := h.2
    have h3 : T.max ≤ 2 ^ T.w - 1 := by
      unfold CInt.max
      split
      · have : (2 : Int) ^ (T.w - 1) ≤ 2 ^ T.w := pow_le_pow_right₀ (by norm_num) (by omega)
        omega
      · exact le_refl _
    have h4 : (0 : Int) < 2 ^ T.w := by positivity
    rw [pow_succ] at h1
    omega
  obtain ⟨w, sg⟩ := T
  simp only [CInt.Std] at hT
  have key : ∀ sg : Bool, ∀ w ∈ [8, 16, 32, 64], ∀ X ∈ List.range 65, 0 < X → X ≤ w → (CInt.mk w sg).Has (2 ^ X - 1) →
      staticPow2m1 ⟨w, sg⟩ X = some (2 ^ X - 1) := by decide +kernel
  refine key sg w (by simp; omega) X ?_ hX hb h
  simp only at hb
  simp only [List.mem_range]
  omega

example : staticPow2m1 CInt.uint64 (64 : Nat) = some 18446744073709551615 :=
  C114_pow2m1_partial _ (by decide) 64 (by decide) (by decide)
example : staticPow2m1 CInt.int8 (7 : Nat) = some 127 := C114_pow2m1_partial _ (by decide) 7 (by decide) (by decide)

/-- `static_pow2m1<int, 0>` is 1 instead of 0. -/
theorem C114_pow2m1_false : ¬ Pow2m1Full ∧ ∀ T : CInt, T.Std → staticPow2m1 T 0 = some 1 := by
  constructor
  · intro h
    have := h CInt.int32 (by decide) 0 (by decide) (by decide)
    revert this
    decide +kernel
  · rintro ⟨w, sg⟩ hT
    simp only [CInt.Std] at hT
    rcases hT with rfl | rfl | rfl | rfl <;> cases sg <;> decide +kernel

/-! ## logarithm -/

/-- `static_log2<x>` is the integer logarithm for every value of `uintmax_t` except 0, for which it has no value. -/
theorem C114_log2 (x : Nat) (h : x < 2 ^ 64) :
    (x = 0 → staticLog2 x = none) ∧ (0 < x → ∃ r, staticLog2 x = some r ∧ 2 ^ r ≤ x ∧ x < 2 ^ (r + 1)) := by
  refine ⟨fun h0 => by unfold staticLog2; rw [if_pos h0], fun h0 => ?_⟩
  unfold staticLog2
  rw [if_neg (by omega), initialN_eq]
  exact log2Impl_spec 6 x h0 (by norm_num; try omega)

example : ∃ r, staticLog2 1000 = some r ∧ 2 ^ r ≤ 1000 ∧ 1000 < 2 ^ (r + 1) := (C114_log2 1000 (by decide)).2 (by decide)
example : (2 : Nat) ^ 9 ≤ 1000 ∧ 1000 < 2 ^ (9 + 1) := by decide

/-! ## the next power of two -/

/-- Signed, up to a quarter of the range: the smallest power of two not below `x`; 0 for 0. -/
theorem C114_carry (T : CInt) (hT : T.Std) (hsg : T.sg = true) (x : Int) (h1 : x ≤ 2 ^ (T.w - 2)) :
    (x = 0 → carryToExp2 T x = some 0) ∧ (0 < x → ∃ r, carryToExp2 T x = some r ∧ NextPow2 x r) := by
  have hm : T.min < 0 := by
    have : (0 : Int) < 2 ^ (T.w - 1) := by positivity
    unfold CInt.min; rw [if_pos hsg]; omega
  constructor
  · rintro rfl
    unfold carryToExp2
    rw [if_pos hsg, if_neg (by omega), if_neg (by omega), carrySimpl_zero]
  · intro h0
    obtain ⟨l, _, h, hn⟩ := carrySimpl_small hT h0 h1
    unfold carryToExp2
    rw [if_pos hsg, if_neg (by omega), if_neg (by omega)]
    exact ⟨_, h, hn⟩

example : ∃ r, carryToExp2 CInt.int32 100 = some r ∧ NextPow2 100 r := (C114_carry _ (by decide) rfl 100 (by decide)).2 (by decide)
example : NextPow2 100 128 := nextPow2_mid (l := 7) (by decide) (by decide) (by decide)

/-- Signed, above a quarter of the range, and at the minimum: the minimum, as the comment in the header says. -/
theorem C114_carry_big (T : CInt) (hT : T.Std) (hsg : T.sg = true) (x : Int) (hx : T.Has x) (h : 2 ^ (T.w - 2) < x ∨ x = T.min) :
    carryToExp2 T x = some T.min := by
  unfold carryToExp2
  rw [if_pos hsg]
  by_cases hm : x = T.min
  · rw [if_pos hm, hm]
  · have h := h.resolve_right hm
    have : (0 : Int) < 2 ^ (T.w - 2) := by positivity
    rw [if_neg hm, if_neg (by omega)]
    exact carrySimpl_big hT hsg h hx.2

example : carryToExp2 CInt.int8 65 = some (-128) := C114_carry_big _ (by decide) rfl 65 (by decide) (by decide)

/-- The full claim about negative values: minus the next power of two of `-x`, which is always a value of the type. -/
def CarryNegFull : Prop :=
  ∀ T : CInt, T.Std → T.sg = true → ∀ x : Int, T.min < x → x < 0 → ∃ r, carryToExp2 T x = some (-r) ∧ NextPow2 (-x) r

/-- It holds for the types narrower than `int`, and for the others down to `MIN / 2`. Missing: below that. -/
theorem C114_carry_neg_partial (T : CInt) (hT : T.Std) (hsg : T.sg = true) (x : Int) (h1 : T.min < x) (h0 : x < 0)
    (h : T.w < 32 ∨ -2 ^ (T.w - 2) ≤ x) : ∃ r, carryToExp2 T x = some (-r) ∧ NextPow2 (-x) r := by
  have hmin : T.min = -2 ^ (T.w - 1) := by unfold CInt.min; rw [if_pos hsg]
  have hmax : T.max = 2 ^ (T.w - 1) - 1 := by unfold CInt.max; rw [if_pos hsg]
  have hP : (promT T).sg = true := by unfold promT; split <;> [rfl; exact hsg]
  have harith : T.arith (-x) = some (-x) := by
    unfold CInt.arith
    split
    · have : (2 : Int) ^ (T.w - 1) ≤ 2 ^ 31 := pow_le_pow_right₀ (by norm_num) (by omega)
      rw [if_pos (by omega)]
    · first | rw [if_pos ⟨by omega, by omega⟩] | rw [if_pos hsg, if_pos ⟨by omega, by omega⟩]
  have hq : -x ≤ 2 ^ ((promT T).w - 2) := by
    unfold promT
    split
    · have : (2 : Int) ^ (T.w - 1) ≤ 2 ^ 30 := pow_le_pow_right₀ (by norm_num) (by omega)
      show -x ≤ 2 ^ 30
      omega
    · have := h.resolve_left (by assumption)
      omega
  obtain ⟨l, hl, hc, hn⟩ := carrySimpl_small (promT_std hT) (by omega : 0 < -x) hq
  refine ⟨2 ^ l, ?_, hn⟩
  unfold carryToExp2
  rw [if_pos hsg, if_neg (by omega), if_pos h0, harith]
  simp only [Option.bind_eq_bind, Option.bind_some, hc]
  have hle : (2 : Int) ^ l ≤ 2 ^ (T.w - 1) := hn.2.2 (T.w - 1) (by omega)
  have hpos : (0 : Int) < 2 ^ l := by positivity
  have har : (promT T).arith (-2 ^ l) = some (-2 ^ l) := by
    have hh := has_pow (P := promT T) (l := l) hl
    have hw := promT_wide hT
    unfold CInt.arith
    rw [if_neg (by omega), if_pos hP, if_pos]
    unfold CInt.Has CInt.min CInt.max at *
    simp only [hP, if_true] at *
    omega
  rw [har]
  simp only [Option.bind_some]
  rw [conv_has hT ⟨by omega, by omega⟩]

example : ∃ r, carryToExp2 CInt.int8 (-100) = some (-r) ∧ NextPow2 100 r :=
  C114_carry_neg_partial CInt.int8 (by decide) rfl (-100) (by decide) (by decide) (by decide)

/-- For `int` and wider types every value between `MIN` and `MIN / 2` is undefined: the result `MIN` of `carry_to_exp2(-x)` is negated. -/
theorem C114_carry_neg_undefined (T : CInt) (hT : T.Std) (hsg : T.sg = true) (hw : 32 ≤ T.w) (x : Int) (h1 : T.min < x)
    (h0 : x < -2 ^ (T.w - 2)) : carryToExp2 T x = none := by
  have hmin : T.min = -2 ^ (T.w - 1) := by unfold CInt.min; rw [if_pos hsg]
  have hmax : T.max = 2 ^ (T.w - 1) - 1 := by unfold CInt.max; rw [if_pos hsg]
  have hpos : (0 : Int) < 2 ^ (T.w - 2) := by positivity
  have hP : promT T = T := by unfold promT; rw [if_neg (by omega)]
  have harith : T.arith (-x) = some (-x) := by
    unfold CInt.arith
    rw [if_neg (by omega), if_pos hsg, if_pos ⟨by omega, by omega⟩]
  unfold carryToExp2
  rw [if_pos hsg, if_neg (by omega), if_pos (by omega), harith, hP]
  simp only [Option.bind_eq_bind, Option.bind_some, carrySimpl_big hT hsg (by omega : 2 ^ (T.w - 2) < -x) (by omega)]
  unfold CInt.arith
  rw [if_neg (by omega), if_pos hsg, if_neg (fun hh => by have := hh.2; omega)]
  rfl

theorem C114_carry_neg_false : ¬ CarryNegFull := by
  intro h
  obtain ⟨r, hr, _⟩ := h CInt.int32 (by decide) rfl (-1073741825) (by decide) (by decide)
  rw [C114_carry_neg_undefined CInt.int32 (by decide) rfl (by decide) (-1073741825) (by decide) (by decide)] at hr
  cases hr

/-- Unsigned: the smallest power of two not below `x` up to half of the range, 0 for 0 and above. -/
theorem C114_carry_unsigned (T : CInt) (hT : T.Std) (hsg : T.sg = false) (x : Int) (hx : T.Has x) :
    (0 < x → x ≤ 2 ^ (T.w - 1) → ∃ r, carryToExp2 T x = some r ∧ NextPow2 x r) ∧
    (x = 0 ∨ 2 ^ (T.w - 1) < x → carryToExp2 T x = some 0) := by
  have hT' : T.sg = false := hsg
  have h8 : 8 ≤ T.w := by rcases hT with h | h | h | h <;> omega
  have hmax : T.max = 2 ^ T.w - 1 := by unfold CInt.max; rw [hsg]; simp
  have hlt : x < 2 ^ T.w := by have := hx.2; omega
  have hneg : ¬ T.sg = true := by rw [hsg]; simp
  constructor
  · intro h0 h1
    obtain ⟨p, k, hp, hk, hkw, hhi, hpow, hnp⟩ := carry_core hT h0 hlt
    unfold carryToExp2
    rw [if_neg hneg, hp]
    simp only [Option.bind_eq_bind, Option.bind_some]
    by_cases hle : p ≤ 1
    · obtain ⟨j, rfl⟩ := hpow hle
      exact ⟨2 ^ j, by rw [if_pos hle], nextPow2_self j⟩
    · have hlo := hnp hle
      have hj : T.w - k - 1 < T.w - 1 := (pow_lt_pow_iff_right₀ (by norm_num : (1 : Int) < 2)).1 (lt_of_lt_of_le hlo h1)
      refine ⟨2 ^ (T.w - k), ?_, nextPow2_mid hlo hhi (by omega)⟩
      rw [if_neg hle, hk]
      simp only [Option.bind_some]
      unfold carryUimpl
      rw [if_neg (by omega)]
      have e : (T.w : Int) - (k : Int) = ((T.w - k : Nat) : Int) := by omega
      have hge := promT_ge T
      have hpw : (2 : Int) ^ (T.w - k) ≤ 2 ^ (T.w - 1) := pow_le_pow_right₀ (by norm_num) (by omega)
      have hpw2 : (2 : Int) ^ (T.w - 1) < 2 ^ T.w := pow_lt_pow_right₀ (by norm_num) (by omega)
      have hpos : (0 : Int) < 2 ^ (T.w - k) := by positivity
      have hself : T.Has (2 ^ (T.w - k)) := by
        unfold CInt.Has CInt.min
        rw [hsg, hmax]
        simp only [Bool.false_eq_true, if_false]
        omega
      have hPhas : (promT T).Has (1 * 2 ^ (T.w - k)) := by
        rw [one_mul]
        by_cases h32 : T.w < 32
        · apply has_pow
          unfold promT
          rw [if_pos h32]
          show T.w - k + 1 < 32
          rcases hT with h | h | h | h <;> omega
        · unfold promT; rw [if_neg h32]; exact hself
      rw [e, shl_has (promT_std hT) 1 (T.w - k) (by omega) (by norm_num) hPhas]
      simp only [Option.bind_some, one_mul, Option.bind_eq_bind]
      rw [conv_has hT hself]
  · rintro (rfl | h1)
    · unfold carryToExp2
      have h : bits T 0 = 0 := by simp [bits]
      have hp : popcount (0 : BitVec T.w) = some 0 := by rw [popcount]; simp
      rw [if_neg hneg, h, hp]
      rfl
    · have hpos : (0 : Int) < 2 ^ (T.w - 1) := by positivity
      obtain ⟨p, k, hp, hk, hkw, hhi, hpow, hnp⟩ := carry_core hT (by omega : 0 < x) hlt
      have hle : ¬ p ≤ 1 := by
        intro hle
        obtain ⟨j, rfl⟩ := hpow hle
        have a : T.w - 1 < j := (pow_lt_pow_iff_right₀ (by norm_num : (1 : Int) < 2)).1 h1
        have b : j < T.w := (pow_lt_pow_iff_right₀ (by norm_num : (1 : Int) < 2)).1 hlt
        omega
      have a : T.w - 1 < T.w - k := (pow_lt_pow_iff_right₀ (by norm_num : (1 : Int) < 2)).1 (lt_trans h1 hhi)
      have hk0 : k = 0 := by omega
      subst hk0
      unfold carryToExp2
      rw [if_neg hneg, hp]
      simp only [Option.bind_eq_bind, Option.bind_some]
      rw [if_neg hle, hk]
      rfl

example : carryToExp2 CInt.uint8 129 = some 0 := (C114_carry_unsigned _ (by decide) rfl 129 (by decide)).2 (by decide)
example : ∃ r, carryToExp2 CInt.uint16 20000 = some r ∧ NextPow2 20000 r :=
  (C114_carry_unsigned _ (by decide) rfl 20000 (by decide)).1 (by decide) (by decide)

/-! ## digits -/

/-- The full claim: `integer_digits<T, Base>` digits suffice for the absolute value of every value of `T`. -/
def DigitsFull : Prop :=
  ∀ T : CInt, T.Std → ∀ b, 2 ≤ b → b ≤ 16 → ∃ d, integerDigits T b = some d ∧ ∀ x, T.Has x → x.natAbs < b ^ d

/-- For bases 2 to 16 it is the number of digits of the maximum, for all standard types. Missing: the minimum of a signed type. -/
theorem C114_digits_partial (T : CInt) (hT : T.Std) (b : Nat) (h2 : 2 ≤ b) (h16 : b ≤ 16) :
    ∃ d, integerDigits T b = some d ∧ NumDigits b T.max.toNat d := by
  obtain ⟨w, sg⟩ := T
  simp only [CInt.Std] at hT
  have key : ∀ sg : Bool, ∀ w ∈ [8, 16, 32, 64], ∀ b ∈ List.range 17, 2 ≤ b →
      (match integerDigits ⟨w, sg⟩ b with
        | some d => decide (0 < d ∧ b ^ (d - 1) ≤ (CInt.mk w sg).max.toNat ∧ (CInt.mk w sg).max.toNat < b ^ d)
        | none => false) = true := by decide +kernel
  have h := key sg w (by simp; omega) b (by simp; omega) h2
  cases hd : integerDigits ⟨w, sg⟩ b with
  | none => rw [hd] at h; simp at h
  | some d => rw [hd] at h; exact ⟨d, rfl, by unfold NumDigits; exact of_decide_eq_true h⟩

example : ∃ d, integerDigits CInt.int64 10 = some d ∧ NumDigits 10 9223372036854775807 d :=
  C114_digits_partial CInt.int64 (by decide) 10 (by decide) (by decide)
example : NumDigits 10 9223372036854775807 19 := by unfold NumDigits; decide

/-- `integer_digits<int, 2>` is 31, one less than the digits of `INT_MIN`; so is `integer_digits<short, 8>`. -/
theorem C114_digits_false : ¬ DigitsFull ∧ NumDigits 2 (CInt.int32.min).natAbs 32 ∧ integerDigits CInt.int32 2 = some 31 ∧
    NumDigits 8 (CInt.int16.min).natAbs 6 ∧ integerDigits CInt.int16 8 = some 5 := by
  refine ⟨fun h => ?_, by unfold NumDigits; decide, by decide, by unfold NumDigits; decide, by decide⟩
  obtain ⟨d, hd, hall⟩ := h CInt.int32 (by decide) 2 (by decide) (by decide)
  have e : integerDigits CInt.int32 2 = some 31 := by decide
  rw [e] at hd
  cases hd
  have := hall CInt.int32.min (by decide)
  revert this
  decide

/-! ## the least types -/

/-- `int_t<Bits>::least` is the narrowest signed type with `Bits` bits; there is none above 64. -/
theorem C114_int_t (L : Nat) (hL : L = 32 ∨ L = 64) (n : Int) :
    (n ≤ 64 → ∃ t, intT L n = some t ∧ LeastTy L true (fun T => n ≤ T.w) t) ∧ (64 < n → intT L n = none) := by
  constructor
  · intro h
    have hc : n ≤ 8 ∨ 8 < n ∧ n ≤ 16 ∨ 16 < n ∧ n ≤ 32 ∨ 32 < n := by omega
    rcases hL with rfl | rfl <;> rcases hc with hc | hc | hc | hc <;>
    · simp only [intT, digits, Ty.cint, b2n]
      norm_num
      split_ifs <;> first
        | omega
        | (refine ⟨_, rfl, rfl, ?_, ?_⟩
           · simp only [Ty.cint]; norm_num; try omega
           · intro u hu hf; cases u <;> first
             | (exfalso; revert hu; decide)
             | (dsimp only [Ty.cint] at hf ⊢; first | omega | (norm_num at hf; omega) | norm_num at hf))
  · intro h
    rcases hL with rfl | rfl <;>
    · simp only [intT, digits, Ty.cint, b2n]
      norm_num
      split_ifs <;> first | omega | rfl

/-- `uint_t<Bits>::least` is the narrowest unsigned type with `Bits` bits, up to 64. -/
theorem C114_uint_t_partial (L : Nat) (hL : L = 32 ∨ L = 64) (n : Int) (h : n ≤ 64) :
    ∃ t, uintT L n = some t ∧ LeastTy L false (fun T => n ≤ T.w) t := by
  have hc : n ≤ 8 ∨ 8 < n ∧ n ≤ 16 ∨ 16 < n ∧ n ≤ 32 ∨ 32 < n := by omega
  rcases hL with rfl | rfl <;> rcases hc with hc | hc | hc | hc <;>
  · simp only [uintT, digits, Ty.cint, b2n]
    norm_num
    split_ifs <;> first
      | omega
      | (refine ⟨_, rfl, rfl, ?_, ?_⟩
         · simp only [Ty.cint]; norm_num; try omega
         · intro u hu hf; cases u <;> first
             | (exfalso; revert hu; decide)
             | (dsimp only [Ty.cint] at hf ⊢; first | omega | (norm_num at hf; omega) | norm_num at hf))

example : uintT 64 33 = some .ulong ∧ uintT 32 33 = some .ullong ∧ intT 64 17 = some .int := by decide

/-- The full claim about `uint_t`: a result has the bits asked for. -/
def UintTFull : Prop := ∀ L n t, (L = 32 ∨ L = 64) → uintT L n = some t → n ≤ ((t.cint L).w : Int)

/-- `uint_t<65>::least` is `signed char`. -/
theorem C114_uint_t_false : ¬ UintTFull ∧ uintT 64 65 = some .schar := by
  have e : uintT 64 65 = some .schar := by decide
  refine ⟨fun h => ?_, e⟩
  have := h 64 65 _ (.inr rfl) e
  revert this
  decide

/-- `int_max_value_t` and `int_min_value_t` name the narrowest signed types with the value. -/
theorem C114_int_value_t (L : Nat) (hL : L = 32 ∨ L = 64) (v : Int) (hv : CInt.int64.Has v) :
    (0 ≤ v → ∃ t, intMaxT L v = some t ∧ LeastTy L true (fun T => T.Has v) t) ∧
    (v ≤ 0 → ∃ t, intMinT L v = some t ∧ LeastTy L true (fun T => T.Has v) t) := by
  simp only [CInt.Has, CInt.int64, CInt.min, CInt.max] at hv
  norm_num at hv
  constructor
  · intro h
    rcases hL with rfl | rfl <;>
    · simp only [intMaxT, Ty.cint, b2n, CInt.max]
      norm_num
      split_ifs <;> first
        | omega
        | (refine ⟨_, rfl, rfl, ?_, ?_⟩
           · simp only [Ty.cint, CInt.Has, CInt.min, CInt.max]; norm_num; try omega
           · intro u hu hf; cases u <;> first
             | (exfalso; revert hu; decide)
             | (dsimp only [Ty.cint, CInt.Has, CInt.min, CInt.max] at hf ⊢; first | omega | (norm_num at hf; omega) | norm_num at hf))
  · intro h
    rcases hL with rfl | rfl <;>
    · simp only [intMinT, Ty.cint, b2n, CInt.min]
      norm_num
      split_ifs <;> first
        | omega
        | (refine ⟨_, rfl, rfl, ?_, ?_⟩
           · simp only [Ty.cint, CInt.Has, CInt.min, CInt.max]; norm_num; try omega
           · intro u hu hf; cases u <;> first
             | (exfalso; revert hu; decide)
             | (dsimp only [Ty.cint, CInt.Has, CInt.min, CInt.max] at hf ⊢; first | omega | (norm_num at hf; omega) | norm_num at hf))

example : intMaxT 64 200 = some .short ∧ intMinT 32 (-129) = some .short ∧ intMaxT 32 2147483648 = some .llong := by decide

/-- The full claim about `uint_value_t`: the narrowest unsigned type with the value. -/
def UintValueFull : Prop :=
  ∀ L, (L = 32 ∨ L = 64) → ∀ v : Int, CInt.uint64.Has v → ∃ t, uintValueT L v = some t ∧ LeastTy L false (fun T => T.Has v) t

/-- Up to the maximum of `long long` the type has the value. Missing: it need not be the narrowest, and larger values. -/
theorem C114_uint_value_t_partial (L : Nat) (hL : L = 32 ∨ L = 64) (v : Int) (h0 : 0 ≤ v) (hv : v ≤ CInt.int64.max) :
    ∃ t, uintValueT L v = some t ∧ (t.cint L).sg = false ∧ (t.cint L).Has v := by
  simp only [CInt.int64, CInt.max] at hv
  norm_num at hv
  rcases hL with rfl | rfl <;>
  · simp only [uintValueT, Ty.cint, b2n, CInt.max]
    norm_num
    split_ifs <;> first
      | omega
      | (refine ⟨_, rfl, rfl, ?_⟩
         simp only [Ty.cint, CInt.Has, CInt.min, CInt.max]; norm_num; try omega)

example : uintValueT 64 100 = some .uchar := by decide

/-- `uint_value_t<200>::least` is `unsigned short`, and `uint_value_t<ULLONG_MAX>::least` is `signed char`. -/
theorem C114_uint_value_t_false : ¬ UintValueFull ∧ uintValueT 64 200 = some .ushort ∧
    uintValueT 64 18446744073709551615 = some .schar := by
  have e : uintValueT 64 200 = some .ushort := by decide
  refine ⟨fun h => ?_, e, by decide⟩
  obtain ⟨t, ht, _, _, hl⟩ := h 64 (.inr rfl) 200 (by decide)
  rw [e] at ht
  cases ht
  have := hl .uchar rfl (by decide)
  revert this
  decide

/-- `int_t<Bits>::exact` and `uint_t<Bits>::exact` have exactly the bits and the signedness, and exist for 8, 16, 32 and 64. -/
theorem C114_exact (L : Nat) (hL : L = 32 ∨ L = 64) (sg : Bool) (n : Int) :
    (∀ t, exactT L sg n = some t → ((t.cint L).w : Int) = n ∧ (t.cint L).sg = sg) ∧
    ((exactT L sg n).isSome ↔ n = 8 ∨ n = 16 ∨ n = 32 ∨ n = 64) := by
  unfold exactT
  rcases hL with rfl | rfl <;> cases sg <;> constructor
  all_goals first
    | (intro t ht
       split_ifs at ht <;> cases ht <;> refine ⟨?_, rfl⟩ <;> simp only [Ty.cint] <;> omega)
    | (split_ifs <;> simp_all [Ty.cint])

example : exactT 32 false 64 = some .ullong ∧ exactT 64 false 64 = some .ulong ∧ exactT 64 true 24 = none := by decide

end Sprout
