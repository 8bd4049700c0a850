import Verif.Spec.StaticInt
import Verif.Props.C22
import Verif.Props.C23
import Mathlib.Tactic.Ring
import Mathlib.Algebra.Order.Ring.Abs
import Mathlib.Tactic.Linarith
import Mathlib.Tactic.NormNum
import Mathlib.Tactic.IntervalCases

/-! # Helper lemmas for C114 -/

namespace Sprout
namespace StaticInt
open Spec

instance (T : CInt) : Decidable T.Std := by unfold CInt.Std; infer_instance

theorem icon_has {T : CInt} {x : Int} (h : T.Has x) : icon T x = some x := if_pos h

theorem conv_has {T : CInt} (hT : T.Std) {x : Int} (h : T.Has x) : T.conv x = x := by
  obtain ⟨w, sg⟩ := T
  simp only [CInt.Std] at hT
  simp only [CInt.Has, CInt.min, CInt.max, CInt.conv] at *
  cases sg <;> simp only [if_true, if_false, Bool.false_eq_true] at * <;> rcases hT with rfl | rfl | rfl | rfl <;> norm_num at * <;> omega

theorem promT_std {T : CInt} (hT : T.Std) : (promT T).Std := by
  unfold promT; split
  · exact Or.inr (Or.inr (Or.inl rfl))
  · exact hT

theorem promT_wide {T : CInt} (hT : T.Std) : (promT T).w = 32 ∨ (promT T).w = 64 := by
  unfold promT
  split
  · exact .inl rfl
  · rcases hT with h | h | h | h <;> simp only [h] <;> first | omega | (exfalso; omega) | simp

/-- a shift of one that stays in the type -/
theorem shl_has {P : CInt} (hP : P.Std) (v : Int) (s : Nat) (hs : s < P.w) (hv : 0 ≤ v) (h : P.Has (v * 2 ^ s)) :
    shl P v s = some (v * 2 ^ s) := by
  have h2 : v * 2 ^ s < 2 ^ P.w := by
    have := h.2
    unfold CInt.max at this
    split at this
    · have hle : (2 : Int) ^ (P.w - 1) ≤ 2 ^ P.w := pow_le_pow_right₀ (by norm_num) (by omega)
      omega
    · omega
  unfold shl
  rw [if_neg (by omega)]
  simp only [Int.toNat_natCast, conv_has hP h]
  split
  · rw [if_neg (by omega)]
  · rfl

/-! ## powers -/

theorem arith_cases {T : CInt} (hT : T.Std) (hw : T.sg = true ∨ T.w < 32) (x : Int) :
    T.arith x = some x ∨ (T.arith x = none ∧ ¬ T.Has x) := by
  unfold CInt.arith
  by_cases h32 : T.w < 32
  · rw [if_pos h32]
    by_cases hr : -2 ^ 31 ≤ x ∧ x < 2 ^ 31
    · left; rw [if_pos hr]
    · right
      rw [if_neg hr]
      refine ⟨rfl, fun hh => hr ?_⟩
      obtain ⟨w, sg⟩ := T
      simp only [CInt.Std, CInt.Has, CInt.min, CInt.max] at *
      rcases hT with rfl | rfl | rfl | rfl <;> cases sg <;>
        simp only [Bool.false_eq_true, if_true, if_false] at hh <;> omega
  · rw [if_neg h32]
    have hsg : T.sg = true := by rcases hw with h | h <;> [exact h; exact absurd h h32]
    rw [if_pos hsg]
    by_cases hr : T.Has x
    · left; rw [if_pos hr]
    · right; rw [if_neg hr]; exact ⟨rfl, hr⟩

theorem arith_std {T : CInt} (hT : T.Std) (hw : T.sg = true ∨ T.w < 32) {x : Int} :
    (T.arith x).bind (icon T) = icon T x := by
  rcases arith_cases hT hw x with h | ⟨h, hn⟩
  · rw [h, Option.bind_some]
  · rw [h, Option.bind_none, icon, if_neg hn]

theorem arith_uns {T : CInt} (hsg : T.sg = false) (hw : ¬ T.w < 32) {x : Int} :
    (T.arith x).bind (icon T) = some (x % 2 ^ T.w) := by
  obtain ⟨w, sg⟩ := T
  simp only at hsg hw
  subst hsg
  have hp : (0 : Int) < 2 ^ w := by positivity
  have h1 := Int.emod_nonneg x hp.ne'
  have h2 := Int.emod_lt_of_pos x hp
  simp only [CInt.arith, if_neg hw, Bool.false_eq_true, if_false, Option.bind_some]
  apply icon_has
  simp only [CInt.Has, CInt.min, CInt.max, Bool.false_eq_true, if_false]
  omega

theorem tdiv2 (n : Nat) : ((n : Int)).tdiv 2 = ((n / 2 : Nat) : Int) := by rw [Int.tdiv_eq_ediv_of_nonneg (by omega)]; omega
theorem tmod2 (n : Nat) : ((n : Int)).tmod 2 = ((n % 2 : Nat) : Int) := by rw [Int.tmod_eq_emod_of_nonneg (by omega)]; omega

/-- one unfolding for a natural exponent, with both arithmetic steps abstracted -/
theorem staticPow_step (T : CInt) (X : Int) (n : Nat) :
    staticPow T X n = if n = 0 then icon T 1 else if n = 1 then icon T X
      else if n = 2 then (T.arith (X * X)).bind (icon T)
      else if n % 2 = 0 then (staticPow T X ((n / 2 : Nat) : Int)).bind fun v => (T.arith (v * v)).bind (icon T)
      else (staticPow T X ((n - 1 : Nat) : Int)).bind fun v => (T.arith (X * v)).bind (icon T) := by
  rw [staticPow]
  by_cases h0 : n = 0
  · subst h0; simp
  by_cases h1 : n = 1
  · subst h1; simp
  by_cases h2 : n = 2
  · subst h2; simp
  rw [if_neg (by omega), if_neg (by omega), if_neg (by omega), if_neg h0, if_neg h1, if_neg h2, tmod2, tdiv2]
  have e : (n : Int) - 1 = ((n - 1 : Nat) : Int) := by omega
  rw [e]
  by_cases h3 : n % 2 = 0
  · rw [if_pos (by omega), if_pos h3]; rfl
  · rw [if_neg (by omega), if_neg h3]; rfl

/-- an intermediate power of a representable power is representable -/
theorem pow_has {T : CInt} (hT : T.Std) {X : Int} (hX : T.Has X) {k n : Nat} (hk : k ≤ n) (h : T.Has (X ^ n)) (hk0 : 0 < k) :
    T.Has (X ^ k) := by
  rcases Nat.eq_or_lt_of_le hk with rfl | hlt
  · exact h
  by_cases hs : X = 0 ∨ X = 1 ∨ X = -1
  · have h01 : T.Has 0 ∧ T.Has 1 := by
      obtain ⟨w, sg⟩ := T
      simp only [CInt.Std] at hT
      simp only [CInt.Has, CInt.min, CInt.max]
      rcases hT with rfl | rfl | rfl | rfl <;> cases sg <;> norm_num
    rcases hs with rfl | rfl | rfl
    · rw [zero_pow (by omega)]; exact h01.1
    · rw [one_pow]; exact h01.2
    · rcases Nat.even_or_odd k with he | ho
      · rw [he.neg_one_pow]; exact h01.2
      · rw [ho.neg_one_pow]; exact hX
  · have h2 : 2 ≤ |X| := by
      push Not at hs
      rcases abs_cases X with ⟨e, _⟩ | ⟨e, _⟩ <;> omega
    have hpk : 0 < |X| ^ k := by positivity
    have hmul : 2 * |X| ^ k ≤ |X| ^ n := by
      obtain ⟨d, rfl⟩ := Nat.exists_eq_add_of_lt hlt
      have e : |X| ^ (k + d + 1) = |X| ^ k * |X| ^ d * |X| := by ring
      have h1 : 1 ≤ |X| ^ d := one_le_pow₀ (by omega)
      rw [e]
      nlinarith [mul_le_mul h1 h2 (by norm_num) (by positivity)]
    rw [← abs_pow, ← abs_pow] at hmul
    obtain ⟨w, sg⟩ := T
    simp only [CInt.Std] at hT
    simp only [CInt.Has, CInt.min, CInt.max] at *
    cases sg
    · simp only [Bool.false_eq_true, if_false] at *
      have : 0 ≤ X ^ k := pow_nonneg hX.1 k
      rw [abs_of_nonneg this, abs_of_nonneg h.1] at hmul
      omega
    · simp only [if_true] at *
      rcases abs_cases (X ^ k) with ⟨e1, _⟩ | ⟨e1, _⟩ <;> rcases abs_cases (X ^ n) with ⟨e2, _⟩ | ⟨e2, _⟩ <;> omega

theorem staticPow_sound {T : CInt} (hT : T.Std) (hw : T.sg = true ∨ T.w < 32) (X : Int) (hX : T.Has X) (n : Nat) :
    staticPow T X n = if T.Has (X ^ n) then some (X ^ n) else none := by
  induction n using Nat.strongRecOn with
  | _ n ih =>
    rw [staticPow_step]
    by_cases h0 : n = 0
    · subst h0; simp [icon]
    by_cases h1 : n = 1
    · subst h1; simp [icon]
    rw [if_neg h0, if_neg h1]
    by_cases h2 : n = 2
    · subst h2
      rw [if_pos rfl, arith_std hT hw, icon, pow_two]
    rw [if_neg h2]
    by_cases h3 : n % 2 = 0
    · rw [if_pos h3, ih (n / 2) (by omega)]
      have e : X ^ n = X ^ (n / 2) * X ^ (n / 2) := by rw [← pow_add]; congr 1; omega
      by_cases hh : T.Has (X ^ (n / 2))
      · rw [if_pos hh, Option.bind_some, arith_std hT hw, icon, e]
      · rw [if_neg hh, Option.bind_none, if_neg]
        exact fun hc => hh (pow_has hT hX (by omega) hc (by omega))
    · rw [if_neg h3, ih (n - 1) (by omega)]
      have e : X ^ n = X * X ^ (n - 1) := by rw [← pow_succ']; congr 1; omega
      by_cases hh : T.Has (X ^ (n - 1))
      · rw [if_pos hh, Option.bind_some, arith_std hT hw, icon, e]
      · rw [if_neg hh, Option.bind_none, if_neg]
        exact fun hc => hh (pow_has hT hX (by omega) hc (by omega))

theorem staticPow_uns {T : CInt} (hsg : T.sg = false) (hw : ¬ T.w < 32) (X : Int) (hX : T.Has X) (n : Nat) :
    staticPow T X n = some (X ^ n % 2 ^ T.w) := by
  induction n using Nat.strongRecOn with
  | _ n ih =>
    have hXm : X % 2 ^ T.w = X := by
      obtain ⟨w, sg⟩ := T
      simp only at hsg
      subst hsg
      simp only [CInt.Has, CInt.min, CInt.max, Bool.false_eq_true, if_false] at hX
      exact Int.emod_eq_of_lt hX.1 (by simp only; omega)
    rw [staticPow_step]
    by_cases h0 : n = 0
    · subst h0
      have h1 : (1 : Int) < 2 ^ T.w := one_lt_pow₀ (by norm_num) (by omega)
      rw [if_pos rfl, pow_zero, Int.emod_eq_of_lt (by norm_num) h1]
      apply icon_has
      obtain ⟨w, sg⟩ := T
      simp only at hsg h1
      subst hsg
      simp only [CInt.Has, CInt.min, CInt.max, Bool.false_eq_true, if_false]
      omega
    by_cases h1 : n = 1
    · subst h1; simp [icon_has hX, hXm]
    rw [if_neg h0, if_neg h1]
    by_cases h2 : n = 2
    · subst h2
      rw [if_pos rfl, arith_uns hsg hw, pow_two]
    rw [if_neg h2]
    by_cases h3 : n % 2 = 0
    · have e : X ^ n = X ^ (n / 2) * X ^ (n / 2) := by rw [← pow_add]; congr 1; omega
      rw [if_pos h3, ih (n / 2) (by omega), Option.bind_some, arith_uns hsg hw, e, ← Int.mul_emod]
    · have e : X ^ n = X * X ^ (n - 1) := by rw [← pow_succ']; congr 1; omega
      rw [if_neg h3, ih (n - 1) (by omega), Option.bind_some, arith_uns hsg hw, e]
      conv_rhs => rw [Int.mul_emod]
      conv_lhs => rw [Int.mul_emod, Int.emod_emod_of_dvd _ (dvd_refl _)]

/-! ## logarithm -/

theorem initialN_eq : initialN = some 32 := by decide +kernel

theorem log2Impl_spec : ∀ (j x : Nat), 0 < x → x < 2 ^ 2 ^ j →
    ∃ r, log2Impl x (2 ^ j / 2) = some r ∧ 2 ^ r ≤ x ∧ x < 2 ^ (r + 1)
  | 0, x, h0, h1 => by
    have : x = 1 := by norm_num at h1; omega
    subst this
    exact ⟨0, by rw [log2Impl]; simp, by simp, by simp⟩
  | j + 1, x, h0, h1 => by
    have hn : 2 ^ (j + 1) / 2 = 2 ^ j := by rw [pow_succ]; omega
    have hp : 0 < 2 ^ j := Nat.two_pow_pos j
    rw [hn, log2Impl, if_neg (by omega), if_neg (by omega)]
    by_cases hc : x / 2 ^ 2 ^ j > 0
    · have hge : 2 ^ 2 ^ j ≤ x := by
        by_contra hlt
        rw [Nat.div_eq_of_lt (by omega)] at hc
        omega
      have hlt : x / 2 ^ 2 ^ j < 2 ^ 2 ^ j := by
        rw [Nat.div_lt_iff_lt_mul (Nat.two_pow_pos _), ← pow_add]
        convert h1 using 2
        rw [pow_succ]; omega
      obtain ⟨r, hr, hl, hu⟩ := log2Impl_spec j (x / 2 ^ 2 ^ j) hc hlt
      simp only [if_pos hc, one_mul, hr, Option.bind_eq_bind, Option.bind_some]
      refine ⟨_, rfl, ?_, ?_⟩
      · rw [pow_add]
        calc 2 ^ 2 ^ j * 2 ^ r ≤ 2 ^ 2 ^ j * (x / 2 ^ 2 ^ j) := Nat.mul_le_mul_left _ hl
          _ ≤ x := Nat.mul_div_le x _
      · rw [Nat.div_lt_iff_lt_mul (Nat.two_pow_pos _), ← pow_add] at hu
        convert hu using 2
        omega
    · have hlt : x < 2 ^ 2 ^ j := by
        by_contra hge
        exact hc (Nat.div_pos (by omega) (Nat.two_pow_pos _))
      obtain ⟨r, hr, hl, hu⟩ := log2Impl_spec j x h0 hlt
      simp only [if_neg hc, zero_mul, pow_zero, Nat.div_one, hr, Option.bind_eq_bind, Option.bind_some, zero_add]
      exact ⟨_, rfl, hl, hu⟩

/-! ## carry to a power of two -/

theorem width_std {T : CInt} (hT : T.Std) : Width T.w := by
  rcases hT with h | h | h | h <;> rw [h]
  · exact ⟨0, rfl⟩
  · exact ⟨1, rfl⟩
  · exact ⟨2, rfl⟩
  · exact ⟨3, rfl⟩

theorem countP_le_one {p : Nat → Bool} {n i j : Nat} (h : (List.range n).countP p ≤ 1) (hi : i < n) (hj : j < n) (pi : p i = true)
    (pj : p j = true) : i = j := by
  rw [List.countP_eq_length_filter] at h
  have mi : i ∈ (List.range n).filter p := by simp [hi, pi]
  have mj : j ∈ (List.range n).filter p := by simp [hj, pj]
  generalize (List.range n).filter p = l at h mi mj
  match l with
  | [] => simp at mi
  | [a] => simp at mi mj; omega
  | a :: b :: c => simp at h

theorem countP_single (j : Nat) : ∀ n, (List.range n).countP (fun i => decide (j = i)) = if j < n then 1 else 0
  | 0 => by simp
  | n + 1 => by
    rw [List.range_succ, List.countP_append, countP_single j n]
    simp only [List.countP_cons, List.countP_nil, zero_add, decide_eq_true_eq]
    split_ifs <;> omega

theorem ones_le_one {w : Nat} (x : BitVec w) (hx : x ≠ 0) : ones x ≤ 1 ↔ ∃ k, x.toNat = 2 ^ k := by
  obtain ⟨k, hk⟩ : ∃ k, k < w ∧ x.getLsbD k = true := by
    by_contra hne
    push Not at hne
    apply hx
    apply BitVec.eq_of_getLsbD_eq
    intro i hi
    simp [hne i hi]
  constructor
  · intro h
    refine ⟨k, Nat.eq_of_testBit_eq fun i => ?_⟩
    rw [Nat.testBit_two_pow]
    by_cases hik : k = i
    · subst hik; simpa [BitVec.getLsbD] using hk.2
    · simp only [hik, decide_false]
      by_contra hb
      have hb : x.getLsbD i = true := by simpa [BitVec.getLsbD] using hb
      have hiw : i < w := by
        by_contra hge
        rw [BitVec.getLsbD_of_ge _ _ (by omega)] at hb
        simp at hb
      exact hik (countP_le_one h hk.1 hiw hk.2 hb)
  · rintro ⟨j, hj⟩
    unfold ones
    have hbit : ∀ i, x.getLsbD i = decide (j = i) := fun i => by rw [BitVec.getLsbD, hj, Nat.testBit_two_pow]
    simp only [hbit]
    rw [countP_single]
    split <;> omega

theorem leading_bounds {w : Nat} {x : BitVec w} {k : Nat} (h : Leading false x k) (hx : x ≠ 0) :
    k < w ∧ 2 ^ (w - k - 1) ≤ x.toNat ∧ x.toNat < 2 ^ (w - k) := by
  have hk := leading_lt h hx
  refine ⟨hk, ?_, ?_⟩
  · apply Nat.ge_two_pow_of_testBit
    have := h.2.2 hk
    rw [show w - 1 - k = w - k - 1 by omega] at this
    simpa [BitVec.getLsbD] using this
  · apply Nat.lt_pow_two_of_testBit
    intro i hi
    by_cases hiw : i < w
    · have := h.2.1 (w - 1 - i) (by omega)
      rw [show w - 1 - (w - 1 - i) = i by omega] at this
      simpa [BitVec.getLsbD] using this
    · have := BitVec.getLsbD_of_ge x i (by omega)
      simpa [BitVec.getLsbD] using this

theorem nextPow2_self (k : Nat) : NextPow2 (2 ^ k) (2 ^ k) := ⟨⟨k, rfl⟩, le_refl _, fun _ h => h⟩

theorem nextPow2_mid {x : Int} {l : Nat} (h1 : 2 ^ (l - 1) < x) (h2 : x < 2 ^ l) (hl : 0 < l) : NextPow2 x (2 ^ l) := by
  refine ⟨⟨l, rfl⟩, h2.le, fun k hk => ?_⟩
  have hlt : (2 : Int) ^ (l - 1) < 2 ^ k := by omega
  have := (pow_lt_pow_iff_right₀ (by norm_num : (1 : Int) < 2)).1 hlt
  exact pow_le_pow_right₀ (by norm_num) (by omega)

/-- what `popcount` and `cntl0` say about a positive value -/
theorem carry_core {T : CInt} (hT : T.Std) {x : Int} (h0 : 0 < x) (h1 : x < 2 ^ T.w) :
    ∃ p k : Nat, popcount (bits T x) = some p ∧ cntl0 (bits T x) = some (k : Int) ∧ k < T.w ∧
      x < 2 ^ (T.w - k) ∧ (p ≤ 1 → ∃ j : Nat, x = 2 ^ j) ∧ (¬ p ≤ 1 → 2 ^ (T.w - k - 1) < x) := by
  have htn : (bits T x).toNat = x.toNat := by
    unfold bits
    rw [BitVec.toNat_ofInt]
    congr 1
    exact Int.emod_eq_of_lt h0.le (by push_cast; exact h1)
  have hx : bits T x ≠ 0 := by
    intro hc
    rw [hc] at htn
    simp at htn
    omega
  obtain ⟨k, _, hk, hl⟩ := C23_clz (width_std hT) (bits T x)
  obtain ⟨hkw, hlo, hhi⟩ := leading_bounds hl hx
  rw [htn] at hlo hhi
  have hxe : x = (x.toNat : Int) := by omega
  refine ⟨_, k, C22_popcount _, hk, hkw, ?_, ?_, ?_⟩
  · rw [hxe]; exact_mod_cast hhi
  · intro hp
    obtain ⟨j, hj⟩ := (ones_le_one _ hx).1 hp
    rw [htn] at hj
    exact ⟨j, by rw [hxe, hj]; push_cast; rfl⟩
  · intro hp
    have hne : x.toNat ≠ 2 ^ (T.w - k - 1) := fun hc => hp ((ones_le_one _ hx).2 ⟨_, by rw [htn]; exact hc⟩)
    rw [hxe]
    exact_mod_cast (by omega : 2 ^ (T.w - k - 1) < x.toNat)

theorem has_pow {P : CInt} {l : Nat} (h : l + 1 < P.w) : P.Has (2 ^ l) := by
  have h1 : (2 : Int) ^ l * 2 ≤ 2 ^ (P.w - 1) := by
    rw [← pow_succ]; exact pow_le_pow_right₀ (by norm_num) (by omega)
  have h2 : (2 : Int) ^ (P.w - 1) ≤ 2 ^ P.w := pow_le_pow_right₀ (by norm_num) (by omega)
  have h3 : (0 : Int) < 2 ^ l := by positivity
  unfold CInt.Has CInt.min CInt.max
  split <;> omega

theorem promT_ge (T : CInt) : T.w ≤ (promT T).w := by
  unfold promT; split
  · show T.w ≤ 32; omega
  · exact le_refl _

theorem carrySimpl_zero {T : CInt} : carrySimpl T 0 = some 0 := by
  unfold carrySimpl
  have h : bits T 0 = 0 := by simp [bits]
  have hp : popcount (0 : BitVec T.w) = some 0 := by rw [popcount]; simp
  rw [h, hp]
  rfl

/-- up to a quarter of the range `carry_to_exp2_simpl` is the next power of two, and it is in the type -/
theorem carrySimpl_small {T : CInt} (hT : T.Std) {x : Int} (h0 : 0 < x) (h1 : x ≤ 2 ^ (T.w - 2)) :
    ∃ l : Nat, l + 1 < T.w ∧ carrySimpl T x = some (2 ^ l) ∧ NextPow2 x (2 ^ l) := by
  have h8 : 8 ≤ T.w := by rcases hT with h | h | h | h <;> omega
  have hlt : (2 : Int) ^ (T.w - 2) < 2 ^ T.w := pow_lt_pow_right₀ (by norm_num) (by omega)
  obtain ⟨p, k, hp, hk, hkw, hhi, hpow, hnp⟩ := carry_core hT h0 (by omega)
  unfold carrySimpl
  rw [hp]
  simp only [Option.bind_eq_bind, Option.bind_some]
  by_cases hle : p ≤ 1
  · obtain ⟨j, rfl⟩ := hpow hle
    have hj : j ≤ T.w - 2 := (pow_le_pow_iff_right₀ (by norm_num : (1 : Int) < 2)).1 h1
    exact ⟨j, by omega, by rw [if_pos hle], nextPow2_self j⟩
  · have hlo := hnp hle
    have hj : T.w - k - 1 < T.w - 2 := (pow_lt_pow_iff_right₀ (by norm_num : (1 : Int) < 2)).1 (lt_of_lt_of_le hlo h1)
    refine ⟨T.w - k, by omega, ?_, nextPow2_mid hlo hhi (by omega)⟩
    rw [if_neg hle, hk]
    simp only [Option.bind_some]
    have e : (T.w : Int) - (k : Int) = ((T.w - k : Nat) : Int) := by omega
    have hge := promT_ge T
    rw [e, shl_has (promT_std hT) 1 (T.w - k) (by omega) (by norm_num) (by rw [one_mul]; exact has_pow (by omega))]
    simp only [Option.bind_some, one_mul]
    rw [conv_has hT (has_pow (by omega))]

/-- above it, the minimum of the type -/
theorem carrySimpl_big {T : CInt} (hT : T.Std) (hsg : T.sg = true) {x : Int} (h0 : 2 ^ (T.w - 2) < x) (h1 : x ≤ T.max) :
    carrySimpl T x = some T.min := by
  have h8 : 8 ≤ T.w := by rcases hT with h | h | h | h <;> omega
  have hmax : T.max < 2 ^ (T.w - 1) := by unfold CInt.max; rw [hsg]; simp
  have hlt : (2 : Int) ^ (T.w - 1) < 2 ^ T.w := pow_lt_pow_right₀ (by norm_num) (by omega)
  have hpos : (0 : Int) < 2 ^ (T.w - 2) := by positivity
  obtain ⟨p, k, hp, hk, hkw, hhi, hpow, hnp⟩ := carry_core hT (by omega : 0 < x) (by omega)
  unfold carrySimpl
  rw [hp]
  simp only [Option.bind_eq_bind, Option.bind_some]
  have hle : ¬ p ≤ 1 := by
    intro hle
    obtain ⟨j, rfl⟩ := hpow hle
    have a : T.w - 2 < j := (pow_lt_pow_iff_right₀ (by norm_num : (1 : Int) < 2)).1 h0
    have b : j < T.w - 1 := (pow_lt_pow_iff_right₀ (by norm_num : (1 : Int) < 2)).1 (by omega : (2 : Int) ^ j < 2 ^ (T.w - 1))
    omega
  have hlo := hnp hle
  have a : T.w - 2 < T.w - k := (pow_lt_pow_iff_right₀ (by norm_num : (1 : Int) < 2)).1 (lt_trans h0 hhi)
  have b : T.w - k - 1 < T.w - 1 :=
    (pow_lt_pow_iff_right₀ (by norm_num : (1 : Int) < 2)).1 (by omega : (2 : Int) ^ (T.w - k - 1) < 2 ^ (T.w - 1))
  have hk1 : k = 1 := by omega
  subst hk1
  rw [if_neg hle, hk]
  obtain ⟨w, sg⟩ := T
  simp only at hsg
  subst hsg
  simp only [CInt.Std] at hT
  rcases hT with rfl | rfl | rfl | rfl <;> decide +kernel

end StaticInt
end Sprout
