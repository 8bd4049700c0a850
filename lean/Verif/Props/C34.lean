import Verif.Proofs.IntStr3
import Verif.Props.C35

/-!
# C34: integer to string and back

`int_to_string` produces the numeral in bases 2..10 for every value of every standard integer type, with one exception: the minimum of a
signed type whose magnitude is a power of the base (refuted). Bases 11..16 print wrong characters, bases above 16 do not exist. Parsing the
result gives the number back except for `-max`.
-/

namespace Sprout
open Spec Ascii IntStr

/-- bases 2..10: sign, digits without leading zeros, and a terminator inside the array -/
theorem C34_int_to_string_partial (nd : Bool) {T : CInt} (hT : T.Std) {b : Nat} (hb : 2 ≤ b) (hb' : b ≤ 10) {x : Int} (hx : T.Has x)
    (hmin : T.sg = true → x = T.min → ∀ k : Nat, b ^ k ≠ 2 ^ (T.w - 1)) :
    ∃ (ds : List Nat) (z : Nat), IsNumeral b x.natAbs ds ∧
      intToString nd T b x = some ⟨(signChars x ++ ds.map digitChar).length,
        signChars x ++ ds.map digitChar ++ List.replicate (z + 1) 0⟩ := by
  obtain ⟨b1, b2, b3, b4, b5, b6⟩ := hT.bounds
  obtain ⟨cap, c1, c2, c3⟩ := capacity hT hb hb'
  obtain ⟨k, d1, d2, d3, d4, d5⟩ := intDigits_eq hb x
  have hcap : x.natAbs < b ^ cap := by
    unfold CInt.Has at hx
    rcases Bool.eq_false_or_eq_true T.sg with hs | hs
    · have e := b4 hs
      by_cases hxm : x = T.min
      · have := c3 hs (hmin hs hxm)
        omega
      · omega
    · have e := b5 hs
      omega
  have hkc : k ≤ cap := by
    by_cases h0 : x = 0
    · rw [d4 h0]
      rcases Nat.eq_zero_or_pos cap with h | h
      · rw [h] at c2; simp at c2; omega
      · exact h
    · have h1 : b ^ (k - 1) < b ^ cap := Nat.lt_of_le_of_lt (d5 h0) hcap
      have := (Nat.pow_lt_pow_iff_right (by omega : 1 < b)).1 h1
      omega
  have hpow : ((b ^ (k - 1) : Nat) : Int) ≤ T.max := by
    by_cases h0 : x = 0
    · rw [d4 h0]; simp; omega
    · have h1 := d5 h0
      unfold CInt.Has at hx
      rcases Bool.eq_false_or_eq_true T.sg with hs | hs
      · have e := b4 hs
        by_cases hxm : x = T.min
        · have h2 := hmin hs hxm (k - 1)
          have e' : T.min = -2 ^ (T.w - 1) := by simp [CInt.min, hs]
          have : ((b ^ (k - 1) : Nat) : Int) ≠ 2 ^ (T.w - 1) := by exact_mod_cast h2
          omega
        · omega
      · have e := b5 hs
        omega
  have hlen : ((numeral b x.natAbs k).map digitChar).length = k := by simp [numeral]
  have hdc := digitChars_eq (nd := nd) hT (by omega) hb' hx d2 hkc hpow
  have hspec := numeral_spec hb d2 d3 (fun h => d4 (by omega)) (fun h => d5 (by omega))
  have hint : intToString nd T b x =
      if T.sg then
        if x < 0 then some (rawConstruct (cap + 1) (k + 1)
          (0x2D :: ((numeral b x.natAbs k).map digitChar ++ List.replicate (cap - k) 0)))
        else some (rawConstruct (cap + 1) k ((numeral b x.natAbs k).map digitChar ++ List.replicate (cap - k) 0))
      else some (rawConstruct cap k ((numeral b x.natAbs k).map digitChar ++ List.replicate (cap - k) 0)) := by
    rw [intToString, c1]
    simp only [Option.bind_eq_bind, Option.bind_some]
    rw [d1]
    simp only [Option.bind_some]
    rw [hdc]
    rfl
  rcases Bool.eq_false_or_eq_true T.sg with hs | hs
  · by_cases hneg : x < 0
    · refine ⟨_, cap - k, hspec, ?_⟩
      rw [hint, if_pos hs, if_pos hneg]
      have := rawConstruct_eq (N := cap + 1) (xs := 0x2D :: (numeral b x.natAbs k).map digitChar)
        (zs := List.replicate (cap - k) 0) (by simp only [List.length_cons, hlen]; omega)
      simp only [List.length_cons, hlen, List.cons_append] at this
      rw [this, show cap + 1 + 1 - (k + 1) = cap - k + 1 by omega]
      simp only [signChars, if_pos hneg, List.cons_append, List.nil_append, List.length_cons, hlen]
    · refine ⟨_, cap + 1 - k, hspec, ?_⟩
      rw [hint, if_pos hs, if_neg hneg]
      have := rawConstruct_eq (N := cap + 1) (xs := (numeral b x.natAbs k).map digitChar)
        (zs := List.replicate (cap - k) 0) (by rw [hlen]; omega)
      rw [hlen] at this
      rw [this, show cap + 1 + 1 - k = cap + 1 - k + 1 by omega]
      simp only [signChars, if_neg hneg, List.nil_append, hlen]
  · have hneg : ¬ x < 0 := by unfold CInt.Has at hx; rw [b5 hs] at hx; omega
    refine ⟨_, cap - k, hspec, ?_⟩
    rw [hint, if_neg (by simp [hs])]
    have := rawConstruct_eq (N := cap) (xs := (numeral b x.natAbs k).map digitChar)
      (zs := List.replicate (cap - k) 0) (by rw [hlen]; omega)
    rw [hlen] at this
    rw [this, show cap + 1 - k = cap - k + 1 by omega]
    simp only [signChars, if_neg hneg, List.nil_append, hlen]

/-- base 10 has no exception -/
theorem C34_decimal (nd : Bool) {T : CInt} (hT : T.Std) {x : Int} (hx : T.Has x) :
    ∃ (ds : List Nat) (z : Nat), IsNumeral 10 x.natAbs ds ∧
      intToString nd T 10 x = some ⟨(signChars x ++ ds.map digitChar).length,
        signChars x ++ ds.map digitChar ++ List.replicate (z + 1) 0⟩ := by
  refine C34_int_to_string_partial nd hT (by omega) (by omega) hx (fun _ _ k hk => ?_)
  have hk0 : k ≠ 0 := by
    rintro rfl
    unfold CInt.Std at hT
    rcases hT with h | h | h | h <;> rw [h] at hk <;> simp at hk
  have h5 : 5 ∣ 2 ^ (T.w - 1) := by
    rw [← hk]
    exact Dvd.dvd.trans (by decide : 5 ∣ 10) (dvd_pow_self 10 hk0)
  unfold CInt.Std at hT
  rcases hT with h | h | h | h <;> rw [h] at h5 <;> revert h5 <;> decide

/-- the numeral is unique, so the statements determine the string -/
theorem C34_numeral_unique {b n : Nat} {ds es : List Nat} (h : IsNumeral b n ds) (h' : IsNumeral b n es) : ds = es := by
  obtain ⟨a1, a2, a3, a4⟩ := h
  obtain ⟨c1, c2, c3, c4⟩ := h'
  -- equal lengths give equal digits
  have eqlen : ∀ ds es : List Nat, ds.length = es.length → (∀ d ∈ ds, d < b) → (∀ d ∈ es, d < b) → ∀ a c,
      evalFrom b a ds = evalFrom b c es → a = c ∧ ds = es := by
    intro ds
    induction ds with
    | nil =>
      intro es hl _ _ a c he
      obtain rfl : es = [] := List.length_eq_zero_iff.1 (by simpa using hl.symm)
      exact ⟨he, rfl⟩
    | cons d ds ih =>
      intro es hl h1 h2 a c he
      obtain ⟨e, es, rfl⟩ : ∃ e es', es = e :: es' := by
        cases es with
        | nil => simp at hl
        | cons e es => exact ⟨e, es, rfl⟩
      have hd := h1 d (by simp)
      have hee := h2 e (by simp)
      obtain ⟨k1, k2⟩ := ih es (by simpa using hl) (fun x hx => h1 x (by simp [hx])) (fun x hx => h2 x (by simp [hx])) (a * b + d)
        (c * b + e) he
      have hac : a = c := by
        rcases Nat.lt_trichotomy a c with h | h | h
        · have : (a + 1) * b ≤ c * b := Nat.mul_le_mul_right _ h
          rw [Nat.add_mul] at this
          omega
        · exact h
        · have : (c + 1) * b ≤ a * b := Nat.mul_le_mul_right _ h
          rw [Nat.add_mul] at this
          omega
      subst hac
      exact ⟨rfl, by rw [k2, show d = e by omega]⟩
  -- a longer numeral without leading zero is larger
  have low : ∀ ds : List Nat, ∀ a, a * b ^ ds.length ≤ evalFrom b a ds := by
    intro ds
    induction ds with
    | nil => intro a; simp [evalFrom]
    | cons d ds ih =>
      intro a
      refine Nat.le_trans ?_ (ih (a * b + d))
      rw [List.length_cons, Nat.pow_succ, Nat.add_mul, ← Nat.mul_assoc, Nat.mul_right_comm]
      omega
  have high : ∀ ds : List Nat, (∀ d ∈ ds, d < b) → ∀ a, evalFrom b a ds < (a + 1) * b ^ ds.length := by
    intro ds
    induction ds with
    | nil => intro _ a; simp [evalFrom]
    | cons d ds ih =>
      intro h a
      have := ih (fun x hx => h x (by simp [hx])) (a * b + d)
      refine Nat.lt_of_lt_of_le this ?_
      rw [List.length_cons, Nat.pow_succ, Nat.mul_comm (b ^ ds.length) b, ← Nat.mul_assoc]
      refine Nat.mul_le_mul_right _ ?_
      have := h d (by simp)
      rw [Nat.add_mul]; omega
  have longer : ∀ ds es : List Nat, ds ≠ [] → (∀ d ∈ ds, d < b) → (∀ d ∈ es, d < b) → (es.head? = some 0 → es = [0]) →
      ds.length < es.length → evalFrom b 0 ds ≠ evalFrom b 0 es := by
    intro ds es hne h1 h2 h3 hlt
    cases es with
    | nil => simp at hlt
    | cons e es =>
      have he : e ≠ 0 := by
        rintro rfl
        have h4 := h3 rfl
        have h5 := List.length_pos_iff.2 hne
        rw [h4] at hlt
        simp only [List.length_cons, List.length_nil] at hlt
        omega
      have h4 := high ds h1 0
      have h5 : e * b ^ es.length ≤ evalFrom b 0 (e :: es) := by
        have := low es (0 * b + e)
        simpa [evalFrom] using this
      have hb : 1 ≤ b := by have := h2 e (by simp); omega
      have h6 : b ^ ds.length ≤ b ^ es.length := Nat.pow_le_pow_right hb (by simpa using Nat.lt_succ_iff.1 hlt)
      have h7 : 1 * b ^ es.length ≤ e * b ^ es.length := Nat.mul_le_mul_right _ (by omega)
      omega
  rcases Nat.lt_trichotomy ds.length es.length with hl | hl | hl
  · exact absurd (a3.trans c3.symm) (longer ds es a1 a2 c2 c4 hl)
  · exact (eqlen ds es hl a2 c2 0 0 (a3.trans c3.symm)).2
  · exact absurd (c3.trans a3.symm) (longer es ds c1 c2 a2 a4 hl)

/-- printing and parsing give the number back, `-max` excepted -/
theorem C34_round_trip_partial (nd : Bool) {T : CInt} (hT : T.Std) {b : Nat} (hb : 2 ≤ b) (hb' : b ≤ 10) {x : Int} (hx : T.Has x)
    (hmin : T.sg = true → x = T.min → ∀ k : Nat, b ^ k ≠ 2 ^ (T.w - 1)) (hmax : x ≠ -T.max) :
    ∃ s, intToString nd T b x = some s ∧ strToInt T s.elems b = some x := by
  obtain ⟨b1, b2, b3, b4, b5, b6⟩ := hT.bounds
  obtain ⟨ds, z, ⟨n1, n2, n3, n4⟩, he⟩ := C34_int_to_string_partial nd hT hb hb' hx hmin
  refine ⟨_, he, ?_⟩
  simp only
  have hdc : ∀ d ∈ ds, digitChar d = 0x30 + (d : Int) ∧ d < b := fun d hd => ⟨by
    have := n2 d hd; rw [digitChar, if_pos (by omega)], n2 d hd⟩
  -- the digits are read back
  have hdig : ∀ ds : List Nat, (∀ d ∈ ds, digitChar d = 0x30 + (d : Int) ∧ d < b) →
      digitsOf b (ds.map digitChar ++ List.replicate (z + 1) 0) = ds := by
    intro ds
    induction ds with
    | nil => intro _; simp [List.replicate_succ, digitsOf, digitVal]
    | cons d ds ih =>
      intro h
      obtain ⟨e1, e2⟩ := h d (by simp)
      rw [List.map_cons, List.cons_append, digitsOf, ih (fun d hd => h d (by simp [hd])), e1, digitVal, if_pos (by omega)]
      simp only
      rw [show (0x30 + (d : Int) - 0x30).toNat = d by omega, if_pos e2]
  have hchars : ∀ c ∈ signChars x ++ ds.map digitChar ++ List.replicate (z + 1) 0, IsChar c := by
    intro c hc
    simp only [List.mem_append, List.mem_map, List.mem_replicate] at hc
    rcases hc with (hc | ⟨d, hd, rfl⟩) | ⟨-, rfl⟩
    · unfold signChars at hc
      split at hc
      · simp at hc; subst hc; unfold IsChar; omega
      · simp at hc
    · rw [(hdc d hd).1]; have := n2 d hd; unfold IsChar; omega
    · unfold IsChar; omega
  obtain ⟨d0, ds', rfl⟩ : ∃ d0 ds', ds = d0 :: ds' := by
    cases ds with
    | nil => exact absurd rfl n1
    | cons d ds => exact ⟨d, ds, rfl⟩
  have hd0 := hdc d0 (by simp)
  -- white space and sign
  have hskip : skipSpace (signChars x ++ (d0 :: ds').map digitChar ++ List.replicate (z + 1) 0) =
      signChars x ++ (d0 :: ds').map digitChar ++ List.replicate (z + 1) 0 := by
    unfold signChars
    split
    · rfl
    · rw [List.map_cons, hd0.1, List.nil_append, List.cons_append, skipSpace, List.dropWhile_cons, decide_eq_false (by unfold Ctype.space; omega),
        if_neg (by simp)]
  have hsign : splitSign (signChars x ++ (d0 :: ds').map digitChar ++ List.replicate (z + 1) 0) =
      (decide (x < 0), (d0 :: ds').map digitChar ++ List.replicate (z + 1) 0) := by
    unfold signChars
    split
    · rename_i h; simp [splitSign, h]
    · rename_i h
      rw [List.map_cons, hd0.1, List.nil_append, List.cons_append, decide_eq_false h]
      unfold splitSign
      split
      · rename_i h; simp at h; omega
      · rename_i h; simp at h; omega
      · rfl
  have hnohex : ¬ HexPrefix ((d0 :: ds').map digitChar ++ List.replicate (z + 1) 0) := by
    rintro ⟨-, h⟩
    cases ds' with
    | nil => simp [List.replicate_succ] at h
    | cons d1 ds' =>
      have := hdc d1 (by simp)
      simp [this.1] at h
      omega
  have hbase : splitBase b ((d0 :: ds').map digitChar ++ List.replicate (z + 1) 0) =
      (b, (d0 :: ds').map digitChar ++ List.replicate (z + 1) 0) := by
    unfold splitBase
    split
    · rename_i h
      rw [if_neg (by omega), if_neg (by omega), h]
    · rw [if_neg (by omega)]
  have hev : evalFrom b 0 (digitsOf b ((d0 :: ds').map digitChar ++ List.replicate (z + 1) 0)) = x.natAbs := by
    rw [hdig _ hdc, n3]
  rw [C35_str_to_int_partial hT (Or.inr hb) (by omega) (by simp [List.replicate_succ]) hchars]
  · rw [strtol, hskip, hsign]
    simp only
    rw [hbase]
    simp only
    rw [hev]
    unfold CInt.Has at hx
    congr 1
    unfold clampTo signed
    by_cases hneg : x < 0
    · simp only [hneg, decide_true, if_true]
      rw [if_neg (by omega), if_neg (by omega)]; omega
    · simp only [hneg, decide_false, Bool.false_eq_true, if_false]
      rw [if_neg (by omega), if_neg (by omega)]; omega
  · rw [hskip, hsign]
    intro h; exact absurd h hnohex
  · rw [hskip, hsign]
    simp only
    rw [hbase]
    simp only
    rw [hev]
    intro _ hneg
    have : x < 0 := by simpa using hneg
    omega

/-- `-max` is printed correctly but read back as `min` -/
theorem C34_round_trip_false :
    ¬ ∀ x : Int, CInt.int32.Has x → ∃ s, intToString true .int32 10 x = some s ∧ strToInt .int32 s.elems 10 = some x := by
  intro h
  obtain ⟨s, h1, h2⟩ := h (-2147483647) (by decide)
  obtain ⟨ds, z, -, h3⟩ := C34_decimal true (T := .int32) (by simp [CInt.Std, CInt.int32]) (x := -2147483647) (by decide)
  have hcap : integerDigits .int32 10 = some 10 := by decide +kernel
  have hd : intDigits 10 (-2147483647) = some 10 := by
    rw [intDigits]
    iterate 10 rw [intDigitsImpl]
    rfl
  have hc : digitChars true .int32 10 (-2147483647) 10 10 =
      some [0x32, 0x31, 0x34, 0x37, 0x34, 0x38, 0x33, 0x36, 0x34, 0x37] := by decide +kernel
  have : intToString true .int32 10 (-2147483647) =
      some ⟨11, [0x2D, 0x32, 0x31, 0x34, 0x37, 0x34, 0x38, 0x33, 0x36, 0x34, 0x37, 0]⟩ := by
    rw [intToString, hcap]
    simp only [Option.bind_eq_bind, Option.bind_some]
    rw [show ((10 : Nat) : Int) = 10 from rfl, hd]
    simp only [Option.bind_some]
    rw [hc]
    rfl
  rw [this] at h1
  cases h1
  revert h2
  decide +kernel

/-- `INT_MIN` in base 2: undefined (overflow in `int_pow`) -/
theorem C34_min_base2_false : ¬ ∀ x : Int, CInt.int32.Has x → ∃ s, intToString true .int32 2 x = some s := by
  intro h
  obtain ⟨s, hs⟩ := h (-2147483648) (by decide)
  have hcap : integerDigits .int32 2 = some 31 := by decide +kernel
  have hd : intDigits 2 (-2147483648) = some 32 := by
    rw [intDigits]
    iterate 33 rw [intDigitsImpl]
    rfl
  have hc : digitChars true .int32 2 (-2147483648) 32 31 = none := by decide +kernel
  rw [intToString, hcap] at hs
  simp only [Option.bind_eq_bind, Option.bind_some] at hs
  rw [show ((2 : Nat) : Int) = 2 from rfl, hd] at hs
  simp only [Option.bind_some] at hs
  rw [hc] at hs
  cases hs

/-- base 16: the digit ten is printed as ':' (with assertions disabled; otherwise the assertion fails) -/
theorem C34_base16_false :
    intToString true .int32 16 10 = some ⟨1, [0x3A, 0, 0, 0, 0, 0, 0, 0, 0, 0]⟩ ∧ intToString false .int32 16 10 = none := by
  have hcap : integerDigits .int32 16 = some 8 := by decide +kernel
  have hd : intDigits 16 10 = some 1 := by
    rw [intDigits]
    iterate 1 rw [intDigitsImpl]
    rfl
  have hc : digitChars true .int32 16 10 1 8 = some [0x3A, 0, 0, 0, 0, 0, 0, 0] := by decide +kernel
  have hc' : digitChars false .int32 16 10 1 8 = none := by decide +kernel
  constructor <;> rw [intToString, hcap] <;> simp only [Option.bind_eq_bind, Option.bind_some] <;>
    rw [show ((16 : Nat) : Int) = 16 from rfl, hd] <;> simp only [Option.bind_some]
  · rw [hc]; rfl
  · rw [hc']; rfl

/-- bases above 16 are not available -/
theorem C34_base_above_16 (nd : Bool) (T : CInt) (b : Nat) (hb : 16 < b) (x : Int) : intToString nd T b x = none := by
  have : integerDigits T b = none := by
    unfold integerDigits
    split <;> first | omega | rfl
  rw [intToString, this]
  rfl

end Sprout
