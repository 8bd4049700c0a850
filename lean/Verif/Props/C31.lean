import Verif.Proofs.Rational

/-!
# C31: rational arithmetic

Proved: constructors, unary and binary operators, `abs`, `++`, `--`; compound assignment when the right operand is another
object; `x *= x`; and `x += x`, `x -= x`, `x /= x` in the cases they get right. Refuted: `x += x`, `x -= x` and `x /= x`
(the right operand is read after the object has been changed).
-/

namespace Sprout
open Spec Rational

/-- `rational()`, `rational(n)` -/
theorem C31_construct_integer (n : Int) :
    Normal zero ∧ val zero = 0 ∧ Normal (ofInt n) ∧ val (ofInt n) = n := by
  refine ⟨normal_iff.2 ⟨by decide, isCoprime_one_right⟩, by simp [val, zero],
    normal_iff.2 ⟨by simp [ofInt], isCoprime_one_right⟩, by simp [val, ofInt]⟩

/-- `rational(n, d)`: in lowest terms, with value `n / d`; throws `bad_rational` exactly if `d` is zero -/
theorem C31_construct (n d : Int) :
    (d = 0 → mk2 n d = some (.throw .badRational)) ∧
    (d ≠ 0 → ∃ q, mk2 n d = some (.ret q) ∧ Normal q ∧ val q = (n : ℚ) / d) := by
  refine ⟨fun h => ?_, mk2_eq⟩
  rw [mk2, normalizeG, if_pos h]; rfl

/-- two rationals in lowest terms with the same value are the same -/
theorem C31_canonical {x y : Rational} (hx : Normal x) (hy : Normal y) (h : val x = val y) : x = y := by
  have hx' := normal_iff.1 hx
  have hy' := normal_iff.1 hy
  have q1 : (x.den : ℚ) ≠ 0 := by exact_mod_cast (show x.den ≠ 0 by omega)
  have q2 : (y.den : ℚ) ≠ 0 := by exact_mod_cast (show y.den ≠ 0 by omega)
  rw [val, val, div_eq_div_iff q1 q2] at h
  have h : x.num * y.den = y.num * x.den := by exact_mod_cast h
  have d1 : x.den ∣ y.den := hx'.2.symm.dvd_of_dvd_mul_left ⟨y.num, by rw [h]; ring⟩
  have d2 : y.den ∣ x.den := hy'.2.symm.dvd_of_dvd_mul_left ⟨x.num, by rw [← h]; ring⟩
  have e := Int.dvd_antisymm (by omega) (by omega) d1 d2
  rw [e] at h
  have e' := Int.eq_of_mul_eq_mul_right (show y.den ≠ 0 by omega) h
  cases x; cases y; simp_all

theorem C31_neg {x : Rational} (hx : Normal x) : Normal (neg x) ∧ val (neg x) = - val x := by
  rw [normal_iff] at *
  refine ⟨⟨hx.1, hx.2.neg_left⟩, by simp [val, neg, neg_div]⟩

theorem C31_abs {x : Rational} (hx : Normal x) : Normal (Rational.abs x) ∧ val (Rational.abs x) = |val x| := by
  have hd : (0 : ℚ) < x.den := by exact_mod_cast hx.1
  unfold Rational.abs
  split
  · rename_i h
    refine ⟨hx, ?_⟩
    have : (0 : ℚ) ≤ x.num := by exact_mod_cast h
    rw [abs_of_nonneg (by rw [val]; exact div_nonneg this (le_of_lt hd))]
  · rename_i h
    refine ⟨(C31_neg hx).1, ?_⟩
    have : (x.num : ℚ) < 0 := by exact_mod_cast (show x.num < 0 by omega)
    rw [abs_of_neg (by rw [val, div_lt_iff₀ hd, zero_mul]; exact this)]
    exact (C31_neg hx).2

theorem C31_inc_dec {x : Rational} (hx : Normal x) :
    Normal (inc x) ∧ val (inc x) = val x + 1 ∧ Normal (dec x) ∧ val (dec x) = val x - 1 := by
  have hd : (x.den : ℚ) ≠ 0 := by exact_mod_cast (show x.den ≠ 0 by have := hx.1; omega)
  rw [normal_iff] at hx
  refine ⟨normal_iff.2 ⟨hx.1, ?_⟩, ?_, normal_iff.2 ⟨hx.1, ?_⟩, ?_⟩
  · have := hx.2.add_mul_left_left 1
    simpa [inc] using this
  · simp only [val, inc]; push_cast; field_simp
  · have := hx.2.add_mul_left_left (-1)
    simpa [dec, sub_eq_add_neg] using this
  · simp only [val, dec]; push_cast; field_simp

theorem C31_add {x y : Rational} (hx : Normal x) (hy : Normal y) :
    ∃ q, add x y = some q ∧ Normal q ∧ val q = val x + val y := by
  rw [normal_iff] at hx hy
  obtain ⟨g, e1, e2, g', n', b, h1, h2, h3, h4, h5, h6, h7, h8⟩ := add_steps hx.1 hy.1 hx.2 hy.2
  refine ⟨_, ?_, h7, h8⟩
  simp only [add, h1, h2, h3, h4, h5, h6, Option.bind_eq_bind, Option.bind_some]

theorem sub_eq_add (x y : Rational) : sub x y = add x (neg y) := by
  simp only [sub, add, neg, Int.sub_eq_add_neg, Int.neg_mul]

theorem C31_sub {x y : Rational} (hx : Normal x) (hy : Normal y) :
    ∃ q, sub x y = some q ∧ Normal q ∧ val q = val x - val y := by
  obtain ⟨q, h1, h2, h3⟩ := C31_add hx (C31_neg hy).1
  exact ⟨q, by rw [sub_eq_add, h1], h2, by rw [h3, (C31_neg hy).2, sub_eq_add_neg]⟩

theorem C31_mul {x y : Rational} (hx : Normal x) (hy : Normal y) :
    ∃ q, mul x y = some q ∧ Normal q ∧ val q = val x * val y := by
  rw [normal_iff] at hx hy
  obtain ⟨g1, g2, a, b, c, d, h1, h2, h3, h4, h5, h6, h7, h8⟩ := mul_steps hx.1 hy.1 hx.2 hy.2
  refine ⟨_, ?_, h7, h8⟩
  simp only [mul, h1, h2, h3, h4, h5, h6, Option.bind_eq_bind, Option.bind_some]

theorem val_eq_zero {x : Rational} (hx : Normal x) : val x = 0 ↔ x.num = 0 := by
  have hd : (x.den : ℚ) ≠ 0 := by exact_mod_cast (show x.den ≠ 0 by have := hx.1; omega)
  rw [val, div_eq_zero_iff]
  simp [hd]

/-- division throws `bad_rational` exactly when the divisor is zero -/
theorem C31_div {x y : Rational} (hx : Normal x) (hy : Normal y) :
    (val y = 0 → div x y = some (.throw .badRational)) ∧
    (val y ≠ 0 → ∃ q, div x y = some (.ret q) ∧ Normal q ∧ val q = val x / val y) := by
  rw [Ne, val_eq_zero hy]
  constructor
  · intro h; rw [div, if_pos h]
  · intro h
    by_cases h0 : x.num = 0
    · exact ⟨x, by rw [div, if_neg h, if_pos h0], hx, by rw [(val_eq_zero hx).2 h0, zero_div]⟩
    · rw [normal_iff] at hx hy
      obtain ⟨g1, g2, a, b, c, d, h1, h2, h3, h4, h5, h6, q, h7, h8, h9⟩ := div_steps hx.1 hy.1 h0 h hx.2 hy.2
      refine ⟨q, ?_, h8, h9⟩
      rw [div, if_neg h, if_neg h0, ← h7]
      simp only [h1, h2, h3, h4, h5, h6, Option.bind_eq_bind, Option.bind_some]

section compound
variable {m : List Rational} {i j : Nat} {x y : Rational}

theorem setNum_set {v : Int} (hi : i < m.length) : setNum (m.set i x) i v = some (m.set i ⟨v, x.den⟩) := by
  simp [setNum, hi]
theorem setDen_set {v : Int} (hi : i < m.length) : setDen (m.set i x) i v = some (m.set i ⟨x.num, v⟩) := by
  simp [setDen, hi]

theorem get_set_self (hi : i < m.length) : (m.set i x)[i]? = some x := by simp [hi]
theorem get_set_ne (hij : i ≠ j) : (m.set i x)[j]? = m[j]? := by simp [hij]

/-- `x += y` for different objects: `y` and everything else keep their values -/
theorem C31_addAssign_partial (hi : m[i]? = some x) (hj : m[j]? = some y) (hij : i ≠ j) (hx : Normal x) (hy : Normal y) :
    ∃ q, addAssign m i j = some (m.set i q) ∧ Normal q ∧ val q = val x + val y := by
  rw [normal_iff] at hx hy
  have hl : i < m.length := (List.getElem?_eq_some_iff.1 hi).1
  obtain ⟨g, e1, e2, g', n', b, h1, h2, h3, h4, h5, h6, h7, h8⟩ := add_steps hx.1 hy.1 hx.2 hy.2
  refine ⟨_, ?_, h7, h8⟩
  have s0 : ∀ v, setDen m i v = some (m.set i ⟨x.num, v⟩) := by intro v; simp [setDen, hi]
  simp only [addAssign, hi, hj, h1, h2, h3, h4, h5, h6, s0, setNum_set hl, setDen_set hl, get_set_self hl,
    get_set_ne hij, Option.bind_eq_bind, Option.bind_some]

theorem C31_subAssign_partial (hi : m[i]? = some x) (hj : m[j]? = some y) (hij : i ≠ j) (hx : Normal x) (hy : Normal y) :
    ∃ q, subAssign m i j = some (m.set i q) ∧ Normal q ∧ val q = val x - val y := by
  have hn := C31_neg hy
  rw [normal_iff] at hx
  have hy' := normal_iff.1 hn.1
  have hl : i < m.length := (List.getElem?_eq_some_iff.1 hi).1
  obtain ⟨g, e1, e2, g', n', b, h1, h2, h3, h4, h5, h6, h7, h8⟩ := add_steps hx.1 hy'.1 hx.2 hy'.2
  refine ⟨_, ?_, h7, by rw [h8, sub_eq_add_neg, ← hn.2]; rfl⟩
  have s0 : ∀ v, setDen m i v = some (m.set i ⟨x.num, v⟩) := by intro v; simp [setDen, hi]
  simp only [neg, Int.neg_mul, ← Int.sub_eq_add_neg] at h1 h3 h4 h5 h6
  simp only [subAssign, hi, hj, h1, h2, h3, h4, h5, h6, s0, setNum_set hl, setDen_set hl, get_set_self hl,
    get_set_ne hij, Option.bind_eq_bind, Option.bind_some]

/-- `x *= y`, for different objects or the same -/
theorem C31_mulAssign (hi : m[i]? = some x) (hj : m[j]? = some y) (hx : Normal x) (hy : Normal y) :
    ∃ q, mulAssign m i j = some (m.set i q) ∧ Normal q ∧ val q = val x * val y := by
  rw [normal_iff] at hx hy
  have hl : i < m.length := (List.getElem?_eq_some_iff.1 hi).1
  obtain ⟨g1, g2, a, b, c, d, h1, h2, h3, h4, h5, h6, h7, h8⟩ := mul_steps hx.1 hy.1 hx.2 hy.2
  refine ⟨_, ?_, h7, h8⟩
  have s0 : ∀ v, setNum m i v = some (m.set i ⟨v, x.den⟩) := by intro v; simp [setNum, hi]
  by_cases hij : i = j
  · subst hij
    have : x = y := by rw [hi] at hj; exact Option.some.inj hj
    subst this
    obtain rfl : g1 = g2 := by rw [h1] at h2; exact Option.some.inj h2
    obtain rfl : a = b := by rw [h3] at h4; exact Option.some.inj h4
    obtain rfl : c = d := by rw [h5] at h6; exact Option.some.inj h6
    simp only [mulAssign, hi, h1, h2, h3, h4, h5, h6, s0, setDen_set hl, get_set_self hl,
      Option.bind_eq_bind, Option.bind_some]
  · simp only [mulAssign, hi, hj, h1, h2, h3, h4, h5, h6, s0, setDen_set hl, get_set_self hl,
      get_set_ne hij, Option.bind_eq_bind, Option.bind_some]

theorem C31_divAssign_partial (hi : m[i]? = some x) (hj : m[j]? = some y) (hij : i ≠ j) (hx : Normal x) (hy : Normal y) :
    (val y = 0 → divAssign m i j = some (.throw .badRational)) ∧
    (val y ≠ 0 → ∃ q, divAssign m i j = some (.ret (m.set i q)) ∧ Normal q ∧ val q = val x / val y) := by
  have hl : i < m.length := (List.getElem?_eq_some_iff.1 hi).1
  rw [Ne, val_eq_zero hy]
  constructor
  · intro h; rw [divAssign, hj]; simp only [Option.bind_eq_bind, Option.bind_some, if_pos h]
  · intro h
    by_cases h0 : x.num = 0
    · refine ⟨x, ?_, hx, by rw [(val_eq_zero hx).2 h0, zero_div]⟩
      have : m.set i x = m := by
        rw [List.getElem?_eq_some_iff] at hi
        obtain ⟨_, rfl⟩ := hi
        exact List.set_getElem_self _
      rw [divAssign, hj, hi, this]; simp only [Option.bind_eq_bind, Option.bind_some, if_neg h, if_pos h0]
    · rw [normal_iff] at hx hy
      obtain ⟨g1, g2, a, b, c, d, h1, h2, h3, h4, h5, h6, q, h7, h8, h9⟩ := div_steps hx.1 hy.1 h0 h hx.2 hy.2
      refine ⟨q, ?_, h8, h9⟩
      have s0 : ∀ v, setNum m i v = some (m.set i ⟨v, x.den⟩) := by intro v; simp [setNum, hi]
      rw [← h7]
      rw [divAssign, hj, hi]
      simp only [Option.bind_eq_bind, Option.bind_some, if_neg h, if_neg h0]
      simp only [divAssignTail, hi, hj, h1, h2, h3, h4, h5, h6, s0, setDen_set hl, get_set_self hl,
        get_set_ne hij, Option.bind_eq_bind, Option.bind_some]
      simp only [divAssignSign, setNum_set hl, setDen_set hl, get_set_self hl, Option.bind_eq_bind, Option.bind_some]
      split <;> rfl

end compound

/-! ### the operand is the object itself -/

section self
variable {m : List Rational} {i : Nat} {x : Rational}

theorem gcd_self_pos {d : Int} (h : 0 < d) : gcd d d = some d := by
  rw [gcd_eq, Int.gcd_self]; congr 1; omega

theorem gcd_coprime {a b : Int} (h : IsCoprime a b) : gcd a b = some 1 := by
  rw [gcd_eq, Int.isCoprime_iff_gcd_eq_one.1 h]; rfl

theorem tdiv_one_gt {d : Int} (h : 1 < d) : dv 1 d = some 0 := by
  rw [dv_eq (by omega), Int.tdiv_eq_zero_of_lt (by omega) h]

/-- what `x += x` computes: right for integers, otherwise the numerator alone -/
theorem C31_addAssign_self_partial (hi : m[i]? = some x) (hx : Normal x) :
    addAssign m i i = some (m.set i (if x.den = 1 then ⟨x.num + x.num, 1⟩ else ⟨x.num, 1⟩)) := by
  rw [normal_iff] at hx
  have hl : i < m.length := (List.getElem?_eq_some_iff.1 hi).1
  have s0 : ∀ v, setDen m i v = some (m.set i ⟨x.num, v⟩) := by intro v; simp [setDen, hi]
  by_cases hd : x.den = 1
  · rw [if_pos hd]
    have k1 : ∀ z, dv z 1 = some z := fun z => by rw [dv_eq (by decide), Int.tdiv_one]
    have k2 : ∀ z, gcd z 1 = some 1 := fun z => gcd_coprime isCoprime_one_right
    simp only [addAssign, hi, hd, k2, k1, s0, setNum_set hl, setDen_set hl, get_set_self hl,
      Option.bind_eq_bind, Option.bind_some, Int.mul_one]
  · rw [if_neg hd]
    have k0 : dv x.den x.den = some 1 := by rw [dv_eq (by omega), Int.tdiv_self (by omega)]
    have k1 : ∀ z, dv z 1 = some z := fun z => by rw [dv_eq (by decide), Int.tdiv_one]
    simp only [addAssign, hi, gcd_self_pos hx.1, k0, k1, tdiv_one_gt (show 1 < x.den by omega), gcd_coprime hx.2, s0,
      setNum_set hl, setDen_set hl, get_set_self hl, Option.bind_eq_bind, Option.bind_some, Int.mul_one, Int.mul_zero,
      Int.zero_add]

/-- `x += x` is wrong: `1/3 + 1/3` gives `1` -/
theorem C31_addAssign_self_false :
    ¬ ∀ x, Normal x → ∃ q, addAssign [x] 0 0 = some [q] ∧ val q = val x + val x := by
  intro h
  have hx : Normal ⟨1, 3⟩ := normal_iff.2 ⟨by decide, isCoprime_one_left⟩
  obtain ⟨q, h1, h2⟩ := h ⟨1, 3⟩ hx
  rw [C31_addAssign_self_partial rfl hx] at h1
  obtain rfl : (⟨1, 1⟩ : Rational) = q := by simpa using h1
  norm_num [val] at h2

/-- what `x -= x` computes: zero for integers, otherwise the negated numerator -/
theorem C31_subAssign_self_partial (hi : m[i]? = some x) (hx : Normal x) :
    subAssign m i i = some (m.set i (if x.den = 1 then ⟨0, 1⟩ else ⟨-x.num, 1⟩)) := by
  rw [normal_iff] at hx
  have hl : i < m.length := (List.getElem?_eq_some_iff.1 hi).1
  have s0 : ∀ v, setDen m i v = some (m.set i ⟨x.num, v⟩) := by intro v; simp [setDen, hi]
  by_cases hd : x.den = 1
  · rw [if_pos hd]
    have k1 : ∀ z, dv z 1 = some z := fun z => by rw [dv_eq (by decide), Int.tdiv_one]
    have k2 : ∀ z, gcd z 1 = some 1 := fun z => gcd_coprime isCoprime_one_right
    simp only [subAssign, hi, hd, k2, k1, s0, setNum_set hl, setDen_set hl, get_set_self hl,
      Option.bind_eq_bind, Option.bind_some, Int.mul_one, Int.sub_self]
  · rw [if_neg hd]
    have k0 : dv x.den x.den = some 1 := by rw [dv_eq (by omega), Int.tdiv_self (by omega)]
    have k1 : ∀ z, dv z 1 = some z := fun z => by rw [dv_eq (by decide), Int.tdiv_one]
    simp only [subAssign, hi, gcd_self_pos hx.1, k0, k1, tdiv_one_gt (show 1 < x.den by omega), gcd_coprime hx.2.neg_left,
      s0, setNum_set hl, setDen_set hl, get_set_self hl, Option.bind_eq_bind, Option.bind_some, Int.mul_one, Int.mul_zero,
      Int.zero_sub]

/-- `x -= x` is wrong: `1/3 - 1/3` gives `-1` -/
theorem C31_subAssign_self_false :
    ¬ ∀ x, Normal x → ∃ q, subAssign [x] 0 0 = some [q] ∧ val q = val x - val x := by
  intro h
  have hx : Normal ⟨1, 3⟩ := normal_iff.2 ⟨by decide, isCoprime_one_left⟩
  obtain ⟨q, h1, h2⟩ := h ⟨1, 3⟩ hx
  rw [C31_subAssign_self_partial rfl hx] at h1
  obtain rfl : (⟨-1, 1⟩ : Rational) = q := by simpa using h1
  norm_num [val] at h2

/-- what `x /= x` computes: one if the numerator is `1` or `-1`, otherwise a rational with denominator zero -/
theorem C31_divAssign_self_partial (hi : m[i]? = some x) (hx : Normal x) (h0 : x.num ≠ 0) :
    divAssign m i i =
      some (.ret (m.set i (if x.num.natAbs = 1 then ⟨1, 1⟩ else ⟨x.num.sign, 0⟩))) := by
  rw [normal_iff] at hx
  have hl : i < m.length := (List.getElem?_eq_some_iff.1 hi).1
  have s0 : ∀ v, setNum m i v = some (m.set i ⟨v, x.den⟩) := by intro v; simp [setNum, hi]
  have k0 : dv x.den x.den = some 1 := by rw [dv_eq (by omega), Int.tdiv_self (by omega)]
  have hn : (x.num.natAbs : Int) ≠ 0 := by omega
  have k1 : gcd x.num x.num = some (x.num.natAbs : Int) := by rw [gcd_eq, Int.gcd_self]
  have k2 : dv x.num x.num.natAbs = some x.num.sign := by
    rw [dv_eq hn]
    congr 1
    have := Int.mul_tdiv_cancel x.num.sign hn
    rwa [Int.sign_mul_natAbs] at this
  rw [divAssign, hi]
  simp only [Option.bind_eq_bind, Option.bind_some, if_neg h0]
  simp only [divAssignTail, hi, k1, gcd_self_pos hx.1, k0, k2, s0, setDen_set hl, get_set_self hl, Int.mul_one, Int.one_mul,
    Option.bind_eq_bind, Option.bind_some]
  by_cases h1 : x.num.natAbs = 1
  · rw [if_pos h1, h1]
    rcases Int.natAbs_eq_iff.1 h1 with e | e
    · rw [e, show dv (Int.sign ((1 : Nat) : Int)) ((1 : Nat) : Int) = some 1 by decide]
      simp only [divAssignSign, Option.bind_some, get_set_self hl, Option.bind_eq_bind]
      rfl
    · rw [e, show dv (Int.sign (-((1 : Nat) : Int))) ((1 : Nat) : Int) = some (-1) by decide]
      simp only [divAssignSign, setNum_set hl, setDen_set hl, Option.bind_some, get_set_self hl, Option.bind_eq_bind]
      rfl
  · have hz : x.num.sign.tdiv x.num.natAbs = 0 := by
      rw [← Int.natAbs_eq_zero, Int.natAbs_tdiv, Int.natAbs_sign_of_ne_zero h0]
      exact Nat.div_eq_of_lt (by omega)
    rw [if_neg h1, dv_eq hn, hz]
    simp only [divAssignSign, Option.bind_some, get_set_self hl, Option.bind_eq_bind]
    rfl

/-- `x /= x` is wrong: for `2/3` the denominator becomes zero -/
theorem C31_divAssign_self_false :
    ¬ ∀ x, Normal x → val x ≠ 0 → ∃ q, divAssign [x] 0 0 = some (.ret [q]) ∧ 0 < q.den := by
  intro h
  have hx : Normal ⟨2, 3⟩ := normal_iff.2 ⟨by decide, ⟨-1, 1, by decide⟩⟩
  obtain ⟨q, h1, h2⟩ := h ⟨2, 3⟩ hx (by norm_num [val])
  rw [C31_divAssign_self_partial rfl hx (by decide)] at h1
  obtain rfl : (⟨1, 0⟩ : Rational) = q := by
    have := Option.some.inj h1
    injection this with this
    injection this
  exact absurd h2 (by decide)

end self

/-- non-vacuity: `1/6 + 3/10 = 7/15` -/
example : ∃ q, add ⟨1, 6⟩ ⟨3, 10⟩ = some q ∧ Normal q ∧ val q = 7 / 15 := by
  obtain ⟨q, h1, h2, h3⟩ := C31_add (x := ⟨1, 6⟩) (y := ⟨3, 10⟩) (normal_iff.2 ⟨by decide, isCoprime_one_left⟩)
    (normal_iff.2 ⟨by decide, ⟨-3, 1, by decide⟩⟩)
  exact ⟨q, h1, h2, by rw [h3]; norm_num [val]⟩
/-- `6 / -4` is `-3 / 2` -/
example : ∃ q, mk2 6 (-4) = some (.ret q) ∧ Normal q ∧ val q = -3 / 2 := by
  obtain ⟨q, h1, h2, h3⟩ := (C31_construct 6 (-4)).2 (by decide)
  exact ⟨q, h1, h2, by rw [h3]; norm_num⟩

end Sprout
