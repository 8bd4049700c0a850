import Verif.Proofs.FloatStr

/-! # Floating values to strings: digits of small numbers -/

namespace Sprout.FloatStr

open Classical FV Fmt MathRound MathScale MathClass IntStr

variable {F C : Fmt} {noerr ndebug : Bool}

theorem fin_class {x : FV} (hfin : x.isFin = true) : isinf x = false ∧ isnan x = false := by
  constructor
  · have h1 : ¬ x.eq (.inf false) ∧ ¬ x.eq (FV.neg (.inf false)) := by
      cases x with
      | nan => simp [isFin] at hfin
      | inf s => simp [isFin] at hfin
      | zero s => simp [eq, neg]
      | num y => simp [eq, neg]
    unfold isinf
    rw [decide_eq_false h1.1, decide_eq_false h1.2]
    rfl
  · cases x with
    | nan => simp [isFin] at hfin
    | inf s => simp [isFin] at hfin
    | zero s => simp [isnan, eq]
    | num y => simp [isnan, eq]

/-- the string of a finite value, from its parts -/
theorem toString_eq (hs : F.Sub C) (hp : 24 ≤ F.p) {x : FV} {ρ : ℝ} (hx : Val x ρ) {R : FV} {r : ℝ} (hR : Val R r)
    (hr : Rep F.p F.emin r) (hb : |r| < (2 : ℝ) ^ F.emax) (h0 : 0 ≤ r) (hm : r ≤ 2 ^ 31)
    (hround : floatRoundAt F C noerr (if x.lt (.zero false) then x.neg else x) 6 = some (.ret R)) {d : ℕ}
    (hdig : floatDigitsChecked F C noerr x = some (.ret (d : ℤ))) {maxE10 : ℕ} :
    floatToString F C noerr ndebug maxE10 x =
      floatToStringImpl F C noerr ndebug maxE10 R (decide (ρ < 0)) d ⌊F.rnd ((r - ⌊r⌋) * 1000000)⌋ := by
  obtain ⟨hinf, hnan⟩ := fin_class hx.isFin
  have hlt : x.lt (.zero false) ↔ ρ < 0 := hx.lt_iff (Val.zero false)
  have hsign : signbit x = decide (ρ < 0) := by
    unfold signbit
    rw [hnan]
    simp [hlt]
  obtain ⟨w, w1, w2⟩ := floor_val (C := C) (noerr := noerr) hs hR hr hb h0 hm
  have P := mkParts hr hb h0
  have hs1 := sub_val (F := F) hR w2 (by rw [rnd_of_rep P.frac]; exact P.frac_lt)
  rw [rnd_of_rep P.frac] at hs1
  have f0 : 0 ≤ r - ⌊r⌋ := by linarith [P.le]
  have f1 : r - ⌊r⌋ ≤ 1 := by linarith [P.lt_succ]
  have h24 := p24 hp
  have i6 := int_exact (F := F) 1000000 (by omega)
  push_cast at i6
  have b1 : F.rnd ((r - ⌊r⌋) * 1000000) ≤ 1000000 := rnd_le (by linarith) i6.2.2
  have b0 : 0 ≤ F.rnd ((r - ⌊r⌋) * 1000000) := le_rnd (by positivity) Rep.zero
  have hb6 : (1000000 : ℝ) < (2 : ℝ) ^ F.emax := by
    have := i6.2.1
    rwa [i6.1, abs_of_pos (by norm_num)] at this
  have v6 := ofInt_val (F := F) 1000000 (by omega)
  push_cast at v6
  have hm1 := mul_val (F := F) hs1 v6 (by rw [abs_of_nonneg b0]; linarith)
  rw [floatToString, if_neg (by simp [hinf]), if_neg (by simp [hnan]), hround, bind_ret, hdig, bind_ret, floatToString1, w1, bind_ret,
    show intPow CInt.int32 10 6 = some 1000000 by decide +kernel]
  simp only [Option.bind_eq_bind, Option.bind_some]
  rw [toInt_val hm1 b0 (by linarith), Option.bind_some, hsign, Int.toNat_natCast]

/-- the number of digits of a number below ten -/
theorem digits_one (hp : 24 ≤ F.p) {x : FV} {r : ℝ} (hx : Val x r) (h1 : 1 ≤ r) (h2 : r ≤ 639 / 64) :
    floatDigitsImpl F (1, F.ofInt 10) x 1 = some (1, F.ofInt 10) := by
  have hmin := F.emin_le
  have h10 := val10 (F := F) hp
  push_cast at h10
  have hrep : Rep F.p F.emin (1023 / 1024 : ℝ) := ⟨1023, -10, by omega, by
    rw [abs_of_pos (by norm_num)]
    exact lt_of_lt_of_le (by norm_num) (pow_le_pow_right₀ (by norm_num) hp : (2 : ℤ) ^ 24 ≤ 2 ^ F.p), by norm_num⟩
  have b1 : F.rnd (r / 10) ≤ 1023 / 1024 := rnd_le (by linarith) hrep
  have b0 : 0 ≤ F.rnd (r / 10) := le_rnd (by positivity) Rep.zero
  have hd := div_val (F := F) hx h10 (by norm_num) (by rw [abs_of_nonneg b0]; linarith [one_lt_emax F])
  rw [floatDigitsImpl, if_pos]
  rw [hd.lt_iff (Val.num one_ne_zero)]
  linarith

theorem rep_dy (hp : 24 ≤ F.p) {m : ℕ} (hm : m ≤ 100000) {k : ℕ} (hk : k ≤ 16) : Rep F.p F.emin ((m : ℝ) / 2 ^ k) := by
  have hmin := F.emin_le
  refine ⟨m, -(k : ℤ), by omega, ?_, ?_⟩
  · rw [abs_of_nonneg (by positivity)]
    have : (2 : ℤ) ^ 24 ≤ 2 ^ F.p := pow_le_pow_right₀ (by norm_num) hp
    have : (m : ℤ) ≤ 100000 := by exact_mod_cast hm
    linarith
  · rw [zpow_neg, zpow_natCast, Int.cast_natCast, div_eq_mul_inv]

/-- a tenth of a digit, of double precision -/
theorem tenth (hp : F.p = 53) (hmin : F.emin ≤ -1074) {d : ℕ} (h1 : 1 ≤ d) (h9 : d ≤ 9)
    (h7 : d = 7 → F.rnd (7 - (2 : ℝ) ^ (-51 : ℤ)) = 7) : (d : ℝ) ≤ F.rnd (F.rnd (d / 10) * 10) := by
  have up : ∀ (m e : ℤ), 2 ^ 52 < m → m < 2 ^ 53 → -1074 ≤ e → 2 * |(d : ℝ) / 10 - m * (2 : ℝ) ^ e| < (2 : ℝ) ^ e →
      (d : ℝ) / 10 ≤ m * (2 : ℝ) ^ e → (d : ℝ) ≤ F.rnd (F.rnd (d / 10) * 10) := by
    intro m e h1 h2 he hx hy
    have := Fmt.rnd_eq (F := F) (x := (d : ℝ) / 10) (m := m) (e := e) (by rw [hp]; exact h1) (by rw [hp]; exact h2) (by omega) hx
    rw [this]
    refine le_rnd (by linarith) ?_
    exact_mod_cast F.rep_int d (by
      rw [hp, abs_of_nonneg (by positivity)]
      have : (d : ℤ) ≤ 9 := by exact_mod_cast h9
      linarith)
  have down : ∀ (m e m' e' : ℤ), 2 ^ 52 < m → m < 2 ^ 53 → -1074 ≤ e → 2 * |(d : ℝ) / 10 - m * (2 : ℝ) ^ e| < (2 : ℝ) ^ e →
      2 ^ 52 < m' → m' < 2 ^ 53 → -1074 ≤ e' → 2 * |(m : ℝ) * (2 : ℝ) ^ e * 10 - m' * (2 : ℝ) ^ e'| < (2 : ℝ) ^ e' →
      (d : ℝ) = m' * (2 : ℝ) ^ e' → (d : ℝ) ≤ F.rnd (F.rnd (d / 10) * 10) := by
    intro m e m' e' h1 h2 he hx h1' h2' he' hx' hd
    have := Fmt.rnd_eq (F := F) (x := (d : ℝ) / 10) (m := m) (e := e) (by rw [hp]; exact h1) (by rw [hp]; exact h2) (by omega) hx
    rw [this, Fmt.rnd_eq (F := F) (m := m') (e := e') (by rw [hp]; exact h1') (by rw [hp]; exact h2') (by omega) hx']
    exact hd.le
  interval_cases d
  · exact up 7205759403792794 (-56) (by norm_num) (by norm_num) (by norm_num) (by norm_num [abs_lt]) (by norm_num)
  · exact up 7205759403792794 (-55) (by norm_num) (by norm_num) (by norm_num) (by norm_num [abs_lt]) (by norm_num)
  · exact down 5404319552844595 (-54) 6755399441055744 (-51) (by norm_num) (by norm_num) (by norm_num) (by norm_num [abs_lt]) (by norm_num) (by norm_num) (by norm_num)
      (by norm_num [abs_lt]) (by norm_num)
  · exact up 7205759403792794 (-54) (by norm_num) (by norm_num) (by norm_num) (by norm_num [abs_lt]) (by norm_num)
  · have e : F.rnd (((5 : ℕ) : ℝ) / 10) = 1 / 2 := by
      have : ((5 : ℕ) : ℝ) / 10 = ((1 : ℕ) : ℝ) / 2 ^ 1 := by norm_num
      rw [this, rnd_of_rep (rep_dy (by omega) (by norm_num) (by norm_num))]
      norm_num
    rw [e]
    have e2 : (1 / 2 * 10 : ℝ) = ((5 : ℕ) : ℝ) / 2 ^ 0 := by norm_num
    rw [e2, rnd_of_rep (rep_dy (by omega) (by norm_num) (by norm_num))]
    norm_num
  · exact down 5404319552844595 (-53) 6755399441055744 (-50) (by norm_num) (by norm_num) (by norm_num) (by norm_num [abs_lt]) (by norm_num) (by norm_num) (by norm_num)
      (by norm_num [abs_lt]) (by norm_num)
  · have := Fmt.rnd_eq (F := F) (x := ((7 : ℕ) : ℝ) / 10) (m := 6305039478318694) (e := -53) (by rw [hp]; norm_num) (by rw [hp]; norm_num)
      (by omega) (by norm_num [abs_lt])
    rw [this, show ((6305039478318694 : ℤ) : ℝ) * (2 : ℝ) ^ (-53 : ℤ) * 10 = 7 - (2 : ℝ) ^ (-51 : ℤ) by norm_num, h7 rfl]
    norm_num
  · exact up 7205759403792794 (-53) (by norm_num) (by norm_num) (by norm_num) (by norm_num [abs_lt]) (by norm_num)
  · exact up 8106479329266893 (-53) (by norm_num) (by norm_num) (by norm_num) (by norm_num [abs_lt]) (by norm_num)

theorem u53 (hp : F.p = 53) : F.u ≤ 1 / 1000000 := by
  unfold u
  rw [hp]
  norm_num

/-- the digit of a number between 1 and 10, of double precision, a multiple of 1/64 -/
theorem digit_small (hs : F.Sub C) (hp : F.p = 53) (hmin : F.emin ≤ -1074) {x : FV} {n : ℕ} (hx : Val x ((n : ℝ) / 64)) (h1 : 64 ≤ n) (h2 : n < 640)
    (h7 : n = 448 → F.rnd (7 - (2 : ℝ) ^ (-51 : ℤ)) = 7) : floatDigitAt F C noerr x 0 = some (.ret ((n / 64 : ℕ) : ℤ)) := by
  have hn1 : (64 : ℝ) ≤ n := by exact_mod_cast h1
  have hn2 : (n : ℝ) ≤ 639 := by exact_mod_cast (by omega : n ≤ 639)
  rw [digitAt0 hs (by omega) hx (by positivity) (by linarith)]
  have hu := u53 hp
  have hu0 := u_pos (F := F)
  have hrel := rnd_rel (F := F) (x := (n : ℝ) / 64 / 10) (by
    rw [abs_of_nonneg (by positivity)]
    refine le_trans (zpow_le_zpow_right₀ (by norm_num) (by omega : F.emin + F.p - 1 ≤ -10)) ?_
    rw [show ((2 : ℝ) ^ (-10 : ℤ)) = 1 / 1024 by norm_num]
    linarith)
  rw [abs_of_nonneg (by positivity : (0 : ℝ) ≤ (n : ℝ) / 64 / 10)] at hrel
  have hr1023 : Rep F.p F.emin (1023 / 1024 : ℝ) := by
    have := rep_dy (F := F) (m := 1023) (k := 10) (by omega) (by norm_num) (by norm_num)
    norm_num at this ⊢
    exact this
  have b1 : F.rnd ((n : ℝ) / 64 / 10) ≤ 1023 / 1024 := rnd_le (by linarith) hr1023
  have b0 : 0 ≤ F.rnd ((n : ℝ) / 64 / 10) := le_rnd (by positivity) Rep.zero
  have hfl : ⌊F.rnd ((n : ℝ) / 64 / 10)⌋ = 0 := Int.floor_eq_iff.2 ⟨by simpa using b0, by simp; linarith⟩
  rw [hfl, Int.cast_zero, sub_zero]
  have hdiv : n = 64 * (n / 64) + n % 64 := by omega
  have hmod : n % 64 ≤ 63 := by omega
  have hd9 : n / 64 ≤ 9 := by omega
  have hd1 : 1 ≤ n / 64 := by omega
  have hR : (n : ℝ) = 64 * ((n / 64 : ℕ) : ℝ) + ((n % 64 : ℕ) : ℝ) := by exact_mod_cast hdiv
  have hmR : ((n % 64 : ℕ) : ℝ) ≤ 63 := by exact_mod_cast hmod
  rw [abs_le] at hrel
  have hn : F.u * ((n : ℝ) / 64 / 10) ≤ 1 / 1000000 := by nlinarith
  congr 2
  rw [Int.floor_eq_iff]
  push_cast
  constructor
  · rcases Nat.eq_zero_or_pos (n % 64) with h0 | h0
    · have := tenth hp hmin hd1 hd9 (fun h => h7 (by omega))
      rw [show (n : ℝ) / 64 = ((n / 64 : ℕ) : ℝ) by rw [hR, h0]; push_cast; ring]
      exact_mod_cast this
    · have hm1 : (1 : ℝ) ≤ ((n % 64 : ℕ) : ℝ) := by exact_mod_cast h0
      have := rep_dy (F := F) (m := n / 64) (k := 0) (by omega) (by omega) (by norm_num)
      rw [pow_zero, div_one] at this
      have h3 : ((n / 64 : ℕ) : ℝ) ≤ F.rnd (F.rnd ((n : ℝ) / 64 / 10) * 10) := le_rnd (by linarith) this
      exact_mod_cast h3
  · have := rep_dy (F := F) (m := (n / 64) * 128 + 127) (k := 7) (by omega) (by omega) (by norm_num)
    have h3 := rnd_le (F := F) (x := F.rnd ((n : ℝ) / 64 / 10) * 10) (by push_cast; linarith) this
    push_cast at h3
    have e : (((n : ℤ) / 64 : ℤ) : ℝ) = ((n / 64 : ℕ) : ℝ) := by norm_cast
    linarith

/-- the value of the last digit of the integral part of a negative number -/
theorem digitAt0_neg (hs : F.Sub C) (hp : F.p = 53) {x : FV} {r : ℝ} (hx : Val x r) (h0 : -(1023 / 1024) ≤ r / 10)
    (h1 : r / 10 ≤ -(64 / 1024)) :
    floatDigitAt F C noerr x 0 = some (.ret ⌊F.rnd (F.rnd (F.rnd (r / 10) - -1) * 10)⌋) := by
  have h10 := val10 (F := F) (by omega)
  push_cast at h10
  have rl : Rep F.p F.emin (-(1023 / 1024) : ℝ) := by
    have := (rep_dy (F := F) (m := 1023) (k := 10) (by omega) (by norm_num) (by norm_num)).neg
    norm_num at this ⊢
    exact this
  have rh : Rep F.p F.emin (-(64 / 1024) : ℝ) := by
    have := (rep_dy (F := F) (m := 64) (k := 10) (by omega) (by norm_num) (by norm_num)).neg
    norm_num at this ⊢
    exact this
  have b1 : F.rnd (r / 10) ≤ -(64 / 1024) := rnd_le h1 rh
  have b0 : -(1023 / 1024) ≤ F.rnd (r / 10) := le_rnd h0 rl
  have hone := one_lt_emax F
  have hb : |F.rnd (r / 10)| < (2 : ℝ) ^ F.emax := by
    rw [abs_of_nonpos (by linarith)]; linarith
  have hd := div_val (F := F) hx h10 (by norm_num) hb
  generalize hy : F.rnd (r / 10) = y at *
  have hyr : Rep F.p F.emin y := by rw [← hy]; exact F.rnd_rep _
  obtain ⟨w, w1, w2, w3, ⟨⟨k, w4⟩, w5, w6⟩, -⟩ := C87_floor_partial F C hs noerr _ (has_of_val hd hyr hb) hd.isFin
    (by rw [hd.val, abs_of_nonpos (by linarith)]; norm_num; linarith) (Or.inr (Or.inr (by
      rw [hd.val]
      rintro m ⟨⟨k, rfl⟩, c1, c2⟩
      have k1 : (-1 : ℝ) < k := by linarith
      have k2 : (k : ℝ) < 1 := by linarith
      have k1' : (-1 : ℤ) < k := by exact_mod_cast k1
      have k2' : k < 1 := by exact_mod_cast k2
      have : k = 0 := by omega
      subst this
      unfold tolerance
      rw [max_eq_right (by rw [abs_of_nonpos (by linarith)]; linarith), mul_one, Int.cast_zero]
      have hC : (53 : ℤ) ≤ C.p := by have := hs.1; omega
      refine lt_of_le_of_lt (zpow_le_zpow_right₀ (by norm_num) (by omega : 1 - (C.p : ℤ) ≤ -10)) ?_
      rw [show ((2 : ℝ) ^ (-10 : ℤ)) = 1 / 1024 by norm_num]
      linarith)))
  rw [hd.val] at w5 w6
  have wk : w.val = -1 := by
    rw [w4] at w5 w6 ⊢
    have k1 : (k : ℝ) < 0 := by linarith
    have k2 : (-2 : ℝ) < k := by linarith
    have k1' : k < 0 := by exact_mod_cast k1
    have k2' : (-2 : ℤ) < k := by exact_mod_cast k2
    have : k = -1 := by omega
    rw [this]; norm_num
  have hw : Val w (-1) := (val_of_has w2 w3).congr wk
  have r1 : Rep F.p F.emin (1 : ℝ) := F.rep_one
  have r10 : Rep F.p F.emin (10 : ℝ) := by
    have := rep_dy (F := F) (m := 10) (k := 0) (by omega) (by norm_num) (by norm_num)
    norm_num at this ⊢
    exact this
  have t0 : 0 ≤ F.rnd (y - -1) := le_rnd (by linarith) Rep.zero
  have t1 : F.rnd (y - -1) ≤ 1 := rnd_le (by linarith) r1
  have hs1 := sub_val (F := F) hd hw (by rw [abs_of_nonneg (by linarith)]; linarith)
  have u0 : 0 ≤ F.rnd (F.rnd (y - -1) * 10) := le_rnd (by linarith) Rep.zero
  have u1 : F.rnd (F.rnd (y - -1) * 10) ≤ 10 := rnd_le (by linarith) r10
  have hb10 : (10 : ℝ) < (2 : ℝ) ^ F.emax := by
    have := (int_exact (F := F) 10 (by rw [hp]; norm_num))
    push_cast at this
    have h := this.2.1
    rwa [this.1, abs_of_pos (by norm_num)] at h
  have hm1 := mul_val (F := F) hs1 h10 (by rw [abs_of_nonneg (by linarith)]; linarith)
  rw [floatDigitAt, zero_add, pow10_1]
  change floatDigitOf F C noerr (F.div x (F.ofInt 10)) = _
  rw [floatDigitOf, show floor F C noerr (F.div x (F.ofInt 10)) = some (.ret w) from w1, bind_ret, toInt_val hm1 (by linarith) (by linarith)]
  rfl

/-- the value of the leading digit of a negative number above -9 is not zero -/
theorem digit_negative (hs : F.Sub C) (hp : F.p = 53) {x : FV} {n : ℕ} (hx : Val x (-((n : ℝ) / 64))) (h1 : 64 ≤ n)
    (h2 : n < 576) : ∃ d, floatDigitAt F C noerr x 0 = some (.ret d) ∧ d ≠ 0 := by
  have hn1 : (64 : ℝ) ≤ n := by exact_mod_cast h1
  have hn2 : (n : ℝ) ≤ 575 := by exact_mod_cast (by omega : n ≤ 575)
  refine ⟨_, digitAt0_neg hs hp hx (by linarith) (by linarith), ?_⟩
  have rl : Rep F.p F.emin (-(920 / 1024) : ℝ) := by
    have := (rep_dy (F := F) (m := 920) (k := 10) (by omega) (by norm_num) (by norm_num)).neg
    norm_num at this ⊢
    exact this
  have b0 : -(920 / 1024) ≤ F.rnd (-((n : ℝ) / 64) / 10) := le_rnd (by linarith) rl
  have r104 : Rep F.p F.emin (104 / 1024 : ℝ) := by
    have := rep_dy (F := F) (m := 104) (k := 10) (by omega) (by norm_num) (by norm_num)
    norm_num at this ⊢
    exact this
  have t0 : 104 / 1024 ≤ F.rnd (F.rnd (-((n : ℝ) / 64) / 10) - -1) := le_rnd (by linarith) r104
  have u0 : 1 ≤ F.rnd (F.rnd (F.rnd (-((n : ℝ) / 64) / 10) - -1) * 10) := le_rnd (by linarith) F.rep_one
  have : 1 ≤ ⌊F.rnd (F.rnd (F.rnd (-((n : ℝ) / 64) / 10) - -1) * 10)⌋ := Int.le_floor.2 (by push_cast; exact u0)
  omega

/-- the leading digit of -9.5 is taken as zero -/
theorem digit_m95 (hs : F.Sub C) (hp : F.p = 53) {x : FV} (hx : Val x (-(19 / 2))) :
    floatDigitAt F C noerr x 0 = some (.ret 0) := by
  rw [digitAt0_neg hs hp hx (by norm_num) (by norm_num)]
  have rh : Rep F.p F.emin (-(972 / 1024) : ℝ) := by
    have := (rep_dy (F := F) (m := 972) (k := 10) (by omega) (by norm_num) (by norm_num)).neg
    norm_num at this ⊢
    exact this
  have rl : Rep F.p F.emin (-1 : ℝ) := F.rep_one.neg
  have r52 : Rep F.p F.emin (52 / 1024 : ℝ) := by
    have := rep_dy (F := F) (m := 52) (k := 10) (by omega) (by norm_num) (by norm_num)
    norm_num at this ⊢
    exact this
  have r520 : Rep F.p F.emin (520 / 1024 : ℝ) := by
    have := rep_dy (F := F) (m := 520) (k := 10) (by omega) (by norm_num) (by norm_num)
    norm_num at this ⊢
    exact this
  have b1 : F.rnd (-(19 / 2) / 10) ≤ -(972 / 1024) := rnd_le (by norm_num) rh
  have b0 : -1 ≤ F.rnd (-(19 / 2) / 10) := le_rnd (by norm_num) rl
  have t0 : 0 ≤ F.rnd (F.rnd (-(19 / 2) / 10) - -1) := le_rnd (by linarith) Rep.zero
  have t1 : F.rnd (F.rnd (-(19 / 2) / 10) - -1) ≤ 52 / 1024 := rnd_le (by linarith) r52
  have u0 : 0 ≤ F.rnd (F.rnd (F.rnd (-(19 / 2) / 10) - -1) * 10) := le_rnd (by linarith) Rep.zero
  have u1 : F.rnd (F.rnd (F.rnd (-(19 / 2) / 10) - -1) * 10) ≤ 520 / 1024 := rnd_le (by linarith) r520
  rw [show ⌊F.rnd (F.rnd (F.rnd (-(19 / 2) / 10) - -1) * 10)⌋ = 0 from Int.floor_eq_iff.2 ⟨by simpa using u0, by push_cast; linarith⟩]

/-! ## the decimal exponent -/

/-- of a number from 1 on, the integral part is returned -/
theorem exponent10_pos (hp : 24 ≤ F.p) {x : FV} {r : ℝ} (hx : Val x r) (h1 : 1 ≤ r) (h2 : r < 2 ^ 31) :
    floatExponent10 F x = some ⌊r⌋ := by
  have h10 := val10 (F := F) hp
  push_cast at h10
  rw [floatExponent10, if_neg (by rw [hx.lt_iff (Val.zero false)]; linarith), if_neg (by rw [hx.lt_iff (Val.num one_ne_zero)]; linarith),
    exponent10Positive, toInt_val hx (by linarith) h2]
  simp only [Option.bind_eq_bind, Option.bind_some]
  rw [exponent10Positive0, if_pos (by rw [(Val.zero false).lt_iff h10]; norm_num)]
  rfl

theorem negative1_zero (hp : 24 ≤ F.p) {cur : ℤ × FV} {n : ℕ} {c : ℤ × FV} (h : exponent10Negative1 F cur n = some c)
    (h0 : Val cur.2 0) : Val c.2 0 := by
  have h10 := val10 (F := F) hp
  push_cast at h10
  revert h0
  refine exponent10Negative1.partial_correctness F (fun cur _ c => Val cur.2 0 → Val c.2 0) ?_ _ _ _ h
  intro f ih cur n c hc h0
  have hlt : cur.2.lt (.num 1) := by rw [h0.lt_iff (Val.num one_ne_zero)]; norm_num
  rw [if_neg (not_not.2 hlt)] at hc
  split_ifs at hc with hn
  · cases hc
    have := mul_val (F := F) h0 h10 (by rw [zero_mul, rnd_zero, abs_zero]; positivity)
    rwa [zero_mul, rnd_zero] at this
  · obtain ⟨d, hd, he⟩ := Option.bind_eq_some_iff.1 hc
    exact ih _ _ _ he (ih _ _ _ hd h0)

/-- of a number below 1, the recursion never ends -/
theorem exponent10_neg (hp : 24 ≤ F.p) {x : FV} {r : ℝ} (hx : Val x r) (h0 : 0 ≤ r) (h1 : r < 1) : floatExponent10 F x = none := by
  rw [floatExponent10, if_neg (by rw [hx.lt_iff (Val.zero false)]; linarith), if_pos (by rw [hx.lt_iff (Val.num one_ne_zero)]; linarith),
    exponent10Negative, toInt_val hx h0 (by linarith)]
  simp only [Option.bind_eq_bind, Option.bind_some]
  rw [Option.bind_eq_none_iff]
  intro c hc
  exfalso
  have key : ∀ (cur : ℤ × FV) (n : ℕ) (c : ℤ × FV), exponent10Negative0 F cur n = some c → Val cur.2 0 → False := by
    intro cur n c h
    refine exponent10Negative0.partial_correctness F (fun cur _ _ => Val cur.2 0 → False) ?_ _ _ _ h
    intro f ih cur n c hc h0
    have hlt : cur.2.lt (.num 1) := by rw [h0.lt_iff (Val.num one_ne_zero)]; norm_num
    rw [if_neg (not_not.2 hlt)] at hc
    obtain ⟨d, hd, he⟩ := Option.bind_eq_some_iff.1 hc
    exact ih _ _ _ he (negative1_zero hp hd h0)
  exact key _ _ _ hc (Val.zero false)

end Sprout.FloatStr
