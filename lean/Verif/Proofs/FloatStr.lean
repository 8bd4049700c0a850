import Verif.Model.FloatStr
import Verif.Props.C87
import Verif.Proofs.FloatErr
import Verif.Proofs.MathTables
import Verif.Proofs.IntStr3

/-! # Floating values to strings -/

namespace Sprout.FloatStr

open Classical FV Fmt MathRound MathScale MathClass IntStr

variable {F C : Fmt} {noerr ndebug : Bool}

theorem bind_ret {α β : Type} (a : α) (f : α → Option (Ret β)) : bindRet (some (.ret a)) f = f a := rfl

/-- an integer of the type -/
theorem int_exact (n : ℕ) (hn : n ≤ 2 ^ F.p) : F.rnd (n : ℝ) = n ∧ |F.rnd (n : ℝ)| < (2 : ℝ) ^ F.emax ∧ Rep F.p F.emin (n : ℝ) := by
  have hz : |(n : ℤ)| ≤ 2 ^ F.p := by rw [abs_of_nonneg (by omega)]; exact_mod_cast hn
  have h1 : Rep F.p F.emin ((n : ℤ) : ℝ) := F.rep_int n hz
  rw [Int.cast_natCast] at h1
  rw [rnd_of_rep h1]
  refine ⟨rfl, ?_, h1⟩
  rcases Nat.eq_zero_or_pos n with rfl | h0
  · simp only [Nat.cast_zero, abs_zero]; positivity
  · simpa using (F.has_int n (by omega) hz).2.2

theorem ofInt_val (n : ℕ) (hn : n ≤ 2 ^ F.p) : Val (F.ofInt n) (n : ℝ) := by
  obtain ⟨h1, h2, -⟩ := int_exact n hn
  have := ofReal_val (F := F) (s := false) (r := (n : ℝ)) h2
  rw [h1] at this
  simpa [ofInt] using this

theorem mul_exact {v w : FV} {a b : ℕ} (h : Val v a) (h' : Val w b) (hab : a * b ≤ 2 ^ F.p) :
    Val (F.mul v w) ((a * b : ℕ) : ℝ) := by
  obtain ⟨r1, r2, -⟩ := int_exact (F := F) (a * b) hab
  push_cast at r1 r2 ⊢
  have := mul_val h h' r2
  rwa [r1] at this

theorem p24 (hp : 24 ≤ F.p) : 2 ^ 24 ≤ 2 ^ F.p := Nat.pow_le_pow_right (by norm_num) hp

theorem val10 (hp : 24 ≤ F.p) : Val (F.ofInt 10) ((10 : ℕ) : ℝ) := ofInt_val 10 (by have := p24 hp; omega)

theorem pow10_1 : floatPow10 F 1 = some (F.ofInt 10) := by
  rw [floatPow10, powN, if_neg (by norm_num), if_pos (by norm_num), show (1 : ℤ).toNat = 1 from rfl, powNImpl, if_neg (by norm_num),
    if_pos rfl]

theorem pow10_2 (hp : 24 ≤ F.p) : ∃ p, floatPow10 F 2 = some p ∧ Val p ((100 : ℕ) : ℝ) := by
  have := p24 hp
  rw [floatPow10, powN, if_neg (by norm_num), if_pos (by norm_num), show (2 : ℤ).toNat = 2 from rfl, powNImpl, if_neg (by norm_num),
    if_neg (by norm_num), if_neg (by norm_num), powNImpl, if_neg (by norm_num), if_pos rfl]
  exact ⟨_, rfl, mul_exact (val10 hp) (val10 hp) (by omega)⟩

theorem pow10_6 (hp : 24 ≤ F.p) : ∃ p, floatPow10 F 6 = some p ∧ Val p ((1000000 : ℕ) : ℝ) := by
  have := p24 hp
  rw [floatPow10, powN, if_neg (by norm_num), if_pos (by norm_num), show (6 : ℤ).toNat = 6 from rfl, powNImpl, if_neg (by norm_num),
    if_neg (by norm_num), if_neg (by norm_num), powNImpl, if_neg (by norm_num), if_neg (by norm_num), if_pos (by norm_num), powNImpl,
    if_neg (by norm_num), if_pos rfl]
  have h1 := mul_exact (F := F) (val10 hp) (val10 hp) (by omega)
  have h2 := mul_exact (F := F) (val10 hp) h1 (by omega)
  exact ⟨_, rfl, mul_exact h2 h2 (by omega)⟩

theorem val_of_has {w : FV} (h : F.Has w) (hf : w.isFin = true) : Val w w.val := ⟨_, h.eq_mkv hf⟩

theorem has_of_val {v : FV} {r : ℝ} (h : Val v r) (hr : Rep F.p F.emin r) (hb : |r| < (2 : ℝ) ^ F.emax) : F.Has v := by
  obtain ⟨s, rfl⟩ := h
  exact has_mkv hr hb

theorem floor_val (hs : F.Sub C) {x : FV} {r : ℝ} (hx : Val x r) (hr : Rep F.p F.emin r) (hb : |r| < (2 : ℝ) ^ F.emax) (h0 : 0 ≤ r)
    (hm : r ≤ 2 ^ 31) : ∃ w, floor F C noerr x = some (.ret w) ∧ Val w (⌊r⌋ : ℝ) := by
  obtain ⟨w, h1, h2, h3, ⟨⟨k, h4⟩, h5, h6⟩, -⟩ := C87_floor_partial F C hs noerr x (has_of_val hx hr hb) hx.isFin
    (by rw [hx.val, abs_of_nonneg h0]; refine le_trans hm ?_; norm_num) (Or.inl (by rw [hx.val]; exact h0))
  refine ⟨w, h1, (val_of_has h2 h3).congr ?_⟩
  rw [hx.val] at h5 h6
  rw [h4] at h5 h6 ⊢
  rw [(Int.floor_eq_iff.2 ⟨h5, h6⟩ : ⌊r⌋ = k)]

theorem round_val (hs : F.Sub C) {x : FV} {n : ℕ} (hx : Val x (n : ℝ)) (hr : Rep F.p F.emin (n : ℝ)) (hb : |(n : ℝ)| < (2 : ℝ) ^ F.emax)
    (hm : n ≤ 2 ^ 31) : ∃ w, round F C noerr x = some (.ret w) ∧ Val w (n : ℝ) := by
  obtain ⟨w, h1, h2, h3, ⟨⟨k, h4⟩, h5, -⟩, -⟩ := C87_round F C hs noerr x (has_of_val hx hr hb) hx.isFin
    (by
      have : (n : ℝ) ≤ 2 ^ 31 := by exact_mod_cast hm
      rw [hx.val, abs_of_nonneg (by positivity)]; refine le_trans this ?_; norm_num)
  refine ⟨w, h1, (val_of_has h2 h3).congr ?_⟩
  rw [hx.val] at h5
  rw [h4] at h5 ⊢
  rw [abs_le] at h5
  have a1 : (k : ℝ) < ((n : ℤ) + 1 : ℤ) := by push_cast; linarith
  have a2 : ((n : ℤ) : ℝ) < ((k + 1 : ℤ) : ℝ) := by push_cast; linarith
  have a1' := Int.cast_lt.1 a1
  have a2' := Int.cast_lt.1 a2
  have : k = n := by omega
  rw [this]; simp

theorem toInt_val {x : FV} {r : ℝ} (hx : Val x r) (h0 : 0 ≤ r) (h1 : r < 2 ^ 31) : toInteger minInt maxInt x = some ⌊r⌋ := by
  obtain ⟨s, rfl⟩ := hx
  refine toInteger_pos h0 (by unfold minInt; norm_num) ?_
  unfold maxInt
  push_cast
  linarith

/-- a digit -/
theorem digitOf_val (hs : F.Sub C) (hp : 24 ≤ F.p) {x : FV} {r : ℝ} (hx : Val x r) (hr : Rep F.p F.emin r) (hb : |r| < (2 : ℝ) ^ F.emax)
    (h0 : 0 ≤ r) (hm : r ≤ 2 ^ 31) : floatDigitOf F C noerr x = some (.ret ⌊F.rnd ((r - ⌊r⌋) * 10)⌋) := by
  obtain ⟨w, h1, h2⟩ := floor_val (C := C) (noerr := noerr) hs hx hr hb h0 hm
  have P := mkParts hr hb h0
  have hs1 := sub_val (F := F) hx h2 (by rw [rnd_of_rep P.frac]; exact P.frac_lt)
  rw [rnd_of_rep P.frac] at hs1
  have f0 : 0 ≤ r - ⌊r⌋ := by linarith [P.le]
  have f1 : r - ⌊r⌋ ≤ 1 := by linarith [P.lt_succ]
  have i10 := int_exact (F := F) 10 (by have := p24 hp; omega)
  push_cast at i10
  have b1 : F.rnd ((r - ⌊r⌋) * 10) ≤ 10 := rnd_le (by linarith) i10.2.2
  have b0 : 0 ≤ F.rnd ((r - ⌊r⌋) * 10) := le_rnd (by positivity) Rep.zero
  have hb10 : (10 : ℝ) < (2 : ℝ) ^ F.emax := by
    have := i10.2.1
    rwa [i10.1, abs_of_pos (by norm_num)] at this
  have h10 := val10 hp
  push_cast at h10
  have hm1 := mul_val (F := F) hs1 h10 (by rw [abs_of_nonneg b0]; linarith)
  rw [floatDigitOf, h1, bind_ret, toInt_val hm1 b0 (by linarith)]
  rfl

/-- the last digit of the integral part -/
theorem digitAt0 (hs : F.Sub C) (hp : 24 ≤ F.p) {x : FV} {r : ℝ} (hx : Val x r) (h0 : 0 ≤ r) (hm : r ≤ 100) :
    floatDigitAt F C noerr x 0 = some (.ret ⌊F.rnd ((F.rnd (r / 10) - ⌊F.rnd (r / 10)⌋) * 10)⌋) := by
  have i10 := int_exact (F := F) 10 (by have := p24 hp; omega)
  push_cast at i10
  have b1 : F.rnd (r / 10) ≤ 10 := rnd_le (by linarith) i10.2.2
  have b0 : 0 ≤ F.rnd (r / 10) := le_rnd (by positivity) Rep.zero
  have hb10 : (10 : ℝ) < (2 : ℝ) ^ F.emax := by
    have := i10.2.1
    rwa [i10.1, abs_of_pos (by norm_num)] at this
  have h10 := val10 hp
  push_cast at h10
  have hb : |F.rnd (r / 10)| < (2 : ℝ) ^ F.emax := by rw [abs_of_nonneg b0]; linarith
  have hd := div_val (F := F) hx h10 (by norm_num) hb
  rw [floatDigitAt, zero_add, pow10_1]
  exact digitOf_val hs hp hd (F.rnd_rep _) hb b0 (by linarith)

/-- the last but one digit of the integral part -/
theorem digitAt1 (hs : F.Sub C) (hp : 24 ≤ F.p) {x : FV} {r : ℝ} (hx : Val x r) (h0 : 0 ≤ r) (hm : r ≤ 100) :
    floatDigitAt F C noerr x 1 = some (.ret ⌊F.rnd ((F.rnd (r / 100) - ⌊F.rnd (r / 100)⌋) * 10)⌋) := by
  have b1 : F.rnd (r / 100) ≤ 1 := rnd_le (by linarith) F.rep_one
  have b0 : 0 ≤ F.rnd (r / 100) := le_rnd (by positivity) Rep.zero
  obtain ⟨p, e, h100⟩ := pow10_2 hp
  push_cast at h100
  have hb : |F.rnd (r / 100)| < (2 : ℝ) ^ F.emax := by rw [abs_of_nonneg b0]; linarith [one_lt_emax F]
  have hd := div_val (F := F) hx h100 (by norm_num) hb
  rw [floatDigitAt, show (1 : ℤ) + 1 = 2 by norm_num, e]
  exact digitOf_val hs hp hd (F.rnd_rep _) hb b0 (by linarith)

/-- numbers of at most six decimals, within the precision, are not changed -/
theorem roundAt_exact (hs : F.Sub C) (hp : 24 ≤ F.p) {x : FV} {r : ℝ} (hx : Val x r) (hr : Rep F.p F.emin r) (hb : |r| < (2 : ℝ) ^ F.emax)
    (n : ℕ) (hn : r * 1000000 = n) (h1 : n ≤ 2 ^ F.p) (h2 : n ≤ 2 ^ 31) :
    ∃ w, floatRoundAt F C noerr x 6 = some (.ret w) ∧ Val w r := by
  obtain ⟨p, e, hp6⟩ := pow10_6 hp
  push_cast at hp6
  obtain ⟨i1, i2, i3⟩ := int_exact (F := F) n h1
  have hm := mul_val (F := F) hx hp6 (by rw [hn]; exact i2)
  rw [hn, i1] at hm
  obtain ⟨w, w1, w2⟩ := round_val (C := C) (noerr := noerr) hs hm i3 (by rw [i1] at i2; exact i2) h2
  have er : (n : ℝ) / 1000000 = r := by rw [← hn]; field_simp
  have hd := div_val (F := F) w2 hp6 (by norm_num) (by rw [er, rnd_of_rep hr]; exact hb)
  rw [er, rnd_of_rep hr] at hd
  refine ⟨_, ?_, hd⟩
  rw [floatRoundAt, e]
  change bindRet (round F C noerr (F.mul x p)) _ = _
  rw [w1, bind_ret]

/-! ## strings -/

/-- the characters of a string -/
def toList (s : Str) : List ℤ := s.elems.take s.len

theorem toList_raw {N n : ℕ} (args : List ℤ) (h : n ≤ N + 1) :
    toList (rawConstruct N n args) = (List.range n).map fun i => args.getD i 0 := by
  unfold toList rawConstruct
  rw [← List.map_take, List.take_range, Nat.min_eq_left h]
  refine List.map_congr_left fun i hi => ?_
  rw [if_pos (List.mem_range.1 hi)]

theorem packRet_eq {f : ℕ → Option (Ret ℤ)} {g : ℕ → ℤ} (l : List ℕ) (h : ∀ i ∈ l, f i = some (.ret (g i))) :
    packRet f l = some (.ret (l.map g)) := by
  induction l with
  | nil => rfl
  | cons i l ih =>
    rw [packRet, h i (by simp), bind_ret, ih (fun j hj => h j (by simp [hj])), bind_ret]
    rfl

theorem getD_range {g : ℕ → ℤ} {n i : ℕ} (h : i < n) : ((List.range n).map g).getD i 0 = g i := by
  rw [List.getD_eq_getElem?_getD, List.getElem?_map, List.getElem?_range h]
  rfl

theorem decimals_eq {v : ℤ} (h0 : 0 ≤ v) (h1 : v < 1000000) {k : ℕ} (hk : k ≤ 5) :
    intDigitAt CInt.int32 10 v k = some (v / 10 ^ k % 10) ∧ intToChar ndebug (v / 10 ^ k % 10) = some (0x30 + v / 10 ^ k % 10) := by
  constructor
  · obtain ⟨n, rfl⟩ := Int.eq_ofNat_of_zero_le h0
    have := intDigitAt_eq (T := CInt.int32) (by simp [CInt.Std, CInt.int32]) (b := 10) (by norm_num) (by norm_num)
      (val := (n : ℤ)) (by simp [CInt.Has, CInt.min, CInt.max, CInt.int32]; omega) (e := k) ?_
    · rw [Int.natAbs_natCast] at this
      push_cast at this
      exact this
    · have : 10 ^ k ≤ 10 ^ 5 := Nat.pow_le_pow_right (by norm_num) hk
      simp [CInt.max, CInt.int32]
      have : (10 : ℤ) ^ k ≤ 10 ^ 5 := by exact_mod_cast this
      linarith
  · unfold intToChar
    rw [if_pos]
    simp
    right
    omega

/-- the character at a position -/
theorem fixedChar_eq {val : FV} {digits : ℕ} {v : ℤ} {dg : ℕ → ℤ} (h0 : 0 ≤ v) (h1 : v < 1000000)
    (hd : ∀ i < digits, floatDigitAt F C noerr val (digits - 1 - i) = some (.ret (dg i)) ∧ 0 ≤ dg i ∧ dg i < 10) (i : ℕ) :
    fixedChar F C noerr ndebug val digits v i = some (.ret (if i < digits then 0x30 + dg i else if i = digits then 0x2E
      else if i < digits + 1 + 6 then 0x30 + v / 10 ^ (digits + 6 - i) % 10 else 0)) := by
  unfold fixedChar
  split_ifs with c1 c2 c3
  · obtain ⟨e, b1, b2⟩ := hd i c1
    rw [e, bind_ret, intToChar, if_pos]
    · rfl
    · simp [b1, b2]
  · rfl
  · obtain ⟨e1, e2⟩ := decimals_eq (ndebug := ndebug) h0 h1 (show digits + 6 - i ≤ 5 by omega)
    rw [e1]
    simp only [Option.bind_eq_bind, Option.bind_some]
    rw [e2]
    rfl
  · rfl

/-- the string for a given number of digits -/
theorem impl_eq {maxE10 : ℕ} {val : FV} {negative : Bool} {digits : ℕ} {v : ℤ} {dg : ℕ → ℤ} (hE : digits + 3 ≤ maxE10) (h0 : 0 ≤ v)
    (h1 : v < 1000000)
    (hd : ∀ i < digits, floatDigitAt F C noerr val (digits - 1 - i) = some (.ret (dg i)) ∧ 0 ≤ dg i ∧ dg i < 10) :
    ∃ s, floatToStringImpl F C noerr ndebug maxE10 val negative digits v = some (.ret s) ∧
      toList s = (if negative then [0x2D] else []) ++ ((List.range digits).map fun i => 0x30 + dg i) ++ [0x2E] ++
        ((List.range 6).map fun i => 0x30 + v / 10 ^ (5 - i) % 10) := by
  have hg := packRet_eq (List.range (maxE10 + 8 - 1)) fun i _ => fixedChar_eq (ndebug := ndebug) (F := F) (C := C) (noerr := noerr) h0 h1 hd i
  generalize hG : (fun i => if i < digits then 0x30 + dg i else if i = digits then 0x2E
      else if i < digits + 1 + 6 then 0x30 + v / 10 ^ (digits + 6 - i) % 10 else 0) = g at hg
  have key : (List.range (digits + 1 + 6)).map (fun i => ((List.range (maxE10 + 8 - 1)).map g).getD i 0) =
      ((List.range digits).map fun i => 0x30 + dg i) ++ [0x2E] ++ ((List.range 6).map fun i => 0x30 + v / 10 ^ (5 - i) % 10) := by
    rw [List.range_add, List.range_succ, List.map_append, List.map_append]
    congr 1
    · congr 1
      · refine List.map_congr_left fun i hi => ?_
        have := List.mem_range.1 hi
        rw [getD_range (by omega), ← hG]
        simp only [if_pos this]
      · rw [List.map_singleton, getD_range (by omega), ← hG]
        simp
    · rw [List.map_map]
      refine List.map_congr_left fun i hi => ?_
      have := List.mem_range.1 hi
      simp only [Function.comp]
      rw [getD_range (by omega), ← hG]
      simp only
      rw [if_neg (by omega), if_neg (by omega), if_pos (by omega), show digits + 6 - (digits + 1 + i) = 5 - i by omega]
  rw [floatToStringImpl, hg, bind_ret]
  cases negative
  · refine ⟨_, if_neg (by simp), ?_⟩
    rw [toList_raw _ (by omega), key]
    rfl
  · refine ⟨_, if_pos rfl, ?_⟩
    rw [toList_raw _ (by omega), show digits + 2 + 6 = 1 + (digits + 1 + 6) by ring, List.range_add, List.map_append, List.map_map]
    have : (fun i => ((0x2D : ℤ) :: (List.range (maxE10 + 8 - 1)).map g).getD i 0) ∘ (fun x => 1 + x) =
        fun i => ((List.range (maxE10 + 8 - 1)).map g).getD i 0 := by
      funext i
      simp only [Function.comp]
      rw [add_comm 1 i, List.getD_cons_succ]
    rw [this, key]
    simp

end Sprout.FloatStr
