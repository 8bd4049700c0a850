import Verif.Proofs.MathRound

/-!
# C87: rounding functions

`floor`, `ceil`, `trunc`, `round`, `integer_part`, `fractional_part`, `frac_int`, `is_integer` and the functions with
integer results, of any binary floating type `F`, computed in a type `C` which has the values of `F`.
-/

namespace Sprout

open Classical FV Fmt MathRound

/-- the floating functions -/
inductive RoundFn
  | floor | ceil | trunc | round

/-- the function in the library -/
noncomputable def RoundFn.run (F C : Fmt) (noerr : Bool) : RoundFn → FV → Option (Ret FV)
  | .floor => MathRound.floor F C noerr
  | .ceil => MathRound.ceil F C noerr
  | .trunc => MathRound.trunc F noerr
  | .round => MathRound.round F C noerr

/-- the value is `w`, of the type, of the sign of the argument, and related to it by `R` -/
def Rounds (F : Fmt) (R : ℝ → ℝ → Prop) (v : FV) (r : Option (Ret FV)) : Prop :=
  ∃ w, r = some (.ret w) ∧ F.Has w ∧ w.isFin ∧ R w.val v.val ∧ w.sgn = v.sgn

/-- zeros and the values which are not finite are returned -/
theorem C87_special (F C : Fmt) (noerr : Bool) (f : RoundFn) (v : FV) (h : v.isFin = false ∨ v.val = 0 ∧ F.Has v) :
    f.run F C noerr v = some (.ret v) := by
  cases v with
  | nan => cases f <;> simp [RoundFn.run, MathRound.floor, MathRound.ceil, MathRound.trunc, MathRound.round]
  | inf s => cases s <;> cases f <;>
      simp [RoundFn.run, MathRound.floor, MathRound.ceil, MathRound.trunc, MathRound.round, FV.eq]
  | zero s => cases f <;>
      simp [RoundFn.run, MathRound.floor, MathRound.ceil, MathRound.trunc, MathRound.round, FV.eq, FV.val]
  | num x => rcases h with h | h
             · simp [isFin] at h
             · exact absurd h.1 h.2.1

theorem rounds_zero {F C : Fmt} {noerr : Bool} {R : ℝ → ℝ → Prop} {s : Bool} (f : RoundFn) (h : R 0 0) :
    Rounds F R (mkv s 0) (f.run F C noerr (mkv s 0)) := by
  rw [mkv_zero]
  refine ⟨.zero s, C87_special F C noerr f _ (Or.inr ⟨rfl, trivial⟩), trivial, rfl, ?_, rfl⟩
  simpa [val] using h

/-! ### `trunc` and `round` -/

/-- `trunc` discards the fraction -/
theorem C87_trunc (F C : Fmt) (noerr : Bool) (v : FV) (hv : F.Has v) (hf : v.isFin) (hm : |v.val| ≤ 2 ^ 64 - 1) :
    Rounds F IsTrunc v (RoundFn.trunc.run F C noerr v) := by
  obtain ⟨s, x, rfl, hr, hl⟩ := hv.cases hf
  rw [val_mkv, ← maxU_eq] at hm
  rcases lt_trichotomy x 0 with h0 | h0 | h0
  · have P := mkParts hr.neg (by rwa [abs_neg]) (by linarith : 0 ≤ -x)
    refine ⟨_, trunc_neg hr hl h0 (by rwa [abs_of_neg h0] at hm), has_mkv P.rep.neg (by rw [abs_neg]; exact P.lt),
      isFin_mkv _ _, ?_, sgn_neg_int s h0 P.nonneg⟩
    rw [val_mkv, val_mkv]
    exact isTrunc_neg P h0
  · subst h0
    exact rounds_zero .trunc ⟨⟨0, by simp⟩, by simp, by simp, by simp⟩
  · have P := mkParts hr hl (le_of_lt h0)
    refine ⟨_, trunc_pos hr hl h0 (by rwa [abs_of_pos h0] at hm), has_mkv P.rep P.lt, isFin_mkv _ _, ?_,
      sgn_pos_int s h0 P.nonneg⟩
    rw [val_mkv, val_mkv]
    exact isTrunc_pos P h0

/-- `round` goes to the nearest integer, and away from zero if there are two -/
theorem C87_round (F C : Fmt) (hs : F.Sub C) (noerr : Bool) (v : FV) (hv : F.Has v) (hf : v.isFin)
    (hm : |v.val| ≤ 2 ^ 64 - 1) : Rounds F IsRound v (RoundFn.round.run F C noerr v) := by
  obtain ⟨s, x, rfl, hr, hl⟩ := hv.cases hf
  rw [val_mkv, ← maxU_eq] at hm
  have hnl := not_isLarge (s := s) hr hl hm
  have hrC := hs.rep hr
  have hlC := hs.lt hl
  rcases lt_trichotomy x 0 with h0 | h0 | h0
  · have P := mkParts hr.neg (by rwa [abs_neg]) (by linarith : 0 ≤ -x)
    rw [abs_of_neg h0] at hm
    obtain ⟨u, hu⟩ := roundImpl_neg (F := C) (s := s) hrC hlC h0 (by linarith)
    have e : RoundFn.round.run F C noerr (mkv s x) = some (.ret (F.cvt
        (if -x - ⌊-x⌋ < 1 / 2 then mkv true (-⌊-x⌋) else mkv u (-(⌊-x⌋ + 1))))) := by
      show MathRound.round F C noerr (mkv s x) = _
      rw [round_mkv (ne_of_lt h0) hnl, cvt_mkv hrC hlC, hu]; rfl
    rw [e]
    have hn' : (0 : ℝ) ≤ ⌊-x⌋ := by exact_mod_cast P.nonneg
    have hle := P.le
    have hlt := P.lt_succ
    split
    · rename_i hc
      rw [cvt_mkv P.rep.neg (by rw [abs_neg]; exact P.lt)]
      refine ⟨_, rfl, has_mkv P.rep.neg (by rw [abs_neg]; exact P.lt), isFin_mkv _ _, ?_, sgn_neg_int s h0 P.nonneg⟩
      rw [val_mkv, val_mkv]
      have e2 : |x - -(⌊-x⌋ : ℝ)| = -x - ⌊-x⌋ := by rw [abs_of_nonpos (by linarith)]; ring
      refine ⟨⟨-⌊-x⌋, by push_cast; rfl⟩, ?_, ?_⟩ <;> rw [e2]
      · linarith
      · intro h; linarith
    · rename_i hc
      have hne : -x ≠ ⌊-x⌋ := by intro e; apply hc; rw [← e]; norm_num
      have h1 := (P.succ hne).neg
      have h2 : |(-(⌊-x⌋ + 1 : ℝ))| < (2 : ℝ) ^ F.emax := by rw [abs_neg]; exact P.succ_lt hne
      rw [cvt_mkv h1 h2]
      refine ⟨_, rfl, has_mkv h1 h2, isFin_mkv _ _, ?_, sgn_nonzero s u (by linarith) (by linarith) (by nlinarith)⟩
      rw [val_mkv, val_mkv]
      have e2 : |x - -(⌊-x⌋ + 1 : ℝ)| = ⌊-x⌋ + 1 - -x := by rw [abs_of_nonneg (by linarith)]; ring
      refine ⟨⟨-(⌊-x⌋ + 1), by push_cast; rfl⟩, ?_, ?_⟩
      · rw [e2]; linarith
      · intro h
        rw [abs_of_neg h0, abs_neg, abs_of_nonneg (by linarith)]; linarith
  · subst h0
    exact rounds_zero .round ⟨⟨0, by simp⟩, by norm_num, by norm_num⟩
  · have P := mkParts hr hl (by linarith : 0 ≤ x)
    rw [abs_of_pos h0] at hm
    obtain ⟨u, hu⟩ := roundImpl_pos (F := C) (s := s) hrC hlC h0 (by linarith)
    have e : RoundFn.round.run F C noerr (mkv s x) = some (.ret (F.cvt
        (if x - ⌊x⌋ < 1 / 2 then mkv false ⌊x⌋ else mkv u (⌊x⌋ + 1)))) := by
      show MathRound.round F C noerr (mkv s x) = _
      rw [round_mkv (ne_of_gt h0) hnl, cvt_mkv hrC hlC, hu]; rfl
    rw [e]
    have hn' : (0 : ℝ) ≤ ⌊x⌋ := by exact_mod_cast P.nonneg
    have hle := P.le
    have hlt := P.lt_succ
    split
    · rename_i hc
      rw [cvt_mkv P.rep P.lt]
      refine ⟨_, rfl, has_mkv P.rep P.lt, isFin_mkv _ _, ?_, sgn_pos_int s h0 P.nonneg⟩
      rw [val_mkv, val_mkv]
      have e2 : |x - (⌊x⌋ : ℝ)| = x - ⌊x⌋ := abs_of_nonneg (by linarith)
      refine ⟨⟨⌊x⌋, rfl⟩, ?_, ?_⟩ <;> rw [e2]
      · linarith
      · intro h; linarith
    · rename_i hc
      have hne : x ≠ ⌊x⌋ := by intro e; apply hc; rw [← e]; norm_num
      rw [cvt_mkv (P.succ hne) (P.succ_lt hne)]
      refine ⟨_, rfl, has_mkv (P.succ hne) (P.succ_lt hne), isFin_mkv _ _, ?_,
        sgn_nonzero s u (by linarith) (by linarith) (by nlinarith)⟩
      rw [val_mkv, val_mkv]
      have e2 : |x - (⌊x⌋ + 1 : ℝ)| = ⌊x⌋ + 1 - x := by rw [abs_of_nonpos (by linarith)]; ring
      refine ⟨⟨⌊x⌋ + 1, by push_cast; rfl⟩, ?_, ?_⟩
      · rw [e2]; linarith
      · intro h
        rw [abs_of_pos h0, abs_of_nonneg (by linarith)]; linarith

/-- -3.5 is a value, of which the fraction is discarded, and which is rounded to -4 -/
theorem double_ex : Rep Fmt.double.p Fmt.double.emin (-(7 / 2)) ∧ |(-(7 / 2) : ℝ)| < (2 : ℝ) ^ Fmt.double.emax :=
  ⟨rep_num (-7) (-1) (by simp [Fmt.double, ieee]) (by simp [Fmt.double, ieee]) (by norm_num),
   lt_num (-7) (-1) (by simp [Fmt.double, ieee]) (by simp [Fmt.double, ieee]) (by norm_num)⟩

example : RoundFn.trunc.run Fmt.double Fmt.double true (.num (-(7 / 2))) = some (.ret (.num (-3))) := by
  have e : ⌊-(-(7 / 2) : ℝ)⌋ = 3 := by norm_num [Int.floor_eq_iff]
  have h := trunc_neg (noerr := true) (s := false) double_ex.1 double_ex.2 (by norm_num) (by rw [maxU_eq]; norm_num)
  rw [mkv_num _ (by norm_num), e, mkv_num _ (by norm_num)] at h
  simpa [RoundFn.run] using h

example : Rounds Fmt.double IsRound (.num (-(7 / 2))) (RoundFn.round.run Fmt.double Fmt.double true (.num (-(7 / 2)))) :=
  C87_round _ _ ⟨le_refl _, le_refl _, le_refl _⟩ true _ ⟨by norm_num, double_ex.1, double_ex.2⟩ rfl
    (by simp only [val]; rw [abs_of_neg (by norm_num)]; norm_num)

example : IsRound (-4) (-(7 / 2)) ∧ ¬ IsRound (-3) (-(7 / 2)) ∧ IsTrunc (-3) (-(7 / 2)) ∧ ¬ IsTrunc (-4) (-(7 / 2)) := by
  refine ⟨⟨⟨-4, by norm_num⟩, ?_, ?_⟩, ?_, ⟨⟨-3, by norm_num⟩, ?_, ?_, by norm_num⟩, ?_⟩
  · norm_num [abs_of_pos]
  · norm_num [abs_of_pos]
  · rintro ⟨_, _, h⟩; norm_num [abs_of_neg] at h
  · norm_num [abs_of_neg]
  · norm_num [abs_of_neg]
  · rintro ⟨_, h, _⟩; norm_num [abs_of_neg] at h

/-! ### `floor` and `ceil` -/

/-- The tolerance of the comparison with an integer in `floor` and `ceil` -/
noncomputable def tolerance (C : Fmt) (x : ℝ) : ℝ := (2 : ℝ) ^ (1 - (C.p : ℤ)) * Max.max |x| 1

/-- `floor` gives the floor, unless the argument is negative, and near to the integer above it, without being it -/
theorem C87_floor_partial (F C : Fmt) (hs : F.Sub C) (noerr : Bool) (v : FV) (hv : F.Has v) (hf : v.isFin)
    (hm : |v.val| ≤ 2 ^ 64 - 1)
    (ht : 0 ≤ v.val ∨ (∃ k : ℤ, v.val = k) ∨ ∀ n, IsCeil n v.val → tolerance C v.val < n - v.val) :
    Rounds F IsFloor v (RoundFn.floor.run F C noerr v) := by
  obtain ⟨s, x, rfl, hr, hl⟩ := hv.cases hf
  rw [val_mkv] at hm ht
  rw [← maxU_eq] at hm
  have hnl := not_isLarge (s := s) hr hl hm
  have hrC := hs.rep hr
  have hlC := hs.lt hl
  rcases lt_trichotomy x 0 with h0 | h0 | h0
  · have P := mkParts hr.neg (by rwa [abs_neg]) (by linarith : 0 ≤ -x)
    have PC := mkParts hrC.neg (by rwa [abs_neg]) (by linarith : 0 ≤ -x)
    rw [abs_of_neg h0] at hm
    obtain ⟨u, hu⟩ := floorImpl_neg (F := C) (s := s) hrC hlC h0 (by linarith)
    have e : RoundFn.floor.run F C noerr (mkv s x) = some (.ret (F.cvt
        (if Close C x (-⌊-x⌋) then mkv true (-⌊-x⌋) else mkv u (-(⌊-x⌋ + 1))))) := by
      show MathRound.floor F C noerr (mkv s x) = _
      rw [floor_mkv (ne_of_lt h0) hnl, cvt_mkv hrC hlC, hu]; rfl
    rw [e]
    have hn' : (0 : ℝ) ≤ ⌊-x⌋ := by exact_mod_cast P.nonneg
    have hle := P.le
    have hlt := P.lt_succ
    have hiff := close_neg PC h0
    have hce : IsCeil (-⌊-x⌋) x := ⟨⟨-⌊-x⌋, by push_cast; rfl⟩, by linarith, by linarith⟩
    split
    · rename_i hc
      have hx : x = -⌊-x⌋ := by
        rcases ht with h | ⟨k, hk⟩ | h
        · linarith
        · have e2 : -x = ((-k : ℤ) : ℝ) := by rw [hk]; push_cast; ring
          rw [e2, Int.floor_intCast, ← e2]; ring
        · have := h _ hce
          unfold tolerance at this
          linarith [hiff.1 hc]
      rw [cvt_mkv P.rep.neg (by rw [abs_neg]; exact P.lt)]
      refine ⟨_, rfl, has_mkv P.rep.neg (by rw [abs_neg]; exact P.lt), isFin_mkv _ _, ?_, sgn_neg_int s h0 P.nonneg⟩
      rw [val_mkv, val_mkv]
      exact ⟨⟨-⌊-x⌋, by push_cast; rfl⟩, by linarith, by linarith⟩
    · rename_i hc
      have hne : -x ≠ ⌊-x⌋ := by intro e; apply hc; rw [← e, neg_neg]; exact close_self x
      have h1 := (P.succ hne).neg
      have h2 : |(-(⌊-x⌋ + 1 : ℝ))| < (2 : ℝ) ^ F.emax := by rw [abs_neg]; exact P.succ_lt hne
      have h3 : (⌊-x⌋ : ℝ) < -x := lt_of_le_of_ne hle (Ne.symm hne)
      rw [cvt_mkv h1 h2]
      refine ⟨_, rfl, has_mkv h1 h2, isFin_mkv _ _, ?_, sgn_nonzero s u (by linarith) (by linarith) (by nlinarith)⟩
      rw [val_mkv, val_mkv]
      exact ⟨⟨-(⌊-x⌋ + 1), by push_cast; rfl⟩, by linarith, by linarith⟩
  · subst h0
    exact rounds_zero .floor ⟨⟨0, by simp⟩, by norm_num, by norm_num⟩
  · have P := mkParts hr hl (by linarith : 0 ≤ x)
    rw [abs_of_pos h0] at hm
    have e : RoundFn.floor.run F C noerr (mkv s x) = some (.ret (mkv false ⌊x⌋)) := by
      show MathRound.floor F C noerr (mkv s x) = _
      rw [floor_mkv (ne_of_gt h0) hnl, cvt_mkv hrC hlC, floorImpl_pos hrC hlC h0 (by linarith), Option.map_some,
        cvt_mkv P.rep P.lt]
    refine ⟨_, e, has_mkv P.rep P.lt, isFin_mkv _ _, ?_, sgn_pos_int s h0 P.nonneg⟩
    rw [val_mkv, val_mkv]
    exact ⟨⟨⌊x⌋, rfl⟩, P.le, P.lt_succ⟩

/-- `ceil` gives the ceiling, unless the argument is positive, and near to the integer below it, without being it -/
theorem C87_ceil_partial (F C : Fmt) (hs : F.Sub C) (noerr : Bool) (v : FV) (hv : F.Has v) (hf : v.isFin)
    (hm : |v.val| ≤ 2 ^ 64 - 1)
    (ht : v.val ≤ 0 ∨ (∃ k : ℤ, v.val = k) ∨ ∀ n, IsFloor n v.val → tolerance C v.val < v.val - n) :
    Rounds F IsCeil v (RoundFn.ceil.run F C noerr v) := by
  obtain ⟨s, x, rfl, hr, hl⟩ := hv.cases hf
  rw [val_mkv] at hm ht
  rw [← maxU_eq] at hm
  have hnl := not_isLarge (s := s) hr hl hm
  have hrC := hs.rep hr
  have hlC := hs.lt hl
  rcases lt_trichotomy x 0 with h0 | h0 | h0
  · have P := mkParts hr.neg (by rwa [abs_neg]) (by linarith : 0 ≤ -x)
    rw [abs_of_neg h0] at hm
    have hb : |(-(⌊-x⌋ : ℝ))| < (2 : ℝ) ^ F.emax := by rw [abs_neg]; exact P.lt
    have e : RoundFn.ceil.run F C noerr (mkv s x) = some (.ret (mkv true (-⌊-x⌋))) := by
      show MathRound.ceil F C noerr (mkv s x) = _
      rw [ceil_mkv (ne_of_lt h0) hnl, cvt_mkv hrC hlC, ceilImpl_neg hrC hlC h0 (by linarith), Option.map_some,
        cvt_mkv P.rep.neg hb]
    have hle := P.le
    have hlt := P.lt_succ
    refine ⟨_, e, has_mkv P.rep.neg hb, isFin_mkv _ _, ?_, sgn_neg_int s h0 P.nonneg⟩
    rw [val_mkv, val_mkv]
    exact ⟨⟨-⌊-x⌋, by push_cast; rfl⟩, by linarith, by linarith⟩
  · subst h0
    exact rounds_zero .ceil ⟨⟨0, by simp⟩, by norm_num, by norm_num⟩
  · have P := mkParts hr hl (by linarith : 0 ≤ x)
    have PC := mkParts hrC hlC (by linarith : 0 ≤ x)
    rw [abs_of_pos h0] at hm
    obtain ⟨u, hu⟩ := ceilImpl_pos (F := C) (s := s) hrC hlC h0 (by linarith)
    have e : RoundFn.ceil.run F C noerr (mkv s x) = some (.ret (F.cvt
        (if Close C x ⌊x⌋ then mkv false ⌊x⌋ else mkv u (⌊x⌋ + 1)))) := by
      show MathRound.ceil F C noerr (mkv s x) = _
      rw [ceil_mkv (ne_of_gt h0) hnl, cvt_mkv hrC hlC, hu]; rfl
    rw [e]
    have hn' : (0 : ℝ) ≤ ⌊x⌋ := by exact_mod_cast P.nonneg
    have hle := P.le
    have hlt := P.lt_succ
    have hiff := close_pos PC h0
    split
    · rename_i hc
      have hx : x = ⌊x⌋ := by
        rcases ht with h | ⟨k, hk⟩ | h
        · linarith
        · rw [hk, Int.floor_intCast]
        · have := h ⌊x⌋ ⟨⟨⌊x⌋, rfl⟩, by linarith, by linarith⟩
          unfold tolerance at this
          linarith [hiff.1 hc]
      rw [cvt_mkv P.rep P.lt]
      refine ⟨_, rfl, has_mkv P.rep P.lt, isFin_mkv _ _, ?_, sgn_pos_int s h0 P.nonneg⟩
      rw [val_mkv, val_mkv]
      exact ⟨⟨⌊x⌋, rfl⟩, by linarith, by linarith⟩
    · rename_i hc
      have hne : x ≠ ⌊x⌋ := by intro e; apply hc; rw [← e]; exact close_self x
      have h3 : (⌊x⌋ : ℝ) < x := lt_of_le_of_ne hle (Ne.symm hne)
      rw [cvt_mkv (P.succ hne) (P.succ_lt hne)]
      refine ⟨_, rfl, has_mkv (P.succ hne) (P.succ_lt hne), isFin_mkv _ _, ?_,
        sgn_nonzero s u (by linarith) (by linarith) (by nlinarith)⟩
      rw [val_mkv, val_mkv]
      exact ⟨⟨⌊x⌋ + 1, by push_cast; rfl⟩, by linarith, by linarith⟩

theorem isFloor_unique {m n x : ℝ} (hm : IsFloor m x) (hn : IsFloor n x) : m = n := by
  obtain ⟨⟨a, rfl⟩, h1, h2⟩ := hm
  obtain ⟨⟨b, rfl⟩, h3, h4⟩ := hn
  have h5 : a < b + 1 := by exact_mod_cast (by push_cast; linarith : (a : ℝ) < ((b + 1 : ℤ) : ℝ))
  have h6 : b < a + 1 := by exact_mod_cast (by push_cast; linarith : (b : ℝ) < ((a + 1 : ℤ) : ℝ))
  have : a = b := by omega
  rw [this]

theorem isCeil_unique {m n x : ℝ} (hm : IsCeil m x) (hn : IsCeil n x) : m = n := by
  obtain ⟨⟨a, rfl⟩, h1, h2⟩ := hm
  obtain ⟨⟨b, rfl⟩, h3, h4⟩ := hn
  have h5 : a < b + 1 := by exact_mod_cast (by push_cast; linarith : (a : ℝ) < ((b + 1 : ℤ) : ℝ))
  have h6 : b < a + 1 := by exact_mod_cast (by push_cast; linarith : (b : ℝ) < ((a + 1 : ℤ) : ℝ))
  have : a = b := by omega
  rw [this]

/-- Computed in a type of more bits, as `float` is in `double`, `floor` and `ceil` are correct except near zero -/
theorem C87_wide_partial (F C : Fmt) (hs : F.Sub C) (hp : F.p < C.p) (noerr : Bool) (v : FV) (hv : F.Has v) (hf : v.isFin)
    (hm : |v.val| ≤ 2 ^ 64 - 1) :
    ((0 ≤ v.val ∨ (2 : ℝ) ^ (1 - (C.p : ℤ)) < -v.val) → Rounds F IsFloor v (RoundFn.floor.run F C noerr v)) ∧
    ((v.val ≤ 0 ∨ (2 : ℝ) ^ (1 - (C.p : ℤ)) < v.val) → Rounds F IsCeil v (RoundFn.ceil.run F C noerr v)) := by
  have hr := hv.rep
  have hpp : (0 : ℝ) < (2 : ℝ) ^ (1 - (C.p : ℤ)) := by positivity
  constructor
  · rintro (h | h)
    · exact C87_floor_partial F C hs noerr v hv hf hm (Or.inl h)
    · apply C87_floor_partial F C hs noerr v hv hf hm
      right
      by_cases hi : ∃ k : ℤ, v.val = k
      · exact Or.inl hi
      · right
        intro n hn
        have hne : -v.val ≠ ⌊-v.val⌋ := fun e => hi ⟨-⌊-v.val⌋, by push_cast; linarith⟩
        have h1 := frac_wide (C := C) hr.neg (by linarith) hne hp h
        have h2 : IsCeil (-⌊-v.val⌋) v.val := ⟨⟨-⌊-v.val⌋, by push_cast; rfl⟩,
          by linarith [Int.floor_le (-v.val)], by linarith [Int.lt_floor_add_one (-v.val)]⟩
        rw [isCeil_unique hn h2]
        unfold tolerance
        rw [abs_neg] at h1
        linarith
  · rintro (h | h)
    · exact C87_ceil_partial F C hs noerr v hv hf hm (Or.inl h)
    · apply C87_ceil_partial F C hs noerr v hv hf hm
      right
      by_cases hi : ∃ k : ℤ, v.val = k
      · exact Or.inl hi
      · right
        intro n hn
        have hne : v.val ≠ ⌊v.val⌋ := fun e => hi ⟨⌊v.val⌋, e⟩
        have h1 := frac_wide (C := C) hr (by linarith) hne hp h
        have h2 : IsFloor ⌊v.val⌋ v.val := ⟨⟨⌊v.val⌋, rfl⟩, Int.floor_le _, Int.lt_floor_add_one _⟩
        rw [isFloor_unique hn h2]
        exact h1

example : Fmt.float.Sub Fmt.double ∧ Fmt.float.p < Fmt.double.p := by
  simp [Fmt.Sub, Fmt.float, Fmt.double, ieee]

example : Rounds Fmt.float IsFloor (.num (-(7 / 2))) (RoundFn.floor.run Fmt.float Fmt.double true (.num (-(7 / 2)))) := by
  refine (C87_wide_partial _ _ (by simp [Fmt.Sub, Fmt.float, Fmt.double, ieee]) (by simp [Fmt.float, Fmt.double, ieee]) true (.num _)
    ⟨by norm_num, rep_num (-7) (-1) (by simp [Fmt.float, ieee]) (by simp [Fmt.float, ieee]) (by norm_num),
      lt_num (-7) (-1) (by simp [Fmt.float, ieee]) (by simp [Fmt.float, ieee]) (by norm_num)⟩ rfl
    (by simp only [val]; rw [abs_of_neg (by norm_num)]; norm_num)).1 (Or.inr ?_)
  simp only [val, Fmt.double, ieee]
  norm_num

/-- Near to zero the `floor` is that of zero: in every type there is a negative number of which `floor` is `-0`, and a
positive one of which `ceil` is `0` -/
theorem C87_floor_refuted (F : Fmt) (noerr : Bool) :
    (∃ v, F.Has v ∧ RoundFn.floor.run F F noerr v = some (.ret (.zero true)) ∧ ¬ IsFloor 0 v.val) ∧
    (∃ v, F.Has v ∧ RoundFn.ceil.run F F noerr v = some (.ret (.zero false)) ∧ ¬ IsCeil 0 v.val) := by
  have h2p := F.two_le_p
  have hpp : (0 : ℝ) < (2 : ℝ) ^ (1 - (F.p : ℤ)) := by positivity
  have hlt1 : (2 : ℝ) ^ (1 - (F.p : ℤ)) < 1 := by
    calc (2 : ℝ) ^ (1 - (F.p : ℤ)) < (2 : ℝ) ^ (0 : ℤ) := zpow_lt_zpow_right₀ (by norm_num) (by omega)
      _ = 1 := by simp
  have hr : Rep F.p F.emin ((2 : ℝ) ^ (1 - (F.p : ℤ))) :=
    Rep.two_zpow _ (by have := F.emin_le; omega) F.one_le_p
  have h1e := one_lt_emax F
  generalize hx : (2 : ℝ) ^ (1 - (F.p : ℤ)) = x at *
  have hl : |x| < (2 : ℝ) ^ F.emax := by rw [abs_of_pos hpp]; linarith
  have hfl : ⌊x⌋ = 0 := by rw [Int.floor_eq_zero_iff]; exact ⟨le_of_lt hpp, hlt1⟩
  constructor
  · refine ⟨mkv true (-x), has_mkv hr.neg (by rwa [abs_neg]), ?_, ?_⟩
    · obtain ⟨u, hu⟩ := floorImpl_neg (F := F) (s := true) hr.neg (by rwa [abs_neg]) (by linarith)
        (by rw [maxU_eq]; linarith)
      show MathRound.floor F F noerr (mkv true (-x)) = _
      have P := mkParts (x := -(-x)) (F := F) (by rwa [neg_neg]) (by rwa [neg_neg]) (by linarith)
      have hc : Close F (-x) (-⌊-(-x)⌋) := by
        rw [close_neg P (by linarith), neg_neg, hfl, hx, abs_neg, abs_of_pos hpp, max_eq_right (by linarith)]
        simp
      rw [floor_mkv (by linarith) (not_isLarge hr.neg (by rwa [abs_neg]) (by
        rw [abs_neg, abs_of_pos hpp, maxU_eq]; linarith)), cvt_mkv hr.neg (by rwa [abs_neg]), hu, if_pos hc, neg_neg, hfl]
      simp [mkv, Fmt.cvt]
    · rw [val_mkv]; rintro ⟨_, h, _⟩; linarith
  · refine ⟨mkv false x, has_mkv hr hl, ?_, ?_⟩
    · obtain ⟨u, hu⟩ := ceilImpl_pos (F := F) (s := false) hr hl (by linarith) (by rw [maxU_eq]; linarith)
      show MathRound.ceil F F noerr (mkv false x) = _
      have P := mkParts (x := x) (F := F) hr hl (by linarith)
      have hc : Close F x ⌊x⌋ := by
        rw [close_pos P (by linarith), hfl, hx, abs_of_pos hpp, max_eq_right (by linarith)]
        simp
      rw [ceil_mkv (by linarith) (not_isLarge hr hl (by
        rw [abs_of_pos hpp, maxU_eq]; linarith)), cvt_mkv hr hl, hu, if_pos hc, hfl]
      simp [mkv, Fmt.cvt]
    · rw [val_mkv]; rintro ⟨_, h, _⟩; linarith

/-- Not only near to zero: in every type of three bits or more the `floor` of `-(3 + ε)`, for the next number
after 3, is -3, when it is computed in the type itself, as for `double` -/
theorem C87_floor_next_refuted (F : Fmt) (hp : 3 ≤ F.p) (noerr : Bool) :
    ∃ v, F.Has v ∧ v.val < -3 ∧ RoundFn.floor.run F F noerr v = some (.ret (.num (-3))) := by
  have hx0 : (0 : ℝ) < (2 : ℝ) ^ (2 - (F.p : ℤ)) := by positivity
  have hx1 : (2 : ℝ) ^ (2 - (F.p : ℤ)) < 1 := by
    calc (2 : ℝ) ^ (2 - (F.p : ℤ)) < (2 : ℝ) ^ (0 : ℤ) := zpow_lt_zpow_right₀ (by norm_num) (by omega)
      _ = 1 := by simp
  have hx2 : (2 : ℝ) ^ (2 - (F.p : ℤ)) = 2 * (2 : ℝ) ^ (1 - (F.p : ℤ)) := by
    have e : 2 - (F.p : ℤ) = 1 + (1 - (F.p : ℤ)) := by ring
    rw [e, zpow_add₀ (by norm_num)]; norm_num
  have hn : 3 * (2 : ℝ) ^ (F.p - 2) * (2 : ℝ) ^ (2 - (F.p : ℤ)) = 3 := by
    have e : (2 : ℝ) ^ (F.p - 2) = (2 : ℝ) ^ (-(2 - (F.p : ℤ))) := by
      rw [← zpow_natCast]; congr 1; omega
    rw [e, mul_assoc, ← zpow_add₀ (by norm_num)]; simp
  have hme : 3 + (2 : ℝ) ^ (2 - (F.p : ℤ)) = ((3 * 2 ^ (F.p - 2) + 1 : ℤ) : ℝ) * (2 : ℝ) ^ (2 - (F.p : ℤ)) := by
    push_cast; rw [add_mul, hn]; ring
  have hmb : |(3 * 2 ^ (F.p - 2) + 1 : ℤ)| < 2 ^ F.p := by
    have e : (2 : ℤ) ^ F.p = 4 * 2 ^ (F.p - 2) := by
      have : F.p = F.p - 2 + 2 := by omega
      conv_lhs => rw [this, pow_add]
      ring
    have h2 : (2 : ℤ) ^ 1 ≤ 2 ^ (F.p - 2) := pow_le_pow_right₀ (by norm_num) (by omega)
    rw [e, abs_of_pos (by positivity)]
    omega
  have hr : Rep F.p F.emin (3 + (2 : ℝ) ^ (2 - (F.p : ℤ))) := rep_num _ _ hmb (by have := F.emin_le; omega) hme
  have hl : |3 + (2 : ℝ) ^ (2 - (F.p : ℤ))| < (2 : ℝ) ^ F.emax :=
    lt_num _ _ hmb (by have := F.p_lt_emax; omega) hme
  generalize hx : (2 : ℝ) ^ (2 - (F.p : ℤ)) = x at *
  have hfl : ⌊3 + x⌋ = 3 := by
    rw [Int.floor_eq_iff]; constructor <;> push_cast <;> linarith
  refine ⟨mkv true (-(3 + x)), has_mkv hr.neg (by rwa [abs_neg]), by rw [val_mkv]; linarith, ?_⟩
  obtain ⟨u, hu⟩ := floorImpl_neg (F := F) (s := true) hr.neg (by rwa [abs_neg]) (by linarith)
    (by rw [maxU_eq]; linarith)
  show MathRound.floor F F noerr (mkv true (-(3 + x))) = _
  have P := mkParts (x := -(-(3 + x))) (F := F) (by rwa [neg_neg]) (by rwa [neg_neg]) (by linarith)
  have hc : Close F (-(3 + x)) (-⌊-(-(3 + x))⌋) := by
    rw [close_neg P (by linarith), neg_neg, hfl, abs_neg, abs_of_pos (by linarith), max_eq_left (by linarith)]
    push_cast
    nlinarith
  rw [floor_mkv (by linarith) (not_isLarge hr.neg (by rwa [abs_neg]) (by
    rw [abs_neg, abs_of_pos (by linarith), maxU_eq]; linarith)), cvt_mkv hr.neg (by rwa [abs_neg]), hu, if_pos hc, neg_neg,
    hfl, Option.map_some, cvt_mkv]
  · rw [mkv_num _ (by norm_num)]; norm_num
  · have h3 := F.rep_int (-3) (by
      have : (2 : ℤ) ^ 3 ≤ 2 ^ F.p := pow_le_pow_right₀ (by norm_num) hp
      norm_num; linarith)
    simpa using h3
  · have : |(-((3 : ℤ) : ℝ))| = 3 := by norm_num [abs_of_neg]
    rw [this]
    rw [abs_of_pos (by linarith)] at hl
    linarith

/-! ### Large arguments -/

/-- From `2 ^ 64` on, the argument is returned, and is an integer, or an exception is thrown, as configured -/
theorem C87_large_partial (F C : Fmt) (hp : F.p ≤ 64) (f : RoundFn) (v : FV) (hv : F.Has v) (hf : v.isFin)
    (hm : 2 ^ 64 < |v.val|) :
    f.run F C true v = some (.ret v) ∧ (∃ k : ℤ, v.val = k) ∧ f.run F C false v = some (.throw .runtimeError) := by
  obtain ⟨s, x, rfl, hr, hl⟩ := hv.cases hf
  rw [val_mkv] at hm ⊢
  have hL := isLarge_of (s := s) hl hm
  have h0 : x ≠ 0 := by rintro rfl; norm_num at hm
  have h1 := mkv_ne_nan s x
  have h2 := mkv_eq_inf s false x
  have h3 := mkv_eq_inf s true x
  have h4 : ¬ (mkv s x).eq (.zero false) := by rw [zero_eq, eq_mkv]; exact h0
  refine ⟨?_, ?_, ?_⟩
  · cases f <;> simp [RoundFn.run, MathRound.floor, MathRound.ceil, MathRound.trunc, MathRound.round, h1, h2, h3, h4, hL,
      large]
  · rcases hr.split with h | ⟨m, k, hk, _, hm', e⟩
    · exact h
    · exfalso
      have hkp : (0 : ℝ) < 2 ^ k := by positivity
      have h5 : |x| ≤ |(m : ℝ)| := by
        rw [e, abs_mul, abs_inv, abs_of_pos hkp]
        have : ((2 : ℝ) ^ k)⁻¹ ≤ 1 := inv_le_one_of_one_le₀ (one_le_pow₀ (by norm_num))
        nlinarith [abs_nonneg (m : ℝ)]
      have h6 : |(m : ℝ)| < 2 ^ F.p := by exact_mod_cast hm'
      have h7 : (2 : ℝ) ^ F.p ≤ 2 ^ 64 := pow_le_pow_right₀ (by norm_num) hp
      linarith
  · cases f <;> simp [RoundFn.run, MathRound.floor, MathRound.ceil, MathRound.trunc, MathRound.round, h1, h2, h3, h4, hL,
      large]

/-- a number beyond `2 ^ 64` in `double` -/
example : RoundFn.floor.run Fmt.double Fmt.double true (.num (3 * 2 ^ 70)) = some (.ret (.num (3 * 2 ^ 70))) :=
  (C87_large_partial Fmt.double Fmt.double (by simp [Fmt.double, ieee]) .floor (.num _)
    ⟨by positivity, rep_num 3 70 (by simp [Fmt.double, ieee]) (by simp [Fmt.double, ieee]) (by norm_cast),
      lt_num 3 70 (by simp [Fmt.double, ieee]) (by simp [Fmt.double, ieee]) (by norm_cast)⟩ rfl
    (by simp only [val]; rw [abs_of_pos (by positivity)]; norm_num)).1

/-- With a `long double` of 66 bits or more, as the one of 113 bits, numbers beyond `2 ^ 64` with a fraction are returned
unchanged -/
theorem C87_large_refuted (F C : Fmt) (hp : 66 ≤ F.p) (f : RoundFn) :
    ∃ v, F.Has v ∧ (v.val = 2 ^ 64 + 1 / 2) ∧ f.run F C true v = some (.ret v) := by
  have hme : (2 : ℝ) ^ 64 + 1 / 2 = ((2 ^ 65 + 1 : ℤ) : ℝ) * (2 : ℝ) ^ (-1 : ℤ) := by push_cast; norm_num
  have hmb : |(2 ^ 65 + 1 : ℤ)| < 2 ^ F.p := by
    have : (2 : ℤ) ^ 66 ≤ 2 ^ F.p := pow_le_pow_right₀ (by norm_num) hp
    norm_num at this ⊢
    linarith
  have hr := rep_num (F := F) _ _ hmb (by have := F.emin_le; omega) hme
  have hl := lt_num (F := F) _ _ hmb (by have := F.p_lt_emax; omega) hme
  generalize hx : (2 : ℝ) ^ 64 + 1 / 2 = x at *
  have hgt : 2 ^ 64 < x := by rw [← hx]; norm_num
  have hL := isLarge_of (s := false) hl (by rw [abs_of_pos (by linarith)]; exact hgt)
  have h0 : x ≠ 0 := by rintro rfl; norm_num at hgt
  have h1 := mkv_ne_nan false x
  have h2 := mkv_eq_inf false false x
  have h3 := mkv_eq_inf false true x
  have h4 : ¬ (mkv false x).eq (.zero false) := by rw [zero_eq, eq_mkv]; exact h0
  refine ⟨mkv false x, has_mkv hr hl, by rw [val_mkv], ?_⟩
  cases f <;> simp [RoundFn.run, MathRound.floor, MathRound.ceil, MathRound.trunc, MathRound.round, h1, h2, h3, h4, hL,
      large]

/-- At `2 ^ 64` and `-2 ^ 64`, which are not above the converted greatest integer, all functions of `float` and `double`
convert to an integer type without the value: the behaviour is undefined -/
theorem C87_limit_refuted (F C : Fmt) (hs : F.Sub C) (hp : F.p ≤ 62) (hm : 64 < F.emax) (noerr : Bool) (f : RoundFn) :
    ∃ v, F.Has v ∧ (v.val = 2 ^ 64) ∧ f.run F C noerr v = none := by
  have hr : Rep F.p F.emin ((2 : ℝ) ^ 64) := by
    have := Rep.two_zpow (p := F.p) (emin := F.emin) 64 (by have := F.emin_le_zero; omega) F.one_le_p
    exact_mod_cast this
  have hl : |(2 : ℝ) ^ 64| < (2 : ℝ) ^ F.emax := by
    rw [abs_of_pos (by positivity)]
    have : (2 : ℝ) ^ (64 : ℤ) < (2 : ℝ) ^ F.emax := zpow_lt_zpow_right₀ (by norm_num) hm
    exact_mod_cast this
  have hU : F.ofInt maxU = mkv false (2 ^ 64) := ofInt_pred (k := 64) (by omega) (by exact_mod_cast hm)
  have hpos : (0 : ℝ) < 2 ^ 64 := by positivity
  have hti : toInteger 0 maxU (mkv false ((2 : ℝ) ^ 64)) = none := by
    apply toInteger_none (by positivity)
    rw [maxU_eq]; linarith
  have hc := cvt_mkv (F := C) (s := false) (hs.rep hr) (hs.lt hl)
  generalize (2 : ℝ) ^ 64 = x at *
  have hnl : ¬ isLarge F (mkv false x) := by
    unfold isLarge
    rw [hU, neg_mkv, lt_mkv, lt_mkv]
    rintro (h | h) <;> linarith
  have hlt : ¬ (mkv false x).lt (.zero false) := by rw [zero_eq, lt_mkv]; linarith
  refine ⟨mkv false x, has_mkv hr hl, by rw [val_mkv], ?_⟩
  cases f
  · show MathRound.floor F C noerr _ = _
    rw [floor_mkv (by linarith) hnl, hc]
    unfold floorImpl
    rw [if_neg hlt, hti]; rfl
  · show MathRound.ceil F C noerr _ = _
    rw [ceil_mkv (by linarith) hnl, hc]
    unfold ceilImpl
    rw [if_neg hlt, hti]; rfl
  · show MathRound.trunc F noerr _ = _
    rw [trunc_mkv (by linarith) hnl, if_neg (by linarith), hti]; rfl
  · show MathRound.round F C noerr _ = _
    rw [round_mkv (by linarith) hnl, hc]
    unfold roundImpl
    rw [if_neg hlt, hti]; rfl

/-! ### Integer and fractional parts -/

theorem isTrunc_frac {n x : ℝ} (h : IsTrunc n x) (hx : x ≠ n) : 0 < (x - n) * x := by
  obtain ⟨_, h1, _, h3⟩ := h
  rcases lt_trichotomy x 0 with h0 | h0 | h0
  · have : n ≤ 0 := by by_contra hc; nlinarith [not_le.1 hc]
    rw [abs_of_nonpos this, abs_of_neg h0] at h1
    have : x < n := lt_of_le_of_ne (by linarith) hx
    nlinarith
  · subst h0
    simp only [abs_zero] at h1
    have := abs_nonneg n
    exact absurd (abs_eq_zero.1 (le_antisymm h1 this)).symm hx
  · have : 0 ≤ n := by by_contra hc; nlinarith [not_le.1 hc]
    rw [abs_of_nonneg this, abs_of_pos h0] at h1
    have : n < x := lt_of_le_of_ne (by linarith) (Ne.symm hx)
    nlinarith

/-- the fraction of a value is a value -/
theorem frac_rep {F : Fmt} {n x : ℝ} (hr : Rep F.p F.emin x) (hl : |x| < (2 : ℝ) ^ F.emax) (h : IsTrunc n x) :
    Rep F.p F.emin (x - n) ∧ |x - n| < (2 : ℝ) ^ F.emax := by
  obtain ⟨⟨k, rfl⟩, h1, h2, h3⟩ := h
  have h1e := one_lt_emax F
  rcases lt_trichotomy x 0 with h0 | h0 | h0
  · have P := mkParts hr.neg (by rwa [abs_neg]) (by linarith : 0 ≤ -x)
    have hk : (k : ℝ) ≤ 0 := by by_contra hc; nlinarith [not_le.1 hc]
    rw [abs_of_nonpos hk, abs_of_neg h0] at h1 h2
    have : ⌊-x⌋ = -k := by rw [Int.floor_eq_iff]; push_cast; exact ⟨h1, h2⟩
    have hf := P.frac
    rw [this] at hf
    have e : x - k = -(-x - ((-k : ℤ) : ℝ)) := by push_cast; ring
    refine ⟨by rw [e]; exact hf.neg, ?_⟩
    rw [abs_of_nonpos (by linarith)]; linarith
  · subst h0
    simp only [abs_zero] at h1
    have : (k : ℝ) = 0 := abs_eq_zero.1 (le_antisymm h1 (abs_nonneg _))
    rw [this]; simp only [sub_zero, abs_zero]
    exact ⟨Rep.zero, by linarith⟩
  · have P := mkParts hr hl (by linarith : 0 ≤ x)
    have hk : (0 : ℝ) ≤ k := by by_contra hc; nlinarith [not_le.1 hc]
    rw [abs_of_nonneg hk, abs_of_pos h0] at h1 h2
    have : ⌊x⌋ = k := by rw [Int.floor_eq_iff]; exact ⟨h1, h2⟩
    have hf := P.frac
    rw [this] at hf
    refine ⟨hf, ?_⟩
    rw [abs_of_nonneg (by linarith)]; linarith

/-- `x` is the sum of its fraction `f` and the integer part -/
def IsFrac (f x : ℝ) : Prop := IsTrunc (x - f) x

theorem integerPart_eq {F : Fmt} {noerr : Bool} (v : FV) : integerPart F noerr v = MathRound.trunc F noerr v := by
  unfold integerPart MathRound.trunc
  split
  · rfl
  split
  · rfl
  split
  · rfl
  split
  · rfl
  · rfl

theorem fracImpl {F : Fmt} {v w : FV} (hv : F.Has v) (hf : v.isFin) (hw : F.Has w) (hwf : w.isFin) (h0 : v.val ≠ 0)
    (h : IsTrunc w.val v.val) :
    F.Has (fractionalPartImpl F v w) ∧ (fractionalPartImpl F v w).isFin ∧
      (fractionalPartImpl F v w).val = v.val - w.val ∧ (fractionalPartImpl F v w).sgn = v.sgn := by
  obtain ⟨s, x, rfl, hr, hl⟩ := hv.cases hf
  obtain ⟨t, n, rfl, hrn, hln⟩ := hw.cases hwf
  rw [val_mkv] at h0
  rw [val_mkv, val_mkv] at h
  unfold fractionalPartImpl
  rw [eq_mkv]
  split
  · rename_i e
    subst e
    have h1 : Rep F.p F.emin (0 * x) := by rw [zero_mul]; exact Rep.zero
    have h2 : |0 * x| < (2 : ℝ) ^ F.emax := by rw [zero_mul, abs_zero]; positivity
    rw [zero_eq, mul_mkv h1 h2]
    refine ⟨has_mkv h1 h2, isFin_mkv _ _, by simp, ?_⟩
    rw [sgn_mkv, zero_mul, if_pos rfl, sgn_mkv, sgn_mkv, if_pos rfl]
    simp
  · rename_i hne
    obtain ⟨h1, h2⟩ := frac_rep hr hl h
    obtain ⟨u, hu⟩ := sub_mkv (F := F) (s := s) (t := t) h1 h2
    have h3 := isTrunc_frac h hne
    have hd : x - n ≠ 0 := sub_ne_zero.2 hne
    rw [hu]
    unfold copysign
    rw [abs_mkv, neg_mkv]
    have hs : (mkv s x).sgn = decide (x < 0) := by rw [sgn_mkv, if_neg h0]
    rw [hs]
    rcases lt_or_gt_of_ne h0 with hx | hx
    · have h4 : x - n < 0 := by by_contra hc; nlinarith [not_lt.1 hc]
      simp only [hx, decide_true, if_true]
      rw [abs_of_neg h4, neg_neg]
      refine ⟨has_mkv h1 h2, isFin_mkv _ _, by simp, ?_⟩
      rw [sgn_mkv, if_neg hd]; simpa using h4
    · have h4 : 0 < x - n := by by_contra hc; nlinarith [not_lt.1 hc]
      have h5 : ¬ x < 0 := by linarith
      simp only [h5, decide_false, Bool.false_eq_true, if_false]
      rw [abs_of_pos h4]
      refine ⟨has_mkv h1 h2, isFin_mkv _ _, by simp, ?_⟩
      rw [sgn_mkv, if_neg hd]
      have : ¬ x - n < 0 := by linarith
      simpa using this

/-- `integer_part`, `fractional_part` and `frac_int` decompose a number, with signs -/
theorem C87_parts (F : Fmt) (noerr : Bool) (v : FV) (hv : F.Has v) (hf : v.isFin) (hm : |v.val| ≤ 2 ^ 64 - 1) :
    Rounds F IsTrunc v (integerPart F noerr v) ∧ Rounds F IsFrac v (fractionalPart F noerr v) ∧
    ∃ f i, fracInt F noerr v = some (.ret (f, i)) ∧ integerPart F noerr v = some (.ret i) ∧
      fractionalPart F noerr v = some (.ret f) := by
  have ht : Rounds F IsTrunc v (integerPart F noerr v) := by
    rw [integerPart_eq]; exact C87_trunc F F noerr v hv hf hm
  refine ⟨ht, ?_⟩
  obtain ⟨w, h1, h2, h3, h4, h5⟩ := ht
  have hnan : v ≠ .nan := by rintro rfl; simp [isFin] at hf
  have hinf : ¬ (v.eq (.inf false) ∨ v.eq (.inf true)) := by
    cases v <;> simp_all [FV.eq, isFin]
  by_cases h0 : v.val = 0
  · have hz : v.eq (.zero false) := by cases v <;> simp_all [FV.eq, isFin, val]
    have e : fractionalPart F noerr v = some (.ret v) := by
      unfold fractionalPart; rw [if_neg hnan, if_neg hinf, if_pos hz]
    constructor
    · refine ⟨v, e, hv, hf, ?_, rfl⟩
      unfold IsFrac
      rw [h0]
      exact ⟨⟨0, by simp⟩, by simp, by simp, by simp⟩
    · refine ⟨v, w, ?_, h1, e⟩
      unfold fracInt bindRet
      rw [h1]
      show some _ = _
      rw [if_neg hnan, if_neg hinf, if_pos hz]
  · have hz : ¬ v.eq (.zero false) := by cases v <;> simp_all [FV.eq, isFin, val]
    have e : fractionalPart F noerr v = some (.ret (fractionalPartImpl F v w)) := by
      unfold fractionalPart bindRet; rw [if_neg hnan, if_neg hinf, if_neg hz, h1]; rfl
    obtain ⟨a, b, c, d⟩ := fracImpl hv hf h2 h3 h0 h4
    constructor
    · refine ⟨_, e, a, b, ?_, d⟩
      unfold IsFrac
      rw [c]
      simpa using h4
    · refine ⟨_, w, ?_, h1, e⟩
      unfold fracInt bindRet fractionalPartImpl
      rw [h1]
      show some _ = _
      rw [if_neg hnan, if_neg hinf, if_neg hz]
      split <;> rfl

/-- the parts of the values which are not finite -/
theorem C87_parts_special (F : Fmt) (noerr s : Bool) :
    integerPart F noerr (.inf s) = some (.ret (.inf s)) ∧ fractionalPart F noerr (.inf s) = some (.ret (.zero s)) ∧
    fracInt F noerr (.inf s) = some (.ret (.zero s, .inf s)) ∧ integerPart F noerr .nan = some (.ret .nan) ∧
    fractionalPart F noerr .nan = some (.ret .nan) ∧ fracInt F noerr .nan = some (.ret (.nan, .nan)) := by
  cases s <;> simp [integerPart, fractionalPart, fracInt, bindRet, FV.eq, copysign, FV.abs, FV.neg, sgn]

example : Rounds Fmt.double IsFrac (.num (-(7 / 2))) (fractionalPart Fmt.double true (.num (-(7 / 2)))) :=
  (C87_parts Fmt.double true (.num (-(7 / 2))) ⟨by norm_num, double_ex.1, double_ex.2⟩ rfl
    (by simp only [val]; rw [abs_of_neg (by norm_num)]; norm_num)).2.1

/-- `is_integer` decides whether the value is an integer -/
theorem C87_is_integer (F : Fmt) (noerr : Bool) (v : FV) (hv : F.Has v) (hm : |v.val| ≤ 2 ^ 64 - 1) :
    isInteger F noerr v = some (.ret (decide (v.isFin ∧ ∃ k : ℤ, v.val = k))) := by
  unfold isInteger
  by_cases hf : v.isFin = true
  · rw [if_pos hf]
    obtain ⟨w, h1, h2, h3, h4, _⟩ := C87_trunc F F noerr v hv hf hm
    simp only [RoundFn.run] at h1
    rw [h1]
    show some _ = _
    congr 2
    rw [decide_eq_decide]
    obtain ⟨s, x, rfl, hr, hl⟩ := hv.cases hf
    obtain ⟨t, n, rfl, hrn, hln⟩ := h2.cases h3
    rw [eq_mkv]
    rw [val_mkv, val_mkv] at h4
    rw [val_mkv]
    constructor
    · intro e; exact ⟨hf, by rw [e]; exact h4.1⟩
    · rintro ⟨_, k, hk⟩
      obtain ⟨⟨j, rfl⟩, a, b, c⟩ := h4
      rw [hk] at a b c ⊢
      have a' : |j| ≤ |k| := by exact_mod_cast a
      have b' : |k| < |j| + 1 := by exact_mod_cast b
      have c' : 0 ≤ j * k := by exact_mod_cast c
      have hjk : |j| = |k| := by omega
      rcases abs_eq_abs.1 hjk with e | e
      · rw [e]
      · subst e
        have : k = 0 := by nlinarith
        rw [this]; simp
  · rw [if_neg hf]
    simp [hf]

example : isInteger Fmt.double true (.num (-(7 / 2))) = some (.ret false) := by
  rw [C87_is_integer Fmt.double true (.num (-(7 / 2))) ⟨by norm_num, double_ex.1, double_ex.2⟩
    (by simp only [val]; rw [abs_of_neg (by norm_num)]; norm_num)]
  congr 2
  rw [decide_eq_false_iff_not]
  rintro ⟨_, k, hk⟩
  simp only [val] at hk
  have h1 : k < -3 := by exact_mod_cast (by push_cast; linarith : (k : ℝ) < ((-3 : ℤ) : ℝ))
  have h2 : -4 < k := by exact_mod_cast (by push_cast; linarith : ((-4 : ℤ) : ℝ) < (k : ℝ))
  omega

/-! ### Integer results -/

/-- Rounding to an integer type with the range from `lo` to `hi`: `itrunc` and `iround` are correct for the numbers between -/
theorem C87_itrunc (F : Fmt) (noerr : Bool) (lo hi : ℤ) (hlo : lo ≤ 0) (hhi : 0 ≤ hi) (v : FV) (hv : F.Has v)
    (hf : v.isFin) (h1 : lo ≤ v.val) (h2 : v.val ≤ hi) :
    ∃ n, itrunc F noerr lo hi v = some (.ret n) ∧ IsTrunc n v.val := by
  obtain ⟨s, x, rfl, hr, hl⟩ := hv.cases hf
  rw [val_mkv] at h1 h2
  unfold itrunc
  rw [isFin_mkv, if_neg (by simp), zero_eq, eq_mkv, val_mkv]
  have ho : ¬ outside F lo hi (mkv s x) := by
    rintro (h | h)
    · exact ofInt_not_lt hi hr hl h2 h
    · exact not_lt_ofInt lo hr hl h1 h
  rw [if_neg ho]
  rcases lt_trichotomy x 0 with h0 | h0 | h0
  · rw [if_neg (ne_of_lt h0), toInteger_neg h0 hhi (by linarith)]
    have e : ⌈x⌉ = -⌊-x⌋ := by rw [Int.floor_neg]; simp
    refine ⟨_, rfl, ?_⟩
    rw [e]
    push_cast
    exact isTrunc_neg (mkParts hr.neg (by rwa [abs_neg]) (by linarith)) h0
  · subst h0
    rw [if_pos rfl]
    exact ⟨0, rfl, ⟨0, by simp⟩, by simp, by simp, by simp⟩
  · rw [if_neg (ne_of_gt h0), toInteger_pos (le_of_lt h0) hlo (by linarith)]
    exact ⟨_, rfl, isTrunc_pos (mkParts hr hl (by linarith)) h0⟩

/-- the conversion of a value to the floating type and back -/
theorem toInteger_ofInt {F : Fmt} {lo hi n : ℤ} (hlo : lo ≤ 0) (hhi : 0 ≤ hi) (h1 : lo ≤ n) (h2 : n ≤ hi)
    (hr : Rep F.p F.emin (n : ℝ)) (hl : |(n : ℝ)| < (2 : ℝ) ^ F.emax) : toInteger lo hi (F.ofInt n) = some n := by
  rw [ofInt_mkv hr hl]
  rcases lt_or_ge n 0 with h | h
  · rw [toInteger_neg (by exact_mod_cast h) hhi]
    · simp
    · have : (lo : ℝ) ≤ n := by exact_mod_cast h1
      linarith
  · rw [toInteger_pos (by exact_mod_cast h) hlo]
    · simp
    · have : (n : ℝ) ≤ hi := by exact_mod_cast h2
      linarith

/-- `iround` -/
theorem C87_iround (F : Fmt) (noerr : Bool) (lo hi : ℤ) (hlo : lo ≤ 0) (hhi : 0 ≤ hi) (v : FV) (hv : F.Has v)
    (hf : v.isFin) (h1 : lo ≤ v.val) (h2 : v.val ≤ hi) :
    ∃ n, iround F noerr lo hi v = some (.ret n) ∧ IsRound n v.val := by
  obtain ⟨s, x, rfl, hr, hl⟩ := hv.cases hf
  rw [val_mkv] at h1 h2
  unfold iround
  rw [isFin_mkv, if_neg (by simp), zero_eq, eq_mkv, val_mkv]
  have ho : ¬ outside F lo hi (mkv s x) := by
    rintro (h | h)
    · exact ofInt_not_lt hi hr hl h2 h
    · exact not_lt_ofInt lo hr hl h1 h
  rw [if_neg ho]
  rcases lt_trichotomy x 0 with h0 | h0 | h0
  · have P := mkParts hr.neg (by rwa [abs_neg]) (by linarith : 0 ≤ -x)
    have hb : |(-(⌊-x⌋ : ℝ))| < (2 : ℝ) ^ F.emax := by rw [abs_neg]; exact P.lt
    have hle := P.le
    have hlt := P.lt_succ
    have hn' : (0 : ℝ) ≤ ⌊-x⌋ := by exact_mod_cast P.nonneg
    have ec : ⌈x⌉ = -⌊-x⌋ := by rw [Int.floor_neg]; simp
    have hrn : Rep F.p F.emin ((-⌊-x⌋ : ℤ) : ℝ) := by push_cast; exact P.rep.neg
    have hln : |((-⌊-x⌋ : ℤ) : ℝ)| < (2 : ℝ) ^ F.emax := by push_cast; exact hb
    have eo : F.ofInt (-⌊-x⌋) = mkv false (-⌊-x⌋) := by rw [ofInt_mkv hrn hln]; push_cast; rfl
    have e3 : -(⌊-x⌋ : ℝ) - x = -x - ⌊-x⌋ := by ring
    obtain ⟨u, hu⟩ := sub_mkv (F := F) (s := false) (t := s) (a := -⌊-x⌋) (b := x) (by rw [e3]; exact P.frac)
      (by rw [e3]; exact P.frac_lt)
    have hlo1 : lo ≤ -⌊-x⌋ := by
      exact_mod_cast (by push_cast; linarith : (lo : ℝ) ≤ ((-⌊-x⌋ : ℤ) : ℝ))
    rw [if_neg (ne_of_lt h0), lt_mkv, if_pos h0, toInteger_neg h0 hhi (by linarith), ec, Option.bind_some]
    unfold iroundNegative
    rw [eo, hu, half_eq, lt_mkv, e3]
    by_cases hc : -x - ⌊-x⌋ < 1 / 2
    · rw [if_pos hc]
      refine ⟨-⌊-x⌋, ?_, ?_⟩
      · cases noerr
        · rfl
        · simp only [if_true, Option.bind_some]
          rw [toInteger_ofInt hlo hhi hlo1 (by have := P.nonneg; omega) hrn hln]; rfl
      · push_cast
        have e2 : |x - -(⌊-x⌋ : ℝ)| = -x - ⌊-x⌋ := by rw [abs_of_nonpos (by linarith)]; ring
        refine ⟨⟨-⌊-x⌋, by push_cast; rfl⟩, ?_, ?_⟩ <;> rw [e2]
        · linarith
        · intro h; linarith
    · have hne : -x ≠ ⌊-x⌋ := by intro e; apply hc; rw [← e]; norm_num
      have hlo2 : lo ≤ -⌊-x⌋ - 1 := by
        have h3 : (lo : ℝ) < ((-⌊-x⌋ : ℤ) : ℝ) := by
          push_cast
          have : (⌊-x⌋ : ℝ) < -x := lt_of_le_of_ne hle (Ne.symm hne)
          linarith
        have : lo < -⌊-x⌋ := by exact_mod_cast h3
        omega
      have hhi2 : -⌊-x⌋ - 1 ≤ hi := by have := P.nonneg; omega
      have hr2 : Rep F.p F.emin ((-⌊-x⌋ - 1 : ℤ) : ℝ) := by
        have e : ((-⌊-x⌋ - 1 : ℤ) : ℝ) = -(⌊-x⌋ + 1) := by push_cast; ring
        rw [e]; exact (P.succ hne).neg
      have hl2 : |((-⌊-x⌋ - 1 : ℤ) : ℝ)| < (2 : ℝ) ^ F.emax := by
        have e : ((-⌊-x⌋ - 1 : ℤ) : ℝ) = -(⌊-x⌋ + 1) := by push_cast; ring
        rw [e, abs_neg]; exact P.succ_lt hne
      rw [if_neg hc, inTo, if_pos ⟨hlo2, hhi2⟩]
      refine ⟨-⌊-x⌋ - 1, ?_, ?_⟩
      · cases noerr
        · rfl
        · simp only [if_true, Option.bind_some]
          rw [toInteger_ofInt hlo hhi hlo2 hhi2 hr2 hl2]; rfl
      · push_cast
        have e2 : |x - (-⌊-x⌋ - 1 : ℝ)| = ⌊-x⌋ + 1 - -x := by rw [abs_of_nonneg (by linarith)]; ring
        refine ⟨⟨-⌊-x⌋ - 1, by push_cast; rfl⟩, ?_, ?_⟩
        · rw [e2]; linarith
        · intro h
          rw [abs_of_neg h0, abs_of_neg (by linarith)]; linarith
  · subst h0
    rw [if_pos rfl]
    exact ⟨0, rfl, ⟨0, by simp⟩, by norm_num, by norm_num⟩
  · have P := mkParts hr hl (by linarith : 0 ≤ x)
    have hle := P.le
    have hlt := P.lt_succ
    have hn' : (0 : ℝ) ≤ ⌊x⌋ := by exact_mod_cast P.nonneg
    obtain ⟨u, hu⟩ := sub_mkv (F := F) (s := s) (t := false) P.frac P.frac_lt
    have hhi1 : ⌊x⌋ ≤ hi := by
      exact_mod_cast (by push_cast; linarith : (⌊x⌋ : ℝ) ≤ (hi : ℝ))
    have hnlt : ¬ x < 0 := by linarith
    rw [if_neg (ne_of_gt h0), lt_mkv, if_neg hnlt, toInteger_pos (le_of_lt h0) hlo (by linarith), Option.bind_some]
    unfold iroundPositive
    rw [ofInt_mkv P.rep P.lt, hu, half_eq, lt_mkv]
    by_cases hc : x - ⌊x⌋ < 1 / 2
    · rw [if_pos hc]
      refine ⟨⌊x⌋, ?_, ?_⟩
      · cases noerr
        · rfl
        · simp only [if_true, Option.bind_some]
          rw [toInteger_ofInt hlo hhi (by have := P.nonneg; omega) hhi1 P.rep P.lt]; rfl
      · have e2 : |x - (⌊x⌋ : ℝ)| = x - ⌊x⌋ := abs_of_nonneg (by linarith)
        refine ⟨⟨⌊x⌋, rfl⟩, ?_, ?_⟩ <;> rw [e2]
        · linarith
        · intro h; linarith
    · have hne : x ≠ ⌊x⌋ := by intro e; apply hc; rw [← e]; norm_num
      have hhi2 : ⌊x⌋ + 1 ≤ hi := by
        have h3 : (⌊x⌋ : ℝ) < (hi : ℝ) := by
          have : (⌊x⌋ : ℝ) < x := lt_of_le_of_ne hle (Ne.symm hne)
          linarith
        have : ⌊x⌋ < hi := by exact_mod_cast h3
        omega
      have hlo2 : lo ≤ ⌊x⌋ + 1 := by have := P.nonneg; omega
      have hr2 : Rep F.p F.emin ((⌊x⌋ + 1 : ℤ) : ℝ) := by push_cast; exact P.succ hne
      have hl2 : |((⌊x⌋ + 1 : ℤ) : ℝ)| < (2 : ℝ) ^ F.emax := by push_cast; exact P.succ_lt hne
      rw [if_neg hc, inTo, if_pos ⟨hlo2, hhi2⟩]
      refine ⟨⌊x⌋ + 1, ?_, ?_⟩
      · cases noerr
        · rfl
        · simp only [if_true, Option.bind_some]
          rw [toInteger_ofInt hlo hhi hlo2 hhi2 hr2 hl2]; rfl
      · push_cast
        have e2 : |x - (⌊x⌋ + 1 : ℝ)| = ⌊x⌋ + 1 - x := by rw [abs_of_nonpos (by linarith)]; ring
        refine ⟨⟨⌊x⌋ + 1, by push_cast; rfl⟩, ?_, ?_⟩
        · rw [e2]; linarith
        · intro h
          rw [abs_of_pos h0, abs_of_nonneg (by linarith)]; linarith

/-- `ifloor` and `iceil`, for numbers which are integers or not near to the integer towards zero -/
theorem C87_ifloor_partial (F : Fmt) (noerr : Bool) (lo hi : ℤ) (hlo : lo ≤ 0) (hhi : 0 ≤ hi) (v : FV) (hv : F.Has v)
    (hf : v.isFin) (h1 : lo ≤ v.val) (h2 : v.val ≤ hi) :
    ((0 ≤ v.val ∨ (∃ k : ℤ, v.val = k) ∨ ∀ n, IsCeil n v.val → tolerance F v.val < n - v.val) →
      ∃ n, ifloor F noerr lo hi v = some (.ret n) ∧ IsFloor n v.val) ∧
    ((v.val ≤ 0 ∨ (∃ k : ℤ, v.val = k) ∨ ∀ n, IsFloor n v.val → tolerance F v.val < v.val - n) →
      ∃ n, iceil F noerr lo hi v = some (.ret n) ∧ IsCeil n v.val) := by
  obtain ⟨s, x, rfl, hr, hl⟩ := hv.cases hf
  rw [val_mkv] at h1 h2 ⊢
  unfold ifloor iceil
  have htf : ¬ (true = false) := by simp
  simp only [isFin_mkv, if_neg htf, zero_eq, eq_mkv]
  have ho : ¬ outside F lo hi (mkv s x) := by
    rintro (h | h)
    · exact ofInt_not_lt hi hr hl h2 h
    · exact not_lt_ofInt lo hr hl h1 h
  simp only [if_neg ho]
  rcases lt_trichotomy x 0 with h0 | h0 | h0
  · have P := mkParts hr.neg (by rwa [abs_neg]) (by linarith : 0 ≤ -x)
    have hb : |(-(⌊-x⌋ : ℝ))| < (2 : ℝ) ^ F.emax := by rw [abs_neg]; exact P.lt
    have hle := P.le
    have hlt := P.lt_succ
    have hn' : (0 : ℝ) ≤ ⌊-x⌋ := by exact_mod_cast P.nonneg
    have ec : ⌈x⌉ = -⌊-x⌋ := by rw [Int.floor_neg]; simp
    have hrn : Rep F.p F.emin ((-⌊-x⌋ : ℤ) : ℝ) := by push_cast; exact P.rep.neg
    have hln : |((-⌊-x⌋ : ℤ) : ℝ)| < (2 : ℝ) ^ F.emax := by push_cast; exact hb
    have eo : F.ofInt (-⌊-x⌋) = mkv false (-⌊-x⌋) := by rw [ofInt_mkv hrn hln]; push_cast; rfl
    have e3 : x - -(⌊-x⌋ : ℝ) = -(-x - ⌊-x⌋) := by ring
    have heq := equalTo_mkv (C := F) (s := s) (t := false) hr P.rep.neg (by rw [e3]; exact P.frac.neg) hl hb
      (by rw [e3, abs_neg]; exact P.frac_lt)
    have hce : IsCeil (-⌊-x⌋) x := ⟨⟨-⌊-x⌋, by push_cast; rfl⟩, by linarith, by linarith⟩
    simp only [if_neg (ne_of_lt h0), toInteger_neg h0 hhi (show (lo : ℝ) - 1 < x by linarith), ec, Option.bind_some]
    unfold ifloorImpl iceilImpl
    rw [eo, heq, lt_mkv, lt_mkv]
    constructor
    · intro ht
      by_cases hc : decide (Close F x (-⌊-x⌋)) = true ∨ -(⌊-x⌋ : ℝ) < x
      · rw [if_pos hc]
        have hx : x = -⌊-x⌋ := by
          rcases hc with hc | hc
          · rw [decide_eq_true_eq, close_neg P h0] at hc
            rcases ht with h | ⟨k, hk⟩ | h
            · linarith
            · have e2 : -x = ((-k : ℤ) : ℝ) := by rw [hk]; push_cast; ring
              rw [e2, Int.floor_intCast, ← e2]; ring
            · have := h _ hce
              unfold tolerance at this
              linarith
          · linarith
        refine ⟨_, rfl, ?_⟩
        push_cast
        exact ⟨⟨-⌊-x⌋, by push_cast; rfl⟩, by linarith, by linarith⟩
      · have hne : -x ≠ ⌊-x⌋ := by
          intro e; apply hc; left; rw [← e, neg_neg]; exact decide_eq_true (close_self x)
        have h3 : (⌊-x⌋ : ℝ) < -x := lt_of_le_of_ne hle (Ne.symm hne)
        have hlo2 : lo ≤ -⌊-x⌋ - 1 := by
          have h3 : (lo : ℝ) < ((-⌊-x⌋ : ℤ) : ℝ) := by push_cast; linarith
          have : lo < -⌊-x⌋ := by exact_mod_cast h3
          omega
        have hhi2 : -⌊-x⌋ - 1 ≤ hi := by have := P.nonneg; omega
        rw [if_neg hc, inTo, if_pos ⟨hlo2, hhi2⟩]
        refine ⟨_, rfl, ?_⟩
        push_cast
        exact ⟨⟨-⌊-x⌋ - 1, by push_cast; rfl⟩, by linarith, by linarith⟩
    · intro _
      have hc : decide (Close F x (-⌊-x⌋)) = true ∨ x < -(⌊-x⌋ : ℝ) := by
        rcases eq_or_lt_of_le hle with e | e
        · left; rw [e, neg_neg]; exact decide_eq_true (close_self x)
        · right; linarith
      rw [if_pos hc]
      refine ⟨_, rfl, ?_⟩
      push_cast
      exact hce
  · subst h0
    simp only [if_true]
    exact ⟨fun _ => ⟨0, rfl, ⟨0, by simp⟩, by norm_num, by norm_num⟩, fun _ => ⟨0, rfl, ⟨0, by simp⟩, by norm_num, by norm_num⟩⟩
  · have P := mkParts hr hl (by linarith : 0 ≤ x)
    have hle := P.le
    have hlt := P.lt_succ
    have hn' : (0 : ℝ) ≤ ⌊x⌋ := by exact_mod_cast P.nonneg
    have heq := equalTo_mkv (C := F) (s := s) (t := false) hr P.rep P.frac hl P.lt P.frac_lt
    have hfl : IsFloor ⌊x⌋ x := ⟨⟨⌊x⌋, rfl⟩, hle, hlt⟩
    simp only [if_neg (ne_of_gt h0), toInteger_pos (le_of_lt h0) hlo (show x < (hi : ℝ) + 1 by linarith), Option.bind_some]
    unfold ifloorImpl iceilImpl
    rw [ofInt_mkv P.rep P.lt, heq, lt_mkv, lt_mkv]
    constructor
    · intro _
      have hc : decide (Close F x ⌊x⌋) = true ∨ (⌊x⌋ : ℝ) < x := by
        rcases eq_or_lt_of_le hle with e | e
        · left; rw [e]; exact decide_eq_true (close_self x)
        · right; linarith
      rw [if_pos hc]
      exact ⟨_, rfl, hfl⟩
    · intro ht
      by_cases hc : decide (Close F x ⌊x⌋) = true ∨ x < (⌊x⌋ : ℝ)
      · rw [if_pos hc]
        have hx : x = ⌊x⌋ := by
          rcases hc with hc | hc
          · rw [decide_eq_true_eq, close_pos P h0] at hc
            rcases ht with h | ⟨k, hk⟩ | h
            · linarith
            · rw [hk, Int.floor_intCast]
            · have := h _ hfl
              unfold tolerance at this
              linarith
          · linarith
        exact ⟨_, rfl, ⟨⌊x⌋, rfl⟩, by linarith, by linarith⟩
      · have hne : x ≠ ⌊x⌋ := by
          intro e; apply hc; left; rw [← e]; exact decide_eq_true (close_self x)
        have h3 : (⌊x⌋ : ℝ) < x := lt_of_le_of_ne hle (Ne.symm hne)
        have hhi2 : ⌊x⌋ + 1 ≤ hi := by
          have h3 : (⌊x⌋ : ℝ) < (hi : ℝ) := by linarith
          have : ⌊x⌋ < hi := by exact_mod_cast h3
          omega
        have hlo2 : lo ≤ ⌊x⌋ + 1 := by have := P.nonneg; omega
        rw [if_neg hc, inTo, if_pos ⟨hlo2, hhi2⟩]
        refine ⟨_, rfl, ?_⟩
        push_cast
        exact ⟨⟨⌊x⌋ + 1, by push_cast; rfl⟩, by linarith, by linarith⟩

example : ∃ n, iround Fmt.double true (-(2 ^ 31)) (2 ^ 31 - 1) (.num (-(7 / 2))) = some (.ret n) ∧ IsRound n (-(7 / 2)) :=
  C87_iround Fmt.double true _ _ (by norm_num) (by norm_num) (.num _) ⟨by norm_num, double_ex.1, double_ex.2⟩ rfl
    (by simp only [val]; norm_num) (by simp only [val]; norm_num)

/-- The `ifloor` of a small negative number and the `iceil` of a small positive number are 0 -/
theorem C87_ifloor_refuted (F : Fmt) (noerr : Bool) (lo hi : ℤ) (hlo : lo < 0) (hhi : 0 < hi) :
    (∃ v, F.Has v ∧ v.val < 0 ∧ ifloor F noerr lo hi v = some (.ret 0)) ∧
    (∃ v, F.Has v ∧ 0 < v.val ∧ iceil F noerr lo hi v = some (.ret 0)) := by
  have h2p := F.two_le_p
  have hpp : (0 : ℝ) < (2 : ℝ) ^ (1 - (F.p : ℤ)) := by positivity
  have hlt1 : (2 : ℝ) ^ (1 - (F.p : ℤ)) < 1 := by
    calc (2 : ℝ) ^ (1 - (F.p : ℤ)) < (2 : ℝ) ^ (0 : ℤ) := zpow_lt_zpow_right₀ (by norm_num) (by omega)
      _ = 1 := by simp
  have hr : Rep F.p F.emin ((2 : ℝ) ^ (1 - (F.p : ℤ))) :=
    Rep.two_zpow _ (by have := F.emin_le; omega) F.one_le_p
  have h1e := one_lt_emax F
  have hlo' : (lo : ℝ) ≤ -1 := by exact_mod_cast (by omega : lo ≤ -1)
  have hhi' : (1 : ℝ) ≤ hi := by exact_mod_cast hhi
  generalize hx : (2 : ℝ) ^ (1 - (F.p : ℤ)) = x at *
  have hl : |x| < (2 : ℝ) ^ F.emax := by rw [abs_of_pos hpp]; linarith
  have hfl : ⌊x⌋ = 0 := by rw [Int.floor_eq_zero_iff]; exact ⟨le_of_lt hpp, hlt1⟩
  have h0 : F.ofInt 0 = mkv false 0 := by
    have := ofInt_mkv (F := F) (n := 0) (by rw [Int.cast_zero]; exact Rep.zero) (by rw [Int.cast_zero, abs_zero]; positivity)
    simpa using this
  constructor
  · refine ⟨mkv true (-x), has_mkv hr.neg (by rwa [abs_neg]), by rw [val_mkv]; linarith, ?_⟩
    have P := mkParts (x := -(-x)) (F := F) (by rwa [neg_neg]) (by rwa [neg_neg]) (by linarith)
    have hc : Close F (-x) (-⌊-(-x)⌋) := by
      rw [close_neg P (by linarith), neg_neg, hfl, hx, abs_neg, abs_of_pos hpp, max_eq_right (by linarith)]
      simp
    rw [neg_neg, hfl, Int.cast_zero, neg_zero] at hc
    have ho : ¬ outside F lo hi (mkv true (-x)) := by
      rintro (h | h)
      · exact ofInt_not_lt hi hr.neg (by rwa [abs_neg]) (by linarith) h
      · exact not_lt_ofInt lo hr.neg (by rwa [abs_neg]) (by linarith) h
    have ec : ⌈-x⌉ = 0 := by rw [Int.ceil_neg, hfl]; rfl
    have heq := equalTo_mkv (C := F) (s := true) (t := false) (a := -x) (b := 0) hr.neg Rep.zero
      (by rw [sub_zero]; exact hr.neg) (by rwa [abs_neg]) (by rw [abs_zero]; positivity) (by rw [sub_zero, abs_neg]; exact hl)
    have hne : ¬ (-x = 0) := by linarith
    unfold ifloor
    rw [isFin_mkv, if_neg (by simp), zero_eq, eq_mkv, if_neg hne, if_neg ho, toInteger_neg (by linarith) (by omega) (by linarith),
      ec, Option.bind_some]
    unfold ifloorImpl
    rw [h0, heq, if_pos (.inl (decide_eq_true hc))]
    rfl
  · refine ⟨mkv false x, has_mkv hr hl, by rw [val_mkv]; linarith, ?_⟩
    have P := mkParts (x := x) (F := F) hr hl (by linarith)
    have hc : Close F x ⌊x⌋ := by
      rw [close_pos P (by linarith), hfl, hx, abs_of_pos hpp, max_eq_right (by linarith)]
      simp
    rw [hfl, Int.cast_zero] at hc
    have ho : ¬ outside F lo hi (mkv false x) := by
      rintro (h | h)
      · exact ofInt_not_lt hi hr hl (by linarith) h
      · exact not_lt_ofInt lo hr hl (by linarith) h
    have heq := equalTo_mkv (C := F) (s := false) (t := false) (a := x) (b := 0) hr Rep.zero
      (by rw [sub_zero]; exact hr) hl (by rw [abs_zero]; positivity) (by rw [sub_zero]; exact hl)
    have hne : ¬ (x = 0) := by linarith
    unfold iceil
    rw [isFin_mkv, if_neg (by simp), zero_eq, eq_mkv, if_neg hne, if_neg ho, toInteger_pos (by linarith) (by omega) (by linarith),
      hfl, Option.bind_some]
    unfold iceilImpl
    rw [h0, heq, if_pos (.inl (decide_eq_true hc))]
    rfl

/-- The test for a large argument misses the first integer beyond the type, if that is rounded to by the conversion of
the greatest integer, as for `int` and `float` or `long long` and `double`: the conversion is undefined -/
theorem C87_itrunc_refuted (F : Fmt) (k : ℕ) (hk : F.p + 2 ≤ k) (hm : (k : ℤ) < F.emax) (noerr : Bool) (lo : ℤ)
    (hlo : lo ≤ 0) :
    ∃ v, F.Has v ∧ v.val = 2 ^ k ∧ itrunc F noerr lo (2 ^ k - 1) v = none ∧ ifloor F noerr lo (2 ^ k - 1) v = none ∧
      iceil F noerr lo (2 ^ k - 1) v = none ∧ iround F noerr lo (2 ^ k - 1) v = none := by
  have hr : Rep F.p F.emin ((2 : ℝ) ^ k) := by
    have := Rep.two_zpow (p := F.p) (emin := F.emin) k (by have := F.emin_le_zero; omega) F.one_le_p
    exact_mod_cast this
  have hpos : (0 : ℝ) < (2 : ℝ) ^ k := by positivity
  have hl : |(2 : ℝ) ^ k| < (2 : ℝ) ^ F.emax := by
    rw [abs_of_pos hpos, ← zpow_natCast]
    exact zpow_lt_zpow_right₀ (by norm_num) hm
  have hU := ofInt_pred hk hm
  have hti : toInteger lo (2 ^ k - 1) (mkv false ((2 : ℝ) ^ k)) = none := by
    apply toInteger_none (le_of_lt hpos)
    push_cast; linarith
  have ho : ¬ outside F lo (2 ^ k - 1) (mkv false (2 ^ k)) := by
    rintro (h | h)
    · rw [hU, lt_mkv] at h; linarith
    · have : (lo : ℝ) ≤ 0 := by exact_mod_cast hlo
      exact not_lt_ofInt lo hr hl (by linarith) h
  have hz : ¬ (mkv false ((2 : ℝ) ^ k)).eq (.zero false) := by rw [zero_eq, eq_mkv]; linarith
  have hlt : ¬ (mkv false ((2 : ℝ) ^ k)).lt (.zero false) := by rw [zero_eq, lt_mkv]; linarith
  have hfin := isFin_mkv false ((2 : ℝ) ^ k)
  refine ⟨mkv false (2 ^ k), has_mkv hr hl, by rw [val_mkv], ?_, ?_, ?_, ?_⟩
  · simp [itrunc, hfin, hz, ho, hti]
  · simp [ifloor, hfin, hz, ho, hti]
  · simp [iceil, hfin, hz, ho, hti]
  · cases noerr <;> simp [iround, hfin, hz, ho, hti, hlt]

example : Fmt.double.p + 2 ≤ 63 ∧ (63 : ℤ) < Fmt.double.emax ∧ Fmt.float.p + 2 ≤ 31 := by
  simp [Fmt.double, Fmt.float, ieee]

end Sprout
