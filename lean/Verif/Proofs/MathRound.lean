import Verif.Model.MathRound
import Verif.Spec.Rounding
import Verif.Proofs.Float

/-! # Lemmas on rounding to integers -/

namespace Sprout

open Classical

namespace FV

/-- the value of a real number, with a sign for zero -/
noncomputable def mkv (s : Bool) (r : ℝ) : FV := if r = 0 then .zero s else .num r

theorem mkv_zero (s : Bool) : mkv s 0 = .zero s := by simp [mkv]

theorem mkv_num (s : Bool) {r : ℝ} (h : r ≠ 0) : mkv s r = .num r := by simp [mkv, h]

@[simp] theorem val_mkv (s : Bool) (r : ℝ) : (mkv s r).val = r := by
  unfold mkv; split <;> simp_all [val]

@[simp] theorem isFin_mkv (s : Bool) (r : ℝ) : (mkv s r).isFin = true := by
  unfold mkv; split <;> rfl

theorem sgn_mkv (s : Bool) (r : ℝ) : (mkv s r).sgn = if r = 0 then s else decide (r < 0) := by
  unfold mkv; split <;> rfl

@[simp] theorem neg_mkv (s : Bool) (r : ℝ) : (mkv s r).neg = mkv (!s) (-r) := by
  unfold mkv; split <;> simp_all [neg]

@[simp] theorem abs_mkv (s : Bool) (r : ℝ) : (mkv s r).abs = mkv false |r| := by
  unfold mkv; split <;> simp_all [abs]

@[simp] theorem lt_mkv (s t : Bool) (a b : ℝ) : (mkv s a).lt (mkv t b) ↔ a < b := by
  unfold mkv; split <;> split <;> simp_all [lt, val]

@[simp] theorem eq_mkv (s t : Bool) (a b : ℝ) : (mkv s a).eq (mkv t b) ↔ a = b := by
  unfold mkv; split <;> split <;> simp_all [eq, val]

theorem le_mkv (s t : Bool) (a b : ℝ) : (mkv s a).le (mkv t b) ↔ a ≤ b := by
  unfold le; rw [lt_mkv, eq_mkv, le_iff_lt_or_eq]

theorem eq_mkv_of_isFin {v : FV} (h : v.isFin) (hv : ∀ x, v = .num x → x ≠ 0) : v = mkv v.sgn v.val := by
  cases v with
  | nan => simp [isFin] at h
  | inf _ => simp [isFin] at h
  | zero s => simp [sgn, val, mkv]
  | num x => simp [val, mkv, hv x rfl]

theorem one_eq : FV.num 1 = mkv false 1 := by simp [mkv]

theorem zero_eq (s : Bool) : FV.zero s = mkv s 0 := by simp [mkv]

end FV

open FV

namespace Fmt

variable {F C : Fmt}

theorem ofReal_mkv {s : Bool} {r : ℝ} (h : Rep F.p F.emin r) (hb : |r| < (2 : ℝ) ^ F.emax) :
    F.ofReal s r = mkv s r := ofReal_rep h hb

theorem cvt_mkv {s : Bool} {r : ℝ} (h : Rep F.p F.emin r) (hb : |r| < (2 : ℝ) ^ F.emax) :
    F.cvt (mkv s r) = mkv s r := by
  rcases eq_or_ne r 0 with rfl | h0
  · rw [mkv_zero]; rfl
  · rw [mkv_num s h0, cvt_num h hb h0]

theorem add_mkv {s t : Bool} {a b : ℝ} (h : Rep F.p F.emin (a + b)) (hb : |a + b| < (2 : ℝ) ^ F.emax) :
    ∃ u, F.add (mkv s a) (mkv t b) = mkv u (a + b) := by
  rcases eq_or_ne a 0 with rfl | ha <;> rcases eq_or_ne b 0 with rfl | hb0
  · simp only [mkv_zero, add, add_zero]; exact ⟨_, rfl⟩
  · rw [mkv_zero, mkv_num t hb0]
    exact ⟨_, ofReal_mkv h hb⟩
  · rw [mkv_zero, mkv_num s ha]
    exact ⟨_, ofReal_mkv h hb⟩
  · rw [mkv_num s ha, mkv_num t hb0]
    exact ⟨_, ofReal_mkv h hb⟩

theorem sub_mkv {s t : Bool} {a b : ℝ} (h : Rep F.p F.emin (a - b)) (hb : |a - b| < (2 : ℝ) ^ F.emax) :
    ∃ u, F.sub (mkv s a) (mkv t b) = mkv u (a - b) := by
  unfold sub
  rw [neg_mkv, sub_eq_add_neg]
  rw [sub_eq_add_neg] at h hb
  exact add_mkv h hb

theorem mul_mkv {s t : Bool} {a b : ℝ} (h : Rep F.p F.emin (a * b)) (hb : |a * b| < (2 : ℝ) ^ F.emax) :
    F.mul (mkv s a) (mkv t b) = mkv ((mkv s a).sgn != (mkv t b).sgn) (a * b) := by
  rcases eq_or_ne a 0 with rfl | ha <;> rcases eq_or_ne b 0 with rfl | hb0
  · rw [mkv_zero, mkv_zero]
    exact ofReal_mkv h hb
  · rw [mkv_zero, mkv_num t hb0]
    exact ofReal_mkv h hb
  · rw [mkv_zero, mkv_num s ha]
    exact ofReal_mkv h hb
  · rw [mkv_num s ha, mkv_num t hb0]
    exact ofReal_mkv h hb

theorem has_mkv {s : Bool} {r : ℝ} (h : Rep F.p F.emin r) (hb : |r| < (2 : ℝ) ^ F.emax) : F.Has (mkv s r) := by
  rcases eq_or_ne r 0 with rfl | h0
  · rw [mkv_zero]; trivial
  · rw [mkv_num s h0]; exact ⟨h0, h, hb⟩

theorem Has.rep {v : FV} (h : F.Has v) : Rep F.p F.emin v.val := by
  cases v
  case num x => exact h.2.1
  all_goals exact Rep.zero

theorem Has.lt {v : FV} (h : F.Has v) : |v.val| < (2 : ℝ) ^ F.emax := by
  cases v
  case num x => exact h.2.2
  all_goals simp only [val, abs_zero]; positivity

theorem Has.eq_mkv {v : FV} (h : F.Has v) (hf : v.isFin) : v = mkv v.sgn v.val :=
  eq_mkv_of_isFin hf (by rintro x rfl; exact h.1)

/-- an integer is not below a smaller value, even when converted -/
theorem ofInt_not_lt {s : Bool} {x : ℝ} (n : ℤ) (hx : Rep F.p F.emin x) (hb : |x| < (2 : ℝ) ^ F.emax) (h : x ≤ n) :
    ¬ (F.ofInt n).lt (mkv s x) := by
  unfold ofInt ofReal
  have hr := le_rnd h hx
  split
  · rename_i h0
    rw [zero_eq, lt_mkv]; linarith
  · rename_i h0
    split
    · rename_i hb'
      have : ¬ (n : ℝ) < 0 := by
        intro hn
        have h1 := rnd_le (F := F) (le_of_lt hn) Rep.zero
        rw [abs_of_nonpos h1] at hb'
        rw [abs_of_nonpos (by linarith)] at hb
        linarith
      simp only [this, decide_false]
      unfold mkv
      split <;> simp [lt]
    · rw [← mkv_num false h0, lt_mkv]; linarith

/-- an integer is not above a greater value, even when converted -/
theorem not_lt_ofInt {s : Bool} {x : ℝ} (n : ℤ) (hx : Rep F.p F.emin x) (hb : |x| < (2 : ℝ) ^ F.emax) (h : n ≤ x) :
    ¬ (mkv s x).lt (F.ofInt n) := by
  unfold ofInt ofReal
  have hr := rnd_le h hx
  split
  · rename_i h0
    rw [zero_eq, lt_mkv]; linarith
  · rename_i h0
    split
    · rename_i hb'
      have : (n : ℝ) < 0 := by
        by_contra hn
        rw [not_lt] at hn
        have h1 := rnd_nonneg (F := F) hn
        rw [abs_of_nonneg h1] at hb'
        rw [abs_of_nonneg (by linarith)] at hb
        linarith
      simp only [this, decide_true]
      unfold mkv
      split <;> simp [lt]
    · rw [← mkv_num false h0, lt_mkv]; linarith

theorem ofInt_mkv {n : ℤ} (h : Rep F.p F.emin (n : ℝ)) (hb : |(n : ℝ)| < (2 : ℝ) ^ F.emax) : F.ofInt n = mkv false n :=
  ofReal_mkv h hb

theorem floor_bound {x : ℝ} (hx : 0 ≤ x) : |(⌊x⌋ : ℝ)| ≤ |x| := by
  have h0 : (0 : ℝ) ≤ ⌊x⌋ := by exact_mod_cast Int.floor_nonneg.2 hx
  rw [abs_of_nonneg h0, abs_of_nonneg hx]
  exact Int.floor_le x

theorem rep_num {x : ℝ} (m e : ℤ) (hm : |m| < 2 ^ F.p) (he : F.emin ≤ e) (hx : x = m * (2 : ℝ) ^ e) :
    Rep F.p F.emin x := ⟨m, e, he, hm, hx⟩

theorem lt_num {x : ℝ} (m e : ℤ) (hm : |m| < 2 ^ F.p) (he : (F.p : ℤ) + e ≤ F.emax) (hx : x = m * (2 : ℝ) ^ e) :
    |x| < (2 : ℝ) ^ F.emax := by
  have h1 : |(m : ℝ)| < (2 : ℝ) ^ (F.p : ℤ) := by rw [zpow_natCast]; exact_mod_cast hm
  rw [hx, abs_mul, abs_of_pos (show (0 : ℝ) < (2 : ℝ) ^ e by positivity)]
  calc |(m : ℝ)| * (2 : ℝ) ^ e < (2 : ℝ) ^ (F.p : ℤ) * (2 : ℝ) ^ e := mul_lt_mul_of_pos_right h1 (by positivity)
    _ = (2 : ℝ) ^ ((F.p : ℤ) + e) := by rw [zpow_add₀ (by norm_num)]
    _ ≤ _ := zpow_le_zpow_right₀ (by norm_num) he

/-- a value of the type is a real number and a sign -/
theorem Has.cases {v : FV} (h : F.Has v) (hf : v.isFin) : ∃ s x, v = mkv s x ∧ Rep F.p F.emin x ∧
    |x| < (2 : ℝ) ^ F.emax := ⟨v.sgn, v.val, h.eq_mkv hf, h.rep, h.lt⟩

end Fmt

namespace MathRound

open Fmt

variable {F C : Fmt}

theorem toInteger_pos {s : Bool} {lo hi : ℤ} {x : ℝ} (h0 : 0 ≤ x) (hl : lo ≤ 0) (h : x < hi + 1) :
    toInteger lo hi (mkv s x) = some ⌊x⌋ := by
  have e : toInteger lo hi (mkv s x)
      = if (mkv s x).val < 0 then (if lo ≤ ⌈(mkv s x).val⌉ ∧ ⌈(mkv s x).val⌉ ≤ hi then some ⌈(mkv s x).val⌉ else none)
        else (if lo ≤ ⌊(mkv s x).val⌋ ∧ ⌊(mkv s x).val⌋ ≤ hi then some ⌊(mkv s x).val⌋ else none) := by
    unfold mkv; split <;> rfl
  rw [e, val_mkv, if_neg (not_lt.2 h0), if_pos]
  have h1 : 0 ≤ ⌊x⌋ := Int.floor_nonneg.2 h0
  have h2 : ⌊x⌋ < hi + 1 := by
    rw [Int.floor_lt]; push_cast; exact h
  omega

theorem toInteger_neg {s : Bool} {lo hi : ℤ} {x : ℝ} (h0 : x < 0) (hh : 0 ≤ hi) (h : lo - 1 < x) :
    toInteger lo hi (mkv s x) = some ⌈x⌉ := by
  have e : toInteger lo hi (mkv s x)
      = if (mkv s x).val < 0 then (if lo ≤ ⌈(mkv s x).val⌉ ∧ ⌈(mkv s x).val⌉ ≤ hi then some ⌈(mkv s x).val⌉ else none)
        else (if lo ≤ ⌊(mkv s x).val⌋ ∧ ⌊(mkv s x).val⌋ ≤ hi then some ⌊(mkv s x).val⌋ else none) := by
    unfold mkv; split <;> rfl
  rw [e, val_mkv, if_pos h0, if_pos]
  have h1 : ⌈x⌉ ≤ 0 := by rw [Int.ceil_le]; simpa using le_of_lt h0
  have h2 : lo - 1 < ⌈x⌉ := by
    rw [Int.lt_ceil]; push_cast; exact h
  omega

theorem toInteger_none {s : Bool} {lo hi : ℤ} {x : ℝ} (h0 : 0 ≤ x) (h : hi + 1 ≤ x) :
    toInteger lo hi (mkv s x) = none := by
  have e : toInteger lo hi (mkv s x)
      = if (mkv s x).val < 0 then (if lo ≤ ⌈(mkv s x).val⌉ ∧ ⌈(mkv s x).val⌉ ≤ hi then some ⌈(mkv s x).val⌉ else none)
        else (if lo ≤ ⌊(mkv s x).val⌋ ∧ ⌊(mkv s x).val⌋ ≤ hi then some ⌊(mkv s x).val⌋ else none) := by
    unfold mkv; split <;> rfl
  rw [e, val_mkv, if_neg (not_lt.2 h0), if_neg]
  have h2 : hi + 1 ≤ ⌊x⌋ := by
    rw [Int.le_floor]; push_cast; exact h
  omega

/-- `equal_to`, where the difference is exact -/
def Close (C : Fmt) (a b : ℝ) : Prop := |a - b| ≤ (2 : ℝ) ^ (1 - (C.p : ℤ)) * Max.max (Max.max |a| |b|) 1

theorem max_mkv (a b : ℝ) : max (mkv false a) (mkv false b) = mkv false (Max.max a b) := by
  unfold max
  rw [lt_mkv]
  split
  · rw [max_eq_right (le_of_lt ‹_›)]
  · rw [max_eq_left (not_lt.1 ‹_›)]

theorem rep_eps_mul {M : ℝ} (h : Rep C.p C.emin M) (h1 : 1 ≤ M) :
    Rep C.p C.emin ((2 : ℝ) ^ (1 - (C.p : ℤ)) * M) := by
  obtain ⟨m, e, h2, h3, h4⟩ := h
  have he : 1 - (C.p : ℤ) ≤ e := by
    by_contra hc
    have hm : (m : ℝ) < 2 ^ C.p := lt_of_le_of_lt (le_abs_self _) (by exact_mod_cast h3)
    have : M < 1 := by
      calc M = m * (2 : ℝ) ^ e := h4
        _ < 2 ^ C.p * (2 : ℝ) ^ e := by exact mul_lt_mul_of_pos_right hm (by positivity)
        _ = (2 : ℝ) ^ ((C.p : ℤ) + e) := by rw [zpow_add₀ (by norm_num), zpow_natCast]
        _ ≤ (2 : ℝ) ^ (0 : ℤ) := zpow_le_zpow_right₀ (by norm_num) (by omega)
        _ = 1 := by simp
    linarith
  have := C.emin_le
  rw [mul_comm]
  exact Rep.mul_zpow m e h4 h3 _ (by omega)

theorem Rep.max {p : ℕ} {emin : ℤ} {a b : ℝ} (ha : Rep p emin a) (hb : Rep p emin b) : Rep p emin (Max.max a b) := by
  rcases max_choice a b with e | e <;> rw [e] <;> assumption

theorem equalTo_mkv {s t : Bool} {a b : ℝ} (ha : Rep C.p C.emin a) (hb : Rep C.p C.emin b)
    (hab : Rep C.p C.emin (a - b)) (ha' : |a| < (2 : ℝ) ^ C.emax) (hb' : |b| < (2 : ℝ) ^ C.emax)
    (hab' : |a - b| < (2 : ℝ) ^ C.emax) : equalTo C (mkv s a) (mkv t b) = decide (Close C a b) := by
  unfold equalTo Close
  obtain ⟨u, hu⟩ := sub_mkv (s := s) (t := t) hab hab'
  have heps : C.eps = mkv false ((2 : ℝ) ^ (1 - (C.p : ℤ))) := (mkv_num _ (by positivity)).symm
  have hM1 : 1 ≤ Max.max (Max.max |a| |b|) 1 := le_max_right _ _
  have hMr : Rep C.p C.emin (Max.max (Max.max |a| |b|) 1) := Rep.max (Rep.max ha.abs hb.abs) C.rep_one
  have hMe : Max.max (Max.max |a| |b|) 1 < (2 : ℝ) ^ C.emax := by
    refine max_lt (max_lt ha' hb') ?_
    have h1 := C.p_lt_emax
    have h2 := C.two_le_p
    calc (1 : ℝ) = (2 : ℝ) ^ (0 : ℤ) := by simp
      _ < _ := zpow_lt_zpow_right₀ (by norm_num) (by omega)
  have hp : (2 : ℝ) ^ (1 - (C.p : ℤ)) ≤ 1 := by
    have h2 := C.two_le_p
    calc (2 : ℝ) ^ (1 - (C.p : ℤ)) ≤ (2 : ℝ) ^ (0 : ℤ) := zpow_le_zpow_right₀ (by norm_num) (by omega)
      _ = 1 := by simp
  have hp0 : (0 : ℝ) < (2 : ℝ) ^ (1 - (C.p : ℤ)) := by positivity
  have hr := rep_eps_mul hMr hM1
  generalize hM : Max.max (Max.max |a| |b|) 1 = M at *
  rw [hu, heps, one_eq]
  simp only [abs_mkv, max_mkv, hM]
  rw [mul_mkv hr, le_mkv, eq_mkv]
  · congr 1
    apply propext
    constructor
    · rintro (rfl | h)
      · simp only [sub_self, abs_zero]
        nlinarith
      · exact h
    · exact Or.inr
  · rw [abs_of_pos (by nlinarith)]
    nlinarith

/-- the parts of a positive value -/
structure Parts (F : Fmt) (x : ℝ) : Prop where
  rep : Rep F.p F.emin (⌊x⌋ : ℝ)
  lt : |(⌊x⌋ : ℝ)| < (2 : ℝ) ^ F.emax
  nonneg : 0 ≤ ⌊x⌋
  frac : Rep F.p F.emin (x - ⌊x⌋)
  frac_lt : |x - ⌊x⌋| < (2 : ℝ) ^ F.emax
  succ : x ≠ ⌊x⌋ → Rep F.p F.emin (⌊x⌋ + 1 : ℝ)
  succ_lt : x ≠ ⌊x⌋ → |(⌊x⌋ + 1 : ℝ)| < (2 : ℝ) ^ F.emax
  le : (⌊x⌋ : ℝ) ≤ x
  lt_succ : x < ⌊x⌋ + 1

theorem one_lt_emax (F : Fmt) : (1 : ℝ) < (2 : ℝ) ^ F.emax := by
  have h1 := F.p_lt_emax
  calc (1 : ℝ) = (2 : ℝ) ^ (0 : ℤ) := by simp
    _ < _ := zpow_lt_zpow_right₀ (by norm_num) (by omega)

theorem mkParts {x : ℝ} (h : Rep F.p F.emin x) (hb : |x| < (2 : ℝ) ^ F.emax) (h0 : 0 ≤ x) : Parts F x := by
  obtain ⟨h1, h2, h3⟩ := h.parts h0 F.emin_le_zero F.one_le_p
  have hn : 0 ≤ ⌊x⌋ := Int.floor_nonneg.2 h0
  have hl := Int.floor_le x
  have hlt := Int.lt_floor_add_one x
  have hn' : (0 : ℝ) ≤ ⌊x⌋ := by exact_mod_cast hn
  refine ⟨h1, lt_of_le_of_lt (floor_bound h0) hb, hn, h2, ?_, fun h => (h3 h).1, fun h => ?_, hl, hlt⟩
  · rw [abs_of_nonneg (by linarith)]
    have := one_lt_emax F
    linarith
  · apply two_pow_le_emax
    rw [abs_of_nonneg (by linarith)]
    exact (h3 h).2

theorem not_isLarge {s : Bool} {x : ℝ} (h : Rep F.p F.emin x) (hb : |x| < (2 : ℝ) ^ F.emax) (hx : |x| ≤ maxU) :
    ¬ isLarge F (mkv s x) := by
  unfold isLarge
  rw [abs_le] at hx
  rintro (h' | h')
  · exact ofInt_not_lt maxU h hb hx.2 h'
  · rw [neg_mkv] at h'
    exact ofInt_not_lt maxU h.neg (by rwa [abs_neg]) (by linarith) h'

theorem isLarge_of {s : Bool} {x : ℝ} (hb : |x| < (2 : ℝ) ^ F.emax) (hx : 2 ^ 64 < |x|) :
    isLarge F (mkv s x) := by
  have hm : (64 : ℤ) < F.emax := by
    by_contra hc
    have : (2 : ℝ) ^ F.emax ≤ (2 : ℝ) ^ (64 : ℤ) := zpow_le_zpow_right₀ (by norm_num) (by omega)
    have e : (2 : ℝ) ^ (64 : ℤ) = 2 ^ 64 := by norm_cast
    rw [e] at this
    linarith
  have hr : Rep F.p F.emin ((2 : ℝ) ^ 64) := by
    have := Rep.two_zpow (p := F.p) (emin := F.emin) 64 (by have := F.emin_le_zero; omega) F.one_le_p
    exact_mod_cast this
  have hmU : ((maxU : ℤ) : ℝ) ≤ 2 ^ 64 := by unfold maxU; norm_num
  have h1 : F.rnd maxU ≤ 2 ^ 64 := rnd_le hmU hr
  have h0 : (1 : ℝ) ≤ F.rnd maxU := le_rnd (by unfold maxU; norm_num) F.rep_one
  have hU : F.ofInt maxU = mkv false (F.rnd maxU) := by
    unfold ofInt ofReal
    rw [mkv_num _ (by linarith), if_neg (by linarith), if_neg]
    rw [abs_of_nonneg (by linarith), not_le]
    refine lt_of_le_of_lt h1 ?_
    have : (2 : ℝ) ^ (64 : ℤ) < (2 : ℝ) ^ F.emax := zpow_lt_zpow_right₀ (by norm_num) hm
    exact_mod_cast this
  unfold isLarge
  rw [hU, neg_mkv, lt_mkv, lt_mkv]
  rcases abs_choice x with e | e <;> rw [e] at hx
  · left; linarith
  · right; linarith

theorem floorImpl_pos {s : Bool} {x : ℝ} (h : Rep F.p F.emin x) (hb : |x| < (2 : ℝ) ^ F.emax) (h0 : 0 < x)
    (hx : x < maxU + 1) : floorImpl F (mkv s x) = some (mkv false ⌊x⌋) := by
  have P := mkParts h hb (le_of_lt h0)
  unfold floorImpl
  rw [zero_eq, lt_mkv, if_neg (by linarith), toInteger_pos (le_of_lt h0) (le_refl _) hx, Option.map_some,
    ofInt_mkv P.rep P.lt]

theorem close_self (x : ℝ) : Close F x x := by
  unfold Close
  have hp0 : (0 : ℝ) < (2 : ℝ) ^ (1 - (F.p : ℤ)) := by positivity
  have hM1 : 1 ≤ Max.max (Max.max |x| |x|) 1 := le_max_right _ _
  simp only [sub_self, abs_zero]
  nlinarith

theorem floorImpl_neg {s : Bool} {x : ℝ} (h : Rep F.p F.emin x) (hb : |x| < (2 : ℝ) ^ F.emax) (h0 : x < 0)
    (hx : -x < maxU + 1) : ∃ u, floorImpl F (mkv s x) = some (if Close F x (-⌊-x⌋) then mkv true (-⌊-x⌋)
      else mkv u (-(⌊-x⌋ + 1))) := by
  have hb' : |-x| < (2 : ℝ) ^ F.emax := by rwa [abs_neg]
  have P := mkParts h.neg hb' (by linarith)
  have e1 : floorImpl F (mkv s x) = some (floorImpl1 F (mkv s x) (mkv true (-⌊-x⌋))) := by
    unfold floorImpl
    rw [zero_eq, lt_mkv, if_pos (by linarith), neg_mkv, toInteger_pos (by linarith) (le_refl _) hx, Option.map_some,
      ofInt_mkv P.rep P.lt, neg_mkv]
    simp
  have e3 : x - -(⌊-x⌋ : ℝ) = -(-x - ⌊-x⌋) := by ring
  rw [e1]
  unfold floorImpl1
  rw [equalTo_mkv h P.rep.neg (by rw [e3]; exact P.frac.neg) hb (by rw [abs_neg]; exact P.lt)
    (by rw [e3, abs_neg]; exact P.frac_lt)]
  by_cases hc : Close F x (-⌊-x⌋)
  · exact ⟨true, by rw [if_pos (decide_eq_true hc), if_pos hc]⟩
  · have hne : -x ≠ ⌊-x⌋ := by
      intro e
      apply hc
      rw [← e, neg_neg]
      exact close_self x
    have e2 : -(⌊-x⌋ : ℝ) - 1 = -(⌊-x⌋ + 1) := by ring
    obtain ⟨u, hu⟩ := sub_mkv (F := F) (s := true) (t := false) (a := -⌊-x⌋) (b := 1)
      (by rw [e2]; exact (P.succ hne).neg) (by rw [e2, abs_neg]; exact P.succ_lt hne)
    refine ⟨u, ?_⟩
    rw [if_neg (Bool.not_eq_true _ ▸ decide_eq_false hc), if_neg hc, one_eq, hu, e2]

theorem ceilImpl_neg {s : Bool} {x : ℝ} (h : Rep F.p F.emin x) (hb : |x| < (2 : ℝ) ^ F.emax) (h0 : x < 0)
    (hx : -x < maxU + 1) : ceilImpl F (mkv s x) = some (mkv true (-⌊-x⌋)) := by
  have hb' : |-x| < (2 : ℝ) ^ F.emax := by rwa [abs_neg]
  have P := mkParts h.neg hb' (by linarith)
  unfold ceilImpl
  rw [zero_eq, lt_mkv, if_pos (by linarith), neg_mkv, toInteger_pos (by linarith) (le_refl _) hx, Option.map_some,
    ofInt_mkv P.rep P.lt, neg_mkv]
  simp

theorem ceilImpl_pos {s : Bool} {x : ℝ} (h : Rep F.p F.emin x) (hb : |x| < (2 : ℝ) ^ F.emax) (h0 : 0 < x)
    (hx : x < maxU + 1) : ∃ u, ceilImpl F (mkv s x) = some (if Close F x ⌊x⌋ then mkv false ⌊x⌋
      else mkv u (⌊x⌋ + 1)) := by
  have P := mkParts h hb (le_of_lt h0)
  have e1 : ceilImpl F (mkv s x) = some (ceilImpl1 F (mkv s x) (mkv false ⌊x⌋)) := by
    unfold ceilImpl
    rw [zero_eq, lt_mkv, if_neg (by linarith), toInteger_pos (le_of_lt h0) (le_refl _) hx, Option.map_some,
      ofInt_mkv P.rep P.lt]
  rw [e1]
  unfold ceilImpl1
  rw [equalTo_mkv h P.rep P.frac hb P.lt P.frac_lt]
  by_cases hc : Close F x ⌊x⌋
  · exact ⟨true, by rw [if_pos (decide_eq_true hc), if_pos hc]⟩
  · have hne : x ≠ ⌊x⌋ := by
      intro e
      apply hc
      rw [← e]
      exact close_self x
    obtain ⟨u, hu⟩ := add_mkv (F := F) (s := false) (t := false) (a := ⌊x⌋) (b := 1) (P.succ hne) (P.succ_lt hne)
    refine ⟨u, ?_⟩
    rw [if_neg (Bool.not_eq_true _ ▸ decide_eq_false hc), if_neg hc, one_eq, hu]

theorem half_eq : half = mkv false (1 / 2) := (mkv_num _ (by norm_num)).symm

theorem roundImpl_pos {s : Bool} {x : ℝ} (h : Rep F.p F.emin x) (hb : |x| < (2 : ℝ) ^ F.emax) (h0 : 0 < x)
    (hx : x < maxU + 1) : ∃ u, roundImpl F (mkv s x) = some (if x - ⌊x⌋ < 1 / 2 then mkv false ⌊x⌋
      else mkv u (⌊x⌋ + 1)) := by
  have P := mkParts h hb (le_of_lt h0)
  have e1 : roundImpl F (mkv s x) = some (roundPositive F (mkv s x) (mkv false ⌊x⌋)) := by
    unfold roundImpl
    rw [zero_eq, lt_mkv, if_neg (by linarith), toInteger_pos (le_of_lt h0) (le_refl _) hx, Option.map_some,
      ofInt_mkv P.rep P.lt]
  rw [e1]
  unfold roundPositive
  obtain ⟨v, hv⟩ := sub_mkv (F := F) (s := s) (t := false) P.frac P.frac_lt
  rw [hv, half_eq, lt_mkv]
  by_cases hc : x - ⌊x⌋ < 1 / 2
  · exact ⟨true, by rw [if_pos hc, if_pos hc]⟩
  · have hne : x ≠ ⌊x⌋ := by
      intro e
      apply hc
      rw [← e]
      norm_num
    obtain ⟨u, hu⟩ := add_mkv (F := F) (s := false) (t := false) (a := ⌊x⌋) (b := 1) (P.succ hne) (P.succ_lt hne)
    refine ⟨u, ?_⟩
    rw [if_neg hc, if_neg hc, one_eq, hu]

theorem roundImpl_neg {s : Bool} {x : ℝ} (h : Rep F.p F.emin x) (hb : |x| < (2 : ℝ) ^ F.emax) (h0 : x < 0)
    (hx : -x < maxU + 1) : ∃ u, roundImpl F (mkv s x) = some (if -x - ⌊-x⌋ < 1 / 2 then mkv true (-⌊-x⌋)
      else mkv u (-(⌊-x⌋ + 1))) := by
  have hb' : |-x| < (2 : ℝ) ^ F.emax := by rwa [abs_neg]
  have P := mkParts h.neg hb' (by linarith)
  have e1 : roundImpl F (mkv s x) = some (roundNegative F (mkv s x) (mkv true (-⌊-x⌋))) := by
    unfold roundImpl
    rw [zero_eq, lt_mkv, if_pos (by linarith), neg_mkv, toInteger_pos (by linarith) (le_refl _) hx, Option.map_some,
      ofInt_mkv P.rep P.lt, neg_mkv]
    simp
  have e3 : -(⌊-x⌋ : ℝ) - x = -x - ⌊-x⌋ := by ring
  rw [e1]
  unfold roundNegative
  obtain ⟨v, hv⟩ := sub_mkv (F := F) (s := true) (t := s) (a := -⌊-x⌋) (b := x) (by rw [e3]; exact P.frac)
    (by rw [e3]; exact P.frac_lt)
  rw [hv, half_eq, lt_mkv, e3]
  by_cases hc : -x - ⌊-x⌋ < 1 / 2
  · exact ⟨true, by rw [if_pos hc, if_pos hc]⟩
  · have hne : -x ≠ ⌊-x⌋ := by
      intro e
      apply hc
      rw [← e]
      norm_num
    have e2 : -(⌊-x⌋ : ℝ) - 1 = -(⌊-x⌋ + 1) := by ring
    obtain ⟨u, hu⟩ := sub_mkv (F := F) (s := true) (t := false) (a := -⌊-x⌋) (b := 1)
      (by rw [e2]; exact (P.succ hne).neg) (by rw [e2, abs_neg]; exact P.succ_lt hne)
    refine ⟨u, ?_⟩
    rw [if_neg hc, if_neg hc, one_eq, hu, e2]

/-! ### Reduction of the functions to their implementation -/

theorem mkv_ne_nan (s : Bool) (x : ℝ) : mkv s x ≠ .nan := by unfold mkv; split <;> simp

theorem mkv_eq_inf (s t : Bool) (x : ℝ) : ¬ (mkv s x).eq (.inf t) := by unfold mkv; split <;> simp [FV.eq]

theorem floor_mkv {noerr s : Bool} {x : ℝ} (h0 : x ≠ 0) (hl : ¬ isLarge F (mkv s x)) :
    floor F C noerr (mkv s x) = (floorImpl C (C.cvt (mkv s x))).map fun r => .ret (F.cvt r) := by
  unfold floor
  rw [if_neg (mkv_ne_nan s x), if_neg (mkv_eq_inf s _ x), if_neg (mkv_eq_inf s _ x), zero_eq, eq_mkv, if_neg h0, if_neg hl]

theorem ceil_mkv {noerr s : Bool} {x : ℝ} (h0 : x ≠ 0) (hl : ¬ isLarge F (mkv s x)) :
    ceil F C noerr (mkv s x) = (ceilImpl C (C.cvt (mkv s x))).map fun r => .ret (F.cvt r) := by
  unfold ceil
  rw [if_neg (mkv_ne_nan s x), if_neg (mkv_eq_inf s _ x), if_neg (mkv_eq_inf s _ x), zero_eq, eq_mkv, if_neg h0, if_neg hl]

theorem round_mkv {noerr s : Bool} {x : ℝ} (h0 : x ≠ 0) (hl : ¬ isLarge F (mkv s x)) :
    round F C noerr (mkv s x) = (roundImpl C (C.cvt (mkv s x))).map fun r => .ret (F.cvt r) := by
  unfold round
  rw [if_neg (mkv_ne_nan s x), if_neg (mkv_eq_inf s _ x), if_neg (mkv_eq_inf s _ x), zero_eq, eq_mkv, if_neg h0, if_neg hl]

theorem trunc_mkv {noerr s : Bool} {x : ℝ} (h0 : x ≠ 0) (hl : ¬ isLarge F (mkv s x)) :
    trunc F noerr (mkv s x) = if x < 0 then (toInteger 0 maxU (mkv (!s) (-x))).map fun n => .ret (F.ofInt n).neg
      else (toInteger 0 maxU (mkv s x)).map fun n => .ret (F.ofInt n) := by
  unfold trunc
  rw [if_neg (mkv_ne_nan s x), if_neg (mkv_eq_inf s _ x), if_neg (mkv_eq_inf s _ x), zero_eq, eq_mkv, if_neg h0, if_neg hl,
    lt_mkv, neg_mkv]

theorem trunc_pos {noerr s : Bool} {x : ℝ} (h : Rep F.p F.emin x) (hb : |x| < (2 : ℝ) ^ F.emax) (h0 : 0 < x)
    (hx : x ≤ maxU) : trunc F noerr (mkv s x) = some (.ret (mkv false ⌊x⌋)) := by
  have P := mkParts h hb (le_of_lt h0)
  rw [trunc_mkv (ne_of_gt h0) (not_isLarge h hb (by rwa [abs_of_pos h0])), if_neg (by linarith),
    toInteger_pos (le_of_lt h0) (le_refl _) (by linarith), Option.map_some, ofInt_mkv P.rep P.lt]

theorem trunc_neg {noerr s : Bool} {x : ℝ} (h : Rep F.p F.emin x) (hb : |x| < (2 : ℝ) ^ F.emax) (h0 : x < 0)
    (hx : -x ≤ maxU) : trunc F noerr (mkv s x) = some (.ret (mkv true (-⌊-x⌋))) := by
  have hb' : |-x| < (2 : ℝ) ^ F.emax := by rwa [abs_neg]
  have P := mkParts h.neg hb' (by linarith)
  rw [trunc_mkv (ne_of_lt h0) (not_isLarge h hb (by rwa [abs_of_neg h0])), if_pos h0,
    toInteger_pos (by linarith) (le_refl _) (by linarith), Option.map_some, ofInt_mkv P.rep P.lt, neg_mkv]
  simp

/-! ### Results -/

theorem sgn_neg_int (s : Bool) {x : ℝ} {n : ℤ} (h0 : x < 0) (hn : 0 ≤ n) : (mkv true (-(n : ℝ))).sgn = (mkv s x).sgn := by
  have hn' : (0 : ℝ) ≤ n := by exact_mod_cast hn
  rw [sgn_mkv, sgn_mkv, if_neg (ne_of_lt h0)]
  split
  · simp [h0]
  · rename_i hne
    have : -(n : ℝ) < 0 := lt_of_le_of_ne (by linarith) hne
    simp [h0, this]

theorem sgn_pos_int (s : Bool) {x : ℝ} {n : ℤ} (h0 : 0 < x) (hn : 0 ≤ n) : (mkv false (n : ℝ)).sgn = (mkv s x).sgn := by
  have hn' : (0 : ℝ) ≤ n := by exact_mod_cast hn
  rw [sgn_mkv, sgn_mkv, if_neg (ne_of_gt h0)]
  have h1 : ¬ x < 0 := by linarith
  have h2 : ¬ (n : ℝ) < 0 := by linarith
  simp only [h1, h2, decide_false, ite_self]

theorem sgn_nonzero (s u : Bool) {x y : ℝ} (hy : y ≠ 0) (hx : x ≠ 0) (h : 0 < x * y) : (mkv u y).sgn = (mkv s x).sgn := by
  rw [sgn_mkv, sgn_mkv, if_neg hx, if_neg hy]
  congr 1
  apply propext
  constructor
  · intro h1; by_contra h2; nlinarith [not_lt.1 h2]
  · intro h1; by_contra h2; nlinarith [not_lt.1 h2]

theorem isTrunc_neg {x : ℝ} (P : Parts F (-x)) (h0 : x < 0) : IsTrunc (-⌊-x⌋) x := by
  have hn' : (0 : ℝ) ≤ ⌊-x⌋ := by exact_mod_cast P.nonneg
  refine ⟨⟨-⌊-x⌋, by push_cast; rfl⟩, ?_, ?_, ?_⟩
  · rw [abs_neg, abs_of_nonneg hn', abs_of_neg h0]; exact P.le
  · rw [abs_neg, abs_of_nonneg hn', abs_of_neg h0]; exact P.lt_succ
  · nlinarith

theorem isTrunc_pos {x : ℝ} (P : Parts F x) (h0 : 0 < x) : IsTrunc ⌊x⌋ x := by
  have hn' : (0 : ℝ) ≤ ⌊x⌋ := by exact_mod_cast P.nonneg
  refine ⟨⟨⌊x⌋, rfl⟩, ?_, ?_, ?_⟩
  · rw [abs_of_nonneg hn', abs_of_pos h0]; exact P.le
  · rw [abs_of_nonneg hn', abs_of_pos h0]; exact P.lt_succ
  · nlinarith

theorem maxU_eq : ((maxU : ℤ) : ℝ) = 2 ^ 64 - 1 := by unfold maxU; norm_num

theorem close_neg {x : ℝ} (P : Parts C (-x)) (h0 : x < 0) :
    Close C x (-⌊-x⌋) ↔ -⌊-x⌋ - x ≤ (2 : ℝ) ^ (1 - (C.p : ℤ)) * Max.max |x| 1 := by
  unfold Close
  have hn' : (0 : ℝ) ≤ ⌊-x⌋ := by exact_mod_cast P.nonneg
  have h1 := P.le
  rw [abs_neg (⌊-x⌋ : ℝ), abs_of_nonneg hn', abs_of_neg h0, max_eq_left h1, abs_of_nonpos (by linarith)]
  constructor <;> intro h <;> linarith

theorem close_pos {x : ℝ} (P : Parts C x) (h0 : 0 < x) :
    Close C x ⌊x⌋ ↔ x - ⌊x⌋ ≤ (2 : ℝ) ^ (1 - (C.p : ℤ)) * Max.max |x| 1 := by
  unfold Close
  have hn' : (0 : ℝ) ≤ ⌊x⌋ := by exact_mod_cast P.nonneg
  have h1 := P.le
  rw [abs_of_nonneg hn', abs_of_pos h0, max_eq_left h1, abs_of_nonneg (by linarith)]

/-- in a wider type the fraction of a number from one is above the tolerance -/
theorem frac_wide {x : ℝ} (h : Rep F.p F.emin x) (h0 : 0 < x) (hne : x ≠ ⌊x⌋) (hp : F.p < C.p)
    (hx : (2 : ℝ) ^ (1 - (C.p : ℤ)) < x) : (2 : ℝ) ^ (1 - (C.p : ℤ)) * Max.max |x| 1 < x - ⌊x⌋ := by
  rw [abs_of_pos h0]
  rcases lt_or_ge x 1 with h1 | h1
  · have : ⌊x⌋ = 0 := by rw [Int.floor_eq_zero_iff]; exact ⟨le_of_lt h0, h1⟩
    rw [this, max_eq_right (le_of_lt h1)]
    simpa using hx
  · rw [max_eq_left h1]
    rcases h.split with ⟨n, hn⟩ | ⟨m, k, hk, _, hm, e⟩
    · exact absurd (by rw [hn, Int.floor_intCast]) hne
    · have hm' : (m : ℝ) < (2 : ℝ) ^ (F.p : ℤ) := by
        rw [zpow_natCast]; exact lt_of_le_of_lt (le_abs_self _) (by exact_mod_cast hm)
      have hkp : (0 : ℝ) < ((2 : ℝ) ^ k)⁻¹ := by positivity
      have hpp : (0 : ℝ) < (2 : ℝ) ^ (1 - (C.p : ℤ)) := by positivity
      have hxl : (2 : ℝ) ^ (1 - (C.p : ℤ)) * x < ((2 : ℝ) ^ k)⁻¹ := by
        have h2 : (2 : ℝ) ^ (1 - (C.p : ℤ)) * (2 : ℝ) ^ (F.p : ℤ) ≤ 1 := by
          rw [← zpow_add₀ (by norm_num)]
          calc (2 : ℝ) ^ (1 - (C.p : ℤ) + F.p) ≤ (2 : ℝ) ^ (0 : ℤ) := zpow_le_zpow_right₀ (by norm_num) (by omega)
            _ = 1 := by simp
        have h3 : (2 : ℝ) ^ (1 - (C.p : ℤ)) * m < 1 := lt_of_lt_of_le (mul_lt_mul_of_pos_left hm' hpp) h2
        rw [e, ← mul_assoc]
        calc _ < 1 * ((2 : ℝ) ^ k)⁻¹ := mul_lt_mul_of_pos_right h3 hkp
          _ = _ := one_mul _
      have hfr : ((2 : ℝ) ^ k)⁻¹ ≤ x - ⌊x⌋ := by
        have hpos : (0 : ℝ) < 2 ^ k := by positivity
        have e2 : x - ⌊x⌋ = ((m - ⌊x⌋ * 2 ^ k : ℤ) : ℝ) * ((2 : ℝ) ^ k)⁻¹ := by
          push_cast
          rw [sub_mul, ← e]
          field_simp
        have hgt : 0 < x - ⌊x⌋ := by
          have := Int.floor_le x
          exact lt_of_le_of_ne (by linarith) (fun h => hne (by linarith))
        have h4 : 0 < ((m - ⌊x⌋ * 2 ^ k : ℤ) : ℝ) := by
          rw [e2] at hgt
          exact (mul_pos_iff_of_pos_right hkp).1 hgt
        have h5 : (1 : ℤ) ≤ m - ⌊x⌋ * 2 ^ k := by exact_mod_cast h4
        have h6 : (1 : ℝ) ≤ ((m - ⌊x⌋ * 2 ^ k : ℤ) : ℝ) := by exact_mod_cast h5
        rw [e2]
        nlinarith
      linarith

/-- the greatest value of an unsigned type is rounded up to the power of two -/
theorem rnd_pred {k : ℕ} (hk : F.p + 2 ≤ k) : F.rnd (2 ^ k - 1) = 2 ^ k := by
  have hr : Rep F.p F.emin ((2 : ℝ) ^ k) := by
    have := Rep.two_zpow (p := F.p) (emin := F.emin) k (by have := F.emin_le_zero; omega) F.one_le_p
    exact_mod_cast this
  have hn := F.rnd_near (2 ^ k - 1) (2 ^ k) hr
  have e1 : |(2 : ℝ) ^ k - (2 ^ k - 1)| = 1 := by
    have : (2 : ℝ) ^ k - (2 ^ k - 1) = 1 := by ring
    rw [this]; simp
  rw [e1, abs_le] at hn
  have hle : F.rnd (2 ^ k - 1) ≤ 2 ^ k := rnd_le (by linarith) hr
  obtain ⟨m, e, _, hm, hx⟩ := F.rnd_rep (2 ^ k - 1)
  have hm' : (m : ℝ) < (2 : ℝ) ^ (F.p : ℤ) := by
    rw [zpow_natCast]; exact lt_of_le_of_lt (le_abs_self _) (by exact_mod_cast hm)
  have hkk : (2 : ℝ) ^ k = 2 * 2 ^ (k - 1) := by rw [← pow_succ']; congr 1; omega
  have hk3 : (4 : ℝ) ≤ 2 ^ (k - 1) := by
    have := F.two_le_p
    calc (4 : ℝ) = 2 ^ 2 := by norm_num
      _ ≤ 2 ^ (k - 1) := pow_le_pow_right₀ (by norm_num) (by omega)
  have hge : (2 : ℝ) ^ (k - 1) < F.rnd (2 ^ k - 1) := by linarith
  have he : (k : ℤ) - F.p ≤ e := by
    by_contra hc
    have : (m : ℝ) * (2 : ℝ) ^ e ≤ (2 : ℝ) ^ (k - 1) := by
      calc (m : ℝ) * (2 : ℝ) ^ e ≤ (2 : ℝ) ^ (F.p : ℤ) * (2 : ℝ) ^ e :=
            mul_le_mul_of_nonneg_right (le_of_lt hm') (by positivity)
        _ = (2 : ℝ) ^ ((F.p : ℤ) + e) := by rw [zpow_add₀ (by norm_num)]
        _ ≤ (2 : ℝ) ^ ((k - 1 : ℕ) : ℤ) := zpow_le_zpow_right₀ (by norm_num) (by omega)
        _ = _ := zpow_natCast _ _
    linarith
  obtain ⟨d, hd⟩ := Int.eq_ofNat_of_zero_le (show 0 ≤ e - 2 by omega)
  have e4 : F.rnd (2 ^ k - 1) = ((m * 2 ^ d * 4 : ℤ) : ℝ) := by
    rw [hx]
    have : e = d + 2 := by omega
    rw [this, zpow_add₀ (by norm_num), zpow_natCast]
    push_cast
    norm_num
    ring
  have e5 : (2 : ℝ) ^ k = ((2 ^ (k - 2) * 4 : ℤ) : ℝ) := by
    push_cast
    have : k = k - 2 + 2 := by omega
    conv_lhs => rw [this, pow_add]
    norm_num
  rw [e4, e5] at hle hn
  have h6 : m * 2 ^ d * 4 ≤ 2 ^ (k - 2) * 4 := by exact_mod_cast hle
  have h7 : (2 : ℤ) ^ (k - 2) * 4 - 2 ≤ m * 2 ^ d * 4 := by
    have : (((2 : ℤ) ^ (k - 2) * 4 - 2 : ℤ) : ℝ) ≤ ((m * 2 ^ d * 4 : ℤ) : ℝ) := by push_cast at hn ⊢; linarith [hn.1]
    exact_mod_cast this
  rw [e4, e5]
  have : m * 2 ^ d * 4 = 2 ^ (k - 2) * 4 := by omega
  rw [this]

theorem ofInt_pred {k : ℕ} (hk : F.p + 2 ≤ k) (hm : (k : ℤ) < F.emax) : F.ofInt (2 ^ k - 1) = mkv false (2 ^ k) := by
  unfold ofInt ofReal
  have e : (((2 : ℤ) ^ k - 1 : ℤ) : ℝ) = 2 ^ k - 1 := by push_cast; ring
  have hp : (0 : ℝ) < 2 ^ k := by positivity
  rw [e, rnd_pred hk, if_neg (ne_of_gt hp), if_neg, mkv_num _ (ne_of_gt hp)]
  rw [abs_of_pos hp, not_le, ← zpow_natCast]
  exact zpow_lt_zpow_right₀ (by norm_num) hm

end MathRound

end Sprout
