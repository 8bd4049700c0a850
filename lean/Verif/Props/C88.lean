import Verif.Model.MathCompare
import Verif.Proofs.MathRound

/-! # C88: comparisons of numbers of different types, and with a tolerance -/

namespace Sprout

open Classical MathCompare MathRound FV Fmt

namespace MathCompare

theorem conv_of_has {T : CInt} {x : Int} (hw : 1 ≤ T.w) (h : T.Has x) : T.conv x = x := by
  unfold CInt.conv
  rw [Int.emod_eq_of_lt]
  · omega
  · have := h.1; omega
  · obtain ⟨w, g⟩ := T
    obtain ⟨w, rfl⟩ : ∃ v, w = v + 1 := ⟨w - 1, by simp only at hw; omega⟩
    obtain ⟨h1, h2⟩ := h
    have hp : (2 : Int) ^ (w + 1) = 2 ^ w + 2 ^ w := by rw [pow_succ]; ring
    cases g <;> simp [CInt.min, CInt.max] at h1 h2 ⊢ <;> omega

/-- the values of the type are values of the other -/
def Within (T U : CInt) : Prop := ∀ x, T.Has x → U.Has x

theorem pow_cases (n : Nat) (h : n = 8 ∨ n = 16 ∨ n = 32 ∨ n = 64) :
    ((2 : Int) ^ n = 256 ∧ (2 : Int) ^ (n - 1) = 128) ∨ ((2 : Int) ^ n = 65536 ∧ (2 : Int) ^ (n - 1) = 32768) ∨
    ((2 : Int) ^ n = 4294967296 ∧ (2 : Int) ^ (n - 1) = 2147483648) ∨
    ((2 : Int) ^ n = 18446744073709551616 ∧ (2 : Int) ^ (n - 1) = 9223372036854775808) := by
  rcases h with rfl | rfl | rfl | rfl <;> norm_num

theorem usual_w (T U : CInt) (hT : T.Std) (hU : U.Std) : 1 ≤ (usual T U).w := by
  obtain ⟨w, s⟩ := T
  obtain ⟨v, t⟩ := U
  rcases hT with h | h | h | h <;> rcases hU with h' | h' | h' | h' <;> simp only at h h' <;> subst h <;> subst h' <;>
    cases s <;> cases t <;> decide

theorem within_same (T U : CInt) (hT : T.Std) (hU : U.Std) (h : T.sg = U.sg) :
    Within T (usual T U) ∧ Within U (usual T U) := by
  obtain ⟨w, s⟩ := T
  obtain ⟨v, t⟩ := U
  simp only at h
  subst h
  rcases hT with h | h | h | h <;> rcases hU with h' | h' | h' | h' <;> simp only at h h' <;> subst h <;> subst h' <;>
    cases s <;>
    constructor <;> intro x hx <;>
    simp [usual, promote, CInt.Has, CInt.min, CInt.max, CInt.int32] at hx ⊢ <;> omega

theorem within_mixed (T U : CInt) (hT : T.Std) (hU : U.Std) (x : Int) (h : 0 ≤ x) :
    (T.Has x → (makeUnsigned (usual T U)).Has x) ∧ (U.Has x → (makeUnsigned (usual T U)).Has x) := by
  obtain ⟨w, s⟩ := T
  obtain ⟨v, t⟩ := U
  rcases hT with h | h | h | h <;> rcases hU with h' | h' | h' | h' <;> simp only at h h' <;> subst h <;> subst h' <;>
    cases s <;> cases t <;>
    constructor <;> intro hx <;>
    simp [usual, promote, makeUnsigned, CInt.Has, CInt.min, CInt.max, CInt.int32] at hx ⊢ <;> omega

theorem unsigned_nonneg {U : CInt} {y : Int} (h : U.sg = false) (hy : U.Has y) : 0 ≤ y := by
  have := hy.1
  unfold CInt.min at this
  simpa [h] using this

theorem builtin_eq (r : Int → Int → Bool) {T U : CInt} (hT : T.Std) (hU : U.Std) (h : T.sg = U.sg) {x y : Int}
    (hx : T.Has x) (hy : U.Has y) : builtin r T U x y = r x y := by
  obtain ⟨a, b⟩ := within_same T U hT hU h
  have hw := usual_w T U hT hU
  unfold builtin
  rw [conv_of_has hw (a x hx), conv_of_has hw (b y hy)]

theorem unsigned_eq (r : Int → Int → Bool) {T U : CInt} (hT : T.Std) (hU : U.Std) {x y : Int}
    (hx : T.Has x) (hy : U.Has y) (h0 : 0 ≤ x) (h1 : 0 ≤ y) : MathCompare.unsigned r T U x y = r x y := by
  have hw : 1 ≤ (makeUnsigned (usual T U)).w := usual_w T U hT hU
  unfold MathCompare.unsigned
  rw [conv_of_has hw ((within_mixed T U hT hU x h0).1 hx), conv_of_has hw ((within_mixed T U hT hU y h1).2 hy)]

/-- the scheme of the comparisons of integers -/
theorem scheme (r : Int → Int → Bool) (neg : Bool) {T U : CInt} (hT : T.Std) (hU : U.Std) {x y : Int}
    (hx : T.Has x) (hy : U.Has y) (h1 : ∀ a b, a < 0 → 0 ≤ b → r a b = neg) (h2 : ∀ a b, 0 ≤ a → b < 0 → r a b = !neg) :
    (if T.sg = U.sg then builtin r T U x y
      else if T.sg then (if x < 0 then neg else MathCompare.unsigned r T U x y)
      else (if y < 0 then !neg else MathCompare.unsigned r T U x y)) = r x y := by
  by_cases h : T.sg = U.sg
  · rw [if_pos h, builtin_eq r hT hU h hx hy]
  · rw [if_neg h]
    by_cases ht : T.sg = true
    · have hu : U.sg = false := by cases hb : U.sg <;> simp_all
      have hy0 := unsigned_nonneg hu hy
      rw [if_pos ht]
      split
      · rename_i hn; rw [h1 x y hn hy0]
      · rename_i hn; rw [unsigned_eq r hT hU hx hy (by omega) hy0]
    · have hx0 := unsigned_nonneg (by simpa using ht) hx
      rw [if_neg ht]
      split
      · rename_i hn; rw [h2 x y hx0 hn]
      · rename_i hn; rw [unsigned_eq r hT hU hx hy hx0 (by omega)]

end MathCompare

/-- The comparisons for order are those of the integers, whatever the types -/
theorem C88_int_order (T U : CInt) (hT : T.Std) (hU : U.Std) (x y : Int) (hx : T.Has x) (hy : U.Has y) :
    iLess T U x y = decide (x < y) ∧ iGreater T U x y = decide (x > y) ∧ iLessEqual T U x y = decide (x ≤ y) ∧
    iGreaterEqual T U x y = decide (x ≥ y) := by
  refine ⟨?_, ?_, ?_, ?_⟩
  · exact scheme (fun a b => decide (a < b)) true hT hU hx hy (by intros; simp; omega) (by intros; simp; omega)
  · exact scheme (fun a b => decide (a > b)) false hT hU hx hy (by intros; simp; omega) (by intros; simp; omega)
  · exact scheme (fun a b => decide (a ≤ b)) true hT hU hx hy (by intros; simp; omega) (by intros; simp; omega)
  · exact scheme (fun a b => decide (a ≥ b)) false hT hU hx hy (by intros; simp; omega) (by intros; simp; omega)

example : iLess CInt.int32 CInt.uint32 (-1) 1 = true := by decide

example : iGreaterEqual CInt.uint64 CInt.int8 (2 ^ 64 - 1) (-1) = true := by decide

/-- Equality, and with it `compare`, is that of the integers when the types are both signed or both unsigned, or the
numbers are not negative, or the common type is signed -/
theorem C88_int_equal_partial (T U : CInt) (hT : T.Std) (hU : U.Std) (x y : Int) (hx : T.Has x) (hy : U.Has y)
    (h : T.sg = U.sg ∨ (0 ≤ x ∧ 0 ≤ y) ∨ (usual T U).sg = true) :
    iEqualTo T U x y = decide (x = y) ∧ iNotEqualTo T U x y = decide (x ≠ y) ∧ iCompare T U x y = Int.sign (x - y) := by
  have he : iEqualTo T U x y = decide (x = y) := by
    have hw := usual_w T U hT hU
    have key : (usual T U).Has x ∧ (usual T U).Has y := by
      rcases h with h | h | h
      · exact ⟨(within_same T U hT hU h).1 x hx, (within_same T U hT hU h).2 y hy⟩
      all_goals
        obtain ⟨w, s⟩ := T
        obtain ⟨v, t⟩ := U
        rcases hT with h1 | h1 | h1 | h1 <;> rcases hU with h2 | h2 | h2 | h2 <;> simp only at h1 h2 <;> subst h1 <;> subst h2 <;>
          cases s <;> cases t <;>
          simp [usual, promote, CInt.Has, CInt.min, CInt.max, CInt.int32] at h hx hy ⊢ <;> omega
    unfold iEqualTo builtin
    rw [conv_of_has hw key.1, conv_of_has hw key.2]
  refine ⟨he, by unfold iNotEqualTo; rw [he]; simp, ?_⟩
  unfold iCompare
  rw [he, (C88_int_order T U hT hU x y hx hy).1]
  simp only [decide_eq_true_eq]
  split
  · rename_i e; subst e; simp
  · split
    · rename_i e; rw [Int.sign_eq_neg_one_of_neg (by omega)]
    · rw [Int.sign_eq_one_of_pos (by omega)]

example : iCompare CInt.int64 CInt.uint32 (-1) (2 ^ 32 - 1) = -1 := by decide

/-- `equal_to` of a negative and an unsigned number does what `less` avoids: -1 equals the greatest `unsigned`, although it
is also less; `compare` calls them equal -/
theorem C88_int_equal_refuted :
    iEqualTo CInt.int32 CInt.uint32 (-1) (2 ^ 32 - 1) = true ∧ iLess CInt.int32 CInt.uint32 (-1) (2 ^ 32 - 1) = true ∧
    iCompare CInt.int32 CInt.uint32 (-1) (2 ^ 32 - 1) = 0 := by decide

/-! ### Floating types -/

namespace MathCompare

/-- the tolerance of `equal_to` -/
noncomputable def tol (F : Fmt) (a b : ℝ) : ℝ := (2 : ℝ) ^ (1 - (F.p : ℤ)) * Max.max (Max.max |a| |b|) 1

theorem sub_any {F : Fmt} (s t : Bool) (a b : ℝ) : ∃ u, F.sub (mkv s a) (mkv t b) = F.ofReal u (a - b) := by
  unfold Fmt.sub
  rw [neg_mkv]
  rcases eq_or_ne a 0 with rfl | ha <;> rcases eq_or_ne b 0 with rfl | hb0
  · simp only [neg_zero, mkv_zero, add, sub_zero]
    exact ⟨s && !t, by rw [ofReal_zero]⟩
  · rw [mkv_zero, mkv_num _ (neg_ne_zero.2 hb0)]
    exact ⟨_, by rw [sub_eq_add_neg]; rfl⟩
  · rw [neg_zero, mkv_zero, mkv_num _ ha]
    exact ⟨_, by rw [sub_eq_add_neg, neg_zero]; rfl⟩
  · rw [mkv_num _ ha, mkv_num _ (neg_ne_zero.2 hb0)]
    exact ⟨_, by rw [sub_eq_add_neg]; rfl⟩

theorem ofReal_abs_le {F : Fmt} (u v : Bool) (r B : ℝ) (hB : B < (2 : ℝ) ^ F.emax) :
    (F.ofReal u r).abs.le (mkv v B) ↔ |F.rnd r| ≤ B := by
  unfold ofReal
  split
  · rename_i h
    rw [h, zero_eq, abs_mkv, le_mkv]
  · rename_i h
    split
    · rename_i h'
      constructor
      · intro hh; exfalso; revert hh
        unfold mkv
        split <;> simp [FV.abs, FV.le, FV.lt, FV.eq]
      · intro hh; linarith
    · rw [← mkv_num false h, abs_mkv, le_mkv]

theorem tol_pos (F : Fmt) (a b : ℝ) : 0 < tol F a b := by
  unfold tol
  have : (1 : ℝ) ≤ Max.max (Max.max |a| |b|) 1 := le_max_right _ _
  positivity

theorem tol_comm (F : Fmt) (a b : ℝ) : tol F a b = tol F b a := by
  unfold tol; rw [max_comm |a| |b|]

theorem eps_le_one (F : Fmt) : (2 : ℝ) ^ (1 - (F.p : ℤ)) ≤ 1 / 2 := by
  have h2 := F.two_le_p
  calc (2 : ℝ) ^ (1 - (F.p : ℤ)) ≤ (2 : ℝ) ^ (-1 : ℤ) := zpow_le_zpow_right₀ (by norm_num) (by omega)
    _ = 1 / 2 := by norm_num

/-- `equal_to` of finite numbers: the rounded difference is within the tolerance -/
theorem equalTo_any {F : Fmt} {s t : Bool} {a b : ℝ} (ha : Rep F.p F.emin a) (hb : Rep F.p F.emin b)
    (ha' : |a| < (2 : ℝ) ^ F.emax) (hb' : |b| < (2 : ℝ) ^ F.emax) :
    equalTo F (mkv s a) (mkv t b) = decide (|F.rnd (a - b)| ≤ tol F a b) := by
  have ht := tol_pos F a b
  unfold equalTo tol at *
  obtain ⟨u, hu⟩ := sub_any (F := F) s t a b
  have heps : F.eps = mkv false ((2 : ℝ) ^ (1 - (F.p : ℤ))) := (mkv_num _ (by positivity)).symm
  have hM1 : 1 ≤ Max.max (Max.max |a| |b|) 1 := le_max_right _ _
  have hMr : Rep F.p F.emin (Max.max (Max.max |a| |b|) 1) := MathRound.Rep.max (MathRound.Rep.max ha.abs hb.abs) F.rep_one
  have hMe : Max.max (Max.max |a| |b|) 1 < (2 : ℝ) ^ F.emax := max_lt (max_lt ha' hb') (one_lt_emax F)
  have hp := eps_le_one F
  have hp0 : (0 : ℝ) < (2 : ℝ) ^ (1 - (F.p : ℤ)) := by positivity
  have hr := rep_eps_mul hMr hM1
  generalize hM : Max.max (Max.max |a| |b|) 1 = M at *
  have hlt : (2 : ℝ) ^ (1 - (F.p : ℤ)) * M < (2 : ℝ) ^ F.emax := by nlinarith
  rw [hu, heps, one_eq]
  simp only [abs_mkv, max_mkv, hM]
  rw [mul_mkv hr (by rwa [abs_of_pos ht]), eq_mkv, ofReal_abs_le _ _ _ _ hlt]
  congr 1
  apply propext
  constructor
  · rintro (rfl | h)
    · rw [sub_self, rnd_zero, abs_zero]; exact le_of_lt ht
    · exact h
  · exact Or.inr

theorem equalTo_inf (F : Fmt) (s : Bool) (y : FV) (hy : y ≠ .nan) :
    equalTo F (.inf s) y = true ∧ equalTo F y (.inf s) = true := by
  have hp0 : (0 : ℝ) ≤ (2 : ℝ) ^ (1 - (F.p : ℤ)) := by positivity
  unfold equalTo
  cases y with
  | nan => exact absurd rfl hy
  | inf t => cases s <;> cases t <;>
      simp [FV.eq, Fmt.sub, Fmt.add, FV.neg, FV.abs, MathRound.max, FV.lt, Fmt.eps, Fmt.mul, FV.le, FV.sgn, hp0]
  | zero t => cases s <;>
      simp [FV.eq, Fmt.sub, Fmt.add, FV.neg, FV.abs, MathRound.max, FV.lt, Fmt.eps, Fmt.mul, FV.le, FV.sgn, hp0]
  | num x => cases s <;>
      simp [FV.eq, Fmt.sub, Fmt.add, FV.neg, FV.abs, MathRound.max, FV.lt, Fmt.eps, Fmt.mul, FV.le, FV.sgn, hp0]

theorem equalTo_nan (F : Fmt) (y : FV) : equalTo F .nan y = false ∧ equalTo F y .nan = false := by
  unfold equalTo
  cases y <;> simp [FV.eq, Fmt.sub, Fmt.add, FV.neg, FV.abs, FV.le, FV.lt]

theorem lt_or_eq_or_gt (x y : FV) (hx : x ≠ .nan) (hy : y ≠ .nan) : x.lt y ∨ x.eq y ∨ y.lt x := by
  cases x <;> cases y <;> simp_all [FV.lt, FV.eq, FV.val]
  case inf.inf s t => cases s <;> cases t <;> simp
  case zero.num _ x => rcases lt_trichotomy x 0 with h | h | h <;> simp [h, eq_comm]
  case num.zero x _ => rcases lt_trichotomy x 0 with h | h | h <;> simp [h]
  case num.num x y => exact lt_trichotomy x y

theorem lt_asymm' {x y : FV} (h : x.lt y) : ¬ y.lt x := by
  cases x <;> cases y <;> simp_all [FV.lt, FV.val]
  all_goals exact le_of_lt h

theorem fin_of {F : Fmt} {x y : FV} (h : fLess F x y = true) : x.isFin = true ∧ y.isFin = true := by
  unfold fLess fNotEqualTo at h
  simp only [Bool.and_eq_true, Bool.not_eq_true', decide_eq_true_eq] at h
  obtain ⟨h1, h2⟩ := h
  have hx : x ≠ .nan := by rintro rfl; simp [FV.lt] at h2
  have hy : y ≠ .nan := by rintro rfl; cases x <;> simp [FV.lt] at h2
  constructor
  · cases x with
    | nan => exact absurd rfl hx
    | inf s => rw [(equalTo_inf F s y hy).1] at h1; simp at h1
    | zero s => rfl
    | num x => rfl
  · cases y with
    | nan => exact absurd rfl hy
    | inf s => rw [(equalTo_inf F s x hx).2] at h1; simp at h1
    | zero s => rfl
    | num x => rfl

theorem fLess_mkv {F : Fmt} {s t : Bool} {a b : ℝ} (ha : Rep F.p F.emin a) (hb : Rep F.p F.emin b)
    (ha' : |a| < (2 : ℝ) ^ F.emax) (hb' : |b| < (2 : ℝ) ^ F.emax) :
    fLess F (mkv s a) (mkv t b) = true ↔ tol F a b < |F.rnd (a - b)| ∧ a < b := by
  unfold fLess fNotEqualTo
  rw [equalTo_any ha hb ha' hb']
  simp [lt_mkv]

theorem tol_trans (F : Fmt) (a b c : ℝ) (h1 : a < b) (h2 : b < c) : tol F a c ≤ Max.max (tol F a b) (tol F b c) := by
  unfold tol
  have hp0 : (0 : ℝ) < (2 : ℝ) ^ (1 - (F.p : ℤ)) := by positivity
  rw [← mul_max_of_nonneg _ _ (le_of_lt hp0)]
  refine mul_le_mul_of_nonneg_left ?_ (le_of_lt hp0)
  refine max_le (max_le ?_ ?_) ?_
  · exact le_max_of_le_left (le_max_of_le_left (le_max_left _ _))
  · exact le_max_of_le_right (le_max_of_le_left (le_max_right _ _))
  · exact le_max_of_le_left (le_max_right _ _)

end MathCompare

/-- Numbers which are not NaN are less, equal or greater, and just one of these; the other comparisons follow -/
theorem C88_float_trichotomy (F : Fmt) (x y : FV) (hx : x ≠ .nan) (hy : y ≠ .nan) :
    ((fLess F x y = true ∧ equalTo F x y = false ∧ fGreater F x y = false ∧ fCompare F x y = -1) ∨
      (fLess F x y = false ∧ equalTo F x y = true ∧ fGreater F x y = false ∧ fCompare F x y = 0) ∨
      (fLess F x y = false ∧ equalTo F x y = false ∧ fGreater F x y = true ∧ fCompare F x y = 1)) ∧
    fNotEqualTo F x y = !equalTo F x y ∧ fLessEqual F x y = !fGreater F x y ∧ fGreaterEqual F x y = !fLess F x y := by
  refine ⟨?_, rfl, ?_⟩
  · rcases he : equalTo F x y with - | -
    · have hne : ¬ x.eq y := by
        intro h; unfold equalTo at he; simp [h] at he
      rcases lt_or_eq_or_gt x y hx hy with h | h | h
      · left
        have := lt_asymm' h
        simp [fLess, fNotEqualTo, fGreater, fCompare, he, h, this]
      · exact absurd h hne
      · right; right
        have := lt_asymm' h
        simp [fLess, fNotEqualTo, fGreater, fCompare, he, h, this]
    · right; left
      simp [fLess, fNotEqualTo, fGreater, fCompare, he]
  · rcases he : equalTo F x y with - | -
    · have hne : ¬ x.eq y := by
        intro h; unfold equalTo at he; simp [h] at he
      rcases lt_or_eq_or_gt x y hx hy with h | h | h
      · have := lt_asymm' h
        simp [fLessEqual, fGreaterEqual, fLess, fNotEqualTo, fGreater, he, h, this]
      · exact absurd h hne
      · have := lt_asymm' h
        simp [fLessEqual, fGreaterEqual, fLess, fNotEqualTo, fGreater, he, h, this]
    · simp [fLessEqual, fGreaterEqual, fLess, fNotEqualTo, fGreater, he]

/-- NaN is not equal, less or greater; but `compare`, with no result for it, returns 1 both ways -/
theorem C88_float_nan (F : Fmt) (y : FV) :
    equalTo F .nan y = false ∧ equalTo F y .nan = false ∧ fNotEqualTo F .nan y = true ∧ fLess F .nan y = false ∧
    fGreater F .nan y = false ∧ fLessEqual F .nan y = false ∧ fGreaterEqual F .nan y = false ∧
    fLess F y .nan = false ∧ fGreater F y .nan = false ∧ fLessEqual F y .nan = false ∧ fGreaterEqual F y .nan = false ∧
    fCompare F .nan y = 1 ∧ fCompare F y .nan = 1 := by
  obtain ⟨h1, h2⟩ := equalTo_nan F y
  have h3 : ¬ FV.lt .nan y := by cases y <;> simp [FV.lt]
  have h4 : ¬ FV.lt y .nan := by cases y <;> simp [FV.lt]
  simp [fNotEqualTo, fLess, fGreater, fLessEqual, fGreaterEqual, fCompare, h1, h2, h3, h4]

/-- Finite numbers are equal if they differ by no more than the tolerance, and not if they differ by twice as much; then
they are ordered -/
theorem C88_float_close (F : Fmt) (x y : FV) (hx : F.Has x) (hy : F.Has y) (hfx : x.isFin) (hfy : y.isFin) :
    (|x.val - y.val| ≤ tol F x.val y.val → equalTo F x y = true) ∧
    (2 * tol F x.val y.val ≤ y.val - x.val → fLess F x y = true) ∧
    (2 * tol F x.val y.val ≤ x.val - y.val → fGreater F x y = true) := by
  obtain ⟨s, a, rfl, ha, ha'⟩ := hx.cases hfx
  obtain ⟨t, b, rfl, hb, hb'⟩ := hy.cases hfy
  rw [val_mkv, val_mkv]
  have ht := tol_pos F a b
  have hM1 : 1 ≤ Max.max (Max.max |a| |b|) 1 := le_max_right _ _
  have hMr : Rep F.p F.emin (Max.max (Max.max |a| |b|) 1) := MathRound.Rep.max (MathRound.Rep.max ha.abs hb.abs) F.rep_one
  have hr : Rep F.p F.emin (tol F a b) := rep_eps_mul hMr hM1
  have hr2 : Rep F.p F.emin (2 * tol F a b) := by
    obtain ⟨m, e, h1, h2, h3⟩ := hr
    have := Rep.mul_zpow (emin := F.emin) m e h3 h2 1 (by omega)
    rwa [zpow_one, mul_comm] at this
  refine ⟨?_, ?_, ?_⟩
  · intro h
    rw [equalTo_any ha hb ha' hb', decide_eq_true_eq]
    rw [abs_le] at h ⊢
    exact ⟨le_rnd h.1 hr.neg, rnd_le h.2 hr⟩
  · intro h
    rw [fLess_mkv ha hb ha' hb']
    have h1 : F.rnd (a - b) ≤ -(2 * tol F a b) := rnd_le (by linarith) hr2.neg
    exact ⟨by rw [abs_of_nonpos (by linarith)]; linarith, by linarith⟩
  · intro h
    have h1 : 2 * tol F a b ≤ F.rnd (a - b) := le_rnd h hr2
    unfold fGreater fNotEqualTo
    rw [equalTo_any ha hb ha' hb']
    simp only [Bool.and_eq_true, Bool.not_eq_true', decide_eq_false_iff_not, decide_eq_true_eq, lt_mkv]
    exact ⟨by rw [abs_of_nonneg (by linarith)]; linarith, by linarith⟩

/-- Integers of less than the precision are compared exactly -/
theorem C88_float_integers (F : Fmt) (m n : ℤ) (hm : |m| < 2 ^ (F.p - 1)) (hn : |n| < 2 ^ (F.p - 1)) :
    equalTo F (F.ofInt m) (F.ofInt n) = decide (m = n) ∧ fLess F (F.ofInt m) (F.ofInt n) = decide (m < n) ∧
    fCompare F (F.ofInt m) (F.ofInt n) = Int.sign (m - n) := by
  obtain ⟨q, hq⟩ : ∃ q, F.p = q + 1 := ⟨F.p - 1, by have := F.two_le_p; omega⟩
  rw [hq, Nat.add_sub_cancel] at hm hn
  have hpp : (2 : ℤ) ^ F.p = 2 ^ q + 2 ^ q := by rw [hq, pow_succ]; ring
  have hm1 : |(m : ℝ)| < 2 ^ q := by exact_mod_cast hm
  have hn1 : |(n : ℝ)| < 2 ^ q := by exact_mod_cast hn
  have h2q : (0 : ℤ) < 2 ^ q := by positivity
  have hp' : ((2 : ℝ) ^ F.p) = 2 ^ q + 2 ^ q := by rw [hq, pow_succ]; ring
  have h2q' : (0 : ℝ) < 2 ^ q := by positivity
  have rm := F.rep_int m (by rw [hpp]; omega)
  have rn := F.rep_int n (by rw [hpp]; omega)
  have bm : |(m : ℝ)| < (2 : ℝ) ^ F.emax := two_pow_le_emax (by rw [hp']; linarith)
  have bn : |(n : ℝ)| < (2 : ℝ) ^ F.emax := two_pow_le_emax (by rw [hp']; linarith)
  have rd : Rep F.p F.emin ((m : ℝ) - n) := by
    have := F.rep_int (m - n) (by rw [hpp]; have := abs_sub m n; omega)
    simpa using this
  have ht : tol F m n < 1 ∨ q = 0 := by
    left
    unfold tol
    have hM : Max.max (Max.max |(m : ℝ)| |(n : ℝ)|) 1 < 2 ^ q := by
      refine max_lt (max_lt hm1 hn1) ?_
      have : 1 ≤ q := by have := F.two_le_p; omega
      exact one_lt_pow₀ (by norm_num) (by omega)
    calc _ < (2 : ℝ) ^ (1 - (F.p : ℤ)) * 2 ^ q := mul_lt_mul_of_pos_left hM (by positivity)
      _ = (2 : ℝ) ^ (1 - (F.p : ℤ) + q) := by rw [zpow_add₀ (by norm_num), zpow_natCast]
      _ = (2 : ℝ) ^ (0 : ℤ) := by congr 1; rw [hq]; push_cast; ring
      _ = 1 := by simp
  have ht1 : tol F m n < 1 := by
    rcases ht with h | h
    · exact h
    · have := F.two_le_p; omega
  have ht0 := tol_pos F m n
  have he : equalTo F (F.ofInt m) (F.ofInt n) = decide (m = n) := by
    rw [ofInt_mkv rm bm, ofInt_mkv rn bn, equalTo_any rm rn bm bn, rnd_of_rep rd, decide_eq_decide]
    constructor
    · intro h
      have h1 : |(m : ℝ) - n| < 1 := by linarith
      have h2 : |m - n| < 1 := by exact_mod_cast h1
      have := abs_nonneg (m - n)
      have h3 : |m - n| = 0 := by omega
      rw [abs_eq_zero] at h3
      omega
    · rintro rfl; simp only [sub_self, abs_zero]; exact le_of_lt ht0
  have hl : fLess F (F.ofInt m) (F.ofInt n) = decide (m < n) := by
    unfold fLess fNotEqualTo
    rw [he, ofInt_mkv rm bm, ofInt_mkv rn bn]
    have e : (FV.lt (mkv false (m : ℝ)) (mkv false (n : ℝ))) ↔ m < n := by rw [lt_mkv]; exact Int.cast_lt
    have e' : decide (FV.lt (mkv false (m : ℝ)) (mkv false (n : ℝ))) = decide (m < n) := decide_eq_decide.2 e
    rw [e']
    rcases lt_trichotomy m n with h | h | h
    · simp [h, ne_of_lt h]
    · simp [h]
    · simp [not_lt.2 (le_of_lt h)]
  refine ⟨he, hl, ?_⟩
  unfold fCompare
  rw [he, hl]
  simp only [decide_eq_true_eq]
  split
  · rename_i e; subst e; simp
  · split
    · rename_i e; rw [Int.sign_eq_neg_one_of_neg (by omega)]
    · rw [Int.sign_eq_one_of_pos (by omega)]

example : fCompare Fmt.double (Fmt.double.ofInt (-7)) (Fmt.double.ofInt 12) = -1 :=
  (C88_float_integers Fmt.double (-7) 12 (by simp [Fmt.double, ieee]) (by simp [Fmt.double, ieee])).2.2

/-- `less` is a strict partial order on the values of the type -/
theorem C88_float_order (F : Fmt) (x y z : FV) (hx : F.Has x) (hy : F.Has y) (hz : F.Has z) :
    fLess F x x = false ∧ (fLess F x y = true → fLess F y x = false) ∧
    (fLess F x y = true → fLess F y z = true → fLess F x z = true) := by
  refine ⟨?_, ?_, ?_⟩
  · have : ¬ x.lt x := fun h => lt_asymm' h h
    simp [fLess, this]
  · intro h
    simp only [fLess, Bool.and_eq_true, decide_eq_true_eq] at h
    have := lt_asymm' h.2
    simp [fLess, this]
  · intro h1 h2
    obtain ⟨fx, fy⟩ := fin_of h1
    obtain ⟨_, fz⟩ := fin_of h2
    obtain ⟨s, a, rfl, ha, ha'⟩ := hx.cases fx
    obtain ⟨t, b, rfl, hb, hb'⟩ := hy.cases fy
    obtain ⟨u, c, rfl, hc, hc'⟩ := hz.cases fz
    rw [fLess_mkv ha hb ha' hb'] at h1
    rw [fLess_mkv hb hc hb' hc'] at h2
    rw [fLess_mkv ha hc ha' hc']
    obtain ⟨h1, hab⟩ := h1
    obtain ⟨h2, hbc⟩ := h2
    refine ⟨lt_of_le_of_lt (tol_trans F a b c hab hbc) ?_, by linarith⟩
    have n1 : F.rnd (a - b) ≤ 0 := rnd_le (by linarith) Rep.zero
    have n2 : F.rnd (b - c) ≤ 0 := rnd_le (by linarith) Rep.zero
    have m1 : F.rnd (a - c) ≤ F.rnd (a - b) := rnd_mono (by linarith)
    have m2 : F.rnd (a - c) ≤ F.rnd (b - c) := rnd_mono (by linarith)
    rw [abs_of_nonpos n1] at h1
    rw [abs_of_nonpos n2] at h2
    rw [abs_of_nonpos (by linarith)]
    exact max_lt (by linarith) (by linarith)

/-- `equal_to` is symmetric, if the rounding is the same for positive and negative numbers, as in IEC 60559 -/
theorem C88_float_symmetric (F : Fmt) (hodd : ∀ r, F.rnd (-r) = -F.rnd r) (x y : FV) (hx : F.Has x) (hy : F.Has y) :
    equalTo F x y = equalTo F y x := by
  by_cases nx : x = .nan
  · subst nx; rw [(equalTo_nan F y).1, (equalTo_nan F y).2]
  by_cases ny : y = .nan
  · subst ny; rw [(equalTo_nan F x).1, (equalTo_nan F x).2]
  rcases hfx : x.isFin with - | -
  · obtain ⟨s, rfl⟩ : ∃ s, x = .inf s := by
      cases x with
      | inf s => exact ⟨s, rfl⟩
      | nan => exact absurd rfl nx
      | zero s => simp [isFin] at hfx
      | num r => simp [isFin] at hfx
    rw [(equalTo_inf F s y ny).1, (equalTo_inf F s y ny).2]
  rcases hfy : y.isFin with - | -
  · obtain ⟨s, rfl⟩ : ∃ s, y = .inf s := by
      cases y with
      | inf s => exact ⟨s, rfl⟩
      | nan => exact absurd rfl ny
      | zero s => simp [isFin] at hfy
      | num r => simp [isFin] at hfy
    rw [(equalTo_inf F s x nx).1, (equalTo_inf F s x nx).2]
  obtain ⟨s, a, rfl, ha, ha'⟩ := hx.cases hfx
  obtain ⟨t, b, rfl, hb, hb'⟩ := hy.cases hfy
  rw [equalTo_any ha hb ha' hb', equalTo_any hb ha hb' ha', tol_comm F b a]
  have : a - b = -(b - a) := by ring
  rw [this, hodd, abs_neg]

/-- a type with such a rounding exists: ties are rounded away from zero -/
noncomputable def Fmt.away (F : Fmt) : Fmt where
  p := F.p
  emin := F.emin
  emax := F.emax
  rnd x := if x < 0 then -F.rnd (-x) else F.rnd x
  two_le_p := F.two_le_p
  emin_le := F.emin_le
  p_lt_emax := F.p_lt_emax
  rnd_rep x := by
    split
    · exact (F.rnd_rep _).neg
    · exact F.rnd_rep _
  rnd_near x y hy := by
    split
    · have h := F.rnd_near (-x) (-y) hy.neg
      have e1 : |-F.rnd (-x) - x| = |F.rnd (-x) - -x| := by rw [← abs_neg]; congr 1; ring
      have e2 : |y - x| = |-y - -x| := by rw [← abs_neg]; congr 1; ring
      rw [e1, e2]; exact h
    · exact F.rnd_near x y hy

example (r : ℝ) : (Fmt.away Fmt.double).rnd (-r) = -(Fmt.away Fmt.double).rnd r := by
  simp only [Fmt.away]
  rcases lt_trichotomy r 0 with h | h | h
  · rw [if_pos h, if_neg (by linarith), neg_neg]
  · subst h; simp [rnd_zero]
  · rw [if_pos (by linarith : -r < 0), if_neg (by linarith), neg_neg]

/-- `equal_to` is not transitive -/
theorem C88_float_transitive_refuted (F : Fmt) (hp : 3 ≤ F.p) :
    ∃ x y z, F.Has x ∧ F.Has y ∧ F.Has z ∧ equalTo F x y = true ∧ equalTo F y z = true ∧ equalTo F x z = false ∧
      fLess F x z = true := by
  have he0 : (0 : ℝ) < (2 : ℝ) ^ (1 - (F.p : ℤ)) := by positivity
  have he1 : (2 : ℝ) ^ (1 - (F.p : ℤ)) ≤ 1 / 4 := by
    calc (2 : ℝ) ^ (1 - (F.p : ℤ)) ≤ (2 : ℝ) ^ (-2 : ℤ) := zpow_le_zpow_right₀ (by norm_num) (by omega)
      _ = 1 / 4 := by norm_num
  obtain ⟨q, hq⟩ : ∃ q, F.p = q + 3 := ⟨F.p - 3, by omega⟩
  have hpp : (2 : ℤ) ^ F.p = 8 * 2 ^ q := by rw [hq, pow_add]; ring
  have h2q : (0 : ℤ) < 2 ^ q := by positivity
  have hem := F.emin_le
  have hrep : ∀ k : ℤ, 0 ≤ k → k ≤ 2 → Rep F.p F.emin (1 + k * (2 : ℝ) ^ (1 - (F.p : ℤ))) := by
    intro k h0 h2
    refine ⟨4 * 2 ^ q + k, 1 - (F.p : ℤ), by omega, by rw [hpp, abs_of_pos (by omega)]; omega, ?_⟩
    have : (4 * 2 ^ q : ℝ) * (2 : ℝ) ^ (1 - (F.p : ℤ)) = 1 := by
      have e : (4 * 2 ^ q : ℝ) = (2 : ℝ) ^ ((q : ℤ) + 2) := by
        rw [zpow_add₀ (by norm_num), zpow_natCast]; norm_num; ring
      rw [e, ← zpow_add₀ (by norm_num), hq]
      have : (q : ℤ) + 2 + (1 - ((q + 3 : ℕ) : ℤ)) = 0 := by push_cast; ring
      rw [this]; simp
    push_cast
    rw [add_mul, this]
  have hd : ∀ k : ℤ, 0 ≤ k → k ≤ 2 → Rep F.p F.emin (-(k * (2 : ℝ) ^ (1 - (F.p : ℤ)))) := by
    intro k h0 h2
    exact ⟨-k, 1 - (F.p : ℤ), by omega, by rw [hpp, abs_neg, abs_of_nonneg h0]; omega, by push_cast; ring⟩
  have r0 := hrep 0 (by norm_num) (by norm_num)
  have r1 := hrep 1 (by norm_num) (by norm_num)
  have r2 := hrep 2 (by norm_num) (by norm_num)
  have d1 := hd 1 (by norm_num) (by norm_num)
  have d2 := hd 2 (by norm_num) (by norm_num)
  push_cast at r0 r1 r2 d1 d2
  rw [zero_mul, add_zero] at r0
  rw [one_mul] at r1 d1
  have h2e : (2 : ℝ) < (2 : ℝ) ^ F.emax := by
    have := F.p_lt_emax
    calc (2 : ℝ) = (2 : ℝ) ^ (1 : ℤ) := by simp
      _ < _ := zpow_lt_zpow_right₀ (by norm_num) (by omega)
  unfold tol at *
  generalize hE : (2 : ℝ) ^ (1 - (F.p : ℤ)) = e at *
  have b0 : |(1 : ℝ)| < (2 : ℝ) ^ F.emax := by rw [abs_one]; linarith
  have b1 : |(1 + e : ℝ)| < (2 : ℝ) ^ F.emax := by rw [abs_of_pos (by linarith)]; linarith
  have b2 : |(1 + 2 * e : ℝ)| < (2 : ℝ) ^ F.emax := by rw [abs_of_pos (by linarith)]; linarith
  have t01 : tol F 1 (1 + e) = e * (1 + e) := by
    unfold tol; rw [hE, abs_one, abs_of_pos (by linarith), max_eq_right (by linarith : (1 : ℝ) ≤ 1 + e), max_eq_left (by linarith)]
  have t12 : tol F (1 + e) (1 + 2 * e) = e * (1 + 2 * e) := by
    unfold tol
    rw [hE, abs_of_pos (by linarith), abs_of_pos (by linarith), max_eq_right (by linarith : 1 + e ≤ 1 + 2 * e), max_eq_left (by linarith)]
  have t02 : tol F 1 (1 + 2 * e) = e * (1 + 2 * e) := by
    unfold tol; rw [hE, abs_one, abs_of_pos (by linarith), max_eq_right (by linarith : (1 : ℝ) ≤ 1 + 2 * e), max_eq_left (by linarith)]
  have s01 : (1 : ℝ) - (1 + e) = -e := by ring
  have s12 : (1 + e) - (1 + 2 * e) = -e := by ring
  have s02 : (1 : ℝ) - (1 + 2 * e) = -(2 * e) := by ring
  refine ⟨mkv false 1, mkv false (1 + e), mkv false (1 + 2 * e), has_mkv r0 b0, has_mkv r1 b1, has_mkv r2 b2, ?_, ?_, ?_, ?_⟩
  · rw [equalTo_any r0 r1 b0 b1, t01, s01, rnd_of_rep d1, abs_neg, abs_of_pos he0, decide_eq_true_eq]
    nlinarith
  · rw [equalTo_any r1 r2 b1 b2, t12, s12, rnd_of_rep d1, abs_neg, abs_of_pos he0, decide_eq_true_eq]
    nlinarith
  · rw [equalTo_any r0 r2 b0 b2, t02, s02, rnd_of_rep d2, abs_neg, abs_of_pos (by linarith), decide_eq_false_iff_not]
    nlinarith
  · rw [fLess_mkv r0 r2 b0 b2, t02, s02, rnd_of_rep d2, abs_neg, abs_of_pos (by linarith)]
    exact ⟨by nlinarith, by linarith⟩

example : 3 ≤ Fmt.double.p := by simp [Fmt.double, ieee]

/-- An infinity is equal to every number, and to the other infinity, since the tolerance is infinite, too: nothing is less
than it -/
theorem C88_float_inf_refuted (F : Fmt) (s : Bool) (y : FV) (hy : y ≠ .nan) :
    equalTo F (.inf s) y = true ∧ equalTo F y (.inf s) = true ∧ fLess F y (.inf false) = false ∧
    fCompare F (.inf true) y = 0 ∧ fLessEqual F (.inf false) y = true := by
  obtain ⟨h1, h2⟩ := equalTo_inf F s y hy
  refine ⟨h1, h2, ?_, ?_, ?_⟩
  · simp [fLess, fNotEqualTo, (equalTo_inf F false y hy).2]
  · simp [fCompare, (equalTo_inf F true y hy).1]
  · simp [fLessEqual, (equalTo_inf F false y hy).1]

example : equalTo Fmt.double (.inf false) (.num 1) = true := (C88_float_inf_refuted Fmt.double false (.num 1) (by simp)).1

end Sprout
