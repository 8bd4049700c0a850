import Verif.Model.MathMod
import Verif.Props.C90

/-! # Lemmas on remainders -/

namespace Sprout

open Classical FV Fmt MathRound MathScale

namespace Fmt

variable {C : Fmt}

theorem add_pos_mkv {a b : ℝ} (ha : 0 ≤ a) (hb : 0 ≤ b) (h : Rep C.p C.emin (a + b)) (hm : |a + b| < (2 : ℝ) ^ C.emax) :
    C.add (mkv false a) (mkv false b) = mkv false (a + b) := by
  have hs : decide (a + b < 0) = false := decide_eq_false (not_lt.2 (by linarith))
  rcases eq_or_ne a 0 with rfl | ha0 <;> rcases eq_or_ne b 0 with rfl | hb0
  · simp only [mkv_zero, add, add_zero]; simp
  · rw [mkv_zero, mkv_num _ hb0]
    show C.ofReal (decide (0 + b < 0)) (0 + b) = _
    rw [hs]; exact ofReal_mkv h hm
  · rw [mkv_zero, mkv_num _ ha0]
    show C.ofReal (decide (a + 0 < 0)) (a + 0) = _
    rw [hs]; exact ofReal_mkv h hm
  · rw [mkv_num _ ha0, mkv_num _ hb0]
    show C.ofReal (decide (a + b < 0)) (a + b) = _
    rw [hs]; exact ofReal_mkv h hm

theorem sub_pos_mkv {a b : ℝ} (hab : b ≤ a) (hb : b ≠ 0) (h : Rep C.p C.emin (a - b)) (hm : |a - b| < (2 : ℝ) ^ C.emax) :
    C.sub (mkv false a) (mkv false b) = mkv false (a - b) := by
  have hs : decide (a - b < 0) = false := decide_eq_false (not_lt.2 (by linarith))
  unfold sub
  rw [neg_mkv]
  rcases eq_or_ne a 0 with rfl | ha0
  · rw [mkv_zero, mkv_num _ (neg_ne_zero.2 hb)]
    show C.ofReal (decide (0 + -b < 0)) (0 + -b) = _
    rw [← sub_eq_add_neg, hs]; exact ofReal_mkv h hm
  · rw [mkv_num _ ha0, mkv_num _ (neg_ne_zero.2 hb)]
    show C.ofReal (decide (a + -b < 0)) (a + -b) = _
    rw [← sub_eq_add_neg, hs]; exact ofReal_mkv h hm

end Fmt

/-- the remainder of a division is representable -/
theorem Rep.rem {p : ℕ} {emin : ℤ} {x y r : ℝ} (hx : Rep p emin x) (hy : Rep p emin y) (q : ℤ) (hr : r = x - q * y)
    (h1 : |r| ≤ |x|) (h2 : |r| ≤ |y|) : Rep p emin r := by
  obtain ⟨m, e, he, hm, rfl⟩ := hx
  obtain ⟨n, f, hf, hn, rfl⟩ := hy
  rcases le_total e f with h | h
  · obtain ⟨d, hd⟩ := Int.eq_ofNat_of_zero_le (sub_nonneg.2 h)
    have e1 : r = ((m - q * (n * 2 ^ d) : ℤ) : ℝ) * (2 : ℝ) ^ e := by
      rw [hr, show f = (d : ℤ) + e by omega, zpow_add₀ (by norm_num), zpow_natCast]
      push_cast; ring
    refine ⟨_, e, he, ?_, e1⟩
    have hp : (0 : ℝ) < (2 : ℝ) ^ e := by positivity
    rw [e1, abs_mul, abs_mul, mul_le_mul_iff_left₀ (abs_pos.2 (ne_of_gt hp))] at h1
    have : |m - q * (n * 2 ^ d)| ≤ |m| := by exact_mod_cast h1
    omega
  · obtain ⟨d, hd⟩ := Int.eq_ofNat_of_zero_le (sub_nonneg.2 h)
    have e1 : r = ((m * 2 ^ d - q * n : ℤ) : ℝ) * (2 : ℝ) ^ f := by
      rw [hr, show e = (d : ℤ) + f by omega, zpow_add₀ (by norm_num), zpow_natCast]
      push_cast; ring
    refine ⟨_, f, hf, ?_, e1⟩
    have hp : (0 : ℝ) < (2 : ℝ) ^ f := by positivity
    rw [e1, abs_mul, abs_mul, mul_le_mul_iff_left₀ (abs_pos.2 (ne_of_gt hp))] at h2
    have : |m * 2 ^ d - q * n| ≤ |n| := by exact_mod_cast h2
    omega

/-- a number of few bits which is a multiple of the least number is representable -/
theorem Rep.of_multiple {p : ℕ} {emin : ℤ} {z : ℝ} (m e : ℤ) (hm : |m| < 2 ^ p) (h : z = m * (2 : ℝ) ^ e) (b : ℤ)
    (hb : z = b * (2 : ℝ) ^ emin) : Rep p emin z := by
  rcases le_total emin e with he | he
  · exact ⟨m, e, he, hm, h⟩
  · refine ⟨b, emin, le_refl _, ?_, hb⟩
    have hp : (0 : ℝ) < (2 : ℝ) ^ emin := by positivity
    have h1 : |(b : ℝ)| * (2 : ℝ) ^ emin ≤ |(m : ℝ)| * (2 : ℝ) ^ emin := by
      have : |(b : ℝ)| * (2 : ℝ) ^ emin = |(m : ℝ)| * (2 : ℝ) ^ e := by
        rw [← abs_of_pos hp, ← abs_mul, ← hb, h, abs_mul, abs_of_pos (by positivity : (0 : ℝ) < (2 : ℝ) ^ e)]
      rw [this]
      exact mul_le_mul_of_nonneg_left (zpow_le_zpow_right₀ (by norm_num) he) (abs_nonneg _)
    have h2 : |(b : ℝ)| ≤ |(m : ℝ)| := le_of_mul_le_mul_right h1 hp
    have : |b| ≤ |m| := by exact_mod_cast h2
    omega

theorem Rep.multiple {p : ℕ} {emin : ℤ} {z : ℝ} (h : Rep p emin z) : ∃ b : ℤ, z = b * (2 : ℝ) ^ emin := by
  obtain ⟨m, e, he, _, rfl⟩ := h
  obtain ⟨d, hd⟩ := Int.eq_ofNat_of_zero_le (sub_nonneg.2 he)
  refine ⟨m * 2 ^ d, ?_⟩
  rw [show e = (d : ℤ) + emin by omega, zpow_add₀ (by norm_num), zpow_natCast]
  push_cast; ring

theorem Rep.grid {p : ℕ} {emin : ℤ} {z : ℝ} (h : Rep p emin z) (h1 : 1 ≤ z) : ∃ b : ℤ, z = b * (2 : ℝ) ^ (1 - (p : ℤ)) := by
  obtain ⟨m, e, he, hm, rfl⟩ := h
  have hc : 1 - (p : ℤ) ≤ e := by
    by_contra hc
    have hm' : (m : ℝ) < (2 : ℝ) ^ (p : ℤ) := by
      rw [zpow_natCast]; exact lt_of_le_of_lt (le_abs_self _) (by exact_mod_cast hm)
    have : (m : ℝ) * (2 : ℝ) ^ e < 1 := by
      calc (m : ℝ) * (2 : ℝ) ^ e < (2 : ℝ) ^ (p : ℤ) * (2 : ℝ) ^ e := mul_lt_mul_of_pos_right hm' (by positivity)
        _ = (2 : ℝ) ^ ((p : ℤ) + e) := by rw [zpow_add₀ (by norm_num)]
        _ ≤ (2 : ℝ) ^ (0 : ℤ) := zpow_le_zpow_right₀ (by norm_num) (by omega)
        _ = 1 := by norm_num
    linarith
  obtain ⟨d, hd⟩ := Int.eq_ofNat_of_zero_le (sub_nonneg.2 hc)
  refine ⟨m * 2 ^ d, ?_⟩
  rw [show e = (d : ℤ) + (1 - (p : ℤ)) by omega, zpow_add₀ (by norm_num), zpow_natCast]
  push_cast; ring

namespace MathMod

variable {F C : Fmt}

/-- a multiple of the last place of the numbers from one to two -/
def Grid (C : Fmt) (x : ℝ) : Prop := ∃ a : ℤ, x = a * (2 : ℝ) ^ (1 - (C.p : ℤ))

theorem Grid.rep {x : ℝ} (h : Grid C x) (h2 : |x| < 2) : Rep C.p C.emin x := by
  obtain ⟨a, rfl⟩ := h
  refine ⟨a, 1 - (C.p : ℤ), by have := C.emin_le; have := C.two_le_p; omega, ?_, rfl⟩
  have hp : (0 : ℝ) < (2 : ℝ) ^ (1 - (C.p : ℤ)) := by positivity
  rw [abs_mul, abs_of_pos hp] at h2
  have e : (2 : ℝ) = ((2 ^ C.p : ℤ) : ℝ) * (2 : ℝ) ^ (1 - (C.p : ℤ)) := by
    push_cast
    rw [← zpow_natCast, ← zpow_add₀ (by norm_num)]
    rw [show (C.p : ℤ) + (1 - C.p) = 1 by ring]; norm_num
  have h3 : |(a : ℝ)| < ((2 ^ C.p : ℤ) : ℝ) := by
    by_contra hc
    have := mul_le_mul_of_nonneg_right (not_lt.1 hc) (le_of_lt hp)
    linarith
  exact_mod_cast h3

theorem Grid.rep_double {x : ℝ} (h : Grid C x) (h2 : |x| < 2) : Rep C.p C.emin (x + x) := by
  obtain ⟨a, hx⟩ := id h
  obtain ⟨m, e, he, hm, hx'⟩ := h.rep h2
  exact ⟨m, e + 1, by omega, hm, by rw [zpow_add₀ (by norm_num), zpow_one, hx']; ring⟩

theorem Grid.add {x y : ℝ} (h : Grid C x) (h2 : Grid C y) : Grid C (x + y) := by
  obtain ⟨a, rfl⟩ := h
  obtain ⟨b, rfl⟩ := h2
  exact ⟨a + b, by push_cast; ring⟩

theorem Grid.sub {x y : ℝ} (h : Grid C x) (h2 : Grid C y) : Grid C (x - y) := by
  obtain ⟨a, rfl⟩ := h
  obtain ⟨b, rfl⟩ := h2
  exact ⟨a - b, by push_cast; ring⟩

theorem four_le (C : Fmt) : (4 : ℝ) < (2 : ℝ) ^ C.emax := by
  calc (4 : ℝ) = (2 : ℝ) ^ (2 : ℤ) := by norm_num
    _ < _ := zpow_lt_zpow_right₀ (by norm_num) C.emax_pos

/-- the state of the long division -/
structure State (C : Fmt) (X Y : ℝ) : Prop where
  gx : Grid C X
  gy : Grid C Y
  x0 : 0 ≤ X
  lt : X < 2 * Y
  y0 : 0 < Y
  y2 : Y < 2
  rx : Rep C.p C.emin X

theorem State.sub {X Y : ℝ} (h : State C X Y) (hc : Y ≤ X) : C.sub (mkv false X) (mkv false Y) = mkv false (X - Y) := by
  have := four_le C
  have := h.lt; have := h.y2
  refine sub_pos_mkv hc (ne_of_gt h.y0) ((h.gx.sub h.gy).rep ?_) ?_ <;> rw [abs_of_nonneg (by linarith)] <;> linarith

theorem State.test {X Y : ℝ} (h : State C X Y) :
    (FV.zero false).le (C.sub (mkv false X) (mkv false Y)) ↔ Y ≤ X := by
  have := four_le C
  have := h.lt; have := h.y2; have := h.x0; have := h.y0
  have hb : |X - Y| < 2 := by rw [abs_lt]; constructor <;> linarith
  obtain ⟨u, hu⟩ := sub_mkv (F := C) (s := false) (t := false) (a := X) (b := Y) ((h.gx.sub h.gy).rep hb) (by linarith)
  rw [hu, zero_eq, le_mkv]
  constructor <;> intro <;> linarith

theorem State.step_pos {X Y : ℝ} (h : State C X Y) (hc : Y ≤ X) :
    C.add (C.sub (mkv false X) (mkv false Y)) (C.sub (mkv false X) (mkv false Y)) = mkv false (X - Y + (X - Y)) ∧
    State C (X - Y + (X - Y)) Y := by
  have := four_le C
  have := h.lt; have := h.y2; have := h.x0; have := h.y0
  have hb : |X - Y| < 2 := by rw [abs_lt]; constructor <;> linarith
  have hr := (h.gx.sub h.gy).rep_double hb
  rw [h.sub hc]
  refine ⟨add_pos_mkv (by linarith) (by linarith) hr ?_,
    ⟨(h.gx.sub h.gy).add (h.gx.sub h.gy), h.gy, by linarith, by linarith, h.y0, h.y2, hr⟩⟩
  rw [abs_of_nonneg (by linarith)]; linarith

theorem State.step_neg {X Y : ℝ} (h : State C X Y) (hc : ¬ Y ≤ X) :
    C.add (mkv false X) (mkv false X) = mkv false (X + X) ∧ State C (X + X) Y := by
  have := four_le C
  have := h.lt; have := h.y2; have := h.x0; have := h.y0
  have hc := not_le.1 hc
  have hb : |X| < 2 := by rw [abs_lt]; constructor <;> linarith
  have hr := h.gx.rep_double hb
  refine ⟨add_pos_mkv (by linarith) (by linarith) hr ?_, ⟨h.gx.add h.gx, h.gy, by linarith, by linarith, h.y0, h.y2, hr⟩⟩
  rw [abs_of_nonneg (by linarith)]; linarith

theorem fmod5_eq (x y : FV) (iscy : ℤ) (n : ℕ) (X Y : ℝ) (h : State C X Y) :
    ∃ (X' : ℝ) (q : ℕ), State C X' Y ∧ X * 2 ^ n = X' + 2 * q * Y ∧
      fmod5 C x y (mkv false Y) iscy n (mkv false X) (C.sub (mkv false X) (mkv false Y)) =
        (scalbn C C minInt (mkv false X') iscy).map (fmod6 C x y) := by
  induction n generalizing X with
  | zero => exact ⟨X, 0, h, by simp, rfl⟩
  | succ n ih =>
    by_cases hc : Y ≤ X
    · obtain ⟨e, hs⟩ := h.step_pos hc
      obtain ⟨X', q, h1, h2, h3⟩ := ih _ hs
      refine ⟨X', q + 2 ^ n, h1, ?_, ?_⟩
      · rw [pow_succ]; push_cast; linear_combination h2
      · unfold fmod5
        rw [if_pos (h.test.2 hc), e, h3]
    · obtain ⟨e, hs⟩ := h.step_neg hc
      obtain ⟨X', q, h1, h2, h3⟩ := ih _ hs
      refine ⟨X', q, h1, ?_, ?_⟩
      · rw [pow_succ]; linear_combination h2
      · unfold fmod5
        rw [if_neg (fun hh => hc (h.test.1 hh)), e, h3]

theorem remQuo5_eq (lo hi : ℤ) (hlo : lo ≤ 0) (x y : FV) (k iscy : ℤ) (n : ℕ) (iquo : ℤ) (hq : 0 ≤ iquo) (X Y : ℝ)
    (h : State C X Y) :
    ∃ (X' : ℝ) (q : ℕ), State C X' Y ∧ X * 2 ^ n = X' + 2 * q * Y ∧
      (iquo * 2 ^ n + 2 * q ≤ hi →
      remQuo5 C lo hi x y k (mkv false Y) iscy n iquo (mkv false X) (C.sub (mkv false X) (mkv false Y)) =
        (scalbn C C minInt (mkv false X') iscy).bind (remQuo6 C lo hi x y k (iquo * 2 ^ n + 2 * q))) ∧
      (iquo ≤ hi → hi < iquo * 2 ^ n + 2 * q →
      remQuo5 C lo hi x y k (mkv false Y) iscy n iquo (mkv false X) (C.sub (mkv false X) (mkv false Y)) = none) := by
  induction n generalizing X iquo with
  | zero => exact ⟨X, 0, h, by simp, fun _ => by simp [remQuo5], fun h1 h2 => by simp at h2; omega⟩
  | succ n ih =>
    have hp : (1 : ℤ) ≤ 2 ^ n := one_le_pow₀ (by norm_num)
    by_cases hc : Y ≤ X
    · obtain ⟨e, hs⟩ := h.step_pos hc
      obtain ⟨X', q, h1, h2, h3, h4⟩ := ih (iquo + iquo + 2) (by omega) _ hs
      have e1 : (iquo + iquo + 2) * 2 ^ n + 2 * (q : ℤ) = iquo * 2 ^ (n + 1) + 2 * ((q + 2 ^ n : ℕ) : ℤ) := by
        rw [pow_succ]; push_cast; ring
      have hge : iquo + iquo + 2 ≤ (iquo + iquo + 2) * 2 ^ n := by nlinarith
      refine ⟨X', q + 2 ^ n, h1, ?_, ?_, ?_⟩
      · rw [pow_succ]; push_cast; linear_combination h2
      · intro hhi
        rw [← e1] at hhi
        unfold remQuo5
        rw [if_pos (h.test.2 hc), e]
        unfold inTo
        rw [if_pos ⟨by omega, by omega⟩, Option.bind_some, if_pos ⟨by omega, by omega⟩, Option.bind_some, h3 hhi, e1]
      · intro hi1 hi2
        rw [← e1] at hi2
        unfold remQuo5
        rw [if_pos (h.test.2 hc), e]
        unfold inTo
        by_cases c1 : iquo + iquo ≤ hi
        · rw [if_pos ⟨by omega, by omega⟩, Option.bind_some]
          by_cases c2 : iquo + iquo + 2 ≤ hi
          · rw [if_pos ⟨by omega, by omega⟩, Option.bind_some, h4 c2 hi2]
          · rw [if_neg (by omega)]; rfl
        · rw [if_neg (by omega)]; rfl
    · obtain ⟨e, hs⟩ := h.step_neg hc
      obtain ⟨X', q, h1, h2, h3, h4⟩ := ih (iquo + iquo) (by omega) _ hs
      have e1 : (iquo + iquo) * 2 ^ n + 2 * (q : ℤ) = iquo * 2 ^ (n + 1) + 2 * (q : ℤ) := by rw [pow_succ]; ring
      have hge : iquo + iquo ≤ (iquo + iquo) * 2 ^ n := by nlinarith
      refine ⟨X', q, h1, ?_, ?_, ?_⟩
      · rw [pow_succ]; linear_combination h2
      · intro hhi
        rw [← e1] at hhi
        unfold remQuo5
        rw [if_neg (fun hh => hc (h.test.1 hh)), e]
        unfold inTo
        rw [if_pos ⟨by omega, by omega⟩, Option.bind_some, h3 hhi, e1]
      · intro hi1 hi2
        rw [← e1] at hi2
        unfold remQuo5
        rw [if_neg (fun hh => hc (h.test.1 hh)), e]
        unfold inTo
        by_cases c1 : iquo + iquo ≤ hi
        · rw [if_pos ⟨by omega, by omega⟩, Option.bind_some, h4 c1 hi2]
        · rw [if_neg (by omega)]; rfl

/-- scaling which is exact -/
theorem scalbn_exact {X : ℝ} {k : ℤ} (hX : 0 ≤ X) (hr : Rep C.p C.emin X) (hb : |X| < (2 : ℝ) ^ C.emax) (hl : k ≠ minInt)
    (h1 : -C.emax < k) (h2 : k < C.emax) (h3 : C.emin ≤ k) (hR : Rep C.p C.emin (X * (2 : ℝ) ^ k))
    (hB : |X * (2 : ℝ) ^ k| < (2 : ℝ) ^ C.emax) : scalbn C C minInt (mkv false X) k = some (mkv false (X * (2 : ℝ) ^ k)) := by
  rcases eq_or_ne X 0 with rfl | h0
  · rw [C90_scalbn_special C C minInt _ k (by simp), zero_mul]
  · rw [mkv_num _ h0, C90_scalbn_partial C minInt X ⟨h0, hr, hb⟩ k hl h1 h2 h3]
    unfold scaled
    rw [decide_eq_false (not_lt.2 hX), ofReal_mkv hR hB]

/-- the start of the long division: the significands -/
theorem start {x : ℝ} (hx : 0 < x) (hr : Rep C.p C.emin x) (hb : |x| < (2 : ℝ) ^ C.emax) {k : ℤ} (hk : IsExp k x)
    (hC : C.emin ≤ 1 - C.emax) (hC2 : C.emax < 2 ^ 30) (h1 : -C.emax < k) :
    scalbn C C minInt (mkv false x) (-k) = some (mkv false (x * (2 : ℝ) ^ (-k))) ∧ Grid C (x * (2 : ℝ) ^ (-k)) ∧
    1 ≤ x * (2 : ℝ) ^ (-k) ∧ x * (2 : ℝ) ^ (-k) < 2 ∧ Rep C.p C.emin (x * (2 : ℝ) ^ (-k)) := by
  have h2 := (exp_range (F := C) ⟨ne_of_gt hx, hr, hb⟩ hk).2
  obtain ⟨b1, b2⟩ := sig_bounds hx hk k
  rw [sub_self, zpow_zero] at b1
  rw [sub_self, zero_add, zpow_one] at b2
  have h4 := four_le C
  have hmin := C.emin_le
  have hp2 := C.two_le_p
  have hR : Rep C.p C.emin (x * (2 : ℝ) ^ (-k)) := by
    refine hr.scale _ (le_refl _) ?_
    rw [abs_of_pos (by linarith)]
    refine le_trans ?_ b1
    rw [← zpow_zero (2 : ℝ)]
    exact zpow_le_zpow_right₀ (by norm_num) (by omega)
  refine ⟨scalbn_exact (le_of_lt hx) hr hb ?_ ?_ ?_ ?_ hR ?_, hR.grid b1, b1, b2, hR⟩
  · unfold minInt; omega
  · omega
  · omega
  · omega
  · rw [abs_of_pos (by linarith)]; linarith

/-- the remainder after the loop, scaled back -/
theorem finish {x y X' : ℝ} (hx : Rep C.p C.emin x) (hy : Rep C.p C.emin y) {k : ℤ} {Y : ℝ} (hS : State C X' Y) (q : ℤ)
    (e : x = X' * (2 : ℝ) ^ k + q * y) (h1 : -C.emax < k) (h2 : k + 1 < C.emax) (h3 : C.emin ≤ k) (hC2 : C.emax < 2 ^ 30) :
    scalbn C C minInt (mkv false X') k = some (mkv false (X' * (2 : ℝ) ^ k)) ∧ Rep C.p C.emin (X' * (2 : ℝ) ^ k) ∧
    |X' * (2 : ℝ) ^ k| < (2 : ℝ) ^ C.emax := by
  have := hS.lt; have := hS.y2; have := hS.x0
  have hk : (0 : ℝ) < (2 : ℝ) ^ k := by positivity
  have hR : Rep C.p C.emin (X' * (2 : ℝ) ^ k) := by
    obtain ⟨m, f, _, hm, hX⟩ := hS.rx
    obtain ⟨a, ha⟩ := hx.multiple
    obtain ⟨b, hb⟩ := hy.multiple
    refine Rep.of_multiple m (f + k) hm (by rw [hX, zpow_add₀ (by norm_num)]; ring) (a - q * b) ?_
    push_cast
    linear_combination ha - q * hb - e
  have hB : |X' * (2 : ℝ) ^ k| < (2 : ℝ) ^ C.emax := by
    rw [abs_of_nonneg (by positivity)]
    calc X' * (2 : ℝ) ^ k < (2 : ℝ) ^ (2 : ℤ) * (2 : ℝ) ^ k := mul_lt_mul_of_pos_right (by norm_num; linarith) hk
      _ = (2 : ℝ) ^ (2 + k) := by rw [zpow_add₀ (by norm_num)]
      _ ≤ _ := zpow_le_zpow_right₀ (by norm_num) (by omega)
  have h4 := four_le C
  exact ⟨scalbn_exact hS.x0 hS.rx (by rw [abs_of_nonneg hS.x0]; linarith) (by unfold minInt; omega) h1 (by omega) h3 hR hB, hR, hB⟩

end MathMod

end Sprout
