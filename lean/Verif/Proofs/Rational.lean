import Verif.Proofs.Gcd
import Verif.Spec.Rational
import Mathlib.RingTheory.Coprime.Lemmas
import Mathlib.Tactic.FieldSimp
import Mathlib.Tactic.Ring
import Mathlib.Tactic.Linarith
import Mathlib.Tactic.LinearCombination

/-! # rational: lemmas -/

namespace Sprout.Rational
open Spec

theorem gcd_eq (a b : Int) : gcd a b = some (Int.gcd a b : Int) := gcdInteger_eq rfl rfl

theorem dv_eq {a b : Int} (h : b ≠ 0) : dv a b = some (a.tdiv b) := by
  rw [dv, IntTy.div, if_neg h]; rfl

theorem md_eq {a b : Int} (h : b ≠ 0) : md a b = some (a.tmod b) := by
  rw [md, IntTy.mod, if_neg h]; rfl

theorem dv_mul {g a : Int} (h : g ≠ 0) : dv (g * a) g = some a := by
  rw [dv_eq h, Int.mul_tdiv_cancel_left _ h]

theorem normal_iff {q : Rational} : Normal q ↔ 0 < q.den ∧ IsCoprime q.num q.den := by
  rw [Normal, and_congr_right_iff]
  intro h
  constructor
  · intro hh
    rw [Int.isCoprime_iff_gcd_eq_one]
    have := hh (Int.gcd q.num q.den) (Int.gcd_dvd_left _ _) (Int.gcd_dvd_right _ _)
    have := Int.eq_one_of_dvd_one (by omega) this
    omega
  · intro hc d h1 h2
    exact (hc.isUnit_of_dvd' h1 h2).dvd

/-- dividing by the gcd -/
theorem gcd_split {a b : Int} (h : a ≠ 0 ∨ b ≠ 0) :
    ∃ g x y : Int, gcd a b = some g ∧ 0 < g ∧ a = g * x ∧ b = g * y ∧ IsCoprime x y := by
  obtain ⟨x, hx⟩ := Int.gcd_dvd_left a b
  obtain ⟨y, hy⟩ := Int.gcd_dvd_right a b
  have hg : 0 < Int.gcd a b := Nat.pos_of_ne_zero fun h0 => by
    have := Int.gcd_eq_zero_iff.1 h0; omega
  refine ⟨Int.gcd a b, x, y, gcd_eq a b, by omega, hx, hy, ?_⟩
  have h1 := congrArg₂ Int.gcd hx hy
  rw [Int.gcd_mul_left, Int.natAbs_natCast] at h1
  rw [Int.isCoprime_iff_gcd_eq_one]
  exact Nat.eq_of_mul_eq_mul_left hg (by omega)

theorem dv_mul' {g a b : Int} (h : 0 < g) (hb : b = g * a) : dv b g = some a := by
  rw [hb]; exact dv_mul (by omega)

/-- construction -/
theorem mk2_eq {n d : Int} (hd : d ≠ 0) :
    ∃ q, mk2 n d = some (.ret q) ∧ Normal q ∧ val q = (n : ℚ) / d := by
  by_cases hn : n = 0
  · refine ⟨⟨0, 1⟩, ?_, normal_iff.2 ⟨by decide, isCoprime_one_right⟩, by simp [val, hn]⟩
    rw [mk2, normalizeG, if_neg hd, if_pos hn]
    simp only [Option.bind_eq_bind, Option.bind_some, dv_eq hd, hn, Int.zero_tdiv, Int.tdiv_self hd]
  · obtain ⟨g, x, y, h1, h2, h3, h4, h5⟩ := gcd_split (Or.inl hn : n ≠ 0 ∨ d ≠ 0)
    have hy : y ≠ 0 := by rintro rfl; simp at h4; exact hd h4
    have hyq : (y : ℚ) ≠ 0 := by exact_mod_cast hy
    have hgq : (g : ℚ) ≠ 0 := by exact_mod_cast (show g ≠ 0 by omega)
    rw [mk2, normalizeG, if_neg hd, if_neg hn, h1]
    simp only [Option.bind_eq_bind, Option.bind_some, normalizeG1, dv_mul' h2 h4]
    by_cases hs : y < 0
    · rw [if_pos hs, show dv n (-g) = some (-x) by rw [show n = -g * -x by rw [h3]; ring]; exact dv_mul (by omega),
        show dv d (-g) = some (-y) by rw [show d = -g * -y by rw [h4]; ring]; exact dv_mul (by omega)]
      refine ⟨_, rfl, normal_iff.2 ⟨by simpa using hs, h5.neg_neg⟩, ?_⟩
      simp only [val, h3, h4]
      push_cast
      field_simp
    · rw [if_neg hs, dv_mul' h2 h3, dv_mul' h2 h4]
      refine ⟨_, rfl, normal_iff.2 ⟨by simp; omega, h5⟩, ?_⟩
      simp only [val, h3, h4]
      push_cast
      field_simp

/-- the steps of addition: everything is defined, and the result is right -/
theorem add_steps {n1 d1 n2 d2 : Int} (h1 : 0 < d1) (h2 : 0 < d2) (c1 : IsCoprime n1 d1) (c2 : IsCoprime n2 d2) :
    ∃ g e1 e2 g' n' b : Int, gcd d1 d2 = some g ∧ dv d1 g = some e1 ∧ dv d2 g = some e2 ∧
      gcd (n1 * e2 + n2 * e1) g = some g' ∧ dv (n1 * e2 + n2 * e1) g' = some n' ∧ dv d2 g' = some b ∧
      Normal ⟨n', e1 * b⟩ ∧ val ⟨n', e1 * b⟩ = (n1 : ℚ) / d1 + (n2 : ℚ) / d2 := by
  obtain ⟨g, e1, e2, hg, gp, hd1, hd2, hc⟩ := gcd_split (Or.inl (by omega) : d1 ≠ 0 ∨ d2 ≠ 0)
  obtain ⟨g', n', h, hg', gp', hn', hh, hc'⟩ :=
    gcd_split (Or.inr (by omega) : n1 * e2 + n2 * e1 ≠ 0 ∨ g ≠ 0)
  have he1 : 0 < e1 := by rw [hd1] at h1; exact Int.pos_of_mul_pos_right h1 gp
  have he2 : 0 < e2 := by rw [hd2] at h2; exact Int.pos_of_mul_pos_right h2 gp
  have hhp : 0 < h := by rw [hh] at gp; exact Int.pos_of_mul_pos_right gp gp'
  have hb : d2 = g' * (e2 * h) := by rw [hd2]; conv_lhs => rw [hh]
                                     ring
  refine ⟨g, e1, e2, g', n', e2 * h, hg, dv_mul' gp hd1, dv_mul' gp hd2, hg', dv_mul' gp' hn', dv_mul' gp' hb, ?_, ?_⟩
  · rw [normal_iff]
    refine ⟨Int.mul_pos he1 (Int.mul_pos he2 hhp), ?_⟩
    have t1 : IsCoprime (n1 * e2 + n2 * e1) e1 := by
      have : IsCoprime (n1 * e2) e1 := IsCoprime.mul_left (c1.of_isCoprime_of_dvd_right ⟨g, by rw [hd1]; ring⟩) hc.symm
      exact this.add_mul_right_left n2
    have t2 : IsCoprime (n1 * e2 + n2 * e1) e2 := by
      have : IsCoprime (n2 * e1) e2 := IsCoprime.mul_left (c2.of_isCoprime_of_dvd_right ⟨g, by rw [hd2]; ring⟩) hc
      rw [add_comm]; exact this.add_mul_right_left n1
    have hdv : n' ∣ n1 * e2 + n2 * e1 := ⟨g', by rw [hn']; ring⟩
    exact (t1.of_isCoprime_of_dvd_left hdv).mul_right ((t2.of_isCoprime_of_dvd_left hdv).mul_right hc')
  · have q1 : (e1 : ℚ) ≠ 0 := by exact_mod_cast (show e1 ≠ 0 by omega)
    have q2 : (e2 : ℚ) ≠ 0 := by exact_mod_cast (show e2 ≠ 0 by omega)
    have q3 : (h : ℚ) ≠ 0 := by exact_mod_cast (show h ≠ 0 by omega)
    have q4 : (g' : ℚ) ≠ 0 := by exact_mod_cast (show g' ≠ 0 by omega)
    have e : ((n1 : ℚ) * e2 + n2 * e1) = g' * n' := by exact_mod_cast hn'
    simp only [val, hd1, hd2]
    conv_rhs => rw [hh]
    push_cast
    rw [div_add_div _ _ (by simp [q1, q4, q3]) (by simp [q2, q3, q4]), div_eq_div_iff (by simp [q1, q2, q3]) (by simp [q1, q2, q3, q4])]
    linear_combination (-(g' : ℚ) * h * e1 * e2 * h) * e

theorem mul_steps {n1 d1 n2 d2 : Int} (h1 : 0 < d1) (h2 : 0 < d2) (c1 : IsCoprime n1 d1) (c2 : IsCoprime n2 d2) :
    ∃ g1 g2 a b c d : Int, gcd n1 d2 = some g1 ∧ gcd n2 d1 = some g2 ∧ dv n1 g1 = some a ∧ dv n2 g2 = some b ∧
      dv d1 g2 = some c ∧ dv d2 g1 = some d ∧
      Normal ⟨a * b, c * d⟩ ∧ val ⟨a * b, c * d⟩ = (n1 : ℚ) / d1 * ((n2 : ℚ) / d2) := by
  obtain ⟨g1, a, d, hg1, p1, ha, hd, hc1⟩ := gcd_split (Or.inr (by omega) : n1 ≠ 0 ∨ d2 ≠ 0)
  obtain ⟨g2, b, c, hg2, p2, hb, hc, hc2⟩ := gcd_split (Or.inr (by omega) : n2 ≠ 0 ∨ d1 ≠ 0)
  have hcp : 0 < c := by rw [hc] at h1; exact Int.pos_of_mul_pos_right h1 p2
  have hdp : 0 < d := by rw [hd] at h2; exact Int.pos_of_mul_pos_right h2 p1
  refine ⟨g1, g2, a, b, c, d, hg1, hg2, dv_mul' p1 ha, dv_mul' p2 hb, dv_mul' p2 hc, dv_mul' p1 hd, ?_, ?_⟩
  · rw [normal_iff]
    refine ⟨Int.mul_pos hcp hdp, ?_⟩
    have t1 : IsCoprime a c :=
      (c1.of_isCoprime_of_dvd_left ⟨g1, by rw [ha]; ring⟩).of_isCoprime_of_dvd_right ⟨g2, by rw [hc]; ring⟩
    have t2 : IsCoprime b d :=
      (c2.of_isCoprime_of_dvd_left ⟨g2, by rw [hb]; ring⟩).of_isCoprime_of_dvd_right ⟨g1, by rw [hd]; ring⟩
    exact (t1.mul_right hc1).mul_left (hc2.mul_right t2)
  · have q1 : (c : ℚ) ≠ 0 := by exact_mod_cast (show c ≠ 0 by omega)
    have q2 : (d : ℚ) ≠ 0 := by exact_mod_cast (show d ≠ 0 by omega)
    have q3 : (g1 : ℚ) ≠ 0 := by exact_mod_cast (show g1 ≠ 0 by omega)
    have q4 : (g2 : ℚ) ≠ 0 := by exact_mod_cast (show g2 ≠ 0 by omega)
    simp only [val, ha, hb, hc, hd]
    push_cast
    field_simp

theorem div_steps {n1 d1 n2 d2 : Int} (h1 : 0 < d1) (h2 : 0 < d2) (z1 : n1 ≠ 0) (z2 : n2 ≠ 0)
    (c1 : IsCoprime n1 d1) (c2 : IsCoprime n2 d2) :
    ∃ g1 g2 a b c d : Int, gcd n1 n2 = some g1 ∧ gcd d2 d1 = some g2 ∧ dv n1 g1 = some a ∧ dv d2 g2 = some b ∧
      dv d1 g2 = some c ∧ dv n2 g1 = some d ∧
      ∃ q : Rational, (if c * d < 0 then (⟨-(a * b), -(c * d)⟩ : Rational) else ⟨a * b, c * d⟩) = q ∧
        Normal q ∧ val q = (n1 : ℚ) / d1 / ((n2 : ℚ) / d2) := by
  obtain ⟨g1, a, d, hg1, p1, ha, hd, hc1⟩ := gcd_split (Or.inl z1 : n1 ≠ 0 ∨ n2 ≠ 0)
  obtain ⟨g2, b, c, hg2, p2, hb, hc, hc2⟩ := gcd_split (Or.inr (by omega) : d2 ≠ 0 ∨ d1 ≠ 0)
  have hcp : 0 < c := by rw [hc] at h1; exact Int.pos_of_mul_pos_right h1 p2
  have hbp : 0 < b := by rw [hb] at h2; exact Int.pos_of_mul_pos_right h2 p2
  have hdn : d ≠ 0 := by rintro rfl; simp at hd; exact z2 hd
  have hco : IsCoprime (a * b) (c * d) := by
    have t1 : IsCoprime a c :=
      (c1.of_isCoprime_of_dvd_left ⟨g1, by rw [ha]; ring⟩).of_isCoprime_of_dvd_right ⟨g2, by rw [hc]; ring⟩
    have t2 : IsCoprime b d :=
      (c2.symm.of_isCoprime_of_dvd_left ⟨g2, by rw [hb]; ring⟩).of_isCoprime_of_dvd_right ⟨g1, by rw [hd]; ring⟩
    exact (t1.mul_right hc1).mul_left (hc2.mul_right t2)
  have q1 : (c : ℚ) ≠ 0 := by exact_mod_cast (show c ≠ 0 by omega)
  have q2 : (d : ℚ) ≠ 0 := by exact_mod_cast hdn
  have q3 : (g1 : ℚ) ≠ 0 := by exact_mod_cast (show g1 ≠ 0 by omega)
  have q4 : (g2 : ℚ) ≠ 0 := by exact_mod_cast (show g2 ≠ 0 by omega)
  have q5 : (b : ℚ) ≠ 0 := by exact_mod_cast (show b ≠ 0 by omega)
  have hnz : c * d ≠ 0 := Int.mul_ne_zero (by omega) hdn
  refine ⟨g1, g2, a, b, c, d, hg1, hg2, dv_mul' p1 ha, dv_mul' p2 hb, dv_mul' p2 hc, dv_mul' p1 hd, _, rfl, ?_⟩
  split
  · rename_i hneg
    refine ⟨normal_iff.2 ⟨by simp only; omega, hco.neg_neg⟩, ?_⟩
    simp only [val, ha, hb, hc, hd]
    push_cast
    field_simp
  · rename_i hneg
    refine ⟨normal_iff.2 ⟨by simp only; omega, hco⟩, ?_⟩
    simp only [val, ha, hb, hc, hd]
    push_cast
    field_simp

end Sprout.Rational
