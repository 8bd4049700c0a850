import Verif.Model.Engines
import Verif.Props.C39

/-!
# C61: additive combination of two multiplicative engines

The numbers `x` in `[1, m1)` and `y` in `[1, m2)` are combined to `x - y` modulo `m1 - 1`, represented in `[1, m1 - 1]`. Holds if `m2 <= m1`
(in particular for `ecuyer1988`); refuted otherwise.
-/

namespace Sprout
open CMod CInt Additive

/-- `r` is the representative of `x - y` modulo `m1 - 1` in `[1, m1 - 1]` -/
def Spec.Combined (m1 x y r : Int) : Prop := 1 ≤ r ∧ r ≤ m1 - 1 ∧ (m1 - 1) ∣ r - (x - y)

/-- the full statement -/
def C61_statement : Prop := ∀ (T : CInt) (m1 m2 x y : Int), T.Std → 2 ≤ m1 → m1 ≤ T.max → 2 ≤ m2 → m2 ≤ T.max → 1 ≤ x → x < m1 → 1 ≤ y → y < m2 →
  ∃ r, combine T m1 x y = some r ∧ Spec.Combined m1 x y r

/-- `m1 = 5`, `m2 = 11`: 1 and 10 give -5 -/
theorem C61_moduli_false : ¬ C61_statement := by
  intro h
  obtain ⟨r, h1, h2, -⟩ := h .int32 5 11 1 10 (by decide) (by decide) (by decide) (by decide) (by decide) (by decide) (by decide) (by decide) (by decide)
  have : combine .int32 5 1 10 = some (-5) := by decide
  rw [this] at h1
  cases h1
  exact absurd h2 (by decide)

theorem C61_combine_partial (T : CInt) (m1 m2 x y : Int) (hT : T.Std) (h1 : 2 ≤ m1) (h1T : m1 ≤ T.max) (hm : m2 ≤ m1) (hx : 1 ≤ x) (hxm : x < m1)
    (hy : 1 ≤ y) (hym : y < m2) : ∃ r, combine T m1 x y = some r ∧ Spec.Combined m1 x y r := by
  obtain ⟨b1, b2, b3, b4, b5, b6⟩ := hT.bounds
  have hc : T.conv y = y := conv_ok hT (has_nn hT (by omega) (by omega))
  unfold combine
  simp only [hc]
  by_cases hlt : y < x
  · refine ⟨x - y, ?_, by omega, by omega, by simp⟩
    rw [arith_ok hT (has_nn hT (by omega) (by omega))]
    simp only [Option.bind_eq_bind, Option.bind_some, if_pos hlt]
    rw [conv_ok hT (has_nn hT (by omega) (by omega))]
  · refine ⟨x - y + m1 - 1, ?_, by omega, by omega, 1, by omega⟩
    simp only [Option.bind_eq_bind, if_neg hlt]
    have last : T.ar (x - y + m1 - 1) = some (x - y + m1 - 1) := ar_ok hT (has_nn hT (by omega) (by omega))
    unfold CInt.arith
    by_cases hw : T.w < 32
    · have := b3 hw
      simp only [if_pos hw]
      rw [if_pos (by omega)]
      simp only [Option.bind_some]
      rw [if_pos (by omega)]
      exact last
    · simp only [if_neg hw]
      by_cases hs : T.sg = true
      · have := b4 hs
        simp only [if_pos hs]
        rw [if_pos (by unfold Has; omega)]
        simp only [Option.bind_some]
        rw [if_pos (by unfold Has; omega)]
        exact last
      · simp only [if_neg hs, Option.bind_some]
        rw [Int.emod_add_emod, Int.emod_eq_of_lt (by omega) (by omega)]
        exact last

/-- two multiplicative engines: their combination runs for ever, stays in `[min(), max()]` and is what it should be -/
theorem C61_next_partial (T : CInt) (a1 m1 a2 m2 x y : Int) (h1 : LcgParams T a1 0 m1) (h2 : LcgParams T a2 0 m2) (hm : m2 ≤ m1)
    (hp1 : m1 * m1 < 2 ^ 64) (hx : 1 ≤ x ∧ x < m1) (hy : 1 ≤ y ∧ y < m2) (hg1 : Int.gcd a1 m1 = 1) (hg2 : Int.gcd a2 m2 = 1) :
    ∃ r, Additive.next T m1 (fun s => (Lcg.next T a1 0 m1 s).map fun v => (v, v)) (fun s => (Lcg.next T a2 0 m2 s).map fun v => (v, v)) (x, y) =
        some (r, a1 * x % m1, a2 * y % m2) ∧
      Spec.Combined m1 (a1 * x % m1) (a2 * y % m2) r ∧ Additive.min ≤ r ∧ r ≤ Additive.max m1 ∧
      (1 ≤ a1 * x % m1 ∧ a1 * x % m1 < m1) ∧ (1 ≤ a2 * y % m2 ∧ a2 * y % m2 < m2) := by
  have hp2 : m2 * m2 < 2 ^ 64 := by have := h2.m1; nlinarith
  have e1 := C39_next_partial T a1 0 m1 x h1 (by omega) (by omega) (Or.inr (Or.inl hp1))
  have e2 := C39_next_partial T a2 0 m2 y h2 (by omega) (by omega) (Or.inr (Or.inl hp2))
  have r1 := C39_range_partial a1 0 m1 x (by omega) (by simpa [Lcg.staticMin] using hx.1) (by unfold Lcg.staticMax; omega) (Or.inr hg1)
  have r2 := C39_range_partial a2 0 m2 y (by omega) (by simpa [Lcg.staticMin] using hy.1) (by unfold Lcg.staticMax; omega) (Or.inr hg2)
  simp only [Lcg.staticMin, Lcg.staticMax, Int.add_zero, if_true] at e1 e2 r1 r2
  obtain ⟨r, e, hr⟩ := C61_combine_partial T m1 m2 (a1 * x % m1) (a2 * y % m2) h1.std (by omega) h1.mT hm r1.1 (by omega) r2.1 (by omega)
  refine ⟨r, ?_, hr, hr.1, hr.2.1, ⟨r1.1, by omega⟩, ⟨r2.1, by omega⟩⟩
  simp [Additive.next, e1, e2, e]

/-- `ecuyer1988` -/
theorem C61_ecuyer1988 (T : CInt) (hT : T = .uint32 ∨ T = .uint64) (x y : Int) (hx : 1 ≤ x ∧ x ≤ 2147483562) (hy : 1 ≤ y ∧ y ≤ 2147483398) :
    ∃ r, Additive.next T 2147483563 (fun s => (Lcg.next T 40014 0 2147483563 s).map fun v => (v, v))
        (fun s => (Lcg.next T 40692 0 2147483399 s).map fun v => (v, v)) (x, y) = some (r, 40014 * x % 2147483563, 40692 * y % 2147483399) ∧
      Spec.Combined 2147483563 (40014 * x % 2147483563) (40692 * y % 2147483399) r := by
  have p1 : LcgParams T 40014 0 2147483563 := by
    rcases hT with rfl | rfl <;> exact ⟨by decide, by decide, by decide, by decide, by decide, by decide, by decide⟩
  have p2 : LcgParams T 40692 0 2147483399 := by
    rcases hT with rfl | rfl <;> exact ⟨by decide, by decide, by decide, by decide, by decide, by decide, by decide⟩
  obtain ⟨r, h1, h2, -⟩ := C61_next_partial T _ _ _ _ x y p1 p2 (by decide) (by decide) ⟨hx.1, by omega⟩ ⟨hy.1, by omega⟩ (by decide) (by decide)
  exact ⟨r, h1, h2⟩

-- the first number of `ecuyer1988` with the default seeds 1 and 1
example : combine .uint32 2147483563 40014 40692 = some 2147482884 ∧ combine .uint32 2147483563 5 3 = some 2 ∧
  combine .uint32 2147483563 5 5 = some 2147483562 := by decide

end Sprout
