import Verif.Model.Gamma
import Mathlib.Algebra.BigOperators.Intervals
import Mathlib.Algebra.BigOperators.Field
import Mathlib.Algebra.Order.BigOperators.Ring.Finset
import Mathlib.Tactic.Linarith
import Mathlib.Tactic.Ring
import Mathlib.Tactic.FieldSimp
import Mathlib.Tactic.NormNum
import Mathlib.Tactic.Positivity

/-! Lemmas for the gamma function -/

namespace Sprout.Gamma

theorem halves_eq (f : ℕ → Option ℝ) (g : ℕ → ℝ) : ∀ (d n last : ℕ), last - n = d → n < last →
    (∀ i, n ≤ i → i < last → f i = some (g i)) → halves f n last = some (∏ i ∈ Finset.Ico n last, g i) := by
  intro d
  induction d using Nat.strong_induction_on with
  | _ d ih =>
    intro n last hd hlt hf
    rw [halves]
    by_cases h1 : last - n = 1
    · have : last = n + 1 := by omega
      subst this
      simp [hf n (le_refl _) (by omega)]
    · rw [if_neg h1, ih (n + (last - n) / 2 - n) (by omega) n _ rfl (by omega) (fun i h h' => hf i h (by omega)),
        ih (last - (n + (last - n) / 2)) (by omega) _ last rfl (by omega) (fun i h h' => hf i (by omega) h')]
      simp only [Option.bind_eq_bind, Option.bind_some, Option.pure_def]
      rw [Finset.prod_Ico_consecutive g (by omega) (by omega)]

theorem foldl_abs (w r : ℝ) (hw : |w| ≤ r) : ∀ (cs : List ℚ) (c a : ℝ), |c| ≤ a →
    |cs.foldl (fun (s : ℝ) (c : ℚ) => s * w + (c : ℝ)) c| ≤ cs.foldl (fun (s : ℝ) (c : ℚ) => s * r + |(c : ℝ)|) a
  | [], c, a, h => h
  | d :: cs, c, a, h => by
    simp only [List.foldl_cons]
    apply foldl_abs w r hw cs
    refine (abs_add_le _ _).trans ?_
    rw [abs_mul]
    have : |c| * |w| ≤ a * r := mul_le_mul h hw (abs_nonneg _) ((abs_nonneg _).trans h)
    linarith

theorem horner_concat (c : ℚ) (cs : List ℚ) (d : ℚ) (t : ℝ) : horner (c :: cs ++ [d]) t = horner (c :: cs) t * t + d := by
  simp [horner, List.foldl_append]

theorem horner_abs (w r : ℝ) (hw : |w| ≤ r) (cs : List ℚ) : |horner cs w| ≤ horner (cs.map abs) r := by
  cases cs with
  | nil => simp [horner]
  | cons c cs =>
    simp only [horner, List.map_cons, List.foldl_map, Rat.cast_abs]
    exact foldl_abs w r hw cs _ _ (le_refl _)

theorem horner_rat (cs : List ℚ) (t : ℚ) :
    horner cs (t : ℝ) = ((match cs with | [] => 0 | c :: cs => cs.foldl (fun r c => r * t + c) c : ℚ) : ℝ) := by
  cases cs with
  | nil => simp [horner]
  | cons c cs =>
    simp only [horner]
    induction cs generalizing c with
    | nil => rfl
    | cons d cs ih =>
      simp only [List.foldl_cons]
      rw [← ih (c * t + d)]
      push_cast
      rfl

theorem implY_pos (w : ℝ) (hw : |w| ≤ 1 / 2) : 0 < implY w := by
  have e : implY w = horner (yCoef.take 13) w * w + (0.99999999999999999 : ℚ) := by
    rw [implY, show yCoef = yCoef.take 13 ++ [0.99999999999999999] from by simp [yCoef]]
    exact horner_concat _ _ _ _
  have h := horner_abs w (1 / 2) hw (yCoef.take 13)
  have hb : horner ((yCoef.take 13).map abs) (1 / 2) ≤ 1 := by
    simp only [yCoef, horner, List.take, List.map, List.foldl]
    norm_num
  have h2 : |horner (yCoef.take 13) w * w| ≤ 1 * (1 / 2) := by
    rw [abs_mul]
    exact mul_le_mul (h.trans hb) hw (abs_nonneg _) (by norm_num)
  have h3 := neg_le_of_abs_le h2
  rw [e]
  norm_num at h3 ⊢
  linarith

theorem implY_zero : implY 0 = 0.99999999999999999 := by
  simp only [implY, yCoef, horner, List.foldl]
  norm_num

theorem implY_neg (w : ℝ) (hw : 4 ≤ w) : implY w < 0 := by
  obtain ⟨u, rfl⟩ : ∃ u, w = u + 4 := ⟨w - 4, by ring⟩
  have hu : 0 ≤ u := by linarith
  have e : implY (u + 4) = -(99771431837 / 500000000000000000 * u ^ 13 +
      9038461526981 / 1000000000000000000 * u ^ 12 +
      1499263077581 / 8000000000000000 * u ^ 11 +
      474261934057533 / 200000000000000000 * u ^ 10 +
      10262532120991297 / 500000000000000000 * u ^ 9 +
      128568751210391031 / 1000000000000000000 * u ^ 8 +
      18741813448405393 / 31250000000000000 * u ^ 7 +
      210963482333481147 / 100000000000000000 * u ^ 6 +
      2797345857424617459 / 500000000000000000 * u ^ 5 +
      5519820967868112267 / 500000000000000000 * u ^ 4 +
      7882749442908938379 / 500000000000000000 * u ^ 3 +
      7694188196246004627 / 500000000000000000 * u ^ 2 +
      577770101503638511 / 62500000000000000 * u ^ 1 +
      1276846345986488437 / 500000000000000000 * u ^ 0) := by
    simp only [implY, yCoef, horner, List.foldl]
    push_cast
    ring
  rw [e, neg_lt_zero]
  positivity

/-- the value for the rounded argument `n` -/
noncomputable def val (x : ℝ) (n : ℤ) : ℝ :=
  if 0 ≤ n then (∏ i ∈ Finset.range n.toNat, (x - 1 - i)) / implY (x - (n + 2))
  else 1 / (implY (x - (n + 2)) * ∏ i ∈ Finset.range (-n).toNat, (x + i))

theorem div_some (a b : ℝ) (h : b ≠ 0) : div a b = some (a / b) := if_neg h

theorem prod_pos_eq (x : ℝ) (k : ℕ) (hk : 1 ≤ k) :
    (x - 1) * ∏ i ∈ Finset.Ico 2 (k + 1), (x - (i : ℝ)) = ∏ i ∈ Finset.range k, (x - 1 - i) := by
  obtain ⟨j, rfl⟩ : ∃ j, k = j + 1 := ⟨k - 1, by omega⟩
  rw [Finset.prod_range_succ', Finset.prod_Ico_eq_prod_range, mul_comm]
  have : j + 1 + 1 - 2 = j := by omega
  rw [this]
  congr 1
  · apply Finset.prod_congr rfl
    intro i _
    push_cast
    ring
  · simp

theorem impl1_eq (lim : ℕ) (hl : 2 ≤ lim) (x : ℝ) (n : ℤ) (h1 : -(lim : ℤ) ≤ n) (h2 : n ≤ lim) (hy : implY (x - (n + 2)) ≠ 0)
    (hp : n = lim → ∀ i : ℕ, i ≤ lim → x - i ≠ 0) (hx : ∀ i : ℕ, x + i ≠ 0) : impl1 lim x n = some (val x n) := by
  unfold impl1 val
  by_cases e1 : n = 1
  · rw [if_pos e1, if_pos (by omega), div_some _ _ hy]
    subst e1
    simp
  rw [if_neg e1]
  by_cases e0 : n = 0
  · rw [if_pos e0, if_pos (by omega), div_some _ _ hy]
    subst e0
    simp
  rw [if_neg e0]
  by_cases el : n = lim
  · have hn : 0 ≤ n := by omega
    obtain ⟨k, rfl⟩ : ∃ k : ℕ, n = k := ⟨n.toNat, by omega⟩
    have ek : k = lim := by exact_mod_cast el
    subst ek
    have hz := hp el
    rw [if_pos el, if_pos hn, tPosRec, show ((k : ℤ) + 1).toNat = k + 1 from by omega,
      halves_eq _ (fun i => 1 / (x - (i : ℝ))) _ 2 (k + 1) rfl (by omega)
        (fun i _ hi => div_some _ _ (hz i (by omega)))]
    have hne : (∏ i ∈ Finset.Ico 2 (k + 1), (x - (i : ℝ))) ≠ 0 := by
      apply Finset.prod_ne_zero_iff.mpr
      intro i hi
      rw [Finset.mem_Ico] at hi
      exact hz i (by omega)
    have ep : (∏ i ∈ Finset.Ico 2 (k + 1), (1 / (x - (i : ℝ)))) = 1 / ∏ i ∈ Finset.Ico 2 (k + 1), (x - (i : ℝ)) := by
      rw [Finset.prod_div_distrib]
      simp
    simp only [Option.bind_eq_bind, Option.bind_some, impl2PosRec, ep]
    rw [if_neg (one_div_ne_zero hne), div_some _ _ hy, Option.bind_some, div_some _ _ (one_div_ne_zero hne), Int.toNat_natCast,
      ← prod_pos_eq x k (by omega)]
    congr 1
    field_simp
  rw [if_neg el]
  by_cases em : n = -lim
  · have hn : ¬ 0 ≤ n := by omega
    rw [if_pos em, if_neg hn, tNegRec, halves_eq _ (fun i => 1 / (x + (i : ℝ))) _ 0 (-n).toNat rfl (by omega)
        (fun i _ hi => div_some _ _ (hx i)), div_some _ _ hy]
    simp only [Option.bind_eq_bind, Option.bind_some, Option.pure_def]
    rw [Finset.prod_div_distrib, Finset.range_eq_Ico]
    congr 1
    simp
    ring
  rw [if_neg em]
  by_cases hn : 1 < n
  · obtain ⟨k, rfl⟩ : ∃ k : ℕ, n = k := ⟨n.toNat, by omega⟩
    rw [if_pos hn, if_pos (by omega), tPos, show ((k : ℤ) + 1).toNat = k + 1 from by omega,
      halves_eq _ (fun i => x - (i : ℝ)) _ 2 (k + 1) rfl (by omega) (fun i _ hi => rfl), div_some _ _ hy]
    simp only [Option.bind_eq_bind, Option.bind_some, Option.pure_def]
    rw [Int.toNat_natCast, ← prod_pos_eq x k (by omega)]
    congr 1
    ring
  · rw [if_neg hn, if_neg (by omega), tNeg, halves_eq _ (fun i => x + (i : ℝ)) _ 0 (-n).toNat rfl (by omega)
        (fun i _ hi => rfl), div_some _ _ hy]
    simp only [Option.bind_eq_bind, Option.bind_some]
    rw [div_some, Finset.range_eq_Ico]
    · congr 1
      rw [div_div]
    · apply Finset.prod_ne_zero_iff.mpr
      intro i _
      exact hx i

theorem val_succ (x : ℝ) (n : ℤ) (hx : x ≠ 0) : val (x + 1) (n + 1) = x * val x n := by
  have ey : x + 1 - (((n + 1 : ℤ) : ℝ) + 2) = x - (n + 2) := by push_cast; ring
  unfold val
  rw [ey]
  by_cases hn : 0 ≤ n
  · rw [if_pos hn, if_pos (by omega), show (n + 1).toNat = n.toNat + 1 from by omega, Finset.prod_range_succ', mul_comm, ← mul_div_assoc]
    congr 2
    · simp
    · apply Finset.prod_congr rfl
      intro i _
      push_cast
      ring
  · rw [if_neg hn]
    obtain ⟨k, rfl⟩ : ∃ k : ℕ, n = -(k + 1 : ℤ) := ⟨(-n - 1).toNat, by omega⟩
    have e1 : (-(-((k : ℤ) + 1))).toNat = k + 1 := by omega
    rw [e1, Finset.prod_range_succ']
    have e2 : ∏ i ∈ Finset.range k, (x + ((i + 1 : ℕ) : ℝ)) = ∏ i ∈ Finset.range k, (x + 1 + i) := by
      apply Finset.prod_congr rfl
      intro i _
      push_cast
      ring
    rw [e2]
    by_cases hk : k = 0
    · subst hk
      simp
      field_simp
    · rw [if_neg (by omega), show (-(-((k : ℤ) + 1) + 1)).toNat = k from by omega]
      simp only [Nat.cast_zero, add_zero]
      rw [← mul_assoc, ← div_div _ _ x, mul_div_cancel₀ _ hx]

/-- `iround` is the nearest number, half away from zero -/
theorem iround_eq (x : ℝ) (n : ℤ) (h1 : (intMin : ℝ) ≤ x) (h2 : x ≤ intMax)
    (hp : 0 ≤ x → (n : ℝ) - 1 / 2 ≤ x ∧ x < n + 1 / 2) (hm : x < 0 → (n : ℝ) - 1 / 2 < x ∧ x ≤ n + 1 / 2) : iround x = .ret n := by
  unfold iround
  by_cases h0 : x = 0
  · rw [if_pos h0]
    obtain ⟨a, b⟩ := hp h0.ge
    rw [h0] at a b
    have : n < 1 := by
      have : (n : ℝ) < ((1 : ℤ) : ℝ) := by push_cast; linarith
      exact_mod_cast this
    have : -1 < n := by
      have : ((-1 : ℤ) : ℝ) < n := by push_cast; linarith
      exact_mod_cast this
    congr 1
    omega
  rw [if_neg h0, if_neg (by push Not; exact ⟨h2, h1⟩)]
  by_cases hx : x < 0
  · rw [if_pos hx, toInt, if_pos hx]
    obtain ⟨a, b⟩ := hm hx
    have c1 := Int.le_ceil x
    have c2 := Int.ceil_lt_add_one x
    congr 1
    by_cases hc : (⌈x⌉ : ℝ) - x < 1 / 2
    · rw [if_pos hc]
      have : (⌈x⌉ : ℝ) < ((n + 1 : ℤ) : ℝ) := by push_cast; linarith
      have : ((n - 1 : ℤ) : ℝ) < ⌈x⌉ := by push_cast; linarith
      have : ⌈x⌉ < n + 1 := by exact_mod_cast ‹(⌈x⌉ : ℝ) < ((n + 1 : ℤ) : ℝ)›
      have : n - 1 < ⌈x⌉ := by exact_mod_cast ‹((n - 1 : ℤ) : ℝ) < ⌈x⌉›
      omega
    · rw [if_neg hc]
      push Not at hc
      have h3 : (⌈x⌉ : ℝ) < ((n + 2 : ℤ) : ℝ) := by push_cast; linarith
      have h4 : ((n : ℤ) : ℝ) < ⌈x⌉ := by linarith
      have h3 : ⌈x⌉ < n + 2 := by exact_mod_cast h3
      have h4 : n < ⌈x⌉ := by exact_mod_cast h4
      omega
  · rw [if_neg hx, toInt, if_neg hx]
    obtain ⟨a, b⟩ := hp (not_lt.mp hx)
    have c1 := Int.floor_le x
    have c2 := Int.lt_floor_add_one x
    congr 1
    by_cases hc : x - (⌊x⌋ : ℝ) < 1 / 2
    · rw [if_pos hc]
      have h3 : (⌊x⌋ : ℝ) < ((n + 1 : ℤ) : ℝ) := by push_cast; linarith
      have h4 : ((n - 1 : ℤ) : ℝ) < ⌊x⌋ := by push_cast; linarith
      have h3 : ⌊x⌋ < n + 1 := by exact_mod_cast h3
      have h4 : n - 1 < ⌊x⌋ := by exact_mod_cast h4
      omega
    · rw [if_neg hc]
      push Not at hc
      have h3 : (⌊x⌋ : ℝ) < ((n : ℤ) : ℝ) := by linarith
      have h4 : ((n - 2 : ℤ) : ℝ) < ⌊x⌋ := by push_cast; linarith
      have h3 : ⌊x⌋ < n := by exact_mod_cast h3
      have h4 : n - 2 < ⌊x⌋ := by exact_mod_cast h4
      omega

/-- the rounded argument exists -/
theorem round_ex (x : ℝ) : ∃ n : ℤ, (0 ≤ x → (n : ℝ) - 1 / 2 ≤ x ∧ x < n + 1 / 2) ∧ (x < 0 → (n : ℝ) - 1 / 2 < x ∧ x ≤ n + 1 / 2) := by
  by_cases hx : 0 ≤ x
  · refine ⟨⌊x + 1 / 2⌋, fun _ => ⟨?_, ?_⟩, fun h => absurd h (not_lt.mpr hx)⟩
    · have := Int.floor_le (x + 1 / 2); linarith
    · have := Int.lt_floor_add_one (x + 1 / 2); linarith
  · refine ⟨⌈x - 1 / 2⌉, fun h => absurd h hx, fun _ => ⟨?_, ?_⟩⟩
    · have := Int.ceil_lt_add_one (x - 1 / 2); linarith
    · have := Int.le_ceil (x - 1 / 2); linarith

theorem not_pole (x : ℝ) (h : ∀ i : ℕ, x ≠ -i) : ¬ x = 0 ∧ ¬ (x < 0 ∧ ∃ k : ℤ, x = k) := by
  refine ⟨fun h0 => h 0 (by simpa using h0), ?_⟩
  rintro ⟨hn, k, rfl⟩
  have hk : k < 0 := by exact_mod_cast hn
  refine h (-k).toNat ?_
  have : ((-k).toNat : ℤ) = -k := by omega
  have : (((-k).toNat : ℤ) : ℝ) = ((-k : ℤ) : ℝ) := by rw [this]
  push_cast at this
  linarith

/-- the value in the range of the reduction -/
theorem tgamma_val (lim : ℕ) (hl : 2 ≤ lim) (hl' : lim ≤ 2 ^ 30) (x : ℝ) (hx : ∀ i : ℕ, x ≠ -i) (n : ℤ) (h1 : -(lim : ℤ) ≤ n)
    (h2 : n ≤ lim) (hp : 0 ≤ x - 2 → (n : ℝ) - 1 / 2 ≤ x - 2 ∧ x - 2 < n + 1 / 2)
    (hm : x - 2 < 0 → (n : ℝ) - 1 / 2 < x - 2 ∧ x - 2 ≤ n + 1 / 2) : tgamma lim x = some (.ret (val x n)) ∧ 0 < implY (x - (n + 2)) := by
  have hb : (n : ℝ) - 1 / 2 ≤ x - 2 ∧ x - 2 ≤ n + 1 / 2 := by
    rcases lt_or_ge (x - 2) 0 with h | h
    · exact ⟨(hm h).1.le, (hm h).2⟩
    · exact ⟨(hp h).1, (hp h).2.le⟩
  have hlr : (lim : ℝ) ≤ 2 ^ 30 := by exact_mod_cast hl'
  have h1r : -(lim : ℝ) ≤ n := by exact_mod_cast h1
  have h2r : (n : ℝ) ≤ lim := by exact_mod_cast h2
  have hy : 0 < implY (x - (n + 2)) := by
    apply implY_pos
    rw [abs_le]
    constructor <;> linarith
  refine ⟨?_, hy⟩
  obtain ⟨p0, p1⟩ := not_pole x hx
  unfold tgamma
  rw [if_neg p0, if_neg p1, impl, iround_eq (x - 2) n (by norm_num [intMin]; linarith) (by norm_num [intMax]; linarith) hp hm]
  simp only []
  rw [show clampInt n (-lim) lim = n from by unfold clampInt; rw [if_neg (by omega), if_neg (by omega)],
    impl1_eq lim hl x n h1 h2 hy.ne' ?_ ?_]
  · rfl
  · intro e i hi h0
    have : (n : ℝ) = lim := by rw [e]; simp
    have : (i : ℝ) ≤ lim := by exact_mod_cast hi
    linarith
  · intro i h0
    exact hx i (by linarith)

end Sprout.Gamma
