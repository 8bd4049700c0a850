import Mathlib.Data.Nat.Log
import Mathlib.Tactic.Linarith
import Mathlib.Tactic.NormNum
import Verif.Model.Depth
import Verif.Model.SetIter
import Verif.Proofs.Loops
import Verif.Proofs.Find
import Verif.Props.C14

/-!
# C148: recursion depth
-/

namespace Sprout

open Depth

variable {σ α T : Type}

theorem clog_half {n : ℕ} (h : 2 ≤ n) : Nat.clog 2 (n - n / 2) + 1 = Nat.clog 2 n := by
  rw [Nat.clog_of_two_le (by omega) h, show (n + 2 - 1) / 2 = n - n / 2 by omega]

theorem clog_half' {n : ℕ} (h : 2 ≤ n) : Nat.clog 2 (n / 2) + 1 ≤ Nat.clog 2 n := by
  rw [← clog_half h]
  exact Nat.add_le_add_right (Nat.clog_mono_right 2 (by omega)) 1

theorem dbl1D_run {fin step : σ → Option σ} (hf : FinIdem fin) :
    ∀ n, 1 ≤ n → ∀ k s r, Run fin step k s r →
      ∃ c d, dbl1D fin step s n = some (c, d) ∧ Run fin step (k - n) c r ∧ d ≤ Nat.clog 2 n + 1 := by
  intro n
  induction n using Nat.strongRecOn with
  | ind n ih =>
    intro hn k s r hr
    rw [dbl1D]
    cases hr with
    | stop h => exact ⟨r, 1, by rw [h], by rw [Nat.zero_sub]; exact .stop (hf _ _ h), by omega⟩
    | @step _ t _ k h1 h2 h3 =>
      rw [h1]
      by_cases h : n = 1
      · subst h; exact ⟨t, 1, by simp [h2], h3, by omega⟩
      · simp only [h, if_false]
        obtain ⟨c, d1, hc, hrc, hd1⟩ := ih (n / 2) (by omega) (by omega) (k + 1) s r (.step h1 h2 h3)
        obtain ⟨d, d2, hd, hrd, hd2⟩ := ih (n - n / 2) (by omega) (by omega) _ c r hrc
        refine ⟨d, 1 + max d1 d2, by simp [hc, hd], ?_, ?_⟩
        · rw [show k + 1 - n = k + 1 - n / 2 - (n - n / 2) by omega]
          exact hrd
        · have := clog_half (n := n) (by omega)
          have := clog_half' (n := n) (by omega)
          omega

theorem dblD_run {fin step : σ → Option σ} (hf : FinIdem fin) (j : ℕ) : ∀ (m i k : ℕ) (s r : σ), i + m = j → k + 2 ^ i ≤ 2 ^ j →
    Run fin step k s r → ∃ d, dblD fin step s (2 ^ i) = some (r, d) ∧ d ≤ m + j + 1 := by
  intro m
  induction m with
  | zero =>
    intro i k s r hij hk hr
    have hk0 : k = 0 := by
      have : i = j := by omega
      subst this; omega
    subst hk0
    cases hr with
    | stop h => exact ⟨1, by rw [dblD, h], by omega⟩
  | succ m ih =>
    intro i k s r hij hk hr
    rw [dblD]
    cases hr with
    | stop h => exact ⟨1, by rw [h], by omega⟩
    | @step _ t _ k h1 h2 h3 =>
      rw [h1]
      obtain ⟨c, d1, hc, hrc, hd1⟩ := dbl1D_run hf (2 ^ i) Nat.one_le_two_pow (k + 1) s r (.step h1 h2 h3)
      have hpow : 2 ^ (i + 1) ≤ 2 ^ j := Nat.pow_le_pow_right (by omega) (by omega)
      have hp2 : 2 ^ (i + 1) = 2 ^ i + 2 ^ i := by rw [Nat.pow_succ]; omega
      obtain ⟨d2, hd, hd2⟩ := ih (i + 1) _ c r (by omega) (by omega) hrc
      rw [Nat.pow_succ] at hd
      refine ⟨1 + max d1 d2, by simp [hc, hd], ?_⟩
      rw [Nat.clog_pow _ _ (by omega)] at hd1
      omega

/-- **Input iterators** (doubling recursions): if every step lowers `μ`, the functions are nested at most `2 ⌈log₂ (μ + 1)⌉ + 1` deep; the value is
that of the functions without depth -/
theorem C148_doubling (fin step : σ → Option σ) (hf : FinIdem fin) (I : σ → Prop) (μ : σ → ℕ)
    (hI : ∀ s t, I s → fin s = none → step s = some t → I t ∧ μ t < μ s) (s r : σ) (hs : I s) (h : dbl fin step s 1 = some r) :
    ∃ d, dblD fin step s 1 = some (r, d) ∧ d ≤ 2 * Nat.clog 2 (μ s + 1) + 1 := by
  obtain ⟨k, hr⟩ := run_of_dbl hf s 1 r h
  have hk : k ≤ μ s := by
    clear h
    induction hr with
    | stop => omega
    | step h1 h2 _ ih =>
      obtain ⟨h3, h4⟩ := hI _ _ hs h1 h2
      have := ih h3
      omega
  have := Nat.le_pow_clog (b := 2) (by omega) (μ s + 1)
  obtain ⟨d, h1, h2⟩ := dblD_run hf (Nat.clog 2 (μ s + 1)) (Nat.clog 2 (μ s + 1)) 0 k s r (by omega) (by simp; omega) hr
  exact ⟨d, h1, by omega⟩

/-- `find`, `find_if`, `find_if_not`, `find_first_of` for input iterators -/
theorem C148_find_input (test : ℕ → Option Bool) (first last : ℕ) (hl : first ≤ last) (r : ℕ) (h : findIn test first last = some r) :
    ∃ c d, dblD (finIf fun s : ℕ × Bool => s.2 || s.1 == last) (fun s => do
      let b ← test s.1
      some (if b then (s.1, true) else (s.1 + 1, false))) (first, false) 1 = some ((r, c), d) ∧ d ≤ 2 * Nat.clog 2 (last - first + 1) + 1 := by
  rw [findIn] at h
  simp only [Option.bind_eq_bind, Option.bind_eq_some_iff, Option.some.injEq] at h
  obtain ⟨⟨i, c⟩, h, rfl⟩ := h
  obtain ⟨d, h1, h2⟩ := C148_doubling _ _ (finIf_idem _) (fun s => s.1 ≤ last) (fun s => if s.2 then 0 else last - s.1) (by
    rintro ⟨p, f⟩ t hp h1 h2
    simp only [finIf] at h1 hp
    split_ifs at h1 with h3
    simp only [Bool.or_eq_true, beq_iff_eq, not_or, Bool.not_eq_true] at h3
    simp only [Option.bind_eq_bind, Option.bind_eq_some_iff, Option.some.injEq] at h2
    obtain ⟨b, -, rfl⟩ := h2
    rw [h3.1]
    cases b <;> simp <;> omega) (first, false) _ hl h
  exact ⟨c, d, h1, by simpa using h2⟩

/-- `accumulate` for input iterators -/
theorem C148_accumulate_input (m : List α) (op : T → α → T) (first last : ℕ) (hl : first ≤ last) (init r : T)
    (h : accumulateIn m first last init op = some r) :
    ∃ i d, dblD (finIf fun s : ℕ × T => s.1 == last) (fun s => do
      let x ← rd m s.1
      some (s.1 + 1, op s.2 x)) (first, init) 1 = some ((i, r), d) ∧ d ≤ 2 * Nat.clog 2 (last - first + 1) + 1 := by
  rw [accumulateIn] at h
  simp only [Option.bind_eq_bind, Option.bind_eq_some_iff, Option.some.injEq] at h
  obtain ⟨⟨i, c⟩, h, rfl⟩ := h
  obtain ⟨d, h1, h2⟩ := C148_doubling _ _ (finIf_idem _) (fun s => s.1 ≤ last) (fun s => last - s.1) (by
    rintro ⟨p, f⟩ t hp h1 h2
    simp only [finIf] at h1 hp
    split_ifs at h1 with h3
    simp only [beq_iff_eq] at h3
    simp only [Option.bind_eq_bind, Option.bind_eq_some_iff, Option.some.injEq] at h2
    obtain ⟨b, -, rfl⟩ := h2
    simp only
    omega) (first, init) _ hl h
  exact ⟨i, d, h1, h2⟩

/-- `find_intersection`: logarithmic in the sum of the lengths -/
theorem C148_find_intersection (comp : α → α → Bool) (m1 m2 : List α) (first1 last1 first2 last2 : ℕ) (h1 : first1 ≤ last1) (h2 : first2 ≤ last2)
    (r : ℕ × ℕ) (h : SetIter.findIntersection comp m1 m2 first1 last1 first2 last2 = some r) :
    ∃ c d, dblD (finIf fun s : SetIter.Cur => s.2.2 || s.1 == last1 || s.2.1 == last2) (SetIter.interStep comp m1 m2) (first1, first2, false) 1
        = some (c, d)
      ∧ r = (if c.2.2 then (c.1, c.2.1) else (last1, last2)) ∧ d ≤ 2 * Nat.clog 2 ((last1 - first1) + (last2 - first2) + 1) + 1 := by
  rw [SetIter.findIntersection] at h
  simp only [Option.bind_eq_bind, Option.bind_eq_some_iff, Option.some.injEq] at h
  obtain ⟨c, h, rfl⟩ := h
  obtain ⟨d, h3, h4⟩ := C148_doubling _ _ (finIf_idem _) (fun s => s.1 ≤ last1 ∧ s.2.1 ≤ last2)
    (fun s => if s.2.2 then 0 else (last1 - s.1) + (last2 - s.2.1)) (by
    rintro ⟨p, q, f⟩ t ⟨hp, hq⟩ h1 h2
    simp only [finIf] at h1 hp hq
    split_ifs at h1 with h3
    simp only [Bool.or_eq_true, beq_iff_eq, not_or, Bool.not_eq_true] at h3
    simp only [SetIter.interStep, Option.bind_eq_bind, Option.bind_eq_some_iff, Option.some.injEq] at h2
    obtain ⟨x, -, y, -, rfl⟩ := h2
    rw [h3.1.1]
    generalize comp x y = a; generalize comp y x = b
    cases a <;> cases b <;> simp <;> omega) (first1, first2, false) _ ⟨h1, h2⟩ h
  exact ⟨c, d, h3, rfl, by simpa using h4⟩

/-! ## random access -/

/-- **searches**: as `find_if` -/
theorem C148_find (test : ℕ → ℕ → Option Bool) : ∀ (n : ℕ), 1 ≤ n → ∀ (first found : ℕ), ∃ d, d ≤ Nat.clog 2 n + 1 ∧
    halveFindD test first (first + n) (n / 2) found = (halveFind test first (first + n) (n / 2) found).map (·, d) := by
  intro n
  induction n using Nat.strongRecOn with
  | ind n ih =>
    intro hn first found
    rw [halveFindD, halveFind]
    by_cases h1 : found ≠ first
    · exact ⟨1, by omega, by rw [if_pos h1, if_pos h1]; rfl⟩
    · rw [if_neg h1, if_neg h1]
      by_cases h2 : n / 2 = 0
      · exact ⟨1, by omega, by rw [if_pos h2, if_pos h2]; cases test first (first + n) <;> rfl⟩
      · rw [if_neg h2, if_neg h2]
        have c1 := clog_half (n := n) (by omega)
        have c2 := clog_half' (n := n) (by omega)
        obtain ⟨d1, hd1, e1⟩ := ih (n / 2) (by omega) (by omega) first first
        rw [e1]
        cases halveFind test first (first + n / 2) (n / 2 / 2) first with
        | none => exact ⟨1, by omega, rfl⟩
        | some f =>
          obtain ⟨d2, hd2, e2⟩ := ih (n - n / 2) (by omega) (by omega) (first + n / 2) f
          rw [show first + n / 2 + (n - n / 2) = first + n by omega] at e2
          rw [show first + n - first - n / 2 = n - n / 2 by omega]
          refine ⟨1 + max d1 d2, by omega, ?_⟩
          simp only [Option.map_some, Option.bind_eq_bind, Option.bind_some, e2]
          cases halveFind test (first + n / 2) (first + n) ((n - n / 2) / 2) f <;> rfl

/-- **`all_of`, `none_of`, `equal`** -/
theorem C148_all_of (test : ℕ → Option Bool) : ∀ (n : ℕ), 1 ≤ n → ∀ (first : ℕ), ∃ d, d ≤ Nat.clog 2 n + 1 ∧
    halveAllD test first (first + n) (n / 2) = (halveAll test first (first + n) (n / 2)).map (·, d) := by
  intro n
  induction n using Nat.strongRecOn with
  | ind n ih =>
    intro hn first
    rw [halveAllD, halveAll]
    by_cases h2 : n / 2 = 0
    · exact ⟨1, by omega, by rw [if_pos h2, if_pos h2]; cases test first <;> rfl⟩
    · rw [if_neg h2, if_neg h2]
      have c1 := clog_half (n := n) (by omega)
      have c2 := clog_half' (n := n) (by omega)
      obtain ⟨d1, hd1, e1⟩ := ih (n / 2) (by omega) (by omega) first
      rw [e1]
      rcases halveAll test first (first + n / 2) (n / 2 / 2) with _ | _ | _
      · exact ⟨1, by omega, rfl⟩
      · exact ⟨1 + d1, by omega, rfl⟩
      · obtain ⟨d2, hd2, e2⟩ := ih (n - n / 2) (by omega) (by omega) (first + n / 2)
        rw [show first + n / 2 + (n - n / 2) = first + n by omega] at e2
        rw [show first + n - first - n / 2 = n - n / 2 by omega]
        refine ⟨1 + max d1 d2, by omega, ?_⟩
        simp only [Option.map_some, Option.bind_eq_bind, Option.bind_some, e2]
        cases halveAll test (first + n / 2) (first + n) ((n - n / 2) / 2) <;> rfl

/-- **`any_of`** -/
theorem C148_any_of (test : ℕ → Option Bool) : ∀ (n : ℕ), 1 ≤ n → ∀ (first : ℕ), ∃ d, d ≤ Nat.clog 2 n + 1 ∧
    halveAnyD test first (first + n) (n / 2) = (halveAny test first (first + n) (n / 2)).map (·, d) := by
  intro n
  induction n using Nat.strongRecOn with
  | ind n ih =>
    intro hn first
    rw [halveAnyD, halveAny]
    by_cases h2 : n / 2 = 0
    · exact ⟨1, by omega, by rw [if_pos h2, if_pos h2]; cases test first <;> rfl⟩
    · rw [if_neg h2, if_neg h2]
      have c1 := clog_half (n := n) (by omega)
      have c2 := clog_half' (n := n) (by omega)
      obtain ⟨d1, hd1, e1⟩ := ih (n / 2) (by omega) (by omega) first
      rw [e1]
      rcases halveAny test first (first + n / 2) (n / 2 / 2) with _ | _ | _
      · exact ⟨1, by omega, rfl⟩
      · obtain ⟨d2, hd2, e2⟩ := ih (n - n / 2) (by omega) (by omega) (first + n / 2)
        rw [show first + n / 2 + (n - n / 2) = first + n by omega] at e2
        rw [show first + n - first - n / 2 = n - n / 2 by omega]
        refine ⟨1 + max d1 d2, by omega, ?_⟩
        simp only [Option.map_some, Option.bind_eq_bind, Option.bind_some, e2]
        cases halveAny test (first + n / 2) (first + n) ((n - n / 2) / 2) <;> rfl
      · exact ⟨1 + d1, by omega, rfl⟩

/-- **`count`, `count_if`** -/
theorem C148_count (m : List α) (p : α → Bool) : ∀ (n : ℕ), 1 ≤ n → ∀ (first : ℕ), ∃ d, d ≤ Nat.clog 2 n + 1 ∧
    halveCountD m p first n = (halveCount m p first n).map (·, d) := by
  intro n
  induction n using Nat.strongRecOn with
  | ind n ih =>
    intro hn first
    rw [halveCountD, halveCount]
    by_cases h2 : n = 1
    · exact ⟨1, by omega, by rw [if_pos h2, if_pos h2]; cases rd m first <;> rfl⟩
    · rw [if_neg h2, if_neg h2]
      have c1 := clog_half (n := n) (by omega)
      have c2 := clog_half' (n := n) (by omega)
      obtain ⟨d1, hd1, e1⟩ := ih (n / 2) (by omega) (by omega) first
      obtain ⟨d2, hd2, e2⟩ := ih (n - n / 2) (by omega) (by omega) (first + n / 2)
      rw [e1, e2]
      refine ⟨1 + max d1 d2, by omega, ?_⟩
      cases halveCount m p first (n / 2) <;> cases halveCount m p (first + n / 2) (n - n / 2) <;> rfl

/-- **`accumulate`, `reduce`, `transform_reduce`** -/
theorem C148_accumulate (m : List α) (op : T → α → T) : ∀ (n : ℕ), 1 ≤ n → ∀ (first : ℕ) (init : T), ∃ d, d ≤ Nat.clog 2 n + 1 ∧
    accRaD m op first (first + n) (n / 2) init = (accRa m op first (first + n) (n / 2) init).map (·, d) := by
  intro n
  induction n using Nat.strongRecOn with
  | ind n ih =>
    intro hn first init
    rw [accRaD, accRa]
    by_cases h2 : n / 2 = 0
    · exact ⟨1, by omega, by rw [if_pos h2, if_pos h2]; cases rd m first <;> rfl⟩
    · rw [if_neg h2, if_neg h2]
      have c1 := clog_half (n := n) (by omega)
      have c2 := clog_half' (n := n) (by omega)
      obtain ⟨d1, hd1, e1⟩ := ih (n / 2) (by omega) (by omega) first init
      rw [e1]
      cases accRa m op first (first + n / 2) (n / 2 / 2) init with
      | none => exact ⟨1, by omega, rfl⟩
      | some f =>
        obtain ⟨d2, hd2, e2⟩ := ih (n - n / 2) (by omega) (by omega) (first + n / 2) f
        rw [show first + n / 2 + (n - n / 2) = first + n by omega] at e2
        rw [show first + n - first - n / 2 = n - n / 2 by omega]
        refine ⟨1 + max d1 d2, by omega, ?_⟩
        simp only [Option.map_some, Option.bind_eq_bind, Option.bind_some, e2]
        cases accRa m op (first + n / 2) (first + n) ((n - n / 2) / 2) f <;> rfl

/-- **`lower_bound`, `upper_bound`** -/
theorem C148_lower_bound (test : ℕ → Option Bool) : ∀ (n first : ℕ), ∃ d, d ≤ Nat.clog 2 (n + 1) + 1 ∧
    bisectD test first n = (bisect test first n).map (fun r => (r.1, d)) := by
  intro n
  induction n using Nat.strongRecOn with
  | ind n ih =>
    intro first
    rw [bisectD, bisect]
    by_cases h2 : n = 0
    · exact ⟨1, by omega, by rw [if_pos h2, if_pos h2]; rfl⟩
    · rw [if_neg h2, if_neg h2]
      have c1 := clog_half (n := n + 1) (by omega)
      have c2 : Nat.clog 2 (n / 2 + 1) ≤ Nat.clog 2 (n + 1 - (n + 1) / 2) := Nat.clog_mono_right 2 (by omega)
      have c3 : Nat.clog 2 (n - (n / 2 + 1) + 1) ≤ Nat.clog 2 (n + 1 - (n + 1) / 2) := Nat.clog_mono_right 2 (by omega)
      rcases test (first + n / 2) with _ | _ | _
      · exact ⟨1, by omega, rfl⟩
      · obtain ⟨d1, hd1, e1⟩ := ih (n / 2) (by omega) first
        refine ⟨1 + d1, by omega, ?_⟩
        simp only [Option.bind_eq_bind, Option.bind_some, e1, Bool.false_eq_true, if_false]
        cases bisect test first (n / 2) <;> rfl
      · obtain ⟨d1, hd1, e1⟩ := ih (n - (n / 2 + 1)) (by omega) (first + (n / 2 + 1))
        refine ⟨1 + d1, by omega, ?_⟩
        simp only [Option.bind_eq_bind, Option.bind_some, e1, if_true]
        cases bisect test (first + (n / 2 + 1)) (n - (n / 2 + 1)) <;> rfl

/-! ## `mask_index` -/

theorem maskIndexD_false (cap len : ℕ) (h : 0 < cap) (h2 : 0 < len) : ∀ n, maskIndexD cap len (List.replicate n false) 0 = n + 1
  | 0 => rfl
  | n + 1 => by
    rw [List.replicate_succ, maskIndexD, if_neg (by omega), if_pos h2]
    simp only [Bool.false_eq_true, if_false]
    rw [maskIndexD_false cap len h h2 n]
    omega

/-- **`mask_index`**, documented as `O(log N)`, is nested as deep as there are elements -/
theorem C148_mask_index_refuted : ¬ ∃ c : ℕ, ∀ (cap len : ℕ) (bs : List Bool), maskIndexD cap len bs 0 ≤ c * (Nat.log 2 bs.length + 1) := by
  rintro ⟨c, h⟩
  have := h 1 1 (List.replicate (2 ^ (2 * (2 * c))) false)
  rw [maskIndexD_false 1 1 (by omega) (by omega), List.length_replicate, Nat.log_pow (by omega)] at this
  have h1 : 2 * c + 1 ≤ 2 ^ (2 * c) := Nat.lt_two_pow_self
  have h2 : 2 ^ (2 * (2 * c)) = 2 ^ (2 * c) * 2 ^ (2 * c) := by rw [Nat.two_mul (2 * c), Nat.pow_add]
  have h3 := Nat.mul_le_mul h1 h1
  rw [h2] at this
  nlinarith

/-- a thousand elements: at most 21 nested calls -/
example (test : ℕ → Option Bool) (r : ℕ) (h : findIn test 0 1000 = some r) :
    ∃ c d, dblD (finIf fun s : ℕ × Bool => s.2 || s.1 == 1000) (fun s => do
      let b ← test s.1
      some (if b then (s.1, true) else (s.1 + 1, false))) (0, false) 1 = some ((r, c), d) ∧ d ≤ 21 := by
  obtain ⟨c, d, h1, h2⟩ := C148_find_input test 0 1000 (by omega) r h
  refine ⟨c, d, h1, h2.trans ?_⟩
  have : Nat.clog 2 (1000 - 0 + 1) ≤ 10 := (Nat.clog_le_iff_le_pow (by omega)).2 (by norm_num)
  omega

example : ∃ r, findIn (fun i => some (decide (i = 999))) 0 1000 = some r := by
  obtain ⟨r, h, -⟩ := findIn_spec (test := fun i => some (decide (i = 999))) (t := fun i => decide (i = 999)) (a := 0) (b := 1000) (by omega)
    (fun _ _ _ => rfl)
  exact ⟨r, h⟩

example : halveCountD [true, false, true] id 0 3 = some (2, 3) := by
  simp [halveCountD, rd]

end Sprout
