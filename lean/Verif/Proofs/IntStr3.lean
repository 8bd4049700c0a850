import Verif.Proofs.IntStr2

/-! # Lemmas about printing integers -/

namespace Sprout.IntStr
open Spec Ascii

theorem mapM_some' {α β : Type} (f : α → Option β) (g : α → β) (l : List α) (h : ∀ a ∈ l, f a = some (g a)) :
    l.mapM f = some (l.map g) := by
  induction l with
  | nil => rfl
  | cons a l ih =>
    rw [List.mapM_cons, h a (by simp), ih (fun a ha => h a (by simp [ha]))]
    rfl

/-- `int_digits_impl`: the number of digits -/
theorem intDigitsImpl_eq {b : Nat} (hb : 2 ≤ b) (n : Nat) : ∀ val : Int, val.natAbs = n →
    ∃ k, intDigitsImpl b val = some k ∧ n < b ^ k ∧ (n = 0 → k = 0) ∧ (0 < n → 1 ≤ k ∧ b ^ (k - 1) ≤ n) := by
  induction n using Nat.strongRecOn with
  | ind n ih =>
    intro val hv
    rw [intDigitsImpl]
    by_cases h : val = 0
    · rw [if_neg (by simpa using h)]
      subst h
      simp at hv
      exact ⟨0, rfl, by rw [← hv]; simp, fun _ => rfl, fun h => by omega⟩
    · rw [if_pos h]
      have hn : 0 < n := by omega
      have hlt : n / b < n := Nat.div_lt_self hn (by omega)
      obtain ⟨k, h1, h2, h3, h4⟩ := ih (n / b) hlt (val.tdiv b) (by rw [Int.natAbs_tdiv, hv]; rfl)
      rw [h1]
      refine ⟨1 + k, rfl, ?_, fun h => by omega, fun _ => ⟨by omega, ?_⟩⟩
      · rw [Nat.add_comm, Nat.pow_succ]
        exact (Nat.div_lt_iff_lt_mul (by omega)).1 h2
      · rw [show 1 + k - 1 = k by omega]
        by_cases h0 : n / b = 0
        · rw [h3 h0]; simp; omega
        · obtain ⟨h5, h6⟩ := h4 (Nat.pos_of_ne_zero h0)
          rw [Nat.le_div_iff_mul_le (by omega), ← Nat.pow_succ] at h6
          rwa [show (k - 1).succ = k by omega] at h6

/-- `int_digits`: at least one digit -/
theorem intDigits_eq {b : Nat} (hb : 2 ≤ b) (val : Int) :
    ∃ k, intDigits b val = some k ∧ 1 ≤ k ∧ val.natAbs < b ^ k ∧ (val = 0 → k = 1) ∧ (val ≠ 0 → b ^ (k - 1) ≤ val.natAbs) := by
  by_cases h : val = 0
  · subst h
    exact ⟨1, rfl, Nat.le_refl _, by simp; omega, fun _ => rfl, fun h => absurd rfl h⟩
  · obtain ⟨k, h1, h2, h3, h4⟩ := intDigitsImpl_eq hb val.natAbs val rfl
    obtain ⟨h5, h6⟩ := h4 (by omega)
    refine ⟨k, ?_, h5, h2, fun h' => absurd h' h, fun _ => h6⟩
    rw [intDigitsImpl, if_pos h] at h1
    rw [intDigits, if_pos h, h1]

theorem intPow_eq {T : CInt} (hT : T.Std) {b : Nat} (hb : 1 ≤ b) (e : Nat) (h : ((b ^ e : Nat) : Int) ≤ T.max) :
    intPow T b e = some ((b ^ e : Nat) : Int) := by
  obtain ⟨h1, h2, -⟩ := hT.bounds
  induction e with
  | zero => rw [intPow, CInt.conv_ok hT (by unfold CInt.Has; omega)]; rfl
  | succ e ih =>
    have hle : b ^ e ≤ b ^ (e + 1) := Nat.pow_le_pow_right hb (by omega)
    have hh : T.Has ((b : Int) * ((b ^ e : Nat) : Int)) := by
      unfold CInt.Has
      rw [show (b : Int) * ((b ^ e : Nat) : Int) = ((b ^ (e + 1) : Nat) : Int) by push_cast; rw [pow_succ, Int.mul_comm]]
      omega
    rw [intPow, ih (by omega)]
    simp only [Option.bind_eq_bind, Option.bind_some]
    rw [CInt.arith_ok hT hh]
    simp only [Option.bind_some]
    rw [CInt.conv_ok hT hh]
    push_cast
    rw [pow_succ, Int.mul_comm]

theorem tdiv_nonpos' {a b : Int} (ha : a ≤ 0) (hb : 0 ≤ b) : a.tdiv b ≤ 0 := by
  have := Int.tdiv_nonneg (a := -a) (by omega) hb
  rw [Int.neg_tdiv] at this
  omega

theorem intDigitAt_eq {T : CInt} (hT : T.Std) {b : Nat} (hb : 1 ≤ b) (hb' : b ≤ 36) {val : Int} (hv : T.Has val) {e : Nat}
    (h : ((b ^ e : Nat) : Int) ≤ T.max) :
    intDigitAt T b val e = some ((val.natAbs / b ^ e % b : Nat) : Int) := by
  obtain ⟨h1, h2, h3, h4, h5, h6⟩ := hT.bounds
  have hpos : 0 < b ^ e := Nat.pow_pos (by omega)
  have hq : T.Has (val.tdiv ((b ^ e : Nat) : Int)) := by
    unfold CInt.Has at hv ⊢
    have a1 : (val.tdiv ((b ^ e : Nat) : Int)).natAbs ≤ val.natAbs := by
      rw [Int.natAbs_tdiv]; exact Nat.div_le_self _ _
    rcases Int.le_total 0 val with hs | hs
    · have := Int.tdiv_nonneg hs (show (0 : Int) ≤ ((b ^ e : Nat) : Int) by omega)
      omega
    · have : val.tdiv ((b ^ e : Nat) : Int) ≤ 0 := tdiv_nonpos' hs (by omega)
      omega
  have hr1 : T.Has ((val.tdiv ((b ^ e : Nat) : Int)).tdiv b) := by
    unfold CInt.Has at hq ⊢
    have a1 : ((val.tdiv ((b ^ e : Nat) : Int)).tdiv b).natAbs ≤ (val.tdiv ((b ^ e : Nat) : Int)).natAbs := by
      rw [Int.natAbs_tdiv]; exact Nat.div_le_self _ _
    rcases Int.le_total 0 (val.tdiv ((b ^ e : Nat) : Int)) with hs | hs
    · have := Int.tdiv_nonneg hs (show (0 : Int) ≤ (b : Int) by omega)
      omega
    · have : (val.tdiv ((b ^ e : Nat) : Int)).tdiv b ≤ 0 := tdiv_nonpos' hs (by omega)
      omega
  have habs : ((val.tdiv ((b ^ e : Nat) : Int)).tmod b).natAbs = val.natAbs / b ^ e % b := by
    rw [Int.natAbs_tmod, Int.natAbs_tdiv]; rfl
  have hsgn1 : 0 ≤ val → 0 ≤ (val.tdiv ((b ^ e : Nat) : Int)).tmod b := fun hs =>
    Int.tmod_nonneg _ (Int.tdiv_nonneg hs (by omega))
  have hsgn2 : val < 0 → (val.tdiv ((b ^ e : Nat) : Int)).tmod b ≤ 0 := by
    intro hs
    have h0 : val.tdiv ((b ^ e : Nat) : Int) ≤ 0 := tdiv_nonpos' (by omega) (by omega)
    have := Int.tmod_nonneg (a := -(val.tdiv ((b ^ e : Nat) : Int))) b (by omega)
    rw [Int.neg_tmod] at this
    omega
  have hm : val.natAbs / b ^ e % b < b := Nat.mod_lt _ (by omega)
  generalize hgen : val.natAbs / b ^ e % b = g at *
  generalize hgr : (val.tdiv ((b ^ e : Nat) : Int)).tmod b = r at *
  have hnn : T.sg = false → 0 ≤ val := fun hs => by unfold CInt.Has at hv; rw [h5 hs] at hv; omega
  have hr2 : T.Has r := by
    unfold CInt.Has
    rcases Bool.eq_false_or_eq_true T.sg with hs | hs
    · have := h4 hs; omega
    · have := hnn hs; have := hsgn1 this; omega
  have hnr : T.sg = true → T.Has (-r) := by
    intro hs
    unfold CInt.Has
    have := h4 hs; omega
  rw [intDigitAt, intPow_eq hT hb e h]
  simp only [Option.bind_eq_bind, Option.bind_some]
  rw [CInt.div, if_neg (by omega), CInt.arith_ok hT hq]
  simp only [Option.bind_some]
  rw [CInt.rem, if_neg (by omega), CInt.arith_ok hT hr1]
  simp only [Option.bind_eq_bind, Option.bind_some]
  rw [hgr, CInt.arith_ok hT hr2]
  simp only [Option.bind_some]
  rcases Bool.eq_false_or_eq_true T.sg with hs | hs
  · rw [if_pos hs]
    by_cases hneg : val < 0
    · rw [if_pos hneg, CInt.arith_ok hT (hnr hs)]
      have := hsgn2 hneg
      congr 1; omega
    · rw [if_neg hneg]
      have := hsgn1 (by omega)
      congr 1; omega
  · rw [if_neg (by simp [hs])]
    have := hsgn1 (hnn hs)
    congr 1; omega

/-- the digits of `n`, `k` of them -/
def numeral (b n k : Nat) : List Nat := (List.range k).map fun i => n / b ^ (k - 1 - i) % b

theorem evalFrom_append (b a : Nat) (xs ys : List Nat) : evalFrom b a (xs ++ ys) = evalFrom b (evalFrom b a xs) ys := by
  simp [evalFrom, List.foldl_append]

theorem numeral_spec {b n k : Nat} (hb : 2 ≤ b) (hk : 1 ≤ k) (hlt : n < b ^ k) (h0 : n = 0 → k = 1) (hge : n ≠ 0 → b ^ (k - 1) ≤ n) :
    IsNumeral b n (numeral b n k) := by
  refine ⟨?_, ?_, ?_, ?_⟩
  · intro h
    have := congrArg List.length h
    simp [numeral] at this
    omega
  · intro d hd
    simp only [numeral, List.mem_map] at hd
    obtain ⟨i, -, rfl⟩ := hd
    exact Nat.mod_lt _ (by omega)
  · have key : ∀ j, j ≤ k → evalFrom b 0 ((List.range j).map fun i => n / b ^ (k - 1 - i) % b) = n / b ^ (k - j) := by
      intro j
      induction j with
      | zero => intro _; simp [evalFrom, Nat.div_eq_of_lt hlt]
      | succ j ih =>
        intro hj
        rw [List.range_succ, List.map_append, evalFrom_append, ih (by omega)]
        simp only [List.map_cons, List.map_nil, evalFrom, List.foldl_cons, List.foldl_nil]
        rw [show k - j = (k - 1 - j) + 1 by omega, Nat.pow_succ, ← Nat.div_div_eq_div_mul, show k - (j + 1) = k - 1 - j by omega]
        have := Nat.div_add_mod (n / b ^ (k - 1 - j)) b
        rw [Nat.mul_comm] at this
        exact this
    have := key k (Nat.le_refl _)
    rw [numeral, this]; simp
  · intro hh
    obtain ⟨k', rfl⟩ : ∃ k', k = k' + 1 := ⟨k - 1, by omega⟩
    rw [numeral, List.range_succ_eq_map] at hh
    simp at hh
    by_cases hn : n = 0
    · have := h0 hn
      have hk' : k' = 0 := by omega
      subst hk'
      simp [numeral, hn]
    · have hle := hge hn
      rw [show k' + 1 - 1 = k' by omega] at hle
      rw [Nat.pow_succ] at hlt
      have h1 : n / b ^ k' < b := Nat.div_lt_of_lt_mul hlt
      have h2 : 1 ≤ n / b ^ k' := (Nat.le_div_iff_mul_le (Nat.pow_pos (by omega))).2 (by omega)
      have := Nat.mod_eq_of_lt h1
      have hdvd : n / b ^ k' % b = 0 := by simpa using hh
      omega

theorem digitChars_eq {nd : Bool} {T : CInt} (hT : T.Std) {b : Nat} (hb : 1 ≤ b) (hb' : b ≤ 10) {val : Int} (hv : T.Has val)
    {k cap : Nat} (hk : 1 ≤ k) (hkc : k ≤ cap) (h : ((b ^ (k - 1) : Nat) : Int) ≤ T.max) :
    digitChars nd T b val k cap = some ((numeral b val.natAbs k).map digitChar ++ List.replicate (cap - k) 0) := by
  rw [digitChars, mapM_some' _ (fun i => if i < k then digitChar (val.natAbs / b ^ (k - 1 - i) % b) else 0)]
  · congr 1
    apply List.ext_getElem
    · simp [numeral]; omega
    · intro i h1 h2
      simp only [List.getElem_map, List.getElem_range]
      by_cases hi : i < k
      · rw [if_pos hi, List.getElem_append_left (by simpa [numeral] using hi)]
        simp [numeral]
      · rw [if_neg hi, List.getElem_append_right (by simp [numeral]; omega)]
        simp
  · intro i _
    by_cases hi : i < k
    · rw [if_pos hi, if_pos hi]
      have hle : b ^ (k - 1 - i) ≤ b ^ (k - 1) := Nat.pow_le_pow_right hb (by omega)
      rw [intDigitAt_eq hT hb (by omega) hv (by omega)]
      have hm : val.natAbs / b ^ (k - 1 - i) % b < b := Nat.mod_lt _ (by omega)
      generalize val.natAbs / b ^ (k - 1 - i) % b = g at *
      simp only [Option.bind_eq_bind, Option.bind_some]
      rw [intToChar, if_pos (by simp; omega), digitChar, if_pos (by omega)]
    · rw [if_neg hi, if_neg hi]

theorem rawConstruct_eq {N : Nat} {xs zs : List Int} (h : xs.length ≤ N) :
    rawConstruct N xs.length (xs ++ zs) = ⟨xs.length, xs ++ List.replicate (N + 1 - xs.length) 0⟩ := by
  unfold rawConstruct
  congr 1
  apply List.ext_getElem
  · simp; omega
  · intro i h1 h2
    simp only [List.getElem_map, List.getElem_range]
    by_cases hi : i < xs.length
    · rw [if_pos hi, List.getElem_append_left hi, List.getD_eq_getElem?_getD, List.getElem?_append_left hi, List.getElem?_eq_getElem hi]
      rfl
    · rw [if_neg hi, List.getElem_append_right (by omega)]
      simp

/-- the buffer holds every number of the type -/
theorem capacity {T : CInt} (hT : T.Std) {b : Nat} (hb : 2 ≤ b) (hb' : b ≤ 10) :
    ∃ cap, integerDigits T b = some cap ∧ T.max < ((b ^ cap : Nat) : Int) ∧
      (T.sg = true → (∀ k : Nat, b ^ k ≠ 2 ^ (T.w - 1)) → -T.min < ((b ^ cap : Nat) : Int)) := by
  obtain ⟨w, sg⟩ := T
  have key : ∃ cap, integerDigits ⟨w, sg⟩ b = some cap ∧ CInt.max ⟨w, sg⟩ < ((b ^ cap : Nat) : Int) := by
    simp only [CInt.Std] at hT
    have : b = 2 ∨ b = 3 ∨ b = 4 ∨ b = 5 ∨ b = 6 ∨ b = 7 ∨ b = 8 ∨ b = 9 ∨ b = 10 := by omega
    rcases hT with rfl | rfl | rfl | rfl <;> rcases this with rfl | rfl | rfl | rfl | rfl | rfl | rfl | rfl | rfl <;> cases sg <;>
      exact ⟨_, rfl, by decide +kernel⟩
  obtain ⟨cap, h1, h2⟩ := key
  refine ⟨cap, h1, h2, fun hs hk => ?_⟩
  have := hk cap
  obtain ⟨b1, b2, b3, b4, b5, b6⟩ := hT.bounds
  have e := b4 hs
  have e' : CInt.min ⟨w, sg⟩ = -2 ^ (w - 1) := by simp only at hs; simp [CInt.min, hs]
  simp only at this
  have : ((b ^ cap : Nat) : Int) ≠ 2 ^ (w - 1) := by exact_mod_cast this
  omega

end Sprout.IntStr
