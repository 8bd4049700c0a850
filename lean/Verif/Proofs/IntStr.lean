import Verif.Proofs.CInt
import Verif.Proofs.Ascii
import Verif.Model.IntStr
import Verif.Spec.Numeral

/-! # Lemmas about parsing integers -/

namespace Sprout.IntStr
open Spec Ascii

theorem evalFrom_ge (b : Nat) (hb : 1 ≤ b) (ds : List Nat) : ∀ a, a ≤ evalFrom b a ds := by
  induction ds with
  | nil => intro a; exact Nat.le_refl _
  | cons d ds ih =>
    intro a
    have h1 := ih (a * b + d)
    have h2 : a ≤ a * b := Nat.le_mul_of_pos_right _ hb
    show a ≤ evalFrom b (a * b + d) ds
    omega

/-- `char_to_int` recognises exactly the digits of the base -/
theorem charToInt_eq {T : CInt} (hT : T.Std) {c : Int} (hc : IsChar c) {b : Nat} (hb : b ≤ 36) :
    (∃ d, digitVal c = some d ∧ d < b ∧ charToInt T c b = d) ∨
    ((∀ d, digitVal c = some d → b ≤ d) ∧ charToInt T c b = T.conv (-1)) := by
  obtain ⟨hm, hm', -⟩ := hT.bounds
  have ok : ∀ x : Int, 0 ≤ x → x ≤ 35 → T.conv x = x := fun x h1 h2 => CInt.conv_ok hT (by unfold CInt.Has; omega)
  unfold charToInt
  rw [show isdigit c = decide (48 ≤ c ∧ c ≤ 57) from (isdigit_eq hc).trans (decide_eq_decide.2 Iff.rfl),
    show islower c = decide (97 ≤ c ∧ c ≤ 122) from (islower_eq hc).trans (decide_eq_decide.2 Iff.rfl),
    show isupper c = decide (65 ≤ c ∧ c ≤ 90) from (isupper_eq hc).trans (decide_eq_decide.2 Iff.rfl)]
  simp only [Bool.and_eq_true, decide_eq_true_eq]
  by_cases h1 : 48 ≤ c ∧ c ≤ 57
  · have e : digitVal c = some (c - 48).toNat := by rw [digitVal, if_pos h1]
    by_cases h2 : c - 48 < b
    · rw [if_pos ⟨h1, h2⟩, ok _ (by omega) (by omega)]
      exact Or.inl ⟨_, e, by omega, by omega⟩
    · rw [if_neg (fun h => h2 h.2), if_neg (by omega), if_neg (by omega)]
      refine Or.inr ⟨fun d hd => ?_, rfl⟩
      rw [e] at hd; cases hd; omega
  · rw [if_neg (fun h => h1 h.1)]
    by_cases h2 : 97 ≤ c ∧ c ≤ 122
    · have e : digitVal c = some (c - 97 + 10).toNat := by rw [digitVal, if_neg h1, if_pos h2]
      by_cases h3 : c - 97 + 10 < b
      · rw [if_pos ⟨h2, h3⟩, ok _ (by omega) (by omega)]
        exact Or.inl ⟨_, e, by omega, by omega⟩
      · rw [if_neg (fun h => h3 h.2), if_neg (by omega)]
        refine Or.inr ⟨fun d hd => ?_, rfl⟩
        rw [e] at hd; cases hd; omega
    · rw [if_neg (fun h => h2 h.1)]
      by_cases h4 : 65 ≤ c ∧ c ≤ 90
      · have e : digitVal c = some (c - 65 + 10).toNat := by rw [digitVal, if_neg h1, if_neg h2, if_pos h4]
        by_cases h3 : c - 65 + 10 < b
        · rw [if_pos ⟨h4, h3⟩, ok _ (by omega) (by omega)]
          exact Or.inl ⟨_, e, by omega, by omega⟩
        · rw [if_neg (fun h => h3 h.2)]
          refine Or.inr ⟨fun d hd => ?_, rfl⟩
          rw [e] at hd; cases hd; omega
      · rw [if_neg (fun h => h4 h.1)]
        refine Or.inr ⟨fun d hd => ?_, rfl⟩
        rw [digitVal, if_neg h1, if_neg h2, if_neg h4] at hd
        cases hd

/-- 1 for a minus sign -/
def neg1 (negative : Bool) : Int := if negative then 1 else 0

theorem overflows_eq {T : CInt} (hT : T.Std) {b val x : Nat} (hb : 1 ≤ b) (hx : x ≤ 35) (negative : Bool) :
    overflows T b val x negative = some (decide (T.max - neg1 negative < val * b + x)) := by
  obtain ⟨hm, hm', -⟩ := hT.bounds
  have h1 : T.arith (T.max - x) = some (T.max - x) := CInt.arith_ok hT (by unfold CInt.Has; omega)
  have h2 : T.arith (T.max - x - neg1 negative) = some (T.max - x - neg1 negative) :=
    CInt.arith_ok hT (by unfold CInt.Has neg1; cases negative <;> simp <;> omega)
  have h3 : T.div (T.max - x - neg1 negative) b = some ((T.max - x - neg1 negative) / b) :=
    CInt.div_ok hT (by unfold neg1; cases negative <;> simp <;> omega) (by unfold neg1; cases negative <;> simp <;> omega) (by omega)
  unfold neg1 at *
  rw [overflows, h1]
  simp only [Option.bind_eq_bind, Option.bind_some]
  rw [h2]
  simp only [Option.bind_some]
  rw [h3]
  simp only [Option.bind_some]
  congr 1
  apply decide_eq_decide.2
  rw [Int.ediv_lt_iff_lt_mul (by omega)]
  omega

/-- the result for a sign and the magnitude of the digits: the limit is returned from `max` (negative: from one less) on -/
def result (T : CInt) (negative : Bool) (m : Nat) : Int :=
  if T.max - neg1 negative < m then (if negative then T.min else T.max) else signed negative m

theorem finish {T : CInt} (hT : T.Std) {negative : Bool} (hn : negative = true → T.sg = true) {m : Nat}
    (hm : m ≤ T.max - neg1 negative) :
    (if negative then do
        let r ← T.arith (-1 * m)
        some (T.conv r)
      else some (m : Int)) = some (result T negative m) := by
  obtain ⟨h1, h2, h3, h4, h5, h6⟩ := hT.bounds
  have hr : result T negative m = signed negative m := if_neg (by omega)
  rw [hr]
  cases negative with
  | false => simp [signed]
  | true =>
    have hs := h4 (hn rfl)
    have : T.Has (-1 * m) := by unfold CInt.Has; simp only [neg1, if_true] at hm; omega
    simp only [if_true, signed]
    rw [CInt.arith_ok hT this]
    simp only [Option.bind_eq_bind, Option.bind_some]
    rw [CInt.conv_ok hT this]
    simp

theorem strToIntImpl1_eq {T : CInt} (hT : T.Std) {b : Nat} (hb : 2 ≤ b) (hb' : b ≤ 36) {negative : Bool}
    (hn : negative = true → T.sg = true) (str : List Int) : ∀ (c : Int) (val : Nat), 0 ∈ c :: str → (∀ c' ∈ c :: str, IsChar c') →
    val ≤ T.max - neg1 negative →
    strToIntImpl1 T b negative (c :: str) val (charToInt T c b) = some (result T negative (evalFrom b val (digitsOf b (c :: str)))) := by
  obtain ⟨h1, h2, h3, h4, h5, h6⟩ := hT.bounds
  induction str with
  | nil =>
    intro c val h0 hc hv
    obtain rfl : c = 0 := by simp at h0; exact h0.symm
    rw [strToIntImpl1, if_pos (by
      rcases charToInt_eq hT (hc 0 (by simp)) hb' with ⟨d, hd, -⟩ | ⟨-, h⟩
      · simp [digitVal] at hd
      · exact h)]
    rw [finish hT hn hv]
    rfl
  | cons c' str ih =>
    intro c val h0 hc hv
    rw [strToIntImpl1]
    rcases charToInt_eq hT (hc c (by simp)) hb' with ⟨d, hd, hdb, he⟩ | ⟨hnd, he⟩
    · have hne : (d : Int) ≠ T.conv (-1) := by rw [CInt.conv_neg_one hT]; split <;> omega
      have hc0 : c ≠ 0 := by rintro rfl; simp [digitVal] at hd
      have hds : digitsOf b (c :: c' :: str) = d :: digitsOf b (c' :: str) := by
        rw [digitsOf, hd]; simp only; rw [if_pos hdb]
      have hev : evalFrom b val (digitsOf b (c :: c' :: str)) = evalFrom b (val * b + d) (digitsOf b (c' :: str)) := by
        rw [hds]; rfl
      rw [he, if_neg hne, overflows_eq hT (by omega) (by omega), hev]
      simp only [Option.bind_eq_bind, Option.bind_some]
      by_cases ho : T.max - neg1 negative < val * b + d
      · have hge := evalFrom_ge b (by omega) (digitsOf b (c' :: str)) (val * b + d)
        have hge' : (val : Int) * b + d ≤ (evalFrom b (val * b + d) (digitsOf b (c' :: str)) : Nat) := by exact_mod_cast hge
        have hr : result T negative (evalFrom b (val * b + d) (digitsOf b (c' :: str))) = if negative then T.min else T.max :=
          if_pos (by omega)
        rw [decide_eq_true ho, if_pos rfl, hr]
      · rw [decide_eq_false ho, if_neg (by simp)]
        have hge : (0 : Int) ≤ val * b := by exact_mod_cast Nat.zero_le _
        have hneg : 0 ≤ neg1 negative := by unfold neg1; split <;> omega
        have ha1 : T.arith ((val : Int) * b) = some ((val : Int) * b) := CInt.arith_ok hT (by unfold CInt.Has; omega)
        have ha2 : T.Has ((val : Int) * b + d) := by unfold CInt.Has; omega
        rw [ha1]
        simp only [Option.bind_some]
        rw [CInt.arith_ok hT ha2]
        simp only [Option.bind_some, rd_eq, List.getElem?_cons_zero]
        rw [CInt.conv_ok hT ha2]
        have := ih c' (val * b + d) (by simpa [hc0.symm] using h0) (fun x hx => hc x (by simp [List.mem_cons] at hx ⊢; tauto))
          (by push_cast; omega)
        push_cast at this
        exact this
    · have hds : digitsOf b (c :: c' :: str) = [] := by
        rw [digitsOf]
        cases hdv : digitVal c with
        | none => rfl
        | some d => simp only; rw [if_neg (by have := hnd d hdv; omega)]
      rw [he, if_pos rfl, hds, finish hT hn hv]
      rfl

end Sprout.IntStr
