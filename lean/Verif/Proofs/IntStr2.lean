import Verif.Proofs.IntStr

/-! # Lemmas about parsing integers: signs and prefixes -/

namespace Sprout.IntStr
open Spec Ascii

/-- the base used and the characters read by `str_to_int_impl` -/
def codeBase (b : Nat) : List Int → Nat × List Int
  | 0x30 :: x :: s =>
    if x = 0x78 ∨ x = 0x58 then (if b ≠ 0 then b else 16, s) else (if b ≠ 0 then b else 8, x :: s)
  | s => (if b ≠ 0 then b else 10, s)

theorem rd_zero (a : Int) (l : List Int) : rd (a :: l) 0 = some a := rfl
theorem rd_one (a b : Int) (l : List Int) : rd (a :: b :: l) 1 = some b := rfl
theorem rd_two (a b c : Int) (l : List Int) : rd (a :: b :: c :: l) 2 = some c := rfl

theorem strToIntImpl_eq {T : CInt} (hT : T.Std) {b : Nat} (hb : b = 0 ∨ 2 ≤ b) (hb' : b ≤ 36) {negative : Bool}
    (hn : negative = true → T.sg = true) {str : List Int} (h0 : 0 ∈ str) (hc : ∀ c ∈ str, IsChar c) :
    strToIntImpl T str b negative =
      some (result T negative (evalFrom (codeBase b str).1 0 (digitsOf (codeBase b str).1 (codeBase b str).2))) := by
  have hm : (0 : Nat) ≤ T.max - neg1 negative := by
    have := hT.bounds.1
    unfold neg1; cases negative <;> simp <;> omega
  match str, h0, hc with
  | [], h0, _ => simp at h0
  | c :: str, h0, hc =>
    rw [strToIntImpl]
    simp only [rd_zero, Option.bind_eq_bind, Option.bind_some]
    by_cases h30 : c = 0x30
    · subst h30
      rw [if_pos rfl]
      match str, h0, hc with
      | [], h0, _ => simp at h0
      | x :: s, h0, hc =>
        simp only [rd_one, Option.bind_some]
        by_cases hx : x = 0x78 ∨ x = 0x58
        · rw [if_pos hx]
          have hs0 : 0 ∈ s := by
            rcases List.mem_cons.1 h0 with h | h
            · simp at h
            · rcases List.mem_cons.1 h with h | h
              · rw [← h] at hx; simp at hx
              · exact h
          match s, hs0, hc with
          | [], h, _ => simp at h
          | e :: s, hs0, hc =>
            simp only [rd_two, Option.bind_some, codeBase]
            rw [if_pos hx]
            simp only [List.drop_succ_cons, List.drop_zero]
            have key := strToIntImpl1_eq hT (b := if b ≠ 0 then b else 16) (by split <;> omega) (by split <;> omega) hn s e 0
              hs0 (fun c' h' => hc c' (by simp only [List.mem_cons] at h' ⊢; tauto)) hm
            rw [show (if (b : Int) ≠ 0 then (b : Int) else 16) = ((if b ≠ 0 then b else 16 : Nat) : Int) by split <;> split <;> omega]
            exact key
        · rw [if_neg hx]
          simp only [codeBase]
          rw [if_neg hx]
          simp only [List.drop_succ_cons, List.drop_zero]
          have key := strToIntImpl1_eq hT (b := if b ≠ 0 then b else 8) (by split <;> omega) (by split <;> omega) hn s x 0
            (by rcases List.mem_cons.1 h0 with h | h
                · simp at h
                · exact h) (fun c' h' => hc c' (by simp only [List.mem_cons] at h' ⊢; tauto)) hm
          rw [show (if (b : Int) ≠ 0 then (b : Int) else 8) = ((if b ≠ 0 then b else 8 : Nat) : Int) by split <;> split <;> omega]
          exact key
    · rw [if_neg h30]
      have hcb : codeBase b (c :: str) = (if b ≠ 0 then b else 10, c :: str) := by
        unfold codeBase
        split
        · rename_i h; simp at h; exact absurd h.1 h30
        · rfl
      rw [hcb]
      have key := strToIntImpl1_eq hT (b := if b ≠ 0 then b else 10) (by split <;> omega) (by split <;> omega) hn str c 0 h0 hc hm
      rw [show (if (b : Int) ≠ 0 then (b : Int) else 10) = ((if b ≠ 0 then b else 10 : Nat) : Int) by split <;> split <;> omega]
      exact key

/-- the string starts with `0x` or `0X` -/
def HexPrefix (s : List Int) : Prop := s.head? = some 0x30 ∧ (s[1]? = some 0x78 ∨ s[1]? = some 0x58)

/-- except for an `0x` in another base than 16, the digits read are those of the standard -/
theorem codeBase_eval {b : Nat} (hb : b = 0 ∨ 2 ≤ b) (hb' : b ≤ 36) {s : List Int} (h0 : 0 ∈ s)
    (hp : HexPrefix s → b = 0 ∨ b = 16) :
    evalFrom (codeBase b s).1 0 (digitsOf (codeBase b s).1 (codeBase b s).2) =
      evalFrom (splitBase b s).1 0 (digitsOf (splitBase b s).1 (splitBase b s).2) := by
  have dz : ∀ (n : Nat) (x : List Int), 2 ≤ n → evalFrom n 0 (digitsOf n (0x30 :: x)) = evalFrom n 0 (digitsOf n x) := by
    intro n x hn
    have : digitsOf n (0x30 :: x) = 0 :: digitsOf n x := by
      rw [digitsOf]; simp only [digitVal]; simp; omega
    rw [this]; simp [evalFrom]
  have dx : ∀ (n : Nat) (x : Int) (s : List Int), n ≤ 16 → x = 0x78 ∨ x = 0x58 → digitsOf n (x :: s) = [] := by
    intro n x s hn hx
    rw [digitsOf]
    rcases hx with rfl | rfl <;> simp [digitVal] <;> omega
  by_cases hns : ∃ x s', s = 0x30 :: x :: s'
  · obtain ⟨x, s, rfl⟩ := hns
    unfold codeBase splitBase
    simp only
    by_cases hx : x = 0x78 ∨ x = 0x58
    · have hb16 := hp ⟨rfl, by rcases hx with rfl | rfl <;> simp⟩
      rw [if_pos hx]
      have h16 : (if b ≠ 0 then b else 16) = 16 := by split <;> omega
      rw [h16]
      by_cases hd : digitsOf 16 s ≠ []
      · rw [if_pos ⟨hb16, hx, hd⟩]
      · rw [if_neg (fun h => hd h.2.2)]
        have hd' : digitsOf 16 s = [] := by simpa using hd
        simp only [hd']
        by_cases hb0 : b = 0
        · rw [if_pos hb0]
          simp only
          rw [dz _ _ (by omega), dx _ _ _ (by omega) hx]; rfl
        · rw [if_neg hb0]
          simp only
          rw [dz _ _ (by omega), dx _ _ _ (by omega) hx]; rfl
    · rw [if_neg hx, if_neg (show ¬ ((b = 0 ∨ b = 16) ∧ (x = 0x78 ∨ x = 0x58) ∧ digitsOf 16 s ≠ []) from fun h => hx h.2.1)]
      by_cases hb0 : b = 0
      · rw [if_pos hb0, if_neg (show ¬ (b ≠ 0) by omega)]
        simp only
        rw [dz _ _ (by omega)]
      · rw [if_neg hb0, if_pos (show b ≠ 0 by omega)]
        simp only
        rw [dz _ _ (by omega)]
  · have e1 : codeBase b s = (if b ≠ 0 then b else 10, s) := by
      unfold codeBase
      split
      · exact absurd ⟨_, _, rfl⟩ hns
      · rfl
    have e2 : splitBase b s = if b = 0 then (if s.head? = some 0x30 then 8 else 10, s) else (b, s) := by
      unfold splitBase
      split
      · exact absurd ⟨_, _, rfl⟩ hns
      · rfl
    rw [e1, e2]
    by_cases hb0 : b = 0
    · rw [if_pos hb0, if_neg (by omega)]
      have : s.head? ≠ some 0x30 := by
        intro hh
        match s, hns, h0, hh with
        | [], _, h0, _ => simp at h0
        | [c], _, h0, hh => simp at h0 hh; omega
        | c :: x :: s, hns, _, hh =>
          simp at hh
          exact hns ⟨x, s, by rw [hh]⟩
      simp only
      rw [if_neg this]
    · rw [if_neg hb0, if_pos (by omega)]

/-- skipping white space, then the sign -/
theorem strToInt_eq {T : CInt} {b : Nat} {s : List Int} (h0 : 0 ∈ s) (hc : ∀ c ∈ s, IsChar c) :
    (0 ∈ skipSpace s ∧ (∀ c ∈ skipSpace s, IsChar c)) ∧
    strToInt T s b = (if T.sg ∨ (splitSign (skipSpace s)).1 = false
      then strToIntImpl T (splitSign (skipSpace s)).2 b (splitSign (skipSpace s)).1
      else strToIntImpl T (skipSpace s) b false) := by
  induction s with
  | nil => simp at h0
  | cons c s ih =>
    rw [strToInt]
    have hsp := isspace_eq (hc c (by simp))
    by_cases h : Ctype.space c
    · rw [decide_eq_true h] at hsp
      rw [if_pos hsp]
      have : skipSpace (c :: s) = skipSpace s := by
        rw [skipSpace, List.dropWhile_cons, if_pos (decide_eq_true h)]; rfl
      rw [this]
      refine ih ?_ (fun c' h' => hc c' (by simp [h']))
      rcases List.mem_cons.1 h0 with h' | h'
      · rw [← h'] at h; simp [Ctype.space] at h
      · exact h'
    · rw [decide_eq_false h] at hsp
      rw [if_neg (by simp [hsp])]
      have : skipSpace (c :: s) = c :: s := by
        rw [skipSpace, List.dropWhile_cons, if_neg (by simp [h])]
      rw [this]
      refine ⟨⟨h0, hc⟩, ?_⟩
      by_cases h1 : c = 0x2D
      · subst h1
        simp only [splitSign, and_true]
        by_cases hs : T.sg = true
        · simp [hs]
        · simp [hs]
      · rw [if_neg (fun h => h1 h.2)]
        by_cases h2 : c = 0x2B
        · subst h2
          simp [splitSign]
        · rw [if_neg h2]
          have : splitSign (c :: s) = (false, c :: s) := by
            unfold splitSign
            split
            · rename_i h; simp at h; exact absurd h.1 h1
            · rename_i h; simp at h; exact absurd h.1 h2
            · rfl
          simp [this]

/-- the same for `ascii_to_int` -/
theorem asciiToInt_eq {T : CInt} {s : List Int} (h0 : 0 ∈ s) (hc : ∀ c ∈ s, IsChar c) :
    asciiToInt T s = (if T.sg ∨ (splitSign (skipSpace s)).1 = false
      then asciiToIntImpl T (splitSign (skipSpace s)).1 (splitSign (skipSpace s)).2 0
      else asciiToIntImpl T false (skipSpace s) 0) := by
  induction s with
  | nil => simp at h0
  | cons c s ih =>
    rw [asciiToInt]
    have hsp := isspace_eq (hc c (by simp))
    by_cases h : Ctype.space c
    · rw [decide_eq_true h] at hsp
      rw [if_pos hsp]
      have : skipSpace (c :: s) = skipSpace s := by
        rw [skipSpace, List.dropWhile_cons, if_pos (decide_eq_true h)]; rfl
      rw [this]
      refine ih ?_ (fun c' h' => hc c' (by simp [h']))
      rcases List.mem_cons.1 h0 with h' | h'
      · rw [← h'] at h; simp [Ctype.space] at h
      · exact h'
    · rw [decide_eq_false h] at hsp
      rw [if_neg (by simp [hsp])]
      have : skipSpace (c :: s) = c :: s := by
        rw [skipSpace, List.dropWhile_cons, if_neg (by simp [h])]
      rw [this]
      by_cases h1 : c = 0x2D
      · subst h1
        simp only [splitSign, and_true]
        by_cases hs : T.sg = true
        · simp [hs]
        · simp [hs]
      · rw [if_neg (fun h => h1 h.2)]
        by_cases h2 : c = 0x2B
        · subst h2
          simp [splitSign]
        · rw [if_neg h2]
          have : splitSign (c :: s) = (false, c :: s) := by
            unfold splitSign
            split
            · rename_i h; simp at h; exact absurd h.1 h1
            · rename_i h; simp at h; exact absurd h.1 h2
            · rfl
          simp [this]

theorem asciiToIntImpl_eq {T : CInt} (hT : T.Std) {negative : Bool} (hn : negative = true → T.sg = true) (str : List Int) :
    ∀ (val : Nat), 0 ∈ str → (∀ c' ∈ str, IsChar c') → val ≤ T.max - neg1 negative →
    asciiToIntImpl T negative str val = some (result T negative (evalFrom 10 val (digitsOf 10 str))) := by
  obtain ⟨h1, h2, h3, h4, h5, h6⟩ := hT.bounds
  induction str with
  | nil => intro val h0; simp at h0
  | cons c str ih =>
    intro val h0 hc hv
    have hd : isdigit c = decide (48 ≤ c ∧ c ≤ 57) := (isdigit_eq (hc c (by simp))).trans (decide_eq_decide.2 Iff.rfl)
    rw [asciiToIntImpl, hd]
    by_cases hdig : 48 ≤ c ∧ c ≤ 57
    · rw [decide_eq_true hdig, if_neg (by simp)]
      obtain ⟨d, hdc⟩ : ∃ d : Nat, c - 0x30 = d := ⟨(c - 0x30).toNat, by omega⟩
      have hds : digitsOf 10 (c :: str) = d :: digitsOf 10 str := by
        rw [digitsOf, digitVal, if_pos hdig, hdc]
        simp only [Int.toNat_natCast]
        rw [if_pos (by omega)]
      have hev : evalFrom 10 val (digitsOf 10 (c :: str)) = evalFrom 10 (val * 10 + d) (digitsOf 10 str) := by rw [hds]; rfl
      have hov := overflows_eq hT (b := 10) (val := val) (x := d) (by omega) (by omega) negative
      rw [show ((10 : Nat) : Int) = 10 from rfl] at hov
      rw [hdc, hov, hev]
      simp only [Option.bind_eq_bind, Option.bind_some]
      by_cases ho : T.max - neg1 negative < val * 10 + d
      · have hge := evalFrom_ge 10 (by omega) (digitsOf 10 str) (val * 10 + d)
        have hr : result T negative (evalFrom 10 (val * 10 + d) (digitsOf 10 str)) = if negative then T.min else T.max :=
          if_pos (by omega)
        rw [decide_eq_true ho, if_pos rfl, hr]
      · rw [decide_eq_false ho, if_neg (by simp)]
        have hneg : 0 ≤ neg1 negative := by unfold neg1; split <;> omega
        have ha1 : T.arith ((val : Int) * 10) = some ((val : Int) * 10) := CInt.arith_ok hT (by unfold CInt.Has; omega)
        have ha2 : T.Has ((val : Int) * 10 + d) := by unfold CInt.Has; omega
        rw [ha1]
        simp only [Option.bind_some]
        rw [CInt.arith_ok hT ha2]
        simp only [Option.bind_some]
        rw [CInt.conv_ok hT ha2]
        have := ih (val * 10 + d) (by
          rcases List.mem_cons.1 h0 with h | h
          · omega
          · exact h) (fun x hx => hc x (by simp [hx])) (by push_cast; omega)
        push_cast at this
        exact this
    · rw [decide_eq_false hdig, if_pos (by simp)]
      have hds : digitsOf 10 (c :: str) = [] := by
        rw [digitsOf, digitVal, if_neg hdig]
        split
        · rename_i d hd'
          split at hd'
          · rw [if_neg]; cases hd'; omega
          · split at hd'
            · rw [if_neg]; cases hd'; omega
            · cases hd'
        · rfl
      rw [hds]
      have := finish hT hn hv
      simp only [Int.neg_mul, Int.one_mul] at this
      exact this

/-- the result is the nearest value, except for a minus sign before the magnitude of the maximum -/
theorem result_clamp {T : CInt} (hT : T.Std) {negative : Bool} (hn : negative = true → T.sg = true) {m : Nat}
    (hm : negative = true → (m : Int) ≠ T.max) : result T negative m = clampTo T.min T.max (signed negative m) := by
  obtain ⟨h1, h2, h3, h4, h5, h6⟩ := hT.bounds
  unfold result clampTo signed neg1
  cases negative with
  | false =>
    simp only [Bool.false_eq_true, if_false]
    rw [if_neg (show ¬ ((m : Int) < T.min) by omega)]
    simp
  | true =>
    have := h4 (hn rfl)
    have := hm rfl
    simp only [if_true]
    by_cases h : T.max - 1 < m
    · rw [if_pos h]
      split
      · rfl
      · omega
    · rw [if_neg h, if_neg (by omega), if_neg (by omega)]

theorem splitSign_mem {u : List Int} (k0 : 0 ∈ u) (kc : ∀ c ∈ u, IsChar c) :
    0 ∈ (splitSign u).2 ∧ ∀ c ∈ (splitSign u).2, IsChar c := by
  unfold splitSign
  split
  · simp at k0; exact ⟨k0, fun c h => kc c (by simp at h ⊢; exact Or.inr h)⟩
  · simp at k0; exact ⟨k0, fun c h => kc c (by simp at h ⊢; exact Or.inr h)⟩
  · exact ⟨k0, kc⟩

theorem splitSign_minus {u : List Int} (h : (splitSign u).1 = true) : ∃ l, u = 0x2D :: l := by
  unfold splitSign at h
  split at h
  · exact ⟨_, rfl⟩
  · simp at h
  · simp at h

end Sprout.IntStr
