import Verif.Proofs.Weed5
import Verif.Proofs.CInt
import Verif.Proofs.CIntMod

/-! # Numeric parsers -/

namespace Sprout

namespace Weed
open Spec Spec.Peg

variable {s : List Int}

/-- the radices of `from_ndigit` -/
def IsRadix (b : Nat) : Prop := b = 2 ∨ b = 8 ∨ b = 10 ∨ b = 16

/-- the value of a character as a digit of base `b` -/
def ndig (b : Nat) (c : Int) : Option Nat :=
  match digitVal c with
  | some d => if d < b then some d else none
  | none => none

theorem digitsOf_cons (b : Nat) (c : Int) (cs : List Int) :
    digitsOf b (c :: cs) = match ndig b c with | some d => d :: digitsOf b cs | none => [] := by
  simp only [digitsOf, ndig]
  cases digitVal c with
  | none => rfl
  | some d => by_cases h : d < b <;> simp [h]

theorem fromNdigit_eq {b : Nat} (hb : IsRadix b) (c : Int) : fromNdigit b c = some (ndig b c) := by
  have e : ∀ l : List Int, findValRa l 0 l.length c = some (l.findIdx (fun x => x == c)) := by
    intro l
    have := findIfRa_eq [] l [] (fun x => x == c)
    simpa [findValRa, findIfRa] using this
  unfold fromNdigit
  simp only [e, Option.bind_eq_bind, Option.bind_some]
  by_cases hc : 0x30 ≤ c ∧ c ≤ 0x66
  · obtain ⟨h1, h2⟩ := hc
    rcases hb with rfl | rfl | rfl | rfl <;> interval_cases c <;> rfl
  · have hout : ∀ b, IsRadix b → ndig b c = none := by
      intro b hb
      unfold ndig digitVal
      rw [if_neg (by omega)]
      by_cases h2 : 0x61 ≤ c ∧ c ≤ 0x7A
      · rw [if_pos h2]
        have : ¬ (c - 0x61 + 10).toNat < b := by rcases hb with rfl | rfl | rfl | rfl <;> omega
        simp only [this, if_false]
      · rw [if_neg h2]
        by_cases h3 : 0x41 ≤ c ∧ c ≤ 0x5A
        · omega
        · rw [if_neg h3]
    rw [hout b hb]
    have hnot : ∀ x ∈ (digitTable b).1, (x == c) = false := by
      intro x hx
      have : 0x30 ≤ x ∧ x ≤ 0x66 := by
        rcases hb with rfl | rfl | rfl | rfl <;> simp only [digitTable, List.mem_cons, List.not_mem_nil, or_false] at hx <;> omega
      rw [beq_eq_false_iff_ne]
      rintro rfl
      exact hc this
    have : (digitTable b).1.findIdx (fun x => x == c) = (digitTable b).1.length := by
      rw [List.findIdx_eq_length]
      intro x hx
      exact hnot x hx
    rw [this, if_neg (by omega)]

theorem numStep_eq {T : CInt} (hT : T.Std) (r : Nat) (x d : Nat) : numStep T r (T.conv x) d = T.conv ((x * r + d : Nat) : Int) := by
  unfold numStep
  refine T.conv_congr ?_
  have hd : (2 : Int) ^ T.w ∣ 2 ^ CInt.uint64.w := by
    refine pow_dvd_pow 2 ?_
    rcases hT with h | h | h | h <;> simp [h, CInt.uint64]
  have h64 : ∀ y, CInt.uint64.conv y ≡ y [ZMOD 2 ^ T.w] := fun y => (CInt.conv_modEq _ y).of_dvd hd
  refine (h64 _).trans ?_
  push_cast
  exact (((h64 _).trans (T.conv_modEq x)).mul_right _).add_right _

theorem evalFrom_cons (b a d : Nat) (ds : List Nat) : evalFrom b a (d :: ds) = evalFrom b (a * b + d) ds := rfl

/-- well-formed parameters: a standard type, a supported radix, and `limit_digits ≥ 2` -/
structure Num.Wf (P : Num) : Prop where
  std : P.T.Std
  radix : IsRadix P.radix
  limit : 2 ≤ P.limit

theorem Num.limit_le (P : Num) : P.limit ≤ P.mx := by unfold Num.limit; dsimp only; split <;> omega

theorem numLoop_eq {P : Num} (hP : P.Wf) (temp : Nat) : ∀ (ds : List Nat) (first x N n : Nat),
    digitsOf P.radix (s.drop first) = ds → first ≤ s.length → n < P.mx → N = min n (P.limit - 1) →
    numLoop s P temp first (P.T.conv x) N n =
      if P.mx - n ≤ ds.length then term true (first + (P.mx - n)) (P.T.conv (evalFrom P.radix x (ds.take (P.mx - n)) : Nat))
      else if min (n + ds.length) (P.limit - 1) + (if first + ds.length = s.length then 0 else 1) < P.mn then term false temp 0
      else term true (first + ds.length) (P.T.conv (evalFrom P.radix x ds : Nat)) := by
  have hlm := P.limit_le
  have hl := hP.limit
  intro ds
  induction ds with
  | nil =>
    intro first x N n hds hfirst hn hN
    rw [numLoop]
    simp only [List.length_nil, Nat.add_zero]
    rw [if_neg (show ¬ P.mx - n ≤ 0 by omega)]
    by_cases h : first = s.length
    · rw [if_neg (by simpa using h), if_pos h, hN]; rfl
    · rw [if_pos h]
      have hlt : first < s.length := by omega
      rw [List.drop_eq_getElem_cons hlt, digitsOf_cons] at hds
      simp only [rd, List.getElem?_eq_getElem hlt, Option.bind_eq_bind, Option.bind_some, fromNdigit_eq hP.radix]
      cases hd : ndig P.radix s[first] with
      | some d => rw [hd] at hds; cases hds
      | none => simp only [if_neg h, hN]; rfl
  | cons d ds ih =>
    intro first x N n hds hfirst hn hN
    have h : first ≠ s.length := by rintro rfl; simp [digitsOf] at hds
    have hlt : first < s.length := by omega
    rw [numLoop]
    rw [List.drop_eq_getElem_cons hlt, digitsOf_cons] at hds
    rw [if_pos h]
    simp only [rd, List.getElem?_eq_getElem hlt, Option.bind_eq_bind, Option.bind_some, fromNdigit_eq hP.radix]
    cases hd : ndig P.radix s[first] with
    | none => rw [hd] at hds; cases hds
    | some d' =>
      rw [hd] at hds
      simp only [List.cons.injEq] at hds
      obtain ⟨rfl, hds⟩ := hds
      simp only [numStep_eq hP.std]
      have step : ∀ N', n + 1 < P.mx → N' = min (n + 1) (P.limit - 1) →
          numLoop s P temp (first + 1) (P.T.conv ((x * P.radix + d' : Nat) : Int)) N' (n + 1) =
          if P.mx - n ≤ (d' :: ds).length then
            term true (first + (P.mx - n)) (P.T.conv (evalFrom P.radix x ((d' :: ds).take (P.mx - n)) : Nat))
          else if min (n + (d' :: ds).length) (P.limit - 1) + (if first + (d' :: ds).length = s.length then 0 else 1) < P.mn
            then term false temp 0
          else term true (first + (d' :: ds).length) (P.T.conv (evalFrom P.radix x (d' :: ds) : Nat)) := by
        intro N' h1 h2
        rw [ih (first + 1) _ N' (n + 1) hds (by omega) h1 h2]
        obtain ⟨k, hk⟩ : ∃ k, P.mx - n = k + 1 := ⟨P.mx - n - 1, by omega⟩
        have hk' : P.mx - (n + 1) = k := by omega
        rw [hk, hk']
        simp only [List.length_cons, List.take_succ_cons, evalFrom_cons, Nat.add_le_add_iff_right]
        rw [show first + 1 + k = first + (k + 1) by omega, show first + 1 + ds.length = first + (ds.length + 1) by omega,
          show n + 1 + ds.length = n + (ds.length + 1) by omega]
      by_cases hN1 : N + 1 = P.limit
      · rw [if_pos hN1]
        by_cases hn1 : n + 1 < P.mx
        · rw [if_pos hn1]
          exact step (N + 1 - 1) hn1 (by omega)
        · rw [if_neg hn1]
          have : P.mx - n = 1 := by omega
          rw [this, if_pos (by simp)]
          rfl
      · rw [if_neg hN1]
        exact step (N + 1) (by omega) (by omega)

/-- what `uint_p` accepts, as a recogniser -/
def numRec (P : Num) (s : List Int) : Option Nat :=
  let D := (digitsOf P.radix s).length
  if D = 0 then none
  else if P.mx ≤ D then some P.mx
  else if min D (P.limit - 1) + (if D = s.length then 0 else 1) < P.mn then none else some D

/-- the number written by the first `k` digits -/
def numVal (P : Num) (s : List Int) (k : Nat) : Nat := evalFrom P.radix 0 ((digitsOf P.radix s).take k)

/-- result of `uint_p` at `i`, given the digits start at `first` -/
def numRes (P : Num) (temp first : Nat) (u : List Int) : Res Int :=
  match numRec P u with
  | some k => ⟨true, first + k, first + k, P.T.conv (numVal P u k)⟩
  | none => ⟨false, temp, temp, 0⟩

theorem digitsOf_le (b : Nat) (u : List Int) : (digitsOf b u).length ≤ u.length := by
  induction u with
  | nil => simp [digitsOf]
  | cons c u ih => rw [digitsOf_cons]; cases ndig b c <;> simp <;> omega

theorem numRec_le {P : Num} {u : List Int} {k : Nat} (h : numRec P u = some k) : k ≤ (digitsOf P.radix u).length := by
  unfold numRec at h
  dsimp only at h
  by_cases h0 : (digitsOf P.radix u).length = 0
  · rw [if_pos h0] at h; cases h
  · rw [if_neg h0] at h
    by_cases h1 : P.mx ≤ (digitsOf P.radix u).length
    · rw [if_pos h1] at h; cases h; exact h1
    · rw [if_neg h1] at h
      split at h
      all_goals (split at h <;> first | (cases h; done) | (cases h; exact Nat.le_refl _))

theorem numFirst_eq {P : Num} (hP : P.Wf) {first temp : Nat} (h : first < s.length) :
    numFirst s P first temp = some (numRes P temp first (s.drop first)) := by
  have hlm := P.limit_le
  have hl := hP.limit
  unfold numFirst
  simp only [rd, List.getElem?_eq_getElem h, Option.bind_eq_bind, Option.bind_some, fromNdigit_eq hP.radix]
  have e : s.drop first = s[first] :: s.drop (first + 1) := List.drop_eq_getElem_cons h
  have e2 := digitsOf_cons P.radix s[first] (s.drop (first + 1))
  rw [← e] at e2
  cases hd : ndig P.radix s[first] with
  | none =>
    rw [hd] at e2
    simp only [] at e2
    simp only [numRes, numRec, e2, List.length_nil, if_true, term]
  | some d =>
    rw [hd] at e2
    simp only [] at e2 ⊢
    rw [numLoop_eq hP temp (digitsOf P.radix (s.drop (first + 1))) (first + 1) d 1 1 rfl (by omega) (by omega) (by omega)]
    generalize digitsOf P.radix (s.drop (first + 1)) = ds at e2
    obtain ⟨m, hm⟩ : ∃ m, P.mx = m + 1 := ⟨P.mx - 1, by omega⟩
    unfold numRes numRec
    simp only [e2, numVal, List.length_cons, hm, Nat.add_sub_cancel, Nat.add_le_add_iff_right, Nat.add_eq_zero_iff,
      Nat.one_ne_zero, and_false, if_false, List.length_drop]
    by_cases h1 : m ≤ ds.length
    · simp only [h1, if_true, term, List.take_succ_cons, evalFrom_cons, Nat.zero_mul, Nat.zero_add]
      rw [show first + 1 + m = first + (m + 1) by omega]
    · simp only [h1, if_false]
      rw [show 1 + ds.length = ds.length + 1 by omega]
      have hiff : (first + 1 + ds.length = s.length) ↔ (ds.length + 1 = s.length - first) := by omega
      simp only [hiff]
      by_cases h2 : min (ds.length + 1) (P.limit - 1) + (if ds.length + 1 = s.length - first then 0 else 1) < P.mn
      · simp only [h2, if_true, term]
      · simp only [h2, if_false, term]
        have : (d :: ds).take (ds.length + 1) = d :: ds := by simp
        rw [this, evalFrom_cons, Nat.zero_mul, Nat.zero_add, show first + 1 + ds.length = first + (ds.length + 1) by omega]

theorem uintP_eq {P : Num} (hP : P.Wf) {i : Nat} (h : i ≤ s.length) : uintP s P i = some (numRes P i i (s.drop i)) := by
  unfold uintP
  by_cases h1 : i = s.length
  · rw [if_neg (by simpa using h1)]
    subst h1
    simp [numRes, numRec, digitsOf, term]
  · rw [if_pos h1, numFirst_eq hP (by omega)]

/-- result of `int_p` -/
def signRec (P : Num) : List Int → Option Nat
  | [] => none
  | c :: u => if c = 0x2B ∨ c = 0x2D then (numRec P u).map (· + 1) else numRec P (c :: u)

/-- the number it denotes -/
def signVal (P : Num) : List Int → Nat → Int
  | [], _ => 0
  | c :: u, k => if c = 0x2B then numVal P u (k - 1) else if c = 0x2D then -(numVal P u (k - 1) : Int) else numVal P (c :: u) k

def intRes (P : Num) (i : Nat) (u : List Int) : Res Int :=
  match signRec P u with
  | some k => ⟨true, i + k, i + k, P.T.conv (signVal P u k)⟩
  | none => ⟨false, i, i, 0⟩

/-- no numeral after a minus sign converts to the least value of a signed type of at least 32 bits -/
def NegOk (P : Num) (u : List Int) : Prop :=
  ∀ v k, u = 0x2D :: v → numRec P v = some k → P.T.sg = true → 32 ≤ P.T.w → P.T.conv (numVal P v k) ≠ P.T.min

theorem conv_has' {T : CInt} (hT : T.Std) (x : Int) : T.Has (T.conv x) := by
  have hp : (0 : Int) < 2 ^ T.w := by positivity
  have h1 := Int.emod_nonneg (x - T.min) (by omega : (2 : Int) ^ T.w ≠ 0)
  have h2 := Int.emod_lt_of_pos (x - T.min) hp
  have hmm : T.max = T.min + (2 ^ T.w - 1) := by
    obtain ⟨w, sg⟩ := T
    rcases hT with h | h | h | h <;> simp only at h <;> subst h <;> cases sg <;> simp [CInt.max, CInt.min]
  unfold CInt.Has CInt.conv
  rw [hmm]
  omega

theorem neg_ar {T : CInt} (hT : T.Std) (x : Nat) : (¬ (T.sg = true ∧ 32 ≤ T.w ∧ T.conv x = T.min) →
    T.ar (-(T.conv x)) = some (T.conv (-(x : Int)))) ∧
    ((T.sg = true ∧ 32 ≤ T.w ∧ T.conv x = T.min) → T.ar (-(T.conv x)) = none) := by
  have hh := conv_has' hT x
  have hc : T.conv (-(T.conv x)) = T.conv (-(x : Int)) := T.conv_congr (T.conv_modEq x).neg
  obtain ⟨w, sg⟩ := T
  constructor
  · intro h
    unfold CInt.ar
    have : ∃ y, CInt.arith ⟨w, sg⟩ (-(CInt.conv ⟨w, sg⟩ x)) = some y ∧ y ≡ -(CInt.conv ⟨w, sg⟩ x) [ZMOD 2 ^ w] := by
      unfold CInt.arith
      by_cases hw : w < 32
      · rw [if_pos hw]
        have : -2 ^ 31 ≤ -(CInt.conv ⟨w, sg⟩ x) ∧ -(CInt.conv ⟨w, sg⟩ x) < 2 ^ 31 := by
          unfold CInt.Has CInt.min CInt.max at hh
          rcases hT with h | h | h | h <;> simp only at h <;> subst h <;> cases sg <;> simp at hh <;> omega
        rw [if_pos this]
        exact ⟨_, rfl, rfl⟩
      · rw [if_neg hw]
        cases sg with
        | true =>
          have : CInt.Has ⟨w, true⟩ (-(CInt.conv ⟨w, true⟩ x)) := by
            have h' : CInt.conv ⟨w, true⟩ x ≠ CInt.min ⟨w, true⟩ := fun h2 => h ⟨rfl, by simp only; omega, h2⟩
            unfold CInt.Has CInt.min CInt.max at hh ⊢
            unfold CInt.min at h'
            rcases hT with h | h | h | h <;> simp only at h <;> subst h <;> simp at hh h' ⊢ <;> omega
          simp only [if_true]
          rw [if_pos this]
          exact ⟨_, rfl, rfl⟩
        | false =>
          simp only [Bool.false_eq_true, if_false]
          exact ⟨_, rfl, Int.mod_modEq _ _⟩
    obtain ⟨y, h1, h2⟩ := this
    rw [h1, Option.map_some, ← hc]
    rw [CInt.conv_congr ⟨w, sg⟩ h2]
  · rintro ⟨h1, h2, h3⟩
    simp only at h1 h2
    subst h1
    unfold CInt.ar CInt.arith
    rw [if_neg (by simp only; omega), if_pos rfl, if_neg, Option.map_none]
    rw [h3]
    unfold CInt.Has CInt.min CInt.max
    rcases hT with h | h | h | h <;> simp only at h <;> subst h <;> simp

theorem conv_zero {T : CInt} (hT : T.Std) : T.conv 0 = 0 := by
  refine CInt.conv_ok hT ?_
  obtain ⟨w, sg⟩ := T
  rcases hT with h | h | h | h <;> simp only at h <;> subst h <;> cases sg <;> simp [CInt.Has, CInt.min, CInt.max]

theorem intCall_eq {P : Num} (hP : P.Wf) {first temp : Nat} (neg : Bool) (h : first ≤ s.length) :
    intCall s P first temp neg =
      match numRec P (s.drop first) with
      | some k => (if neg then P.T.ar (-(P.T.conv (numVal P (s.drop first) k))) else
          some (P.T.conv (numVal P (s.drop first) k))).map fun v => ⟨true, first + k, first + k, v⟩
      | none => some ⟨false, temp, temp, 0⟩ := by
  unfold intCall
  by_cases h1 : first = s.length
  · rw [if_neg (by simpa using h1)]
    subst h1
    simp [numRec, digitsOf, term]
  · rw [if_pos h1, numFirst_eq hP (by omega)]
    simp only [Option.bind_eq_bind, Option.bind_some, numRes, numSign]
    cases numRec P (s.drop first) with
    | none => simp
    | some k => cases neg <;> simp [Option.map_eq_bind, Function.comp_def]

theorem intP_eq {P : Num} (hP : P.Wf) {i : Nat} (h : i ≤ s.length) (hn : NegOk P (s.drop i)) :
    intP s P i = some (intRes P i (s.drop i)) := by
  unfold intP
  by_cases h1 : i = s.length
  · rw [if_neg (by simpa using h1)]
    subst h1
    simp [intRes, signRec, term]
  · have hlt : i < s.length := by omega
    have e : s.drop i = s[i] :: s.drop (i + 1) := List.drop_eq_getElem_cons hlt
    rw [if_pos h1]
    simp only [rd, List.getElem?_eq_getElem hlt, Option.bind_eq_bind, Option.bind_some]
    by_cases hp : s[i] = 0x2B
    · rw [if_pos hp, intCall_eq hP false (by omega), e]
      simp only [intRes, signRec, hp, true_or, if_true, signVal]
      cases numRec P (s.drop (i + 1)) with
      | none => rfl
      | some k => simp; omega
    · rw [if_neg hp]
      by_cases hm : s[i] = 0x2D
      · rw [if_pos hm, intCall_eq hP true (by omega), e]
        rw [e, hm] at hn
        have hn := fun k => hn _ k rfl
        simp only [intRes, signRec, hm, or_true, if_true, signVal]
        cases hk : numRec P (s.drop (i + 1)) with
        | none => rfl
        | some k =>
          have := (neg_ar hP.std (numVal P (s.drop (i + 1)) k)).1 (fun ⟨a, b, c⟩ => hn k hk a b c)
          simp [this]; omega
      · rw [if_neg hm, intCall_eq hP false (by omega), e]
        simp only [intRes, signRec, hp, hm, or_self, if_false, signVal]
        cases numRec P (s[i] :: s.drop (i + 1)) with
        | none => rfl
        | some k => simp

/-- otherwise it is undefined -/
theorem intP_ub {P : Num} (hP : P.Wf) {i : Nat} (h : i ≤ s.length) (hn : ¬ NegOk P (s.drop i)) : intP s P i = none := by
  unfold NegOk at hn
  push Not at hn
  obtain ⟨v, k, h1, h2, h3, h4, h5⟩ := hn
  have hlt : i < s.length := by
    by_contra hh
    rw [List.drop_eq_nil_of_le (by omega)] at h1
    cases h1
  have e : s.drop i = s[i] :: s.drop (i + 1) := List.drop_eq_getElem_cons hlt
  rw [e, List.cons.injEq] at h1
  obtain ⟨hm, rfl⟩ := h1
  unfold intP
  rw [if_pos (by omega)]
  simp only [rd, List.getElem?_eq_getElem hlt, Option.bind_eq_bind, Option.bind_some, hm]
  rw [if_neg (by decide), if_pos (by trivial), intCall_eq hP true (by omega), h2]
  simp only [if_true]
  rw [(neg_ar hP.std _).2 ⟨h3, h4, h5⟩]
  rfl

theorem Denotes.uint {P : Num} (hP : P.Wf) : Denotes s (fun i => noAttr (uintP s P i)) (.prim (numRec P)) := by
  refine Denotes.of_key (fun u k h => ?_) fun i hi => ?_
  · have := digitsOf_le P.radix u
    have := numRec_le h
    omega
  · rw [uintP_eq hP hi]
    unfold numRes
    cases h : numRec P (s.drop i) with
    | none => exact ⟨none, .prim_fail h, rfl⟩
    | some k => exact ⟨some (i + k), .prim_ok h, rfl⟩

theorem Denotes.int {P : Num} (hP : P.Wf) (hn : ∀ i, NegOk P (s.drop i)) :
    Denotes s (fun i => noAttr (intP s P i)) (.prim (signRec P)) := by
  have hle : ∀ u k, numRec P u = some k → k ≤ u.length := by
    intro u k h
    have := digitsOf_le P.radix u
    have := numRec_le h
    omega
  refine Denotes.of_key (fun u k h => ?_) fun i hi => ?_
  · cases u with
    | nil => cases h
    | cons c u =>
      simp only [signRec] at h
      split at h
      · obtain ⟨k', h1, rfl⟩ := Option.map_eq_some_iff.1 h
        have := hle _ _ h1
        simp; omega
      · exact hle _ _ h
  · rw [intP_eq hP hi (hn i)]
    unfold intRes
    cases h : signRec P (s.drop i) with
    | none => exact ⟨none, .prim_fail h, rfl⟩
    | some k => exact ⟨some (i + k), .prim_ok h, rfl⟩

/-! ## Comparison with the specification -/

/-- with a minimum of at most one digit it is the specification -/
theorem numRec_spec {P : Num} (hP : P.Wf) (hmn : P.mn ≤ 1) (u : List Int) : numRec P u = Peg.digits P.radix 1 P.mx u := by
  have hlm := P.limit_le
  have hl := hP.limit
  unfold numRec Peg.digits
  dsimp only
  by_cases h0 : (digitsOf P.radix u).length = 0
  · rw [if_pos h0, if_neg (by omega)]
  · rw [if_neg h0]
    by_cases h1 : P.mx ≤ (digitsOf P.radix u).length
    · rw [if_pos h1, if_pos (by omega)]; congr 1; omega
    · rw [if_neg h1, if_neg (by split <;> omega), if_pos (by omega)]; congr 1; omega

theorem signRec_spec {P : Num} (hP : P.Wf) (hmn : P.mn ≤ 1) (u : List Int) : signRec P u = Peg.signedDigits P.radix 1 P.mx u := by
  cases u with
  | nil => rfl
  | cons c u => simp only [signRec, Peg.signedDigits, numRec_spec hP hmn]

end Weed
end Sprout
