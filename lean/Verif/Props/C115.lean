import Verif.Proofs.Div

/-! # C115: division and absolute value of the C library -/

namespace Sprout
open Spec Div

/-- `div`, `ldiv`, `lldiv`, `imaxdiv`: whatever the order of the members in the C library, `quot` is the quotient truncated towards zero and
`rem` the remainder; a zero divisor and `MIN / -1` are undefined. -/
theorem C115_div (T : CInt) (hsg : T.sg = true) (hw : 32 ≤ T.w) (qf : Bool) (n d : Int) (hn : T.Has n) :
    (d = 0 ∨ (n = T.min ∧ d = -1) → div T qf n d = none) ∧
    (d ≠ 0 → ¬ (n = T.min ∧ d = -1) → ∃ q r, div T qf n d = some ⟨q, r⟩ ∧ Truncated n d q r ∧ T.Has q ∧ T.Has r) := by
  constructor
  · rintro (rfl | ⟨rfl, rfl⟩)
    · cases qf <;> rfl
    · have hd : T.div T.min (-1) = none := by
        unfold CInt.div
        rw [if_neg (by norm_num)]
        have e : T.min.tdiv (-1) = -T.min := by rw [Int.tdiv_neg, Int.tdiv_one]
        have hmin : T.min = -2 ^ (T.w - 1) := by unfold CInt.min; rw [if_pos hsg]
        have hmax : T.max = 2 ^ (T.w - 1) - 1 := by unfold CInt.max; rw [if_pos hsg]
        unfold CInt.arith
        rw [e, if_neg (by omega), if_pos hsg, if_neg (fun h => by have := h.2; omega)]
      have hr : T.rem T.min (-1) = none := by
        unfold CInt.rem
        unfold CInt.div at hd
        rw [if_neg (by norm_num)] at hd ⊢
        rw [hd]; rfl
      unfold Div.div divImpl
      rw [hd, hr]
      cases qf <;> rfl
  · intro h0 h
    obtain ⟨hq, hr⟩ := Div.quot_has hsg hn h
    have ha : ∀ x, T.Has x → T.arith x = some x := fun x hx => by
      unfold CInt.arith; rw [if_neg (by omega), if_pos hsg, if_pos hx]
    have hd : T.div n d = some (n.tdiv d) := by unfold CInt.div; rw [if_neg h0, ha _ hq]
    have hm : T.rem n d = some (n.tmod d) := by unfold CInt.rem; rw [if_neg h0, ha _ hq, ha _ hr]; rfl
    refine ⟨n.tdiv d, n.tmod d, ?_, ⟨?_, ?_, ?_, ?_⟩, hq, hr⟩
    · unfold Div.div divImpl
      rw [hd, hm]
      cases qf <;> rfl
    · have := Int.mul_tdiv_add_tmod n d; rw [Int.mul_comm]; exact this
    · rw [Int.natAbs_tmod]; exact Nat.mod_lt _ (by omega)
    · exact fun hn => Int.tmod_nonneg d hn
    · intro hn
      have := Int.tmod_nonneg d (by omega : 0 ≤ -n)
      rw [Int.neg_tmod] at this
      omega

example : ∃ q r, div CInt.int32 true (-7) 2 = some ⟨q, r⟩ ∧ Truncated (-7) 2 q r ∧ CInt.int32.Has q ∧ CInt.int32.Has r :=
  (C115_div CInt.int32 rfl (by decide) true (-7) 2 (by decide)).2 (by decide) (by decide)
example : div CInt.int32 false (-7) 2 = some ⟨-3, -1⟩ ∧ div CInt.int32 true (-2147483648) (-1) = none := by decide

/-- The truncated quotient and remainder are unique. -/
theorem C115_unique (n d q r q' r' : Int) (h : Truncated n d q r) (h' : Truncated n d q' r') : q = q' ∧ r = r' := by
  obtain ⟨h1, h2, h3, h4⟩ := h
  obtain ⟨h1', h2', h3', h4'⟩ := h'
  have hr : (r - r').natAbs < d.natAbs := by
    rcases le_total 0 n with hn | hn
    · have := h3 hn; have := h3' hn; omega
    · have := h4 hn; have := h4' hn; omega
  have he : (q' - q) * d = r - r' := by linarith [sub_mul q' q d]
  have hz : r - r' = 0 := by
    rw [← he, Int.natAbs_mul] at hr
    by_contra hne
    rw [← he] at hne
    have : 1 ≤ (q' - q).natAbs := by
      by_contra hc
      have : q' - q = 0 := by omega
      rw [this, zero_mul] at hne
      exact hne rfl
    have := Nat.mul_le_mul_right d.natAbs this
    omega
  have hd : d ≠ 0 := by omega
  have hq : q' - q = 0 := by
    rw [hz] at he
    exact (Int.mul_eq_zero.1 he).resolve_right hd
  omega

example : Truncated (-7) 2 (-3) (-1) := by unfold Truncated; decide

/-- As a tuple and as a container the structure has the two elements `quot` and `rem`; other indices are rejected. -/
theorem C115_access (d : DivT) (i : Nat) :
    elems d = [.ret d.quot, .ret d.rem] ∧ tupleGet i d = [d.quot, d.rem][i]? ∧
    divAt d i = (match [d.quot, d.rem][i]? with | some x => .ret x | none => .throw .outOfRange) := by
  refine ⟨rfl, ?_, ?_⟩ <;> match i with | 0 => rfl | 1 => rfl | (n + 2) => simp [tupleGet, divAt]

example : tupleGet 1 ⟨-3, -1⟩ = some (-1) := (C115_access ⟨-3, -1⟩ 1).2.1

/-- The full claim: remaking the container of its elements gives the container back. -/
def MakeFull : Prop :=
  ∀ (T : CInt) (qf : Bool) (q r : Int), T.sg = true → 32 ≤ T.w → T.Has q → T.Has r → make T qf q r = some ⟨q, r⟩

/-- `make` and `remake` divide their arguments: `make<div_t>(7, 2)` is `{3, 1}`, and making `{3, 0}` is undefined. -/
theorem C115_make_false : ¬ MakeFull ∧ (∀ T qf a b, make T qf a b = div T qf a b) ∧ make CInt.int32 true 7 2 = some ⟨3, 1⟩ ∧
    make CInt.int32 true 3 0 = none := by
  refine ⟨fun h => ?_, fun _ _ _ _ => rfl, by decide, by decide⟩
  have := h CInt.int32 true 7 2 rfl (by decide) (by decide) (by decide)
  revert this
  decide

/-- The full claim about `abs`: the absolute value whenever it is a value of the type, otherwise undefined. -/
def AbsFull : Prop :=
  ∀ (T : CInt), T.Std → ∀ j, T.Has j → abs T j = if T.Has j.natAbs then some (j.natAbs : Int) else none

/-- `abs`, `labs`, `llabs`, `imaxabs` give the absolute value except at `MIN`; there it is undefined for `int` and wider types.
Missing: the narrower types at `MIN`. -/
theorem C115_abs_partial (T : CInt) (hT : T.Std) (j : Int) (hj : T.Has j) :
    (T.Has j.natAbs → abs T j = some (j.natAbs : Int)) ∧ (¬ T.Has j.natAbs → 32 ≤ T.w → abs T j = none) := by
  obtain ⟨w, sg⟩ := T
  simp only [CInt.Std] at hT
  simp only [CInt.Has, CInt.min, CInt.max, Div.abs, CInt.arith, CInt.conv] at *
  cases sg
  · simp only [Bool.false_eq_true, if_false] at *
    exact ⟨fun _ => by congr 1; omega, fun h => by exfalso; omega⟩
  · simp only [if_true] at *
    constructor
    · intro h
      by_cases h0 : j < 0
      · rw [if_pos h0]
        have e : (j.natAbs : Int) = -j := by omega
        rw [e] at h ⊢
        rcases hT with rfl | rfl | rfl | rfl
        all_goals
          norm_num at *
          first
            | rw [if_pos (by omega)]
            | rw [if_pos ⟨by omega, by omega⟩]
          simp only [Option.bind_some, Option.some.injEq]
          omega
      · rw [if_neg h0]; congr 1; omega
    · intro h hw
      have h0 : j < 0 := by omega
      rw [if_pos h0, if_neg (by omega), if_neg (by omega)]
      rfl

example : abs CInt.int16 (-32767) = some 32767 := (C115_abs_partial CInt.int16 (by unfold CInt.Std; decide) (-32767) (by decide)).1 (by decide)
example : abs CInt.int32 (-2147483648) = none :=
  (C115_abs_partial CInt.int32 (by unfold CInt.Std; decide) (-2147483648) (by decide)).2 (by decide) (by decide)

/-- `abs(signed char(-128))` is `-128`: the promoted 128 is converted back. -/
theorem C115_abs_false : ¬ AbsFull ∧ abs CInt.int8 (-128) = some (-128) := by
  have e : abs CInt.int8 (-128) = some (-128) := by decide
  refine ⟨fun h => ?_, e⟩
  have := h CInt.int8 (by unfold CInt.Std; decide) (-128) (by decide)
  rw [e] at this
  revert this
  decide

end Sprout
