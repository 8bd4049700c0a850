import Verif.Proofs.Bitset4
import Verif.Props.C26

/-!
# C28: count, any, none, all, find_first, find_next, to_ullong, strings

For every word size (`Width B`: 8 times a power of two, needed for `ctz`), every `N`, every bitset.

`find_first()` and `find_next(prev)` of `bitset` itself cannot be compiled: they call `this->find_first(N)` and
`this->find_next(prev, N)`, and the members of the base class are hidden by the members of the same name
(bitset.hpp 1390-1397). What is proved is about the members of the base class; `find_next` of a multi-word base cannot be
compiled either (bitset.hpp 126 misses an argument), the theorem is about the evidently intended call. This part is
therefore marked `_partial`.
-/

namespace Sprout
open Spec Bitset

variable {B N : Nat} {ws : List (BitVec B)} {f : Nat → Bool}

theorem width_pos (hw : Width B) : 0 < B := by
  obtain ⟨k, rfl⟩ := hw; exact Nat.mul_pos (by omega) (Nat.pow_pos (by omega))

/-- `count` is the number of set bits -/
theorem C28_count (hB : 0 < B) (h : Rep B N ws f) : count ws = some (card N f) := by
  rw [count_eq, card_eq hB h]

theorem bit_set_iff (hB : 0 < B) (h : Rep B N ws f) (i : Nat) : bitAt ws i = true ↔ i < N ∧ f i = true := by
  rw [((rep_iff hB).1 h).2]; simp

/-- `any`: some bit is set -/
theorem C28_any (hB : 0 < B) (h : Rep B N ws f) : any ws = true ↔ ∃ i < N, f i = true := by
  rw [any_iff hB]
  exact exists_congr fun i => bit_set_iff hB h i

/-- `none`: no bit is set -/
theorem C28_none (hB : 0 < B) (h : Rep B N ws f) : isNone ws = true ↔ ∀ i < N, f i = false := by
  rw [isNone, Bool.not_eq_true', ← Bool.not_eq_true, C28_any hB h]
  simp

/-- `all`: every bit is set -/
theorem C28_all (hB : 0 < B) (h : Rep B N ws f) :
    ∃ b, all N ws = some b ∧ (b = true ↔ ∀ i < N, f i = true) := all_eq hB h

/-- `any`, `none` and `all` in terms of the number of set bits -/
theorem C28_card (hB : 0 < B) (h : Rep B N ws f) :
    (any ws = true ↔ 0 < card N f) ∧ (isNone ws = true ↔ card N f = 0) ∧ (all N ws = some true ↔ card N f = N) := by
  refine ⟨?_, ?_, ?_⟩
  · rw [C28_any hB h, card, List.countP_pos_iff]
    simp
  · rw [C28_none hB h, card, List.countP_eq_zero]
    simp
  · obtain ⟨b, h1, h2⟩ := C28_all hB h
    rw [h1, Option.some.injEq, h2, card]
    have := List.countP_eq_length (p := f) (l := List.range N)
    rw [List.length_range] at this
    rw [this]
    simp

/-- `find_first` (of the base class) returns the least set position, or `N` -/
theorem C28_find_first_partial (hw : Width B) (h : Rep B N ws f) :
    (∃ p < N, f p = true ∧ (∀ j < p, f j = false) ∧ findFirst N ws = some (p : Int)) ∨
    ((∀ p < N, f p = false) ∧ findFirst N ws = some (N : Int)) := by
  have hB := width_pos hw
  have hr := (rep_iff hB).1 h
  have h0 : ws = [] → N = 0 := by
    rintro rfl
    have := (nwords_bounds hB N).1
    rw [← hr.1] at this
    simpa using this
  rw [findFirst_eq hw N ws h0]
  rcases findFirstImpl_eq hw N ws 0 with ⟨p, h1, h2, h3⟩ | ⟨h1, h2⟩
  · obtain ⟨hp, hf⟩ := (bit_set_iff hB h p).1 h1
    refine Or.inl ⟨p, hp, hf, fun j hj => ?_, by rw [h3]; simp⟩
    have := h2 j hj
    rw [hr.2] at this
    simpa [show j < N by omega] using this
  · refine Or.inr ⟨fun p hp => ?_, h2⟩
    have := h1 p
    rw [hr.2] at this
    simpa [hp] using this

/-- `find_next` (of the base class) returns the least set position above `prev`, or `N` -/
theorem C28_find_next_partial (hw : Width B) (h : Rep B N ws f) {prev : Nat} (hprev : prev < N) :
    (∃ p < N, prev < p ∧ f p = true ∧ (∀ j, prev < j → j < p → f j = false) ∧ findNext N ws prev = some (p : Int)) ∨
    ((∀ p < N, prev < p → f p = false) ∧ findNext N ws prev = some (N : Int)) := by
  have hB := width_pos hw
  have hr := (rep_iff hB).1 h
  rcases findNext_eq hw N hr.1 hprev with ⟨p, h0, h1, h2, h3⟩ | ⟨h1, h2⟩
  · obtain ⟨hp, hf⟩ := (bit_set_iff hB h p).1 h1
    refine Or.inl ⟨p, hp, h0, hf, fun j hj hjp => ?_, h3⟩
    have := h2 j hj hjp
    rw [hr.2] at this
    simpa [show j < N by omega] using this
  · refine Or.inr ⟨fun p hp hpp => ?_, h2⟩
    have := h1 p hpp
    rw [hr.2] at this
    simpa [hp] using this

/-- `to_ulong` throws exactly if a bit at a position ≥ the word size is set, and otherwise returns the value -/
theorem C28_to_ulong (hB : 0 < B) (h : Rep B N ws f) :
    ((∃ i, B ≤ i ∧ i < N ∧ f i = true) → toUlong ws = .throw .overflow) ∧
    ((¬ ∃ i, B ≤ i ∧ i < N ∧ f i = true) → ∃ v : BitVec B, toUlong ws = .ret v ∧
      ∀ i < B, v.getLsbD i = (decide (i < N) && f i)) := by
  have hr := (rep_iff hB).1 h
  have key : (∃ i, B ≤ i ∧ i < N ∧ f i = true) ↔ (ws.drop 1).any (fun t => t != 0) = true := by
    rw [any_ne_iff hB, Nat.one_mul]
    exact exists_congr fun i => and_congr_right fun _ => (bit_set_iff hB h i).symm
  rw [key]
  have hv : ∀ w rest, ws = w :: rest → ∀ i < B, w.getLsbD i = (decide (i < N) && f i) := by
    rintro w rest rfl i hi
    rw [← hr.2, bitAt_cons_lo _ _ hi]
  rcases ws with _ | ⟨w, _ | ⟨w', rest⟩⟩
  · refine ⟨fun e => by simp at e, fun _ => ⟨0, rfl, fun i hi => ?_⟩⟩
    rw [← hr.2, bitAt_nil]; simp
  · exact ⟨fun e => by simp at e, fun _ => ⟨w, rfl, hv _ _ rfl⟩⟩
  · refine ⟨fun e => ?_, fun e => ⟨w, ?_, hv _ _ rfl⟩⟩
    · rw [toUlong]
      · rw [if_pos (by simpa using e)]
      · simp
    · rw [toUlong]
      · rw [if_neg (by simpa using e)]
      · simp

/-- `to_ullong` throws exactly if a bit ≥ 64 is set, and otherwise returns the value; `unsigned long` has 32 to 64 bits
(`unsigned long long` 64) -/
theorem C28_to_ullong (hB : 32 ≤ B) (hB' : B ≤ 64) (h : Rep B N ws f) (hN : B < 64 → B = 32) :
    ((∃ i, 64 ≤ i ∧ i < N ∧ f i = true) → toUllong ws = some (.throw .overflow)) ∧
    ((¬ ∃ i, 64 ≤ i ∧ i < N ∧ f i = true) → ∃ v : BitVec 64, toUllong ws = some (.ret v) ∧
      ∀ i < 64, v.getLsbD i = (decide (i < N) && f i)) := by
  have hBp : 0 < B := by omega
  have hr := (rep_iff hBp).1 h
  have key : ∀ q, q * B = 64 → ((∃ i, 64 ≤ i ∧ i < N ∧ f i = true) ↔ (ws.drop q).any (fun t => t != 0) = true) := by
    intro q hq
    rw [any_ne_iff hBp, hq]
    exact exists_congr fun i => and_congr_right fun _ => (bit_set_iff hBp h i).symm
  have hset : ∀ i, bitAt ws i = (decide (i < N) && f i) := hr.2
  rcases ws with _ | ⟨w, _ | ⟨w', rest⟩⟩
  · have hN0 : ∀ i, (decide (i < N) && f i) = false := fun i => by rw [← hset, bitAt_nil]
    refine ⟨fun ⟨i, _, h1, h2⟩ => ?_, fun _ => ⟨0, rfl, fun i hi => ?_⟩⟩
    · have := hN0 i; simp [h1, h2] at this
    · rw [hN0]; simp
  · refine ⟨fun ⟨i, h0, h1, h2⟩ => ?_, fun _ => ⟨w.setWidth 64, rfl, fun i hi => ?_⟩⟩
    · have := hset i
      rw [bitAt_ge _ hBp (by simp; omega)] at this
      simp [h1, h2] at this
    · rw [← hset, BitVec.getLsbD_setWidth]
      by_cases hiB : i < B
      · rw [bitAt_cons_lo _ _ hiB]; simp [hi]
      · rw [BitVec.getLsbD_of_ge _ _ (by omega), bitAt_ge _ hBp (by simp; omega)]; simp
  · by_cases h64 : 64 > B
    · have hB2 := hN h64
      have := key 2 (by omega)
      rw [this]
      have e2 : List.drop 2 (w :: w' :: rest) = rest := rfl
      rw [e2, toUllong, if_pos h64]
      refine ⟨fun e => by rw [if_pos e], fun e => ⟨w.setWidth 64 + (w'.setWidth 64) <<< B, ?_, fun i hi => ?_⟩⟩
      · rw [if_neg e, if_pos h64, wshl, if_pos (by omega)]; rfl
      · rw [BitVec.add_eq_or_of_and_eq_zero]
        · rw [← hset, BitVec.getLsbD_or, BitVec.getLsbD_setWidth, BitVec.getLsbD_shiftLeft, BitVec.getLsbD_setWidth]
          by_cases hiB : i < B
          · rw [bitAt_cons_lo _ _ hiB]; simp [hi, hiB]
          · obtain ⟨d, rfl⟩ := Nat.exists_eq_add_of_le (show B ≤ i by omega)
            rw [bitAt_cons_hi hBp, bitAt_cons_lo _ _ (by omega), BitVec.getLsbD_of_ge _ _ (by omega)]
            simp [hi, show d < 64 by omega]
        · apply BitVec.eq_of_getLsbD_eq
          intro j hj
          rw [BitVec.getLsbD_and, BitVec.getLsbD_setWidth, BitVec.getLsbD_shiftLeft]
          by_cases hjB : j < B
          · simp [hjB]
          · rw [BitVec.getLsbD_of_ge w _ (by omega)]; simp
    · have hB64 : B = 64 := by omega
      have := key 1 (by omega)
      rw [this]
      have e2 : List.drop 1 (w :: w' :: rest) = w' :: rest := rfl
      rw [e2, toUllong, if_neg h64]
      refine ⟨fun e => by rw [if_pos e], fun e => ⟨w.setWidth 64, by rw [if_neg e, if_neg h64], fun i hi => ?_⟩⟩
      rw [← hset, BitVec.getLsbD_setWidth, bitAt_cons_lo _ _ (by omega)]; simp [hi]

/-! ### strings -/

variable {χ : Type} [DecidableEq χ]

/-- the string constructor with start `position` and at most `n` characters: `out_of_range` if `position` is beyond the
end; `invalid_argument` if one of the characters used is neither `zero` nor `one`; otherwise the last character used is
bit 0, and so on, and the remaining bits are zero -/
theorem C28_of_string (hB : 0 < B) (N : Nat) (s : List χ) (position n : Nat) (zero one : χ) :
    (position > s.length → ofString B N s position n zero one = some (.throw .outOfRange)) ∧
    (position ≤ s.length →
      let used := (s.drop position).take (min N n)
      ((∃ c ∈ used, c ≠ zero ∧ c ≠ one) → ofString B N s position n zero one = some (.throw .invalidArgument)) ∧
      ((∀ c ∈ used, c = zero ∨ c = one) → ∃ ws, ofString B N s position n zero one = some (.ret ws) ∧
        Rep B N ws (fun i => decide (i < used.length ∧ used[used.length - 1 - i]? ≠ some zero)))) := by
  refine ⟨fun h => by rw [ofString, if_pos h], fun h => ?_⟩
  intro used
  have hlen : used.length = min N (min n (s.length - position)) := by
    simp only [used, List.length_take, List.length_drop]; omega
  have hget : ∀ p < used.length, used[used.length - 1 - p]? = s[position + used.length - 1 - p]? := by
    intro p hp
    show ((s.drop position).take (min N n))[used.length - 1 - p]? = _
    rw [List.getElem?_take, if_pos (by omega), List.getElem?_drop]
    congr 1; omega
  rw [ofString, if_neg (by omega)]
  simp only [← hlen]
  constructor
  · rintro ⟨c, hc, h1, h2⟩
    obtain ⟨q, hq, rfl⟩ := List.getElem_of_mem hc
    refine stringLoop_bad hB (N := N) s position used.length zero one (by omega) (by omega) _ (Nat.le_refl _) _ (by simp)
      ⟨used.length - 1 - q, by omega, used[q], ?_, h1, h2⟩
    rw [← hget _ (by omega), show used.length - 1 - (used.length - 1 - q) = q by omega, List.getElem?_eq_getElem hq]
  · intro hall
    obtain ⟨ys, e1, e2, e3⟩ := stringLoop_ok hB (N := N) s position used.length zero one (by omega) (by omega) _
      (Nat.le_refl _) (List.replicate (nwords B N) 0) (by simp) (fun p hp c hc => by
        rw [← hget p hp] at hc
        exact hall c (List.mem_of_getElem? hc))
    refine ⟨ys, e1, (rep_iff hB).2 ⟨e2, fun i => ?_⟩⟩
    rw [e3, bitAt_replicate_zero, Bool.false_or]
    by_cases hi : i < used.length
    · rw [← hget i hi]
      have : i < N := by omega
      simp [hi, this]
    · simp [hi]

/-- `to_string`: the leftmost character is bit `N - 1` -/
theorem C28_to_string (hB : 0 < B) (h : Rep B N ws f) (zero one : χ) :
    ∃ s, toStr N ws zero one = some s ∧ s.length = N ∧
      ∀ i < N, s[N - 1 - i]? = some (if f i then one else zero) := by
  have hr := (rep_iff hB).1 h
  obtain ⟨t, e1, e2, e3⟩ := toStringLoop_eq hB hr.1 one N (Nat.le_refl _) (List.replicate N zero) (by simp)
  refine ⟨t, e1, e2, fun i hi => ?_⟩
  rw [e3, show N - 1 - (N - 1 - i) = i by omega, hr.2]
  by_cases hf : f i = true
  · rw [if_pos ⟨by omega, by omega, by simp [hi, hf]⟩, if_pos hf]
  · rw [if_neg (by simp [hi, hf]), if_neg hf, List.getElem?_replicate, if_pos (by omega)]

/-- the string constructor undoes `to_string` -/
theorem C28_string_roundtrip (hB : 0 < B) (h : Rep B N ws f) {zero one : χ} (hzo : zero ≠ one) {n : Nat} (hn : N ≤ n) :
    ∃ s, toStr N ws zero one = some s ∧ ofString B N s 0 n zero one = some (.ret ws) := by
  obtain ⟨s, h1, h2, h3⟩ := C28_to_string hB h zero one
  refine ⟨s, h1, ?_⟩
  obtain ⟨-, hs⟩ := C28_of_string hB N s 0 n zero one
  have hused : (s.drop 0).take (min N n) = s := by rw [List.drop_zero, List.take_of_length_le (by omega)]
  have := hs (by omega)
  simp only [hused] at this
  obtain ⟨ws', e1, e2⟩ := this.2 (fun c hc => by
    obtain ⟨q, hq, rfl⟩ := List.getElem_of_mem hc
    have := h3 (N - 1 - q) (by omega)
    rw [show N - 1 - (N - 1 - q) = q by omega, List.getElem?_eq_getElem hq] at this
    rw [Option.some.inj this]
    split
    · exact Or.inr rfl
    · exact Or.inl rfl)
  rw [e1]
  have := (C26_eq hB e2 h).2 (fun i hi => by
    rw [h2, h3 i hi]
    cases f i
    · simp
    · simp [hi, hzo.symm])
  rw [Bitset.eq, decide_eq_true_iff] at this
  rw [this]

/-- `to_string` undoes the string constructor -/
theorem C28_string_roundtrip_rev (hB : 0 < B) (s : List χ) (zero one : χ) (hs : ∀ c ∈ s, c = zero ∨ c = one)
    {n : Nat} (hn : s.length ≤ n) :
    ∃ ws, ofString B s.length s 0 n zero one = some (.ret ws) ∧ toStr s.length ws zero one = some s := by
  obtain ⟨-, hs'⟩ := C28_of_string hB s.length s 0 n zero one
  have hused : (s.drop 0).take (min s.length n) = s := by rw [List.drop_zero, List.take_of_length_le (by omega)]
  have := hs' (by omega)
  simp only [hused] at this
  obtain ⟨ws, e1, e2⟩ := this.2 hs
  refine ⟨ws, e1, ?_⟩
  obtain ⟨t, h1, h2, h3⟩ := C28_to_string hB e2 zero one
  rw [h1]
  congr 1
  apply List.ext_getElem?
  intro j
  by_cases hj : j < s.length
  · have := h3 (s.length - 1 - j) (by omega)
    rw [show s.length - 1 - (s.length - 1 - j) = j by omega, List.getElem?_eq_getElem hj] at this
    rw [this, List.getElem?_eq_getElem hj]
    congr 1
    rcases hs _ (List.getElem_mem hj) with e | e
    · rw [e]; simp
    · rw [e]
      by_cases hz : one = zero
      · simp [hz]
      · have hh : s.length - 1 - j < s.length := by omega
        simp [hh, hz]
  · rw [List.getElem?_eq_none (by omega), List.getElem?_eq_none (by omega)]

/-- non-vacuity: a 70-bit bitset with the bits 3 and 69 -/
example : count [8#64, 32#64] = some 2 ∧ any [8#64, 32#64] = true ∧ all 70 [8#64, 32#64] = some false ∧
    all 70 [0xFFFFFFFFFFFFFFFF#64, 63#64] = some true ∧
    toUllong [8#64, 32#64] = some (.throw .overflow) ∧ toUllong [8#64, 0#64] = some (.ret 8#64) ∧
    toUllong [8#32, 32#32, 0#32] = some (.ret 0x2000000008#64) := by
  have p (w : BitVec 64) := popcount_eq (ones w) w rfl
  refine ⟨?_, by decide, by decide, by decide, by decide, by decide, by decide⟩
  rw [count_eq]; decide +kernel

example : ∃ ws : List (BitVec 64), ofString 64 5 "10110".toList 0 100 '0' '1' = some (.ret ws) ∧
    toStr 5 ws '0' '1' = some "10110".toList :=
  C28_string_roundtrip_rev (by decide) _ '0' '1' (by decide) (by decide)

end Sprout
