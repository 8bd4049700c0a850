import Verif.Spec.RangeAdaptor
import Verif.Proofs.Adaptor
import Verif.Props.C83
import Mathlib.Tactic.Linarith
import Mathlib.Data.List.Basic

namespace Sprout.RangeAdaptor
open Adaptor Spec
variable {σ τ α β γ : Type}

theorem walk_at {r : Rng σ α} {l : List α} {pos : Nat → σ} (h : FwdAt r l pos) :
    ∀ (m k : Nat), k + m = l.length → walk r (pos k) = some (l.drop k) := by
  intro m
  induction m with
  | zero =>
    intro k hk
    rw [walk.eq_def, h.eqLast k (by omega)]
    simp [show k = l.length by omega]
  | succ m ih =>
    intro k hk
    have hlt : k < l.length := by omega
    rw [walk.eq_def, h.eqLast k (by omega), h.deref k hlt, h.next k hlt]
    simp only [show ¬k = l.length by omega, decide_false, Bool.false_eq_true, if_false, Option.bind_eq_bind, Option.bind_some]
    rw [ih (k + 1) (by omega), Option.bind_some, List.drop_eq_getElem_cons hlt]

theorem walk_step {r : Rng σ α} {a b : σ} {x : α} (h1 : r.eq a r.last = false) (h2 : r.deref a = some x) (h3 : r.next a = some b) :
    walk r a = (walk r b).map (x :: ·) := by
  rw [walk.eq_def, h1, h2, h3]
  simp only [Bool.false_eq_true, if_false, Option.bind_eq_bind, Option.bind_some]
  cases walk r b <;> rfl

theorem walk_stuck {r : Rng σ α} {a : σ} (h1 : r.eq a r.last = false) (h2 : r.deref a = none) : walk r a = none := by
  rw [walk.eq_def, h1, h2]
  rfl

theorem walk_stop {r : Rng σ α} {a : σ} (h1 : r.eq a r.last = true) : walk r a = some [] := by
  rw [walk.eq_def, h1]
  rfl

theorem values_of_fwd {r : Rng σ α} {l : List α} (h : Fwd r l) : values r = some l := by
  obtain ⟨pos, h⟩ := h
  rw [values, h.first, walk_at h l.length 0 (by omega), List.drop_zero]

theorem Ra.fwd {r : Rng σ α} {l : List α} (h : Ra r l) : Fwd r l := by
  obtain ⟨pos, h⟩ := h
  exact ⟨pos, h.toFwdAt⟩

theorem size_at {r : Rng σ α} {l : List α} {pos : Nat → σ} (h : RaAt r l pos) : size r = some (l.length : Int) := by
  rw [size, h.last, h.first, h.diff l.length 0 (by omega) (le_refl _)]
  simp

theorem sub_at {r : Rng σ α} {l : List α} {pos : Nat → σ} (h : RaAt r l pos) (a b : Nat) (hab : a ≤ b) (hb : b ≤ l.length) :
    RaAt { r with first := pos a, last := pos b } ((l.take b).drop a) (fun i => pos (a + i)) := by
  have hl : ((l.take b).drop a).length = b - a := by simp; omega
  refine ⟨⟨rfl, ?_, ?_, ?_⟩, ?_, ?_, ?_, ?_⟩
  · intro i hi
    rw [h.deref (a + i) (by omega)]
    simp
  · intro i hi
    exact h.next (a + i) (by omega)
  · intro i hi
    rw [h.eq (a + i) b (by omega) hb]
    exact decide_eq_decide.2 (by omega)
  · show pos b = _
    rw [hl, Nat.add_sub_cancel' hab]
  · intro i j hi hj
    rw [h.eq _ _ (by omega) (by omega)]
    exact decide_eq_decide.2 (by omega)
  · intro i n k hi hk hn
    exact h.add _ _ _ (by omega) (by omega) (by push_cast; omega)
  · intro i j hij hi
    show r.diff _ _ = _
    rw [h.diff _ _ (by omega) (by omega)]
    simp

theorem toS_toU (x : Int) (h1 : -2 ^ 63 ≤ x) (h2 : x < 2 ^ 63) : toS (toU x) = x := by
  simp only [toS, toU, CInt.conv, CInt.int64, CInt.min, if_true]
  norm_num
  omega

theorem block_at (xs : List α) (f l : Nat) (hfl : f ≤ l) (hl : l ≤ xs.length) :
    RaAt (block xs f l) ((xs.take l).drop f) (fun i => f + i) := by
  have hlen : ((xs.take l).drop f).length = l - f := by simp; omega
  refine ⟨⟨rfl, ?_, ?_, ?_⟩, ?_, ?_, ?_, ?_⟩
  · intro i hi
    simp only [block, rd]
    rw [List.getElem?_eq_getElem (by omega)]
    simp
  · intro i hi
    simp only [block, padd]
    rw [if_pos (by omega)]
    congr 1
  · intro i hi
    simp only [block]
    rw [beq_eq_decide]
    exact decide_eq_decide.2 (by omega)
  · show l = _
    omega
  · intro i j hi hj
    simp only [block]
    rw [beq_eq_decide]
    exact decide_eq_decide.2 (by omega)
  · intro i n k hi hk hn
    simp only [block, padd]
    rw [if_pos (by push_cast; omega)]
    congr 1
    push_cast
    omega
  · intro i j hij hi
    simp only [block]
    congr 1
    push_cast
    omega

/-! ### parts -/

theorem out_sub {r : Rng σ α} {l : List α} {pos : Nat → σ} (h : RaAt r l pos) (a b : Nat) (hab : a ≤ b) (hb : b ≤ l.length)
    {o : Option (Rng σ α)} {l' : List α} (ho : o = some { r with first := pos a, last := pos b }) (hl : l' = (l.take b).drop a) :
    OutRa o l' := by
  subst hl
  exact ⟨_, ho, _, sub_at h a b hab hb⟩

theorem drop_min (l : List α) (d : Nat) : l.drop d = (l.take l.length).drop (min d l.length) := by
  rw [List.take_length]
  rcases Nat.le_total d l.length with hd | hd
  · rw [Nat.min_eq_left hd]
  · rw [Nat.min_eq_right hd, List.drop_length, List.drop_eq_nil_of_le hd]

theorem take_min (l : List α) (d : Nat) : l.take d = (l.take (min d l.length)).drop 0 := by
  rw [List.drop_zero]
  rcases Nat.le_total d l.length with hd | hd
  · rw [Nat.min_eq_left hd]
  · rw [Nat.min_eq_right hd, List.take_length, List.take_of_length_le hd]

theorem dropped_out {r : Rng σ α} {l : List α} (h : Ra r l) (d : Nat) : OutRa (dropped d r) (l.drop d) := by
  obtain ⟨pos, h⟩ := h
  have hf := h.add 0 (min (d : Int) l.length) (min d l.length) (by omega) (by omega) (by push_cast; omega)
  refine out_sub h (min d l.length) l.length (by omega) (le_refl _) ?_ (drop_min l d)
  simp only [dropped, size_at h, Option.bind_eq_bind, Option.bind_some, h.first, hf, h.last]

theorem taken_out {r : Rng σ α} {l : List α} (h : Ra r l) (d : Nat) : OutRa (taken d r) (l.take d) := by
  obtain ⟨pos, h⟩ := h
  have hf := h.add 0 (min (d : Int) l.length) (min d l.length) (by omega) (by omega) (by push_cast; omega)
  refine out_sub h 0 (min d l.length) (by omega) (by omega) ?_ (take_min l d)
  simp only [taken, size_at h, Option.bind_eq_bind, Option.bind_some, h.first, hf]

theorem droppedEnd_out {r : Rng σ α} {l : List α} (h : Ra r l) (hl : l.length < 2 ^ 63) (d : Nat) :
    OutRa (droppedEnd (-(d : Int)) r) (l.take (l.length - d)) := by
  obtain ⟨pos, h⟩ := h
  have hf := h.add l.length (max (-(d : Int)) (-(l.length : Int))) (l.length - d) (by omega) (by omega) (by omega)
  refine out_sub h 0 (l.length - d) (by omega) (by omega) ?_ (by simp)
  simp only [droppedEnd, size_at h, Option.bind_eq_bind, Option.bind_some, h.first, h.last, toS_toU _ (show -2 ^ 63 ≤ -(l.length : Int) by omega)
    (show -(l.length : Int) < 2 ^ 63 by omega), hf]

theorem takenEnd_out {r : Rng σ α} {l : List α} (h : Ra r l) (hl : l.length < 2 ^ 63) (d : Nat) :
    OutRa (takenEnd (-(d : Int)) r) (l.drop (l.length - d)) := by
  obtain ⟨pos, h⟩ := h
  have hf := h.add l.length (max (-(d : Int)) (-(l.length : Int))) (l.length - d) (by omega) (by omega) (by omega)
  refine out_sub h (l.length - d) l.length (by omega) (by omega) ?_ (by simp)
  simp only [takenEnd, size_at h, Option.bind_eq_bind, Option.bind_some, h.last, toS_toU _ (show -2 ^ 63 ≤ -(l.length : Int) by omega)
    (show -(l.length : Int) < 2 ^ 63 by omega), hf]

theorem offset_out {r : Rng σ α} {l : List α} (h : Ra r l) (hl : l.length < 2 ^ 63) (b e : Nat) (hb : b < 2 ^ 63) :
    OutRa (offset b (-(e : Int)) r) ((l.take (l.length - e)).drop b) := by
  obtain ⟨pos, h⟩ := h
  have hf := h.add 0 (min (b : Int) l.length) (min b l.length) (by omega) (by omega) (by push_cast; omega)
  have hg := h.add l.length (max (-(e : Int)) (min ((b : Int) - l.length) 0)) (max (l.length - e) (min b l.length)) (by omega) (by omega) (by omega)
  refine out_sub h (min b l.length) (max (l.length - e) (min b l.length)) (by omega) (by omega) ?_ ?_
  · simp only [offset, size_at h, Option.bind_eq_bind, Option.bind_some, h.first, h.last, toS_toU _ (show -2 ^ 63 ≤ (b : Int) - l.length by omega)
      (show (b : Int) - l.length < 2 ^ 63 by omega), hf, hg]
  · rcases Nat.le_total (min b l.length) (l.length - e) with hc | hc
    · rw [Nat.max_eq_left hc]
      rcases Nat.le_total b l.length with hd | hd
      · rw [Nat.min_eq_left hd]
      · rw [Nat.min_eq_right hd, List.drop_eq_nil_of_le (by simp; omega), List.drop_eq_nil_of_le (by simp)]
    · rw [Nat.max_eq_right hc, List.drop_eq_nil_of_le (by simp; omega), List.drop_eq_nil_of_le (by simp)]

theorem offset1_out {r : Rng σ α} {l : List α} (h : Ra r l) (d : Nat) : OutRa (offset1 d r) (l.drop d) := dropped_out h d

theorem window_out {r : Rng σ α} {l : List α} (h : Ra r l) (f m : Nat) (hfm : f ≤ m) :
    OutRa (window f m r) ((l.take m).drop f) := by
  obtain ⟨pos, h⟩ := h
  have hf := h.add 0 (min (f : Int) l.length) (min f l.length) (by omega) (by omega) (by push_cast; omega)
  have hg := h.add 0 (min (m : Int) l.length) (min m l.length) (by omega) (by omega) (by push_cast; omega)
  refine out_sub h (min f l.length) (min m l.length) (by omega) (by omega) ?_ ?_
  · simp only [window, size_at h, Option.bind_eq_bind, Option.bind_some, h.first, hf, hg]
  · rcases Nat.le_total f l.length with hd | hd
    · rw [Nat.min_eq_left hd]
      congr 1
      have := take_min l m
      rw [List.drop_zero] at this
      exact this
    · rw [Nat.min_eq_right hd, List.drop_eq_nil_of_le (by simp; omega), List.drop_eq_nil_of_le (by simp)]

theorem window1_out {r : Rng σ α} {l : List α} (h : Ra r l) (d : Nat) : OutRa (window1 d r) (l.drop d) := dropped_out h d

theorem sized_out {r : Rng σ α} {l : List α} (h : Ra r l) (N : Nat) : OutRa (sized N r) (l.take N) := by
  obtain ⟨pos, h⟩ := h
  by_cases hN : N < l.length
  · have hf := h.add 0 (N : Int) N (by omega) (by omega) (by omega)
    refine out_sub h 0 N (by omega) (by omega) ?_ (by simp)
    simp only [sized, size_at h, Option.bind_eq_bind, Option.bind_some, h.first, hf]
    rw [if_pos (by omega)]
  · refine ⟨r, ?_, pos, ?_⟩
    · simp only [sized, size_at h, Option.bind_eq_bind, Option.bind_some]
      rw [if_neg (by omega)]
    · rw [List.take_of_length_le (by omega)]
      exact h

/-! ### other iterators -/

theorem transformed_at {r : Rng σ α} {l : List α} {pos : Nat → σ} (f : α → β) (h : RaAt r l pos) :
    RaAt (transformed f r) (l.map f) pos := by
  have hl : (l.map f).length = l.length := List.length_map _
  refine ⟨⟨h.first, ?_, ?_, ?_⟩, ?_, ?_, ?_, ?_⟩
  · intro i hi
    simp only [transformed]
    rw [h.deref i (by omega)]
    simp
  · intro i hi
    exact h.next i (by omega)
  · intro i hi
    rw [hl]
    exact h.eqLast i (by omega)
  · rw [hl]
    exact h.last
  · intro i j hi hj
    exact h.eq i j (by omega) (by omega)
  · intro i n k hi hk hn
    exact h.add i n k (by omega) (by omega) hn
  · intro i j hij hi
    exact h.diff i j hij (by omega)

theorem reversed_at {r : Rng σ α} {l : List α} {pos : Nat → σ} (h : RaAt r l pos) :
    RaAt (reversed r) l.reverse (fun i => pos (l.length - i)) := by
  have hl : l.reverse.length = l.length := List.length_reverse
  refine ⟨⟨?_, ?_, ?_, ?_⟩, ?_, ?_, ?_, ?_⟩
  · exact h.last
  · intro i hi
    simp only [reversed]
    rw [h.add (l.length - i) (-1) (l.length - 1 - i) (by omega) (by omega) (by omega), Option.bind_some, h.deref _ (by omega)]
    simp
  · intro i hi
    exact h.add _ _ _ (by omega) (by omega) (by omega)
  · intro i hi
    simp only [reversed]
    rw [h.first, h.eq _ _ (by omega) (by omega)]
    exact decide_eq_decide.2 (by omega)
  · simp only [reversed]
    rw [h.first, hl, Nat.sub_self]
  · intro i j hi hj
    simp only [reversed]
    rw [h.eq _ _ (by omega) (by omega)]
    exact decide_eq_decide.2 (by omega)
  · intro i n k hi hk hn
    exact h.add _ _ _ (by omega) (by omega) (by omega)
  · intro i j hij hi
    simp only [reversed]
    rw [h.diff _ _ (by omega) (by omega)]
    congr 1
    omega

theorem transformed2_at {r : Rng σ α} {s : Rng τ β} {l : List α} {m : List β} {pos : Nat → σ} {pos' : Nat → τ} (f : α → β → γ)
    (h : FwdAt r l pos) (h' : FwdAt s m pos') (hlm : l.length ≤ m.length) :
    FwdAt (transformed2 f r s) (List.zipWith f l m) (fun i => (pos i, pos' i)) := by
  have hl : (List.zipWith f l m).length = l.length := by simp [hlm]
  refine ⟨?_, ?_, ?_, ?_⟩
  · show (r.first, s.first) = _
    rw [h.first, h'.first]
  · intro i hi
    simp only [transformed2]
    rw [h.deref i (by omega), h'.deref i (by omega)]
    simp
  · intro i hi
    simp only [transformed2]
    rw [h.next i (by omega), h'.next i (by omega)]
    rfl
  · intro i hi
    rw [hl]
    exact h.eqLast i (by omega)

theorem transformed2_ra {r : Rng σ α} {s : Rng τ β} {l : List α} {m : List β} {pos : Nat → σ} {pos' : Nat → τ} (f : α → β → γ)
    (h : RaAt r l pos) (h' : RaAt s m pos') (hlm : l.length = m.length) :
    RaAt (transformed2 f r s) (List.zipWith f l m) (fun i => (pos i, pos' i)) := by
  have hl : (List.zipWith f l m).length = l.length := by simp [hlm]
  refine ⟨transformed2_at f h.toFwdAt h'.toFwdAt (by omega), ?_, ?_, ?_, ?_⟩
  · simp only [transformed2]
    rw [h.last, h'.last, hl, hlm]
  · intro i j hi hj
    exact h.eq i j (by omega) (by omega)
  · intro i n k hi hk hn
    simp only [transformed2]
    rw [h.add i n k (by omega) (by omega) hn, h'.add i n k (by omega) (by omega) hn]
    rfl
  · intro i j hij hi
    exact h.diff i j hij (by omega)

/-- the iterator of a joint range at `i` -/
def jpos (n : Nat) (pos : Nat → σ) (pos' : Nat → τ) (i : Nat) : σ × τ := (pos (min i n), pos' (i - n))

theorem jointed_fwd {r : Rng σ α} {s : Rng τ α} {l m : List α} {pos : Nat → σ} {pos' : Nat → τ} (h : FwdAt r l pos) (h' : FwdAt s m pos')
    (hlast : r.eq (pos l.length) r.last = true) : FwdAt (jointed r s) (l ++ m) (jpos l.length pos pos') := by
  have hlen : (l ++ m).length = l.length + m.length := List.length_append
  refine ⟨?_, ?_, ?_, ?_⟩
  · simp only [jointed, jpos]
    rw [h.first, h'.first]
    simp
  · intro i hi
    simp only [jointed, jpos]
    rw [h.eqLast _ (by omega)]
    by_cases hc : i < l.length
    · rw [Nat.min_eq_left (by omega), decide_eq_false (by omega), Bool.not_false, if_pos rfl, h.deref i hc, List.getElem_append_left hc]
    · rw [Nat.min_eq_right (by omega), decide_eq_true rfl, Bool.not_true, if_neg Bool.false_ne_true, h'.deref (i - l.length) (by omega),
        List.getElem_append_right (by omega)]
  · intro i hi
    simp only [jointed, jpos]
    rw [h.eqLast _ (by omega)]
    by_cases hc : i < l.length
    · rw [Nat.min_eq_left (by omega), decide_eq_false (by omega), Bool.not_false, if_pos rfl, h.next i hc, Nat.min_eq_left (by omega),
        Nat.sub_eq_zero_of_le (by omega), Nat.sub_eq_zero_of_le (by omega)]
      rfl
    · rw [Nat.min_eq_right (by omega), decide_eq_true rfl, Bool.not_true, if_neg Bool.false_ne_true, h'.next (i - l.length) (by omega),
        Nat.min_eq_right (by omega), show i + 1 - l.length = i - l.length + 1 by omega]
      rfl
  · intro i hi
    simp only [jointed, jpos]
    rw [h.eqLast _ (by omega), h'.eqLast _ (by omega), ← Bool.decide_and]
    exact decide_eq_decide.2 (by omega)

theorem jointed_at {r : Rng σ α} {s : Rng τ α} {l m : List α} {pos : Nat → σ} {pos' : Nat → τ} (h : RaAt r l pos) (h' : RaAt s m pos')
    (hlm : l.length + m.length < 2 ^ 63) : RaAt (jointed r s) (l ++ m) (jpos l.length pos pos') := by
  have hlen : (l ++ m).length = l.length + m.length := List.length_append
  refine ⟨jointed_fwd h.toFwdAt h'.toFwdAt (by rw [h.eqLast _ (le_refl _)]; simp), ?_, ?_, ?_, ?_⟩
  · simp only [jointed, jpos]
    rw [h.last, h'.last, hlen, Nat.min_eq_right (by omega), Nat.add_sub_cancel_left]
  · intro i j hi hj
    simp only [jointed, jpos]
    rw [h.eq _ _ (by omega) (by omega), h'.eq _ _ (by omega) (by omega), ← Bool.decide_and]
    exact decide_eq_decide.2 (by omega)
  · intro i n k hi hk hn
    simp only [jointed, jpos]
    rw [h.eqLast _ (by omega)]
    by_cases hn0 : n ≥ 0
    · rw [if_pos hn0]
      by_cases hc : i < l.length
      · rw [Nat.min_eq_left (by omega), decide_eq_false (by omega), Bool.not_false, if_pos rfl, h.last, h.diff _ _ (by omega) (le_refl _),
          Option.bind_some, Nat.sub_eq_zero_of_le (by omega)]
        by_cases hd : n > (l.length : Int) - i
        · rw [if_pos hd, h'.add 0 _ (k - l.length) (by omega) (by omega) (by omega), Nat.min_eq_right (by omega)]
          rfl
        · rw [if_neg hd, h.add i n k (by omega) (by omega) hn, Nat.min_eq_left (by omega), Nat.sub_eq_zero_of_le (by omega)]
          rfl
      · rw [Nat.min_eq_right (by omega), decide_eq_true rfl, Bool.not_true, if_neg Bool.false_ne_true,
          h'.add _ n (k - l.length) (by omega) (by omega) (by omega), Nat.min_eq_right (by omega)]
        rfl
    · rw [if_neg hn0, h'.first, h'.eq _ _ (by omega) (by omega)]
      by_cases hc : i ≤ l.length
      · rw [decide_eq_true (by omega), if_pos rfl, Nat.min_eq_left hc, h.add i n k (by omega) (by omega) hn, Nat.min_eq_left (by omega),
          Nat.sub_eq_zero_of_le hc, Nat.sub_eq_zero_of_le (by omega)]
        rfl
      · rw [decide_eq_false (by omega), if_neg Bool.false_ne_true, h'.diff _ _ (by omega) (by omega), Option.bind_some, Nat.min_eq_right (by omega)]
        by_cases hd : k ≤ l.length
        · rw [if_pos (by omega), h.add l.length _ k (by omega) (by omega) (by omega), Nat.min_eq_left hd, Nat.sub_eq_zero_of_le hd]
          rfl
        · rw [if_neg (by omega), h'.add _ n (k - l.length) (by omega) (by omega) (by omega), Nat.min_eq_right (by omega)]
          rfl
  · intro i j hij hi
    simp only [jointed, jpos]
    rw [h.eqLast _ (by omega), h.eqLast _ (by omega)]
    by_cases hc : i < l.length
    · rw [Nat.min_eq_left (by omega), Nat.min_eq_left (by omega), decide_eq_false (by omega), decide_eq_false (by omega), if_pos (by decide),
        h.diff _ _ hij (by omega)]
    · rw [Nat.min_eq_right (by omega : l.length ≤ i), decide_eq_true rfl]
      by_cases hd : j < l.length
      · rw [Nat.min_eq_left (by omega), decide_eq_false (by omega), if_neg (by decide), if_neg (by decide), if_neg (by decide), h'.first,
          h'.diff _ _ (by omega) (by omega), Option.bind_some, h.last, h.diff _ _ (by omega) (le_refl _), Option.bind_some,
          limitedPlus_eq (by omega) (by omega) (by omega) (by omega) (by omega) (by omega)]
        congr 1
        omega
      · rw [Nat.min_eq_right (by omega), decide_eq_true rfl, if_neg (by decide), if_pos (by decide), h'.diff _ _ (by omega) (by omega)]
        congr 1
        omega

theorem jointed_ra {r : Rng σ α} {s : Rng τ α} {l m : List α} (h : Ra r l) (h' : Ra s m) (hlm : l.length + m.length < 2 ^ 63) :
    Ra (jointed r s) (l ++ m) := by
  obtain ⟨pos, h⟩ := h
  obtain ⟨pos', h'⟩ := h'
  exact ⟨_, jointed_at h h' hlm⟩

theorem alternate_length (l m : List α) : (alternate l m).length = 2 * min l.length m.length := by
  induction l generalizing m with
  | nil => simp [alternate]
  | cons x l ih =>
    cases m with
    | nil => simp [alternate]
    | cons y m =>
      simp only [alternate, List.length_cons, ih]
      omega

theorem alternate_get (l m : List α) (i : Nat) (h : i < (alternate l m).length) :
    some (alternate l m)[i] = if i % 2 = 0 then l[i / 2]? else m[i / 2]? := by
  induction l generalizing m i with
  | nil => simp [alternate] at h
  | cons x l ih =>
    cases m with
    | nil => simp [alternate] at h
    | cons y m =>
      match i with
      | 0 => simp [alternate]
      | 1 => simp [alternate]
      | i + 2 =>
        simp only [alternate, List.getElem_cons_succ]
        rw [ih m i (by simpa [alternate] using h), show (i + 2) / 2 = i / 2 + 1 by omega, show (i + 2) % 2 = i % 2 by omega]
        simp

theorem limitedMul_two {a : Int} (h0 : 0 ≤ a) (h : 2 * a < 2 ^ 63) : limitedMul .int64 a 2 = some (a * 2) := by
  have hmx : CInt.int64.max = 2 ^ 63 - 1 := by decide
  have hmn : CInt.int64.min = -2 ^ 63 := by decide
  rw [C83_multiplies_partial .int64 (by decide) a 2 ⟨by rw [hmn]; omega, by rw [hmx]; omega⟩ ⟨by decide, by decide⟩ (by unfold MulBad; omega)]
  simp only [clampTo]
  rw [hmx, hmn, if_neg (by omega), if_neg (by omega)]

theorem alternated_out {r : Rng σ α} {s : Rng τ α} {l m : List α} (h : Ra r l) (h' : Ra s m) (hlm : 2 * min l.length m.length < 2 ^ 63) :
    ∃ a, alternated r s = some a ∧ Fwd a (alternate l m) ∧ size a = some (((alternate l m).length : Nat) : Int) := by
  obtain ⟨pos, h⟩ := h
  obtain ⟨pos', h'⟩ := h'
  have hf := h.add 0 (min (l.length : Int) m.length) (min l.length m.length) (by omega) (by omega) (by push_cast; omega)
  have hg := h'.add 0 (min (l.length : Int) m.length) (min l.length m.length) (by omega) (by omega) (by push_cast; omega)
  have hlen := alternate_length l m
  refine ⟨altRng r s (pos (min l.length m.length)) (pos' (min l.length m.length)),
    by simp only [alternated, size_at h, size_at h', h.first, h'.first, hf, hg, Option.bind_eq_bind, Option.bind_some],
    ⟨fun i => (pos (i / 2), pos' (i / 2), i % 2 == 0), ?_, ?_, ?_, ?_⟩, ?_⟩
  · simp only [altRng]
    rw [h.first, h'.first]
    rfl
  · intro i hi
    simp only [altRng]
    rw [alternate_get]
    by_cases hc : i % 2 = 0
    · simp only [hc, beq_self_eq_true, if_true]
      rw [h.deref _ (by omega), List.getElem?_eq_getElem]
    · simp only [hc, if_false, beq_iff_eq]
      rw [h'.deref _ (by omega), List.getElem?_eq_getElem]
  · intro i hi
    simp only [altRng]
    by_cases hc : i % 2 = 0
    · simp only [hc, beq_self_eq_true, if_true]
      rw [show (i + 1) / 2 = i / 2 by omega, show (i + 1) % 2 = 1 by omega]
      rfl
    · simp only [hc, if_false, beq_iff_eq]
      rw [h.next _ (by omega), h'.next _ (by omega), show (i + 1) / 2 = i / 2 + 1 by omega, show (i + 1) % 2 = 0 by omega]
      rfl
  · intro i hi
    simp only [altRng]
    rw [h.eq _ _ (by omega) (by omega), hlen]
    by_cases hc : i % 2 = 0
    · rw [hc]
      simp only [beq_self_eq_true, Bool.and_true]
      exact decide_eq_decide.2 (by omega)
    · rw [decide_eq_false (by omega : ¬i = 2 * min l.length m.length)]
      simp [hc]
  · simp only [size, altRng]
    rw [h.first, h.diff _ _ (by omega) (by omega), Option.bind_some, limitedMul_two (by omega) (by omega), Option.bind_some]
    simp only [if_true]
    rw [limitedPlus_eq (by omega) (by omega) (by omega) (by omega) (by omega) (by omega), hlen]
    congr 1
    push_cast
    omega

/-! ### running past the end -/

theorem walk_past (xs : List α) (f l : Nat) : ∀ (m p : Nat), p + m = xs.length → l < p → walk (block xs f l) p = none := by
  intro m
  induction m with
  | zero =>
    intro p hp hlp
    have e : (block xs f l).eq p (block xs f l).last = false := by simp [block]; omega
    have d : (block xs f l).deref p = none := by simp [block, rd]; omega
    rw [walk.eq_def, e, d]
    rfl
  | succ m ih =>
    intro p hp hlp
    have e : (block xs f l).eq p (block xs f l).last = false := by simp [block]; omega
    have d : (block xs f l).next p = some (p + 1) := by
      simp only [block, padd]
      rw [if_pos (by omega)]
      congr 1
    rw [walk.eq_def, e, d]
    simp only [Bool.false_eq_true, if_false, Option.bind_eq_bind, Option.bind_some]
    rw [ih (p + 1) (by omega) (by omega)]
    cases (block xs f l).deref p <;> rfl

end Sprout.RangeAdaptor
