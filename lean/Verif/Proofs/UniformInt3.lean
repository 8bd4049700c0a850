import Verif.Proofs.UniformInt2
import Verif.Spec.Uniform
import Mathlib.Algebra.BigOperators.Intervals
import Mathlib.Algebra.BigOperators.Ring.Finset

/-! # `uniform_int_distribution`: counting -/

namespace Sprout.UInt
open Finset

/-- the number of sequences of length `n` with numbers up to `B` that satisfy `p` -/
def cnt (B : Nat) : Nat → (List Nat → Bool) → Nat
  | 0, p => if p [] then 1 else 0
  | n + 1, p => ∑ d ∈ range (B + 1), cnt B n fun l => p (d :: l)

/-- the sampler ends and its result satisfies `Q` -/
def hit (g : Samp) (Q : Nat → List Nat → Bool) (l : List Nat) : Bool :=
  match g l with
  | some (z, l') => Q z l'
  | none => false

theorem cnt_false (B : Nat) : ∀ n, cnt B n (fun _ => false) = 0 := by
  intro n
  induction n with
  | zero => rfl
  | succ n ih => simp [cnt, ih]

theorem sum_range_mul (f : Nat → Nat) (a b : Nat) : ∑ t ∈ range (a * b), f t = ∑ z ∈ range b, ∑ d ∈ range a, f (d + a * z) := by
  induction b with
  | zero => simp
  | succ b ih =>
    rw [Nat.mul_succ, sum_range_add, ih, sum_range_succ]
    congr 1
    exact sum_congr rfl fun d _ => by rw [Nat.add_comm]

theorem sum_range_div (f : Nat → Nat) {q : Nat} (hq : 0 < q) (s : Nat) : ∑ d ∈ range (q * s), f (d / q) = q * ∑ i ∈ range s, f i := by
  rw [sum_range_mul, mul_sum]
  refine sum_congr rfl fun z _ => ?_
  rw [sum_congr rfl (g := fun _ => f z), sum_const, card_range, smul_eq_mul]
  intro d hd
  rw [Nat.add_mul_div_left _ _ hq, Nat.div_eq_of_lt (mem_range.1 hd), Nat.zero_add]

/-- a sampler whose results up to `S` are equally likely, whatever follows -/
def Unif (B S : Nat) (g : Samp) : Prop := ∃ u : Nat → Nat → Nat, ∀ n Q,
  cnt B n (hit g Q) = ∑ m ∈ range (n + 1), u n m * ∑ i ∈ range (S + 1), cnt B m (Q i)

theorem sum_single {n : Nat} (f : Nat → Nat) (c : Nat) (m : Nat) (hm : m ≤ n) : ∑ k ∈ range (n + 1), (if k = m then c else 0) * f k = c * f m := by
  rw [sum_eq_single m]
  · simp
  · intro b _ hb; simp [hb]
  · intro h; exact absurd (mem_range.2 (by omega)) h

theorem unif_one (B : Nat) : Unif B B oneR := by
  refine ⟨fun n m => match n with | 0 => 0 | n + 1 => if m = n then 1 else 0, ?_⟩
  intro n Q
  cases n with
  | zero => simp [cnt, hit, oneR]
  | succ n =>
    simp only
    rw [sum_single (fun m => ∑ i ∈ range (B + 1), cnt B m (Q i)) 1 n (by omega), Nat.one_mul]
    rfl

theorem unif_two (B : Nat) : Unif B B (fun l => (oneR l).bind fun p => oneR p.2) := by
  refine ⟨fun n m => match n with | 0 => 0 | 1 => 0 | n + 2 => if m = n then B + 1 else 0, ?_⟩
  intro n Q
  rcases n with - | - | n
  · simp [cnt, hit, oneR]
  · simp [cnt, hit, oneR]
  · simp only
    rw [sum_single (fun m => ∑ i ∈ range (B + 1), cnt B m (Q i)) (B + 1) n (by omega)]
    rw [cnt]
    rw [sum_congr rfl (g := fun _ => ∑ i ∈ range (B + 1), cnt B n (Q i)), sum_const, card_range, smul_eq_mul]
    intro d _
    rfl

theorem unif_zero (B : Nat) : Unif B 0 (fun l => some (0, l)) := by
  refine ⟨fun n m => if m = n then 1 else 0, ?_⟩
  intro n Q
  rw [sum_single (fun m => ∑ i ∈ range (0 + 1), cnt B m (Q i)) 1 n (by omega)]
  simp
  rfl

theorem unif_pick {B S q : Nat} (hq : 0 < q) (hle : q * (S + 1) ≤ B + 1) : Unif B S (pickR q S) := by
  obtain ⟨c, hc⟩ : ∃ c, B + 1 = q * (S + 1) + c := ⟨B + 1 - q * (S + 1), by omega⟩
  have step : ∀ n Q, cnt B (n + 1) (hit (pickR q S) Q) = q * (∑ i ∈ range (S + 1), cnt B n (Q i)) + c * cnt B n (hit (pickR q S) Q) := by
    intro n Q
    have e : ∀ d, cnt B n (fun l => hit (pickR q S) Q (d :: l)) = if d / q ≤ S then cnt B n (Q (d / q)) else cnt B n (hit (pickR q S) Q) := by
      intro d
      split
      · rename_i h
        congr 1
        funext l
        simp [hit, pickR, h]
      · rename_i h
        congr 1
        funext l
        simp [hit, pickR, h]
    rw [cnt, sum_congr rfl (fun d _ => e d), hc, sum_range_add]
    congr 1
    · rw [← sum_range_div (fun i => cnt B n (Q i)) hq]
      refine sum_congr rfl fun d hd => ?_
      rw [if_pos]
      have := Nat.div_lt_of_lt_mul (mem_range.1 hd)
      omega
    · rw [sum_congr rfl (g := fun _ => cnt B n (hit (pickR q S) Q)), sum_const, card_range, smul_eq_mul]
      intro d _
      rw [if_neg]
      rw [Nat.mul_add_div hq]
      exact Nat.not_le.2 (Nat.lt_of_lt_of_le (Nat.lt_succ_self S) (Nat.le_add_right _ _))
  let u : Nat → Nat → Nat := fun n => Nat.rec (fun _ => 0) (fun n un m => (if m = n then q else 0) + if m ≤ n then c * un m else 0) n
  refine ⟨u, ?_⟩
  intro n Q
  induction n with
  | zero => simp [cnt, hit, pickR, u]
  | succ n ih =>
    rw [step, ih]
    have hu : ∀ m, u (n + 1) m = (if m = n then q else 0) + if m ≤ n then c * u n m else 0 := fun _ => rfl
    simp only [hu, Nat.add_mul, sum_add_distrib]
    rw [sum_single (fun m => ∑ i ∈ range (S + 1), cnt B m (Q i)) q n (by omega)]
    congr 1
    rw [sum_range_succ _ (n + 1), if_neg (by omega), Nat.zero_mul, Nat.add_zero, mul_sum]
    refine sum_congr rfl fun m hm => ?_
    rw [if_pos (by have := mem_range.1 hm; omega), Nat.mul_assoc]

theorem unif_small (twice : Bool) {B S : Nat} (h : S ≤ B) : Unif B S (smallR twice B S) := by
  by_cases h0 : S = 0
  · subst h0
    have : smallR twice B 0 = fun l => some (0, l) := by funext l; simp [smallR]
    rw [this]
    exact unif_zero B
  · by_cases hB : B = S
    · subst hB
      cases twice with
      | false =>
        have : smallR false B B = oneR := by funext l; simp [smallR, h0]
        rw [this]
        exact unif_one B
      | true =>
        have : smallR true B B = fun l => (oneR l).bind fun p => oneR p.2 := by funext l; simp [smallR, h0]
        rw [this]
        exact unif_two B
    · have : smallR twice B S = pickR ((B + 1) / (S + 1)) S := by funext l; simp [smallR, h0, hB]
      rw [this]
      exact unif_pick (Nat.div_pos (by omega) (by omega)) (Nat.div_mul_le_self _ _)

theorem cnt_digits (B : Nat) : ∀ k n Q, cnt B (k + n) (hit (digitsR B k) Q) = ∑ z ∈ range ((B + 1) ^ k), cnt B n (Q z) := by
  intro k
  induction k with
  | zero =>
    intro n Q
    simp
    rfl
  | succ k ih =>
    intro n Q
    rw [show k + 1 + n = (k + n) + 1 by omega, cnt, Nat.pow_succ, Nat.mul_comm, sum_range_mul, sum_comm]
    refine sum_congr rfl fun d _ => ?_
    rw [← ih n (fun z => Q (d + (B + 1) * z))]
    congr 1
    funext l
    simp only [hit, digitsR]
    cases digitsR B k l <;> rfl

theorem cnt_digits_short (B : Nat) : ∀ k n Q, n < k → cnt B n (hit (digitsR B k) Q) = 0 := by
  intro k
  induction k with
  | zero => intro n Q h; omega
  | succ k ih =>
    intro n Q h
    cases n with
    | zero => simp [cnt, hit, digitsR]
    | succ n =>
      rw [cnt]
      refine sum_eq_zero fun d _ => ?_
      rw [← ih n (fun z => Q (d + (B + 1) * z)) (by omega)]
      congr 1
      funext l
      simp only [hit, digitsR]
      cases digitsR B k l <;> rfl

/-- the result is `x` and nothing is left -/
def isEnd (x : Nat) (z : Nat) (l : List Nat) : Bool := decide (z = x) && l.isEmpty

theorem sum_isEnd (B n : Nat) {S x : Nat} (h : x ≤ S) : ∑ i ∈ range (S + 1), cnt B n (isEnd x i) = cnt B n List.isEmpty := by
  rw [sum_eq_single x]
  · congr 1; funext l; simp [isEnd]
  · intro b _ hb
    rw [← cnt_false B n]
    congr 1; funext l; simp [isEnd, hb]
  · intro h'; exact absurd (mem_range.2 (by omega)) h'

theorem Unif.eq {B S : Nat} {g : Samp} (h : Unif B S g) (n : Nat) {x y : Nat} (hx : x ≤ S) (hy : y ≤ S) :
    cnt B n (hit g (isEnd x)) = cnt B n (hit g (isEnd y)) := by
  obtain ⟨u, hu⟩ := h
  rw [hu, hu]
  refine sum_congr rfl fun m _ => ?_
  rw [sum_isEnd B m hx, sum_isEnd B m hy]

theorem loop_eq (twice : Bool) {B R k : Nat} (hk1 : (B + 1) ^ k ≤ R + 1) (hk2 : R + 1 < (B + 1) ^ (k + 1)) (hk0 : 0 < k) :
    ∀ n x y, x ≤ R → y ≤ R → cnt B n (hit (loopR twice B R k) (isEnd x)) = cnt B n (hit (loopR twice B R k) (isEnd y)) := by
  by_cases hc : (B + 1) ^ k = R + 1
  · have e : ∀ x, hit (loopR twice B R k) (isEnd x) = hit (digitsR B k) (isEnd x) := by
      intro x
      funext l
      unfold hit
      rw [loopR]
      cases digitsR B k l with
      | none => rfl
      | some p => simp [hc]
    intro n x y hx hy
    rw [e, e]
    rcases Nat.lt_or_ge n k with hn | hn
    · rw [cnt_digits_short B k n _ hn, cnt_digits_short B k n _ hn]
    · obtain ⟨m, rfl⟩ : ∃ m, n = k + m := ⟨n - k, by omega⟩
      rw [cnt_digits, cnt_digits, hc, sum_isEnd B m hx, sum_isEnd B m hy]
  · have hMpos : 0 < (B + 1) ^ k := Nat.pow_pos (by omega)
    have hS : R / (B + 1) ^ k ≤ B := by
      have : R / (B + 1) ^ k < B + 1 := by
        rw [Nat.div_lt_iff_lt_mul hMpos, Nat.mul_comm, ← Nat.pow_succ]
        exact Nat.lt_of_succ_lt hk2
      omega
    obtain ⟨c, hcc⟩ : ∃ c, (B + 1) ^ k * (R / (B + 1) ^ k + 1) = R + 1 + c := by
      refine ⟨(B + 1) ^ k * (R / (B + 1) ^ k + 1) - (R + 1), ?_⟩
      have := Nat.div_add_mod R ((B + 1) ^ k)
      have := Nat.mod_lt R hMpos
      rw [Nat.mul_add]
      omega
    obtain ⟨u, hu⟩ := unif_small twice hS
    have e : ∀ x, hit (loopR twice B R k) (isEnd x) = hit (digitsR B k) fun z => hit (smallR twice B (R / (B + 1) ^ k)) fun i l =>
        if z + (B + 1) ^ k * i ≤ R then isEnd x (z + (B + 1) ^ k * i) l else hit (loopR twice B R k) (isEnd x) l := by
      intro x
      funext l
      conv_lhs => unfold hit
      rw [loopR]
      unfold hit
      cases digitsR B k l with
      | none => rfl
      | some p =>
        simp only [Option.bind_eq_bind, Option.bind_some, if_neg hc]
        cases smallR twice B (R / (B + 1) ^ k) p.2 with
        | none => rfl
        | some p2 =>
          simp only [Option.bind_some, Nat.mul_comm p2.1]
          by_cases h : p.1 + (B + 1) ^ k * p2.1 ≤ R <;> simp only [h, if_true, if_false]
    intro n
    induction n using Nat.strongRecOn with
    | ind n ih =>
      intro x y hx hy
      rcases Nat.lt_or_ge n k with hn | hn
      · rw [e x, cnt_digits_short B k n _ hn, e y, cnt_digits_short B k n _ hn]
      · obtain ⟨m, rfl⟩ : ∃ m, n = k + m := ⟨n - k, by omega⟩
        have key : ∀ x, x ≤ R → cnt B (k + m) (hit (loopR twice B R k) (isEnd x)) =
            ∑ j ∈ range (m + 1), u m j * (cnt B j List.isEmpty + c * cnt B j (hit (loopR twice B R k) (isEnd x))) := by
          intro x hx
          rw [e, cnt_digits]
          simp only [hu]
          rw [sum_comm]
          refine sum_congr rfl fun j _ => ?_
          rw [← mul_sum]
          congr 1
          rw [sum_comm]
          have e2 : ∀ z i, cnt B j (fun l => if z + (B + 1) ^ k * i ≤ R then isEnd x (z + (B + 1) ^ k * i) l else
              hit (loopR twice B R k) (isEnd x) l) = (fun t => if t ≤ R then cnt B j (isEnd x t) else
                cnt B j (hit (loopR twice B R k) (isEnd x))) (z + (B + 1) ^ k * i) := by
            intro z i
            simp only
            split <;> rfl
          simp only [e2]
          rw [← sum_range_mul (fun t => if t ≤ R then cnt B j (isEnd x t) else cnt B j (hit (loopR twice B R k) (isEnd x))), hcc, sum_range_add]
          congr 1
          · rw [← sum_isEnd B j hx]
            refine sum_congr rfl fun t ht => ?_
            rw [if_pos (by have := mem_range.1 ht; omega)]
          · have e3 : ∀ t ∈ range c, (if R + 1 + t ≤ R then cnt B j (isEnd x (R + 1 + t)) else cnt B j (hit (loopR twice B R k) (isEnd x))) =
                cnt B j (hit (loopR twice B R k) (isEnd x)) := fun t _ => if_neg (by omega)
            rw [sum_congr rfl e3, sum_const, card_range, smul_eq_mul, ← e x]
        rw [key x hx, key y hy]
        refine sum_congr rfl fun j hj => ?_
        rw [ih j (by have := mem_range.1 hj; omega) x y hx hy]

end Sprout.UInt
