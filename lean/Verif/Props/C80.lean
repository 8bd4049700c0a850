import Verif.Proofs.IterOps

/-!
# C80: next, prev, advance and distance of iterators without random access

`Spec.steps f n` is `n` elementary steps; `Spec.Walk f last d first`: `last` is reached from `first` by `d` steps and not before.
-/

namespace Sprout
open IterOps Spec
variable {It : Type}

/-- `next(it, n)` is `n` steps forward, or `-n` steps back for `n < 0`; it is undefined only if one of the steps is. -/
theorem C80_next (fwd bwd : It → Option It) (it : It) (n : Nat) :
    nextBi fwd bwd it n = steps fwd n it ∧ nextBi fwd bwd it (-(n : Int)) = steps bwd n it ∧ nextIn fwd it n = steps fwd n it := by
  cases n with
  | zero => exact ⟨rfl, rfl, rfl⟩
  | succ n =>
    refine ⟨?_, ?_, ?_⟩
    · rw [nextBi, if_neg (by omega), if_pos (by omega), halfPos_eq]
    · rw [nextBi, if_neg (by omega), if_neg (by omega), halfNeg_eq]
    · rw [nextIn, if_neg (by omega), if_neg (by omega), halfPos_eq]

/-- `prev(it, n)` is `n` steps back, or `-n` steps forward for `n < 0` -/
theorem C80_prev (fwd bwd : It → Option It) (it : It) (n : Nat) :
    prevBi fwd bwd it n = steps bwd n it ∧ prevBi fwd bwd it (-(n : Int)) = steps fwd n it := by
  cases n with
  | zero => exact ⟨rfl, rfl⟩
  | succ n =>
    refine ⟨?_, ?_⟩
    · rw [prevBi, if_neg (by omega), if_pos (by omega), halfPos_eq]
    · rw [prevBi, if_neg (by omega), if_neg (by omega), halfNeg_eq]

/-- `advance(it, n)` does the same by loops; for input iterators `n ≥ 0` is asserted -/
theorem C80_advance (fwd bwd : It → Option It) (it : It) (n : Nat) :
    advanceBi fwd bwd it n = steps fwd n it ∧ advanceBi fwd bwd it (-(n : Int)) = steps bwd n it ∧ advanceIn fwd it n = steps fwd n it ∧
    (0 < n → advanceIn fwd it (-(n : Int)) = none) := by
  refine ⟨?_, ?_, ?_, ?_⟩
  · rw [advanceBi]
    split
    · exact advPos_eq fwd n it
    · rw [show n = 0 by omega]
      exact advNeg_eq bwd 0 it
  · rw [advanceBi, if_neg (by omega), advNeg_eq]
  · rw [advanceIn, if_neg (by omega), advPos_eq]
  · intro h
    rw [advanceIn, if_pos (by omega)]

/-- `prev(it, n)` for types that are not literal. *Partial*: `n` is not the least value of `difference_type`. -/
theorem C80_prev_cxx14_partial (fwd bwd : It → Option It) (it : It) (n : Nat) (h : n < 2 ^ 63) :
    prevCxx14 fwd bwd it n = steps bwd n it ∧ prevCxx14 fwd bwd it (-(n : Int)) = steps fwd n it := by
  constructor
  · rw [prevCxx14, Option.bind_eq_bind, Adaptor.int64_arith (by omega) (by omega), Option.bind_some]
    exact (C80_advance fwd bwd it n).2.1
  · rw [prevCxx14, Option.bind_eq_bind, Adaptor.int64_arith (by omega) (by omega), Option.bind_some, Int.neg_neg]
    exact (C80_advance fwd bwd it n).1

/-- the least value cannot be negated -/
theorem C80_prev_cxx14_refuted (fwd bwd : It → Option It) (it : It) : prevCxx14 fwd bwd it (-2 ^ 63) = none := by
  rw [prevCxx14, show CInt.int64.arith (-(-2 ^ 63)) = none by decide]
  rfl

/-- next and prev are inverse to each other whenever the elementary steps are -/
theorem C80_next_prev (fwd bwd : It → Option It) (hinv : ∀ a b, fwd a = some b → bwd b = some a) (a b : It) (n : Nat)
    (h : nextBi fwd bwd a n = some b) : prevBi fwd bwd b n = some a := by
  rw [(C80_next fwd bwd a n).1] at h
  rw [(C80_prev fwd bwd b n).1]
  induction n generalizing a b with
  | zero => rw [steps, Option.some.injEq] at h ⊢; exact h.symm
  | succ n ih =>
    rw [steps_add, Option.bind_eq_some_iff] at h
    obtain ⟨c, h1, h2⟩ := h
    rw [steps]
    rw [steps, Option.bind_eq_some_iff] at h2
    obtain ⟨b', h3, h4⟩ := h2
    rw [steps, Option.some.injEq] at h4
    subst h4
    rw [hinv _ _ h3, Option.bind_some]
    exact ih a c h1

/-- `distance(first, last)` is the number of steps. *Partial*: the number is below `2 ^ 62`, a half of what `difference_type` can hold. -/
theorem C80_distance_partial [DecidableEq It] (fwd : It → Option It) (first last : It) (d : Nat) (h : Walk fwd last d first) (hd : d < 2 ^ 62) :
    distance fwd first last = some (d : Int) := by
  have := distImpl_eq fwd last d first 0 1 h (by omega) (by omega) (by omega)
  rw [Nat.zero_add] at this
  rw [distance, show (1 : Int) = ((1 : Nat) : Int) from rfl, show ((first, 0) : It × Int) = (first, ((0 : Nat) : Int)) from rfl, this]
  rfl

/-- for greater distances, the doubled block size overflows -/
theorem C80_distance_refuted [DecidableEq It] (fwd : It → Option It) (first last : It) (d : Nat) (h : Walk fwd last d first) (hd : 2 ^ 62 ≤ d) (hd' : d < 2 ^ 63) :
    distance fwd first last = none := by
  have := distImpl_none fwd last 62 d first 0 (by omega) h (by simp; omega) (by omega)
  rw [distance, show (1 : Int) = ((2 ^ (62 - 62) : Nat) : Int) from rfl, show ((first, 0) : It × Int) = (first, ((0 : Nat) : Int)) from rfl, this]
  rfl

/-- the loop that is used for types that are not literal has no such limit -/
theorem C80_distance_cxx14 [DecidableEq It] (fwd : It → Option It) (first last : It) (d : Nat) (h : Walk fwd last d first) (hd : d < 2 ^ 63) :
    distLoop fwd last first 0 = some (d : Int) := by
  have := distLoop_eq fwd last d first 0 h (by omega)
  rw [Nat.zero_add] at this
  exact this

/-- distance and next: going the distance from `first` leads to `last` -/
theorem C80_next_distance [DecidableEq It] (fwd bwd : It → Option It) (first last : It) (d : Nat) (h : Walk fwd last d first) (hd : d < 2 ^ 62) :
    ((distance fwd first last).bind fun n => nextBi fwd bwd first n) = some last := by
  rw [C80_distance_partial fwd first last d h hd, Option.bind_some, (C80_next fwd bwd first d).1]
  clear hd
  induction h with
  | done => rfl
  | step _ h' _ ih => rw [steps, h']; exact ih

private theorem walk_up (n : Nat) : ∀ d a, d + a = n → Walk (fun k => if k < n then some (k + 1) else none) n d a := by
  intro d
  induction d with
  | zero => intro a h; rw [Nat.zero_add] at h; subst h; exact .done
  | succ d ih => intro a h; exact .step (by omega) (if_pos (by omega)) (ih (a + 1) (by omega))

example : distance (fun k => if k < 1000 then some (k + 1) else none) 7 1000 = some 993 :=
  C80_distance_partial _ _ _ 993 (walk_up 1000 993 7 rfl) (by decide)
example : distance (fun k => if k < 2 ^ 62 then some (k + 1) else none) 0 (2 ^ 62) = none :=
  C80_distance_refuted _ _ _ (2 ^ 62) (walk_up _ _ 0 rfl) (by omega) (by omega)
example : nextBi (fun k : Int => some (k + 1)) (fun k => some (k - 1)) 5 (-3) = some 2 := (C80_next _ _ 5 3).2.1
example : prevBi (fun k : Int => some (k + 1)) (fun k => some (k - 1)) 5 3 = some 2 := (C80_prev _ _ 5 3).1
example : advanceBi (fun k : Int => some (k + 1)) (fun k => some (k - 1)) 5 3 = some 8 := (C80_advance _ _ 5 3).1

end Sprout
