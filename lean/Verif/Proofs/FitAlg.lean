import Verif.Proofs.FixedSort3
import Verif.Proofs.FixedMerge
import Verif.Proofs.FixedShuffle
import Verif.Proofs.Find
import Verif.Spec.FitAlg
import Verif.Spec.Moves
import Verif.Model.FitAlg

/-! # Algorithms that return windows -/

namespace Sprout.FitAlg

open ContOp FixedAlg

variable {α : Type}

/-! ## windows -/

/-- a part of the elements of a container, as a window of what is inside -/
theorem subCopy_part {x : Cont α} (h : x.Ok) {a b : ℕ} (hab : a ≤ b) (hb : b ≤ x.vis.length) :
    (subCopy (getInternal x) (x.beginOff + a) (x.beginOff + b)).InBounds ∧
    (subCopy (getInternal x) (x.beginOff + a) (x.beginOff + b)).beginOff = x.beginOff + a ∧
    (subCopy (getInternal x) (x.beginOff + a) (x.beginOff + b)).endOff = x.beginOff + b ∧
    (subCopy (getInternal x) (x.beginOff + a) (x.beginOff + b)).vis = (x.vis.drop a).take (b - a) := by
  have key : ∀ (B : List α) (f n : ℕ), f + n ≤ B.length → b ≤ n →
      (B.drop (f + a)).take (b - a) = (((B.drop f).take n).drop a).take (b - a) := by
    intro B f n h1 h2
    rw [List.drop_take, List.take_take, List.drop_drop]
    congr 1
    omega
  match x, h with
  | .array l, _ =>
    have hl : (Cont.array l).vis = l := by simp [Cont.vis, Cont.block, Cont.beginOff, Cont.size]
    rw [hl] at hb ⊢
    simp only [getInternal, subCopy, Cont.InBounds, Cont.beginOff, Cont.endOff, Cont.size, Cont.block, Cont.vis]
    refine ⟨by omega, by omega, by omega, ?_⟩
    rw [show (0 + (0 + (a : ℤ))).toNat = a by omega, show (0 + (b : ℤ) - (0 + a)).toNat = b - a by omega]
  | .string e n, h =>
    have hl : (Cont.string e n).vis = e.take n := by simp [Cont.vis, Cont.block, Cont.beginOff, Cont.size]
    simp only [Cont.Ok] at h
    rw [hl] at hb ⊢
    simp only [List.length_take] at hb
    simp only [getInternal, subCopy, Cont.InBounds, Cont.beginOff, Cont.endOff, Cont.size, Cont.block, Cont.vis]
    refine ⟨by omega, by omega, by omega, ?_⟩
    rw [show (0 + (0 + (a : ℤ))).toNat = a by omega, show (0 + (b : ℤ) - (0 + a)).toNat = b - a by omega]
    have := key e 0 n (by omega) (by omega)
    simpa using this
  | .sub (.array l) f t, h =>
    simp only [Cont.Ok] at h
    simp only [Cont.vis, Cont.block, Cont.beginOff, Cont.size, List.length_take, List.length_drop] at hb
    simp only [getInternal, subCopy, Cont.InBounds, Cont.beginOff, Cont.endOff, Cont.size, Cont.block, Cont.vis]
    refine ⟨by omega, by omega, by omega, ?_⟩
    rw [show (0 + (0 + f + (a : ℤ))).toNat = f.toNat + a by omega, show (0 + f + (b : ℤ) - (0 + f + a)).toNat = b - a by omega,
      show (0 + f).toNat = f.toNat by omega]
    exact key l f.toNat (t - f).toNat (by omega) (by omega)

theorem window_fits {c : Cont α} (h : c.Ok) {r : Option (Cont α)} {w : List α} (hr : Rewrites r c w) {n : ℕ} {k : ℤ} (hk : k = n)
    (hn : n ≤ c.vis.length) : Fits (r.map (window c k)) c (w.take n) := by
  obtain ⟨x, rfl, h1, h2, h3, h4, h5, -⟩ := hr
  obtain ⟨_, _, hp⟩ := parts' h
  obtain ⟨_, _, hx⟩ := parts' h1
  have e1 := hp.len
  have e2 := hx.len
  subst hk
  obtain ⟨a1, a2, a3, a4⟩ := subCopy_part h1 (Nat.zero_le n) (by omega)
  have hw : window c (n : ℤ) x = subCopy (getInternal x) (x.beginOff + (0 : ℕ)) (x.beginOff + n) := by
    rw [window, h3]; simp
  refine ⟨_, rfl, ?_, ?_, ?_⟩
  · rw [hw]; exact a1
  · rw [hw, a2, h3]; simp
  · rw [hw, a4, h5]; simp

theorem fitSize_nat {c : Cont α} (h : c.Ok) (n : ℕ) : fitSize c n = ((min n c.vis.length : ℕ) : ℤ) := by
  obtain ⟨_, _, hp⟩ := parts' h
  have := hp.len
  rw [fitSize, if_neg (by omega)]
  omega

/-- what has been written, as far as there was room -/
theorem written_fits {c : Cont α} (h : c.Ok) {r : Option (Cont α)} {ws : List α} (hr : Rewrites r c (writeFront c.vis ws)) {k : ℤ}
    (hk : k = ((min ws.length c.vis.length : ℕ) : ℤ)) : Fits (r.map (window c k)) c (ws.take c.vis.length) := by
  have := window_fits h hr hk (by omega)
  rw [writeFront, List.take_append_of_le_length (by simp), List.take_take] at this
  rwa [show min (min ws.length c.vis.length) c.vis.length = min c.vis.length ws.length by omega, ← List.take_take, List.take_length] at this

theorem copied_fits {c : Cont α} (h : c.Ok) {r : Option (Cont α)} {ws : List α} (hr : Rewrites r c (writeFront c.vis ws)) {n : ℕ}
    (hn : ws.length = n) : Fits (r.map (window c (fitSize c n))) c (ws.take c.vis.length) :=
  written_fits h hr (by rw [fitSize_nat h, hn])

theorem whole_fits {c : Cont α} (h : c.Ok) {r : Option (Cont α)} {w : List α} (hr : Rewrites r c w) : Fits (whole c r) c w := by
  obtain ⟨_, _, hp⟩ := parts' h
  have := window_fits h hr (n := c.vis.length) hp.len.symm le_rfl
  rwa [List.take_of_length_le] at this
  obtain ⟨x, -, h1, -, -, h4, h5, -⟩ := hr
  obtain ⟨_, _, hx⟩ := parts' h1
  have := hx.len
  have := hp.len
  rw [← h5]
  omega

/-! ## counts -/

theorem countOf_eq (ra : Bool) (p : α → Bool) (xs : List α) : countOf ra p xs = some (xs.countP p) := by
  have h1 := countIfRa_eq [] xs [] p
  have h2 := countIfIn_eq [] xs [] p
  simp only [List.nil_append, List.append_nil, List.length_nil, Nat.zero_add] at h1 h2
  cases ra <;> simp [countOf, h1, h2]

theorem countNImpl_eq (m : List α) (p : α → Bool) : ∀ (n i k : ℕ), 1 ≤ n → i + n ≤ m.length →
    countNImpl m p (i, k) n = some (i + n, k + ((m.drop i).take n).countP p) := by
  intro n
  induction n using Nat.strongRecOn with
  | ind n ih =>
    intro i k hn hi
    rw [countNImpl]
    by_cases h1 : n = 1
    · subst h1
      have hlt : i < m.length := by omega
      rw [if_pos rfl]
      simp only [rd, List.getElem?_eq_getElem hlt, Option.bind_eq_bind, Option.bind_some]
      rw [List.drop_eq_getElem_cons hlt, List.take_succ_cons, List.take_zero, List.countP_cons, List.countP_nil, Nat.zero_add]
    · rw [if_neg h1, ih (n / 2) (by omega) i k (by omega) (by omega)]
      simp only [Option.bind_eq_bind, Option.bind_some]
      rw [ih (n - n / 2) (by omega) _ _ (by omega) (by omega)]
      congr 2
      · omega
      · have : ((m.drop i).take n).countP p = ((m.drop i).take (n / 2 + (n - n / 2))).countP p := by congr 2; omega
        rw [this, List.take_add, List.countP_append, List.drop_drop]
        omega

theorem countNIf_eq (m : List α) (p : α → Bool) (n : ℕ) (hn : n ≤ m.length) : countNIf m p n = some ((m.take n).countP p) := by
  rw [countNIf]
  split_ifs with h
  · simp [h]
  · rw [countNImpl_eq m p n 0 0 (by omega) (by omega)]
    simp

/-- the number of elements that `p` relates to the one before -/
def overlaps (p : α → α → Bool) : List α → ℕ
  | [] => 0
  | [_] => 0
  | x :: y :: l => (if p x y then 1 else 0) + overlaps p (y :: l)

theorem overlaps_split (p : α → α → Bool) : ∀ (A : List α) (x : α) (B : List α),
    overlaps p (A ++ x :: B) = overlaps p (A ++ [x]) + overlaps p (x :: B)
  | [], x, B => by simp [overlaps]
  | [a], x, B => by simp [overlaps]
  | a :: b :: A, x, B => by
    have := overlaps_split p (b :: A) x B
    simp only [List.cons_append] at this
    simp only [List.cons_append, overlaps, this]
    omega

theorem overlapImplRa_eq (m : List α) (p : α → α → Bool) : ∀ (n f : ℕ), 1 ≤ n → f + n < m.length →
    overlapImplRa m p f (f + n) (n / 2) = some (overlaps p ((m.drop f).take (n + 1))) := by
  intro n
  induction n using Nat.strongRecOn with
  | ind n ih =>
    intro f hn hf
    rw [overlapImplRa]
    by_cases h0 : n / 2 = 0
    · rw [if_pos h0]
      have : n = 1 := by omega
      subst this
      rw [List.drop_eq_getElem_cons (by omega), List.drop_eq_getElem_cons (by omega), List.take_succ_cons, List.take_succ_cons,
        List.take_zero]
      simp [rd, List.getElem?_eq_getElem, show f < m.length by omega, hf, overlaps]
    · rw [if_neg h0, ih (n / 2) (by omega) f (by omega) (by omega)]
      have h2 := ih (n - n / 2) (by omega) (f + n / 2) (by omega) (by omega)
      rw [show f + n / 2 + (n - n / 2) = f + n by omega] at h2
      simp only [Option.bind_eq_bind, Option.bind_some]
      rw [show (f + n - f - n / 2) / 2 = (n - n / 2) / 2 by omega, h2]
      simp only [Option.bind_some, Option.some.injEq]
      have hlt : f + n / 2 < m.length := by omega
      have e1 : (m.drop f).take (n / 2 + 1) = (m.drop f).take (n / 2) ++ [m[f + n / 2]] := by
        rw [List.take_succ]
        simp [hlt]
      have e2 : (m.drop (f + n / 2)).take (n - n / 2 + 1) = m[f + n / 2] :: (m.drop (f + n / 2 + 1)).take (n - n / 2) := by
        rw [List.drop_eq_getElem_cons hlt, List.take_succ_cons]
      have e3 : (m.drop f).take (n + 1) = (m.drop f).take (n / 2) ++ (m.drop (f + n / 2)).take (n - n / 2 + 1) := by
        have : (m.drop f).take (n + 1) = (m.drop f).take (n / 2 + (n - n / 2 + 1)) := by congr 1; omega
        rw [this, List.take_add, List.drop_drop]
      rw [e3, e2, e1, ← overlaps_split]

theorem overlapRa_eq (p : α → α → Bool) (xs : List α) : overlapRa p xs = some (overlaps p xs) := by
  rw [overlapRa]
  split_ifs with h
  · match xs, h with
    | [], _ => rfl
    | [_], _ => rfl
  · have := overlapImplRa_eq xs p (xs.length - 1) 0 (by omega) (by omega)
    rw [Nat.zero_add] at this
    rw [this, List.drop_zero, List.take_of_length_le (by omega)]

theorem overlapIn_run (p : α → α → Bool) : ∀ (ys pre : List α) (x : α) (k : ℕ),
    Run (finIf fun s : ℕ × α × ℕ => s.1 == (pre ++ x :: ys).length)
      (fun s => do
        let y ← rd (pre ++ x :: ys) s.1
        some (s.1 + 1, y, s.2.2 + (if p y s.2.1 then 1 else 0)))
      ys.length (pre.length + 1, x, k) ((pre ++ x :: ys).length, (x :: ys).getLast (by simp), k + overlaps (fun a b => p b a) (x :: ys)) := by
  intro ys
  induction ys with
  | nil =>
    intro pre x k
    apply Run.stop
    simp [finIf, overlaps]
  | cons y ys ih =>
    intro pre x k
    have := ih (pre ++ [x]) y (k + if p y x then 1 else 0)
    simp only [List.append_assoc, List.singleton_append, List.length_append, List.length_singleton] at this
    refine Run.step (t := (pre.length + 1 + 1, y, k + if p y x then 1 else 0)) ?_ ?_ ?_
    · simp [finIf]
    · simp [rd]
    · have e : k + overlaps (fun a b => p b a) (x :: y :: ys) =
          (k + if p y x then 1 else 0) + overlaps (fun a b => p b a) (y :: ys) := by simp only [overlaps]; omega
      rw [e, List.getLast_cons (by simp), List.length_append]
      exact this

theorem overlapIn_eq (p : α → α → Bool) (xs : List α) : overlapIn p xs = some (overlaps (fun a b => p b a) xs) := by
  rw [overlapIn]
  cases xs with
  | nil => simp [overlaps]
  | cons x xs =>
    rw [if_neg (by simp)]
    have := dbl_run (finIf_idem _) _ _ _ 1 le_rfl (overlapIn_run p xs [] x 0)
    simp only [List.nil_append, List.length_nil, Nat.zero_add] at this
    simp only [rd, List.getElem?_cons_zero, Option.bind_eq_bind, Option.bind_some]
    simp only [rd, Option.bind_eq_bind] at this
    rw [this]
    simp

theorem overlaps_congr {p q : α → α → Bool} (h : ∀ a b, p a b = q a b) : p = q := by
  funext a b; exact h a b

theorem overlapCount_eq {p : α → α → Bool} (hp : ∀ a b, p a b = true → p b a = true) (ra : Bool) (xs : List α) :
    overlapCount ra p xs = some (overlaps p xs) := by
  have : (fun a b => p b a) = p := by
    funext a b
    have h1 := hp a b
    have h2 := hp b a
    cases h3 : p a b <;> cases h4 : p b a <;> simp_all
  cases ra
  · simp [overlapCount, overlapIn_eq, this]
  · simp [overlapCount, overlapRa_eq]

/-- for an equivalence relation the elements kept and those that equal the one before are all -/
theorem dedupFrom_length {p : α → α → Bool} (hp : Equiv p) : ∀ (xs : List α) (v u : α), p v u = true →
    (Spec.dedupFrom p v xs).length + overlaps p (u :: xs) = xs.length
  | [], v, u, _ => by simp [Spec.dedupFrom, overlaps]
  | y :: ys, v, u, hv => by
    have e : p v y = p u y := by
      cases h1 : p u y with
      | true => exact hp.trans _ _ _ hv h1
      | false =>
        cases h2 : p v y with
        | false => rfl
        | true => rw [hp.trans _ _ _ (hp.symm _ _ hv) h2] at h1; cases h1
    rw [Spec.dedupFrom, overlaps, e]
    cases h1 : p u y with
    | true =>
      have := dedupFrom_length hp ys v y (hp.trans _ _ _ hv h1)
      simp
      omega
    | false =>
      have := dedupFrom_length hp ys y y (hp.refl y)
      simp
      omega

theorem dedup_length {p : α → α → Bool} (hp : Equiv p) (xs : List α) : (Spec.dedup p xs).length + overlaps p xs = xs.length := by
  cases xs with
  | nil => rfl
  | cons x xs =>
    have := dedupFrom_length hp xs x x (hp.refl x)
    simp [Spec.dedup]
    omega

/-- the number of pairs of equivalent elements met by a walk along both ranges -/
def common (comp : α → α → Bool) : List α → List α → ℕ
  | x :: xs, y :: ys =>
    if comp x y then common comp xs (y :: ys)
    else if comp y x then common comp (x :: xs) ys
    else common comp xs ys + 1
  | [], _ => 0
  | _ :: _, [] => 0
  termination_by xs ys => xs.length + ys.length

theorem setOverlap_run (comp : α → α → Bool) (A B : List α) : ∀ (N : ℕ) (xs ys : List α) (i j k : ℕ), xs.length + ys.length = N →
    A.drop i = xs → B.drop j = ys → i ≤ A.length → j ≤ B.length →
    ∃ n s, Run (finIf fun s : ℕ × ℕ × ℕ => s.1 == A.length || s.2.1 == B.length)
      (fun s => do
        let x ← rd A s.1
        let y ← rd B s.2.1
        some (if comp x y then (s.1 + 1, s.2.1, s.2.2)
          else if comp y x then (s.1, s.2.1 + 1, s.2.2)
          else (s.1 + 1, s.2.1 + 1, s.2.2 + 1)))
      n (i, j, k) s ∧ s.2.2 = k + common comp xs ys := by
  intro N
  induction N using Nat.strongRecOn with
  | ind N ih =>
    intro xs ys i j k hN hx hy hi hj
    match xs, ys with
    | [], ys =>
      have : i = A.length := by have := congrArg List.length hx; simp at this; omega
      exact ⟨0, (i, j, k), .stop (by simp [finIf, this]), by simp [common]⟩
    | x :: xs, [] =>
      have : j = B.length := by have := congrArg List.length hy; simp at this; omega
      exact ⟨0, (i, j, k), .stop (by simp [finIf, this]), by simp [common]⟩
    | x :: xs, y :: ys =>
      have hi' : i < A.length := by have := congrArg List.length hx; simp at this; omega
      have hj' : j < B.length := by have := congrArg List.length hy; simp at this; omega
      rw [List.drop_eq_getElem_cons hi'] at hx
      rw [List.drop_eq_getElem_cons hj'] at hy
      have ex := (List.cons.inj hx).1
      have ey := (List.cons.inj hy).1
      have hx' := (List.cons.inj hx).2
      have hy' := (List.cons.inj hy).2
      have fin : finIf (fun s : ℕ × ℕ × ℕ => s.1 == A.length || s.2.1 == B.length) (i, j, k) = none := by
        simp [finIf]; omega
      simp only [List.length_cons] at hN
      by_cases c1 : comp x y = true
      · obtain ⟨n, s, h1, h2⟩ := ih _ (by simp; omega) xs (y :: ys) (i + 1) j k rfl hx' (by rw [List.drop_eq_getElem_cons hj', ey, hy'])
          (by omega) hj
        refine ⟨n + 1, s, .step fin ?_ h1, by rw [h2, common, if_pos c1]⟩
        simp [rd, hi', hj', ex, ey, c1]
      · by_cases c2 : comp y x = true
        · obtain ⟨n, s, h1, h2⟩ := ih _ (by simp; omega) (x :: xs) ys i (j + 1) k rfl (by rw [List.drop_eq_getElem_cons hi', ex, hx']) hy' hi
            (by omega)
          refine ⟨n + 1, s, .step fin ?_ h1, by rw [h2, common, if_neg c1, if_pos c2]⟩
          simp [rd, hi', hj', ex, ey, c1, c2]
        · obtain ⟨n, s, h1, h2⟩ := ih _ (by omega) xs ys (i + 1) (j + 1) (k + 1) rfl hx' hy' (by omega) (by omega)
          refine ⟨n + 1, s, .step fin ?_ h1, by rw [h2, common, if_neg c1, if_neg c2]; omega⟩
          simp [rd, hi', hj', ex, ey, c1, c2]

theorem setOverlapCount_eq (comp : α → α → Bool) (xs ys : List α) : setOverlapCount comp xs ys = some (common comp xs ys) := by
  obtain ⟨n, s, h1, h2⟩ := setOverlap_run comp xs ys _ xs ys 0 0 0 rfl rfl rfl (Nat.zero_le _) (Nat.zero_le _)
  rw [setOverlapCount, dbl_run (finIf_idem _) _ _ _ 1 le_rfl h1]
  simp [h2]

theorem zm_length (comp : α → α → Bool) (k1 k2 e3 : Bool) (xs ys : List α) :
    ((zm (fun x y => if comp x y then .left k1 else if comp y x then .right k2 else .both e3) k1 k2 xs ys).length : ℤ) =
      (k1.toNat : ℤ) * (xs.length - common comp xs ys) + (k2.toNat : ℤ) * (ys.length - common comp xs ys) + (e3.toNat : ℤ) * common comp xs ys := by
  induction hN : xs.length + ys.length using Nat.strongRecOn generalizing xs ys with
  | ind N ih =>
    match xs, ys with
    | [], ys => cases k1 <;> cases k2 <;> simp [zm, common]
    | x :: xs, [] => cases k1 <;> cases k2 <;> simp [zm, common]
    | x :: xs, y :: ys =>
      rw [zm, common]
      simp only [List.length_cons] at hN
      by_cases c1 : comp x y = true
      · simp only [c1, if_true]
        have := ih _ (by simp; omega) xs (y :: ys) rfl
        rw [List.length_append, Nat.cast_add, this]
        cases k1 <;> simp [em]
        omega
      · by_cases c2 : comp y x = true
        · simp only [c1, c2, if_true, if_false]
          have := ih _ (by simp; omega) (x :: xs) ys rfl
          simp only [Bool.false_eq_true, if_false]
          rw [List.length_append, Nat.cast_add, this]
          cases k2 <;> simp [em]
          omega
        · simp only [c1, c2, if_false, Bool.false_eq_true]
          have := ih _ (by omega) xs ys rfl
          rw [List.length_append, Nat.cast_add, this]
          cases e3 <;> simp [em]
          all_goals ring

theorem common_le (comp : α → α → Bool) : ∀ xs ys : List α, common comp xs ys ≤ xs.length ∧ common comp xs ys ≤ ys.length := by
  intro xs ys
  induction hN : xs.length + ys.length using Nat.strongRecOn generalizing xs ys with
  | ind N ih =>
    match xs, ys with
    | [], ys => simp [common]
    | x :: xs, [] => simp [common]
    | x :: xs, y :: ys =>
      simp only [List.length_cons] at hN
      rw [common]
      split_ifs
      · have := ih _ (by simp; omega) xs (y :: ys) rfl
        simp at this ⊢
        omega
      · have := ih _ (by simp; omega) (x :: xs) ys rfl
        simp at this ⊢
        omega
      · have := ih _ (by omega) xs ys rfl
        simp
        omega

end Sprout.FitAlg
