import Verif.Model.FixedMerge
import Verif.Proofs.FixedSort
import Verif.Proofs.Merge
import Verif.Proofs.Permutation

/-! # Merging, set operations and permutations that return containers -/

namespace Sprout.FixedAlg

open ContOp

variable {α : Type} [Inhabited α]

omit [Inhabited α] in
theorem emitArg_eq (e : Bool) (args : List α) (x : α) : emitArg e args x = args ++ em e x := by
  cases e <;> simp [emitArg, em]

theorem mergeImpl_eq {c : Cont α} (h : c.Ok) (dec : α → α → Act) (k1 k2 : Bool) : ∀ (n : ℕ) (xs ys args : List α), xs.length + ys.length = n →
    args.length ≤ c.vis.length → mergeImpl c dec k1 k2 xs ys args = complate c ((args ++ zm dec k1 k2 xs ys).take c.vis.length) := by
  obtain ⟨_, _, p⟩ := parts' h
  have hl := p.len
  have hst := vis_le_static h
  intro n
  induction n using Nat.strongRecOn with
  | _ n ih =>
    intro xs ys args hn ha
    have em1 : ∀ (e : Bool) (x : α), (em e x).length ≤ 1 := by intro e x; cases e <;> simp [em]
    have full : ∀ b : List α, args.length = c.vis.length → complate c args = complate c ((args ++ b).take c.vis.length) := by
      intro b hb
      rw [List.take_append_of_le_length (by omega), List.take_of_length_le (by omega)]
    have fin : complate c args = complate c ((args ++ []).take c.vis.length) := by
      rw [List.append_nil, List.take_of_length_le ha]
    rw [mergeImpl.eq_def]
    by_cases h1 : c.static = args.length
    · rw [if_pos h1, ← full _ (by omega), complate, if_pos h1]
    · rw [if_neg h1]
      by_cases h2 : args.length < c.size.toNat
      · rw [if_pos h2]
        match xs, ys with
        | x :: xs, y :: ys =>
          simp only [List.length_cons] at hn
          rw [zm]
          cases hd : dec x y with
          | left e =>
            simp only [hd, emitArg_eq]
            rw [ih _ (by simp; omega) xs (y :: ys) _ rfl (by have := em1 e x; simp; omega), List.append_assoc]
          | right e =>
            simp only [hd, emitArg_eq]
            rw [ih _ (by simp; omega) (x :: xs) ys _ rfl (by have := em1 e y; simp; omega), List.append_assoc]
          | both e =>
            simp only [hd, emitArg_eq]
            rw [ih _ (by omega) xs ys _ rfl (by have := em1 e x; simp; omega), List.append_assoc]
        | x :: xs, [] =>
          simp only [List.length_cons] at hn
          simp only [zm]
          cases k1 with
          | true =>
            simp only [if_true]
            rw [ih _ (by omega) xs [] _ rfl (by simp; omega)]
            cases xs <;> cases k2 <;> simp [zm]
          | false => simpa using fin
        | [], y :: ys =>
          simp only [List.length_cons] at hn
          simp only [zm]
          cases k2 with
          | true =>
            simp only [if_true]
            rw [ih _ (by simp at hn ⊢; omega) [] ys _ rfl (by simp; omega)]
            simp [zm]
          | false => simpa using fin
        | [], [] =>
          simp only [zm]
          cases k2 <;> simpa using fin
      · rw [if_neg h2]
        exact full _ (by omega)

theorem mergeImpl_rewrites {c : Cont α} (h : c.Ok) (dec : α → α → Act) (k1 k2 : Bool) (xs ys : List α) :
    Rewrites (mergeImpl c dec k1 k2 xs ys []) c (writeFront c.vis (zm dec k1 k2 xs ys)) := by
  rw [mergeImpl_eq h dec k1 k2 _ xs ys [] rfl (by simp), List.nil_append, ← writeFront_take]
  exact complate_rewrites h (by simp)

omit [Inhabited α] in
theorem permImpl3_eq (cmp : ℕ → ℕ → Option Bool) (i : ℕ) : ∀ j, permImpl3 cmp i j = permFind cmp i j := by
  intro j
  induction j with
  | zero =>
    rw [permImpl3, permFind]
    rfl
  | succ j ih =>
    rw [permImpl3, permFind, if_neg (by omega), Nat.add_sub_cancel, ih]

theorem permImpl4_eq {c : Cont α} (h : c.Ok) {d : ℕ} (hd : d ≤ c.vis.length) :
    ∃ r, permImpl4 c d = some r ∧ Frame c r ∧ r.vis = c.vis.take d ++ (c.vis.drop d).reverse := by
  have := copyBackwardRa_rewrites h (c.vis.drop d).reverse
  rw [rewrites_iff h] at this
  rw [permImpl4, elems_eq h]
  have e : writeBack c.vis (c.vis.drop d).reverse = c.vis.take d ++ (c.vis.drop d).reverse := by
    rw [writeBack]
    congr 1
    · congr 1
      simp
      omega
    · rw [show (c.vis.drop d).reverse.length - c.vis.length = 0 by simp, List.drop_zero]
  rw [e] at this
  exact this

omit [Inhabited α] in
theorem reverse_tail (l : List α) {i : ℕ} (hi : i ≤ l.length) : reverse l i l.length = some (l.take i ++ (l.drop i).reverse) := by
  have := reverse_spec _ (l.take i) (l.drop i) [] rfl
  rw [List.append_nil, List.append_nil, List.take_append_drop, List.length_take, List.length_drop, show min i l.length = i by omega,
    show i + (l.length - i) = l.length by omega] at this
  exact this

omit [Inhabited α] in
theorem permFind_lt {cmp : ℕ → ℕ → Option Bool} {i r : ℕ} : ∀ j, permFind cmp i j = some r → r < j := by
  intro j
  induction j with
  | zero =>
    intro h
    rw [permFind] at h
    cases h
  | succ j ih =>
    intro h
    rw [permFind, if_neg (by omega), Nat.add_sub_cancel] at h
    cases hc : cmp i j with
    | none => rw [hc] at h; cases h
    | some b =>
      rw [hc] at h
      simp only [Option.bind_eq_bind, Option.bind_some] at h
      split_ifs at h with hb
      · exact Nat.lt_succ_of_lt (ih h)
      · cases h
        omega

theorem permImpl2_eq {c : Cont α} (h : c.Ok) (cmp : List α → ℕ → ℕ → Option Bool) {zs : List α} {b : Bool} : ∀ (i : ℕ), i + 1 < c.vis.length →
    permScan cmp c.vis 0 c.vis.length (i + 1) = some (zs, b) →
    ∃ d, permImpl2 c (cmp c.vis) c.vis.length i = some (d, b) ∧ Frame c d ∧ d.vis = zs := by
  intro i
  induction i using Nat.strongRecOn with
  | _ i ih =>
    intro hi hs
    rw [permScan, if_neg (by omega), Nat.add_sub_cancel] at hs
    rw [permImpl2]
    cases hc : cmp c.vis i (i + 1) with
    | none => rw [hc] at hs; cases hs
    | some t =>
      rw [hc] at hs
      simp only [Option.bind_eq_bind, Option.bind_some] at hs ⊢
      cases t with
      | true =>
        simp only [if_true] at hs ⊢
        rw [permImpl3_eq]
        cases hf : permFind (cmp c.vis) i c.vis.length with
        | none => rw [hf] at hs; cases hs
        | some j =>
          have hj := permFind_lt _ hf
          rw [hf] at hs
          simp only [Option.bind_some] at hs ⊢
          rw [swp_eq (by omega) hj] at hs
          simp only [Option.bind_some] at hs
          obtain ⟨d, d1, d2, d3⟩ := swapElement_eq h (i := i) (j := j) (by omega) hj
          rw [← d3] at hs
          rw [← d2.len, reverse_tail _ (by rw [d2.len]; omega)] at hs
          simp only [Option.bind_some, Option.some.injEq, Prod.mk.injEq] at hs
          obtain ⟨rfl, rfl⟩ := hs
          obtain ⟨r, r1, r2, r3⟩ := permImpl4_eq d2.ok (d := i + 1) (by rw [d2.len]; omega)
          rw [d1]
          simp only [Option.bind_some]
          rw [r1]
          exact ⟨r, rfl, d2.trans r2, r3⟩
      | false =>
        simp only [Bool.false_eq_true, if_false] at hs ⊢
        by_cases h0 : i = 0
        · rw [if_pos h0] at hs
          rw [dif_pos h0]
          have e := reverse_tail c.vis (i := 0) (by omega)
          rw [e] at hs
          simp only [List.take_zero, List.drop_zero, List.nil_append, Option.bind_some, Option.some.injEq, Prod.mk.injEq] at hs
          obtain ⟨rfl, rfl⟩ := hs
          have key : Rewrites (reverseCopyRa c.vis c) c (writeFront c.vis c.vis.reverse) := by
            refine packRa_rewrites h (by simp) fun j hj _ => ?_
            rw [show (c.vis.length : ℤ) + -(1 + (j : ℤ)) = ((c.vis.length - 1 - j : ℕ) : ℤ) by omega, rdz_nat, List.getElem?_reverse (by omega)]
          rw [writeFront, List.take_of_length_le (by simp), List.drop_of_length_le (by simp), List.append_nil, rewrites_iff h] at key
          obtain ⟨d, d1, d2, d3⟩ := key
          rw [elems_eq h]
          simp only [Option.bind_some]
          rw [d1]
          exact ⟨d, rfl, d2, d3⟩
        · rw [if_neg h0] at hs
          rw [dif_neg h0]
          exact ih (i - 1) (by omega) (by omega) (by rwa [show i - 1 + 1 = i by omega])

/-- the result on containers is that of the algorithm on the block of the elements -/
theorem permImpl_eq {c : Cont α} (h : c.Ok) (cmp : List α → ℕ → ℕ → Option Bool) {zs : List α} {b : Bool}
    (hs : (if 0 = c.vis.length then some (c.vis, false) else if 0 = c.vis.length - 1 then some (c.vis, false)
      else permScan cmp c.vis 0 c.vis.length (c.vis.length - 1)) = some (zs, b)) :
    ∃ d, permImpl c cmp = some (d, b) ∧ Frame c d ∧ d.vis = zs := by
  rw [permImpl, elems_eq h]
  simp only [Option.bind_eq_bind, Option.bind_some]
  by_cases h0 : c.vis.length = 0
  · rw [if_pos h0.symm] at hs
    cases hs
    rw [if_pos h0]
    exact ⟨c, rfl, .refl h, rfl⟩
  · rw [if_neg (Ne.symm h0)] at hs
    rw [if_neg h0]
    by_cases h1 : c.vis.length = 1
    · rw [if_pos (by omega)] at hs
      cases hs
      rw [if_pos h1]
      exact ⟨c, rfl, .refl h, rfl⟩
    · rw [if_neg (by omega)] at hs
      rw [if_neg h1]
      exact permImpl2_eq h cmp (c.vis.length - 2) (by omega) (by rwa [show c.vis.length - 2 + 1 = c.vis.length - 1 by omega])

end Sprout.FixedAlg
