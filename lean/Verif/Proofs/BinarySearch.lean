import Verif.Model.BinarySearch
import Verif.Proofs.Find

namespace Sprout
variable {α β : Type}

/-- number of binary digits of `n`: the bound for bisection -/
def bits (n : Nat) : Nat := if n = 0 then 0 else Nat.log2 n + 1

theorem bits_half {n : Nat} (h : n ≠ 0) : bits n = bits (n / 2) + 1 := by
  unfold bits
  rw [if_neg h]
  by_cases h2 : n / 2 = 0
  · have : n = 1 := by omega
    subst this; rfl
  · rw [if_neg h2]
    conv_lhs => rw [Nat.log2_def, if_pos (by omega)]

theorem bits_mono : ∀ {a b : Nat}, a ≤ b → bits a ≤ bits b := by
  intro a
  induction a using Nat.strongRecOn with
  | ind a ih =>
    intro b h
    by_cases ha : a = 0
    · simp [bits, ha]
    · rw [bits_half ha, bits_half (show b ≠ 0 by omega)]
      have := ih (a / 2) (by omega) (b := b / 2) (by omega)
      omega

theorem bits_pow {c n : Nat} (h : c ≤ bits n) : c = 0 ∨ 2 ^ (c - 1) ≤ n := by
  unfold bits at h
  split at h
  · left; omega
  · rename_i hn
    right
    exact Nat.le_trans (Nat.pow_le_pow_right (by omega) (by omega)) (Nat.log2_self_le hn)

theorem testAt_mid (pre xs post : List α) (p : α → Bool) (i : Nat) (h : i < xs.length) :
    testAt (pre ++ xs ++ post) p (pre.length + i) = some (p xs[i]) := by
  unfold testAt rd
  rw [List.append_assoc, List.getElem?_append_right (by omega), Nat.add_sub_cancel_left,
    List.getElem?_append_left h, List.getElem?_eq_getElem h]
  rfl

/-- bisection of any test that is true before `k` and false from `k` on -/
theorem bisect_spec (test : Nat → Option Bool) (k : Nat) : ∀ (len first : Nat), first ≤ k → k ≤ first + len →
    (∀ i, first ≤ i → i < k → test i = some true) → (∀ i, k ≤ i → i < first + len → test i = some false) →
    ∃ c, bisect test first len = some (k, c) ∧ c ≤ bits len := by
  intro len
  induction len using Nat.strongRecOn with
  | ind len ih =>
    intro first h1 h2 ht hf
    rw [bisect]
    by_cases h : len = 0
    · rw [if_pos h]; exact ⟨0, by simp; omega, by omega⟩
    · rw [if_neg h]
      by_cases hk : first + len / 2 < k
      · rw [ht _ (by omega) hk]
        simp only [Option.bind_eq_bind, Option.bind_some, if_true]
        obtain ⟨c, hc, hb⟩ := ih (len - (len / 2 + 1)) (by omega) (first + (len / 2 + 1)) (by omega) (by omega)
          (fun i a b => ht i (by omega) b) (fun i a b => hf i a (by omega))
        rw [hc]
        refine ⟨c + 1, rfl, ?_⟩
        have := bits_mono (show len - (len / 2 + 1) ≤ len / 2 by omega)
        rw [bits_half h]; omega
      · rw [hf _ (by omega) (by omega)]
        simp only [Option.bind_eq_bind, Option.bind_some, Bool.false_eq_true, if_false]
        obtain ⟨c, hc, hb⟩ := ih (len / 2) (by omega) first (by omega) (by omega)
          (fun i a b => ht i (by omega) b) (fun i a b => hf i a (by omega))
        rw [hc]
        refine ⟨c + 1, rfl, ?_⟩
        rw [bits_half h]; omega

theorem partitionPointImpl_spec (m : List α) (p : α → Bool) (k : Nat) : ∀ (len first : Nat), first ≤ k → k ≤ first + len →
    (∀ i, first ≤ i → i < k → testAt m p i = some true) → (∀ i, k ≤ i → i < first + len → testAt m p i = some false) →
    ∃ c, partitionPointImpl m p first (first + len) (first + len / 2) = some (k, c) ∧ c ≤ bits len := by
  intro len
  induction len using Nat.strongRecOn with
  | ind len ih =>
    intro first h1 h2 ht hf
    rw [partitionPointImpl]
    by_cases h : len = 0
    · subst h; rw [if_pos (by simp)]; exact ⟨0, by simp; omega, by omega⟩
    · rw [if_neg (by omega)]
      by_cases hk : first + len / 2 < k
      · rw [ht _ (by omega) hk]
        simp only [Option.bind_eq_bind, Option.bind_some, if_true]
        obtain ⟨c, hc, hb⟩ := ih (len - (len / 2 + 1)) (by omega) (first + (len / 2 + 1)) (by omega) (by omega)
          (fun i a b => ht i (by omega) b) (fun i a b => hf i a (by omega))
        rw [show first + (len / 2 + 1) + (len - (len / 2 + 1)) = first + len by omega,
          show first + (len / 2 + 1) = first + len / 2 + 1 by omega,
          show first + len / 2 + 1 + (len - (len / 2 + 1)) / 2 = first + len / 2 + (1 + (first + len - (first + len / 2) - 1) / 2) by omega] at hc
        rw [hc]
        refine ⟨c + 1, rfl, ?_⟩
        have := bits_mono (show len - (len / 2 + 1) ≤ len / 2 by omega)
        rw [bits_half h]; omega
      · rw [hf _ (by omega) (by omega)]
        simp only [Option.bind_eq_bind, Option.bind_some, Bool.false_eq_true, if_false]
        obtain ⟨c, hc, hb⟩ := ih (len / 2) (by omega) first (by omega) (by omega)
          (fun i a b => ht i (by omega) b) (fun i a b => hf i a (by omega))
        rw [show first + (first + len / 2 - first) / 2 = first + (len / 2) / 2 by omega, hc]
        refine ⟨c + 1, rfl, ?_⟩
        rw [bits_half h]; omega

/-- the tests on a segment split into a satisfying and a non-satisfying part -/
theorem testAt_true_part (pre T F post : List α) (p : α → Bool) (hT : ∀ x ∈ T, p x = true) :
    ∀ i, pre.length ≤ i → i < pre.length + T.length → testAt (pre ++ (T ++ F) ++ post) p i = some true := by
  intro i h1 h2
  obtain ⟨j, rfl⟩ := Nat.exists_eq_add_of_le h1
  rw [testAt_mid pre (T ++ F) post p j (by simp; omega), List.getElem_append_left (by omega)]
  rw [hT _ (List.getElem_mem _)]

theorem testAt_false_part (pre T F post : List α) (p : α → Bool) (hF : ∀ x ∈ F, p x = false) :
    ∀ i, pre.length + T.length ≤ i → i < pre.length + (T ++ F).length → testAt (pre ++ (T ++ F) ++ post) p i = some false := by
  intro i h1 h2
  obtain ⟨j, rfl⟩ := Nat.exists_eq_add_of_le (show pre.length ≤ i by omega)
  rw [testAt_mid pre (T ++ F) post p j (by omega), List.getElem_append_right (by omega)]
  rw [hF _ (List.getElem_mem _)]

theorem bisect_part (pre T F post : List α) (p : α → Bool) (hT : ∀ x ∈ T, p x = true) (hF : ∀ x ∈ F, p x = false) :
    ∃ c, bisect (testAt (pre ++ (T ++ F) ++ post) p) pre.length (T ++ F).length = some (pre.length + T.length, c) ∧
      c ≤ bits (T ++ F).length :=
  bisect_spec _ _ _ _ (by omega) (by simp) (testAt_true_part pre T F post p hT) (testAt_false_part pre T F post p hF)

theorem equalRangeImpl_spec (m : List α) (v : β) (lt : α → β → Bool) (gt : β → α → Bool) (k l : Nat) :
    ∀ (len first : Nat), first ≤ k → k ≤ l → l ≤ first + len →
    (∀ i, first ≤ i → i < k → testAt m (fun x => lt x v) i = some true) →
    (∀ i, k ≤ i → i < first + len → testAt m (fun x => lt x v) i = some false) →
    (∀ i, first ≤ i → i < l → testAt m (fun x => gt v x) i = some false) →
    (∀ i, l ≤ i → i < first + len → testAt m (fun x => gt v x) i = some true) →
    ∃ c, equalRangeImpl m v lt gt first len = some (k, l, c) ∧ c ≤ 2 * bits len := by
  intro len
  induction len using Nat.strongRecOn with
  | ind len ih =>
    intro first h1 h2 h3 ha hb hc hd
    rw [equalRangeImpl]
    by_cases h : len = 0
    · rw [if_pos h]; exact ⟨0, by simp; omega, by omega⟩
    · rw [if_neg h]
      have hm := bits_mono (show len - (len / 2 + 1) ≤ len / 2 by omega)
      by_cases hk : first + len / 2 < k
      · rw [ha _ (by omega) hk]
        simp only [Option.bind_eq_bind, Option.bind_some, if_true]
        obtain ⟨c, h4, h5⟩ := ih (len - (len / 2 + 1)) (by omega) (first + (len / 2 + 1)) (by omega) h2 (by omega)
          (fun i a b => ha i (by omega) b) (fun i a b => hb i a (by omega))
          (fun i a b => hc i (by omega) b) (fun i a b => hd i a (by omega))
        rw [h4]
        refine ⟨c + 1, rfl, ?_⟩
        rw [bits_half h]; omega
      · rw [hb _ (by omega) (by omega)]
        simp only [Option.bind_eq_bind, Option.bind_some, Bool.false_eq_true, if_false]
        by_cases hl : first + len / 2 < l
        · rw [hc _ (by omega) hl]
          simp only [Option.bind_some, Bool.false_eq_true, if_false]
          obtain ⟨c1, h4, h5⟩ := bisect_spec (testAt m (fun x => lt x v)) k (len / 2) first (by omega) (by omega)
            (fun i a b => ha i (by omega) b) (fun i a b => hb i a (by omega))
          have hn : ∀ i b, testAt m (fun x => gt v x) i = some b → testAt m (fun x => !gt v x) i = some (!b) := by
            intro i b
            unfold testAt
            cases rd m i <;> simp
          obtain ⟨c2, h6, h7⟩ := bisect_spec (testAt m (fun x => !gt v x)) l (len - (len / 2 + 1)) (first + (len / 2 + 1)) (by omega) (by omega)
            (fun i a b => hn i false (hc i (by omega) b)) (fun i a b => hn i true (hd i a (by omega)))
          rw [h4, h6]
          refine ⟨c1 + c2 + 2, rfl, ?_⟩
          rw [bits_half h]; omega
        · rw [hd _ (by omega) (by omega)]
          simp only [Option.bind_some, if_true]
          obtain ⟨c, h4, h5⟩ := ih (len / 2) (by omega) first (by omega) h2 (by omega)
            (fun i a b => ha i (by omega) b) (fun i a b => hb i a (by omega))
            (fun i a b => hc i (by omega) b) (fun i a b => hd i a (by omega))
          rw [h4]
          refine ⟨c + 2, rfl, ?_⟩
          rw [bits_half h]; omega

/-- a sorted list splits into the elements below `v` and the rest -/
theorem sorted_split_lower {comp : α → α → Bool} (hc : StrictWeak comp) (v : α) : ∀ (xs : List α), SortedBy comp xs →
    ∃ T F, xs = T ++ F ∧ (∀ x ∈ T, comp x v = true) ∧ (∀ x ∈ F, comp x v = false) := by
  intro xs
  induction xs with
  | nil => intro _; exact ⟨[], [], rfl, by simp, by simp⟩
  | cons x xs ih =>
    intro hs
    obtain ⟨h1, h2⟩ := List.pairwise_cons.mp hs
    cases hx : comp x v with
    | true =>
      obtain ⟨T, F, rfl, h3, h4⟩ := ih h2
      exact ⟨x :: T, F, rfl, by simpa [hx] using h3, h4⟩
    | false =>
      refine ⟨[], x :: xs, rfl, by simp, ?_⟩
      intro y hy
      rcases List.mem_cons.mp hy with rfl | hy
      · exact hx
      · exact hc.le_trans hx (h1 y hy)

theorem sorted_split_upper {comp : α → α → Bool} (hc : StrictWeak comp) (v : α) : ∀ (xs : List α), SortedBy comp xs →
    ∃ T F, xs = T ++ F ∧ (∀ x ∈ T, comp v x = false) ∧ (∀ x ∈ F, comp v x = true) := by
  intro xs
  induction xs with
  | nil => intro _; exact ⟨[], [], rfl, by simp, by simp⟩
  | cons x xs ih =>
    intro hs
    obtain ⟨h1, h2⟩ := List.pairwise_cons.mp hs
    cases hx : comp v x with
    | false =>
      obtain ⟨T, F, rfl, h3, h4⟩ := ih h2
      exact ⟨x :: T, F, rfl, by simpa [hx] using h3, h4⟩
    | true =>
      refine ⟨[], x :: xs, rfl, by simp, ?_⟩
      intro y hy
      rcases List.mem_cons.mp hy with rfl | hy
      · exact hx
      · exact hc.lt_of_lt_of_le hx (h1 y hy)

end Sprout
