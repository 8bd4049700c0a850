import Verif.Model.Shuffle
import Verif.Proofs.Moves

namespace Sprout
open Spec
variable {α σ : Type}

theorem split_at_len (xs : List α) (k : Nat) (h : k < xs.length) : ∃ A z B, xs = A ++ z :: B ∧ A.length = k :=
  ⟨xs.take k, xs[k], xs.drop (k + 1), by rw [← List.drop_eq_getElem_cons h, List.take_append_drop], by simp; omega⟩

theorem shuffleSwap_spec (pre : List α) (x : α) (xs post : List α) (i : Nat) (hi : i ≤ xs.length) :
    ∃ y ys, shuffleSwap (pre ++ (x :: xs) ++ post) pre.length i = some (pre ++ (y :: ys) ++ post) ∧ (y :: ys).Perm (x :: xs) ∧
      (x :: xs)[i]? = some y := by
  unfold shuffleSwap
  by_cases h0 : i = 0
  · subst h0; exact ⟨x, xs, by simp, .refl _, rfl⟩
  · rw [if_pos h0]
    obtain ⟨k, rfl⟩ : ∃ k, i = k + 1 := ⟨i - 1, by omega⟩
    have hk : k < xs.length := by omega
    obtain ⟨A, z, B, rfl, rfl⟩ := split_at_len xs k hk
    refine ⟨z, A ++ x :: B, ?_, ?_, by simp⟩
    · rw [show pre ++ x :: (A ++ z :: B) ++ post = pre ++ x :: (A ++ z :: (B ++ post)) by simp, swp_split rfl (by omega)]
      simp
    · refine (List.perm_middle.cons _).trans ?_
      refine (List.Perm.swap _ _ _).trans ?_
      exact (List.perm_middle.symm).cons _

theorem shuffleLoop_spec (gen : Gen σ) (hg : gen.InRange) (post : List α) : ∀ (n : Nat) (pre xs : List α) (s : σ), xs.length = n + 1 →
    ∃ zs s', shuffleLoop gen (pre ++ xs ++ post) pre.length (pre.length + n) n s = some (pre ++ zs ++ post, s') ∧ zs.Perm xs := by
  intro n
  induction n with
  | zero => intro pre xs s hl; exact ⟨xs, s, by rw [shuffleLoop, if_neg (by simp)], .refl _⟩
  | succ n ih =>
    intro pre xs s hl
    cases xs with
    | nil => simp at hl
    | cons x xs =>
      rw [shuffleLoop, if_pos (by omega)]
      obtain ⟨y, ys, h1, h2, -⟩ := shuffleSwap_spec pre x xs post (gen s (n + 1)).1 (Nat.le_trans (hg s (n + 1)) (by simp at hl; omega))
      rw [h1]
      simp only [Option.bind_eq_bind, Option.bind_some]
      obtain ⟨zs, s', g1, g2⟩ := ih (pre ++ [y]) ys (gen s (n + 1)).2 (by have := h2.length_eq; simp at this hl; omega)
      refine ⟨y :: zs, s', ?_, (g2.cons y).trans h2⟩
      rw [show pre ++ y :: zs ++ post = pre ++ [y] ++ zs ++ post by simp, ← g1]
      rw [show (pre ++ [y]).length + n = pre.length + (n + 1) by simp; omega]
      simp

/-- the generator that replays a list of draws -/
def replay : Gen (List Nat) := fun l d => (min (l.headD 0) d, l.tail)

theorem replay_inRange : replay.InRange := fun _ _ => Nat.min_le_right _ _

theorem shuffleLoop_reach (post : List α) : ∀ (n : Nat) (pre xs ys : List α), xs.length = n + 1 → ys.Perm xs →
    ∃ ds : List Nat, ∃ s', shuffleLoop replay (pre ++ xs ++ post) pre.length (pre.length + n) n ds = some (pre ++ ys ++ post, s') := by
  intro n
  induction n with
  | zero =>
    intro pre xs ys hl hp
    match xs, hl with
    | [x], _ =>
      rw [List.perm_singleton.mp hp]
      exact ⟨[], [], by rw [shuffleLoop, if_neg (by simp)]⟩
  | succ n ih =>
    intro pre xs ys hl hp
    cases xs with
    | nil => simp at hl
    | cons x xs =>
      cases ys with
      | nil => simp at hp
      | cons y ys =>
        obtain ⟨i, hi, hiy⟩ := List.getElem_of_mem (hp.mem_iff.mp (List.mem_cons_self (a := y) (l := ys)))
        have hi' : i ≤ xs.length := by simp at hi; omega
        obtain ⟨y', ws, h1, h2, h3⟩ := shuffleSwap_spec pre x xs post i hi'
        rw [List.getElem?_eq_getElem hi, hiy] at h3
        cases h3
        obtain ⟨ds, s', g⟩ := ih (pre ++ [y]) ws ys (by have := h2.length_eq; simp at this hl; omega) ((hp.trans h2.symm).cons_inv)
        refine ⟨i :: ds, s', ?_⟩
        rw [shuffleLoop, if_pos (by omega)]
        have : replay (i :: ds) (n + 1) = (i, ds) := by
          simp only [replay, List.headD_cons, List.tail_cons]
          rw [Nat.min_eq_left (by simp at hl; omega)]
        rw [this]
        simp only [h1, Option.bind_eq_bind, Option.bind_some]
        rw [show pre ++ y :: ys ++ post = pre ++ [y] ++ ys ++ post by simp, ← g]
        rw [show (pre ++ [y]).length + n = pre.length + (n + 1) by simp; omega]
        simp

/-! ### sample -/

theorem sampleFill_spec (popA popB outA : List α) (n : Nat) : ∀ (xs done room outB : List α), done.length ≤ n → min n (done.length + xs.length) ≤ done.length + room.length →
    sampleFill (popA ++ (done ++ xs) ++ popB) (outA ++ (done ++ room) ++ outB) (popA.length + done.length) (popA.length + (done ++ xs).length) outA.length n done.length =
      some (popA.length + done.length + (min n (done.length + xs.length) - done.length),
        outA ++ (done ++ (xs.take (n - done.length) ++ room.drop (min n (done.length + xs.length) - done.length))) ++ outB, min n (done.length + xs.length)) := by
  intro xs
  induction xs with
  | nil =>
    intro done room outB h1 h2
    rw [sampleFill, if_neg (by simp)]
    simp [Nat.min_eq_right h1]
  | cons x xs ih =>
    intro done room outB h1 h2
    rw [sampleFill]
    by_cases hn : done.length = n
    · rw [if_neg (by simp [hn])]
      simp [hn]
    · rw [if_pos ⟨by simp, hn⟩]
      cases room with
      | nil => simp at h2; omega
      | cons r room =>
        rw [show popA ++ (done ++ x :: xs) ++ popB = (popA ++ done) ++ x :: (xs ++ popB) by simp, rd_split (by simp)]
        simp only [Option.bind_eq_bind, Option.bind_some]
        rw [show outA ++ (done ++ r :: room) ++ outB = (outA ++ done) ++ r :: (room ++ outB) by simp, wr_split (by simp)]
        simp only [Option.bind_some]
        have := ih (done ++ [x]) room outB (by simp; omega) (by simp at h2 ⊢; omega)
        rw [show popA ++ (done ++ [x] ++ xs) ++ popB = (popA ++ done) ++ x :: (xs ++ popB) by simp,
          show outA ++ (done ++ [x] ++ room) ++ outB = (outA ++ done) ++ x :: (room ++ outB) by simp] at this
        simp only [List.length_append, List.length_cons, List.length_nil, Nat.zero_add] at this ⊢
        rw [show popA.length + done.length + 1 = popA.length + (done.length + 1) by omega,
          show popA.length + (done.length + (xs.length + 1)) = popA.length + (done.length + 1 + xs.length) by omega, this]
        rw [show n - done.length = (n - (done.length + 1)) + 1 by omega, show done.length + 1 + xs.length = done.length + (xs.length + 1) by omega,
          show min n (done.length + (xs.length + 1)) - done.length = (min n (done.length + (xs.length + 1)) - (done.length + 1)) + 1 by omega]
        simp only [List.take_succ_cons, List.drop_succ_cons]
        simp
        omega

theorem sampleLoop_spec (gen : Gen σ) (popA popB outA outB : List α) (n : Nat) : ∀ (xs P zs : List α) (s : σ) (size : Nat), zs.length = n → zs.Subperm P →
    ∃ ws s', sampleLoop gen (popA ++ (P ++ xs) ++ popB) (outA ++ zs ++ outB) (popA.length + P.length) (popA.length + (P ++ xs).length) outA.length n size s =
      some (outA ++ ws ++ outB, s') ∧ ws.length = n ∧ ws.Subperm (P ++ xs) := by
  intro xs
  induction xs with
  | nil => intro P zs s size h1 h2; exact ⟨zs, s, by rw [sampleLoop, if_pos (by simp)], h1, by simpa using h2⟩
  | cons x xs ih =>
    intro P zs s size h1 h2
    rw [sampleLoop, if_neg (by simp)]
    have key : ∃ vs, sampleReplace (popA ++ (P ++ x :: xs) ++ popB) (outA ++ zs ++ outB) (popA.length + P.length) outA.length n (gen s size).1 =
        some (outA ++ vs ++ outB) ∧ vs.length = n ∧ vs.Subperm (P ++ [x]) := by
      unfold sampleReplace
      split
      · rename_i hk
        rw [show popA ++ (P ++ x :: xs) ++ popB = (popA ++ P) ++ x :: (xs ++ popB) by simp, rd_split (by simp)]
        simp only [Option.bind_eq_bind, Option.bind_some]
        generalize (gen s size).1 = k at hk
        have hkz : k < zs.length := by omega
        obtain ⟨A, z, B, rfl, rfl⟩ := split_at_len zs k hkz
        refine ⟨A ++ x :: B, ?_, by rw [← h1]; simp, ?_⟩
        · rw [show outA ++ (A ++ z :: B) ++ outB = (outA ++ A) ++ z :: (B ++ outB) by simp, wr_split (by simp)]
          simp
        · have g1 : (A ++ x :: B).Perm (x :: (A ++ B)) := List.perm_middle
          have g2 : (A ++ B).Subperm P := List.Subperm.trans (List.Sublist.append_left (List.sublist_cons_self _ _) _).subperm h2
          refine g1.subperm.trans ?_
          refine List.Subperm.trans (List.subperm_cons x |>.mpr g2) ?_
          exact (List.perm_append_singleton x P).symm.subperm
      · exact ⟨zs, rfl, h1, h2.trans (List.sublist_append_left P [x]).subperm⟩
    obtain ⟨vs, g1, g2, g3⟩ := key
    rw [g1]
    simp only [Option.bind_eq_bind, Option.bind_some]
    obtain ⟨ws, s', f1, f2, f3⟩ := ih (P ++ [x]) vs (gen s size).2 (size + 1) g2 g3
    refine ⟨ws, s', ?_, f2, by simpa using f3⟩
    rw [← f1]
    simp [Nat.add_assoc]

theorem selectLoop_spec (gen : Gen σ) (hg : gen.InRange) (popA popB outB : List α) : ∀ (xs P outA room : List α) (n : Nat) (s : σ), n ≤ xs.length → room.length = n →
    ∃ zs s', selectLoop gen (popA ++ (P ++ xs) ++ popB) (outA ++ room ++ outB) (popA.length + P.length) outA.length n xs.length s =
      some (outA ++ zs ++ outB, outA.length + n, s') ∧ zs.length = n ∧ zs.Sublist xs := by
  intro xs
  induction xs with
  | nil =>
    intro P outA room n s h1 h2
    have : n = 0 := by simpa using h1
    subst this
    rw [List.length_eq_zero_iff] at h2
    subst h2
    exact ⟨[], s, by rw [selectLoop, if_pos rfl]; simp, rfl, .slnil⟩
  | cons x xs ih =>
    intro P outA room n s h1 h2
    rw [selectLoop]
    by_cases hn : n = 0
    · subst hn
      rw [List.length_eq_zero_iff] at h2
      subst h2
      exact ⟨[], s, by simp, rfl, List.nil_sublist _⟩
    · rw [if_neg hn, if_neg (by simp)]
      cases room with
      | nil => simp at h2; omega
      | cons r room =>
        split
        · rw [show popA ++ (P ++ x :: xs) ++ popB = (popA ++ P) ++ x :: (xs ++ popB) by simp, rd_split (by simp)]
          simp only [Option.bind_eq_bind, Option.bind_some]
          rw [show outA ++ (r :: room) ++ outB = outA ++ r :: (room ++ outB) by simp, wr_split rfl]
          simp only [Option.bind_some]
          obtain ⟨zs, s', f1, f2, f3⟩ := ih (P ++ [x]) (outA ++ [x]) room (n - 1) (gen s (xs.length)).2 (by simp at h1; omega) (by simp at h2; omega)
          refine ⟨x :: zs, s', ?_, by simp; omega, f3.cons_cons x⟩
          have e : (outA ++ [x]).length + (n - 1) = outA.length + n := by simp; omega
          rw [e] at f1
          rw [show outA ++ x :: zs ++ outB = outA ++ [x] ++ zs ++ outB by simp, ← f1]
          simp [Nat.add_assoc]
        · rename_i hlt
          have hr := hg s ((x :: xs).length - 1)
          have hn2 : n ≤ xs.length := by simp at hr hlt; omega
          obtain ⟨zs, s', f1, f2, f3⟩ := ih (P ++ [x]) outA (r :: room) n (gen s (xs.length)).2 hn2 h2
          refine ⟨zs, s', ?_, f2, f3.cons x⟩
          rw [← f1]
          simp [Nat.add_assoc]

end Sprout
