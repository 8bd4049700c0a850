import Verif.Proofs.FixedShuffle
import Mathlib.Data.List.Permutation
import Mathlib.Data.Fintype.BigOperators
import Mathlib.Data.Fintype.Pi
import Mathlib.SetTheory.Cardinal.Finite

/-! # Shuffling: reached arrangements and their numbers -/

namespace Sprout.FixedAlg

open ContOp

variable {α β σ : Type}

theorem swapAt_right (A B : List α) (i j : ℕ) : swapAt (A ++ B) (A.length + i) (A.length + j) = A ++ swapAt B i j := by
  rw [swapAt, swapAt, List.getElem?_append_right (by omega), List.getElem?_append_right (by omega), Nat.add_sub_cancel_left,
    Nat.add_sub_cancel_left]
  cases B[i]? <;> cases B[j]? <;> simp

theorem swapAt_head {x : α} {xs : List α} {i : ℕ} (hi : i < (x :: xs).length) :
    ∃ ws, swapAt (x :: xs) 0 i = (x :: xs)[i] :: ws ∧ ((x :: xs)[i] :: ws).Perm (x :: xs) := by
  have hp := swapAt_perm (x :: xs) 0 i
  cases hw : swapAt (x :: xs) 0 i with
  | nil => rw [hw] at hp; simp at hp
  | cons y ws =>
    have e : y = (x :: xs)[i] := by
      rw [swapAt_eq (by simp) hi] at hw
      have h0 := congrArg (·[0]?) hw
      simp only [List.getElem?_cons_zero] at h0
      rw [swap_get (by simp) hi] at h0
      by_cases hz : 0 = i
      · subst hz
        simp at h0
        simp [h0]
      · rw [if_neg hz, if_pos rfl, List.getElem?_eq_getElem hi] at h0
        exact (Option.some.inj h0).symm
    subst e
    exact ⟨ws, rfl, hw ▸ hp⟩

theorem swapsFrom_reach : ∀ (ys xs pre : List α), ys.Perm xs → ∃ ds : List ℕ, ds.length = xs.length ∧
    (∀ d ∈ ds, d < pre.length + xs.length) ∧ swapsFrom (pre ++ xs) pre.length ds = pre ++ ys
  | [], xs, pre, h => ⟨[], by simp [h.symm.eq_nil], by simp, by rw [h.symm.eq_nil]; rfl⟩
  | y :: ys, [], pre, h => by simp at h
  | y :: ys, x :: xs, pre, h => by
    obtain ⟨i, hi, hy⟩ := List.getElem_of_mem (h.mem_iff.1 (List.mem_cons_self (a := y) (l := ys)))
    obtain ⟨ws, h1, h2⟩ := swapAt_head hi
    rw [hy] at h1 h2
    have hl := h2.length_eq
    simp only [List.length_cons] at hl
    obtain ⟨ds, d1, d2, d3⟩ := swapsFrom_reach ys ws (pre ++ [y]) (h.trans h2.symm).cons_inv
    simp only [List.length_append, List.length_cons, List.length_nil] at d2 d3
    refine ⟨(pre.length + i) :: ds, by simp [d1]; omega, ?_, ?_⟩
    · intro d hd
      rw [List.mem_cons] at hd
      simp only [List.length_cons] at hi ⊢
      rcases hd with rfl | hd
      · omega
      · have := d2 d hd
        omega
    · have e := swapAt_right pre (x :: xs) 0 i
      rw [Nat.add_zero] at e
      rw [swapsFrom, e, h1, show pre ++ y :: ws = pre ++ [y] ++ ws by simp, d3]
      simp

theorem drawn_replay {d : ℕ} : ∀ (ds : List ℕ), (∀ x ∈ ds, x ≤ d) → drawn replay d ds.length ds = ds
  | [], _ => rfl
  | x :: ds, h => by
    have hx := h x (by simp)
    rw [List.length_cons, drawn]
    simp only [replay, List.headD_cons, List.tail_cons]
    rw [drawn_replay ds fun y hy => h y (by simp [hy]), Nat.min_eq_left hx]

/-- `n!` does not divide `n ^ n` -/
theorem not_dvd_pow {n : ℕ} (hn : 3 ≤ n) : ¬n.factorial ∣ n ^ n := by
  intro h
  have h1 : n - 1 ∣ n.factorial := Nat.dvd_factorial (by omega) (by omega)
  have h2 : Nat.Coprime (n - 1) n := by
    have := Nat.coprime_self_add_right (m := n - 1) (n := 1)
    rw [show n - 1 + 1 = n by omega] at this
    exact this.2 (Nat.coprime_one_right _)
  have h3 := Nat.Coprime.eq_one_of_dvd (h2.pow_right n) (h1.trans h)
  omega

theorem swapsFrom_biased {v : List α} {n : ℕ} (hn : 3 ≤ n) (hl : v.length = n) (hv : v.Nodup) :
    ∃ w w', w.Perm v ∧ w'.Perm v ∧
      Nat.card {ds : Fin n → Fin n // swapsFrom v 0 (List.ofFn fun i => (ds i).val) = w} ≠
      Nat.card {ds : Fin n → Fin n // swapsFrom v 0 (List.ofFn fun i => (ds i).val) = w'} := by
  classical
  by_contra hc
  push Not at hc
  have hf := Finset.card_eq_sum_card_fiberwise (s := (Finset.univ : Finset (Fin n → Fin n)))
    (f := fun ds => swapsFrom v 0 (List.ofFn fun i => (ds i).val)) (t := v.permutations.toFinset) (fun ds _ => by
      simpa using swapsFrom_perm _ _ _)
  have hk : ∀ w ∈ v.permutations.toFinset, (Finset.univ.filter fun ds : Fin n → Fin n => swapsFrom v 0 (List.ofFn fun i => (ds i).val) = w).card =
      Nat.card {ds : Fin n → Fin n // swapsFrom v 0 (List.ofFn fun i => (ds i).val) = v} := by
    intro w hw
    rw [← hc w v (by simpa using hw) (.refl _), Nat.card_eq_fintype_card, Fintype.card_subtype]
  rw [Finset.sum_const_nat hk, List.toFinset_card_of_nodup (List.nodup_permutations v hv), List.length_permutations, hl] at hf
  simp only [Finset.card_univ, Fintype.card_fun, Fintype.card_fin] at hf
  exact not_dvd_pow hn ⟨_, hf⟩

/-! ## the loop in place -/

theorem shuffleLoop_unique (post : List α) : ∀ (n : ℕ) (pre xs m : List α) (ds ds' : List ℕ) (s s' : List ℕ), xs.length = n + 1 → xs.Nodup →
    ds.length = n → (∀ (i : ℕ) (h : i < ds.length), ds[i] + i ≤ n) → ds'.length = n → (∀ (i : ℕ) (h : i < ds'.length), ds'[i] + i ≤ n) →
    shuffleLoop replay (pre ++ xs ++ post) pre.length (pre.length + n) n ds = some (m, s) →
    shuffleLoop replay (pre ++ xs ++ post) pre.length (pre.length + n) n ds' = some (m, s') → ds = ds' := by
  intro n
  induction n with
  | zero =>
    intro pre xs m ds ds' s s' _ _ h1 _ h2 _ _ _
    rw [List.length_eq_zero_iff.1 h1, List.length_eq_zero_iff.1 h2]
  | succ n ih =>
    intro pre xs m ds ds' s s' hl hd h1 h2 h3 h4 h5 h6
    match xs, ds, ds', hl, h1, h3 with
    | x :: xs, d :: ds, d' :: ds', hl, h1, h3 =>
      simp only [List.length_cons, Nat.add_right_cancel_iff] at hl h1 h3
      have b := h2 0 (by simp)
      have b' := h4 0 (by simp)
      simp only [List.getElem_cons_zero, Nat.add_zero] at b b'
      have key : ∀ (d : ℕ) (ds : List ℕ) (s : List ℕ), d ≤ n + 1 →
          shuffleLoop replay (pre ++ (x :: xs) ++ post) pre.length (pre.length + (n + 1)) (n + 1) (d :: ds) = some (m, s) →
          ∃ y ws, shuffleSwap (pre ++ (x :: xs) ++ post) pre.length d = some (pre ++ (y :: ws) ++ post) ∧ (y :: ws).Perm (x :: xs) ∧
            (x :: xs)[d]? = some y ∧ m[pre.length]? = some y ∧
            shuffleLoop replay (pre ++ [y] ++ ws ++ post) (pre ++ [y]).length ((pre ++ [y]).length + n) n ds = some (m, s) := by
        intro d ds s hd hr
        obtain ⟨y, ws, g1, g2, g3⟩ := shuffleSwap_spec pre x xs post d (by omega)
        rw [shuffleLoop, if_pos (by omega)] at hr
        have er : replay (d :: ds) (n + 1) = (d, ds) := by
          simp only [replay, List.headD_cons, List.tail_cons]
          rw [Nat.min_eq_left hd]
        rw [er, g1] at hr
        simp only [Option.bind_eq_bind, Option.bind_some, Nat.add_sub_cancel] at hr
        have hw := g2.length_eq
        simp only [List.length_cons] at hw
        rw [show pre ++ y :: ws ++ post = pre ++ [y] ++ ws ++ post by simp, show pre.length + 1 = (pre ++ [y]).length by simp,
          show pre.length + (n + 1) = (pre ++ [y]).length + n by simp; omega] at hr
        refine ⟨y, ws, g1, g2, g3, ?_, hr⟩
        obtain ⟨zs, s'', q1, -⟩ := shuffleLoop_spec replay replay_inRange post n (pre ++ [y]) ws ds (by omega)
        rw [q1] at hr
        cases hr
        simp
      obtain ⟨y, ws, a1, a2, a3, a4, a5⟩ := key d ds s b h5
      obtain ⟨y', ws', c1, c2, c3, c4, c5⟩ := key d' ds' s' b' h6
      rw [a4] at c4
      cases c4
      have e : d = d' := by
        have hx : d < (x :: xs).length := by simp; omega
        have hx' : d' < (x :: xs).length := by simp; omega
        rw [List.getElem?_eq_getElem hx] at a3
        rw [List.getElem?_eq_getElem hx', ← a3] at c3
        exact ((List.Nodup.getElem_inj_iff hd).1 (Option.some.inj c3)).symm
      subst e
      rw [a1] at c1
      have ew : ws = ws' := by simpa using c1
      subst ew
      have hw := a2.length_eq
      simp only [List.length_cons] at hw
      rw [ih (pre ++ [y]) ws m ds ds' s s' (by omega) (a2.nodup_iff.2 hd).of_cons h1 (fun i hi => by
        have := h2 (i + 1) (by simp; omega)
        simp only [List.getElem_cons_succ] at this
        omega) h3 (fun i hi => by
        have := h4 (i + 1) (by simp; omega)
        simp only [List.getElem_cons_succ] at this
        omega) a5 c5]

/-- the draws of the loop can be chosen within bounds -/
theorem shuffleLoop_reach' (post : List α) : ∀ (n : ℕ) (pre xs ys : List α), xs.length = n + 1 → ys.Perm xs →
    ∃ ds : List ℕ, ds.length = n ∧ (∀ (i : ℕ) (h : i < ds.length), ds[i] + i ≤ n) ∧
      ∃ s', shuffleLoop replay (pre ++ xs ++ post) pre.length (pre.length + n) n ds = some (pre ++ ys ++ post, s') := by
  intro n
  induction n with
  | zero =>
    intro pre xs ys hl hp
    match xs, hl with
    | [x], _ =>
      rw [List.perm_singleton.mp hp]
      exact ⟨[], rfl, by simp, [], by rw [shuffleLoop, if_neg (by simp)]⟩
  | succ n ih =>
    intro pre xs ys hl hp
    match xs, ys, hl, hp with
    | x :: xs, [], hl, hp => simp at hp
    | x :: xs, y :: ys, hl, hp =>
      simp only [List.length_cons, Nat.add_right_cancel_iff] at hl
      obtain ⟨i, hi, hiy⟩ := List.getElem_of_mem (hp.mem_iff.mp (List.mem_cons_self (a := y) (l := ys)))
      have hi' : i ≤ xs.length := by simp at hi; omega
      obtain ⟨y', ws, h1, h2, h3⟩ := shuffleSwap_spec pre x xs post i hi'
      rw [List.getElem?_eq_getElem hi, hiy] at h3
      cases h3
      have hw := h2.length_eq
      simp only [List.length_cons] at hw
      obtain ⟨ds, g1, g2, s', g3⟩ := ih (pre ++ [y]) ws ys (by omega) ((hp.trans h2.symm).cons_inv)
      refine ⟨i :: ds, by simp [g1], ?_, s', ?_⟩
      · intro j hj
        cases j with
        | zero => simp; omega
        | succ j =>
          simp only [List.length_cons] at hj
          have := g2 j (by omega)
          simp only [List.getElem_cons_succ]
          omega
      · rw [shuffleLoop, if_pos (by omega)]
        have : replay (i :: ds) (n + 1) = (i, ds) := by
          simp only [replay, List.headD_cons, List.tail_cons]
          rw [Nat.min_eq_left (by omega)]
        rw [this, h1]
        simp only [Option.bind_eq_bind, Option.bind_some, Nat.add_sub_cancel]
        rw [show pre ++ y :: ws ++ post = pre ++ [y] ++ ws ++ post by simp, show pre.length + 1 = (pre ++ [y]).length by simp,
          show pre.length + (n + 1) = (pre ++ [y]).length + n by simp; omega, g3]
        simp

end Sprout.FixedAlg
