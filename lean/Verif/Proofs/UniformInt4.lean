import Verif.Proofs.UniformInt3

/-! # `uniform_int_distribution`: every result is reached, and the procedure can always go on -/

namespace Sprout.UInt
open Finset Spec

theorem Below.append {B : Nat} {l m : List Nat} (h1 : Below B l) (h2 : Below B m) : Below B (l ++ m) := by
  intro d hd
  rcases List.mem_append.1 hd with h | h
  · exact h1 d h
  · exact h2 d h

theorem below_nil (B : Nat) : Below B [] := fun _ h => absurd h (by simp)

theorem below_single {B d : Nat} (h : d ≤ B) : Below B [d] := fun x hx => by simp at hx; omega

theorem pickR_append {q S : Nat} : ∀ {l l' : List Nat} {z : Nat} (r : List Nat), pickR q S l = some (z, l') → pickR q S (l ++ r) = some (z, l' ++ r) := by
  intro l
  induction l with
  | nil => intro l' z r h; simp [pickR] at h
  | cons d l ih =>
    intro l' z r h
    simp only [pickR, List.cons_append] at h ⊢
    split at h
    · rename_i hc; rw [if_pos hc]; cases h; rfl
    · rename_i hc; rw [if_neg hc]; exact ih r h

theorem oneR_append {l l' : List Nat} {z : Nat} (r : List Nat) (h : oneR l = some (z, l')) : oneR (l ++ r) = some (z, l' ++ r) := by
  cases l with
  | nil => simp [oneR] at h
  | cons d l => simp only [oneR] at h; cases h; rfl

theorem smallR_append {twice : Bool} {B S : Nat} {l l' : List Nat} {z : Nat} (r : List Nat) (h : smallR twice B S l = some (z, l')) :
    smallR twice B S (l ++ r) = some (z, l' ++ r) := by
  unfold smallR at h ⊢
  split at h
  · rename_i hc; rw [if_pos hc]; cases h; rfl
  · rename_i hc
    rw [if_neg hc]
    split at h
    · rename_i hB
      rw [if_pos hB]
      split at h
      · rename_i ht
        rw [if_pos ht]
        obtain ⟨⟨y, l2⟩, h1, h2⟩ := Option.bind_eq_some_iff.1 h
        rw [oneR_append r h1, Option.bind_some]
        exact oneR_append r h2
      · rename_i ht; rw [if_neg ht]; exact oneR_append r h
    · rename_i hB; rw [if_neg hB]; exact pickR_append r h

theorem digitsR_append {B : Nat} : ∀ {k : Nat} {l l' : List Nat} {z : Nat} (r : List Nat), digitsR B k l = some (z, l') →
    digitsR B k (l ++ r) = some (z, l' ++ r) := by
  intro k
  induction k with
  | zero => intro l l' z r h; simp only [digitsR] at h ⊢; cases h; rfl
  | succ k ih =>
    intro l l' z r h
    cases l with
    | nil => simp [digitsR] at h
    | cons d l =>
      simp only [digitsR, List.cons_append] at h ⊢
      obtain ⟨⟨y, l2⟩, h1, h2⟩ := Option.map_eq_some_iff.1 h
      rw [ih r h1]
      cases h2
      rfl

/-- every result is reached -/
theorem smallR_reach (twice : Bool) {B S : Nat} (h : S ≤ B) {x : Nat} (hx : x ≤ S) : ∃ l, Below B l ∧ smallR twice B S l = some (x, []) := by
  unfold smallR
  by_cases h0 : S = 0
  · exact ⟨[], below_nil B, by rw [if_pos h0]; simp; omega⟩
  · simp only [if_neg h0]
    by_cases hB : B = S
    · simp only [if_pos hB]
      cases twice with
      | false => exact ⟨[x], below_single (by omega), rfl⟩
      | true => exact ⟨[0, x], fun d hd => by simp at hd; omega, rfl⟩
    · simp only [if_neg hB]
      have hq : 0 < (B + 1) / (S + 1) := Nat.div_pos (by omega) (by omega)
      have hle : (B + 1) / (S + 1) * (S + 1) ≤ B + 1 := Nat.div_mul_le_self _ _
      refine ⟨[x * ((B + 1) / (S + 1))], below_single ?_, ?_⟩
      · have : (B + 1) / (S + 1) * (x + 1) ≤ (B + 1) / (S + 1) * (S + 1) := Nat.mul_le_mul_left _ (by omega)
        rw [Nat.mul_add, Nat.mul_comm _ x] at this
        omega
      · simp only [pickR, Nat.mul_div_cancel _ hq, if_pos hx]

theorem digitsR_reach {B : Nat} : ∀ (k : Nat) {z : Nat}, z < (B + 1) ^ k → ∃ l, Below B l ∧ digitsR B k l = some (z, []) := by
  intro k
  induction k with
  | zero => intro z hz; exact ⟨[], below_nil B, by simp at hz; subst hz; rfl⟩
  | succ k ih =>
    intro z hz
    rw [Nat.pow_succ] at hz
    obtain ⟨l, h1, h2⟩ := ih (z := z / (B + 1)) (by rwa [Nat.div_lt_iff_lt_mul (by omega)])
    refine ⟨z % (B + 1) :: l, ?_, ?_⟩
    · intro d hd
      rcases List.mem_cons.1 hd with rfl | hd
      · have := Nat.mod_lt z (show 0 < B + 1 by omega); omega
      · exact h1 d hd
    · simp only [digitsR, h2, Option.map_some, Nat.mod_add_div]

theorem loopR_reach (twice : Bool) {B R k : Nat} (hk2 : R + 1 < (B + 1) ^ (k + 1)) {x : Nat} (hx : x ≤ R) :
    ∃ l, Below B l ∧ loopR twice B R k l = some (x, []) := by
  have hMpos : 0 < (B + 1) ^ k := Nat.pow_pos (by omega)
  have hS : R / (B + 1) ^ k ≤ B := by
    have : R / (B + 1) ^ k < B + 1 := by
      rw [Nat.div_lt_iff_lt_mul hMpos, Nat.mul_comm, ← Nat.pow_succ]
      exact Nat.lt_of_succ_lt hk2
    omega
  by_cases hc : (B + 1) ^ k = R + 1
  · obtain ⟨l, h1, h2⟩ := digitsR_reach (B := B) k (z := x) (by omega)
    exact ⟨l, h1, by rw [loopR, h2]; simp [hc]⟩
  · obtain ⟨l, h1, h2⟩ := digitsR_reach (B := B) k (z := x % (B + 1) ^ k) (Nat.mod_lt _ hMpos)
    obtain ⟨l2, h3, h4⟩ := smallR_reach twice hS (x := x / (B + 1) ^ k) (Nat.div_le_div_right hx)
    refine ⟨l ++ l2, h1.append h3, ?_⟩
    rw [loopR, digitsR_append l2 h2]
    simp only [Option.bind_eq_bind, Option.bind_some, if_neg hc, List.nil_append, h4]
    rw [Nat.mod_add_div', if_pos hx]

/-- a list that is too short can be continued until there is a result -/
theorem pickR_more {B S q : Nat} : ∀ {l : List Nat}, pickR q S l = none → ∃ l', Below B l' ∧ ∃ z, pickR q S (l ++ l') = some (z, []) := by
  intro l
  induction l with
  | nil => intro _; exact ⟨[0], below_single (by omega), 0, by simp [pickR]⟩
  | cons d l ih =>
    intro h
    simp only [pickR, List.cons_append] at h ⊢
    split at h
    · cases h
    · rename_i hc
      simp only [if_neg hc]
      exact ih h

theorem smallR_more {twice : Bool} {B S : Nat} {l : List Nat} (h : smallR twice B S l = none) :
    ∃ l', Below B l' ∧ ∃ z, smallR twice B S (l ++ l') = some (z, []) := by
  unfold smallR at h ⊢
  split at h
  · cases h
  · rename_i hc
    simp only [if_neg hc]
    split at h
    · rename_i hB
      simp only [if_pos hB]
      split at h
      · rename_i ht
        simp only [if_pos ht]
        rcases l with - | ⟨d, - | ⟨e, l⟩⟩
        · exact ⟨[0, 0], fun d hd => by simp at hd; omega, 0, rfl⟩
        · exact ⟨[0], below_single (by omega), 0, rfl⟩
        · simp [oneR] at h
      · rename_i ht
        simp only [if_neg ht]
        rcases l with - | ⟨d, l⟩
        · exact ⟨[0], below_single (by omega), 0, rfl⟩
        · simp [oneR] at h
    · rename_i hB
      simp only [if_neg hB]
      exact pickR_more h

theorem digitsR_more {B : Nat} : ∀ {k : Nat} {l : List Nat}, digitsR B k l = none → ∃ l', Below B l' ∧ ∃ z, digitsR B k (l ++ l') = some (z, []) := by
  intro k
  induction k with
  | zero => intro l h; simp [digitsR] at h
  | succ k ih =>
    intro l h
    cases l with
    | nil =>
      obtain ⟨l', h1, h2⟩ := digitsR_reach (B := B) (k + 1) (z := 0) (Nat.pow_pos (by omega))
      exact ⟨l', h1, 0, h2⟩
    | cons d l =>
      simp only [digitsR, Option.map_eq_none_iff] at h
      obtain ⟨l', h1, z, h2⟩ := ih h
      exact ⟨l', h1, d + (B + 1) * z, by simp only [List.cons_append, digitsR, h2, Option.map_some]⟩

theorem loopR_more (twice : Bool) {B R k : Nat} (hk0 : 0 < k) (hk2 : R + 1 < (B + 1) ^ (k + 1)) : ∀ (n : Nat) (l : List Nat), l.length = n → Below B l →
    loopR twice B R k l = none → ∃ l', Below B l' ∧ ∃ z, loopR twice B R k (l ++ l') = some (z, []) := by
  have hMpos : 0 < (B + 1) ^ k := Nat.pow_pos (by omega)
  have hS : R / (B + 1) ^ k ≤ B := by
    have : R / (B + 1) ^ k < B + 1 := by
      rw [Nat.div_lt_iff_lt_mul hMpos, Nat.mul_comm, ← Nat.pow_succ]
      exact Nat.lt_of_succ_lt hk2
    omega
  -- when the list is used up in the middle of a round, go on with a new round that succeeds
  have fin : ∀ l z, digitsR B k l = some (z, []) → ∃ l', Below B l' ∧ ∃ z, loopR twice B R k (l ++ l') = some (z, []) := by
    intro l z h
    obtain ⟨l2, h3, h4⟩ := smallR_reach twice hS (x := 0) (Nat.zero_le _)
    by_cases hc : (B + 1) ^ k = R + 1
    · exact ⟨[], below_nil B, z, by rw [List.append_nil, loopR, h]; simp [hc]⟩
    · by_cases hz : z ≤ R
      · refine ⟨l2, h3, z, ?_⟩
        rw [loopR, digitsR_append l2 h]
        simp only [Option.bind_eq_bind, Option.bind_some, if_neg hc, List.nil_append, h4, Nat.zero_mul, Nat.add_zero, if_pos hz]
      · obtain ⟨l3, h5, h6⟩ := loopR_reach twice hk2 (x := 0) (Nat.zero_le R)
        refine ⟨l2 ++ l3, h3.append h5, 0, ?_⟩
        rw [loopR, digitsR_append _ h]
        simp only [Option.bind_eq_bind, Option.bind_some, if_neg hc, List.nil_append, smallR_append l3 h4, Nat.zero_mul, Nat.add_zero, if_neg hz, h6]
  intro n
  induction n using Nat.strongRecOn with
  | ind n ih =>
    intro l hn hl h
    cases hd : digitsR B k l with
    | none =>
      obtain ⟨l1, a1, z, a2⟩ := digitsR_more hd
      obtain ⟨l2, b1, y, b2⟩ := fin _ z a2
      exact ⟨l1 ++ l2, a1.append b1, y, by rw [← List.append_assoc]; exact b2⟩
    | some p =>
      obtain ⟨z, l1⟩ := p
      obtain ⟨d1, d2, -⟩ := digitsR_props hl hd
      rw [loopR, hd] at h
      simp only [Option.bind_eq_bind, Option.bind_some] at h
      by_cases hc : (B + 1) ^ k = R + 1
      · rw [if_pos hc] at h; cases h
      · rw [if_neg hc] at h
        cases hs : smallR twice B (R / (B + 1) ^ k) l1 with
        | none =>
          obtain ⟨l2, a1, i, a2⟩ := smallR_more (B := B) hs
          by_cases hle : z + i * (B + 1) ^ k ≤ R
          · refine ⟨l2, a1, z + i * (B + 1) ^ k, ?_⟩
            rw [loopR, digitsR_append _ hd]
            simp only [Option.bind_eq_bind, Option.bind_some, if_neg hc, a2, if_pos hle]
          · obtain ⟨l3, h5, h6⟩ := loopR_reach twice hk2 (x := 0) (Nat.zero_le R)
            refine ⟨l2 ++ l3, a1.append h5, 0, ?_⟩
            rw [loopR, digitsR_append _ hd]
            simp only [Option.bind_eq_bind, Option.bind_some, if_neg hc]
            rw [← List.append_assoc, smallR_append l3 a2]
            simp only [Option.bind_some, if_neg hle, List.nil_append, h6]
        | some p =>
          obtain ⟨i, l2⟩ := p
          obtain ⟨s1, s2, s3⟩ := smallR_props d2 hs
          rw [hs] at h
          simp only [Option.bind_some] at h
          by_cases hle : z + i * (B + 1) ^ k ≤ R
          · rw [if_pos hle] at h; cases h
          · rw [if_neg hle] at h
            obtain ⟨l3, a1, x, a2⟩ := ih l2.length (by omega) l2 rfl s2 h
            refine ⟨l3, a1, x, ?_⟩
            rw [loopR, digitsR_append _ hd]
            simp only [Option.bind_eq_bind, Option.bind_some, if_neg hc, smallR_append l3 hs, if_neg hle, a2]

end Sprout.UInt
