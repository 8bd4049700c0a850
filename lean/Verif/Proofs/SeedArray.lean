import Verif.Model.SeedArray
import Verif.Spec.SeedSeq

/-! # Both versions of `generate` perform the transformations of the standard -/

namespace Sprout.SeedArray
open Mt (forLoop)

/-- the array that holds the values of `f` -/
def arr (n : Nat) (f : Nat → Word) : List Word := (List.range n).map f

theorem rd_arr {n i : Nat} (f : Nat → Word) (h : i < n) : rd (arr n f) i = some (f i) := by
  simp [rd, arr, h]

theorem wr_arr {n i : Nat} (f : Nat → Word) (y : Word) (h : i < n) :
    wr (arr n f) i y = some (arr n (Function.update f i y)) := by
  have hl : i < (arr n f).length := by simpa [arr] using h
  rw [wr_eq hl]
  congr 1
  apply List.ext_getElem (by simp [arr])
  intro j h1 h2
  simp only [arr, List.getElem_set, List.getElem_map, List.getElem_range, Function.update_apply]
  by_cases hj : i = j
  · simp [hj]
  · rw [if_neg hj, if_neg (Ne.symm hj)]

theorem arr_congr {n : Nat} {f g : Nat → Word} (h : ∀ i < n, f i = g i) : arr n f = arr n g := by
  apply List.map_congr_left
  intro i hi
  exact h i (List.mem_range.1 hi)

theorem replicate_arr (n : Nat) (a : Word) : List.replicate n a = arr n fun _ => a := by
  simp [arr, List.map_const']

theorem getD_lt {i : Nat} (v : List Word) (h : i < v.length) : v.getD i 0 = v[i] := by
  simp [h]

theorem tp_eq (x : Word) : tp x = SeedSpec.T x := rfl
theorem tval_eq (n : Nat) : tval n = SeedSpec.t n := rfl

theorem ofNat_add_toNat (a : Nat) (w : Word) : BitVec.ofNat 32 (a + w.toNat) = BitVec.ofNat 32 a + w := by
  rw [BitVec.ofNat_add]; simp

theorem body1_arr (v : List Word) {n : Nat} (hn : 0 < n) (f : Nat → Word) (k : Nat) :
    body1 v n v.length (SeedSpec.p n) (SeedSpec.q n) (arr n f) k = some (arr n (SeedSpec.first v n f k)) := by
  have h1 : k % n < n := Nat.mod_lt _ hn
  have h2 : (k + SeedSpec.p n) % n < n := Nat.mod_lt _ hn
  have h3 : (k + SeedSpec.q n) % n < n := Nat.mod_lt _ hn
  have h4 : (k + n - 1) % n < n := Nat.mod_lt _ hn
  have hadd : addend v n v.length k = some (if k = 0 then BitVec.ofNat 32 v.length
    else if k ≤ v.length then BitVec.ofNat 32 (k % n) + v.getD (k - 1) 0 else BitVec.ofNat 32 (k % n)) := by
    unfold addend
    split
    · rfl
    · split
      · rename_i h0 hk
        have : k - 1 < v.length := by omega
        rw [rd_eq this, Option.map_some, ofNat_add_toNat, getD_lt _ this]
      · rfl
  unfold body1 SeedSpec.first
  rw [hadd]
  simp only [Option.bind_eq_bind, rd_arr _ h1, rd_arr _ h2, rd_arr _ h3, rd_arr _ h4, Option.bind_some, wr_arr _ _ h1, wr_arr _ _ h2,
    wr_arr _ _ h3, tp_eq]

theorem body2_arr {n : Nat} (hn : 0 < n) (f : Nat → Word) (k : Nat) :
    body2 n (SeedSpec.p n) (SeedSpec.q n) (arr n f) k = some (arr n (SeedSpec.second n f k)) := by
  have h1 : k % n < n := Nat.mod_lt _ hn
  have h2 : (k + SeedSpec.p n) % n < n := Nat.mod_lt _ hn
  have h3 : (k + SeedSpec.q n) % n < n := Nat.mod_lt _ hn
  have h4 : (k + n - 1) % n < n := Nat.mod_lt _ hn
  unfold body2 SeedSpec.second
  simp only [Option.bind_eq_bind, rd_arr _ h1, rd_arr _ h2, rd_arr _ h3, rd_arr _ h4, Option.bind_some, wr_arr _ _ h1, wr_arr _ _ h2,
    wr_arr _ _ h3, tp_eq]

theorem foldlM_arr {n : Nat} {body : List Word → Nat → Option (List Word)} {g : (Nat → Word) → Nat → Nat → Word}
    (h : ∀ f k, body (arr n f) k = some (arr n (g f k))) (ks : List Nat) (f : Nat → Word) :
    ks.foldlM body (arr n f) = some (arr n (ks.foldl g f)) := by
  induction ks generalizing f with
  | nil => rfl
  | cons k ks ih => simp [List.foldlM_cons, h, ih]

theorem generate_eq (v : List Word) (n : Nat) : generate v n = some (SeedSpec.generate v n) := by
  unfold generate
  split
  · subst_vars; simp [SeedSpec.generate]
  · rename_i h0
    have hn : 0 < n := by omega
    have hp : (n - tval n) / 2 = SeedSpec.p n := rfl
    have hq : SeedSpec.p n + tval n = SeedSpec.q n := rfl
    simp only [hp, hq, Option.bind_eq_bind]
    rw [replicate_arr]
    unfold forLoop
    rw [foldlM_arr (body1_arr v hn), Option.bind_some, foldlM_arr (body2_arr hn)]
    congr 1
    unfold SeedSpec.generate arr SeedSpec.m
    rw [Nat.sub_zero, Nat.add_sub_cancel_left, List.range_eq_range' (n := max _ _)]

theorem mapM_range {N : Nat} {g : Nat → Option Word} {f : Nat → Word} (h : ∀ i < N, g i = some (f i)) :
    (List.range N).mapM g = some (arr N f) := by
  have : ∀ l : List Nat, (∀ i ∈ l, i < N) → l.mapM g = some (l.map f) := by
    intro l hl
    induction l with
    | nil => rfl
    | cons a l ih =>
      rw [List.mapM_cons, h a (hl a (by simp)), ih fun i hi => hl i (by simp [hi])]
      rfl
  exact this _ fun i hi => List.mem_range.1 hi

theorem set1_arr {n kpn kqn kn : Nat} (f : Nat → Word) (r1 d : Word) :
    set1 (arr n f) kpn kqn kn r1 d = some (arr n
      (let x := Function.update f kpn (f kpn + r1)
       let x := Function.update x kqn (x kqn + (r1 + d))
       Function.update x kn (r1 + d))) := by
  unfold set1
  have hl : (arr n f).length = n := by simp [arr]
  rw [hl]
  apply mapM_range
  intro i hi
  rw [rd_arr _ hi]
  simp only [Function.update_apply, Option.map_some]
  by_cases h1 : i = kn
  · simp [h1]
  · by_cases h2 : i = kqn <;> by_cases h3 : i = kpn <;> simp only [if_neg h1, h2, h3, if_true]
    all_goals (try subst h2); (try subst h3); simp_all

theorem set2_arr {n kpn kqn kn : Nat} (f : Nat → Word) (r1 d : Word) :
    set2 (arr n f) kpn kqn kn r1 d = some (arr n
      (let x := Function.update f kpn (f kpn ^^^ r1)
       let x := Function.update x kqn (x kqn ^^^ (r1 - d))
       Function.update x kn (r1 - d))) := by
  unfold set2
  have hl : (arr n f).length = n := by simp [arr]
  rw [hl]
  apply mapM_range
  intro i hi
  rw [rd_arr _ hi]
  simp only [Function.update_apply, Option.map_some]
  by_cases h1 : i = kn
  · simp [h1]
  · by_cases h2 : i = kqn <;> by_cases h3 : i = kpn <;> simp only [if_neg h1, h2, h3, if_true]
    all_goals (try subst h2); (try subst h3); simp_all

theorem gen2_arr {n m : Nat} (hn : 0 < n) : ∀ (d k : Nat), m + n - k = d → ∀ f : Nat → Word,
    gen2 n m (SeedSpec.p n) (SeedSpec.q n) (arr n f) k
      = some (arr n ((List.range' k d).foldl (SeedSpec.second n) f)) := by
  intro d
  induction d with
  | zero =>
    intro k hk f
    rw [gen2, if_neg (by omega)]
    rfl
  | succ d ih =>
    intro k hk f
    have h1 : k % n < n := Nat.mod_lt _ hn
    have h2 : (k + SeedSpec.p n) % n < n := Nat.mod_lt _ hn
    have h4 : (k + n - 1) % n < n := Nat.mod_lt _ hn
    rw [gen2, if_pos (by omega)]
    simp only [Option.bind_eq_bind, rd_arr _ h1, rd_arr _ h2, rd_arr _ h4, Option.bind_some, set2_arr, tp_eq]
    rw [ih (k + 1) (by omega), List.range'_succ, List.foldl_cons]
    rfl

theorem pred_mod {n k : Nat} (hk : 0 < k) (hn : 0 < n) : (k - 1) % n = (k + n - 1) % n := by
  rw [show k + n - 1 = k - 1 + n by omega, Nat.add_mod_right]

theorem gen1_2_arr (v : List Word) {n m : Nat} (hn : 0 < n) : ∀ (d k : Nat), m - k = d → v.length < k → ∀ f : Nat → Word,
    gen1_2 n m (SeedSpec.p n) (SeedSpec.q n) (arr n f) k
      = some (arr n ((List.range' k d).foldl (SeedSpec.first v n) f)) := by
  intro d
  induction d with
  | zero =>
    intro k hk _ f
    rw [gen1_2, if_neg (by omega)]
    rfl
  | succ d ih =>
    intro k hk hv f
    have h1 : k % n < n := Nat.mod_lt _ hn
    have h2 : (k + SeedSpec.p n) % n < n := Nat.mod_lt _ hn
    have h4 : (k + n - 1) % n < n := Nat.mod_lt _ hn
    rw [gen1_2, if_pos (by omega), pred_mod (by omega) hn]
    simp only [Option.bind_eq_bind, rd_arr _ h1, rd_arr _ h2, rd_arr _ h4, Option.bind_some, set1_arr, tp_eq]
    rw [ih (k + 1) (by omega) (by omega), List.range'_succ, List.foldl_cons]
    have e : SeedSpec.first v n f k = _ := rfl
    rw [e]
    unfold SeedSpec.first
    rw [if_neg (show ¬ k = 0 by omega), if_neg (show ¬ k ≤ v.length by omega)]

theorem gen1_1_arr (v : List Word) {n : Nat} (hn : 0 < n) : ∀ (d k : Nat), v.length + 1 - k = d → 0 < k → ∀ f : Nat → Word,
    gen1_1 v n v.length (SeedSpec.p n) (SeedSpec.q n) (arr n f) k
      = some (arr n ((List.range' k d).foldl (SeedSpec.first v n) f)) := by
  intro d
  induction d with
  | zero =>
    intro k hk _ f
    rw [gen1_1, if_neg (by omega)]
    rfl
  | succ d ih =>
    intro k hk hv f
    have h1 : k % n < n := Nat.mod_lt _ hn
    have h2 : (k + SeedSpec.p n) % n < n := Nat.mod_lt _ hn
    have h4 : (k + n - 1) % n < n := Nat.mod_lt _ hn
    have h5 : k - 1 < v.length := by omega
    rw [gen1_1, if_pos (by omega), pred_mod (by omega) hn]
    simp only [Option.bind_eq_bind, rd_arr _ h1, rd_arr _ h2, rd_arr _ h4, rd_eq h5, Option.bind_some, set1_arr, tp_eq]
    rw [ih (k + 1) (by omega) (by omega), List.range'_succ, List.foldl_cons]
    have e : SeedSpec.first v n f k = _ := rfl
    rw [e]
    unfold SeedSpec.first
    rw [if_neg (show ¬ k = 0 by omega), if_pos (show k ≤ v.length by omega), getD_lt _ h5, ofNat_add_toNat]

theorem t_lt {n : Nat} (hn : 0 < n) : SeedSpec.t n < n := by
  unfold SeedSpec.t
  split_ifs <;> omega

theorem gen1_0_arr (v : List Word) {n : Nat} (hn : 0 < n) (f : Nat → Word) :
    gen1_0 n v.length (SeedSpec.p n) (SeedSpec.q n) (arr n f) = some (arr n (SeedSpec.first v n f 0)) := by
  have ht := t_lt hn
  have hp : SeedSpec.p n < n := by unfold SeedSpec.p; omega
  have hq : SeedSpec.q n < n := by unfold SeedSpec.q SeedSpec.p; omega
  have h4 : n - 1 < n := by omega
  unfold gen1_0
  simp only [Option.bind_eq_bind, rd_arr _ hn, rd_arr _ hp, rd_arr _ h4, Option.bind_some, set1_arr, tp_eq]
  unfold SeedSpec.first
  simp only [Nat.zero_add, Nat.zero_mod, Nat.mod_eq_of_lt hp, Nat.mod_eq_of_lt hq, Nat.mod_eq_of_lt h4, if_true]

theorem generateConst_eq (v : List Word) (n : Nat) : generateConst v n = some (SeedSpec.generate v n) := by
  unfold generateConst
  split
  · subst_vars; simp [SeedSpec.generate]
  · rename_i h0
    have hn : 0 < n := by omega
    have hp : (n - tval n) / 2 = SeedSpec.p n := rfl
    have hq : SeedSpec.p n + tval n = SeedSpec.q n := rfl
    simp only [hp, hq, Option.bind_eq_bind]
    rw [replicate_arr, gen1_0_arr v hn, Option.bind_some, gen1_1_arr v hn v.length 1 (by omega) (by omega), Option.bind_some,
      gen1_2_arr v hn (max (v.length + 1) n - (v.length + 1)) (v.length + 1) rfl (by omega), Option.bind_some,
      gen2_arr hn n _ (by omega)]
    congr 1
    unfold SeedSpec.generate
    have e : List.range (SeedSpec.m v.length n)
        = 0 :: (List.range' 1 v.length ++ List.range' (v.length + 1) (max (v.length + 1) n - (v.length + 1))) := by
      have : SeedSpec.m v.length n = (v.length + (max (v.length + 1) n - (v.length + 1))) + 1 := by
        unfold SeedSpec.m; omega
      rw [this, List.range_eq_range', List.range'_succ]
      congr 1
      rw [show v.length + 1 = 1 + 1 * v.length by omega, List.range'_append]
    rw [e, List.foldl_cons, List.foldl_append]
    rfl

end Sprout.SeedArray
