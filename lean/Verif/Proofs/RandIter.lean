import Verif.Model.RandIter
import Verif.Spec.Draws
import Mathlib.Tactic.SplitIfs

/-! # Values that are drawn through iterators, results and arrays -/

namespace Sprout.RandIter
open Mt (forLoop)
open DrawSpec (take)

variable {γ ρ ε δ : Type}

theorem RR.swap_eq (a b : RR γ ρ) : a.swap b = (b, a) := rfl

theorem GI.incr_eq (call : γ → Option (ρ × γ)) (x : ρ) (g : γ) {i : Int} (h : ptrdiffMin < i) :
    GI.incr call ⟨⟨x, g⟩, i⟩ = (call g).map fun r => ⟨⟨r.1, r.2⟩, i - 1⟩ := by
  unfold GI.incr GI.next
  rcases call g with _ | r
  · rfl
  · simp only [Option.bind_eq_bind, Option.bind_some, Option.map_some]
    rw [if_neg (by omega)]
    rfl

theorem take_succ (call : γ → Option (ρ × γ)) (n : Nat) (g : γ) :
    take call (n + 1) g = (call g).bind fun r => (take call n r.2).map fun p => (r.1 :: p.1, p.2) := by
  rw [take]
  rcases call g with _ | ⟨x, g'⟩
  · rfl
  · simp only [Option.bind_some]
    rcases take call n g' with _ | ⟨xs, g''⟩ <;> rfl

theorem take_length (call : γ → Option (ρ × γ)) (n : Nat) {g g' : γ} {xs : List ρ} (h : take call n g = some (xs, g')) :
    xs.length = n := by
  induction n generalizing g xs with
  | zero => simp only [take] at h; cases h; rfl
  | succ n ih =>
    rw [take_succ, Option.bind_eq_some_iff] at h
    obtain ⟨r, -, h⟩ := h
    rw [Option.map_eq_some_iff] at h
    obtain ⟨p, h1, h2⟩ := h
    cases h2
    simp [ih h1]

theorem take_snoc (call : γ → Option (ρ × γ)) (n : Nat) (g : γ) :
    take call (n + 1) g = (take call n g).bind fun p => (call p.2).map fun r => (p.1 ++ [r.1], r.2) := by
  induction n generalizing g with
  | zero =>
    rw [take_succ]
    simp only [take, Option.bind_some, Option.map_some, List.nil_append]
    rcases call g with _ | r <;> rfl
  | succ n ih =>
    rw [take_succ, take_succ]
    rcases call g with _ | r
    · rfl
    · simp only [Option.bind_some]
      rw [ih]
      rcases take call n r.2 with _ | p
      · rfl
      · simp only [Option.bind_some, Option.map_some]
        rcases call p.2 with _ | q <;> rfl

theorem traverse_eq (call : γ → Option (ρ × γ)) (r0 : RR γ ρ) (n : Nat) (x : ρ) (g : γ) :
    (traverse call ⟨⟨x, g⟩, n⟩ (endIt r0)).map Prod.fst = (take call n g).map fun p => (x :: p.1).take n := by
  induction n generalizing x g with
  | zero =>
    rw [traverse.eq_def, if_pos (by simp [GI.eq, endIt])]
    rfl
  | succ n ih =>
    rw [traverse.eq_def, if_neg (by simp [GI.eq, endIt]; omega), GI.incr_eq call x g (by unfold ptrdiffMin; omega), take_succ]
    rcases call g with _ | r
    · rfl
    · simp only [Option.bind_eq_bind, Option.map_some, Option.bind_some]
      have := ih r.1 r.2
      rw [show ((n + 1 : Nat) : Int) - 1 = n by omega]
      rcases h1 : traverse call ⟨⟨r.1, r.2⟩, (n : Int)⟩ (endIt r0) with _ | t
      · rw [h1] at this
        rcases h2 : take call n r.2 with _ | p
        · rfl
        · rw [h2] at this; exact absurd this (by simp)
      · rw [h1] at this
        rcases h2 : take call n r.2 with _ | p
        · rw [h2] at this; exact absurd this (by simp)
        · rw [h2] at this
          simp only [Option.map_some, Option.some.injEq] at this
          simp [GI.deref, this]

/-- `k` increments -/
def advance (call : γ → Option (ρ × γ)) : Nat → GI γ ρ → Option (GI γ ρ)
  | 0, it => some it
  | k + 1, it => (advance call k it).bind (GI.incr call)

theorem advance_eq (call : γ → Option (ρ × γ)) (k : Nat) {g : γ} {r : ρ × γ} {i : Int} (h0 : call g = some r) (hi : ptrdiffMin + k ≤ i) :
    advance call k ⟨⟨r.1, r.2⟩, i⟩ = (take call (k + 1) g).bind fun p => p.1.getLast?.map fun x => ⟨⟨x, p.2⟩, i - k⟩ := by
  induction k with
  | zero => rw [take_succ, h0]; simp [advance, take]
  | succ k ih =>
    rw [advance, ih (by omega), take_snoc call (k + 1)]
    rcases hp : take call (k + 1) g with _ | p
    · rfl
    · simp only [Option.bind_some]
      have hl := take_length call (k + 1) (g' := p.2) (xs := p.1) hp
      have hne : p.1 ≠ [] := by rintro h; rw [h] at hl; simp at hl
      rw [List.getLast?_eq_some_getLast hne, Option.map_some, Option.bind_some, GI.incr_eq _ _ _ (by omega)]
      rcases call p.2 with _ | q
      · rfl
      · simp
        omega

theorem forLoop_last {σ : Type} {n : Nat} {f : σ → Nat → Option σ} {s : σ} :
    forLoop 0 (n + 1) f s = (forLoop 0 n f s).bind fun x => f x n := by
  unfold forLoop
  rw [Nat.sub_zero, Nat.sub_zero, List.range'_concat, List.foldlM_append]
  simp

theorem generateArray_loop (call : γ → Option (ρ × γ)) (z : ρ) (N : Nat) (g : γ) (k : Nat) (hk : k ≤ N) :
    forLoop 0 k (fun (s : List ρ × γ) i => do
      let r ← call s.2
      let a ← wr s.1 i r.1
      some (a, r.2)) (List.replicate N z, g) = (take call k g).map fun p => (p.1 ++ List.replicate (N - k) z, p.2) := by
  induction k with
  | zero => simp [forLoop, take]
  | succ k ih =>
    rw [forLoop_last, ih (by omega), take_snoc]
    rcases hp : take call k g with _ | p
    · rfl
    · have hl := take_length call k (g' := p.2) (xs := p.1) hp
      simp only [Option.map_some, Option.bind_some, Option.bind_eq_bind]
      rcases call p.2 with _ | q
      · rfl
      · simp only [Option.bind_some, Option.map_some]
        rw [wr_eq (by simp; omega), Option.bind_some]
        congr 2
        rw [List.set_append_right _ _ (by omega), hl, Nat.sub_self, show N - k = (N - (k + 1)) + 1 by omega, List.replicate_succ,
          List.set_cons_zero, List.append_assoc]
        rfl

theorem generateArray_eq (call : γ → Option (ρ × γ)) (z : ρ) (N : Nat) (g : γ) : generateArray call z N g = take call N g := by
  unfold generateArray
  rw [generateArray_loop call z N g N (Nat.le_refl _)]
  rcases take call N g with _ | p <;> simp

theorem generateArrayImpl_eq (call : γ → Option (ρ × γ)) (N : Nat) : ∀ (d : Nat) (rnd : ρ × γ) (args : List ρ), args.length + 1 + d = N →
    generateArrayImpl call N rnd args = (take call d rnd.2).map fun p => (args ++ rnd.1 :: p.1, p.2) := by
  intro d
  induction d with
  | zero =>
    intro rnd args h
    rw [generateArrayImpl, if_pos (by omega)]
    rfl
  | succ d ih =>
    intro rnd args h
    rw [generateArrayImpl, if_neg (by omega), if_pos (by omega), take_succ]
    rcases call rnd.2 with _ | r
    · rfl
    · simp only [Option.bind_eq_bind, Option.bind_some]
      rw [ih r (args ++ [rnd.1]) (by simp; omega)]
      rcases take call d r.2 with _ | p <;> simp

theorem generateArrayConst_eq (call : γ → Option (ρ × γ)) (N : Nat) (g : γ) :
    generateArrayConst call (N + 1) g = take call (N + 1) g := by
  unfold generateArrayConst
  rw [take_succ]
  rcases call g with _ | r
  · rfl
  · simp only [Option.bind_eq_bind, Option.bind_some]
    rw [generateArrayImpl_eq call (N + 1) N r [] (by simp; omega)]
    rfl

theorem generateArrayConst_zero (call : γ → Option (ρ × γ)) (g : γ) : generateArrayConst call 0 g = none := by
  unfold generateArrayConst
  rcases call g with _ | r
  · rfl
  · simp only [Option.bind_eq_bind, Option.bind_some]
    rw [generateArrayImpl, if_neg (by simp), if_neg (by simp)]

theorem makeSeedSeqImpl_eq (N h : Nat) : ∀ (d seed : Nat) (args : List Nat), args.length + 1 + d = N →
    makeSeedSeqImpl N h seed args
      = some (args ++ (List.range (d + 1)).map fun i => (fun s => Hash.combine 64 s h)^[i] seed % 2 ^ 32) := by
  intro d
  induction d with
  | zero =>
    intro seed args hl
    rw [makeSeedSeqImpl, if_pos (by omega)]
    rfl
  | succ d ih =>
    intro seed args hl
    rw [makeSeedSeqImpl, if_neg (by omega), if_neg (by omega), ih _ _ (by simp; omega), List.range_succ_eq_map (n := d + 1)]
    simp [List.map_map, Function.comp_def]

end Sprout.RandIter
