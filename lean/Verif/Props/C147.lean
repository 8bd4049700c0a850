import Verif.Proofs.Loops
import Verif.Props.C15

/-!
# C147: loops as expressions
-/

namespace Sprout

open Loops

variable {α T : Type}

/-- `Exits p op x r`: the sequence `x`, `op x`, `op (op x)`, ... is defined up to its first element `r` for which `p` does not hold -/
inductive Exits (p : T → Bool) (op : T → Option T) : T → T → Prop
  | here {x} : p x = false → Exits p op x x
  | next {x y r} : p x = true → op x = some y → Exits p op y r → Exits p op x r

theorem flatWhile_iff (p : T → Bool) (op : T → Option T) (x r : T) : flatWhile x p op = some r ↔ Exits p op x r := by
  constructor
  · intro h
    refine flatWhile.partial_correctness p op (motive := fun x r => Exits p op x r) ?_ x r h
    intro rec ih x r h
    split_ifs at h with hp
    · simp only [Option.bind_eq_bind, Option.bind_eq_some_iff] at h
      obtain ⟨t, h1, h2⟩ := h
      exact .next hp h1 (ih _ _ h2)
    · rw [← Option.some.inj h]
      exact .here (by simpa using hp)
  · intro h
    induction h with
    | here h => rw [flatWhile, if_neg (by simp [h])]
    | next h1 h2 _ ih => rw [flatWhile, if_pos h1, h2]; exact ih

/-- **`while_loop`**: ends just if the loop ends, with the same value; as `flat_while_loop` -/
theorem C147_while_loop (p : T → Bool) (op : T → Option T) (x : T) :
    (∀ r, whileLoop x p op = some r ↔ Exits p op x r) ∧ whileLoop x p op = flatWhile x p op := by
  have key : ∀ r, whileLoop x p op = some r ↔ Exits p op x r := by
    intro r
    rw [← flatWhile_iff, whileLoop]
    simp only [Option.bind_eq_bind, Option.bind_eq_some_iff, Option.some.injEq]
    constructor
    · rintro ⟨s, h, rfl⟩
      obtain ⟨k, hr⟩ := (dbl_iff_run (finIf_idem _) _ _).1 h
      exact flat_of_run p op k (x, false) s (by simp) hr
    · intro h
      obtain ⟨k, c, hr⟩ := run_of_flat p op x r h false (by simp)
      exact ⟨_, (dbl_iff_run (finIf_idem _) _ _).2 ⟨k, hr⟩, rfl⟩
  exact ⟨key, Option.ext fun r => (key r).trans (flatWhile_iff p op x r).symm⟩

/-- **`until_loop`** -/
theorem C147_until_loop (p : T → Bool) (op : T → Option T) (x : T) :
    (∀ r, untilLoop x p op = some r ↔ Exits (fun x => !p x) op x r) ∧ untilLoop x p op = flatUntil x p op := by
  have e : untilLoop x p op = whileLoop x (fun x => !p x) op := by
    rw [untilLoop, whileLoop]
    have h1 : whileStep (fun x => !p x) op = untilStep p op := by
      funext s
      simp only [whileStep, untilStep, Bool.not_not]
    rw [h1]
    simp only [Bool.not_not]
  rw [e, flatUntil_eq]
  exact C147_while_loop _ op x

/-- the left fold that stops at a value for which `p` does not hold -/
def foldlWhile (p : T → Bool) (op : T → α → T) : T → List α → T
  | t, [] => t
  | t, x :: l => if p t then foldlWhile p op (op t x) l else t

theorem foldWhile_run (p : T → Bool) (op : T → α → T) (m : List α) (last : Nat) (hl : last ≤ m.length) :
    ∀ (n first : Nat) (t : T), first + n = last →
      ∃ k i, Run (finIf fun s : Nat × T => s.1 == last || !p s.2) (fun s => do
        let x ← rd m s.1
        some (s.1 + 1, op s.2 x)) k (first, t) (i, foldlWhile p op t ((m.drop first).take n)) := by
  intro n
  induction n with
  | zero =>
    intro first t h
    refine ⟨0, first, .stop ?_⟩
    simp only [finIf]
    rw [if_pos (by simp; omega)]
    simp [foldlWhile]
  | succ n ih =>
    intro first t h
    have hlt : first < m.length := by omega
    rw [List.drop_eq_getElem_cons hlt, List.take_succ_cons]
    rcases Bool.eq_false_or_eq_true (p t) with hp | hp
    · obtain ⟨k, i, hr⟩ := ih (first + 1) (op t m[first]) (by omega)
      refine ⟨k + 1, i, .step (t := (first + 1, op t m[first])) ?_ ?_ ?_⟩
      · simp only [finIf]
        rw [if_neg (by simp [hp]; omega)]
      · simp [rd, List.getElem?_eq_getElem hlt]
      · rw [foldlWhile, if_pos hp]; exact hr
    · refine ⟨0, first, .stop ?_⟩
      simp only [finIf]
      rw [if_pos (by simp [hp]), foldlWhile, if_neg (by simp [hp])]

/-- **`fold_while`** -/
theorem C147_fold_while (p : T → Bool) (op : T → α → T) (pre xs post : List α) (init : T) :
    foldWhile (pre ++ xs ++ post) pre.length (pre.length + xs.length) init op p = some (foldlWhile p op init xs) := by
  obtain ⟨k, i, hr⟩ := foldWhile_run p op (pre ++ xs ++ post) (pre.length + xs.length) (by simp) xs.length pre.length init rfl
  rw [List.append_assoc, List.drop_left, List.take_left, ← List.append_assoc] at hr
  rw [foldWhile, (dbl_iff_run (finIf_idem _) _ _).2 ⟨k, hr⟩]
  rfl

/-- **`fold_until`** -/
theorem C147_fold_until (p : T → Bool) (op : T → α → T) (pre xs post : List α) (init : T) :
    foldUntil (pre ++ xs ++ post) pre.length (pre.length + xs.length) init op p = some (foldlWhile (fun t => !p t) op init xs) := by
  have := C147_fold_while (fun t => !p t) op pre xs post init
  rw [foldWhile] at this
  simp only [Bool.not_not] at this
  exact this

/-- **`any_of_equal`, `all_of_equal`, `none_of_equal`** -/
theorem C147_of_equal [BEq α] [LawfulBEq α] [DecidableEq α] (v : α) (pre xs post : List α) :
    (anyOfEqualRa (pre ++ xs ++ post) pre.length (pre.length + xs.length) v = some (decide (v ∈ xs))
      ∧ anyOfEqualIn (pre ++ xs ++ post) pre.length (pre.length + xs.length) v = some (decide (v ∈ xs)))
    ∧ (allOfEqualRa (pre ++ xs ++ post) pre.length (pre.length + xs.length) v = some (decide (∀ x ∈ xs, x = v))
      ∧ allOfEqualIn (pre ++ xs ++ post) pre.length (pre.length + xs.length) v = some (decide (∀ x ∈ xs, x = v)))
    ∧ (noneOfEqualRa (pre ++ xs ++ post) pre.length (pre.length + xs.length) v = some (decide (v ∉ xs))
      ∧ noneOfEqualIn (pre ++ xs ++ post) pre.length (pre.length + xs.length) v = some (decide (v ∉ xs))) := by
  have h1 : xs.any (fun x => x == v) = decide (v ∈ xs) := by
    rw [Bool.eq_iff_iff]; simp
  have h2 : xs.all (fun x => x == v) = decide (∀ x ∈ xs, x = v) := by
    rw [Bool.eq_iff_iff]; simp
  have h3 : (!xs.any (fun x => x == v)) = decide (v ∉ xs) := by
    rw [h1]; simp
  rw [← h1, ← h2, ← h3]
  exact ⟨⟨anyOfRa_eq .., anyOfIn_eq ..⟩, ⟨allOfRa_eq .., allOfIn_eq ..⟩, ⟨noneOfRa_eq .., noneOfIn_eq ..⟩⟩

example : whileLoop 1 (fun n : Nat => decide (n < 100)) (fun n => some (n * 2)) = some 128 :=
  ((C147_while_loop _ _ 1).1 128).2 (by repeat first | exact .here rfl | refine .next rfl rfl ?_)

/-- a loop that does not end has no value -/
example : whileLoop 1 (fun _ : Nat => true) (fun n => some n) = none := by
  rw [Option.eq_none_iff_forall_not_mem]
  intro r h
  have key : ∀ x r : Nat, ¬ Exits (fun _ => true) (fun n => some n) x r := by
    intro x r h
    induction h with
    | here h => cases h
    | next _ _ _ ih => exact ih
  exact key 1 r (((C147_while_loop _ _ 1).1 r).1 h)

example : foldWhile [9, 1, 2, 3, 4, 9] 1 5 0 (fun a b : Nat => a + b) (fun a => decide (a < 3)) = some 3 :=
  C147_fold_while _ _ [9] [1, 2, 3, 4] [9] 0

end Sprout
