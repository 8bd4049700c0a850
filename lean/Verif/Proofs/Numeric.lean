import Verif.Model.Numeric
import Verif.Proofs.Moves
import Verif.Proofs.Doubling
import Mathlib.Logic.Function.Iterate

/-! # Folds and scans -/

namespace Sprout
variable {α β T : Type}
open Spec (overwrite)

theorem accRa_eq (op : T → α → T) : ∀ n (pre xs post : List α) (init : T), xs.length = n → 0 < n →
    accRa (pre ++ xs ++ post) op pre.length (pre.length + n) (n / 2) init = some (xs.foldl op init) := by
  intro n
  induction n using Nat.strongRecOn with
  | ind n ih =>
    intro pre xs post init hn h0
    rw [accRa]
    by_cases h : n / 2 = 0
    · obtain ⟨x, rfl⟩ := List.length_eq_one_iff.mp (show xs.length = 1 by omega)
      rw [if_pos h]
      simp [rd]
    · rw [if_neg h]
      have e2 : pre ++ xs ++ post = (pre ++ xs.take (n / 2)) ++ xs.drop (n / 2) ++ post := by
        rw [List.append_assoc pre (xs.take _), List.take_append_drop]
      have e1 : pre ++ xs ++ post = pre ++ xs.take (n / 2) ++ (xs.drop (n / 2) ++ post) := by
        rw [e2, List.append_assoc]
      have a1 := ih (n / 2) (by omega) pre (xs.take (n / 2)) (xs.drop (n / 2) ++ post) init (by simp; omega) (by omega)
      have b1 := ih (n - n / 2) (by omega) (pre ++ xs.take (n / 2)) (xs.drop (n / 2)) post ((xs.take (n / 2)).foldl op init) (by simp; omega) (by omega)
      rw [← e1] at a1
      rw [← e2, List.length_append, List.length_take, hn, Nat.min_eq_left (by omega), ← List.foldl_append, List.take_append_drop,
        show pre.length + n / 2 + (n - n / 2) = pre.length + n by omega] at b1
      rw [show pre.length + n - pre.length - n / 2 = n - n / 2 by omega, a1]
      simpa using b1

theorem accumulateIn_run (op : T → α → T) : ∀ (xs pre post : List α) (c : T),
    Run (finIf fun s : Nat × T => s.1 == pre.length + xs.length)
    (fun s => do
      let x ← rd (pre ++ xs ++ post) s.1
      some (s.1 + 1, op s.2 x))
      xs.length (pre.length, c) (pre.length + xs.length, xs.foldl op c) := by
  intro xs
  induction xs with
  | nil => intro pre post c; exact .stop (by simp [finIf])
  | cons x xs ih =>
    intro pre post c
    refine .step (t := (pre.length + 1, op c x)) (by simp [finIf]) (by simp [rd]) ?_
    have := ih (pre ++ [x]) post (op c x)
    simp only [List.length_append, List.length_cons, List.length_nil, List.append_assoc, List.cons_append,
      List.nil_append, List.foldl_cons, Nat.zero_add] at this ⊢
    rw [show pre.length + 1 + xs.length = pre.length + (xs.length + 1) by omega] at this
    exact this

theorem trRa_eq (op : T → α → β → T) : ∀ n (pre xs post : List α) (pre' ys post' : List β) (init : T), xs.length = n → ys.length = n → 0 < n →
    trRa (pre ++ xs ++ post) (pre' ++ ys ++ post') op pre.length (pre.length + n) pre'.length (n / 2) init
      = some ((xs.zip ys).foldl (fun t p => op t p.1 p.2) init) := by
  intro n
  induction n using Nat.strongRecOn with
  | ind n ih =>
    intro pre xs post pre' ys post' init hn hn' h0
    rw [trRa]
    by_cases h : n / 2 = 0
    · obtain ⟨x, rfl⟩ := List.length_eq_one_iff.mp (show xs.length = 1 by omega)
      obtain ⟨y, rfl⟩ := List.length_eq_one_iff.mp (show ys.length = 1 by omega)
      rw [if_pos h]
      simp [rd]
    · rw [if_neg h]
      have e2 : pre ++ xs ++ post = (pre ++ xs.take (n / 2)) ++ xs.drop (n / 2) ++ post := by
        rw [List.append_assoc pre (xs.take _), List.take_append_drop]
      have e1 : pre ++ xs ++ post = pre ++ xs.take (n / 2) ++ (xs.drop (n / 2) ++ post) := by
        rw [e2, List.append_assoc]
      have f2 : pre' ++ ys ++ post' = (pre' ++ ys.take (n / 2)) ++ ys.drop (n / 2) ++ post' := by
        rw [List.append_assoc pre' (ys.take _), List.take_append_drop]
      have f1 : pre' ++ ys ++ post' = pre' ++ ys.take (n / 2) ++ (ys.drop (n / 2) ++ post') := by
        rw [f2, List.append_assoc]
      have a1 := ih (n / 2) (by omega) pre (xs.take (n / 2)) (xs.drop (n / 2) ++ post) pre' (ys.take (n / 2)) (ys.drop (n / 2) ++ post')
        init (by simp; omega) (by simp; omega) (by omega)
      have b1 := ih (n - n / 2) (by omega) (pre ++ xs.take (n / 2)) (xs.drop (n / 2)) post (pre' ++ ys.take (n / 2)) (ys.drop (n / 2)) post'
        (((xs.take (n / 2)).zip (ys.take (n / 2))).foldl (fun t p => op t p.1 p.2) init) (by simp; omega) (by simp; omega) (by omega)
      rw [← e1, ← f1] at a1
      rw [← e2, ← f2, List.length_append, List.length_append, List.length_take, List.length_take, hn, hn', Nat.min_eq_left (by omega),
        ← List.foldl_append, ← List.zip_append (by simp; omega), List.take_append_drop, List.take_append_drop,
        show pre.length + n / 2 + (n - n / 2) = pre.length + n by omega] at b1
      rw [show pre.length + n - pre.length - n / 2 = n - n / 2 by omega, a1]
      simpa using b1

theorem transformReduce2In_run {γ : Type} (op1 : T → γ → T) (op2 : α → β → γ) : ∀ (xs : List α) (ys : List β) (pre post : List α) (pre' post' : List β) (c : T),
    xs.length ≤ ys.length → ∃ j,
    Run (finIf fun s : Nat × Nat × T => s.1 == pre.length + xs.length)
    (fun s => do
      let x ← rd (pre ++ xs ++ post) s.1
      let y ← rd (pre' ++ ys ++ post') s.2.1
      some (s.1 + 1, s.2.1 + 1, op1 s.2.2 (op2 x y)))
      xs.length (pre.length, pre'.length, c) (pre.length + xs.length, j, (xs.zip ys).foldl (fun t p => op1 t (op2 p.1 p.2)) c) := by
  intro xs
  induction xs with
  | nil => intro ys pre post pre' post' c _; exact ⟨pre'.length, .stop (by simp [finIf])⟩
  | cons x xs ih =>
    intro ys pre post pre' post' c hl
    cases ys with
    | nil => simp at hl
    | cons y ys =>
      obtain ⟨j, this⟩ := ih ys (pre ++ [x]) post (pre' ++ [y]) post' (op1 c (op2 x y)) (by simpa using hl)
      refine ⟨j, .step (t := (pre.length + 1, pre'.length + 1, op1 c (op2 x y))) (by simp [finIf]) (by simp [rd]) ?_⟩
      simp only [List.length_append, List.length_cons, List.length_nil, List.append_assoc, List.cons_append,
        List.nil_append, List.foldl_cons, List.zip_cons_cons, Nat.zero_add] at this ⊢
      rw [show pre.length + 1 + xs.length = pre.length + (xs.length + 1) by omega] at this
      exact this

/-- running totals -/
def scan (op : α → β → α) : α → List β → List α
  | _, [] => []
  | s, x :: xs => op s x :: scan op (op s x) xs

theorem scan_length (op : α → β → α) : ∀ (xs : List β) (s : α), (scan op s xs).length = xs.length
  | [], _ => rfl
  | x :: xs, s => by simp [scan, scan_length op xs]

theorem scan_get (op : α → β → α) : ∀ (xs : List β) (s : α) (i : Nat), i < xs.length → (scan op s xs)[i]? = some ((xs.take (i + 1)).foldl op s)
  | [], _, _, h => by simp at h
  | x :: xs, s, 0, _ => by simp [scan]
  | x :: xs, s, i + 1, h => by
    have := scan_get op xs (op s x) i (by simpa using h)
    simpa [scan] using this

theorem psLoop_eq (op : α → α → α) (un : α → α) : ∀ (xs m : List α) (first result : Nat) (sum : α), Seg m (first + 1) xs →
    (result ≤ first ∨ first + 1 + xs.length ≤ result + 1) → result + 1 + xs.length ≤ m.length →
    psLoop op un m first (first + 1 + xs.length) result sum = some (overwrite m (result + 1) (scan op sum (xs.map un)), result + 1 + xs.length) := by
  intro xs
  induction xs with
  | nil => intro m first result sum _ _ _; rw [psLoop]; simp [scan, overwrite]
  | cons x xs ih =>
    intro m first result sum hs ho hl
    simp only [List.length_cons] at ho hl
    obtain ⟨h1, h2⟩ := Seg.cons hs
    rw [psLoop, if_pos (by simp)]
    simp only [rd, h1, Option.bind_eq_bind, Option.bind_some]
    rw [wr_eq (by omega)]
    simp only [Option.bind_some]
    have := ih (m.set (result + 1) (op sum (un x))) (first + 1) (result + 1) (op sum (un x)) (h2.set (by omega)) (by omega) (by simp; omega)
    rw [show first + 1 + (x :: xs).length = first + 1 + 1 + xs.length by simp; omega, this,
      overwrite_cons (by rw [scan_length, List.length_map]; omega)]
    simp only [scan, List.map_cons, List.length_cons]
    congr 2; omega

theorem exLoop_eq (op : α → α → α) (un : α → α) : ∀ (xs m : List α) (first result : Nat) (sum temp : α), Seg m (first + 1) xs →
    (result < first ∨ first + 1 + xs.length ≤ result + 1) → result + 1 + xs.length ≤ m.length →
    exLoop op un m first (first + 1 + xs.length) result sum temp
      = some (overwrite m (result + 1) (scan op sum ((temp :: xs.map un).take xs.length)), result + 1 + xs.length) := by
  intro xs
  induction xs with
  | nil => intro m first result sum temp _ _ _; rw [exLoop]; simp [scan, overwrite]
  | cons x xs ih =>
    intro m first result sum temp hs ho hl
    simp only [List.length_cons] at ho hl
    have hs' := Seg.set hs (d := result + 1) (y := op sum temp) (by simp; omega)
    obtain ⟨h1, h2⟩ := Seg.cons hs'
    rw [exLoop, if_pos (by simp)]
    simp only []
    rw [wr_eq (by omega)]
    simp only [rd, h1, Option.bind_eq_bind, Option.bind_some]
    have := ih (m.set (result + 1) (op sum temp)) (first + 1) (result + 1) (op sum temp) (un x) h2 (by omega) (by simp; omega)
    rw [show first + 1 + (x :: xs).length = first + 1 + 1 + xs.length by simp; omega, this,
      overwrite_cons (by rw [scan_length, List.length_take]; simp; omega)]
    simp only [List.map_cons, List.length_cons, List.take_succ_cons, scan]
    congr 2; omega

/-- neighbouring pairs -/
def adj (op : α → α → α) : α → List α → List α
  | _, [] => []
  | a, x :: xs => op x a :: adj op x xs

theorem adj_length (op : α → α → α) : ∀ (xs : List α) (s : α), (adj op s xs).length = xs.length
  | [], _ => rfl
  | x :: xs, s => by simp [adj, adj_length op xs]

theorem adLoop_eq (op : α → α → α) : ∀ (xs m : List α) (first result : Nat) (acc : α), Seg m (first + 1) xs →
    (result ≤ first ∨ first + 1 + xs.length ≤ result + 1) → result + 1 + xs.length ≤ m.length →
    adLoop op m first (first + 1 + xs.length) result acc = some (overwrite m (result + 1) (adj op acc xs), result + 1 + xs.length) := by
  intro xs
  induction xs with
  | nil => intro m first result sum _ _ _; rw [adLoop]; simp [adj, overwrite]
  | cons x xs ih =>
    intro m first result acc hs ho hl
    simp only [List.length_cons] at ho hl
    obtain ⟨h1, h2⟩ := Seg.cons hs
    rw [adLoop, if_pos (by simp)]
    simp only [rd, h1, Option.bind_eq_bind, Option.bind_some]
    rw [wr_eq (by omega)]
    simp only [Option.bind_some]
    have := ih (m.set (result + 1) (op x acc)) (first + 1) (result + 1) x (h2.set (by omega)) (by omega) (by simp; omega)
    rw [show first + 1 + (x :: xs).length = first + 1 + 1 + xs.length by simp; omega, this,
      overwrite_cons (by rw [adj_length]; omega)]
    simp only [adj, List.length_cons]
    congr 2; omega

theorem iota_eq (succ : α → α) : ∀ (n : Nat) (m : List α) (first : Nat) (v : α), first + n ≤ m.length →
    iota succ m first (first + n) v = some (overwrite m first ((List.range n).map fun i => succ^[i] v)) := by
  intro n
  induction n with
  | zero => intro m first v _; rw [iota]; simp [overwrite]
  | succ n ih =>
    intro m first v h
    rw [iota, if_pos (by omega), wr_eq (by omega)]
    simp only [Option.bind_eq_bind, Option.bind_some]
    have := ih (m.set first v) (first + 1) (succ v) (by simp; omega)
    rw [show first + (n + 1) = first + 1 + n by omega, this, overwrite_cons (by simp; omega)]
    rw [List.range_succ_eq_map]
    simp
    rfl

end Sprout
