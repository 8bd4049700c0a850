import Verif.Model.StrCopy
import Verif.Proofs.Cstring
import Verif.Proofs.Merge

namespace Sprout.Cstr
open Spec

theorem wr_mid {α : Type} (pre : List α) (x y : α) (post : List α) :
    wr (pre ++ x :: post) pre.length y = some (pre ++ y :: post) := by
  simp [wr]

theorem copyLoop_eq {src : List Int} : ∀ (cs : List Int) (p : Nat) (pre old post : List Int), IsStr src p cs → old.length = cs.length + 1 →
    copyLoop (pre ++ old ++ post) src pre.length p = some (pre ++ cs ++ 0 :: post) := by
  intro cs
  induction cs with
  | nil =>
    intro p pre old post h hl
    obtain ⟨o, rfl⟩ := List.length_eq_one_iff.1 hl
    rw [copyLoop, h.nil]
    simp only [Option.bind_eq_bind, Option.bind_some, List.append_assoc, List.singleton_append, wr_mid, if_true, List.nil_append]
  | cons c cs ih =>
    intro p pre old post h hl
    obtain ⟨o, old, rfl⟩ := List.exists_cons_of_length_pos (l := old) (by omega)
    obtain ⟨hr, h0, h'⟩ := h.cons
    rw [copyLoop, hr]
    simp only [Option.bind_eq_bind, Option.bind_some, List.append_assoc, List.cons_append, wr_mid, if_neg h0]
    have := ih (p + 1) (pre ++ [c]) old post h' (by simpa using hl)
    simpa using this

theorem zeroLoop_eq : ∀ (n : Nat) (pre old post : List Int), old.length = n →
    zeroLoop (pre ++ old ++ post) pre.length n = some (pre ++ List.replicate n 0 ++ post) := by
  intro n
  induction n with
  | zero => intro pre old post hl; rw [List.length_eq_zero_iff.1 hl]; simp [zeroLoop]
  | succ n ih =>
    intro pre old post hl
    obtain ⟨o, old, rfl⟩ := List.exists_cons_of_length_pos (l := old) (by omega)
    simp only [zeroLoop, Option.bind_eq_bind, List.append_assoc, List.cons_append, wr_mid, Option.bind_some]
    have := ih (pre ++ [0]) old post (by simpa using hl)
    simpa [List.replicate_succ] using this

/-- the bounded copying loop: stops after the terminator or after `n` characters -/
theorem copyLoopN_eq {src : List Int} : ∀ (n : Nat) (cs : List Int) (p : Nat) (pre old post : List Int), IsStr src p cs →
    old.length = min n (cs.length + 1) →
    copyLoopN (pre ++ old ++ post) src pre.length p n
      = some (pre ++ (cs ++ [0]).take n ++ post, pre.length + min n (cs.length + 1), n - (cs.length + 1)) := by
  intro n
  induction n with
  | zero =>
    intro cs p pre old post h hl
    have : old = [] := List.length_eq_zero_iff.1 (by omega)
    subst this; simp [copyLoopN]
  | succ n ih =>
    intro cs p pre old post h hl
    obtain ⟨o, old, rfl⟩ := List.exists_cons_of_length_pos (l := old) (by omega)
    cases cs with
    | nil =>
      have : old = [] := List.length_eq_zero_iff.1 (by rw [List.length_cons, List.length_nil] at hl; omega)
      subst this
      simp only [copyLoopN, h.nil, Option.bind_eq_bind, Option.bind_some, List.append_assoc, List.singleton_append, wr_mid, if_true]
      simp
    | cons c cs =>
      obtain ⟨hr, h0, h'⟩ := h.cons
      simp only [copyLoopN, hr, Option.bind_eq_bind, Option.bind_some, List.append_assoc, List.cons_append, wr_mid, if_neg h0]
      have := ih cs (p + 1) (pre ++ [c]) old post h' (by simp at hl ⊢; omega)
      rw [show pre ++ c :: (old ++ post) = pre ++ [c] ++ old ++ post by simp, show pre.length + 1 = (pre ++ [c]).length by simp, this]
      simp
      omega

theorem strncpy_eq {src : List Int} (n : Nat) (cs : List Int) (p : Nat) (pre old post : List Int) (h : IsStr src p cs) (hl : old.length = n) :
    strncpy (pre ++ old ++ post) src pre.length p n = some (pre ++ (cs ++ List.replicate n 0).take n ++ post) := by
  have e := copyLoopN_eq n cs p pre (old.take (min n (cs.length + 1))) (old.drop (min n (cs.length + 1)) ++ post) h (by simp; omega)
  rw [show pre ++ old.take (min n (cs.length + 1)) ++ (old.drop (min n (cs.length + 1)) ++ post) = pre ++ old ++ post by
    rw [List.append_assoc, ← List.append_assoc (old.take _), List.take_append_drop, List.append_assoc]] at e
  rw [strncpy, e]
  simp only [Option.bind_eq_bind, Option.bind_some]
  have z := zeroLoop_eq (n - (cs.length + 1)) (pre ++ (cs ++ [0]).take n) (old.drop (min n (cs.length + 1))) post (by simp; omega)
  rw [show (pre ++ (cs ++ [(0 : Int)]).take n).length = pre.length + min n (cs.length + 1) by simp] at z
  rw [← List.append_assoc, z]
  congr 2
  rw [List.append_assoc]
  congr 1
  rcases Nat.lt_or_ge cs.length n with hc | hc
  · rw [List.take_of_length_le (by simp; omega), List.take_append, List.take_of_length_le (by omega), List.take_replicate,
      show [0] = List.replicate 1 (0 : Int) from rfl, List.append_assoc, List.replicate_append_replicate]
    congr 2; omega
  · rw [Nat.sub_eq_zero_of_le (by omega), List.take_append_of_le_length hc, List.take_append_of_le_length hc]
    simp

theorem skipPast_eq {m : List Int} : ∀ (cs : List Int) (p : Nat), IsStr m p cs → skipPast m p = some (p + cs.length + 1) := by
  intro cs
  induction cs with
  | nil => intro p h; rw [skipPast, h.nil]; simp
  | cons c cs ih =>
    intro p h
    rw [skipPast, h.cons.1]
    simp only [Option.bind_eq_bind, Option.bind_some, ne_eq, h.cons.2.1, not_false_eq_true, if_true, ih _ h.cons.2.2]
    simp; omega

theorem skipTo_eq {m : List Int} : ∀ (cs : List Int) (p : Nat), IsStr m p cs → skipTo m p = some (p + cs.length) := by
  intro cs
  induction cs with
  | nil => intro p h; rw [skipTo, h.nil]; simp
  | cons c cs ih =>
    intro p h
    rw [skipTo, h.cons.1]
    simp only [Option.bind_eq_bind, Option.bind_some, ne_eq, h.cons.2.1, not_false_eq_true, if_true, ih _ h.cons.2.2]
    simp; omega

/-- what `strcat` does: it writes the source after the terminator of the destination -/
theorem strcat_eq {src : List Int} {p : Nat} {cs : List Int} (pre ds old post : List Int) (hd : (0 : Int) ∉ ds) (h : IsStr src p cs)
    (hl : old.length = cs.length + 1) :
    strcat (pre ++ ds ++ 0 :: (old ++ post)) src pre.length p = some (pre ++ ds ++ 0 :: (cs ++ 0 :: post)) := by
  rw [strcat, skipPast_eq ds _ (IsStr.of_append pre ds _ hd)]
  simp only [Option.bind_eq_bind, Option.bind_some]
  have := copyLoop_eq cs p (pre ++ ds ++ [0]) old post h hl
  simpa [Nat.add_assoc] using this

/-- what `strncat` does -/
theorem strncat_eq {src : List Int} {p n : Nat} {cs : List Int} (pre ds old post : List Int) (hd : (0 : Int) ∉ ds) (h : IsStr src p cs)
    (hl : old.length = min n (cs.length + 1)) :
    strncat (pre ++ ds ++ 0 :: (old ++ post)) src pre.length p n = some (pre ++ ds ++ (cs ++ [0]).take n ++ 0 :: post) := by
  rw [strncat, skipTo_eq ds _ (IsStr.of_append pre ds _ hd)]
  simp only [Option.bind_eq_bind, Option.bind_some]
  -- `copyLoopN` runs over the terminator and `old` without its last cell
  obtain ⟨l, z, e⟩ : ∃ l z, 0 :: old = l ++ [z] := ⟨(0 :: old).dropLast, (0 :: old).getLast (by simp), (List.dropLast_append_getLast (by simp)).symm⟩
  have hll : l.length = min n (cs.length + 1) := by
    have := congrArg List.length e; simp at this; omega
  have c := copyLoopN_eq n cs p (pre ++ ds) l (z :: post) h hll
  rw [show pre ++ ds ++ 0 :: (old ++ post) = pre ++ ds ++ l ++ z :: post by
    rw [show pre ++ ds ++ 0 :: (old ++ post) = pre ++ ds ++ ((0 :: old) ++ post) by simp, e]; simp]
  rw [show pre.length + ds.length = (pre ++ ds).length by simp, c]
  simp only [Option.bind_some]
  have := wr_mid (pre ++ ds ++ (cs ++ [0]).take n) z 0 post
  rw [show (pre ++ ds ++ (cs ++ [(0 : Int)]).take n).length = (pre ++ ds).length + min n (cs.length + 1) by simp; omega] at this
  exact this

theorem fillN_eq : ∀ (n v : Nat) (pre old post : List Nat), old.length = n →
    fillN (pre ++ old ++ post) pre.length v n = some (pre ++ List.replicate n v ++ post) := by
  intro n v
  induction n with
  | zero => intro pre old post hl; rw [List.length_eq_zero_iff.1 hl]; simp [fillN]
  | succ n ih =>
    intro pre old post hl
    obtain ⟨o, old, rfl⟩ := List.exists_cons_of_length_pos (l := old) (by omega)
    simp only [fillN, Option.bind_eq_bind, List.append_assoc, List.cons_append, wr_mid, Option.bind_some]
    have := ih (pre ++ [v]) old post (by simpa using hl)
    simpa [List.replicate_succ] using this

end Sprout.Cstr

namespace Sprout.Cstr

theorem wr_end {α : Type} (m : List α) (i : Nat) (y : α) (h : m.length ≤ i) : wr m i y = none := by
  rw [wr, if_neg (by omega)]

/-- a destination without room for the whole string and its terminator is overrun -/
theorem copyLoop_overrun {src : List Int} : ∀ (cs : List Int) (p : Nat) (pre old : List Int), IsStr src p cs → old.length ≤ cs.length →
    copyLoop (pre ++ old) src pre.length p = none := by
  intro cs
  induction cs with
  | nil =>
    intro p pre old h hl
    have : old = [] := List.length_eq_zero_iff.1 (by simpa using hl)
    subst this
    rw [copyLoop, h.nil]
    simp only [Option.bind_eq_bind, Option.bind_some, wr_end _ _ _ (show (pre ++ []).length ≤ pre.length by simp), Option.bind_none]
  | cons c cs ih =>
    intro p pre old h hl
    obtain ⟨hr, h0, h'⟩ := h.cons
    rw [copyLoop, hr]
    cases old with
    | nil => simp only [Option.bind_eq_bind, Option.bind_some, wr_end _ _ _ (show (pre ++ []).length ≤ pre.length by simp), Option.bind_none]
    | cons o old =>
      simp only [Option.bind_eq_bind, Option.bind_some, wr_mid, if_neg h0]
      have := ih (p + 1) (pre ++ [c]) old h' (by simpa using hl)
      simpa using this

theorem strcat_overrun {src : List Int} {p : Nat} {cs : List Int} (pre ds old : List Int) (hd : (0 : Int) ∉ ds) (h : IsStr src p cs)
    (hl : old.length ≤ cs.length) : strcat (pre ++ ds ++ 0 :: old) src pre.length p = none := by
  rw [strcat, skipPast_eq ds _ (IsStr.of_append pre ds _ hd)]
  simp only [Option.bind_eq_bind, Option.bind_some]
  have := copyLoop_overrun cs p (pre ++ ds ++ [0]) old h hl
  simpa [Nat.add_assoc] using this

theorem strncat_overrun {src : List Int} {p n : Nat} {cs : List Int} (pre ds old : List Int) (hd : (0 : Int) ∉ ds) (h : IsStr src p cs)
    (hl : old.length = cs.length) (hn : cs.length < n) : strncat (pre ++ ds ++ 0 :: old) src pre.length p n = none := by
  rw [strncat, skipTo_eq ds _ (IsStr.of_append pre ds _ hd)]
  simp only [Option.bind_eq_bind, Option.bind_some]
  have c := copyLoopN_eq n cs p (pre ++ ds) (0 :: old) [] h (by simp; omega)
  rw [List.append_nil] at c
  rw [show pre.length + ds.length = (pre ++ ds).length by simp, c]
  simp only [Option.bind_some]
  exact wr_end _ _ _ (by simp; omega)

end Sprout.Cstr
