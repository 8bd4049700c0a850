import Verif.Proofs.StrCopy

/-!
# C47: the writing C string functions

The destination is `pre ++ old ++ post`, where `old` is exactly the part ISO C allows the function to write;
the theorem says that afterwards it is `pre ++ (the required bytes) ++ post`, so nothing else is touched and,
with `pre = post = []`, nothing outside is read or written.
-/

namespace Sprout
open Cstr Spec

theorem C47_strcpy (pre old post pre2 cs post2 : List Int) (h : (0 : Int) ∉ cs) (hl : old.length = cs.length + 1) :
    strcpy (pre ++ old ++ post) (pre2 ++ cs ++ 0 :: post2) pre.length pre2.length = some (pre ++ (cs ++ [0]) ++ post) := by
  have := copyLoop_eq cs pre2.length pre old post (IsStr.of_append pre2 cs post2 h) hl
  rw [strcpy, this]; simp

/-- exactly `n` characters are written: the string, then zeros -/
theorem C47_strncpy (pre old post pre2 cs post2 : List Int) (n : Nat) (h : (0 : Int) ∉ cs) (hl : old.length = n) :
    strncpy (pre ++ old ++ post) (pre2 ++ cs ++ 0 :: post2) pre.length pre2.length n
      = some (pre ++ (cs ++ List.replicate n 0).take n ++ post) :=
  strncpy_eq n cs _ pre old post (IsStr.of_append pre2 cs post2 h) hl

theorem C47_memset (pre old post : List Nat) (c : Int) (n : Nat) (hl : old.length = n) :
    memset (pre ++ old ++ post) pre.length c n = some (pre ++ List.replicate n (c % 256).toNat ++ post) :=
  fillN_eq n _ pre old post hl

/-- `memcpy` between disjoint parts of one block, in either order; `xs` are the `n` bytes copied -/
theorem C47_memcpy (pre xs mid old post : List Nat) (hl : old.length = xs.length) :
    memcpy (pre ++ xs ++ mid ++ old ++ post) (pre.length + xs.length + mid.length) pre.length xs.length
      = some (pre ++ xs ++ mid ++ xs ++ post) ∧
    memcpy (pre ++ old ++ mid ++ xs ++ post) pre.length (pre.length + old.length + mid.length) xs.length
      = some (pre ++ xs ++ mid ++ xs ++ post) := by
  constructor
  · have s : Seg (pre ++ xs ++ (mid ++ old ++ post)) pre.length xs := Seg.of_append _ _ _
    rw [show pre ++ xs ++ (mid ++ old ++ post) = pre ++ xs ++ mid ++ old ++ post by simp] at s
    rw [memcpy, copy_spec _ xs _ (pre.length + xs.length + mid.length) s (by omega) (by simp; omega)]
    have := overwrite_segment (pre := pre ++ xs ++ mid) (xs := old) (post := post) (ys := xs) (by omega)
    rw [show (pre ++ xs ++ mid).length = pre.length + xs.length + mid.length by simp; omega] at this
    simp only [Option.bind_eq_bind, Option.bind_some, this]
    rw [List.drop_of_length_le (by omega)]; simp
  · have s : Seg ((pre ++ old ++ mid) ++ xs ++ post) (pre ++ old ++ mid).length xs := Seg.of_append _ _ _
    rw [show (pre ++ old ++ mid).length = pre.length + old.length + mid.length by simp; omega] at s
    rw [memcpy, copy_spec _ xs _ pre.length s (by omega) (by simp; omega)]
    have := overwrite_segment (pre := pre) (xs := old) (post := mid ++ xs ++ post) (ys := xs) (by omega)
    rw [show pre ++ old ++ (mid ++ xs ++ post) = pre ++ old ++ mid ++ xs ++ post by simp] at this
    simp only [Option.bind_eq_bind, Option.bind_some, this]
    rw [List.drop_of_length_le (by omega)]; simp

/-! ### strcat -/

/-- ISO C: the copy overwrites the terminator, so the buffer needs `cs.length` more cells and ends up holding
`ds ++ cs` and a terminator. The code skips the terminator: the destination still reads `ds`, even with room to spare. -/
theorem C47_strcat_false :
    ¬ ∀ (ds old post cs : List Int), (0 : Int) ∉ ds → (0 : Int) ∉ cs → old.length = cs.length →
      strcat (ds ++ 0 :: (old ++ post)) (cs ++ [0]) 0 0 = some (ds ++ cs ++ 0 :: post) := by
  intro h
  have h1 := h [97] [7] [7] [98] (by simp) (by simp) rfl
  have h2 := strcat_eq [] [97] [7, 7] [] (by simp) (IsStr.of_append [] [98] [] (by simp)) rfl
  exact absurd (h2.symm.trans h1) (by decide)

/-- into a destination of exactly the required size, `strcat` always writes past the end -/
theorem C47_strcat_overrun (pre ds old pre2 cs post2 : List Int) (hd : (0 : Int) ∉ ds) (hc : (0 : Int) ∉ cs) (hl : old.length = cs.length) :
    strcat (pre ++ ds ++ 0 :: old) (pre2 ++ cs ++ 0 :: post2) pre.length pre2.length = none :=
  strcat_overrun pre ds old hd (IsStr.of_append _ _ _ hc) (by omega)

/-- What holds: given one cell more than ISO C asks for, it is defined, and puts the source string behind the
terminator. Missing: concatenation. -/
theorem C47_strcat_partial (pre ds old post pre2 cs post2 : List Int) (hd : (0 : Int) ∉ ds) (hc : (0 : Int) ∉ cs)
    (hl : old.length = cs.length + 1) :
    strcat (pre ++ ds ++ 0 :: (old ++ post)) (pre2 ++ cs ++ 0 :: post2) pre.length pre2.length
      = some (pre ++ ds ++ 0 :: (cs ++ 0 :: post)) :=
  strcat_eq pre ds old post hd (IsStr.of_append _ _ _ hc) hl

/-! ### strncat -/

/-- into a destination of exactly the required size, `strncat` writes past the end whenever it meets the source's
terminator before `n` characters -/
theorem C47_strncat_overrun (pre ds old pre2 cs post2 : List Int) (n : Nat) (hd : (0 : Int) ∉ ds) (hc : (0 : Int) ∉ cs)
    (hl : old.length = cs.length) (hn : cs.length < n) :
    strncat (pre ++ ds ++ 0 :: old) (pre2 ++ cs ++ 0 :: post2) pre.length pre2.length n = none :=
  strncat_overrun pre ds old hd (IsStr.of_append _ _ _ hc) hl hn

theorem C47_strncat_false :
    ¬ ∀ (ds old cs : List Int) (n : Nat), (0 : Int) ∉ ds → (0 : Int) ∉ cs → old.length = min n cs.length →
      strncat (ds ++ 0 :: old) (cs ++ [0]) 0 0 n = some (ds ++ cs.take n ++ [0]) := by
  intro h
  have h1 := h [97] [7] [98] 5 (by simp) (by simp) rfl
  have h2 := C47_strncat_overrun [] [97] [7] [] [98] [] 5 (by simp) (by simp) rfl (by simp)
  have h3 : (none : Option (List Int)) = some ([97] ++ [98].take 5 ++ [0]) := h2.symm.trans h1
  cases h3

/-- Correct when the source has at least `n` characters. Missing: shorter sources, where the string is right but one
cell too many is written (`C47_strncat_short`). -/
theorem C47_strncat_partial (pre ds old post pre2 cs post2 : List Int) (n : Nat) (hd : (0 : Int) ∉ ds) (hc : (0 : Int) ∉ cs)
    (hl : old.length = n) (hn : n ≤ cs.length) :
    strncat (pre ++ ds ++ 0 :: (old ++ post)) (pre2 ++ cs ++ 0 :: post2) pre.length pre2.length n
      = some (pre ++ (ds ++ cs.take n ++ [0]) ++ post) := by
  have := strncat_eq (n := n) pre ds old post hd (IsStr.of_append pre2 cs post2 hc) (by omega)
  rw [this, List.take_append_of_le_length hn]; simp

theorem C47_strncat_short (pre ds old : List Int) (o : Int) (post pre2 cs post2 : List Int) (n : Nat) (hd : (0 : Int) ∉ ds) (hc : (0 : Int) ∉ cs)
    (hl : old.length = cs.length) (hn : cs.length < n) :
    strncat (pre ++ ds ++ 0 :: (old ++ o :: post)) (pre2 ++ cs ++ 0 :: post2) pre.length pre2.length n
      = some (pre ++ (ds ++ cs ++ [0]) ++ 0 :: post) := by
  have := strncat_eq (n := n) pre ds (old ++ [o]) post hd (IsStr.of_append pre2 cs post2 hc) (by simp; omega)
  rw [List.take_of_length_le (by simp; omega)] at this
  simpa using this

/-! ### memmove -/

/-- `copy_backward` takes the end of its destination, but is given the beginning: the bytes land just before `s1`. -/
theorem C47_memmove_false :
    ¬ ∀ (pre xs mid old post : List Nat), old.length = xs.length →
      memmove (pre ++ xs ++ mid ++ old ++ post) (pre.length + xs.length + mid.length) pre.length xs.length
        = some (pre ++ xs ++ mid ++ xs ++ post) := by
  intro h
  have h1 := h [] [1, 2] [] [3, 4] [] rfl
  have h2 := copyBackward_spec 2 [1, 2] [1, 2, 3, 4] 0 0 rfl (Seg.of_append [] [1, 2] [3, 4]) (by omega) (by simp)
  have h3 : memmove ([] ++ [1, 2] ++ [] ++ [3, 4] ++ []) (([] : List Nat).length + [1, 2].length + ([] : List Nat).length) ([] : List Nat).length [1, 2].length
      = some (overwrite [1, 2, 3, 4] 0 [1, 2]) := by
    rw [memmove]; exact (congrArg (Option.bind · fun r => some r.1) h2)
  rw [h3] at h1
  exact absurd h1 (by decide)

/-- moving to the start of a block is UB as soon as `n > 0` -/
theorem C47_memmove_ub (m : List Nat) (s2 n : Nat) (hn : 0 < n) : memmove m 0 s2 n = none := by
  rw [memmove, copyBackward, if_neg (by omega), if_pos (by omega)]; rfl

/-- What it does compute: the `n` bytes end up in the `n` cells before `s1`. Missing: the right place. -/
theorem C47_memmove_partial (m xs : List Nat) (s1 s2 : Nat) (h : ∀ i, i < xs.length → m[s2 + i]? = xs[i]?)
    (h1 : xs.length ≤ s1) (hd : s1 ≤ s2 ∨ s2 + xs.length ≤ s1) (hr : s1 ≤ m.length) :
    memmove m s1 s2 xs.length = some (m.take (s1 - xs.length) ++ xs ++ m.drop s1) := by
  have := copyBackward_spec xs.length xs m s2 (s1 - xs.length) rfl h (by omega) (by omega)
  rw [show s1 - xs.length + xs.length = s1 by omega] at this
  rw [memmove, this]
  simp only [Option.bind_eq_bind, Option.bind_some, overwrite]
  rw [show s1 - xs.length + xs.length = s1 by omega]

/-! ### non-vacuity -/

example : strcpy [1, 2, 3, 4, 5] [104, 105, 0] 1 0 = some [1, 104, 105, 0, 5] :=
  C47_strcpy [1] [2, 3, 4] [5] [] [104, 105] [] (by simp) rfl
example : strncpy [1, 2, 3, 4, 5] [104, 0, 9] 1 0 3 = some [1, 104, 0, 0, 5] :=
  C47_strncpy [1] [2, 3, 4] [5] [] [104] [9] 3 (by simp) rfl
example : strncat [104, 0, 7, 7, 9] [105, 106, 107, 0] 0 0 2 = some [104, 105, 106, 0, 9] :=
  C47_strncat_partial [] [104] [7, 7] [9] [] [105, 106, 107] [] 2 (by simp) (by simp) rfl (by simp)
example : memcpy [1, 2, 3, 4, 5] 3 0 2 = some [1, 2, 3, 1, 2] := (C47_memcpy [] [1, 2] [3] [4, 5] [] rfl).1
example : memset [1, 2, 3, 4] 1 (-1) 2 = some [1, 255, 255, 4] := C47_memset [1] [2, 3] [4] (-1) 2 rfl

end Sprout
