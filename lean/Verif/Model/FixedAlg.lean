import Verif.Model.ContOp
import Verif.Model.Quantifiers

/-!
# Algorithms that return containers

sprout/algorithm/fixed: the functional algorithms. The input range is the list of its elements (`first` at its beginning); a
read outside is undefined behaviour. Most algorithms have a version for random access iterators (`…Ra`: a pack expansion over
all indexes of the result) and one for input iterators (`…In`: the values are collected one by one). The overloads for containers
that are not fixed containers are left out, as are those which take the result from `pit`. A recursion of templates without end
(more values than `static_size`) is the absence of a result, too.
-/

namespace Sprout.FixedAlg

open ContOp

variable {α β : Type} [Inhabited α]

/-! ## detail -/

/-- `container_complate_2` (detail/container_complate.hpp 20-35) -/
def complate2 (c : Cont α) (args : List α) : Option (Cont α) :=
  if c.static = args.length then some (remake c c c.size args)
  else if args.length < c.static then do
    let x ← internalAt c args.length
    complate2 c (args ++ [x])
  else none
  termination_by c.static - args.length
  decreasing_by simp; omega

/-- `container_complate_1` (detail/container_complate.hpp 36-64) -/
def complate1 (c : Cont α) : Nat → List α → Option (Cont α)
  | 0, args => if c.static = args.length then some (remake c c c.size args) else complate2 c args
  | remain + 1, args =>
    if c.static = args.length then some (remake c c c.size args)
    else do
      let x ← internalAt c remain
      complate1 c remain (x :: args)

/-- `container_complate` (detail/container_complate.hpp 65-80) -/
def complate (c : Cont α) (args : List α) : Option (Cont α) :=
  if c.static = args.length then some (remake c c c.size args)
  else if c.beginOff < 0 then none else complate1 c c.beginOff.toNat args

/-- the position of `internal_end` (container/internal_end.hpp 32-40): `end` of the innermost container -/
def internalEnd : Cont α → Int
  | .sub c _ _ => internalEnd c
  | c => c.endOff

/-- `container_complate_backward_2` (detail/container_complate_backward.hpp 20-35) -/
def complateBackward2 (c : Cont α) (args : List α) : Option (Cont α) :=
  if c.static = args.length then some (remake c c c.size args)
  else if args.length < c.static then do
    let x ← internalAt c (internalEnd c - (args.length + 1))
    complateBackward2 c (x :: args)
  else none
  termination_by c.static - args.length
  decreasing_by simp; omega

/-- `container_complate_backward_1` (detail/container_complate_backward.hpp 36-64) -/
def complateBackward1 (c : Cont α) : Nat → List α → Option (Cont α)
  | 0, args => if c.static = args.length then some (remake c c c.size args) else complateBackward2 c args
  | remain + 1, args =>
    if c.static = args.length then some (remake c c c.size args)
    else do
      let x ← internalAt c (internalEnd c - (remain + 1))
      complateBackward1 c remain (args ++ [x])

/-- `container_complate_backward` (detail/container_complate_backward.hpp 65-80), with internal_end_offset_backward.hpp 21-25 -/
def complateBackward (c : Cont α) (args : List α) : Option (Cont α) :=
  if c.static = args.length then some (remake c c c.size args)
  else if internalEnd c - c.endOff < 0 then none else complateBackward1 c (internalEnd c - c.endOff).toNat args

/-- the pack expansion of the versions for random access iterators: `g` in the window as far as the input of `n` elements
reaches, else the old element (copy.hpp 39-45, transform.hpp 41-47, replace_copy.hpp 41-47, reverse_copy.hpp 37-44, …) -/
def packRa (c : Cont α) (n : Nat) (g : Int → Option α) : Option (Cont α) := do
  let args ← pack c.static fun i =>
    if (i : Int) ≥ c.beginOff ∧ (i : Int) < c.beginOff + c.size ∧ (i : Int) < c.beginOff + n then g (i - c.beginOff)
    else internalAt c i
  some (remake c c c.size args)

/-- what a step of the collection does -/
inductive Step (α : Type) where
  | undefined
  | stop
  | go (args : List α)

/-- the collection of values of the versions for input iterators: ends with `remake` when all elements are there, with `fin` at
the end of the range, when the window is full, or when the step stops (copy.hpp 63-91, copy_if.hpp 26-55, …) -/
def collect (c : Cont α) (step : List α → β → Step α) (fin : List α → Option (Cont α)) : List β → List α → Option (Cont α)
  | [], args => if c.static = args.length then some (remake c c c.size args) else fin args
  | x :: xs, args =>
    if c.static = args.length then some (remake c c c.size args)
    else if (args.length : Int) < c.size then
      match step args x with
      | .undefined => none
      | .stop => fin args
      | .go args => collect c step fin xs args
    else fin args

/-- a value read, put at the end -/
def Step.read (args : List α) : Option α → Step α
  | some v => .go (args ++ [v])
  | none => .undefined

/-! ## copying -/

/-- `copy_impl_ra` (copy.hpp 29-61) -/
def copyRa (xs : List α) (c : Cont α) : Option (Cont α) := packRa c xs.length (rdz xs)

/-- `copy_impl` (copy.hpp 63-100) -/
def copyIn (xs : List α) (c : Cont α) : Option (Cont α) :=
  collect c (fun args x => .go (args ++ [x])) (complate c) xs []

/-- `copy_n`, random access (copy_n.hpp 29-37) -/
def copyNRa (xs : List α) (n : Nat) (c : Cont α) : Option (Cont α) := packRa c n (rdz xs)

/-- `copy_n_impl` (copy_n.hpp 39-75) -/
def copyNIn (xs : List α) (n : Nat) (c : Cont α) : Option (Cont α) :=
  collect c (fun args k => Step.read args xs[k]?) (complate c) (List.range n) []

/-- `copy_backward_impl_ra` (copy_backward.hpp 29-61) -/
def copyBackwardRa (xs : List α) (c : Cont α) : Option (Cont α) := do
  let args ← pack c.static fun i =>
    if (i : Int) < c.endOff ∧ (i : Int) + c.size ≥ c.endOff ∧ (i : Int) + xs.length ≥ c.endOff then
      rdz xs (xs.length + (i - c.endOff))
    else internalAt c i
  some (remake c c c.size args)

/-- `copy_backward_impl` (copy_backward.hpp 62-102); the range is walked from its end -/
def copyBackwardIn (xs : List α) (c : Cont α) : Option (Cont α) :=
  collect c (fun args x => .go (x :: args)) (complateBackward c) xs.reverse []

/-- `copy_if_impl` (copy_if.hpp 26-64) -/
def copyIf (p : α → Bool) (xs : List α) (c : Cont α) : Option (Cont α) :=
  collect c (fun args x => .go (if p x then args ++ [x] else args)) (complate c) xs []

/-- `copy_while`, random access (copy_while.hpp 29-37) -/
def copyWhileRa (p : α → Bool) (xs : List α) (c : Cont α) : Option (Cont α) := do
  let k ← findIfNotRa xs 0 xs.length p
  copyRa (xs.take k) c

/-- `copy_while_impl` (copy_while.hpp 39-76) -/
def copyWhileIn (p : α → Bool) (xs : List α) (c : Cont α) : Option (Cont α) :=
  collect c (fun args x => if p x then .go (args ++ [x]) else .stop) (complate c) xs []

/-- `copy_until`, random access (copy_until.hpp 30-38) -/
def copyUntilRa (p : α → Bool) (xs : List α) (c : Cont α) : Option (Cont α) := do
  let k ← findIfRa xs 0 xs.length p
  copyRa (xs.take k) c

/-- `copy_until_impl` (copy_until.hpp 40-77) -/
def copyUntilIn (p : α → Bool) (xs : List α) (c : Cont α) : Option (Cont α) :=
  collect c (fun args x => if !p x then .go (args ++ [x]) else .stop) (complate c) xs []

/-! ## filling -/

/-- `fill_impl` (fill.hpp 23-39) -/
def fillImpl (c : Cont α) (v : α) (size : Int) : Option (Cont α) := do
  let args ← pack c.static fun i =>
    if (i : Int) ≥ c.beginOff ∧ (i : Int) < c.beginOff + size then some v else internalAt c i
  some (remake c c c.size args)

/-- `fill` (fill.hpp 41-53) -/
def fill (c : Cont α) (v : α) : Option (Cont α) := fillImpl c v c.size

/-- `fill_n` (fill_n.hpp 26-38) -/
def fillN (c : Cont α) (n : Nat) (v : α) : Option (Cont α) := fillImpl c v n

/-- `generate_impl_1` (generate.hpp 23-54), `unfold_impl_1` (unfold.hpp 23-54): `next` is a generated value and the next
generator (next argument) -/
def generateImpl1 {σ : Type} (c : Cont α) (g : σ → α × σ) (size : Nat) (next : α × σ) (args : List α) : Option (Cont α) :=
  if c.static = args.length + 1 then some (remake c c size (args ++ [next.1]))
  else if args.length + 1 < size then generateImpl1 c g size (g next.2) (args ++ [next.1])
  else complate c (args ++ [next.1])
  termination_by size - args.length
  decreasing_by simp; omega

/-- `generate_impl` (generate.hpp 55-81), `unfold_impl` (unfold.hpp 55-80) -/
def generateImpl {σ : Type} (c : Cont α) (g : σ → α × σ) (s : σ) (size : Nat) : Option (Cont α) :=
  if c.static = 0 then some (remake c c size [])
  else if size > 0 then generateImpl1 c g size (g s) [] else complate c []

/-- `generate` (generate.hpp 86-90), `unfold` (unfold.hpp 85-89) -/
def generate {σ : Type} (c : Cont α) (g : σ → α × σ) (s : σ) : Option (Cont α) := generateImpl c g s c.size.toNat
/-- `generate_n` (generate_n.hpp 22-26), `unfold_n` (unfold_n.hpp 22-26) -/
def generateN {σ : Type} (c : Cont α) (n : Nat) (g : σ → α × σ) (s : σ) : Option (Cont α) := generateImpl c g s n

/-- `call_gen` (recurrence.hpp 24-47) -/
def callGen (k : Nat) (gen : List α → α) : List α → Option α
  | [] => if k = 0 then some (gen []) else none
  | a :: as => if k = 0 then some (gen []) else if k = as.length + 1 then some (gen (a :: as)) else callGen k gen as

/-- `recurrence_impl_drop` (recurrence.hpp 48-85) -/
def recurrenceDrop (c : Cont α) (size : Nat) : List α → Option (Cont α)
  | [] => complate c []
  | head :: inits =>
    if c.static ≥ inits.length + 1 then
      if size < inits.length + 1 then recurrenceDrop c size inits else complate c (head :: inits)
    else recurrenceDrop c size inits

/-- `recurrence_impl_1` (recurrence.hpp 86-118) -/
def recurrenceImpl1 (k : Nat) (c : Cont α) (gen : List α → α) (size : Nat) (args : List α) : Option (Cont α) :=
  if c.static = args.length then some (remake c c c.size args)
  else if args.length < size then do
    let v ← callGen k gen args
    recurrenceImpl1 k c gen size (args ++ [v])
  else complate c args
  termination_by size - args.length
  decreasing_by simp; omega

/-- `recurrence_impl` (recurrence.hpp 119-147) -/
def recurrenceImpl (c : Cont α) (gen : List α → α) (size : Nat) (inits : List α) : Option (Cont α) :=
  if c.static > inits.length then
    if inits.length < size then recurrenceImpl1 inits.length c gen size inits else recurrenceDrop c size inits
  else recurrenceDrop c size inits

/-- `recurrence` (recurrence.hpp 152-156) -/
def recurrence (c : Cont α) (gen : List α → α) (inits : List α) : Option (Cont α) := recurrenceImpl c gen c.size.toNat inits
/-- `recurrence_n` (recurrence_n.hpp 22-26) -/
def recurrenceN (c : Cont α) (n : Nat) (gen : List α → α) (inits : List α) : Option (Cont α) := recurrenceImpl c gen n inits

/-! ## transformation -/

/-- `transform_impl_ra` (transform.hpp 30-65) -/
def transformRa (f : β → α) (xs : List β) (c : Cont α) : Option (Cont α) :=
  packRa c xs.length fun i => (rdz xs i).map f

/-- `transform_impl` (transform.hpp 67-107) -/
def transformIn (f : β → α) (xs : List β) (c : Cont α) : Option (Cont α) :=
  collect c (fun args x => .go (args ++ [f x])) (complate c) xs []

/-- `transform_impl_ra` of two ranges (transform.hpp 148-183) -/
def transform2Ra {γ : Type} (f : β → γ → α) (xs : List β) (ys : List γ) (c : Cont α) : Option (Cont α) :=
  packRa c xs.length fun i => do
    let x ← rdz xs i
    let y ← rdz ys i
    some (f x y)

/-- `transform_impl` of two ranges (transform.hpp 184-224) -/
def transform2In {γ : Type} (f : β → γ → α) (xs : List β) (ys : List γ) (c : Cont α) : Option (Cont α) :=
  collect c (fun args k => Step.read args do
    let x ← xs[k]?
    let y ← ys[k]?
    some (f x y)) (complate c) (List.range xs.length) []

/-- `replace_copy_if_impl_ra` (replace_copy_if.hpp 29-64); `replace_copy_impl_ra` with the test for the old value
(replace_copy.hpp 30-65); `replace_if`, `replace` (replace_if.hpp 21-25, replace.hpp 21-25): of the container to itself -/
def replaceCopyIfRa (p : α → Bool) (v : α) (xs : List α) (c : Cont α) : Option (Cont α) :=
  packRa c xs.length fun i => do
    let x ← rdz xs i
    if p x then some v else rdz xs i

/-- `replace_copy_if_impl` (replace_copy_if.hpp 65-109); `replace_copy_impl` (replace_copy.hpp 66-110) -/
def replaceCopyIfIn (p : α → Bool) (v : α) (xs : List α) (c : Cont α) : Option (Cont α) :=
  collect c (fun args x => .go (args ++ [if p x then v else x])) (complate c) xs []

/-- `clamp_range_copy_impl_ra` (clamp_range_copy.hpp 31-70), `clamp_range` (clamp_range.hpp 22-42) -/
def clampRangeCopyRa (comp : α → α → Bool) (low high : α) (xs : List α) (c : Cont α) : Option (Cont α) :=
  packRa c xs.length fun i => (rdz xs i).map fun x => clamp comp x low high

/-- `clamp_range_copy_impl` (clamp_range_copy.hpp 72-122) -/
def clampRangeCopyIn (comp : α → α → Bool) (low high : α) (xs : List α) (c : Cont α) : Option (Cont α) :=
  collect c (fun args x => .go (args ++ [clamp comp x low high])) (complate c) xs []

/-! ## removal -/

/-- `remove_copy_if_impl` (remove_copy_if.hpp 26-67), `remove_copy_impl` (remove_copy.hpp 26-67), `remove_if` (remove_if.hpp
21-25), `remove` (remove.hpp 21-25) -/
def removeCopyIf (p : α → Bool) (xs : List α) (c : Cont α) : Option (Cont α) :=
  collect c (fun args x => .go (if p x then args else args ++ [x])) (complate c) xs []

/-- `unique_copy_impl` (unique_copy.hpp 105-139; 27-61 with `==`) -/
def uniqueCopyImpl (c : Cont α) (p : α → α → Bool) : List α → α → List α → Option (Cont α)
  | [], head, args =>
    if c.static = args.length + 1 then some (remake c c c.size (args ++ [head])) else complate c (args ++ [head])
  | x :: xs, head, args =>
    if c.static = args.length + 1 then some (remake c c c.size (args ++ [head]))
    else if (args.length + 1 : Int) < c.size then
      if !p head x then uniqueCopyImpl c p xs x (args ++ [head]) else uniqueCopyImpl c p xs head args
    else complate c (args ++ [head])

/-- `unique_copy` (unique_copy.hpp 141-151, 63-73), `unique` (unique.hpp 20-29) -/
def uniqueCopy (p : α → α → Bool) (xs : List α) (c : Cont α) : Option (Cont α) :=
  match xs with
  | [] => complate c []
  | x :: xs => uniqueCopyImpl c p xs x []

/-! ## order -/

/-- `reverse_copy_impl_ra` (reverse_copy.hpp 27-60), `reverse` (reverse.hpp 21-25) -/
def reverseCopyRa (xs : List α) (c : Cont α) : Option (Cont α) :=
  packRa c xs.length fun i => rdz xs (xs.length + -(1 + i))

/-- `reverse_copy_impl` (reverse_copy.hpp 62-99); the range is walked from its end -/
def reverseCopyIn (xs : List α) (c : Cont α) : Option (Cont α) :=
  collect c (fun args x => .go (args ++ [x])) (complate c) xs.reverse []

/-- `rotate_copy_impl_ra` (rotate_copy.hpp 29-70), `rotate` (rotate.hpp 22-26); `m` is the position of `middle` -/
def rotateCopyRa (xs : List α) (m : Nat) (c : Cont α) : Option (Cont α) :=
  packRa c xs.length fun i => if i < (xs.length - m : Int) then rdz xs (m + i) else rdz xs (i - (xs.length - m))

/-- `rotate_copy_impl`, `rotate_copy_impl_1` (rotate_copy.hpp 72-144) -/
def rotateCopyIn (xs : List α) (m : Nat) (c : Cont α) : Option (Cont α) :=
  collect c (fun args x => .go (args ++ [x])) (collect c (fun args x => .go (args ++ [x])) (complate c) (xs.take m)) (xs.drop m) []

/-- `swap_element_copy_impl_ra` (swap_element_copy.hpp 28-71); `p`, `q` are the positions in the range -/
def swapElementCopyRa (xs : List α) (p q : Int) (c : Cont α) : Option (Cont α) :=
  packRa c xs.length fun i => if i = p then rdz xs q else if i = q then rdz xs p else rdz xs i

/-- `swap_element_copy_impl` (swap_element_copy.hpp 73-119) -/
def swapElementCopyIn (xs : List α) (p q : Int) (c : Cont α) : Option (Cont α) :=
  collect c (fun args (k : Nat) => Step.read args (if (k : Int) = p then rdz xs q else if (k : Int) = q then rdz xs p else xs[k]?))
    (complate c) (List.range xs.length) []

/-- `partition_copy_impl` (partition_copy.hpp 23-62), `partition` (partition.hpp 22-26): the values that match go to the front,
one before the other -/
def partitionCopy (p : α → Bool) (xs : List α) (c : Cont α) : Option (Cont α) :=
  collect c (fun args x => .go (if p x then x :: args else args ++ [x])) (complate c) xs []

/-- `stable_partition_copy_impl`, `stable_partition_copy_impl_1` (stable_partition_copy.hpp 23-115), `stable_partition`
(stable_partition.hpp 22-26) -/
def stablePartitionCopy (p : α → Bool) (xs : List α) (c : Cont α) : Option (Cont α) :=
  collect c (fun args x => .go (if p x then args ++ [x] else args))
    (collect c (fun args x => .go (if !p x then args ++ [x] else args)) (complate c) xs) xs []

end Sprout.FixedAlg
