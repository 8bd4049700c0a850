import Verif.Model.Valarray

/-! # Valarrays: what is expected -/

namespace Sprout.Valarray

variable {α : Type}

/-- a valid valarray: its size is at most that of the block, which is less than 2^64 -/
def VA.Ok (v : VA α) : Prop := v.len ≤ v.elems.length ∧ v.elems.length < 2 ^ 64

/-- the elements of a valarray -/
def VA.vis (v : VA α) : List α := v.elems.take v.len

/-- the outcome is a valid valarray over a block of `N` elements, with these elements -/
def Shows (r : Option (VA α)) (N : Nat) (l : List α) : Prop :=
  ∃ v, r = some v ∧ v.Ok ∧ v.elems.length = N ∧ v.len = l.length ∧ v.vis = l

/-- `shift` of the standard: element `k` is element `k + i`, or the default value if there is none -/
def shifted [Inhabited α] (l : List α) (i : Int) : List α :=
  (List.range l.length).map fun k : Nat => if 0 ≤ (k : Int) + i then l.getD ((k : Int) + i).toNat default else default

/-- `cshift` of the standard: element `k` is element `(k + i) mod size` -/
def cshifted [Inhabited α] (l : List α) (i : Int) : List α :=
  (List.range l.length).map fun k : Nat => l.getD (((k : Int) + i) % l.length).toNat default

/-- the positions of a slice -/
def slicePositions (start size stride : Nat) : List Nat := (List.range size).map fun i => start + i * stride

/-- the offsets of a generalised slice: all index tuples, the last index running fastest, times the strides -/
def gOffsets : List (Nat × Nat) → List Nat
  | [] => [0]
  | (n, d) :: r => (List.range n).flatMap fun i => (gOffsets r).map fun o => i * d + o

/-- the positions of a generalised slice -/
def gPositions (start : Nat) (l : List (Nat × Nat)) : List Nat := (gOffsets l).map fun o => start + o

/-- the positions at which a mask is true -/
def maskPositions (m : List Bool) : List Nat := (List.range m.length).filter fun i => m.getD i false

/-- the subset shows the positions `ps`, in this order -/
def Selects (s : Subset) (ps : List Nat) : Prop := s.size = ps.length ∧ ∀ (i : Nat) (h : i < ps.length), s.pos i = some ps[i]

/-- the block `r` is the block `m` after `xs` has been written to the positions `ps`: the last write to a position counts -/
def Written (m : List α) (ps : List Nat) (xs r : List α) : Prop :=
  r.length = m.length ∧
  (∀ j : Nat, j ∉ ps.take xs.length → r[j]? = m[j]?) ∧
  ∀ (k j : Nat) (x : α), ps[k]? = some j → xs[k]? = some x → j ∉ (ps.take xs.length).drop (k + 1) → r[j]? = some x

/-- the block `r` is the block `m` after `op` has been applied at the positions `ps` (all different), with `xs` as the right operands -/
def Computed (op : α → α → α) (m : List α) (ps : List Nat) (xs r : List α) : Prop :=
  r.length = m.length ∧
  (∀ j : Nat, j ∉ ps.take xs.length → r[j]? = m[j]?) ∧
  ∀ (k j : Nat) (x y : α), ps[k]? = some j → xs[k]? = some x → m[j]? = some y → r[j]? = some (op y x)

end Sprout.Valarray
