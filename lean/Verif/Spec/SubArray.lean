import Verif.Model.SubArray

/-! # Windows as sequences -/

namespace Sprout.SubArr

variable {α : Type}

/-- the window lies within the array, which is not larger than the address space -/
structure Ok (s : SubArr α) : Prop where
  f : 0 ≤ s.f
  fl : s.f ≤ s.l
  l : s.l ≤ s.arr.length
  big : s.arr.length < 2 ^ 64

/-- the elements shown -/
def vis (s : SubArr α) : List α := (s.arr.take s.l.toNat).drop s.f.toNat

/-- the elements of the array that are not shown: before and behind -/
def before (s : SubArr α) : List α := s.arr.take s.f.toNat
def behind (s : SubArr α) : List α := s.arr.drop s.l.toNat

/-- a valid window that shows `w` -/
def Shows (s : SubArr α) (w : List α) : Prop := s.Ok ∧ s.vis = w

end Sprout.SubArr
