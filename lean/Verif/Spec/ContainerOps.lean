import Verif.Model.ContOp

/-! # Containers as sequences -/

namespace Sprout.ContOp

variable {α : Type}

/-- the elements from `begin` to `end` -/
def Cont.vis (c : Cont α) : List α := (c.block.drop c.beginOff.toNat).take c.size.toNat

/-- valid containers: arrays, strings, and windows of arrays -/
def Cont.Ok : Cont α → Prop
  | .array _ => True
  | .string e n => n < e.length
  | .sub (.array l) f t => 0 ≤ f ∧ f ≤ t ∧ t ≤ l.length
  | .sub _ _ _ => False

/-- all elements from `begin` to `end` exist -/
def Cont.InBounds (c : Cont α) : Prop :=
  0 ≤ c.beginOff ∧ 0 ≤ c.size ∧ c.endOff = c.beginOff + c.size ∧ c.endOff ≤ c.block.length

/-- insertion of `ws` at the position `p` -/
def splice (l : List α) (p : Nat) (ws : List α) : List α := l.take p ++ ws ++ l.drop p

/-- removal of `n` elements from the position `p` on -/
def cut (l : List α) (p n : Nat) : List α := l.take p ++ l.drop (p + n)

/-- the first `n` elements, followed by `v` as often as needed -/
def fitTo (l : List α) (n : Nat) (v : α) : List α := l.take n ++ List.replicate (n - l.length) v

/-- the last `n` elements, preceded by `v` as often as needed -/
def fitToBack (l : List α) (n : Nat) (v : α) : List α := List.replicate (n - l.length) v ++ l.drop (l.length - n)

/-- arrays show all of their elements -/
def tailOf : Cont α → List α → List α
  | .array _, Z => Z
  | _, _ => []

/-- strings end at the first zero -/
def upTo [Inhabited α] [DecidableEq α] (shape : Cont α) (l : List α) : List α :=
  match shape with
  | .string _ _ => l.take (l.idxOf default)
  | _ => l

/-- the operation ends with a valid container of `static_size` `n` that shows `w` -/
def Gives (r : Option (Cont α)) (n : Nat) (w : List α) : Prop := ∃ x, r = some x ∧ x.Ok ∧ x.static = n ∧ x.vis = w

/-- the operation ends with a window, all of whose elements exist, that shows `w` -/
def Shows (r : Option (Cont α)) (w : List α) : Prop := ∃ x, r = some x ∧ x.InBounds ∧ x.vis = w

end Sprout.ContOp
