import Verif.Spec.ContainerOps

/-! # Algorithms that return containers: what they are to give -/

namespace Sprout.FixedAlg

open ContOp

variable {α : Type}

deriving instance DecidableEq for Cont

instance (c : Cont α) : Decidable c.Ok :=
  match c with
  | .array _ => isTrue trivial
  | .string e n => inferInstanceAs (Decidable (n < e.length))
  | .sub (.array l) f t => inferInstanceAs (Decidable (0 ≤ f ∧ f ≤ t ∧ t ≤ l.length))
  | .sub (.string _ _) _ _ => isFalse id
  | .sub (.sub _ _ _) _ _ => isFalse id

/-- `ws` written over the beginning of `v`, as far as there is room -/
def writeFront (v ws : List α) : List α := ws.take v.length ++ v.drop ws.length

/-- `ws` written over the end of `v`, as far as there is room: the last elements remain -/
def writeBack (v ws : List α) : List α := v.take (v.length - ws.length) ++ ws.drop (ws.length - v.length)

/-- the first values of a generator -/
def genTerms {σ : Type} (g : σ → α × σ) : Nat → σ → List α
  | 0, _ => []
  | n + 1, s => (g s).1 :: genTerms g n (g s).2

/-- `n` more terms of the sequence in which every term is `gen` of the `k` terms before it -/
def recTerms (gen : List α → α) (k : Nat) : Nat → List α → List α
  | 0, l => l
  | n + 1, l => recTerms gen k n (l ++ [gen (l.drop (l.length - k))])

/-- the result is a container of the same `static_size`, with the window at the same place, that shows `w`; outside of the window
nothing has changed (characters behind the end of a string do not count) -/
def Rewrites (r : Option (Cont α)) (c : Cont α) (w : List α) : Prop :=
  ∃ x, r = some x ∧ x.Ok ∧ x.static = c.static ∧ x.beginOff = c.beginOff ∧ x.size = c.size ∧ x.vis = w ∧
    ((∀ e n, c ≠ .string e n) → (∀ e n, x ≠ .string e n) ∧ x.block.take c.beginOff.toNat = c.block.take c.beginOff.toNat ∧
      x.block.drop c.endOff.toNat = c.block.drop c.endOff.toNat)

end Sprout.FixedAlg
