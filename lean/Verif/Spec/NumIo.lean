import Verif.Model.NumIo

/-!
# What reading back means
-/

namespace Sprout.Spec.Io
open Sprout.Opt (IStream)

/-- a good stream with these characters left -/
def at' (t : List Nat) : IStream := ⟨t, false, false⟩

/-- the stream after a number: nothing failed; the end has been seen if nothing is left -/
def after (t : List Nat) : IStream := ⟨t, false, decide (t = [])⟩

/-- what may follow a number: nothing, or one of `,` `)` `/` space and newline -/
def Stop (t : List Nat) : Prop := t = [] ∨ ∃ c u, t = c :: u ∧ c ∈ [44, 41, 47, 32, 10]

/-- the text of a value begins with neither white space nor a parenthesis -/
def Head (l : List Nat) : Prop := ∃ c u, l = c :: u ∧ c ∉ [9, 10, 11, 12, 13, 32, 40]

/-- numbers are read back as they were written -/
structure Codec {T : Type} (w : T → List Nat) (r : IStream → Option T × IStream) : Prop where
  head : ∀ v, Head (w v)
  back : ∀ v t, Stop t → r (at' (w v ++ t)) = (some v, after t)

/-- the states of an engine for which `P` holds are read back as they were written, whatever the engine was before -/
structure ECodec {G : Type} (P : G → Prop) (W : G → List Nat) (R : IStream → G → IStream × G) (Q : G → Prop) : Prop where
  head : ∀ g, P g → Head (W g)
  back : ∀ g old t, P g → Q old → Stop t → R (at' (W g ++ t)) old = (after t, g)

end Sprout.Spec.Io
