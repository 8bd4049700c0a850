import Verif.Basic

/-! # The character classes of ISO C 7.4 in the "C" locale, on ASCII codes -/

namespace Sprout.Spec.Ctype

def lower (c : Int) : Prop := 0x61 ≤ c ∧ c ≤ 0x7A
def upper (c : Int) : Prop := 0x41 ≤ c ∧ c ≤ 0x5A
def digit (c : Int) : Prop := 0x30 ≤ c ∧ c ≤ 0x39
def alpha (c : Int) : Prop := lower c ∨ upper c
def alnum (c : Int) : Prop := alpha c ∨ digit c
def xdigit (c : Int) : Prop := digit c ∨ (0x41 ≤ c ∧ c ≤ 0x46) ∨ (0x61 ≤ c ∧ c ≤ 0x66)
/-- space and horizontal tab -/
def blank (c : Int) : Prop := c = 0x20 ∨ c = 0x09
/-- space, `\t \n \v \f \r` -/
def space (c : Int) : Prop := c = 0x20 ∨ (0x09 ≤ c ∧ c ≤ 0x0D)
def cntrl (c : Int) : Prop := (0 ≤ c ∧ c ≤ 0x1F) ∨ c = 0x7F
def print (c : Int) : Prop := 0x20 ≤ c ∧ c ≤ 0x7E
def graph (c : Int) : Prop := print c ∧ c ≠ 0x20
def punct (c : Int) : Prop := graph c ∧ ¬ alnum c

instance : DecidablePred lower := fun c => by unfold lower; infer_instance
instance : DecidablePred upper := fun c => by unfold upper; infer_instance
instance : DecidablePred digit := fun c => by unfold digit; infer_instance
instance : DecidablePred alpha := fun c => by unfold alpha; infer_instance
instance : DecidablePred alnum := fun c => by unfold alnum; infer_instance
instance : DecidablePred xdigit := fun c => by unfold xdigit; infer_instance
instance : DecidablePred blank := fun c => by unfold blank; infer_instance
instance : DecidablePred space := fun c => by unfold space; infer_instance
instance : DecidablePred cntrl := fun c => by unfold cntrl; infer_instance
instance : DecidablePred print := fun c => by unfold print; infer_instance
instance : DecidablePred graph := fun c => by unfold graph; infer_instance
instance : DecidablePred punct := fun c => by unfold punct; infer_instance

end Sprout.Spec.Ctype
