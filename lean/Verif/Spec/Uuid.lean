import Verif.Basic

/-!
# Textual forms of a uuid (RFC 4122 section 3, and the usual braces)
-/

namespace Sprout.Spec.Uuid

/-- `c` is a hexadecimal digit with value `v` -/
def HexDigit (c : Int) (v : Nat) : Prop :=
  (48 ≤ c ∧ c ≤ 57 ∧ c = v + 48) ∨ (97 ≤ c ∧ c ≤ 102 ∧ c = v + 87) ∨ (65 ≤ c ∧ c ≤ 70 ∧ c = v + 55)

/-- `s` is a sequence of two-digit bytes, high digit first -/
inductive Hex : List Int → List (BitVec 8) → Prop
  | nil : Hex [] []
  | cons {h l : Int} {a b : Nat} {s : List Int} {bs : List (BitVec 8)} :
      HexDigit h a → HexDigit l b → Hex s bs → Hex (h :: l :: s) (BitVec.ofNat 8 (16 * a + b) :: bs)

/-- 32 digits, or 8-4-4-4-12 digits with dashes -/
inductive Body : List Int → List (BitVec 8) → Prop
  | plain {s bs} : Hex s bs → bs.length = 16 → Body s bs
  | dashed {s1 s2 s3 s4 s5 b1 b2 b3 b4 b5} : Hex s1 b1 → Hex s2 b2 → Hex s3 b3 → Hex s4 b4 → Hex s5 b5 →
      b1.length = 4 → b2.length = 2 → b3.length = 2 → b4.length = 2 → b5.length = 6 →
      Body (s1 ++ [45] ++ s2 ++ [45] ++ s3 ++ [45] ++ s4 ++ [45] ++ s5) (b1 ++ b2 ++ b3 ++ b4 ++ b5)

/-- a body, possibly in braces -/
inductive Form : List Int → List (BitVec 8) → Prop
  | bare {s bs} : Body s bs → Form s bs
  | braced {s bs} : Body s bs → Form ([123] ++ s ++ [125]) bs

end Sprout.Spec.Uuid
