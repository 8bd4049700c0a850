import Verif.Proofs.Bits2

/-! # C23: leading/trailing zero counts and bit length -/

namespace Sprout
open Spec
variable {w : Nat}

/-- `clz(x)`/`cntl0(x)` is the number of leading zeros (the width for 0). -/
theorem C23_clz (hw : Width w) (x : BitVec w) :
    ∃ k : Nat, clz x = some (k : Int) ∧ cntl0 x = some (k : Int) ∧ Leading false x k := by
  obtain ⟨k, hk⟩ := exists_leading false x
  exact ⟨k, clz_spec hw x hk, clz_spec hw x hk, hk⟩

/-- the leading count is determined by `Leading` -/
theorem C23_leading_unique {b : Bool} {x : BitVec w} {k l : Nat} (h1 : Leading b x k) (h2 : Leading b x l) : k = l :=
  leading_unique h1 h2

example : clz 0x00010000#32 = some 15 :=
  clz_spec ⟨2, rfl⟩ _ (k := 15) ⟨by decide, by decide, by decide⟩

/-- `ctz(x)`/`cntt0(x)` is the number of trailing zeros: the position of the lowest one bit for `x ≠ 0`. -/
theorem C23_ctz (hw : Width w) (x : BitVec w) :
    ∃ k : Nat, ctz x = some (k : Int) ∧ cntt0 x = some (k : Int) ∧ Trailing false x k := by
  obtain ⟨k, hk⟩ := exists_trailing false x
  exact ⟨k, ctz_spec hw x hk, ctz_spec hw x hk, hk⟩

theorem C23_trailing_unique {b : Bool} {x : BitVec w} {k l : Nat} (h1 : Trailing b x k) (h2 : Trailing b x l) :
    k = l := trailing_unique h1 h2

example : ctz 0x00010000#32 = some 16 :=
  ctz_spec ⟨2, rfl⟩ _ (k := 16) ⟨by decide, by decide, by decide⟩

/-- `cntt1(x)` is the number of trailing ones. -/
theorem C23_cntt1 (hw : Width w) (x : BitVec w) :
    ∃ k : Nat, cntt1 x = some (k : Int) ∧ Trailing true x k := by
  obtain ⟨k, hk⟩ := exists_trailing true x
  exact ⟨k, cntt1_spec hw x hk, hk⟩

example : cntt1 0xFF#8 = some 8 := cntt1_spec ⟨0, rfl⟩ _ (k := 8) ⟨by decide, by decide, by decide⟩

/-- `bit_length(x)` is the least `n` with `x < 2^n`. -/
theorem C23_bit_length (hw : Width w) (x : BitVec w) :
    ∃ r, bitLength x = some r ∧ Length x.toNat r.toNat := bitLength_spec hw x

example : ∃ r, bitLength 0x1234#16 = some r ∧ Length 0x1234 r.toNat := C23_bit_length ⟨1, rfl⟩ _
example : Length 0x1234 13 := ⟨by decide, by decide⟩

/-- The claim about `cntl1` for all widths. -/
def Cntl1Full : Prop :=
  ∀ (w : Nat), Width w → ∀ x : BitVec w, ∃ k : Nat, cntl1 x = some (k : Int) ∧ Leading true x k

/-- It fails for 8 and 16 bit types: `~x` is promoted to `int` and has leading ones, so the answer is 0.
Witness: `cntl1(uint8_t(0xFF)) = 0`. -/
theorem C23_cntl1_false : ¬ Cntl1Full := by
  intro h
  obtain ⟨k, h1, h2⟩ := h 8 ⟨0, rfl⟩ 0xFF#8
  rw [cntl1_narrow ⟨0, rfl⟩ (by omega)] at h1
  have hk : k = 0 := by
    have := Option.some.inj h1; omega
  subst hk
  have := h2.2.2 (by omega)
  revert this; decide

/-- With the compiler builtins enabled (gcc) it fails for 32 and 64 bits as well: `__builtin_clrsb` counts the
bits after the sign bit that equal it. Witness: `cntl1(0x0FFFFFFFu) = 3`. -/
theorem C23_cntl1_builtin_false :
    ¬ ∀ x : BitVec 32, ∃ k : Nat, cntl1Builtin x = (k : Int) ∧ Leading true x k := by
  intro h
  obtain ⟨k, h1, h2⟩ := h 0x0FFFFFFF#32
  have h3 : cntl1Builtin 0x0FFFFFFF#32 = 3 := by decide +kernel
  rw [h3] at h1
  have := h2.2.1 0 (by omega)
  revert this; decide

/-- What holds of `cntl1`: without the builtins it counts leading ones for types at least as wide as `int`;
for narrower types it is always 0.  Missing: the narrow types, and the builtin configuration. -/
theorem C23_cntl1_partial (hw : Width w) (x : BitVec w) :
    (32 ≤ w → ∃ k : Nat, cntl1 x = some (k : Int) ∧ Leading true x k) ∧ (w < 32 → cntl1 x = some 0) := by
  refine ⟨fun h => ?_, fun h => cntl1_narrow hw h x⟩
  obtain ⟨k, hk⟩ := exists_leading true x
  exact ⟨k, cntl1_wide hw h x hk, hk⟩

example : cntl1 0xFFF00000#32 = some 12 :=
  cntl1_wide ⟨2, rfl⟩ (by decide) _ (k := 12) ⟨by decide, by decide, by decide⟩

end Sprout
