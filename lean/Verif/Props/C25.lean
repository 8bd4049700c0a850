import Verif.Proofs.Bits3

/-! # C25: single-bit and trailing-bit manipulations -/

namespace Sprout
open Spec
variable {w : Nat}

/-- `setbit`, `rstbit`, `flipbit` change exactly bit `b`; `testbit` reads it. -/
theorem C25_single (x : BitVec w) (b : Nat) (hb : b < w) :
    (∃ r, setbit x b = some r ∧ ∀ i < w, r.getLsbD i = if i = b then true else x.getLsbD i) ∧
    (∃ r, rstbit x b = some r ∧ ∀ i < w, r.getLsbD i = if i = b then false else x.getLsbD i) ∧
    (∃ r, flipbit x b = some r ∧ ∀ i < w, r.getLsbD i = if i = b then !x.getLsbD i else x.getLsbD i) ∧
    testbit x b = some (x.getLsbD b) := by
  have hp := le_prom w
  have e := @shlP_one w b (by omega)
  refine ⟨⟨_, by unfold setbit; rw [e]; rfl, ?_⟩, ⟨_, by unfold rstbit; rw [e]; rfl, ?_⟩,
    ⟨_, by unfold flipbit; rw [e]; rfl, ?_⟩, ?_⟩
  · intro i hi
    rw [back_getLsbD _ hi, BitVec.getLsbD_or, ext_getLsbD, one_shl_getLsbD (by omega)]
    by_cases h : i = b <;> simp [h]
  · intro i hi
    have h' : i < prom w := by omega
    rw [back_getLsbD _ hi, BitVec.getLsbD_and, BitVec.getLsbD_not, ext_getLsbD, one_shl_getLsbD (by omega)]
    by_cases h : i = b <;> simp [h, h']
  · intro i hi
    rw [back_getLsbD _ hi, BitVec.getLsbD_xor, ext_getLsbD, one_shl_getLsbD (by omega)]
    by_cases h : i = b <;> simp [h]
  · unfold testbit
    rw [e]
    simp only [Option.bind_eq_bind, Option.bind_some]
    congr 1
    cases hx : x.getLsbD b with
    | false =>
      rw [bne_eq_false_iff_eq]
      apply BitVec.eq_of_getLsbD_eq
      intro i hi
      rw [BitVec.getLsbD_and, ext_getLsbD, one_shl_getLsbD hi]
      by_cases h : i = b <;> simp [h, hx]
    | true =>
      rw [bne_iff_ne]
      intro h0
      have : (ext x &&& (1 : BitVec (prom w)) <<< b).getLsbD b = false := by rw [h0]; simp
      rw [BitVec.getLsbD_and, ext_getLsbD, one_shl_getLsbD (by omega), hx] at this
      simp at this

example : ∃ r, setbit 0x0F#8 ((7 : Nat) : Int) = some r ∧
    ∀ i < 8, r.getLsbD i = if i = 7 then true else (0x0F#8).getLsbD i := (C25_single 0x0F#8 7 (by decide)).1
example : testbit 0x0F#8 ((3 : Nat) : Int) = some true := (C25_single 0x0F#8 3 (by decide)).2.2.2

/-- the `ge` versions affect exactly the bits at positions `≥ b` -/
theorem C25_ge (x : BitVec w) (b : Nat) (hb : b < w) :
    (∃ r, setbitsge x b = some r ∧ ∀ i < w, r.getLsbD i = if b ≤ i then true else x.getLsbD i) ∧
    (∃ r, rstbitsge x b = some r ∧ ∀ i < w, r.getLsbD i = if b ≤ i then false else x.getLsbD i) ∧
    (∃ r, flipbitsge x b = some r ∧ ∀ i < w, r.getLsbD i = if b ≤ i then !x.getLsbD i else x.getLsbD i) := by
  have hp := le_prom w
  have e := @shlP_one w b (by omega)
  refine ⟨⟨_, by unfold setbitsge; rw [e]; rfl, ?_⟩, ⟨_, by unfold rstbitsge; rw [e]; rfl, ?_⟩,
    ⟨_, by unfold flipbitsge; rw [e]; rfl, ?_⟩⟩
  all_goals
    intro i hi
    have h' : i < prom w := by omega
    have hm := @low_mask_getLsbD w b i (by omega) h'
    rw [back_getLsbD _ hi]
    simp only [BitVec.getLsbD_or, BitVec.getLsbD_and, BitVec.getLsbD_xor, BitVec.getLsbD_not, ext_getLsbD, hm, h']
    rcases Nat.lt_or_ge i b with h | h
    · have : ¬ b ≤ i := by omega
      simp [h, this]
    · have : ¬ i < b := by omega
      simp [h, this]

example : ∃ r, rstbitsge 0xFF#8 ((4 : Nat) : Int) = some r ∧
    ∀ i < 8, r.getLsbD i = if 4 ≤ i then false else (0xFF#8).getLsbD i := (C25_ge 0xFF#8 4 (by decide)).2.1

/-- The property for the `le` versions, for all bit positions. -/
def LeFull : Prop :=
  ∀ (w : Nat), Width w → ∀ (x : BitVec w) (b : Nat), b < w →
    (∃ r, setbitsle x b = some r ∧ ∀ i < w, r.getLsbD i = if i ≤ b then true else x.getLsbD i) ∧
    (∃ r, rstbitsle x b = some r ∧ ∀ i < w, r.getLsbD i = if i ≤ b then false else x.getLsbD i) ∧
    (∃ r, flipbitsle x b = some r ∧ ∀ i < w, r.getLsbD i = if i ≤ b then !x.getLsbD i else x.getLsbD i)

/-- It fails for the topmost bit of a type at least as wide as `int`: `1 << (b + 1)` shifts by the full width. -/
theorem C25_le_false : ¬ LeFull := by
  intro h
  obtain ⟨⟨r, h1, -⟩, -⟩ := h 32 ⟨2, rfl⟩ 0#32 31 (by omega)
  have h2 : setbitsle 0#32 ((31 : Nat) : Int) = none := by decide +kernel
  rw [h2] at h1; simp at h1

/-- on such types the topmost position is undefined for every value -/
theorem C25_le_top_undefined (h32 : 32 ≤ w) (x : BitVec w) :
    setbitsle x ((w - 1 : Nat) : Int) = none ∧ rstbitsle x ((w - 1 : Nat) : Int) = none ∧
      flipbitsle x ((w - 1 : Nat) : Int) = none := by
  have hp : prom w = w := by unfold prom; omega
  have e : shlP w 1 (((w - 1 : Nat) : Int) + 1) = none := by
    unfold shlP; rw [if_neg (by omega)]
  unfold setbitsle rstbitsle flipbitsle
  rw [e]; exact ⟨rfl, rfl, rfl⟩

example : setbitsle 5#64 63 = none := (C25_le_top_undefined (w := 64) (by decide) 5#64).1

/-- What holds: the `le` versions affect exactly the bits at positions `≤ b`, unless `b` is the topmost bit of a type
at least as wide as `int`. -/
theorem C25_le_partial (x : BitVec w) (b : Nat) (hb : b < w) (h0 : b + 1 < w ∨ w < 32) :
    (∃ r, setbitsle x b = some r ∧ ∀ i < w, r.getLsbD i = if i ≤ b then true else x.getLsbD i) ∧
    (∃ r, rstbitsle x b = some r ∧ ∀ i < w, r.getLsbD i = if i ≤ b then false else x.getLsbD i) ∧
    (∃ r, flipbitsle x b = some r ∧ ∀ i < w, r.getLsbD i = if i ≤ b then !x.getLsbD i else x.getLsbD i) := by
  have hp := le_prom w
  have hb1 : b + 1 < prom w := by
    rcases h0 with h | h
    · omega
    · unfold prom; omega
  have e : shlP w 1 ((b : Int) + 1) = some ((1 : BitVec (prom w)) <<< (b + 1)) := @shlP_one w (b + 1) hb1
  refine ⟨⟨_, by unfold setbitsle; rw [e]; rfl, ?_⟩, ⟨_, by unfold rstbitsle; rw [e]; rfl, ?_⟩,
    ⟨_, by unfold flipbitsle; rw [e]; rfl, ?_⟩⟩
  all_goals
    intro i hi
    have h' : i < prom w := by omega
    have hm := @low_mask_getLsbD w (b + 1) i (by omega) h'
    rw [back_getLsbD _ hi]
    simp only [BitVec.getLsbD_or, BitVec.getLsbD_and, BitVec.getLsbD_xor, BitVec.getLsbD_not, ext_getLsbD, hm, h']
    rcases Nat.lt_or_ge i (b + 1) with h | h
    · have : i ≤ b := by omega
      simp [h, this]
    · have h1 : ¬ i < b + 1 := by omega
      have : ¬ i ≤ b := by omega
      simp [h1, this]

example : ∃ r, setbitsle 0x80#8 ((3 : Nat) : Int) = some r ∧
    ∀ i < 8, r.getLsbD i = if i ≤ 3 then true else (0x80#8).getLsbD i :=
  (C25_le_partial 0x80#8 3 (by decide) (Or.inr (by decide))).1

/-- Operations relative to the lowest one bit: position `i` is at or below the lowest one iff all bits below `i` are
zero. Bit by bit, for every value including 0:
`isols1b` keeps only the lowest one, `rstls1b` clears it, `sett0` sets the trailing zeros, `maskt0` is the mask of the
trailing zeros, `maskt0ls1b` the mask of the trailing zeros and the lowest one. -/
theorem C25_lowest_one (x : BitVec w) (i : Nat) (hi : i < w) :
    ((isols1b x).getLsbD i = true ↔ x.getLsbD i = true ∧ AllBelow false x i) ∧
    ((rstls1b x).getLsbD i = true ↔ x.getLsbD i = true ∧ ¬ AllBelow false x i) ∧
    ((sett0 x).getLsbD i = true ↔ x.getLsbD i = true ∨ AllBelow false x (i + 1)) ∧
    ((maskt0 x).getLsbD i = true ↔ AllBelow false x (i + 1)) ∧
    ((maskt0ls1b x).getLsbD i = true ↔ AllBelow false x i) := by
  have hp := le_prom w
  have hi' : i < prom w := by omega
  have hs : AllBelow false x (i + 1) ↔ AllBelow false x i ∧ x.getLsbD i = false := by
    constructor
    · intro h; exact ⟨fun j hj => h j (by omega), h i (by omega)⟩
    · rintro ⟨h1, h2⟩ j hj
      by_cases hji : j = i
      · rw [hji]; exact h2
      · exact h1 j (by omega)
  unfold isols1b rstls1b sett0 maskt0 maskt0ls1b
  simp only [back_getLsbD _ hi, BitVec.getLsbD_or, BitVec.getLsbD_and, BitVec.getLsbD_xor, BitVec.getLsbD_not,
    ext_sub_one hi, ext_neg hi, ext_getLsbD, hi', hs]
  by_cases h : AllBelow false x i <;> cases hx : x.getLsbD i <;> simp [h]

/-- Operations relative to the lowest zero bit. -/
theorem C25_lowest_zero (x : BitVec w) (i : Nat) (hi : i < w) :
    ((isols0b x).getLsbD i = true ↔ x.getLsbD i = false ∧ AllBelow true x i) ∧
    ((setls0b x).getLsbD i = true ↔ x.getLsbD i = true ∨ AllBelow true x i) ∧
    ((rstt1 x).getLsbD i = true ↔ x.getLsbD i = true ∧ ¬ AllBelow true x (i + 1)) ∧
    ((maskt1 x).getLsbD i = true ↔ AllBelow true x (i + 1)) ∧
    ((maskt1ls0b x).getLsbD i = true ↔ AllBelow true x i) := by
  have hp := le_prom w
  have hi' : i < prom w := by omega
  have hs : AllBelow true x (i + 1) ↔ AllBelow true x i ∧ x.getLsbD i = true := by
    constructor
    · intro h; exact ⟨fun j hj => h j (by omega), h i (by omega)⟩
    · rintro ⟨h1, h2⟩ j hj
      by_cases hji : j = i
      · rw [hji]; exact h2
      · exact h1 j (by omega)
  unfold isols0b setls0b rstt1 maskt1 maskt1ls0b
  simp only [back_getLsbD _ hi, BitVec.getLsbD_or, BitVec.getLsbD_and, BitVec.getLsbD_xor, BitVec.getLsbD_not,
    ext_add_one hi, ext_getLsbD, hi', hs]
  by_cases h : AllBelow true x i <;> cases hx : x.getLsbD i <;> simp [h]

example : isols1b 0b01101000#8 = 0b00001000#8 := by decide
example : maskt0 0b01101000#8 = 0b00000111#8 := by decide
example : rstt1 0b01100111#8 = 0b01100000#8 := by decide
example : (isols1b 0b01101000#8).getLsbD 3 = true :=
  (C25_lowest_one 0b01101000#8 3 (by decide)).1.2 (by decide)

end Sprout
