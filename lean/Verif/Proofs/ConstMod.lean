import Verif.Model.ConstMod
import Verif.Proofs.CInt
import Mathlib.Tactic.Ring
import Mathlib.Tactic.LinearCombination
import Mathlib.Data.Int.ModEq

/-! # Arithmetic of `const_mod` -/

namespace Sprout.CInt

theorem ar_ok {T : CInt} (hT : T.Std) {x : Int} (hx : T.Has x) : T.ar x = some x := by
  rw [ar, arith_ok hT hx]; exact congrArg some (conv_ok hT hx)

theorem rem_ok {T : CInt} (hT : T.Std) {x y : Int} (hx0 : 0 ≤ x) (hx : x ≤ T.max) (hy : 0 < y) : T.rem x y = some (x % y) := by
  obtain ⟨h1, h2, -⟩ := hT.bounds
  have := Int.ediv_nonneg hx0 (by omega : 0 ≤ y)
  have := Int.ediv_le_self y hx0
  have := Int.emod_nonneg x (by omega : y ≠ 0)
  have : x % y ≤ x := by
    have := Int.mul_ediv_add_emod x y
    have : 0 ≤ y * (x / y) := Int.mul_nonneg (by omega) (by omega)
    omega
  rw [rem, if_neg (by omega), Int.tdiv_eq_ediv_of_nonneg hx0, Int.tmod_eq_emod_of_nonneg hx0, arith_ok hT (by unfold Has; omega)]
  exact arith_ok hT (by unfold Has; omega)

theorem has_nn {T : CInt} (hT : T.Std) {x : Int} (h0 : 0 ≤ x) (h : x ≤ T.max) : T.Has x := by
  obtain ⟨h1, h2, -⟩ := hT.bounds
  unfold Has; omega

theorem uns_std {T : CInt} (hT : T.Std) : T.uns.Std := hT

theorem uns_max {T : CInt} (hT : T.Std) : T.max ≤ T.uns.max := by
  obtain ⟨w, sg⟩ := T
  simp only [Std, max, uns] at *
  rcases hT with rfl | rfl | rfl | rfl <;> cases sg <;> simp

theorem max_lt {T : CInt} (hT : T.Std) : T.max < 2 ^ T.w := by
  obtain ⟨w, sg⟩ := T
  simp only [Std, max] at *
  rcases hT with rfl | rfl | rfl | rfl <;> cases sg <;> simp

theorem uns_conv_nn {T : CInt} (hT : T.Std) {x : Int} (h0 : 0 ≤ x) (h : x ≤ T.max) : T.uns.conv x = x :=
  conv_ok (uns_std hT) (has_nn (uns_std hT) h0 (Int.le_trans h (uns_max hT)))

theorem uns_conv (T : CInt) (x : Int) : T.uns.conv x = x % 2 ^ T.w := by
  simp [conv, uns, min]

end Sprout.CInt

namespace Sprout.CMod
open CInt

theorem emod_unique {y r m k : Int} (h0 : 0 ≤ r) (h1 : r < m) (h : y = r + m * k) : y % m = r := by
  rw [h, Int.add_mul_emod_self_left, Int.emod_eq_of_lt h0 h1]

/-- the usable moduli of a type -/
structure Mod (T : CInt) (m : Int) : Prop where
  std : T.Std
  pos : 1 ≤ m
  le : m ≤ T.max

theorem toNat_two_pow (k : Nat) : ((2 : Int) ^ k).toNat = 2 ^ k := by
  rw [show (2 : Int) ^ k = ((2 ^ k : Nat) : Int) by norm_cast, Int.toNat_natCast]

theorem pow2_iff {m : Int} (hm : 1 ≤ m) : pow2 m = true ↔ ∃ k : Nat, m = 2 ^ k := by
  unfold pow2
  rw [beq_iff_eq, Nat.and_comm, Nat.and_sub_one_eq_zero_iff_isPowerOfTwo (by omega)]
  constructor
  · rintro ⟨k, hk⟩
    exact ⟨k, by rw [← Int.toNat_of_nonneg (by omega : 0 ≤ m), hk]; norm_cast⟩
  · rintro ⟨k, rfl⟩
    exact ⟨k, toNat_two_pow k⟩

theorem Mod.pow2_dvd {T : CInt} {m : Int} (h : Mod T m) (hp : pow2 m = true) : m ∣ 2 ^ T.w ∧ (T.w < 32 → m * 2 ^ T.w ≤ 2 ^ 31) := by
  obtain ⟨k, rfl⟩ := (pow2_iff h.pos).1 hp
  have hk : k < T.w := by
    by_contra hc
    have h1 : (2 : Int) ^ T.w ≤ 2 ^ k := pow_le_pow_right₀ (by omega) (by omega)
    have h2 := max_lt h.std
    have h3 := h.le
    omega
  refine ⟨pow_dvd_pow _ (by omega), fun hw => ?_⟩
  rw [← pow_add]
  refine pow_le_pow_right₀ (by omega) ?_
  have hs := h.std
  simp only [Std] at hs
  omega

theorem andMask_eq {T : CInt} {m e : Int} (h : Mod T m) (hp : pow2 m = true) (he : 0 ≤ e) : andMask T m e = e % m := by
  obtain ⟨k, rfl⟩ := (pow2_iff h.pos).1 hp
  have h1 := toNat_two_pow k
  unfold andMask
  rw [h1, Nat.and_two_pow_sub_one_eq_mod]
  have h2 : ((e.toNat % 2 ^ k : Nat) : Int) = e % 2 ^ k := by
    rw [Int.natCast_emod, Int.toNat_of_nonneg he]; simp
  rw [h2]
  have := Int.emod_nonneg e (by have := h.pos; omega : (2 : Int) ^ k ≠ 0)
  have := Int.emod_lt_of_pos e (by have := h.pos; omega : (0 : Int) < 2 ^ k)
  exact conv_ok h.std (has_nn h.std (by omega) (by have := h.le; omega))

theorem uns_arith {T : CInt} {m x : Int} (h : Mod T m) (hp : pow2 m = true) (h0 : 0 ≤ x) (hx : T.w < 32 → x < 2 ^ 31) :
    ∃ y, T.uns.arith x = some y ∧ 0 ≤ y ∧ y % m = x % m ∧ y ≤ x := by
  unfold arith
  by_cases hw : T.uns.w < 32
  · rw [if_pos hw, if_pos ⟨by omega, hx hw⟩]
    exact ⟨x, rfl, h0, rfl, Int.le_refl _⟩
  · rw [if_neg hw, if_neg (by simp [uns])]
    have hne : (2 : Int) ^ T.uns.w ≠ 0 := by positivity
    have := Int.emod_nonneg x hne
    refine ⟨_, rfl, this, Int.emod_emod_of_dvd _ (h.pow2_dvd hp).1, ?_⟩
    have h3 := Int.mul_ediv_add_emod x (2 ^ T.uns.w)
    have : 0 ≤ (2 : Int) ^ T.uns.w * (x / 2 ^ T.uns.w) := Int.mul_nonneg (by positivity) (Int.ediv_nonneg h0 (by positivity))
    omega

/-- unsigned conversion of any value of the type -/
theorem uns_any {T : CInt} {m : Int} (h : Mod T m) (hp : pow2 m = true) (x : Int) :
    0 ≤ T.uns.conv x ∧ T.uns.conv x < 2 ^ T.w ∧ T.uns.conv x % m = x % m := by
  rw [uns_conv]
  exact ⟨Int.emod_nonneg _ (by positivity), Int.emod_lt_of_pos _ (by positivity), Int.emod_emod_of_dvd _ (h.pow2_dvd hp).1⟩

theorem mult_pow2 {T : CInt} {m a x : Int} (h : Mod T m) (hp : pow2 m = true) (ha : (0 ≤ a ∧ a < m) ∨ (0 ≤ x ∧ x < m)) :
    mult T m a x = some (a * x % m) := by
  obtain ⟨a0, a1, a2⟩ := uns_any h hp a
  obtain ⟨x0, x1, x2⟩ := uns_any h hp x
  have hle := h.le
  have hb : T.w < 32 → T.uns.conv a * T.uns.conv x < 2 ^ 31 := by
    intro hw
    have h1 := (h.pow2_dvd hp).2 hw
    rcases ha with ⟨u, v⟩ | ⟨u, v⟩
    · rw [uns_conv_nn h.std u (by omega)]
      nlinarith
    · rw [uns_conv_nn h.std u (by omega)]
      nlinarith
  obtain ⟨y, hy, y0, y1, -⟩ := uns_arith h hp (Int.mul_nonneg a0 x0) hb
  rw [mult, if_pos hp, hy]
  simp only [Option.bind_eq_bind, Option.bind_some]
  rw [andMask_eq h hp y0, y1, Int.mul_emod, a2, x2, ← Int.mul_emod]

theorem multAdd_pow2 {T : CInt} {m a x c : Int} (h : Mod T m) (hp : pow2 m = true) (ha : 0 ≤ a ∧ a < m) (hx : 0 ≤ x ∧ x < m) (hc : 0 ≤ c ∧ c < m) :
    multAdd T m a x c = some ((a * x + c) % m) := by
  have hle := h.le
  rw [multAdd, if_pos hp, uns_conv_nn h.std ha.1 (by omega), uns_conv_nn h.std hx.1 (by omega), uns_conv_nn h.std hc.1 (by omega)]
  have h2 := max_lt h.std
  have hmm : T.w < 32 → m * m ≤ 2 ^ 30 := by
    intro hw
    have h1 := (h.pow2_dvd hp).2 hw
    rcases h.std with e | e | e | e <;> rw [e] at h1 h2 hw <;> first | omega | nlinarith
  have hax : a * x + c ≤ m * m - m + (m - 1) := by nlinarith
  have hax0 : 0 ≤ a * x := Int.mul_nonneg ha.1 hx.1
  obtain ⟨y, hy, y0, y1, y2⟩ := uns_arith (x := a * x) h hp hax0 (fun hw => by have := hmm hw; omega)
  obtain ⟨z, hz, z0, z1, -⟩ := uns_arith (x := y + c) h hp (by omega) (fun hw => by have := hmm hw; omega)
  rw [hy]
  simp only [Option.bind_eq_bind, Option.bind_some]
  rw [hz]
  simp only [Option.bind_some]
  rw [andMask_eq h hp z0, z1, Int.add_emod, y1, ← Int.add_emod]

theorem add_eq {T : CInt} {m x c : Int} (h : Mod T m) (hx : 0 ≤ x ∧ x < m) (hc : 0 ≤ c ∧ c < m) :
    add T m x c = some ((x + c) % m) := by
  have hle := h.le
  by_cases hp : pow2 m = true
  · rw [add, if_pos hp, uns_conv_nn h.std hx.1 (by omega), uns_conv_nn h.std hc.1 (by omega)]
    have h2 := max_lt h.std
    obtain ⟨y, hy, y0, y1, -⟩ := uns_arith (x := x + c) h hp (by omega) (fun hw => by
      rcases h.std with e | e | e | e <;> rw [e] at h2 <;> omega)
    rw [hy]
    simp only [Option.bind_eq_bind, Option.bind_some]
    rw [andMask_eq h hp y0, y1]
  · rw [add, if_neg hp]
    split
    · rename_i h0; subst h0; rw [Int.add_zero, Int.emod_eq_of_lt hx.1 hx.2]
    · rw [arith_ok h.std (has_nn h.std (by omega) (by omega))]
      simp only [Option.bind_eq_bind, Option.bind_some]
      split
      · rw [ar_ok h.std (has_nn h.std (by omega) (by omega)), Int.emod_eq_of_lt (by omega) (by omega)]
      · rw [ar_ok h.std (has_nn h.std (by omega) (by omega)), emod_unique (r := x - (m - c)) (k := 1) (by omega) (by omega) (by omega)]

theorem sub_eq {T : CInt} {m a b : Int} (h : Mod T m) (ha : 0 ≤ a ∧ a < m) (hb : 0 ≤ b ∧ b < m) :
    sub T m a b = some ((a - b) % m) := by
  have hle := h.le
  unfold sub
  split
  · rw [arith_ok h.std (has_nn h.std (by omega) (by omega))]
    simp only [Option.bind_eq_bind, Option.bind_some]
    rw [ar_ok h.std (has_nn h.std (by omega) (by omega)), emod_unique (r := m - (b - a)) (k := -1) (by omega) (by omega) (by omega)]
  · rw [ar_ok h.std (has_nn h.std (by omega) (by omega)), Int.emod_eq_of_lt (by omega) (by omega)]

/-- Schrage's method -/
theorem multSchrage_eq {T : CInt} {m a x : Int} (h : Mod T m) (ha : 1 ≤ a ∧ a < m) (hx : 0 ≤ x ∧ x < m) (hr : m % a < m / a) :
    multSchrage T m a x = some (a * x % m) := by
  have hle := h.le
  have e1 := Int.mul_ediv_add_emod m a
  have r0 := Int.emod_nonneg m (by omega : a ≠ 0)
  have q0 : 0 < m / a := by omega
  have q1 := Int.ediv_le_self a (by omega : 0 ≤ m)
  unfold multSchrage
  rw [div_ok h.std (by omega) hle (by omega), rem_ok h.std (by omega) hle (by omega)]
  simp only [Option.map_some, Option.bind_eq_bind, Option.bind_some]
  rw [conv_ok h.std (has_nn h.std (by omega) (by omega)), conv_ok h.std (has_nn h.std (by omega) (by omega)), if_pos hr,
    rem_ok h.std hx.1 (by omega) q0]
  generalize hq : m / a = q at *
  generalize hrr : m % a = r at *
  have e2 := Int.mul_ediv_add_emod x q
  have v0 := Int.emod_nonneg x (by omega : q ≠ 0)
  have v1 := Int.emod_lt_of_pos x q0
  have w0 := Int.ediv_nonneg hx.1 (by omega : 0 ≤ q)
  rw [div_ok h.std hx.1 (by omega) q0]
  generalize x % q = v at *
  generalize x / q = w at *
  have b1 : a * v < m := by nlinarith
  have b2 : r * w < m := by nlinarith
  have b3 : 0 ≤ a * v := Int.mul_nonneg (by omega) v0
  have b4 : 0 ≤ r * w := Int.mul_nonneg r0 w0
  simp only [Option.bind_some]
  rw [ar_ok h.std (has_nn h.std b3 (by omega))]
  simp only [Option.bind_some]
  rw [ar_ok h.std (has_nn h.std b4 (by omega))]
  simp only [Option.bind_some]
  rw [sub_eq h ⟨b3, b1⟩ ⟨b4, b2⟩]
  congr 1
  have : a * x = (a * v - r * w) + m * w := by rw [← e2, ← e1]; ring
  rw [this, Int.add_mul_emod_self_left]

theorem multSmall_eq {T : CInt} {m a x : Int} (h : Mod T m) (h0 : 0 ≤ a * x) (h1 : a * x ≤ T.max) : multSmall T m a x = some (a * x % m) := by
  have := h.pos
  have := h.le
  unfold multSmall
  rw [arith_ok h.std (has_nn h.std h0 h1)]
  simp only [Option.bind_eq_bind, Option.bind_some]
  rw [rem_ok h.std h0 h1 (by omega)]
  have := Int.emod_nonneg (a * x) (by omega : m ≠ 0)
  have := Int.emod_lt_of_pos (a * x) (by omega : 0 < m)
  exact congrArg some (conv_ok h.std (has_nn h.std (by omega) (by omega)))

theorem max_lt64 {T : CInt} (hT : T.Std) : T.max < 2 ^ 64 := by
  obtain ⟨w, sg⟩ := T
  simp only [Std, CInt.max] at *
  rcases hT with rfl | rfl | rfl | rfl <;> cases sg <;> simp

theorem multGeneral_eq {T : CInt} {m a x : Int} (h : Mod T m) (ha : 0 ≤ a ∧ a < m) (hx : 0 ≤ x ∧ x < m) (hm : m * m < 2 ^ 64) :
    multGeneral T m a x = some (a * x % m) := by
  have := h.pos
  have := h.le
  have h64 := max_lt64 h.std
  have hc : m ≤ (2 ^ 64 - 1) / m := by rw [Int.le_ediv_iff_mul_le (by omega)]; omega
  have hax : a * x < 2 ^ 64 := by nlinarith
  have hax0 : 0 ≤ a * x := Int.mul_nonneg ha.1 hx.1
  unfold multGeneral
  rw [if_pos hc, Int.emod_eq_of_lt ha.1 (by omega), Int.emod_eq_of_lt hx.1 (by omega), Int.emod_eq_of_lt hax0 hax]
  have := Int.emod_nonneg (a * x) (by omega : m ≠ 0)
  have := Int.emod_lt_of_pos (a * x) (by omega : 0 < m)
  exact congrArg some (conv_ok h.std (has_nn h.std (by omega) (by omega)))

/-- the parameters for which a product can be computed -/
def Able (T : CInt) (m a : Int) : Prop :=
  pow2 m = true ∨ m * m < 2 ^ 64 ∨ a ≤ 1 ∨ m * a ≤ T.max ∨ (T.sg = true ∧ m % a < m / a)

theorem mult_eq {T : CInt} {m a x : Int} (h : Mod T m) (ha : 0 ≤ a ∧ a < m) (hx : 0 ≤ x ∧ x < m) (hA : Able T m a) :
    mult T m a x = some (a * x % m) := by
  by_cases hp : pow2 m = true
  · exact mult_pow2 h hp (Or.inl ha)
  · have hle := h.le
    have hpos := h.pos
    rw [mult, if_neg hp]
    split
    · rename_i h0; subst h0; simp
    · split
      · rename_i h1; subst h1; rw [Int.one_mul, Int.emod_eq_of_lt hx.1 hx.2]
      · have hb := h.std.bounds
        rw [div_ok h.std (by omega) (Int.le_refl _) (by omega)]
        simp only [Option.bind_eq_bind, Option.bind_some]
        split
        · rename_i hq
          rw [Int.le_ediv_iff_mul_le (by omega)] at hq
          exact multSmall_eq h (Int.mul_nonneg ha.1 hx.1) (by nlinarith)
        · rename_i hq
          rw [rem_ok h.std (by omega) hle (by omega), div_ok h.std (by omega) hle (by omega)]
          simp only [Option.bind_some]
          split
          · rename_i hs
            exact multSchrage_eq h (by omega) hx hs.2
          · rename_i hs
            rw [Int.le_ediv_iff_mul_le (by omega)] at hq
            rcases hA with hA | hA | hA | hA | hA
            · exact absurd hA hp
            · exact multGeneral_eq h ha hx hA
            · omega
            · exact absurd hA hq
            · exact absurd hA hs

/-- and conversely: otherwise there is no result -/
theorem mult_none {T : CInt} {m a x : Int} (h : Mod T m) (ha : 0 ≤ a ∧ a < m) (hA : ¬ Able T m a) : mult T m a x = none := by
  unfold Able at hA
  have hle := h.le
  have hpos := h.pos
  have hb := h.std.bounds
  have : ¬ pow2 m = true := fun hp => hA (Or.inl hp)
  rw [mult, if_neg this, if_neg (by omega), if_neg (by omega), div_ok h.std (by omega) (Int.le_refl _) (by omega)]
  simp only [Option.bind_eq_bind, Option.bind_some]
  rw [if_neg (by rw [Int.le_ediv_iff_mul_le (by omega)]; intro hc; exact hA (by tauto)),
    rem_ok h.std (by omega) hle (by omega), div_ok h.std (by omega) hle (by omega)]
  simp only [Option.bind_some]
  rw [if_neg (fun hs => hA (by tauto)), multGeneral, if_neg]
  rw [Int.le_ediv_iff_mul_le (by omega)]
  intro hc; apply hA; right; left; omega

theorem multAdd_eq {T : CInt} {m a x c : Int} (h : Mod T m) (ha : 0 ≤ a ∧ a < m) (hx : 0 ≤ x ∧ x < m) (hc : 0 ≤ c ∧ c < m)
    (hA : Able T m a) : multAdd T m a x c = some ((a * x + c) % m) := by
  by_cases hp : pow2 m = true
  · exact multAdd_pow2 h hp ha hx hc
  · have hle := h.le
    have hpos := h.pos
    rw [multAdd, if_neg hp]
    split
    · rename_i h0; subst h0; rw [Int.zero_mul, Int.zero_add, Int.emod_eq_of_lt hc.1 hc.2]
    · rw [arith_ok h.std (has_nn h.std (by omega) (by omega))]
      simp only [Option.bind_eq_bind, Option.bind_some]
      rw [div_ok h.std (by omega) (by omega) (by omega)]
      simp only [Option.bind_some]
      have hax0 : 0 ≤ a * x := Int.mul_nonneg ha.1 hx.1
      split
      · rename_i hq
        rw [Int.le_ediv_iff_mul_le (by omega)] at hq
        have hax : a * x ≤ T.max - c := by nlinarith
        rw [arith_ok h.std (has_nn h.std hax0 (by omega))]
        simp only [Option.bind_some]
        rw [arith_ok h.std (has_nn h.std (by omega) (by omega))]
        simp only [Option.bind_some]
        rw [rem_ok h.std (by omega) (by omega) (by omega)]
        have := Int.emod_nonneg (a * x + c) (by omega : m ≠ 0)
        have := Int.emod_lt_of_pos (a * x + c) (by omega : 0 < m)
        exact congrArg some (conv_ok h.std (has_nn h.std (by omega) (by omega)))
      · rw [mult_eq h ha hx hA]
        simp only [Option.bind_some]
        rw [add_eq h ⟨Int.emod_nonneg _ (by omega), Int.emod_lt_of_pos _ (by omega)⟩ hc, Int.emod_add_emod]

/-! ### powers -/

/-- moduli for which every product can be computed -/
def AbleAll (m : Int) : Prop := pow2 m = true ∨ m * m < 2 ^ 64

theorem AbleAll.able {T : CInt} {m : Int} (h : AbleAll m) (a : Int) : Able T m a := by
  unfold Able; rcases h with h | h <;> tauto

/-- types of at most 32 bits have only such moduli -/
theorem ableAll_narrow {T : CInt} {m : Int} (h : Mod T m) (hw : T.w ≤ 32) : AbleAll m := by
  right
  have h1 := max_lt h.std
  have h2 := h.le
  have h3 := h.pos
  have : (2 : Int) ^ T.w ≤ 2 ^ 32 := pow_le_pow_right₀ (by omega) hw
  nlinarith

theorem pow1_eq {T : CInt} {m : Int} (h : Mod T m) (hA : AbleAll m) : ∀ (e : Nat) (a r : Int), 0 ≤ a ∧ a < m → 0 ≤ r ∧ r < m →
    pow1 T m a e r = some (r * a ^ e % m) := by
  intro e
  have hpos := h.pos
  induction e using Nat.strongRecOn with
  | ind e ih =>
    intro a r ha hr
    rw [pow1]
    by_cases he : e = 0
    · subst he; simp [Int.emod_eq_of_lt hr.1 hr.2]
    · rw [if_pos he, mult_eq h ha ha (hA.able _)]
      simp only [Option.bind_eq_bind, Option.bind_some]
      have rng : ∀ y : Int, 0 ≤ y % m ∧ y % m < m := fun y => ⟨Int.emod_nonneg _ (by omega), Int.emod_lt_of_pos _ (by omega)⟩
      have key : ∀ (r' : Int), 0 ≤ r' ∧ r' < m → ∀ y : Int, (r' * (a * a) ^ (e / 2)) % m = y % m →
          pow1 T m (a * a % m) (e / 2) r' = some (y % m) := by
        intro r' hr' y hy
        rw [ih (e / 2) (by omega) _ _ (rng _) hr', ← hy]
        congr 1
        exact ((Int.mod_modEq (a * a) m).pow (e / 2)).mul_left r'
      split
      · rename_i ho
        rw [mult_eq h hr ha (hA.able _)]
        simp only [Option.bind_some]
        apply key _ (rng _)
        have : a ^ e = a * (a * a) ^ (e / 2) := by
          conv_lhs => rw [← Nat.div_add_mod e 2, ho]
          rw [pow_succ, pow_mul]; ring
        rw [this, ← Int.mul_assoc]
        exact (Int.mod_modEq (r * a) m).mul_right _
      · rename_i ho
        apply key _ hr
        have : a ^ e = (a * a) ^ (e / 2) := by
          conv_lhs => rw [← Nat.div_add_mod e 2, show e % 2 = 0 by omega]
          rw [Nat.add_zero, pow_mul]; ring
        rw [this]

theorem pow_eq {T : CInt} {m a : Int} (h : Mod T m) (hA : AbleAll m) (hm : 2 ≤ m) (ha : 0 ≤ a ∧ a < m) (e : Nat) :
    pow T m a e = some (a ^ e % m) := by
  rw [pow, pow1_eq h hA e a 1 ha (by omega), Int.one_mul]

/-! ### inverse -/

theorem le_mul_pos {x p : Int} (hx : 0 ≤ x) (hp : 1 ≤ p) : x ≤ x * p := by nlinarith

/-- extended Euclid: at the head of a round -/
structure EInv (c m l1 l2 n p : Int) : Prop where
  l10 : 0 ≤ l1
  l20 : 1 ≤ l2
  n0 : 1 ≤ n
  p0 : 1 ≤ p
  det : l1 * n + l2 * p = m
  pc : m ∣ p + l1 * c
  nc : m ∣ n - l2 * c
  gcd : Int.gcd n p = Int.gcd c m

theorem invertLoop_eq {T : CInt} {m c : Int} (h : Mod T m) (hm : 2 ≤ m) : ∀ (k : Nat) (l1 l2 n p : Int), n.toNat ≤ k → n ≤ T.max →
    EInv c m l1 l2 n p → (l1 = 0 → n < p ∧ p = m) →
    ∃ v, invertLoop T m l1 l2 n p = some v ∧ 1 ≤ v ∧ v < m ∧ (m : Int) ∣ v * c - Int.gcd c m := by
  intro k
  induction k with
  | zero => intro l1 l2 n p hk hn hi; have := hi.n0; omega
  | succ k ih =>
    intro l1 l2 n p hk hn hi hfirst
    obtain ⟨l10, l20, n0, p0, det, pc, nc, g⟩ := hi
    have hle := h.le
    have hpm : p ≤ m := by
      have a1 := le_mul_pos (x := p) (by omega) l20
      have a2 := Int.mul_nonneg l10 (by omega : 0 ≤ n)
      rw [Int.mul_comm] at a1
      linarith
    have eq1 := Int.mul_ediv_add_emod p n
    have q0 := Int.ediv_nonneg (by omega : 0 ≤ p) (by omega : 0 ≤ n)
    have r0 := Int.emod_nonneg p (by omega : n ≠ 0)
    have r1 := Int.emod_lt_of_pos p (by omega : 0 < n)
    have gr : Int.gcd n (p % n) = Int.gcd c m := by
      rw [← g, Int.gcd_comm, Int.gcd_emod, Int.gcd_comm]
    rw [invertLoop, div_ok h.std (by omega) (by omega) (by omega)]
    generalize p / n = q at *
    generalize hp' : p % n = p' at *
    have det' : (l1 + q * l2) * n + l2 * p' = m := by rw [← det, ← eq1]; ring
    have hql : 0 ≤ q * l2 := Int.mul_nonneg q0 (by omega)
    have b1 : (l1 + q * l2) ≤ m := by
      have a1 := le_mul_pos (x := l1 + q * l2) (by omega) n0
      have a2 := Int.mul_nonneg (by omega : 0 ≤ l2) r0
      linarith
    have hqn : 0 ≤ q * n := Int.mul_nonneg q0 (by omega)
    simp only [Option.bind_eq_bind, Option.bind_some]
    rw [arith_ok h.std (has_nn h.std hql (by omega))]
    simp only [Option.bind_some]
    rw [ar_ok h.std (has_nn h.std (by omega) (by omega))]
    simp only [Option.bind_some]
    rw [arith_ok h.std (has_nn h.std hqn (by rw [Int.mul_comm]; omega))]
    simp only [Option.bind_some]
    rw [show p - q * n = p' by rw [← eq1]; ring, ar_ok h.std (has_nn h.std r0 (by omega))]
    simp only [Option.bind_some]
    have l1pos : l1 + q * l2 = 0 → False := by
      intro h0
      have : l1 = 0 := by omega
      have := hfirst this
      have : q ≠ 0 := by rintro rfl; omega
      nlinarith
    generalize hl1 : l1 + q * l2 = l1' at *
    have pc' : m ∣ p' + l1' * c := by
      obtain ⟨u, hu⟩ := pc
      obtain ⟨w, hw⟩ := nc
      refine ⟨u - q * w, ?_⟩
      rw [← hl1, show p' = p - n * q by omega]
      linear_combination hu - q * hw
    split
    · rename_i hz
      subst hz
      refine ⟨l2, rfl, l20, ?_, ?_⟩
      · by_contra hc
        have : l2 * p ≤ m := by nlinarith
        have : p = 1 := by nlinarith
        have : l1 * n = 0 := by nlinarith
        have : l1 = 0 := by nlinarith
        have := hfirst this
        omega
      · have : (Int.gcd c m : Int) = n := by
          rw [← gr, Int.gcd_zero_right, Int.natAbs_of_nonneg (by omega)]
        rw [this]
        obtain ⟨w, hw⟩ := nc
        exact ⟨-w, by linear_combination -hw⟩
    · rename_i hz
      have eq2 := Int.mul_ediv_add_emod n p'
      have s0 := Int.ediv_nonneg (by omega : 0 ≤ n) (by omega : 0 ≤ p')
      have t0 := Int.emod_nonneg n (by omega : p' ≠ 0)
      have t1 := Int.emod_lt_of_pos n (by omega : 0 < p')
      have gr' : Int.gcd (n % p') p' = Int.gcd c m := by rw [← gr, Int.gcd_emod]
      rw [div_ok h.std (by omega) (by omega) (by omega)]
      generalize n / p' = s at *
      generalize hn' : n % p' = n' at *
      have det'' : l1' * n' + (l2 + s * l1') * p' = m := by rw [← det', ← eq2]; ring
      have hsl : 0 ≤ s * l1' := Int.mul_nonneg s0 (by omega)
      have hln : 0 ≤ l1' * n' := Int.mul_nonneg (by omega) t0
      have b2 : (l2 + s * l1') ≤ m := by
        have a1 := le_mul_pos (x := l2 + s * l1') (by omega) (by omega : 1 ≤ p')
        linarith
      have hsp : 0 ≤ s * p' := Int.mul_nonneg s0 (by omega)
      simp only [Option.bind_some]
      rw [arith_ok h.std (has_nn h.std hsl (by omega))]
      simp only [Option.bind_some]
      rw [ar_ok h.std (has_nn h.std (by omega) (by omega))]
      simp only [Option.bind_some]
      rw [arith_ok h.std (has_nn h.std hsp (by rw [Int.mul_comm]; omega))]
      simp only [Option.bind_some]
      rw [show n - s * p' = n' by rw [← eq2]; ring, ar_ok h.std (has_nn h.std t0 (by omega))]
      simp only [Option.bind_some]
      split
      · rename_i hz2
        subst hz2
        have hs1 : 1 ≤ s := by
          by_contra hc
          have : s = 0 := by omega
          subst this; simp at eq2; omega
        have hlt : l1' < m := by
          have a1 := le_mul_pos (x := l1') (by omega) hs1
          have a2 := le_mul_pos (x := l2 + s * l1') (by omega) (by omega : 1 ≤ p')
          rw [Int.mul_comm l1' s] at a1
          linarith
        rw [ar_ok h.std (has_nn h.std (by omega) (by omega))]
        have hne : l1' ≠ 0 := fun h0 => l1pos h0
        refine ⟨m - l1', rfl, by omega, by omega, ?_⟩
        have : (Int.gcd c m : Int) = p' := by
          rw [← gr', Int.gcd_zero_left, Int.natAbs_of_nonneg (by omega)]
        rw [this]
        obtain ⟨u, hu⟩ := pc'
        exact ⟨c - u, by linear_combination -hu⟩
      · rename_i hz2
        refine ih l1' (l2 + s * l1') n' p' (by omega) (by omega) ⟨by omega, by omega, by omega, by omega, det'', pc', ?_, gr'⟩ (fun h0 => (l1pos h0).elim)
        obtain ⟨u, hu⟩ := pc'
        obtain ⟨w, hw⟩ := nc
        refine ⟨w - s * u, ?_⟩
        rw [show n' = n - p' * s by omega]
        linear_combination hw - s * hu

theorem invert_eq {T : CInt} {m c : Int} (h : Mod T m) (hm : 2 ≤ m) (hc : 1 ≤ c ∧ c < m) :
    ∃ v, invert T m c = some v ∧ 1 ≤ v ∧ v < m ∧ (m : Int) ∣ v * c - Int.gcd c m := by
  have hle := h.le
  rw [invert, if_neg (by omega), if_pos (by omega)]
  split
  · rename_i h1; subst h1
    exact ⟨1, rfl, by omega, by omega, by simp⟩
  · exact invertLoop_eq h hm c.toNat 0 1 c m (by omega) (by omega)
      ⟨by omega, by omega, by omega, by omega, by ring, by simp, by simp, rfl⟩ (fun _ => ⟨by omega, rfl⟩)

end Sprout.CMod
