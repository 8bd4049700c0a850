import Verif.Proofs.ConstMod

/-!
# C39: linear congruential engine

For all integer types of 8 to 64 bits, all `0 <= a, c < m` with `m` representable, and all states: the recurrence is exact. Refuted in two
corners: with 64-bit types there are parameters for which the general multiplication is not implemented, and with `c = 0` and `a`
not coprime to `m` the state can become 0, which is less than `min()`.
-/

namespace Sprout
open CMod CInt

/-- parameters admitted by the `static_assert`s (`m != 0` by the one in `const_mod`) -/
structure LcgParams (T : CInt) (a c m : Int) : Prop where
  std : T.Std
  m1 : 1 ≤ m
  mT : m ≤ T.max
  a0 : 0 ≤ a
  am : a < m
  c0 : 0 ≤ c
  cm : c < m

theorem LcgParams.mod {T : CInt} {a c m : Int} (h : LcgParams T a c m) : CMod.Mod T m := ⟨h.std, h.m1, h.mT⟩

/-- the full statement -/
def C39_statement : Prop := ∀ (T : CInt) (a c m x : Int), LcgParams T a c m → Lcg.staticMin c ≤ x → x ≤ Lcg.staticMax m →
  Lcg.next T a c m x = some ((a * x + c) % m) ∧ Lcg.staticMin c ≤ (a * x + c) % m ∧ (a * x + c) % m ≤ Lcg.staticMax m

/-- `uint64_t`, `m = 2^64 - 1`, `a = 2^63`: the assertion "not implemented" fails -/
theorem C39_general_false : ¬ C39_statement := by
  intro h
  have h1 := (h .uint64 (2 ^ 63) 1 (2 ^ 64 - 1) 1 ⟨by decide, by decide, by decide, by decide, by decide, by decide, by decide⟩
    (by decide) (by decide)).1
  exact absurd h1 (by decide)

/-- `a = 2, c = 0, m = 6`: 3 is followed by 0, below `min() = 1` -/
theorem C39_min_false : ¬ C39_statement := by
  intro h
  have h1 := (h .uint32 2 0 6 3 ⟨by decide, by decide, by decide, by decide, by decide, by decide, by decide⟩ (by decide) (by decide)).2.1
  exact absurd h1 (by decide)

/-- the recurrence, wherever the product can be computed; no intermediate result overflows (it would be `none` or wrong) -/
theorem C39_next_partial (T : CInt) (a c m x : Int) (h : LcgParams T a c m) (hx0 : 0 ≤ x) (hxm : x < m)
    (hA : (∃ k : Nat, m = 2 ^ k) ∨ m * m < 2 ^ 64 ∨ a ≤ 1 ∨ m * a ≤ T.max ∨ (T.sg = true ∧ m % a < m / a)) :
    Lcg.next T a c m x = some ((a * x + c) % m) := by
  refine multAdd_eq h.mod ⟨h.a0, h.am⟩ ⟨hx0, hxm⟩ ⟨h.c0, h.cm⟩ ?_
  rcases hA with hA | hA
  · exact Or.inl ((pow2_iff h.m1).2 hA)
  · exact Or.inr hA

/-- with types of up to 32 bits no restriction on the parameters -/
theorem C39_next_32 (T : CInt) (a c m x : Int) (h : LcgParams T a c m) (hx0 : 0 ≤ x) (hxm : x < m) (hw : T.w ≤ 32) :
    Lcg.next T a c m x = some ((a * x + c) % m) :=
  multAdd_eq h.mod ⟨h.a0, h.am⟩ ⟨hx0, hxm⟩ ⟨h.c0, h.cm⟩ ((ableAll_narrow h.mod hw).able a)

/-- the restriction is exact for the product: otherwise there is no result -/
theorem C39_mult_iff (T : CInt) (a m x : Int) (h : CMod.Mod T m) (ha0 : 0 ≤ a) (ham : a < m) (hx0 : 0 ≤ x) (hxm : x < m) :
    (((∃ k : Nat, m = 2 ^ k) ∨ m * m < 2 ^ 64 ∨ a ≤ 1 ∨ m * a ≤ T.max ∨ (T.sg = true ∧ m % a < m / a)) → mult T m a x = some (a * x % m)) ∧
    (¬ ((∃ k : Nat, m = 2 ^ k) ∨ m * m < 2 ^ 64 ∨ a ≤ 1 ∨ m * a ≤ T.max ∨ (T.sg = true ∧ m % a < m / a)) → mult T m a x = none) := by
  constructor
  · intro hA
    refine mult_eq h ⟨ha0, ham⟩ ⟨hx0, hxm⟩ ?_
    rcases hA with hA | hA
    · exact Or.inl ((pow2_iff h.pos).2 hA)
    · exact Or.inr hA
  · intro hA
    refine mult_none h ⟨ha0, ham⟩ (fun hc => hA ?_)
    rcases hc with hc | hc
    · exact Or.inl ((pow2_iff h.pos).1 hc)
    · exact Or.inr hc

/-- Schrage's method by itself -/
theorem C39_schrage (T : CInt) (a m x : Int) (h : CMod.Mod T m) (ha0 : 1 ≤ a) (ham : a < m) (hx0 : 0 ≤ x) (hxm : x < m)
    (hr : m % a < m / a) : multSchrage T m a x = some (a * x % m) := multSchrage_eq h ⟨ha0, ham⟩ ⟨hx0, hxm⟩ hr

/-- the state stays in `[min(), max()]` if `c != 0` or `a` is coprime to `m` -/
theorem C39_range_partial (a c m x : Int) (hm : 2 ≤ m) (hx0 : Lcg.staticMin c ≤ x) (hxm : x ≤ Lcg.staticMax m)
    (hc : c ≠ 0 ∨ Int.gcd a m = 1) :
    Lcg.staticMin c ≤ (a * x + c) % m ∧ (a * x + c) % m ≤ Lcg.staticMax m := by
  unfold Lcg.staticMin Lcg.staticMax at *
  have l1 := Int.emod_nonneg (a * x + c) (by omega : m ≠ 0)
  have l2 := Int.emod_lt_of_pos (a * x + c) (by omega : 0 < m)
  refine ⟨?_, by omega⟩
  by_cases h0 : c = 0
  · have hg : Int.gcd a m = 1 := by rcases hc with hc | hc; exact absurd h0 hc; exact hc
    rw [if_pos h0] at hx0 ⊢
    by_contra hlt
    have : (a * x + c) % m = 0 := by omega
    rw [h0, Int.add_zero] at this
    have hd : m ∣ a * x := Int.dvd_of_emod_eq_zero this
    have : m ∣ x := Int.dvd_of_dvd_mul_right_of_gcd_one hd (by rw [Int.gcd_comm]; exact hg)
    have := Int.le_of_dvd (by omega) this
    omega
  · rw [if_neg h0]; exact l1

/-- seeding: the seed modulo `m`, but 1 instead of 0 when `c = 0`; always in `[min(), max()]` -/
theorem C39_seed (T : CInt) (c m x0 : Int) (h : CMod.Mod T m) (hm : 2 ≤ m) (hx : T.Has x0) :
    Lcg.initSeed T c m x0 = some (if c = 0 ∧ x0 % m = 0 then 1 else x0 % m) ∧
    Lcg.staticMin c ≤ (if c = 0 ∧ x0 % m = 0 then 1 else x0 % m) ∧ (if c = 0 ∧ x0 % m = 0 then 1 else x0 % m) ≤ Lcg.staticMax m := by
  have hb := h.std.bounds
  have hle := h.le
  have l1 := Int.emod_nonneg x0 (by omega : m ≠ 0)
  have l2 := Int.emod_lt_of_pos x0 (by omega : 0 < m)
  have rng : Lcg.staticMin c ≤ (if c = 0 ∧ x0 % m = 0 then 1 else x0 % m) ∧ (if c = 0 ∧ x0 % m = 0 then 1 else x0 % m) ≤ Lcg.staticMax m := by
    unfold Lcg.staticMin Lcg.staticMax
    split <;> split <;> omega
  refine ⟨?_, rng⟩
  have key : (do
      let x ← (T.rem x0 m).map T.conv
      if x ≤ 0 ∧ x ≠ 0 then T.ar (x + m) else some x) = some (x0 % m) := by
    by_cases hneg : 0 ≤ x0
    · rw [rem_ok h.std hneg hx.2 (by omega)]
      simp only [Option.map_some, Option.bind_eq_bind, Option.bind_some]
      rw [conv_ok h.std (has_nn h.std l1 (by omega)), if_neg (by omega)]
    · have hsg : T.sg = true := by
        by_contra hc
        have := hb.2.2.2.2.1 (by simpa using hc)
        unfold Has at hx; omega
      have hmin := hb.2.2.2.1 hsg
      unfold Has at hx
      have ht : x0.tdiv m = -((-x0) / m) := by
        rw [← Int.neg_neg x0, Int.neg_tdiv, Int.neg_neg, Int.tdiv_eq_ediv_of_nonneg (by omega)]
      have hr : x0.tmod m = -((-x0) % m) := by
        rw [← Int.neg_neg x0, Int.neg_tmod, Int.neg_neg, Int.tmod_eq_emod_of_nonneg (by omega)]
      have d0 := Int.ediv_nonneg (by omega : 0 ≤ -x0) (by omega : 0 ≤ m)
      have d1 : (-x0) / m ≤ T.max := by
        rw [← Int.lt_add_one_iff, Int.ediv_lt_iff_lt_mul (by omega)]
        nlinarith
      have m0 := Int.emod_nonneg (-x0) (by omega : m ≠ 0)
      have m1 := Int.emod_lt_of_pos (-x0) (by omega : 0 < m)
      have hrem : T.rem x0 m = some (-((-x0) % m)) := by
        rw [rem, if_neg (by omega), ht, hr, arith_ok h.std (by unfold Has; omega)]
        exact arith_ok h.std (by unfold Has; omega)
      rw [hrem]
      simp only [Option.map_some, Option.bind_eq_bind, Option.bind_some]
      rw [conv_ok h.std (by unfold Has; omega)]
      have e1 := Int.mul_ediv_add_emod (-x0) m
      split
      · rw [ar_ok h.std (by unfold Has; omega)]
        congr 1
        exact (emod_unique (k := -((-x0) / m) - 1) (by omega) (by omega) (by rw [Int.mul_sub, Int.mul_neg]; omega)).symm
      · congr 1
        exact (emod_unique (k := -((-x0) / m)) (by omega) (by omega) (by rw [Int.mul_neg]; omega)).symm
  unfold Lcg.initSeed
  simp only [Option.bind_eq_bind] at key ⊢
  rw [← Option.bind_assoc, key]
  simp only [Option.bind_some]
  rw [if_pos rng]

/-- a run: all states of an engine that was seeded are in range and follow the recurrence -/
theorem C39_run (T : CInt) (a c m x0 : Int) (h : LcgParams T a c m) (hm : 2 ≤ m) (hw : T.w ≤ 32) (hx : T.Has x0) (hc : c ≠ 0 ∨ Int.gcd a m = 1) (n : Nat) :
    ∃ s, Lcg.initSeed T c m x0 = some s ∧
      (List.range n).foldlM (fun x _ => Lcg.next T a c m x) s = some ((fun x => (a * x + c) % m)^[n] s) ∧
      Lcg.staticMin c ≤ (fun x => (a * x + c) % m)^[n] s ∧ (fun x => (a * x + c) % m)^[n] s ≤ Lcg.staticMax m := by
  obtain ⟨h1, h2⟩ := C39_seed T c m x0 h.mod hm hx
  refine ⟨_, h1, ?_⟩
  generalize (if c = 0 ∧ x0 % m = 0 then 1 else x0 % m) = s at *
  induction n with
  | zero => exact ⟨rfl, h2⟩
  | succ n ih =>
    obtain ⟨i1, i2, i3⟩ := ih
    rw [Function.iterate_succ_apply']
    refine ⟨?_, C39_range_partial a c m _ hm i2 i3 hc⟩
    rw [List.range_succ, List.foldlM_append, i1]
    have := C39_next_32 T a c m ((fun x => (a * x + c) % m)^[n] s) h (by unfold Lcg.staticMin at i2; split at i2 <;> omega) (by unfold Lcg.staticMax at i3; omega) hw
    simp only [Option.bind_eq_bind, Option.bind_some, List.foldlM_cons, List.foldlM_nil, this]
    rfl

/-- `minstd_rand0` and `minstd_rand`, with `std::uint_fast32_t` of 32 or 64 bits -/
theorem C39_minstd (T : CInt) (hT : T = .uint32 ∨ T = .uint64) (a x : Int) (ha : a = 16807 ∨ a = 48271) (hx : 1 ≤ x ∧ x ≤ 2147483646) :
    Lcg.next T a 0 2147483647 x = some (a * x % 2147483647) := by
  have hp : LcgParams T a 0 2147483647 := by
    rcases hT with rfl | rfl <;> rcases ha with rfl | rfl <;> exact ⟨by decide, by decide, by decide, by decide, by decide, by decide, by decide⟩
  have := C39_next_partial T a 0 2147483647 x hp (by omega) (by omega) (Or.inr (Or.inl (by decide)))
  rwa [Int.add_zero] at this

-- minstd_rand0 from 1; Schrage's method in a signed type; the mask with narrow types
example : Lcg.next .uint32 16807 0 2147483647 1 = some 16807 ∧ Lcg.next .uint32 16807 0 2147483647 16807 = some 282475249 := by decide
example : multSchrage .int32 2147483647 16807 1622650073 = some 984943658 ∧ mult .int32 2147483647 16807 1622650073 = some 984943658 := by decide
example : Lcg.next .uint16 32765 32767 32768 32767 = some ((32765 * 32767 + 32767) % 32768) := by decide

end Sprout
