import Verif.Proofs.Mt2

/-!
# Proofs about the Mersenne twister: going backwards, equality
-/

namespace Sprout
namespace Mt
open Spec

variable {W : Nat}

/-- the matrix is invertible (`a` has its top bit), and `1 < m` -/
structure Par.Inv (P : Par W) : Prop where
  fits : P.Fits
  top : 2 ^ (P.w - 1) ≤ P.a.toNat
  m1 : 1 < P.m

/-- `Y` of the standard at index `k` -/
def yAt (P : MtPar) (X : Nat → Nat) (k : Nat) : Nat := X k / 2 ^ P.r * 2 ^ P.r + X (k + 1) % 2 ^ P.r

theorem untwist_eq {P : Par W} (h : P.Inv) {y : BitVec W} {Y : Nat} (hY : Y < 2 ^ P.w) (hy : y.toNat = (Y / 2) ^^^ (P.a.toNat * (Y % 2))) :
    ∃ v, untwist P y = some v ∧ v.toNat = Y := by
  have hwW := h.fits.wW
  have hw := h.fits.ok.w2
  have ha := h.fits.ok.a
  simp only [Par.nat] at hw ha
  have hpw : (2:Nat) ^ P.w = 2 * 2 ^ (P.w - 1) := by rw [← Nat.pow_succ']; congr 1; omega
  have hWW : (2:Nat) ^ P.w ≤ 2 ^ W := Nat.pow_le_pow_right (by omega) hwW
  have htop : P.a.toNat.testBit (P.w - 1) = true := by
    rw [Nat.testBit_eq_decide_div_mod_eq, decide_eq_true_eq]
    have : P.a.toNat / 2 ^ (P.w - 1) = 1 := by
      apply Nat.div_eq_of_lt_le <;> have := h.top <;> omega
    omega
  have hbit : (y &&& (1#W <<< (P.w - 1)) = 0#W) ↔ Y % 2 = 0 := by
    have hb : y.getLsbD (P.w - 1) = decide (Y % 2 = 1) := by
      rw [← BitVec.testBit_toNat, hy, Nat.testBit_xor, Nat.testBit_lt_two_pow (x := Y / 2) (by omega)]
      rcases Nat.mod_two_eq_zero_or_one Y with h0 | h0 <;> rw [h0]
      · simp
      · rw [Nat.mul_one, htop]; rfl
    constructor
    · intro h0
      by_contra h1
      have : (y &&& (1#W <<< (P.w - 1))).getLsbD (P.w - 1) = false := by rw [h0]; simp
      rw [BitVec.getLsbD_and, hb, BitVec.getLsbD_shiftLeft] at this
      have hY1 : Y % 2 = 1 := by omega
      simp [hY1] at this
      omega
    · intro h0
      apply BitVec.eq_of_getLsbD_eq
      intro i hi
      rw [BitVec.getLsbD_and, BitVec.getLsbD_shiftLeft]
      by_cases hiw : i = P.w - 1
      · subst hiw; rw [hb]; simp [h0]
      · by_cases hlt : i < P.w - 1
        · simp [hlt]
        · have : ¬ (i - (P.w - 1) = 0) := by omega
          simp [this]
  unfold untwist
  rw [if_neg (by omega), shl_some _ (by omega)]
  simp only [Option.bind_eq_bind, Option.bind_some]
  rcases Nat.mod_two_eq_zero_or_one Y with h0 | h0
  · rw [if_neg (by simpa using hbit.2 h0), shl_some _ (by omega)]
    refine ⟨_, rfl, ?_⟩
    rw [h0, Nat.mul_zero, Nat.xor_zero] at hy
    rw [BitVec.toNat_shiftLeft, hy, Nat.shiftLeft_eq, Nat.mod_eq_of_lt (by omega)]
    omega
  · rw [if_pos (by intro hc; have := hbit.1 hc; omega), shl_some _ (by omega)]
    simp only [Option.bind_some]
    refine ⟨_, rfl, ?_⟩
    have hxa : (y ^^^ P.a).toNat = Y / 2 := by
      rw [BitVec.toNat_xor, hy, h0, Nat.mul_one, Nat.xor_assoc, Nat.xor_self, Nat.xor_zero]
    have h1 : (1#W).toNat = 1 := by rw [BitVec.toNat_ofNat]; exact Nat.mod_eq_of_lt (Nat.one_lt_two_pow (by omega))
    rw [BitVec.toNat_or, BitVec.toNat_shiftLeft, hxa, h1, Nat.shiftLeft_eq, Nat.mod_eq_of_lt (by omega), Nat.pow_one]
    have := Nat.two_pow_add_eq_or_of_lt (i := 1) (b := 1) (by omega) (Y / 2)
    rw [Nat.pow_one, Nat.mul_comm] at this
    omega

theorem untwist_step {P : Par W} (h : P.Inv) {X : Nat → Nat} (hX : MtRec P.nat X) (hlt : ∀ k, X k < 2 ^ P.w) (k : Nat) {v1 v2 : BitVec W}
    (h1 : v1.toNat = X (k + P.m)) (h2 : v2.toNat = X (k + P.n)) : ∃ v, untwist P (v1 ^^^ v2) = some v ∧ v.toNat = yAt P.nat X k := by
  apply untwist_eq h
  · exact join_lt h.fits.ok.rw (hlt k) (hlt (k + 1))
  · have e := hX k
    simp only [Par.nat] at e
    rw [BitVec.toNat_xor, h1, h2, e, ← Nat.xor_assoc, Nat.xor_self, Nat.zero_xor]
    rfl

/-- reading a word that was rewound already, or one of the state -/
theorem rewindFind_eq {P : Par W} {X : Nat → Nat} {p sz i : Nat} {x back : List (BitVec W)} (hlx : x.length = P.n) (hlb : back.length = P.n)
    (hx : Holds x X p) (hb : ∀ k (hk : P.n - 1 - k < back.length), k < sz → back[P.n - 1 - k].toNat = X (p - 1 - k)) (hsz : sz < P.n) (hi0 : 0 < i) (hi : i < P.n)
    (hp : sz < p) : ∃ v, rewindFind P x back (P.n - 1) sz i = some v ∧ v.toNat = X (p + i - sz - 1) := by
  unfold rewindFind
  by_cases hc : sz < i
  · have e : (i + P.n - sz + P.n - 1) % P.n = i - sz - 1 := by
      rw [show i + P.n - sz + P.n - 1 = i - sz - 1 + P.n * 2 by omega, Nat.add_mul_mod_self_left, Nat.mod_eq_of_lt (by omega)]
    simp only [e]
    rw [if_pos (by omega), rd, List.getElem?_eq_getElem (by omega)]
    refine ⟨_, rfl, ?_⟩
    rw [hx]; congr 1; omega
  · have e : (i + P.n - sz + P.n - 1) % P.n = i + P.n - sz - 1 := by
      rw [show i + P.n - sz + P.n - 1 = i + P.n - sz - 1 + P.n by omega, Nat.add_mod_right, Nat.mod_eq_of_lt (by omega)]
    simp only [e]
    rw [if_neg (by omega), if_neg (by omega), rd, show P.n - 1 - (P.n - 1 - (i + P.n - sz - 1)) = P.n - 1 - (sz - i) by omega,
      List.getElem?_eq_getElem (by omega)]
    refine ⟨_, rfl, ?_⟩
    rw [hb (sz - i) _ (by omega)]; congr 1; omega

/-- the rewound words are the ones before the state -/
theorem doRewind_eq {P : Par W} (h : P.Inv) {X : Nat → Nat} (hX : MtRec P.nat X) (hlt : ∀ k, X k < 2 ^ P.w) {p z : Nat} {x : List (BitVec W)}
    (hl : x.length = P.n) (hx : Holds x X p) (hz : z < P.n) (hp : z < p) (hp0 : 0 < p) :
    ∃ back, doRewind P x (List.replicate P.n 0#W) (P.n - 1) z = some back ∧ back.length = P.n ∧
      ∀ k (hk : P.n - 1 - k < back.length), k < z → back[P.n - 1 - k].toNat = X (p - 1 - k) := by
  have hm1 := h.m1
  have hmn := h.fits.ok.mn
  simp only [Par.nat] at hmn
  obtain ⟨y0, hy, hy'⟩ := untwist_step h hX hlt (p - 1) (v1 := x[P.m - 1]) (v2 := x[P.n - 1])
    (by rw [hx]; congr 1; omega) (by rw [hx]; congr 1; omega)
  have loop := forLoop_inv (I := fun sz (s : List (BitVec W) × BitVec W) => s.1.length = P.n ∧
      (∀ k (hk : P.n - 1 - k < s.1.length), k < sz → s.1[P.n - 1 - k].toNat = X (p - 1 - k)) ∧ s.2.toNat = yAt P.nat X (p - 1 - sz))
    (Nat.zero_le z) (fun (s : List (BitVec W) × BitVec W) sz => do
      let v1 ← rewindFind P x s.1 (P.n - 1) sz (P.m - 1)
      let v2 ← rewindFind P x s.1 (P.n - 1) sz (P.n - 1)
      let y1 ← untwist P (v1 ^^^ v2)
      let back ← (if P.n - 1 < sz then none else wr s.1 (P.n - 1 - sz) ((s.2 &&& (~~~0#W <<< P.r)) ||| (y1 &&& ~~~(~~~0#W <<< P.r))))
      some (back, y1)) (by
      rintro sz ⟨back, y0⟩ - hsz ⟨hlb, hb, hy0⟩
      simp only at hlb hb hy0 ⊢
      obtain ⟨v1, a1, b1⟩ := rewindFind_eq (P := P) (i := P.m - 1) hl hlb hx hb (by omega) (by omega) (by omega) (by omega)
      obtain ⟨v2, a2, b2⟩ := rewindFind_eq (P := P) (i := P.n - 1) hl hlb hx hb (by omega) (by omega) (by omega) (by omega)
      obtain ⟨y1, a3, b3⟩ := untwist_step h hX hlt (p - 2 - sz) (v1 := v1) (v2 := v2)
        (by rw [b1]; congr 1; omega) (by rw [b2]; congr 1; omega)
      refine ⟨(back.set (P.n - 1 - sz) ((y0 &&& (~~~0#W <<< P.r)) ||| (y1 &&& ~~~(~~~0#W <<< P.r))), y1), ?_, by simpa using hlb, ?_, ?_⟩
      · simp only [Option.bind_eq_bind, a1, a2, a3, Option.bind_some]
        rw [if_neg (by omega), wr, if_pos (by omega)]
        rfl
      · intro k hk hks
        simp only at hk ⊢
        rw [List.getElem_set]
        split
        · rename_i hkk
          have hke : k = sz := by omega
          subst hke
          rw [join_toNat, hy0, b3]
          apply Nat.eq_of_testBit_eq
          intro i
          unfold yAt
          rw [testBit_join]
          simp only [Par.nat]
          rw [testBit_join, testBit_join]
          split
          · rw [show p - 2 - k + 1 = p - 1 - k by omega]
          · rfl
        · rw [List.length_set] at hk
          exact hb k hk (by omega)
      · simp only
        rw [b3]; congr 1; omega) (List.replicate P.n 0#W, y0)
    ⟨by simp, fun k _ hk => absurd hk (by omega), by simpa using hy'⟩
  obtain ⟨⟨back, y⟩, l1, l2, l3, -⟩ := loop
  refine ⟨back, ?_, l2, l3⟩
  unfold doRewind
  rw [upper_some h.fits]
  simp only [Option.bind_eq_bind, Option.bind_some, rd, List.getElem?_eq_getElem (show P.m - 1 < x.length by omega),
    List.getElem?_eq_getElem (show P.n - 1 < x.length by omega), hy]
  simp only [Option.bind_eq_bind, rd] at l1
  rw [l1]
  rfl

theorem allLoop_eq {a b : Nat} (hab : a ≤ b) (p : Nat → Option Bool) (q : Nat → Bool) (h : ∀ j, a ≤ j → j < b → p j = some (q j)) :
    ∃ r, allLoop a b p = some r ∧ (r = true ↔ ∀ j, a ≤ j → j < b → q j = true) := by
  unfold allLoop
  obtain ⟨r, h1, h2⟩ := forLoop_inv (I := fun J (ok : Bool) => (ok = true ↔ ∀ j, a ≤ j → j < J → q j = true)) hab
    (fun ok j => if ok then p j else some false) (by
      intro j s haj hjb hI
      cases s with
      | false =>
        refine ⟨false, by simp, ?_⟩
        constructor
        · intro hc; cases hc
        · intro hc
          exact hI.2 (fun j' h1 h2 => hc j' h1 (by omega))
      | true =>
        refine ⟨q j, by simp [h j haj hjb], ?_⟩
        constructor
        · intro hq j' h1 h2
          by_cases he : j' = j
          · subst he; exact hq
          · exact hI.1 rfl j' h1 (by omega)
        · intro hq; exact hq j haj (by omega)) true ⟨fun _ j h1 h2 => by omega, fun _ => rfl⟩
  exact ⟨r, h1, h2⟩

/-- an engine that was made from a seed: fresh, or twisted at least once -/
structure Live (P : Par W) (X : Nat → Nat) (q : Nat) (e : Eng W) : Prop extends At P X q e where
  i0 : 0 < e.i
  twisted : e.i = P.n ∨ P.n ≤ q - e.i

theorem Holds.inj {x : List (BitVec W)} {X : Nat → Nat} {p k : Nat} (h : Holds x X p) {v : BitVec W} (hv : x[k]? = some v) : v.toNat = X (p + k) := by
  obtain ⟨hk, hx⟩ := List.getElem?_eq_some_iff.1 hv
  rw [← hx]; exact h k hk

theorem doEqualImpl_eq {P : Par W} (h : P.Inv) {X Y : Nat → Nat} (hX : MtRec P.nat X) (hXl : ∀ k, X k < 2 ^ P.w)
    {q1 q2 : Nat} {e1 e2 : Eng W} (h1 : Live P X q1 e1) (h2 : Live P Y q2 e2) (hi : e1.i ≤ e2.i) :
    ∃ r, doEqualImpl P e1 e2 = some r ∧ (r = true ↔ ∀ j, j < P.n → X (q1 - e2.i + j) = Y (q2 - e2.i + j)) := by
  have hmn := h.fits.ok.mn
  simp only [Par.nat] at hmn
  have hl1 := h1.len
  have hl2 := h2.len
  have hle := h2.le
  have hi0 := h1.i0
  have hiq1 := h1.iq
  have hiq2 := h2.iq
  have htw := h1.twisted
  have hle1 := h1.le
  unfold doEqualImpl
  simp only [Option.bind_eq_bind]
  obtain ⟨r1, a1, b1⟩ := allLoop_eq (a := 0) (b := P.n - (e2.i - e1.i)) (Nat.zero_le _)
    (fun j => (rd e1.x j).bind fun v1 => (rd e2.x (j + (e2.i - e1.i))).bind fun v2 => some (v1 == v2))
    (fun j => decide (X (q1 - e1.i + j) = Y (q2 - e2.i + (j + (e2.i - e1.i))))) (by
      intro j _ hj
      rw [rd, List.getElem?_eq_getElem (by omega), rd, List.getElem?_eq_getElem (by omega)]
      simp only [Option.bind_some, Option.some.injEq]
      rw [← h1.holds j (by omega), ← h2.holds (j + (e2.i - e1.i)) (by omega), Bool.eq_iff_iff, beq_iff_eq, decide_eq_true_eq]
      exact ⟨fun h => by rw [h], fun h => BitVec.eq_of_toNat_eq h⟩)
  rw [a1]
  simp only [Option.bind_some]
  cases r1 with
  | false =>
    refine ⟨false, by simp, ⟨fun hc => (by cases hc), fun hc => ?_⟩⟩
    exact b1.2 (fun j _ hj => by
      rw [decide_eq_true_eq, show q1 - e1.i + j = q1 - e2.i + (j + (e2.i - e1.i)) by omega]
      exact hc _ (by omega))
  | true =>
    rw [if_pos rfl]
    have b1 := b1.1 rfl
    rcases Nat.eq_or_lt_of_le hi with he | hlt
    · -- same index: nothing to rewind
      have hoff : e2.i - e1.i = 0 := by omega
      have : ∃ back, doRewind P e1.x (List.replicate P.n 0#W) (P.n - 1) (e2.i - e1.i) = some back := by
        rw [hoff]
        by_cases hp : 0 < q1 - e1.i
        · obtain ⟨b, hb, -⟩ := doRewind_eq h hX hXl hl1 h1.holds (z := 0) (by omega) hp hp
          exact ⟨b, hb⟩
        · -- fresh engine
          unfold doRewind
          rw [upper_some h.fits]
          have hwW := h.fits.wW
          have hw2 := h.fits.ok.w2
          simp only [Par.nat] at hw2
          have hu : ∀ y, ∃ v, untwist P y = some v := by
            intro y
            unfold untwist
            rw [if_neg (by omega), shl_some _ (by omega)]
            simp only [Option.bind_eq_bind, Option.bind_some]
            split
            · rw [shl_some _ (by omega)]; exact ⟨_, rfl⟩
            · rw [shl_some _ (by omega)]; exact ⟨_, rfl⟩
          simp only [Option.bind_eq_bind, Option.bind_some, rd, List.getElem?_eq_getElem (show P.m - 1 < e1.x.length by omega),
            List.getElem?_eq_getElem (show P.n - 1 < e1.x.length by omega)]
          obtain ⟨v, hv⟩ := hu (e1.x[P.m - 1]'(by omega) ^^^ e1.x[P.n - 1]'(by omega))
          rw [hv]
          simp only [Option.bind_some]
          rw [forLoop_nil (Nat.le_refl 0)]
          exact ⟨_, rfl⟩
      obtain ⟨back, hb⟩ := this
      rw [hb]
      simp only [Option.bind_some]
      refine ⟨true, ?_, ⟨fun _ j hj => ?_, fun _ => rfl⟩⟩
      · rw [hoff]; unfold allLoop; rw [forLoop_nil (Nat.le_refl 0)]
      · have := b1 j (by omega) (by omega)
        rw [decide_eq_true_eq] at this
        rw [← he]
        rw [hoff, Nat.add_zero, ← he] at this
        exact this
    · have hp : P.n ≤ q1 - e1.i := by omega
      obtain ⟨back, r1, r2, r3⟩ := doRewind_eq h hX hXl hl1 h1.holds (z := e2.i - e1.i) (by omega) (by omega) (by omega)
      rw [r1]
      simp only [Option.bind_some]
      obtain ⟨r, a2, b2⟩ := allLoop_eq (a := 0) (b := e2.i - e1.i) (Nat.zero_le _)
        (fun j => (rd back (j + P.n - (e2.i - e1.i))).bind fun v1 => (rd e2.x j).bind fun v2 => some (v1 == v2))
        (fun j => decide (X (q1 - e2.i + j) = Y (q2 - e2.i + j))) (by
          intro j _ hj
          have hr := r3 (e2.i - e1.i - 1 - j) (by omega) (by omega)
          rw [show q1 - e1.i - 1 - (e2.i - e1.i - 1 - j) = q1 - e2.i + j by omega] at hr
          rw [show j + P.n - (e2.i - e1.i) = P.n - 1 - (e2.i - e1.i - 1 - j) by omega]
          rw [rd, List.getElem?_eq_getElem (by omega), rd, List.getElem?_eq_getElem (by omega)]
          simp only [Option.bind_some, Option.some.injEq]
          rw [← hr, ← h2.holds j (by omega), Bool.eq_iff_iff, beq_iff_eq, decide_eq_true_eq]
          exact ⟨fun h => by rw [h], fun h => BitVec.eq_of_toNat_eq h⟩)
      refine ⟨r, a2, b2.trans ⟨fun hh j hj => ?_, fun hh j _ hj => ?_⟩⟩
      · by_cases hjo : j < e2.i - e1.i
        · have := hh j (by omega) hjo
          rwa [decide_eq_true_eq] at this
        · have := b1 (j - (e2.i - e1.i)) (by omega) (by omega)
          rw [decide_eq_true_eq] at this
          rw [show q1 - e2.i + j = q1 - e1.i + (j - (e2.i - e1.i)) by omega, this]
          congr 1; omega
      · rw [decide_eq_true_eq]; exact hh j (by omega)

end Mt
end Sprout
