import Verif.Proofs.Mt3

/-!
# Proofs about the Mersenne twister: the outputs determine the words, and the words the earlier ones
-/

namespace Sprout
namespace Mt
open Spec

variable {W : Nat}

/-! ### The tempering is injective -/

theorem shr_inj {x y u d w : Nat} (hu : 0 < u) (hx : x < 2 ^ w) (hy : y < 2 ^ w)
    (h : x ^^^ ((x / 2 ^ u) &&& d) = y ^^^ ((y / 2 ^ u) &&& d)) : x = y := by
  apply Nat.eq_of_testBit_eq
  have key : ∀ k i, w ≤ i + k → x.testBit i = y.testBit i := by
    intro k
    induction k with
    | zero =>
      intro i hi
      rw [Nat.testBit_lt_two_pow (Nat.lt_of_lt_of_le hx (Nat.pow_le_pow_right (by omega) (by omega))),
        Nat.testBit_lt_two_pow (Nat.lt_of_lt_of_le hy (Nat.pow_le_pow_right (by omega) (by omega)))]
    | succ k ih =>
      intro i hi
      have hb := congrArg (fun n => n.testBit i) h
      simp only [Nat.testBit_xor, Nat.testBit_and, Nat.testBit_div_two_pow] at hb
      rw [ih (i + u) (by omega)] at hb
      revert hb
      cases x.testBit i <;> cases y.testBit i <;> cases (y.testBit (i + u) && d.testBit i) <;> simp
  intro i
  exact key w i (by omega)

theorem shl_inj {x y s b w : Nat} (hs : 0 < s)
    (h : x ^^^ ((x * 2 ^ s % 2 ^ w) &&& b) = y ^^^ ((y * 2 ^ s % 2 ^ w) &&& b)) : x = y := by
  apply Nat.eq_of_testBit_eq
  intro i
  induction i using Nat.strongRecOn with
  | _ i ih =>
    have hb := congrArg (fun n => n.testBit i) h
    simp only [Nat.testBit_xor, Nat.testBit_and, Nat.testBit_mod_two_pow, Nat.testBit_mul_two_pow] at hb
    by_cases hi : s ≤ i
    · rw [ih (i - s) (by omega)] at hb
      revert hb
      cases x.testBit i <;> cases y.testBit i <;> cases ((decide (i < w) && (decide (i ≥ s) && y.testBit (i - s))) && b.testBit i) <;> simp
    · have : ¬ i ≥ s := by omega
      simpa [this] using hb

theorem mtTemper_inj {P : MtPar} (h : P.Ok) (hu : 0 < P.u) (hs : 0 < P.s) (ht : 0 < P.t) (hl : 0 < P.l) {x y : Nat} (hx : x < 2 ^ P.w) (hy : y < 2 ^ P.w)
    (he : mtTemper P x = mtTemper P y) : x = y := by
  unfold mtTemper at he
  have lt1 : ∀ {x}, x < 2 ^ P.w → x ^^^ ((x / 2 ^ P.u) &&& P.d) < 2 ^ P.w := fun hx => xor_lt hx (Nat.and_lt_two_pow _ h.d)
  have lt2 : ∀ {x}, x < 2 ^ P.w → x ^^^ ((x * 2 ^ P.s % 2 ^ P.w) &&& P.b) < 2 ^ P.w := fun hx => xor_lt hx (Nat.and_lt_two_pow _ h.b)
  have lt3 : ∀ {x}, x < 2 ^ P.w → x ^^^ ((x * 2 ^ P.t % 2 ^ P.w) &&& P.c) < 2 ^ P.w := fun hx => xor_lt hx (Nat.and_lt_two_pow _ h.c)
  refine shr_inj hu (d := P.d) hx hy (shl_inj hs (w := P.w) (b := P.b) (shl_inj ht (w := P.w) (b := P.c) ?_))
  apply shr_inj hl (d := 2 ^ P.w - 1) (w := P.w) (lt3 (lt2 (lt1 hx))) (lt3 (lt2 (lt1 hy)))
  have m : ∀ {x}, x < 2 ^ P.w → (x / 2 ^ P.l) &&& (2 ^ P.w - 1) = x / 2 ^ P.l := by
    intro x hx
    rw [Nat.and_two_pow_sub_one_eq_mod, Nat.mod_eq_of_lt (Nat.lt_of_le_of_lt (Nat.div_le_self _ _) hx)]
  rw [m (lt3 (lt2 (lt1 hx))), m (lt3 (lt2 (lt1 hy)))]
  exact he

/-! ### The matrix is injective, and so the sequence can be continued backwards -/

theorem half_inj {a Y Z w : Nat} (hw : 0 < w) (ha : 2 ^ (w - 1) ≤ a) (ha' : a < 2 ^ w) (hY : Y < 2 ^ w) (hZ : Z < 2 ^ w)
    (h : (Y / 2) ^^^ (a * (Y % 2)) = (Z / 2) ^^^ (a * (Z % 2))) : Y = Z := by
  have hpw : (2:Nat) ^ w = 2 * 2 ^ (w - 1) := by rw [← Nat.pow_succ']; congr 1; omega
  have htop : a.testBit (w - 1) = true := by
    rw [Nat.testBit_eq_decide_div_mod_eq, decide_eq_true_eq]
    have : a / 2 ^ (w - 1) = 1 := by apply Nat.div_eq_of_lt_le <;> omega
    omega
  have bit : ∀ {Y : Nat}, Y < 2 ^ w → ((Y / 2) ^^^ (a * (Y % 2))).testBit (w - 1) = decide (Y % 2 = 1) := by
    intro Y hY
    rw [Nat.testBit_xor, Nat.testBit_lt_two_pow (x := Y / 2) (by omega)]
    rcases Nat.mod_two_eq_zero_or_one Y with h0 | h0 <;> rw [h0]
    · simp
    · rw [Nat.mul_one, htop]; rfl
  have hb := congrArg (fun n => n.testBit (w - 1)) h
  simp only [bit hY, bit hZ, decide_eq_decide] at hb
  have h2 : Y % 2 = Z % 2 := by
    have := Nat.mod_two_eq_zero_or_one Y
    have := Nat.mod_two_eq_zero_or_one Z
    omega
  rw [h2] at h
  have := Nat.xor_left_inj.1 h
  omega

theorem yAt_lt {P : MtPar} (h : P.Ok) {X : Nat → Nat} (hX : ∀ k, X k < 2 ^ P.w) (k : Nat) : yAt P X k < 2 ^ P.w := join_lt h.rw (hX _) (hX _)

/-- where two sequences agree, so do the `Y`s that produced the words -/
theorem yAt_agree {P : MtPar} (h : P.Ok) (ha : 2 ^ (P.w - 1) ≤ P.a) {X Y : Nat → Nat} (hX : MtRec P X) (hY : MtRec P Y) (hXl : ∀ k, X k < 2 ^ P.w)
    (hYl : ∀ k, Y k < 2 ^ P.w) {k l : Nat} (hn : X (k + P.n) = Y (l + P.n)) (hm : X (k + P.m) = Y (l + P.m)) : yAt P X k = yAt P Y l := by
  have hw := h.w2
  apply half_inj (w := P.w) (by omega) ha h.a (yAt_lt h hXl _) (yAt_lt h hYl _)
  have e1 := hX k
  have e2 := hY l
  rw [hn, hm, e2] at e1
  exact (Nat.xor_right_inj.1 e1).symm

theorem yAt_bits {P : MtPar} {X : Nat → Nat} {k i : Nat} : (yAt P X k).testBit i = if i < P.r then (X (k + 1)).testBit i else (X k).testBit i :=
  testBit_join _ _ _ _

/-- one word further back -/
theorem back_step {P : MtPar} (h : P.Ok) (ha : 2 ^ (P.w - 1) ≤ P.a) (hm : 1 < P.m) {X Y : Nat → Nat} (hX : MtRec P X) (hY : MtRec P Y)
    (hXl : ∀ k, X k < 2 ^ P.w) (hYl : ∀ k, Y k < 2 ^ P.w) {p q : Nat} (hagree : ∀ k, X (p + 1 + 1 + k) = Y (q + 1 + 1 + k)) : X (p + 1) = Y (q + 1) := by
  have hmn := h.mn
  have y1 := yAt_agree h ha hX hY hXl hYl (k := p + 1) (l := q + 1)
    (by have := hagree (P.n - 1); rwa [show p + 1 + 1 + (P.n - 1) = p + 1 + P.n by omega, show q + 1 + 1 + (P.n - 1) = q + 1 + P.n by omega] at this)
    (by have := hagree (P.m - 1); rwa [show p + 1 + 1 + (P.m - 1) = p + 1 + P.m by omega, show q + 1 + 1 + (P.m - 1) = q + 1 + P.m by omega] at this)
  have y0 := yAt_agree h ha hX hY hXl hYl (k := p) (l := q)
    (by have := hagree (P.n - 2); rwa [show p + 1 + 1 + (P.n - 2) = p + P.n by omega, show q + 1 + 1 + (P.n - 2) = q + P.n by omega] at this)
    (by have := hagree (P.m - 2); rwa [show p + 1 + 1 + (P.m - 2) = p + P.m by omega, show q + 1 + 1 + (P.m - 2) = q + P.m by omega] at this)
  apply Nat.eq_of_testBit_eq
  intro i
  by_cases hi : i < P.r
  · have := congrArg (fun n => n.testBit i) y0
    simpa only [yAt_bits, if_pos hi] using this
  · have := congrArg (fun n => n.testBit i) y1
    simpa only [yAt_bits, if_neg hi] using this

/-- sequences that agree from some point on agree before it, as long as there is an earlier word -/
theorem back_agree {P : MtPar} (h : P.Ok) (ha : 2 ^ (P.w - 1) ≤ P.a) (hm : 1 < P.m) {X Y : Nat → Nat} (hX : MtRec P X) (hY : MtRec P Y)
    (hXl : ∀ k, X k < 2 ^ P.w) (hYl : ∀ k, Y k < 2 ^ P.w) (d : Nat) {p q : Nat} (hagree : ∀ k, X (p + 1 + d + k) = Y (q + 1 + d + k)) (k : Nat) :
    X (p + 1 + k) = Y (q + 1 + k) := by
  induction d generalizing p q k with
  | zero => exact hagree k
  | succ d ih =>
    have h1 : ∀ k, X (p + 1 + 1 + k) = Y (q + 1 + 1 + k) := by
      intro k
      refine ih (p := p + 1) (q := q + 1) (fun k => ?_) k
      have := hagree k
      rwa [show p + 1 + (d + 1) + k = p + 1 + 1 + d + k by omega, show q + 1 + (d + 1) + k = q + 1 + 1 + d + k by omega] at this
    cases k with
    | zero => exact back_step h ha hm hX hY hXl hYl h1
    | succ k => have := h1 k; rwa [show p + 1 + 1 + k = p + 1 + (k + 1) by omega, show q + 1 + 1 + k = q + 1 + (k + 1) by omega] at this

/-- `n` equal words: the sequences agree from there on -/
theorem forth_agree {P : MtPar} (h : P.Ok) {X Y : Nat → Nat} (hX : MtRec P X) (hY : MtRec P Y) {p q : Nat}
    (hagree : ∀ j, j < P.n → X (p + j) = Y (q + j)) (k : Nat) : X (p + k) = Y (q + k) := by
  have h0 := h.m0
  have hmn := h.mn
  induction k using Nat.strongRecOn with
  | _ k ih =>
    by_cases hk : k < P.n
    · exact hagree k hk
    · have e1 := hX (p + (k - P.n))
      have e2 := hY (q + (k - P.n))
      rw [show p + (k - P.n) + P.n = p + k by omega] at e1
      rw [show q + (k - P.n) + P.n = q + k by omega] at e2
      rw [e1, e2]
      have a1 := ih (k - P.n) (by omega)
      have a2 := ih (k - P.n + 1) (by omega)
      have a3 := ih (k - P.n + P.m) (by omega)
      rw [← Nat.add_assoc, ← Nat.add_assoc] at a2 a3
      rw [a1, a2, a3]

end Mt
end Sprout
