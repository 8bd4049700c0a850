import Verif.Model.Fft
import Verif.Proofs.Fourier

/-!
# The split radix transform
-/

namespace Sprout.Fourier
open Complex Finset

/-! ### bit reversal -/

/-- the low `l` bits of `j` in reverse order -/
def rev : Nat → Nat → Nat
  | 0, _ => 0
  | l + 1, j => 2 ^ l * (j % 2) + rev l (j / 2)

theorem rev_lt : ∀ (l j : Nat), rev l j < 2 ^ l := by
  intro l
  induction l with
  | zero => intro j; simp [rev]
  | succ l ih =>
    intro j
    have h := ih (j / 2)
    rw [rev, pow_succ]
    have : j % 2 = 0 ∨ j % 2 = 1 := by omega
    rcases this with h2 | h2 <;> rw [h2] <;> omega

theorem rev_zero (l : Nat) : rev l 0 = 0 := by
  induction l with
  | zero => rfl
  | succ l ih => rw [rev]; simp [ih]

/-- the highest bit -/
theorem rev_top : ∀ (l j c : Nat), j < 2 ^ l → c < 2 → rev (l + 1) (j + c * 2 ^ l) = 2 * rev l j + c := by
  intro l
  induction l with
  | zero => intro j c hj hc; have : j = 0 := by simpa using hj
            subst this; simp [rev]; omega
  | succ l ih =>
    intro j c hj hc
    rw [rev]
    have e : c * 2 ^ (l + 1) = 2 * (c * 2 ^ l) := by rw [pow_succ]; ring
    have h1 : (j + c * 2 ^ (l + 1)) % 2 = j % 2 := by omega
    have h2 : (j + c * 2 ^ (l + 1)) / 2 = j / 2 + c * 2 ^ l := by omega
    rw [h1, h2, ih (j / 2) c (by rw [pow_succ] at hj; omega) hc, rev]
    rw [pow_succ]; ring

/-- leading zeroes -/
theorem rev_pad : ∀ (d l j : Nat), j < 2 ^ l → rev (l + d) j = 2 ^ d * rev l j := by
  intro d
  induction d with
  | zero => intro l j _; simp
  | succ d ih =>
    intro l j hj
    have h : j < 2 ^ (l + d) := lt_of_lt_of_le hj (Nat.pow_le_pow_right (by omega) (by omega))
    have := rev_top (l + d) j 0 h (by omega)
    simp only [Nat.zero_mul, Nat.add_zero, ih l j hj] at this
    rw [← Nat.add_assoc, this, pow_succ]; ring

theorem rev_rev : ∀ (l j : Nat), j < 2 ^ l → rev l (rev l j) = j := by
  intro l
  induction l with
  | zero => intro j hj; have : j = 0 := by simpa using hj
            simp [rev, this]
  | succ l ih =>
    intro j hj
    rw [pow_succ] at hj
    have h := ih (j / 2) (by omega)
    have e : rev (l + 1) j = rev l (j / 2) + j % 2 * 2 ^ l := by rw [rev]; ring
    rw [e, rev_top l _ _ (rev_lt _ _) (by omega), h]
    omega

theorem xor_low {l r : Nat} (h : r < 2 ^ l) : r ^^^ 2 ^ l = 2 ^ l + r := by
  apply Nat.eq_of_testBit_eq
  intro i
  rw [Nat.testBit_xor, Nat.testBit_two_pow]
  by_cases hi : i = l
  · subst hi
    rw [Nat.testBit_two_pow_add_eq, Nat.testBit_lt_two_pow h]; simp
  · rcases Nat.lt_or_gt_of_ne hi with hlt | hgt
    · rw [Nat.testBit_two_pow_add_gt hlt, decide_eq_false (by omega), Bool.xor_false]
    · have h1 : 2 ^ l + r < 2 ^ i := by
        have : 2 ^ (l + 1) ≤ 2 ^ i := Nat.pow_le_pow_right (by omega) hgt
        rw [pow_succ] at this; omega
      rw [Nat.testBit_lt_two_pow h1, Nat.testBit_lt_two_pow (by omega), decide_eq_false (by omega), Bool.xor_false]

theorem xor_high {l r : Nat} (h : r < 2 ^ l) : (2 ^ l + r) ^^^ 2 ^ l = r := by
  rw [← xor_low h, Nat.xor_assoc, Nat.xor_self, Nat.xor_zero]

/-- the loop counts in reversed order -/
theorem revInc_rev : ∀ (l j : Nat), j + 1 < 2 ^ (l + 1) → revInc (rev (l + 1) j) (2 ^ l) = rev (l + 1) (j + 1) := by
  intro l
  induction l with
  | zero =>
    intro j hj
    have : j = 0 := by simp at hj; omega
    subst this
    rw [revInc]; simp [rev]
  | succ l ih =>
    intro j hj
    have hr := rev_lt (l + 1) (j / 2)
    rw [revInc]
    have : j % 2 = 0 ∨ j % 2 = 1 := by omega
    rcases this with h2 | h2
    · have e : rev (l + 1 + 1) j = rev (l + 1) (j / 2) := by rw [rev, h2]; simp
      have e' : rev (l + 1 + 1) (j + 1) = 2 ^ (l + 1) + rev (l + 1) (j / 2) := by
        rw [rev, show (j + 1) % 2 = 1 by omega, show (j + 1) / 2 = j / 2 by omega]; simp
      rw [e, xor_low hr, if_neg (by omega), e']
    · have e : rev (l + 1 + 1) j = 2 ^ (l + 1) + rev (l + 1) (j / 2) := by rw [rev, h2]; simp
      have e' : rev (l + 1 + 1) (j + 1) = rev (l + 1) (j / 2 + 1) := by
        rw [rev, show (j + 1) % 2 = 0 by omega, show (j + 1) / 2 = j / 2 + 1 by omega]; simp
      rw [e, xor_high hr, if_pos hr, e', show 2 ^ (l + 1) / 2 = 2 ^ l by rw [pow_succ]; omega]
      rw [pow_succ] at hj
      exact ih (j / 2) (by omega)

theorem revInc_rev' {p j : Nat} (h : j + 1 < 2 ^ p) : revInc (rev p j) (2 ^ p / 2) = rev p (j + 1) := by
  obtain ⟨l, rfl⟩ : ∃ l, p = l + 1 := ⟨p - 1, by
    have : p ≠ 0 := by rintro rfl; simp at h
    omega⟩
  rw [show 2 ^ (l + 1) / 2 = 2 ^ l by rw [pow_succ]; omega, revInc_rev l j h]

theorem gv_set (a : List ℂ) (i j : Nat) (v : ℂ) (hi : i < a.length) : gv (a.set i v) j = if j = i then v else gv a j := by
  rw [gv, gv, List.getElem?_set]
  by_cases h : i = j
  · subst h; simp [hi]
  · rw [if_neg h, if_neg (fun e => h e.symm)]

/-! ### the scrambler -/

theorem swp_gv {a : List ℂ} {i j : Nat} (hi : i < a.length) (hj : j < a.length) :
    ∃ b, swp a i j = some b ∧ b.length = a.length ∧ ∀ x, gv b x = if x = i then gv a j else if x = j then gv a i else gv a x := by
  refine ⟨_, swp_eq hi hj, by simp, fun x => ?_⟩
  rw [gv_set _ _ _ _ (by simpa using hj), gv_set _ _ _ _ hi]
  rw [gv_eq hi, gv_eq hj]
  by_cases h1 : x = j
  · by_cases h2 : x = i
    · subst h1; subst h2; simp
    · rw [if_pos h1, if_neg h2, if_pos h1]
  · rw [if_neg h1]
    by_cases h2 : x = i
    · rw [if_pos h2, if_pos h2]
    · rw [if_neg h2, if_neg h2, if_neg h1]

theorem scramble_eq {p : Nat} {x : List ℂ} (hx : x.length = 2 ^ p) : ∀ (k j : Nat) (a : List ℂ), 2 ^ p - 1 - j = k → 1 ≤ j →
    a.length = 2 ^ p → (∀ i, i < 2 ^ p → gv a i = if i < j ∨ rev p i < j then gv x (rev p i) else gv x i) →
    ∃ b, scramble (2 ^ p) (rev p (j - 1)) j a = some b ∧ b.length = 2 ^ p ∧ ∀ i, i < 2 ^ p → gv b i = gv x (rev p i) := by
  intro k
  induction k with
  | zero =>
    intro j a hk hj ha h
    rw [scramble, if_neg (by omega)]
    refine ⟨a, rfl, ha, fun i hi => ?_⟩
    rw [h i hi]
    split
    · rfl
    · rename_i hn
      have h1 := rev_lt p i
      have : i = rev p i := by omega
      rw [← this]
  | succ k ih =>
    intro j a hk hj ha h
    rw [scramble, if_pos (by omega), revInc_rev' (by omega), show j - 1 + 1 = j by omega]
    have hr := rev_lt p j
    have hrr := rev_rev p j (by omega)
    by_cases hs : j < rev p j
    · obtain ⟨b, e, hb, hv⟩ := swp_gv (a := a) (i := rev p j) (j := j) (by omega) (by omega)
      have := ih (j + 1) b (by omega) (by omega) (by omega) (by
        intro i hi
        rw [hv]
        have hri := rev_rev p i hi
        by_cases h1 : i = rev p j
        · subst h1
          rw [if_pos rfl, h j (by omega), hrr, if_neg (by omega), if_pos (by omega)]
        · rw [if_neg h1]
          by_cases h2 : i = j
          · subst h2
            rw [if_pos rfl, h (rev p i) hr, hrr, if_neg (by omega), if_pos (by omega)]
          · rw [if_neg h2, h i hi]
            have : rev p i ≠ j := by intro h3; rw [h3] at hri; omega
            by_cases h4 : i < j ∨ rev p i < j
            · rw [if_pos h4, if_pos (by omega)]
            · rw [if_neg h4, if_neg (by omega)])
      simp only [if_pos hs, e, Option.bind_eq_bind, Option.bind_some]
      exact this
    · have := ih (j + 1) a (by omega) (by omega) (by omega) (by
        intro i hi
        rw [h i hi]
        have hri := rev_rev p i hi
        by_cases h4 : i < j ∨ rev p i < j
        · rw [if_pos h4, if_pos (by omega)]
        · rw [if_neg h4]
          by_cases h5 : i < j + 1 ∨ rev p i < j + 1
          · rw [if_pos h5]
            have : i = rev p i := by
              by_cases h6 : i = j
              · subst h6; omega
              · have h7 : rev p i = j := by omega
                rw [h7] at hri; omega
            rw [← this]
          · rw [if_neg h5])
      simp only [if_neg hs, Option.bind_eq_bind, Option.bind_some]
      exact this

theorem scramble_full {p : Nat} {x : List ℂ} (hx : x.length = 2 ^ p) :
    ∃ b, scramble (2 ^ p) 0 1 x = some b ∧ b.length = 2 ^ p ∧ ∀ i, i < 2 ^ p → gv b i = gv x (rev p i) := by
  have := scramble_eq hx _ 1 x rfl (by omega) hx (by
    intro i hi
    split
    · rename_i h
      have hri := rev_rev p i hi
      have : i = 0 := by
        rcases h with h | h
        · omega
        · rw [show rev p i = 0 by omega, rev_zero] at hri; omega
      subst this
      rw [rev_zero]
    · rfl)
  rw [show 1 - 1 = 0 from rfl, rev_zero] at this
  exact this

/-! ### loops over butterflies -/

/-- `a'` results from `a` by applying `B j` to the cells `j`, `j + mq`, … of those bases `j` for which `P` holds -/
def Upd (c mq : Nat) (P : Nat → Prop) (B : Nat → (Fin c → ℂ) → Fin c → ℂ) (a a' : List ℂ) : Prop :=
  a'.length = a.length ∧ ∀ j, j % (c * mq) < mq → ∀ i : Fin c,
    (P j → gv a' (j + i * mq) = B j (fun i => gv a (j + i * mq)) i) ∧ (¬P j → gv a' (j + i * mq) = gv a (j + i * mq))

theorem Upd.refl {c mq : Nat} {P : Nat → Prop} {B : Nat → (Fin c → ℂ) → Fin c → ℂ} {a : List ℂ}
    (h : ∀ j, ¬P j) : Upd c mq P B a a := ⟨rfl, fun j _ _ => ⟨fun hp => absurd hp (h j), fun _ => rfl⟩⟩

theorem Upd.trans {c mq : Nat} {P Q : Nat → Prop} {B : Nat → (Fin c → ℂ) → Fin c → ℂ} {a a' a'' : List ℂ}
    (h1 : Upd c mq P B a a') (h2 : Upd c mq Q B a' a'') (hd : ∀ j, P j → ¬Q j) : Upd c mq (fun j => P j ∨ Q j) B a a'' := by
  refine ⟨h2.1.trans h1.1, fun j hj i => ⟨fun h => ?_, fun h => ?_⟩⟩
  · rcases h with h | h
    · rw [(h2.2 j hj i).2 (hd j h), (h1.2 j hj i).1 h]
    · have hn : ¬P j := fun hp => hd j hp h
      rw [(h2.2 j hj i).1 h]
      congr 1
      funext i
      exact (h1.2 j hj i).2 hn
  · rw [(h2.2 j hj i).2 (fun hq => h (Or.inr hq)), (h1.2 j hj i).2 (fun hp => h (Or.inl hp))]

theorem Upd.congr {c mq : Nat} {P Q : Nat → Prop} {B B' : Nat → (Fin c → ℂ) → Fin c → ℂ} {a a' : List ℂ}
    (h : Upd c mq P B a a') (hpq : ∀ j, j % (c * mq) < mq → (P j ↔ Q j)) (hB : ∀ j, j % (c * mq) < mq → Q j → B j = B' j) :
    Upd c mq Q B' a a' := by
  refine ⟨h.1, fun j hj i => ⟨fun hq => ?_, fun hq => ?_⟩⟩
  · rw [← hB j hj hq]; exact (h.2 j hj i).1 ((hpq j hj).2 hq)
  · exact (h.2 j hj i).2 (fun hp => hq ((hpq j hj).1 hp))

/-- cells of different bases are different -/
theorem cell_inj {c mq j j' i i' : Nat} (hj : j % (c * mq) < mq) (hj' : j' % (c * mq) < mq) (hi : i < c) (hi' : i' < c)
    (h : j + i * mq = j' + i' * mq) : j = j' ∧ i = i' := by
  have h0 : 0 < mq := by omega
  have e := Nat.div_add_mod j (c * mq)
  have e' := Nat.div_add_mod j' (c * mq)
  generalize j % (c * mq) = q at *
  generalize j' % (c * mq) = q' at *
  generalize j / (c * mq) = d at *
  generalize j' / (c * mq) = d' at *
  subst e
  subst e'
  have h1 : mq * (c * d + i) + q = mq * (c * d' + i') + q' := by
    calc mq * (c * d + i) + q = c * mq * d + q + i * mq := by ring
      _ = c * mq * d' + q' + i' * mq := h
      _ = mq * (c * d' + i') + q' := by ring
  have h2 : c * d + i = c * d' + i' := by
    have := congrArg (· / mq) h1
    simpa [Nat.mul_add_div h0, Nat.div_eq_of_lt hj, Nat.div_eq_of_lt hj'] using this
  have h3 : q = q' := by
    have := congrArg (· % mq) h1
    simpa [Nat.mul_add_mod, Nat.mod_eq_of_lt hj, Nat.mod_eq_of_lt hj'] using this
  have h4 : d = d' := by
    have := congrArg (· / c) h2
    simpa [Nat.mul_add_div (show 0 < c by omega), Nat.div_eq_of_lt hi, Nat.div_eq_of_lt hi'] using this
  have h5 : i = i' := by rw [h4] at h2; omega
  rw [h3, h4, h5]; exact ⟨rfl, rfl⟩

/-- one base -/
theorem Upd.single {c mq x : Nat} {B : Nat → (Fin c → ℂ) → Fin c → ℂ} {a a' : List ℂ} (hx : x % (c * mq) < mq)
    (hl : a'.length = a.length) (h1 : ∀ i : Fin c, gv a' (x + i * mq) = B x (fun i => gv a (x + i * mq)) i)
    (h2 : ∀ y, (∀ i : Fin c, y ≠ x + i * mq) → gv a' y = gv a y) : Upd c mq (· = x) B a a' := by
  refine ⟨hl, fun j hj i => ⟨fun h => by subst h; exact h1 i, fun h => h2 _ fun i' h' => h ?_⟩⟩
  exact (cell_inj hj hx i.2 i'.2 h').1

/-- what a body must do -/
def Body (c mq n : Nat) (R : Nat → Prop) (B : Nat → (Fin c → ℂ) → Fin c → ℂ) (body : List ℂ → Nat → Option (List ℂ)) : Prop :=
  ∀ x, R x → ∀ a : List ℂ, a.length = n → ∃ a', body a x = some a' ∧ Upd c mq (· = x) B a a'

theorem jLoop_upd {c mq n : Nat} {R : Nat → Prop} {B : Nat → (Fin c → ℂ) → Fin c → ℂ} {body : List ℂ → Nat → Option (List ℂ)}
    (hb : Body c mq n R B body) : ∀ (k j e : Nat) (a : List ℂ), e - j = k → a.length = n → (∀ x, j ≤ x → x < e → R x) →
    ∃ a', jLoop body j e a = some a' ∧ Upd c mq (fun x => j ≤ x ∧ x < e) B a a' := by
  intro k
  induction k with
  | zero =>
    intro j e a hk ha hR
    rw [jLoop, if_neg (by omega)]
    exact ⟨a, rfl, Upd.refl (fun x => by omega)⟩
  | succ k ih =>
    intro j e a hk ha hR
    obtain ⟨a1, e1, u1⟩ := hb j (hR j (by omega) (by omega)) a ha
    obtain ⟨a2, e2, u2⟩ := ih (j + 1) e a1 (by omega) (u1.1.trans ha) (fun x h1 h2 => hR x (by omega) h2)
    rw [jLoop, if_pos (by omega), e1]
    refine ⟨a2, e2, (u1.trans u2 (fun x h => by omega)).congr (fun x _ => by omega) (fun _ _ _ => rfl)⟩

/-- the lanes that take part in a stage -/
def inS : Nat → Nat → Prop
  | 0, q => q = 0
  | 1, q => q = 0
  | t + 2, q => q < 2 ^ (t + 1) ∨ (3 * 2 ^ t ≤ q ∧ inS t (q - 3 * 2 ^ t))

/-- lanes not taking part are those that were split off in the stage before -/
theorem inS_succ : ∀ (t q : Nat), q < 2 ^ (t + 1) → (inS (t + 1) q ↔ ¬(2 ^ t ≤ q ∧ inS t (q - 2 ^ t)))
  | 0, q, h => by simp [inS] at *; omega
  | 1, q, h => by simp [inS] at *; omega
  | t + 2, q, h => by
    rw [inS, inS]
    have ih := inS_succ t (q - 3 * 2 ^ (t + 1))
    have e1 : 2 ^ (t + 1) = 2 * 2 ^ t := by rw [pow_succ]; ring
    have e2 : 2 ^ (t + 2) = 4 * 2 ^ t := by rw [pow_succ, pow_succ]; ring
    have e3 : 2 ^ (t + 2 + 1) = 8 * 2 ^ t := by rw [pow_succ, pow_succ, pow_succ]; ring
    rw [show t + 1 + 1 = t + 2 from rfl]
    rw [e3] at h
    rw [e1] at ih
    rw [e1, e2]
    generalize 2 ^ t = z at *
    by_cases h1 : q < 4 * z
    · constructor
      · intro _; omega
      · intro _; left; exact h1
    · by_cases h2 : q < 6 * z
      · constructor
        · rintro (h3 | h3) <;> omega
        · intro h3; exact absurd ⟨by omega, Or.inl (by omega)⟩ h3
      · have ih' := ih (by omega)
        rw [show q - 3 * (2 * z) - z = q - 4 * z - 3 * z by omega] at ih'
        constructor
        · rintro (h3 | ⟨_, h3⟩)
          · omega
          · rintro ⟨_, h4 | ⟨h4, h5⟩⟩
            · omega
            · exact ih'.1 h3 ⟨by omega, h5⟩
        · intro h3
          right
          refine ⟨by omega, ih'.2 ?_⟩
          rintro ⟨h4, h5⟩
          exact h3 ⟨by omega, Or.inr ⟨by omega, h5⟩⟩

theorem kLoop_upd {c mq n : Nat} {R : Nat → Prop} {B : Nat → (Fin c → ℂ) → Fin c → ℂ} {body : List ℂ → Nat → Option (List ℂ)}
    (hb : Body c mq n R B body) (base : Nat) (hR : ∀ x, base ≤ x → x < base + mq → R x) :
    ∀ (s : Nat) (a : List ℂ), 2 ^ s ≤ mq → a.length = n →
    ∃ a', kLoop body base mq (2 ^ s) a = some a' ∧
      Upd c mq (fun x => base + mq - 2 ^ s ≤ x ∧ x < base + mq ∧ inS s (x - (base + mq - 2 ^ s))) B a a'
  | 0, a, hs, ha => by
    rw [pow_zero] at *
    obtain ⟨a1, e1, u1⟩ := jLoop_upd hb _ (base + mq - 1) (base + mq - 1 / 2) a rfl ha (fun x h1 h2 => hR x (by omega) (by omega))
    rw [kLoop, if_pos (by omega), e1, Option.bind_eq_bind, Option.bind_some, kLoop, if_neg (by omega)]
    refine ⟨a1, rfl, u1.congr (fun x _ => ?_) (fun _ _ _ => rfl)⟩
    rw [inS]; omega
  | 1, a, hs, ha => by
    rw [pow_one] at *
    obtain ⟨a1, e1, u1⟩ := jLoop_upd hb _ (base + mq - 2) (base + mq - 2 / 2) a rfl ha (fun x h1 h2 => hR x (by omega) (by omega))
    rw [kLoop, if_pos (by omega), e1, Option.bind_eq_bind, Option.bind_some, kLoop, if_neg (by omega)]
    refine ⟨a1, rfl, u1.congr (fun x _ => ?_) (fun _ _ _ => rfl)⟩
    rw [inS]; omega
  | s + 2, a, hs, ha => by
    have e0 : 2 ^ (s + 2) = 4 * 2 ^ s := by rw [pow_succ, pow_succ]; ring
    have e0' : 2 ^ (s + 1) = 2 * 2 ^ s := by rw [pow_succ]; ring
    have hp : 0 < 2 ^ s := Nat.two_pow_pos s
    rw [e0] at hs ⊢
    obtain ⟨a1, e1, u1⟩ := jLoop_upd hb _ (base + mq - 4 * 2 ^ s) (base + mq - 4 * 2 ^ s / 2) a rfl ha
      (fun x h1 h2 => hR x (by omega) (by omega))
    obtain ⟨a2, e2, u2⟩ := kLoop_upd hb base hR s a1 (by omega) (u1.1.trans ha)
    rw [kLoop, if_pos (by omega), e1, Option.bind_eq_bind, Option.bind_some, show 4 * 2 ^ s / 4 = 2 ^ s by omega]
    refine ⟨a2, e2, (u1.trans u2 (fun x h => by omega)).congr (fun x _ => ?_) (fun _ _ _ => rfl)⟩
    rw [inS, e0']
    generalize 2 ^ s = z at *
    by_cases h : base + mq - z ≤ x
    · rw [show x - (base + mq - 4 * z) - 3 * z = x - (base + mq - z) by omega]
      constructor
      · rintro (h1 | h1)
        · omega
        · exact ⟨by omega, h1.2.1, Or.inr ⟨by omega, h1.2.2⟩⟩
      · rintro ⟨h1, h2, h3 | h3⟩
        · omega
        · exact Or.inr ⟨h, h2, h3.2⟩
    · constructor
      · rintro (h1 | h1)
        · exact ⟨by omega, by omega, Or.inl (by omega)⟩
        · omega
      · rintro ⟨h1, h2, h3 | h3⟩
        · left; omega
        · omega

end Sprout.Fourier
