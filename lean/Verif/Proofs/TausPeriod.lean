import Verif.Spec.Taus
import Mathlib.Tactic.NormNum.Prime
import Mathlib.Data.Int.GCD

/-! # Periods of Tausworthe sequences -/

namespace Sprout.TausPeriod
open Spec

/-- `T` is a period of `b` -/
def Per {α : Type} (T : Nat) (b : Nat → α) : Prop := ∀ n, b (n + T) = b n

theorem Per.mul {α : Type} {T : Nat} {b : Nat → α} (h : Per T b) (m : Nat) : Per (T * m) b := by
  intro n
  induction m with
  | zero => rfl
  | succ m ih => rw [Nat.mul_succ, ← Nat.add_assoc, h, ih]

theorem Per.dvd {α : Type} {T U : Nat} {b : Nat → α} (h : Per T b) (d : T ∣ U) : Per U b := by
  obtain ⟨m, rfl⟩ := d
  exact h.mul m

theorem Per.mod {α : Type} {T U : Nat} {b : Nat → α} (h : Per T b) (h' : Per U b) : Per (U % T) b := by
  intro n
  rw [← h.mul (U / T) (n + U % T), Nat.add_assoc, Nat.mod_add_div, h']

theorem Per.gcd {α : Type} {b : Nat → α} (T U : Nat) : Per T b → Per U b → Per (Nat.gcd T U) b := by
  induction T, U using Nat.gcd.induction with
  | H0 U => intro _ h; rwa [Nat.gcd_zero_left]
  | H1 T U hT ih =>
    intro h h'
    rw [Nat.gcd_rec]
    exact ih (h.mod h') h

theorem Per.congr {α : Type} {T m n : Nat} {b : Nat → α} (h : Per T b) (e : m % T = n % T) : b m = b n := by
  have h1 := h.mul (m / T) (m % T)
  have h2 := h.mul (n / T) (n % T)
  rw [Nat.mod_add_div] at h1 h2
  rw [h1, h2, e]

/-- a sequence sampled at every `s`-th position -/
theorem Per.sample {α : Type} {T : Nat} {b : Nat → α} (h : Per T b) (s i : Nat) : Per T (fun n => b (n * s + i)) := by
  intro n
  show b ((n + T) * s + i) = _
  rw [show (n + T) * s + i = (n * s + i) + T * s by rw [Nat.add_mul]; omega]
  exact h.mul s _

/-! ## polynomials in the shift -/

/-- a polynomial in the shift, applied to a sequence -/
def act : List Bool → (Nat → Bool) → Nat → Bool
  | [], _, _ => false
  | a :: p, b, n => ((a && b n) ^^ act p b (n + 1))

def add (p r : List Bool) : List Bool := List.zipWith xor p r

theorem act_add (p r : List Bool) (b : Nat → Bool) (n : Nat) (h : p.length = r.length) : act (add p r) b n = (act p b n ^^ act r b n) := by
  induction p generalizing r n with
  | nil => cases r with
    | nil => rfl
    | cons _ _ => cases h
  | cons x p ih => cases r with
    | nil => cases h
    | cons y r =>
      have := ih r (n + 1) (by simpa using h)
      simp only [add] at this
      simp only [add, List.zipWith_cons_cons, act, this]
      cases x <;> cases y <;> cases b n <;> cases act p b (n + 1) <;> cases act r b (n + 1) <;> rfl

theorem act_append (p r : List Bool) (b : Nat → Bool) (n : Nat) : act (p ++ r) b n = (act p b n ^^ act r b (n + p.length)) := by
  induction p generalizing n with
  | nil => simp [act]
  | cons x p ih =>
    simp only [List.cons_append, act, ih (n + 1), List.length_cons, Bool.xor_assoc]
    rw [show n + 1 + p.length = n + (p.length + 1) by omega]

theorem act_zero (m : Nat) (b : Nat → Bool) (n : Nat) : act (List.replicate m false) b n = false := by
  induction m generalizing n with
  | zero => rfl
  | succ m ih => simp [List.replicate_succ, act, ih]

theorem act_of_zero (p : List Bool) (b : Nat → Bool) (n : Nat) (h : ∀ i, b i = false) : act p b n = false := by
  induction p generalizing n with
  | nil => rfl
  | cons x p ih => simp [act, h, ih]

/-- `1 + x^q`, padded to length `k` -/
def tri (k q : Nat) : List Bool := (List.range k).map fun i => i == 0 || i == q
def one (k : Nat) : List Bool := (List.range k).map fun i => i == 0
def var (k : Nat) : List Bool := (List.range k).map fun i => i == 1

/-- multiplication by the variable -/
def mulX (k q : Nat) (p : List Bool) : List Bool :=
  let s := false :: p.dropLast
  if p.getLast?.getD false then add s (tri k q) else s

def mul (k q : Nat) : List Bool → List Bool → List Bool
  | [], _ => List.replicate k false
  | a :: p, r => if a then add r (mulX k q (mul k q p r)) else mulX k q (mul k q p r)

theorem act_map_range (f : Nat → Bool) (m : Nat) (b : Nat → Bool) (n : Nat) :
    act ((List.range (m + 1)).map f) b n = (act ((List.range m).map f) b n ^^ (f m && b (n + m))) := by
  rw [List.range_succ, List.map_append, act_append]
  simp [act]

theorem act_single (j m : Nat) (b : Nat → Bool) (n : Nat) (h : j < m) : act ((List.range m).map fun i => i == j) b n = b (n + j) := by
  have low : ∀ m, m ≤ j → act ((List.range m).map fun i => i == j) b n = false := by
    intro m
    induction m with
    | zero => intro _; rfl
    | succ m ih =>
      intro hm
      rw [act_map_range, ih (by omega), show (m == j) = false by simp; omega]
      rfl
  induction m with
  | zero => omega
  | succ m ih =>
    rw [act_map_range]
    rcases Nat.lt_or_ge j m with hm | hm
    · rw [ih hm, show (m == j) = false by simp; omega]
      simp
    · have : m = j := by omega
      subst this
      rw [low m (Nat.le_refl _)]
      simp

theorem act_tri {k q : Nat} (h0 : 0 < q) (h1 : q < k) (b : Nat → Bool) (n : Nat) : act (tri k q) b n = (b n ^^ b (n + q)) := by
  have e : tri k q = add ((List.range k).map fun i => i == 0) ((List.range k).map fun i => i == q) := by
    apply List.ext_getElem
    · simp [tri, add]
    · intro i h h'
      simp only [tri, add, List.getElem_map, List.getElem_range, List.getElem_zipWith]
      by_cases hi : i = 0
      · subst hi; rw [show (0 == q) = false by simp; omega]; rfl
      · rw [show (i == 0) = false by simp; omega]; simp
  rw [e, act_add _ _ _ _ (by simp), act_single 0 k b n (by omega), act_single q k b n h1]
  rfl

theorem mulX_length {k q : Nat} {p : List Bool} (hk : 0 < k) (h : p.length = k) : (mulX k q p).length = k := by
  have : (false :: p.dropLast).length = k := by simp; omega
  simp only [mulX]
  split
  · simp only [add, List.length_zipWith, this, tri, List.length_map, List.length_range, Nat.min_self]
  · exact this

theorem act_mulX {k q : Nat} (h0 : 0 < q) (h1 : q < k) {p : List Bool} (h : p.length = k) {b : Nat → Bool} (hb : IsTaus k q b) (n : Nat) :
    act (mulX k q p) b n = act p b (n + 1) := by
  have hp : p ≠ [] := by intro e; rw [e] at h; simp at h; omega
  have hl : (false :: p.dropLast).length = k := by simp; omega
  have e : p = p.dropLast ++ [p.getLast hp] := (List.dropLast_append_getLast hp).symm
  have hd : p.dropLast.length = k - 1 := by simp; omega
  have hs : act (false :: p.dropLast) b n = act p.dropLast b (n + 1) := by simp [act]
  have he : act p b (n + 1) = (act p.dropLast b (n + 1) ^^ (p.getLast hp && b (n + k))) := by
    conv => lhs; rw [e]
    rw [act_append, hd, show n + 1 + (k - 1) = n + k by omega]
    simp [act]
  rw [he, mulX, List.getLast?_eq_getLast hp, Option.getD_some]
  cases hg : p.getLast hp
  · simp only [Bool.false_eq_true, if_false, hs]; simp
  · simp only [if_true]
    rw [act_add _ _ _ _ (by rw [hl]; simp [tri]), hs, act_tri h0 h1, Bool.true_and, hb n, Bool.xor_comm (b n)]

theorem mul_length {k q : Nat} (hk : 0 < k) (p r : List Bool) (hr : r.length = k) : (mul k q p r).length = k := by
  induction p with
  | nil => simp [mul]
  | cons a p ih =>
    simp only [mul]
    split
    · simp only [add, List.length_zipWith, mulX_length hk ih, hr, Nat.min_self]
    · exact mulX_length hk ih

theorem act_mul {k q : Nat} (h0 : 0 < q) (h1 : q < k) (p r : List Bool) (hr : r.length = k) {b : Nat → Bool} (hb : IsTaus k q b) (n : Nat) :
    act (mul k q p r) b n = act p (act r b) n := by
  induction p generalizing n with
  | nil => exact act_zero k b n
  | cons a p ih =>
    have hl := mul_length (q := q) (by omega : 0 < k) p r hr
    have hx := act_mulX h0 h1 hl hb n
    simp only [mul, act]
    cases a
    · simp only [Bool.false_eq_true, if_false, hx, ih]; simp
    · simp only [if_true]
      rw [act_add _ _ _ _ (by rw [hr, mulX_length (by omega) hl]), hx, ih, Bool.true_and]

/-- `p` represents the `m`-th power of the variable -/
def Rep (k q : Nat) (p : List Bool) (m : Nat) : Prop := p.length = k ∧ ∀ b, IsTaus k q b → ∀ n, act p b n = b (n + m)

theorem Rep.mul {k q : Nat} (h0 : 0 < q) (h1 : q < k) {p r : List Bool} {m l : Nat} (hp : Rep k q p m) (hr : Rep k q r l) :
    Rep k q (mul k q p r) (m + l) := by
  refine ⟨mul_length (by omega) p r hr.1, fun b hb n => ?_⟩
  rw [act_mul h0 h1 p r hr.1 hb]
  have e : act r b = fun n => b (n + l) := funext fun n => hr.2 b hb n
  have : IsTaus k q (act r b) := by
    rw [e]
    intro n
    show b (n + k + l) = (b (n + q + l) ^^ b (n + l))
    rw [show n + k + l = n + l + k by omega, hb, show n + l + q = n + q + l by omega]
  rw [hp.2 _ this, e]
  show b (n + m + l) = _
  rw [Nat.add_assoc]

theorem rep_one {k q : Nat} (hk : 0 < k) : Rep k q (one k) 0 := ⟨by simp [one], fun b _ n => act_single 0 k b n hk⟩
theorem rep_var {k q : Nat} (hk : 1 < k) : Rep k q (var k) 1 := ⟨by simp [var], fun b _ n => act_single 1 k b n hk⟩

/-- powers of the variable by repeated squaring: the exponent has at most `f` bits -/
def pw (k q : Nat) : Nat → Nat → List Bool
  | 0, _ => one k
  | f + 1, m =>
    let h := pw k q f (m / 2)
    let s := mul k q h h
    if m % 2 = 1 then mulX k q s else s

theorem rep_pw {k q : Nat} (h0 : 0 < q) (h1 : q < k) (f m : Nat) (hm : m < 2 ^ f) : Rep k q (pw k q f m) m := by
  induction f generalizing m with
  | zero =>
    have : m = 0 := by simpa using hm
    subst this
    exact rep_one (by omega)
  | succ f ih =>
    have h := ih (m / 2) (by rw [Nat.pow_succ] at hm; omega)
    have hs := Rep.mul h0 h1 h h
    simp only [pw]
    split
    · refine ⟨mulX_length (by omega) hs.1, fun b hb n => ?_⟩
      rw [act_mulX h0 h1 hs.1 hb, hs.2 b hb]
      congr 1; omega
    · rw [show m / 2 + m / 2 = m by omega] at hs
      exact hs

theorem Per.of_pw {k q T f : Nat} (h0 : 0 < q) (h1 : q < k) (hT : T < 2 ^ f) (h : pw k q f T = one k) {b : Nat → Bool} (hb : IsTaus k q b) :
    Per T b := by
  intro n
  rw [← (rep_pw h0 h1 f T hT).2 b hb n, h, (rep_one (by omega)).2 b hb n]
  rfl

/-- `x^T - 1` is invertible: `T` is a period of the zero sequence only -/
theorem not_per {k q T f : Nat} (h0 : 0 < q) (h1 : q < k) (hT : T < 2 ^ f) (u : List Bool) (h : mul k q u (add (pw k q f T) (one k)) = one k)
    {b : Nat → Bool} (hb : IsTaus k q b) (hz : NeverZero k b) : ¬ Per T b := by
  intro hp
  have r := rep_pw h0 h1 f T hT
  have o := rep_one (k := k) (q := q) (by omega)
  have z : ∀ n, act (add (pw k q f T) (one k)) b n = false := by
    intro n
    rw [act_add _ _ _ _ (by rw [r.1, o.1]), r.2 b hb, o.2 b hb, hp n]
    simp
  obtain ⟨i, _, hi⟩ := hz 0
  have e := act_mul h0 h1 u (add (pw k q f T) (one k)) (by simp [add, r.1, o.1]) hb (0 + i)
  rw [h, o.2 b hb, act_of_zero _ _ _ z, Nat.add_zero, hi] at e
  cases e

/-- the periods are exactly the multiples of `P`, if no `P / r` is a period -/
theorem per_iff {α : Type} {P : Nat} (hP : 0 < P) {b : Nat → α} (h : Per P b) (hr : ∀ r, Nat.Prime r → r ∣ P → ¬ Per (P / r) b) (T : Nat) : Per T b ↔ P ∣ T := by
  refine ⟨fun hT => ?_, h.dvd⟩
  have hg := Per.gcd P T h hT
  obtain ⟨c, hc⟩ := Nat.gcd_dvd_left P T
  by_cases h1 : c = 1
  · rw [h1, Nat.mul_one] at hc
    rw [hc]
    exact Nat.gcd_dvd_right P T
  · exfalso
    obtain ⟨r, hpr, d, hd⟩ := Nat.exists_prime_and_dvd h1
    generalize Nat.gcd P T = g at hg hc
    have e : P = r * (g * d) := by rw [hc, hd, Nat.mul_left_comm]
    refine hr r hpr ⟨g * d, e⟩ (hg.dvd ⟨d, ?_⟩)
    rw [e, Nat.mul_div_cancel_left _ hpr.pos]

/-! ## the three components of taus88 -/

def bits (k g : Nat) : List Bool := (List.range k).map g.testBit

set_option maxRecDepth 100000 in
theorem per31 {b : Nat → Bool} (hb : IsTaus 31 13 b) (hz : NeverZero 31 b) (T : Nat) : Per T b ↔ 2147483647 ∣ T := by
  refine per_iff (by decide) (Per.of_pw (f := 31) (by decide) (by decide) (by decide) (by decide +kernel) hb) (fun r hr hd => ?_) T
  have hp : Nat.Prime 2147483647 := by norm_num
  rw [(Nat.prime_dvd_prime_iff_eq hr hp).1 hd]
  exact not_per (f := 31) (by decide) (by decide) (by decide) (bits 31 2147475456) (by decide +kernel) hb hz

theorem per29 {b : Nat → Bool} (hb : IsTaus 29 2 b) (hz : NeverZero 29 b) (T : Nat) : Per T b ↔ 536870911 ∣ T := by
  refine per_iff (by decide) (Per.of_pw (f := 29) (by decide) (by decide) (by decide) (by decide +kernel) hb) (fun r hr hd => ?_) T
  rw [show 536870911 = 233 * 1103 * 2089 from rfl, Nat.Prime.dvd_mul hr, Nat.Prime.dvd_mul hr, Nat.prime_dvd_prime_iff_eq hr (by norm_num),
    Nat.prime_dvd_prime_iff_eq hr (by norm_num), Nat.prime_dvd_prime_iff_eq hr (by norm_num)] at hd
  rcases hd with (rfl | rfl) | rfl
  · exact not_per (f := 29) (by decide) (by decide) (by decide) (bits 29 166316410) (by decide +kernel) hb hz
  · exact not_per (f := 29) (by decide) (by decide) (by decide) (bits 29 185447446) (by decide +kernel) hb hz
  · exact not_per (f := 29) (by decide) (by decide) (by decide) (bits 29 317348523) (by decide +kernel) hb hz

theorem per28 {b : Nat → Bool} (hb : IsTaus 28 3 b) (hz : NeverZero 28 b) (T : Nat) : Per T b ↔ 268435455 ∣ T := by
  refine per_iff (by decide) (Per.of_pw (f := 28) (by decide) (by decide) (by decide) (by decide +kernel) hb) (fun r hr hd => ?_) T
  rw [show 268435455 = 3 * 5 * 29 * 43 * 113 * 127 from rfl, Nat.Prime.dvd_mul hr, Nat.Prime.dvd_mul hr, Nat.Prime.dvd_mul hr, Nat.Prime.dvd_mul hr,
    Nat.Prime.dvd_mul hr, Nat.prime_dvd_prime_iff_eq hr (by norm_num), Nat.prime_dvd_prime_iff_eq hr (by norm_num), Nat.prime_dvd_prime_iff_eq hr (by norm_num),
    Nat.prime_dvd_prime_iff_eq hr (by norm_num), Nat.prime_dvd_prime_iff_eq hr (by norm_num), Nat.prime_dvd_prime_iff_eq hr (by norm_num)] at hd
  rcases hd with ((((rfl | rfl) | rfl) | rfl) | rfl) | rfl
  · exact not_per (f := 28) (by decide) (by decide) (by decide) (bits 28 201413087) (by decide +kernel) hb hz
  · exact not_per (f := 28) (by decide) (by decide) (by decide) (bits 28 135300520) (by decide +kernel) hb hz
  · exact not_per (f := 28) (by decide) (by decide) (by decide) (bits 28 99118671) (by decide +kernel) hb hz
  · exact not_per (f := 28) (by decide) (by decide) (by decide) (bits 28 220580552) (by decide +kernel) hb hz
  · exact not_per (f := 28) (by decide) (by decide) (by decide) (bits 28 4290707) (by decide +kernel) hb hz
  · exact not_per (f := 28) (by decide) (by decide) (by decide) (bits 28 152044070) (by decide +kernel) hb hz

/-! ## sums -/

/-- the difference of a sampled sequence and its shift by `T` is constant only if `T` is a period -/
theorem const_diff {k q P s i T : Nat} {b : Nat → Bool} (hb : IsTaus k q b) (hper : ∀ T, Per T b ↔ P ∣ T) (hP : 1 < P) (hs : Nat.Coprime s P) (c : Bool)
    (h : ∀ n, (b ((n + T) * s + i) ^^ b (n * s + i)) = c) : P ∣ T := by
  have hp : Per P b := (hper P).2 (Nat.dvd_refl _)
  have all : ∀ m, (b (m + T * s) ^^ b m) = c := by
    intro m
    obtain ⟨t, -, ht⟩ := Nat.exists_mul_mod_eq_one_of_coprime hs hP
    -- s * t ≡ 1: the position (t * (m + i * (P - 1))) * s + i is congruent to m
    have e : ∀ x, ((t * (m + i * (P - 1))) * s + i + x) % P = (m + x) % P := by
      intro x
      have h1 : (t * (m + i * (P - 1)) * s) % P = (m + i * (P - 1)) % P := by
        rw [show t * (m + i * (P - 1)) * s = (s * t) * (m + i * (P - 1)) by rw [Nat.mul_comm s t]; ac_rfl, Nat.mul_mod, ht, Nat.one_mul, Nat.mod_mod]
      rw [Nat.add_assoc, Nat.add_mod, h1, ← Nat.add_mod]
      have : m + i * (P - 1) + (i + x) = m + x + P * i := by
        obtain ⟨P, rfl⟩ : ∃ p, P = p + 1 := ⟨P - 1, by omega⟩
        rw [Nat.add_sub_cancel, Nat.add_mul, Nat.mul_comm P i]; omega
      rw [this, Nat.add_mul_mod_self_left]
    rw [← h (t * (m + i * (P - 1)))]
    congr 1
    · refine hp.congr ?_
      rw [← e (T * s)]
      congr 1
      rw [Nat.add_mul]; omega
    · exact hp.congr (by simpa using (e 0).symm)
  have hc : c = false := by
    have h1 := all k
    have h2 := hb 0
    have h3 := hb (T * s)
    have h4 := all q
    have h5 := all 0
    simp only [Nat.zero_add] at h2 h5
    rw [Nat.add_comm k, h3, h2, Nat.add_comm (T * s) q] at h1
    revert h1 h4 h5
    cases c <;> cases b (q + T * s) <;> cases b (T * s) <;> cases b q <;> cases b 0 <;> simp
  subst hc
  have : Per (T * s) b := fun n => by
    have := all n
    revert this
    cases b (n + T * s) <;> cases b n <;> simp
  exact (Nat.Coprime.dvd_of_dvd_mul_right hs.symm ((hper _).1 this))

/-- a period of the sum of two sequences with coprime periods: the differences are constant -/
theorem diff_const {P Q T : Nat} {a b : Nat → Bool} (ha : Per P a) (hb : Per Q b) (hc : Nat.Coprime P Q) (h : Per T (fun n => a n ^^ b n)) :
    ∃ c, ∀ n, (a (n + T) ^^ a n) = c := by
  have e : ∀ n, (a (n + T) ^^ a n) = (b (n + T) ^^ b n) := by
    intro n
    have := h n
    revert this
    simp only
    cases a (n + T) <;> cases a n <;> cases b (n + T) <;> cases b n <;> simp
  have h1 : Per P (fun n => a (n + T) ^^ a n) := by
    intro n
    simp only [show n + P + T = n + T + P by omega, ha (n + T), ha n]
  have h2 : Per Q (fun n => a (n + T) ^^ a n) := by
    intro n
    simp only [e]
    simp only [show n + Q + T = n + T + Q by omega, hb (n + T), hb n]
  have h3 := Per.gcd P Q h1 h2
  rw [hc] at h3
  exact ⟨_, fun n => h3.congr (n := 0) (by rw [Nat.mod_one, Nat.mod_one])⟩

end Sprout.TausPeriod
