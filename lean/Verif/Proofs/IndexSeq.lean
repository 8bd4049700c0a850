import Mathlib.Tactic.Ring
import Mathlib.Tactic.Linarith
import Verif.Model.IndexSeq
import Verif.Spec.IndexSeq
import Verif.Proofs.CInt
import Verif.Proofs.StaticInt

namespace Sprout
namespace IndexSeq
open StaticInt IndexSeqSpec

/-- the progression with `n` elements -/
def prog (a s : Int) (n : Nat) : List Int := (List.range n).map fun k : Nat => a + (k : Int) * s

theorem prog_length (a s : Int) (n : Nat) : (prog a s n).length = n := by simp [prog]

theorem prog_append (a s : Int) (m n : Nat) : prog a s (m + n) = prog a s m ++ (prog a s n).map (· + (m : Int) * s) := by
  simp only [prog, List.range_add, List.map_append, List.map_map]
  congr 1
  apply List.map_congr_left
  intro k _
  simp only [Function.comp]
  push_cast
  ring

theorem mapM_all {f : Int → Option Int} {g : Int → Int} : ∀ {l : List Int}, (∀ x ∈ l, f x = some (g x)) → l.mapM f = some (l.map g)
  | [], _ => rfl
  | x :: l, h => by
    rw [List.mapM_cons, h x List.mem_cons_self, mapM_all fun y hy => h y (List.mem_cons_of_mem _ hy)]
    rfl

theorem mapM_some {f : Int → Option Int} {g : Int → Int} : ∀ {l r : List Int}, (∀ x ∈ l, ∀ y, f x = some y → y = g x) →
    l.mapM f = some r → r = l.map g
  | [], r, _, h => by simpa using h.symm
  | x :: l, r, hg, h => by
    rw [List.mapM_cons] at h
    cases hx : f x with
    | none => simp [hx] at h
    | some y =>
      cases hl : l.mapM f with
      | none => simp [hx, hl] at h
      | some ys =>
        simp [hx, hl] at h
        rw [← h, hg x List.mem_cons_self y hx, mapM_some (fun z hz => hg z (List.mem_cons_of_mem _ hz)) hl]
        rfl

/-- the dispatch yields the progression when the arguments are evaluated faithfully at every level -/
theorem dispatch_ok (T : CInt) (a s : Int) : ∀ (n : Nat),
    (∀ m, 2 ≤ m → m ≤ n → ∃ next, targ (unsT T) T (((m / 2 : Nat) : Int) * s) = some next ∧
      (∀ k, k < m / 2 → targ T T (a + (k : Int) * s + next) = some (a + (k : Int) * s + ((m / 2 : Nat) : Int) * s)) ∧
      (m % 2 = 1 → tailArg T a s m = some (a + ((m - 1 : Nat) : Int) * s))) →
    dispatch T a s n = some (prog a s n) := by
  intro n
  induction n using Nat.strongRecOn with
  | ind n ih =>
    intro h
    rw [dispatch.eq_def]
    by_cases h0 : n = 0
    · subst h0; rfl
    rw [if_neg h0]
    by_cases h1 : n = 1
    · subst h1; simp [prog]
    rw [if_neg h1]
    obtain ⟨next, hn, hk, ht⟩ := h n (by omega) le_rfl
    have hrec := ih (n / 2) (by omega) fun m hm1 hm2 => h m hm1 (by omega)
    have hmap : (prog a s (n / 2)).mapM (fun i => targ T T (i + next)) =
        some ((prog a s (n / 2)).map (· + ((n / 2 : Nat) : Int) * s)) := by
      apply mapM_all
      intro x hx
      simp only [prog, List.mem_map, List.mem_range] at hx
      obtain ⟨k, hk', rfl⟩ := hx
      exact hk k hk'
    by_cases h2 : n % 2 = 0
    · rw [if_pos h2]
      simp only [hrec, hn, hmap, Option.bind_eq_bind, Option.bind_some]
      rw [← prog_append, show n / 2 + n / 2 = n by omega]
    · rw [if_neg h2]
      simp only [hrec, hn, hmap, ht (by omega), Option.bind_eq_bind, Option.bind_some]
      rw [← prog_append]
      have : n = n / 2 + n / 2 + 1 := by omega
      conv_rhs => rw [this, prog_append]
      simp only [prog, List.range_one, List.map_cons, List.map_nil]
      congr 3
      rw [show n - 1 = n / 2 + n / 2 by omega]
      push_cast
      ring

theorem targ_ok {P T : CInt} {x : Int} (h1 : P.arith x = some x) (h2 : T.Has x) : targ P T x = some x := by
  simp [targ, h1, icon_has h2]

theorem integerN_eq (i : Int) (n : Nat) : integerN i n = List.replicate n i := by
  induction n using Nat.strongRecOn with
  | ind n ih =>
    rw [integerN.eq_def]
    by_cases h0 : n = 0
    · subst h0; rfl
    rw [if_neg h0]
    by_cases h1 : n = 1
    · subst h1; rfl
    rw [if_neg h1, ih (n / 2) (by omega)]
    by_cases h2 : n % 2 = 0
    · rw [if_pos h2, List.replicate_append_replicate]; congr 1; omega
    · rw [if_neg h2, List.replicate_append_replicate, ← List.replicate_one, List.replicate_append_replicate]; congr 1; omega

theorem isRange_prog {a b s : Int} {n : Nat} (h1 : ∀ (k : Nat), k < n → Before s (a + k * s) b) (h2 : ¬ Before s (a + n * s) b) :
    IsRange a b s (prog a s n) := by
  refine ⟨?_, ?_, ?_⟩
  · intro k hk
    rw [prog_length] at hk
    simp [prog, List.getElem?_map, List.getElem?_range hk]
  · intro x hx
    simp only [prog, List.mem_map, List.mem_range] at hx
    obtain ⟨k, hk, rfl⟩ := hx
    exact h1 k hk
  · rwa [prog_length]


/-! ## the types -/

theorem facts {T : CInt} (hT : T.Std) : ∃ H : Int, 128 ≤ H ∧ (T.w < 32 → H ≤ 32768) ∧ (2 : Int) ^ T.w = 2 * H ∧ (sgnT T).min = -H ∧
    (sgnT T).max = H - 1 ∧ (unsT T).min = 0 ∧ (unsT T).max = 2 * H - 1 ∧ T.min = (if T.sg then -H else 0) ∧
    T.max = (if T.sg then H - 1 else 2 * H - 1) := by
  refine ⟨2 ^ (T.w - 1), ?_⟩
  obtain ⟨w, sg⟩ := T
  simp only [CInt.Std, CInt.max, CInt.min, sgnT, unsT] at *
  rcases hT with rfl | rfl | rfl | rfl <;> cases sg <;> simp

theorem sgnT_std {T : CInt} (hT : T.Std) : (sgnT T).Std := hT
theorem unsT_std {T : CInt} (hT : T.Std) : (unsT T).Std := hT

theorem arith_narrow {T : CInt} (hw : T.w < 32) {x : Int} (h1 : -2 ^ 31 ≤ x) (h2 : x < 2 ^ 31) : T.arith x = some x := by
  rw [CInt.arith, if_pos hw, if_pos ⟨h1, h2⟩]

theorem arith_wide_uns {T : CInt} (hw : ¬ T.w < 32) (hs : T.sg = false) (x : Int) : T.arith x = some (x % 2 ^ T.w) := by
  rw [CInt.arith, if_neg hw, if_neg (by simp [hs])]

theorem arith_wide_sgn {T : CInt} (hw : ¬ T.w < 32) (hs : T.sg = true) (x : Int) : T.arith x = if T.Has x then some x else none := by
  rw [CInt.arith, if_neg hw, if_pos hs]

/-- a difference whose magnitude fits the signed type survives the cast -/
theorem diff_ok {T : CInt} (hT : T.Std) {d : Int} (h1 : -(sgnT T).max ≤ d) (h2 : d ≤ (sgnT T).max) :
    ∃ v, T.arith d = some v ∧ (sgnT T).conv v = d := by
  obtain ⟨H, f1, f2, f3, f4, f5, f6, f7, f8, f9⟩ := facts hT
  have hS : (sgnT T).conv d = d := CInt.conv_ok (sgnT_std hT) (by unfold CInt.Has; omega)
  by_cases hw : T.w < 32
  · have := f2 hw
    exact ⟨d, arith_narrow hw (by omega) (by omega), hS⟩
  · cases hs : T.sg
    · refine ⟨_, arith_wide_uns hw hs d, ?_⟩
      rw [CInt.conv, show (sgnT T).w = T.w from rfl, f3, f4]
      have e := Int.emod_add_mul_ediv d (2 * H)
      have : d % (2 * H) - -H = (d + H) + (2 * H) * (-(d / (2 * H))) := by linarith [e, mul_neg (2 * H) (d / (2 * H))]
      rw [this, Int.add_mul_emod_self_left, Int.emod_eq_of_lt (by omega) (by omega)]
      omega
    · refine ⟨d, ?_, hS⟩
      rw [arith_wide_sgn hw hs, if_pos]
      rw [CInt.Has, f8, f9, if_pos hs, if_pos hs]
      omega

/-- the promoted signed type -/
theorem arith_sgn {T : CInt} (hT : T.Std) {x : Int} (h : (promT (sgnT T)).Has x) : (sgnT T).arith x = some x := by
  by_cases hw : T.w < 32
  · have hw' : (sgnT T).w < 32 := hw
    rw [promT, if_pos hw'] at h
    have h' : -2 ^ 31 ≤ x ∧ x ≤ 2 ^ 31 - 1 := h
    exact arith_narrow hw' (by omega) (by omega)
  · have hw' : ¬ (sgnT T).w < 32 := hw
    rw [promT, if_neg hw'] at h
    rw [arith_wide_sgn hw' rfl, if_pos h]

theorem has_prom {T : CInt} (hT : T.Std) {x : Int} (h : (sgnT T).Has x) : (promT (sgnT T)).Has x := by
  obtain ⟨w, sg⟩ := T
  simp only [CInt.Std, CInt.Has, CInt.min, CInt.max, promT, sgnT, CInt.int32] at *
  rcases hT with rfl | rfl | rfl | rfl <;> simp at * <;> omega

theorem prom_min {T : CInt} (hT : T.Std) : (promT (sgnT T)).min = - (promT (sgnT T)).max - 1 ∧ 0 ≤ (promT (sgnT T)).max := by
  obtain ⟨w, sg⟩ := T
  simp only [CInt.Std, CInt.min, CInt.max, promT, sgnT, CInt.int32] at *
  rcases hT with rfl | rfl | rfl | rfl <;> simp

/-- the number of elements, ascending -/
theorem rangeN_asc {T : CInt} (hT : T.Std) {a b s : Int} (hab : a ≤ b) (hs : 0 < s) (hS : (sgnT T).Has s)
    (hd : b - a ≤ (sgnT T).max) (hq : b - a + (s - 1) ≤ (promT (sgnT T)).max) :
    ∃ n : Nat, rangeN T a b s = some (n : Int) ∧ (∀ k : Nat, k < n → a + k * s < b) ∧ b ≤ a + n * s := by
  obtain ⟨H, f1, f2, f3, f4, f5, f6, f7, f8, f9⟩ := facts hT
  obtain ⟨v, e1, e2⟩ := diff_ok hT (d := b - a) (by omega) hd
  have hpm := prom_min hT
  have hS' := hS
  unfold CInt.Has at hS'
  have e3 : (sgnT T).arith (if s > 0 then s - 1 else s + 1) = some (s - 1) := by
    rw [if_pos hs]
    exact arith_sgn hT (has_prom hT (by unfold CInt.Has; omega))
  have e4 : (sgnT T).arith (b - a + (s - 1)) = some (b - a + (s - 1)) := arith_sgn hT (by unfold CInt.Has; omega)
  have h0 : 0 ≤ b - a + (s - 1) := by omega
  have q0 : 0 ≤ (b - a + (s - 1)) / s := Int.ediv_nonneg h0 hs.le
  have q1 := Int.ediv_mul_le (b - a + (s - 1)) hs.ne'
  have q2 := Int.lt_ediv_add_one_mul_self (b - a + (s - 1)) hs
  generalize hqq : (b - a + (s - 1)) / s = q at *
  have hqd : q ≤ b - a := by
    by_contra hc
    have : (b - a + 1) * s ≤ q * s := Int.mul_le_mul_of_nonneg_right (by omega) hs.le
    have h3 : (b - a) * 1 ≤ (b - a) * s := Int.mul_le_mul_of_nonneg_left (by omega) (by omega)
    linarith [add_mul (b - a) 1 s]
  have e5 : (sgnT T).div (b - a + (s - 1)) s = some q := by
    rw [CInt.div, if_neg hs.ne', Int.tdiv_eq_ediv_of_nonneg h0, hqq]
    exact arith_sgn hT (has_prom hT (by unfold CInt.Has; omega))
  refine ⟨q.toNat, ?_, ?_, ?_⟩
  · simp only [rangeN, e1, e2, e3, e4, e5, Option.bind_eq_bind, Option.bind_some]
    rw [icon_has (by unfold CInt.Has; omega), Int.toNat_of_nonneg q0]
  · intro k hk
    have : ((k : Int) + 1) * s ≤ q * s := Int.mul_le_mul_of_nonneg_right (by omega) hs.le
    linarith [add_mul (k : Int) 1 s]
  · rw [Int.toNat_of_nonneg q0]
    linarith [add_mul q 1 s]

/-- the number of elements, descending -/
theorem rangeN_desc {T : CInt} (hT : T.Std) {a b s : Int} (hab : b ≤ a) (hs : s < 0) (hS : (sgnT T).Has s)
    (hd : a - b ≤ (sgnT T).max) (hq : a - b + (-s - 1) ≤ (promT (sgnT T)).max + 1) :
    ∃ n : Nat, rangeN T a b s = some (n : Int) ∧ (∀ k : Nat, k < n → b < a + k * s) ∧ a + n * s ≤ b := by
  obtain ⟨H, f1, f2, f3, f4, f5, f6, f7, f8, f9⟩ := facts hT
  obtain ⟨v, e1, e2⟩ := diff_ok hT (d := b - a) (by omega) (by omega)
  have hpm := prom_min hT
  have hS' := hS
  unfold CInt.Has at hS'
  have e3 : (sgnT T).arith (if s > 0 then s - 1 else s + 1) = some (s + 1) := by
    rw [if_neg (by omega)]
    exact arith_sgn hT (has_prom hT (by unfold CInt.Has; omega))
  have e4 : (sgnT T).arith (b - a + (s + 1)) = some (b - a + (s + 1)) := arith_sgn hT (by unfold CInt.Has; omega)
  have h0 : 0 ≤ a - b + (-s - 1) := by omega
  have hs' : 0 < -s := by omega
  have hdiv : (b - a + (s + 1)).tdiv s = (a - b + (-s - 1)) / (-s) := by
    rw [show b - a + (s + 1) = -(a - b + (-s - 1)) by ring, Int.neg_tdiv, Int.ediv_neg, Int.tdiv_eq_ediv_of_nonneg h0]
  have q0 : 0 ≤ (a - b + (-s - 1)) / (-s) := Int.ediv_nonneg h0 hs'.le
  have q1 := Int.ediv_mul_le (a - b + (-s - 1)) hs'.ne'
  have q2 := Int.lt_ediv_add_one_mul_self (a - b + (-s - 1)) hs'
  generalize hqq : (a - b + (-s - 1)) / (-s) = q at *
  have hqd : q ≤ a - b := by
    by_contra hc
    have : (a - b + 1) * (-s) ≤ q * (-s) := Int.mul_le_mul_of_nonneg_right (by omega) hs'.le
    have h3 : (a - b) * 1 ≤ (a - b) * (-s) := Int.mul_le_mul_of_nonneg_left (by omega) (by omega)
    linarith [add_mul (a - b) 1 (-s)]
  have e5 : (sgnT T).div (b - a + (s + 1)) s = some q := by
    rw [CInt.div, if_neg hs.ne, hdiv]
    exact arith_sgn hT (has_prom hT (by unfold CInt.Has; omega))
  refine ⟨q.toNat, ?_, ?_, ?_⟩
  · simp only [rangeN, e1, e2, e3, e4, e5, Option.bind_eq_bind, Option.bind_some]
    rw [icon_has (by unfold CInt.Has; omega), Int.toNat_of_nonneg q0]
  · intro k hk
    have : ((k : Int) + 1) * (-s) ≤ q * (-s) := Int.mul_le_mul_of_nonneg_right (by omega) hs'.le
    linarith [add_mul (k : Int) 1 (-s), mul_neg (k : Int) s]
  · rw [Int.toNat_of_nonneg q0]
    linarith [add_mul q 1 (-s), mul_neg q s]

theorem dispatch_asc {T : CInt} (hT : T.Std) {a s : Int} {n : Nat} (ha : T.Has a) (hs : 0 < s)
    (h1 : ∀ k : Nat, k < n → T.Has (a + k * s)) (h2 : ∀ k : Nat, k < n → (k : Int) * s ≤ (sgnT T).max)
    (h3 : T.sg = true → ¬ T.w < 32 → 0 ≤ a) : dispatch T a s n = some (prog a s n) := by
  obtain ⟨H, f1, f2, f3, f4, f5, f6, f7, f8, f9⟩ := facts hT
  have pos : ∀ k : Nat, 0 ≤ (k : Int) * s := fun k => Int.mul_nonneg (by omega) hs.le
  have uarith : ∀ {x : Int}, 0 ≤ x → x ≤ (sgnT T).max → (unsT T).arith x = some x := fun h h' =>
    CInt.arith_ok (unsT_std hT) (by unfold CInt.Has; omega)
  have thas : ∀ {x : Int}, 0 ≤ x → x ≤ (sgnT T).max → T.Has x := by
    intro x h h'
    rw [CInt.Has, f8, f9]
    split <;> omega
  apply dispatch_ok
  intro m hm1 hm2
  have b1 := h2 (m / 2) (by omega)
  refine ⟨((m / 2 : Nat) : Int) * s, targ_ok (uarith (pos _) b1) (thas (pos _) b1), ?_, ?_⟩
  · intro k hk
    have hh := h1 (k + m / 2) (by omega)
    have e : a + (k : Int) * s + ((m / 2 : Nat) : Int) * s = a + ((k + m / 2 : Nat) : Int) * s := by push_cast; ring
    rw [e]
    exact targ_ok (CInt.arith_ok hT hh) hh
  · intro _
    have hh := h1 (m - 1) (by omega)
    have b2 := h2 (m - 1) (by omega)
    have p2 := pos (m - 1)
    rw [tailArg, uarith p2 b2]
    refine targ_ok ?_ hh
    generalize ((m - 1 : Nat) : Int) * s = p at *
    rw [CInt.Has, f8, f9] at hh ha
    by_cases hw : T.w < 32
    · have := f2 hw
      refine arith_narrow (T := unsT T) hw ?_ ?_ <;> split_ifs at hh <;> omega
    · refine CInt.arith_ok (unsT_std hT) ?_
      unfold CInt.Has
      cases hsg : T.sg
      · simp only [hsg, Bool.false_eq_true, if_false] at hh; omega
      · have := h3 hsg hw
        simp only [hsg, if_true] at hh; omega

theorem dispatch_desc {T : CInt} (hT : T.Std) {a s : Int} {n : Nat} (hs : s < 0)
    (h1 : ∀ k : Nat, k < n → T.Has (a + k * s)) (h2 : ∀ k : Nat, k < n → -(sgnT T).max ≤ (k : Int) * s)
    (h3 : n ≤ 1 ∨ (T.sg = false ∧ ¬ T.w < 32) ∨ (T.sg = true ∧ T.w < 32)) : dispatch T a s n = some (prog a s n) := by
  obtain ⟨H, f1, f2, f3, f4, f5, f6, f7, f8, f9⟩ := facts hT
  have neg : ∀ k : Nat, (k : Int) * s ≤ 0 := fun k => Int.mul_nonpos_of_nonneg_of_nonpos (by omega) hs.le
  apply dispatch_ok
  intro m hm1 hm2
  rcases h3 with h3 | ⟨hsg, hw⟩ | ⟨hsg, hw⟩
  · omega
  · have hU : unsT T = T := by cases T; simp only at hsg; subst hsg; rfl
    simp only [hsg, Bool.false_eq_true, if_false] at f8 f9
    have ht : ∀ x : Int, targ T T x = some (x % 2 ^ T.w) := fun x => arith_uns hsg hw
    rw [hU]
    have hmod : ∀ x p : Int, T.Has (x + p) → (x + p % 2 ^ T.w) % 2 ^ T.w = x + p := by
      intro x p hh
      rw [Int.add_emod_emod, f3]
      unfold CInt.Has at hh
      exact Int.emod_eq_of_lt (by omega) (by omega)
    refine ⟨_, ht _, ?_, ?_⟩
    · intro k hk
      have hh := h1 (k + m / 2) (by omega)
      have e : a + (k : Int) * s + ((m / 2 : Nat) : Int) * s = a + ((k + m / 2 : Nat) : Int) * s := by push_cast; ring
      rw [ht, hmod _ _ (by rwa [e])]
    · intro _
      rw [tailArg, hU, arith_wide_uns hw hsg]
      simp only [Option.bind_eq_bind, Option.bind_some]
      rw [ht, hmod _ _ (h1 (m - 1) (by omega))]
  · have hH := f2 hw
    simp only [hsg, if_true] at f8 f9
    have b1 := h2 (m / 2) (by omega)
    have n1 := neg (m / 2)
    refine ⟨((m / 2 : Nat) : Int) * s, targ_ok (arith_narrow (T := unsT T) hw (by omega) (by omega)) (by unfold CInt.Has; omega), ?_, ?_⟩
    · intro k hk
      have hh := h1 (k + m / 2) (by omega)
      have e : a + (k : Int) * s + ((m / 2 : Nat) : Int) * s = a + ((k + m / 2 : Nat) : Int) * s := by push_cast; ring
      rw [e]
      exact targ_ok (CInt.arith_ok hT hh) hh
    · intro _
      have hh := h1 (m - 1) (by omega)
      have b2 := h2 (m - 1) (by omega)
      have n2 := neg (m - 1)
      rw [tailArg, arith_narrow (T := unsT T) hw (by omega) (by omega)]
      refine targ_ok ?_ hh
      unfold CInt.Has at hh
      exact arith_narrow (T := unsT T) hw (by omega) (by omega)


/-! ## signed types of at least the width of `int` -/

theorem has_iff {T : CInt} {H : Int} (hsg : T.sg = true) (f8 : T.min = (if T.sg then -H else 0))
    (f9 : T.max = (if T.sg then H - 1 else 2 * H - 1)) (x : Int) : T.Has x ↔ -H ≤ x ∧ x ≤ H - 1 := by
  rw [CInt.Has, f8, f9, if_pos hsg, if_pos hsg]

theorem targ_neg {T : CInt} (hT : T.Std) (hsg : T.sg = true) (hw : ¬ T.w < 32) {x : Int} (h1 : x < 0) (h2 : -(sgnT T).max - 1 ≤ x) :
    targ (unsT T) T x = none := by
  obtain ⟨H, f1, f2, f3, f4, f5, f6, f7, f8, f9⟩ := facts hT
  rw [targ, arith_wide_uns (T := unsT T) hw rfl, show (unsT T).w = T.w from rfl, f3]
  simp only [Option.bind_eq_bind, Option.bind_some]
  rw [icon, if_neg]
  rw [has_iff hsg f8 f9]
  have : x % (2 * H) = x + 2 * H := by
    rw [← Int.add_emod_right, Int.emod_eq_of_lt (by omega) (by omega)]
  omega

theorem dispatch_desc_none {T : CInt} (hT : T.Std) (hsg : T.sg = true) (hw : ¬ T.w < 32) {a s : Int} {n : Nat} (hs : s < 0)
    (h2 : ∀ k : Nat, k < n → -(sgnT T).max ≤ (k : Int) * s) (hn : 2 ≤ n) : dispatch T a s n = none := by
  have hp : targ (unsT T) T (((n / 2 : Nat) : Int) * s) = none := by
    have := h2 (n / 2) (by omega)
    refine targ_neg hT hsg hw ?_ (by omega)
    exact Int.mul_neg_of_pos_of_neg (by omega) hs
  rw [dispatch.eq_def, if_neg (by omega), if_neg (by omega)]
  split <;> cases dispatch T a s (n / 2) <;> simp only [hp, Option.bind_eq_bind, Option.bind_none, Option.bind_some]

theorem dispatch_sound {T : CInt} (hT : T.Std) (hsg : T.sg = true) (hw : ¬ T.w < 32) {a s : Int} (hs : 0 < s) : ∀ {n : Nat} {l : List Int},
    (∀ k : Nat, k < n → T.Has (a + k * s)) → (∀ k : Nat, k < n → (k : Int) * s ≤ (sgnT T).max) →
    dispatch T a s n = some l → l = prog a s n := by
  obtain ⟨H, f1, f2, f3, f4, f5, f6, f7, f8, f9⟩ := facts hT
  have pos : ∀ k : Nat, 0 ≤ (k : Int) * s := fun k => Int.mul_nonneg (by omega) hs.le
  intro n
  induction n using Nat.strongRecOn with
  | ind n ih =>
    intro l h1 h2 h
    rw [dispatch.eq_def] at h
    by_cases h0 : n = 0
    · subst h0; simpa [prog] using h.symm
    rw [if_neg h0] at h
    by_cases h1' : n = 1
    · subst h1'; simpa [prog] using h.symm
    rw [if_neg h1'] at h
    have b1 := h2 (n / 2) (by omega)
    have p1 := pos (n / 2)
    have hnext : targ (unsT T) T (((n / 2 : Nat) : Int) * s) = some (((n / 2 : Nat) : Int) * s) :=
      targ_ok (CInt.arith_ok (unsT_std hT) (by unfold CInt.Has; omega)) (by rw [has_iff hsg f8 f9]; omega)
    rw [hnext] at h
    cases hr : dispatch T a s (n / 2) with
    | none => rw [hr] at h; split at h <;> simp at h
    | some is =>
      have e := ih (n / 2) (by omega) (fun k hk => h1 k (by omega)) (fun k hk => h2 k (by omega)) hr
      have hmap : is.mapM (fun i => targ T T (i + ((n / 2 : Nat) : Int) * s)) =
          some ((prog a s (n / 2)).map (· + ((n / 2 : Nat) : Int) * s)) := by
        rw [e]
        apply mapM_all
        intro x hx
        simp only [prog, List.mem_map, List.mem_range] at hx
        obtain ⟨k, hk', rfl⟩ := hx
        have hh := h1 (k + n / 2) (by omega)
        have e : a + (k : Int) * s + ((n / 2 : Nat) : Int) * s = a + ((k + n / 2 : Nat) : Int) * s := by push_cast; ring
        rw [e]
        exact targ_ok (CInt.arith_ok hT hh) hh
      by_cases h3 : n % 2 = 0
      · rw [if_pos h3] at h
        simp only [hr, hmap, Option.bind_eq_bind, Option.bind_some, Option.some.injEq] at h
        rw [← h, e, ← prog_append, show n / 2 + n / 2 = n by omega]
      · rw [if_neg h3] at h
        have ht : ∀ t, tailArg T a s n = some t → t = a + ((n - 1 : Nat) : Int) * s := by
          intro t ht
          have hh := h1 (n - 1) (by omega)
          have b2 := h2 (n - 1) (by omega)
          have p2 := pos (n - 1)
          rw [tailArg, CInt.arith_ok (unsT_std hT) (x := ((n - 1 : Nat) : Int) * s) (by unfold CInt.Has; omega)] at ht
          simp only [Option.bind_eq_bind, Option.bind_some] at ht
          rw [has_iff hsg f8 f9] at hh
          by_cases hneg : a + ((n - 1 : Nat) : Int) * s < 0
          · rw [targ_neg hT hsg hw hneg (by omega)] at ht
            simp at ht
          · rw [targ_ok (CInt.arith_ok (unsT_std hT) (by unfold CInt.Has; omega)) (by rw [has_iff hsg f8 f9]; omega)] at ht
            simpa using ht.symm
        cases htl : tailArg T a s n with
        | none => simp [hr, htl] at h
        | some t =>
          simp only [hr, hmap, htl, Option.bind_eq_bind, Option.bind_some, Option.some.injEq] at h
          rw [← h, e, ht t htl, ← prog_append]
          have : n = n / 2 + n / 2 + 1 := by omega
          conv_rhs => rw [this, prog_append]
          simp only [prog, List.range_one, List.map_cons, List.map_nil]
          congr 2
          rw [show n - 1 = n / 2 + n / 2 by omega]
          push_cast
          ring

theorem arith_H {T : CInt} (hw : ¬ T.w < 32) (hs : T.sg = true) {H : Int} (hS : ∀ x : Int, T.Has x ↔ -H ≤ x ∧ x ≤ H - 1) (x : Int) :
    T.arith x = if -H ≤ x ∧ x ≤ H - 1 then some x else none := by
  rw [arith_wide_sgn hw hs]
  by_cases h : T.Has x
  · rw [if_pos h, if_pos ((hS x).1 h)]
  · rw [if_neg h, if_neg fun h' => h ((hS x).2 h')]

theorem rangeN_asc_none {T : CInt} (hT : T.Std) (hsg : T.sg = true) (hw : ¬ T.w < 32) {a b s : Int} (hab : a ≤ b) (hs : 0 < s)
    (hd : ¬ (b - a ≤ (sgnT T).max ∧ b - a + (s - 1) ≤ (promT (sgnT T)).max)) : rangeN T a b s = none := by
  obtain ⟨H, f1, f2, f3, f4, f5, f6, f7, f8, f9⟩ := facts hT
  have hw' : ¬ (sgnT T).w < 32 := hw
  rw [promT, if_neg hw'] at hd
  have hS : ∀ x : Int, (sgnT T).Has x ↔ -H ≤ x ∧ x ≤ H - 1 := fun x => by unfold CInt.Has; omega
  simp only [rangeN]
  rw [arith_H hw hsg (has_iff hsg f8 f9)]
  split
  · simp only [Option.bind_eq_bind, Option.bind_some, if_pos (show s > 0 from hs)]
    rw [arith_H hw' rfl hS]
    split
    · simp only [Option.bind_some]
      rw [CInt.conv_ok (sgnT_std hT) ((hS _).2 (by omega)), arith_H hw' rfl hS, if_neg (by omega)]
      rfl
    · rfl
  · rfl

theorem rangeN_desc_none {T : CInt} (hT : T.Std) (hsg : T.sg = true) (hw : ¬ T.w < 32) {a b s : Int} (hab : b ≤ a) (hs : s < 0)
    (hd : ¬ (a - b ≤ (sgnT T).max ∧ a - b + (-s - 1) ≤ (promT (sgnT T)).max + 1)) : rangeN T a b s = none := by
  obtain ⟨H, f1, f2, f3, f4, f5, f6, f7, f8, f9⟩ := facts hT
  have hw' : ¬ (sgnT T).w < 32 := hw
  rw [promT, if_neg hw'] at hd
  have hS : ∀ x : Int, (sgnT T).Has x ↔ -H ≤ x ∧ x ≤ H - 1 := fun x => by unfold CInt.Has; omega
  simp only [rangeN]
  rw [arith_H hw hsg (has_iff hsg f8 f9)]
  split
  · simp only [Option.bind_eq_bind, Option.bind_some, if_neg (show ¬ s > 0 by omega)]
    rw [arith_H hw' rfl hS]
    split
    · simp only [Option.bind_some]
      rw [CInt.conv_ok (sgnT_std hT) ((hS _).2 (by omega)), arith_H hw' rfl hS]
      split
      · have h1 : s = -1 := by omega
        have h2 : b - a = -H := by omega
        subst h1
        simp only [Option.bind_some]
        rw [h2, CInt.div, if_neg (by omega), show (-H + (-1 + 1) : Int) = -H by omega, show (-H).tdiv (-1) = H by simp,
          arith_H hw' rfl hS, if_neg (by omega)]
        rfl
      · rfl
    · rfl
  · rfl

theorem rangeN_zero (T : CInt) (a b : Int) : rangeN T a b 0 = none := by
  simp only [rangeN, CInt.div, if_true]
  cases T.arith (b - a) with
  | none => rfl
  | some d =>
    simp only [Option.bind_eq_bind, Option.bind_some]
    cases (sgnT T).arith (if (0 : Int) > 0 then 0 - 1 else 0 + 1) with
    | none => rfl
    | some e =>
      simp only [Option.bind_some]
      cases (sgnT T).arith ((sgnT T).conv d + e) <;> rfl

end IndexSeq
end Sprout
