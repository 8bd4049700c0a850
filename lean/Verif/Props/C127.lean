import Verif.Proofs.RandReal
import Mathlib.Data.Int.Interval

/-!
# C127: `uniform_01`, `uniform_real_distribution`, `bernoulli_distribution`, `geometric_distribution`
-/

namespace Sprout

open Classical FV Fmt RandReal MathRound

namespace RandReal

variable {σ : Type}

/-- `subtract` is the difference, of signed and of unsigned types. -/
theorem C127_subtract (w : ℕ) (x y : ℤ) (hxy : y ≤ x) :
    (0 ≤ y → x < 2 ^ w → subtract false w x y = some (x - y))
    ∧ (1 ≤ w → -2 ^ (w - 1) ≤ y → x < 2 ^ (w - 1) → subtract true w x y = some (x - y)) := by
  constructor
  · intro h0 h1
    simp only [subtract]
    rw [if_neg (by decide), Int.emod_eq_of_lt (by omega) (by omega)]
  · intro hw h0 h1
    have h2 : (2 : ℤ) ^ w = 2 * 2 ^ (w - 1) := by
      obtain ⟨k, rfl⟩ : ∃ k, w = k + 1 := ⟨w - 1, by omega⟩
      rw [Nat.add_sub_cancel, pow_succ]; ring
    simp only [subtract]
    rw [if_pos trivial]
    split_ifs with h3 h4 h5
    · rw [← Int.sub_emod, Int.emod_eq_of_lt (by omega) (by omega)]
    · rw [Int.emod_add_emod, Int.add_assoc, Int.emod_add_emod,
        show x + ((-(y + 1)) % 2 ^ w + 1) = (-(y + 1)) % 2 ^ w + (x + 1) by ring, Int.emod_add_emod,
        show -(y + 1) + (x + 1) = x - y by ring, Int.emod_eq_of_lt (by omega) (by omega)]
    · rw [Int.emod_eq_of_lt (by omega) (by omega)]
    · omega

example : subtract true 8 100 (-128) = some 228 := by decide +kernel

/-- `uniform_01` is the value of the first result of the engine whose value is below 1; every value is at least 0 and below 1. -/
theorem C127_uniform_01 (E : Engine σ) (F : Fmt) (hE : E.Ok) (s : σ) (r : FV) (s' : σ) (h : uniform01 E F s = some (r, s')) :
    (∃ x : ℝ, Val r x ∧ 0 ≤ x ∧ x < 1) ∧
    ∃ n, (∀ i < n, ¬ (value01 E F (draw E s i)).lt (.num 1)) ∧ r = value01 E F (draw E s n) ∧ s' = after E s (n + 1) := by
  obtain ⟨n, h1, h2, h3⟩ := uniform01_some s _ h
  have e1 : r = value01 E F (draw E s n) := congrArg Prod.fst h3
  have e2 : s' = after E s (n + 1) := congrArg Prod.snd h3
  refine ⟨?_, n, h1, e1, e2⟩
  rw [e1]
  have := hE (after E s n)
  have hd : draw E s n = (E.gen (after E s n)).1 := rfl
  exact nn_lt (Val.num one_ne_zero) (nn_mul (nn_ofInt (by omega)) (nn_div (show NN (.num 1) from one_pos)
    (pp_add_one (nn_ofInt (by omega))))) h2

/-- `uniform_01` of an engine of `2 ^ w` results, where `w` is at most the precision: exactly the result divided by
`2 ^ w`, and one call of the engine -/
theorem C127_uniform_01_exact (E : Engine σ) (F : Fmt) (hE : E.Ok) (w : ℕ) (hw : w ≤ F.p) (hN : E.hi - E.lo + 1 = 2 ^ w) (s : σ) :
    ∃ r, uniform01 E F s = some (r, (E.gen s).2) ∧ Val r ((((E.gen s).1 - E.lo : ℤ) : ℝ) / 2 ^ w) := by
  have hs := hE s
  have hwp : (2 : ℤ) ^ w ≤ 2 ^ F.p := pow_le_pow_right₀ (by norm_num) hw
  have hr1 := F.rep_int ((E.gen s).1 - E.lo) (by rw [abs_of_nonneg (by omega)]; omega)
  have hr2 := F.rep_int (E.hi - E.lo) (by rw [abs_of_nonneg (by omega)]; omega)
  have hbig : ∀ n : ℤ, 0 ≤ n → n ≤ 2 ^ w → |(n : ℝ)| < (2 : ℝ) ^ F.emax := fun n h0 h1 => two_pow_le_emax (by
    rw [abs_of_nonneg (by exact_mod_cast h0)]; exact_mod_cast (by omega : n ≤ 2 ^ F.p))
  have v1 : Val (F.ofInt ((E.gen s).1 - E.lo)) (((E.gen s).1 - E.lo : ℤ) : ℝ) := by
    have := ofReal_val (F := F) (s := false) (r := (((E.gen s).1 - E.lo : ℤ) : ℝ))
    rw [rnd_of_rep hr1] at this
    exact this (hbig _ (by omega) (by omega))
  have v2 : Val (F.ofInt (E.hi - E.lo)) ((E.hi - E.lo : ℤ) : ℝ) := by
    have := ofReal_val (F := F) (s := false) (r := ((E.hi - E.lo : ℤ) : ℝ))
    rw [rnd_of_rep hr2] at this
    exact this (hbig _ (by omega) (by omega))
  have e3 : ((E.hi - E.lo : ℤ) : ℝ) + 1 = 2 ^ w := by exact_mod_cast hN
  have hr3 := F.rep_int (2 ^ w) (by rw [abs_of_nonneg (by positivity)]; exact hwp)
  have hb3 := hbig (2 ^ w) (by positivity) le_rfl
  push_cast at hr3 hb3
  have v3 : Val (F.add (F.ofInt (E.hi - E.lo)) (.num 1)) (2 ^ w) := by
    have := add_val (F := F) v2 (Val.num one_ne_zero)
    rw [e3, rnd_of_rep hr3] at this
    exact this hb3
  have hem := F.emin_le
  have hp2 := F.two_le_p
  have hi0 : (0 : ℝ) < 1 / 2 ^ w := by positivity
  have hi1 : (1 : ℝ) / 2 ^ w ≤ 1 := by
    rw [div_le_one (by positivity)]; exact one_le_pow₀ (by norm_num)
  have h1e : (1 : ℝ) < (2 : ℝ) ^ F.emax := one_lt_zpow₀ (by norm_num) (by have := F.emax_pos; omega)
  have hr4 : Rep F.p F.emin ((1 : ℝ) / 2 ^ w) := by
    have := Rep.two_zpow (p := F.p) (emin := F.emin) (-(w : ℤ)) (by omega) F.one_le_p
    rwa [zpow_neg, zpow_natCast, ← one_div] at this
  have v4 : Val (F.div (.num 1) (F.add (F.ofInt (E.hi - E.lo)) (.num 1))) (1 / 2 ^ w) := by
    have := div_val (F := F) (Val.num one_ne_zero) v3 (by positivity)
    rw [rnd_of_rep hr4] at this
    exact this (by rw [abs_of_pos hi0]; linarith)
  have hk : (((E.gen s).1 - E.lo : ℤ) : ℝ) < 2 ^ w := by exact_mod_cast (by omega : (E.gen s).1 - E.lo < 2 ^ w)
  have hk0 : (0 : ℝ) ≤ (((E.gen s).1 - E.lo : ℤ) : ℝ) := by exact_mod_cast (by omega : 0 ≤ (E.gen s).1 - E.lo)
  have hlt : (((E.gen s).1 - E.lo : ℤ) : ℝ) / 2 ^ w < 1 := by rw [div_lt_one (by positivity)]; exact hk
  have hr5 : Rep F.p F.emin ((((E.gen s).1 - E.lo : ℤ) : ℝ) * (1 / 2 ^ w)) :=
    ⟨(E.gen s).1 - E.lo, -(w : ℤ), by omega, by rw [abs_of_nonneg (by omega)]; omega, by
      rw [zpow_neg, zpow_natCast, one_div]⟩
  have v5 : Val (value01 E F (E.gen s).1) ((((E.gen s).1 - E.lo : ℤ) : ℝ) / 2 ^ w) := by
    have := mul_val (F := F) v1 v4
    rw [rnd_of_rep hr5, mul_one_div] at this
    exact this (by rw [abs_of_nonneg (by positivity)]; linarith)
  refine ⟨_, ?_, v5⟩
  exact uniform01_first s 0 (by simp) ((v5.lt_iff (Val.num one_ne_zero)).2 hlt)

/-- an engine that counts modulo a power of two -/
def counter (w : ℕ) : Engine ℕ := ⟨0, 2 ^ w - 1, fun n => ((n : ℤ) % 2 ^ w, n + 1)⟩

theorem counter_ok (w : ℕ) : (counter w).Ok := fun n => by
  have h : (0 : ℤ) < 2 ^ w := by positivity
  have h1 := Int.emod_nonneg (n : ℤ) (ne_of_gt h)
  have h2 := Int.emod_lt_of_pos (n : ℤ) h
  simp only [counter]
  omega

example : ∃ r, uniform01 (counter 32) double 3 = some (r, 4) ∧ Val r (3 / 2 ^ 32) := by
  obtain ⟨r, h1, h2⟩ := C127_uniform_01_exact (counter 32) double (counter_ok 32) 32 (by simp [double, ieee]) (by simp [counter]) 3
  exact ⟨r, h1, by simpa [counter] using h2⟩

/-- `uniform_real_distribution` of limits `a ≤ b`: the value of the first result of the engine whose value is below `b`;
every value is at least `a` and below `b`. -/
theorem C127_uniform_real_partial (E : Engine σ) (F : Fmt) (hE : E.Ok)
    (a b : FV) (A B : ℝ) (ha : Val a A) (hra : Rep F.p F.emin A) (hma : |A| < (2 : ℝ) ^ F.emax) (hb : Val b B)
    (s : σ) (r : FV) (s' : σ) (h : uniformRealDist E F a b s = some (r, s')) :
    (∃ x : ℝ, Val r x ∧ A ≤ x ∧ x < B) ∧
    ∃ n, (∀ i < n, ¬ (valueReal E F a b (draw E s i)).lt b) ∧ r = valueReal E F a b (draw E s n) ∧ s' = after E s (n + 1) := by
  unfold uniformRealDist at h
  split_ifs at h with hle
  have hAB := (ha.le_iff hb).1 hle
  obtain ⟨n, h1, h2, h3⟩ := uniformReal_some a b s _ h
  have e1 : r = valueReal E F a b (draw E s n) := congrArg Prod.fst h3
  have e2 : s' = after E s (n + 1) := congrArg Prod.snd h3
  refine ⟨?_, n, h1, e1, e2⟩
  rw [e1]
  have := hE (after E s n)
  have hd : draw E s n = (E.gen (after E s n)).1 := rfl
  exact add_ge (nn_mul (nn_div (nn_ofInt (by omega)) (pp_add_one (nn_ofInt (by omega)))) (nn_sub hb ha hAB)) ha hra hma hb h2

/-- … and it is defined when the value of some result is below `b`. -/
theorem C127_uniform_real_defined (E : Engine σ) (F : Fmt) (hE : E.Ok) (hb : ((E.hi - E.lo : ℤ) : ℝ) + 1 < (2 : ℝ) ^ (F.emax - 1))
    (a b : FV) (hab : a.le b) (s : σ) (n : ℕ) (h : (valueReal E F a b (draw E s n)).lt b) :
    ∃ r, uniformRealDist E F a b s = some r := by
  classical
  have hex : ∃ n, (valueReal E F a b (draw E s n)).lt b := ⟨n, h⟩
  have h2 : uniformRealDist E F a b s = uniformReal E F a b s := by
    unfold uniformRealDist
    rw [if_pos hab]
  rw [h2]
  exact ⟨_, uniformReal_first hE hb a b s (Nat.find hex) (fun i hi => Nat.find_min hex hi) (Nat.find_spec hex)⟩

/-- Equal limits, which the constructor accepts, and limits whose difference overflows: the loop has no end. -/
theorem C127_uniform_real_refuted (E : Engine σ) (F : Fmt) (hE : E.Ok) (s : σ) :
    (∀ (a b : FV) (A : ℝ), Val a A → Val b A → Rep F.p F.emin A → |A| < (2 : ℝ) ^ F.emax →
      a.le b ∧ uniformRealDist E F a b s = none)
    ∧ (∀ (A : ℝ), 0 < A → Rep F.p F.emin A → A < (2 : ℝ) ^ F.emax → (2 : ℝ) ^ F.emax ≤ 2 * A →
      (FV.num (-A)).le (.num A) ∧ uniformRealDist E F (.num (-A)) (.num A) s = none) := by
  constructor
  · intro a b A ha hb hr hm
    refine ⟨(ha.le_iff hb).2 le_rfl, ?_⟩
    rcases h : uniformRealDist E F a b s with _ | ⟨r, s'⟩
    · rfl
    · obtain ⟨⟨x, -, h1, h2⟩, -⟩ := C127_uniform_real_partial E F hE a b A A ha hr hm hb s r s' h
      linarith
  · intro A h0 hr hm h2
    have hv1 : Val (.num A) A := Val.num (ne_of_gt h0)
    have hv2 : Val (.num (-A)) (-A) := Val.num (by linarith)
    refine ⟨(hv2.le_iff hv1).2 (by linarith), ?_⟩
    rcases h : uniformRealDist E F (.num (-A)) (.num A) s with _ | ⟨r, s'⟩
    · rfl
    · exfalso
      unfold uniformRealDist at h
      split_ifs at h
      obtain ⟨n, -, h3, -⟩ := uniformReal_some _ _ s _ h
      have hsub : F.sub (.num A) (.num (-A)) = .inf false := by
        have hr2 : Rep F.p F.emin (A + A) := by
          obtain ⟨m, e, he, hm', hx⟩ := hr
          exact ⟨m, e + 1, by omega, hm', by rw [hx, zpow_add₀ (by norm_num)]; ring⟩
        show F.ofReal (decide (A + -(-A) < 0)) (A + -(-A)) = _
        rw [neg_neg]
        unfold ofReal
        rw [rnd_of_rep hr2, if_neg (by linarith), abs_of_pos (by linarith), if_pos (by linarith), decide_eq_false (by linarith)]
      have hnn : NN (F.div (numerator E F (draw E s n)) (divisor E F)) := by
        have := hE (after E s n)
        have hd : draw E s n = (E.gen (after E s n)).1 := rfl
        exact nn_div (nn_ofInt (by omega)) (pp_add_one (nn_ofInt (by omega)))
      unfold valueReal at h3
      rw [hsub] at h3
      generalize F.div (numerator E F (draw E s n)) (divisor E F) = v at h3 hnn
      rcases v with _ | t | t | x
      · simp [mul, add] at h3
      · simp only [NN] at hnn
        subst hnn
        simp [mul, add, sgn] at h3
      · simp [mul, add] at h3
      · simp only [NN] at hnn
        simp [mul, add, sgn, not_lt.2 hnn.le] at h3

example : uniformRealDist (counter 8) double (.num 1) (.num 1) 0 = none :=
  ((C127_uniform_real_refuted (counter 8) double (counter_ok 8) 0).1 _ _ 1 (Val.num one_ne_zero) (Val.num one_ne_zero)
    double.rep_one (by rw [abs_one]; exact one_lt_zpow₀ (by norm_num) (by simp [double, ieee]))).2

/-- `bernoulli_distribution`: of probability 0 always false, without a call of the engine; of probability 1 always true;
in between, of the `N + 1` results of the engine more than `p N` and fewer than `p N + 2` give true, and those are the least. -/
theorem C127_bernoulli (E : Engine σ) (F : Fmt) (hE : E.Ok) (hN : E.hi - E.lo ≤ 2 ^ F.p) (p : FV) (P : ℝ) (hp : Val p P)
    (h0 : 0 ≤ P) (h1 : P ≤ 1) (s : σ) :
    (P = 0 → bernoulli E F p s = some (false, s))
    ∧ (P ≠ 0 → bernoulli E F p s = some (bernoulliTest E F p (E.gen s).1, (E.gen s).2))
    ∧ (P = 1 → (bernoulliTest E F p (E.gen s).1) = true)
    ∧ (∃ m : ℤ, P * ((E.hi - E.lo : ℤ) : ℝ) < m + 1 ∧ (m : ℝ) < P * ((E.hi - E.lo : ℤ) : ℝ) + 1 ∧
        (∀ k, E.lo ≤ k → k ≤ E.hi → (bernoulliTest E F p k = true ↔ k - E.lo ≤ m))
        ∧ (((Finset.Icc E.lo E.hi).filter fun k => bernoulliTest E F p k = true).card : ℤ) = m + 1) := by
  have hs := hE s
  have hN0 : 0 ≤ E.hi - E.lo := by omega
  have hN0' : (0 : ℝ) ≤ ((E.hi - E.lo : ℤ) : ℝ) := by exact_mod_cast hN0
  have hin : (FV.zero false).le p ∧ p.le (.num 1) :=
    ⟨((Val.zero false).le_iff hp).2 h0, (hp.le_iff (Val.num one_ne_zero)).2 h1⟩
  have hbig : ∀ n : ℤ, 0 ≤ n → n ≤ E.hi - E.lo → |(n : ℝ)| < (2 : ℝ) ^ F.emax := fun n h0 h1 => two_pow_le_emax (by
    rw [abs_of_nonneg (by exact_mod_cast h0)]; exact_mod_cast (by omega : n ≤ 2 ^ F.p))
  have hrep : ∀ n : ℤ, 0 ≤ n → n ≤ E.hi - E.lo → Rep F.p F.emin (n : ℝ) := fun n h0 h1 =>
    F.rep_int n (by rw [abs_of_nonneg h0]; omega)
  have hint : ∀ n : ℤ, 0 ≤ n → n ≤ E.hi - E.lo → Val (F.ofInt n) n := by
    intro n h0 h1
    have := ofReal_val (F := F) (s := false) (r := (n : ℝ))
    rw [rnd_of_rep (hrep n h0 h1)] at this
    exact this (hbig n h0 h1)
  set N : ℝ := ((E.hi - E.lo : ℤ) : ℝ) with hNdef
  have hPN0 : 0 ≤ P * N := mul_nonneg h0 hN0'
  have hPN : P * N ≤ N := by nlinarith
  have hrN : Rep F.p F.emin N := hrep _ hN0 le_rfl
  have hrnd0 : 0 ≤ F.rnd (P * N) := rnd_nonneg hPN0
  have hrnd1 : F.rnd (P * N) ≤ N := rnd_le hPN hrN
  have hvm : Val (F.mul p (F.ofInt (E.hi - E.lo))) (F.rnd (P * N)) := by
    refine mul_val hp (hint _ hN0 le_rfl) ?_
    rw [abs_of_nonneg hrnd0]
    have := hbig _ hN0 le_rfl
    rw [abs_of_nonneg hN0'] at this
    linarith
  have htest : ∀ k, E.lo ≤ k → k ≤ E.hi → (bernoulliTest E F p k = true ↔ ((k - E.lo : ℤ) : ℝ) ≤ F.rnd (P * N)) := by
    intro k hk1 hk2
    unfold bernoulliTest
    rw [decide_eq_true_iff]
    exact (hint _ (by omega) (by omega)).le_iff hvm
  refine ⟨fun h => ?_, fun h => ?_, fun h => ?_, ⌊F.rnd (P * N)⌋, ?_, ?_, ?_, ?_⟩
  · unfold bernoulli
    rw [if_neg (not_not.2 hin), if_pos ((hp.eq_iff (Val.zero false)).2 h)]
  · unfold bernoulli
    rw [if_neg (not_not.2 hin), if_neg (fun hc => h ((hp.eq_iff (Val.zero false)).1 hc))]
  · rw [htest _ hs.1 hs.2, h, one_mul, rnd_of_rep hrN, hNdef]
    exact_mod_cast (by omega : (E.gen s).1 - E.lo ≤ E.hi - E.lo)
  · have hf0 : 0 ≤ ⌊P * N⌋ := Int.floor_nonneg.2 hPN0
    have hfN : ⌊P * N⌋ ≤ E.hi - E.lo := by
      have : (⌊P * N⌋ : ℝ) ≤ N := le_trans (Int.floor_le _) hPN
      exact Int.cast_le.1 (hNdef ▸ this)
    have h2 : (⌊P * N⌋ : ℝ) ≤ F.rnd (P * N) := le_rnd (Int.floor_le _) (hrep _ hf0 hfN)
    have h3 : ⌊P * N⌋ ≤ ⌊F.rnd (P * N)⌋ := Int.le_floor.2 h2
    have h4 : (⌊P * N⌋ : ℝ) ≤ ⌊F.rnd (P * N)⌋ := by exact_mod_cast h3
    have := Int.lt_floor_add_one (P * N)
    linarith
  · have hc0 : 0 ≤ ⌈P * N⌉ := Int.ceil_nonneg hPN0
    have hcN : ⌈P * N⌉ ≤ E.hi - E.lo := Int.ceil_le.2 hPN
    have h2 : F.rnd (P * N) ≤ ⌈P * N⌉ := rnd_le (Int.le_ceil _) (hrep _ hc0 hcN)
    have h3 := Int.floor_le (F.rnd (P * N))
    have h4 := Int.ceil_lt_add_one (P * N)
    linarith
  · intro k hk1 hk2
    rw [htest k hk1 hk2, Int.le_floor]
  · have hm0 : 0 ≤ ⌊F.rnd (P * N)⌋ := Int.floor_nonneg.2 hrnd0
    have hmN : ⌊F.rnd (P * N)⌋ ≤ E.hi - E.lo := by
      have : (⌊F.rnd (P * N)⌋ : ℝ) ≤ N := le_trans (Int.floor_le _) hrnd1
      exact Int.cast_le.1 (hNdef ▸ this)
    have he : ((Finset.Icc E.lo E.hi).filter fun k => bernoulliTest E F p k = true) = Finset.Icc E.lo (E.lo + ⌊F.rnd (P * N)⌋) := by
      ext k
      rw [Finset.mem_filter, Finset.mem_Icc, Finset.mem_Icc]
      constructor
      · rintro ⟨⟨hk1, hk2⟩, h⟩
        rw [htest k hk1 hk2, ← Int.le_floor] at h
        omega
      · rintro ⟨hk1, hk2⟩
        refine ⟨⟨hk1, by omega⟩, ?_⟩
        rw [htest k hk1 (by omega), ← Int.le_floor]
        omega
    rw [he, Int.card_Icc]
    omega

example : ∃ m : ℤ, (2 ^ 32 - 1) / 2 < (m : ℝ) + 1 ∧ (m : ℝ) < (2 ^ 32 - 1) / 2 + 1 ∧
    (((Finset.Icc (0 : ℤ) (2 ^ 32 - 1)).filter fun k => bernoulliTest (counter 32) double (.num (1 / 2)) k = true).card : ℤ)
      = m + 1 := by
  obtain ⟨m, h1, h2, -, h3⟩ := (C127_bernoulli (counter 32) double (counter_ok 32) (by simp [counter, double, ieee])
    (.num (1 / 2)) (1 / 2) (Val.num (by norm_num)) (by norm_num) (by norm_num) 0).2.2.2
  refine ⟨m, ?_, ?_, h3⟩
  · simp [counter] at h1; linarith
  · simp [counter] at h2; linarith

theorem div_zero_not_finite (F : Fmt) (v : FV) (t : Bool) : F.div v (.zero t) = .nan ∨ ∃ s, F.div v (.zero t) = .inf s := by
  rcases v with _ | s | s | x <;> simp [div]

/-- `geometric_distribution::p` gives 0 for every parameter that the constructor accepts. For parameters below a quarter of
`epsilon` the conversion of the quotient to an integer is undefined. -/
theorem C127_geometric_refuted (F C : Fmt) (lo hi : ℤ) (hlo : lo ≤ 0) (hhi : 0 ≤ hi) :
    (∀ q : ℝ, 0 < q → q < 1 → geometricP lo hi (.num q) = some 0 ∧ (0 : ℝ) ≠ q)
    ∧ (∀ (E : Engine σ) (noerr : Bool) (lg : FV → FV) (t : Bool), lg (.num 1) = .zero t →
        ∀ q : ℝ, 0 < q → q < F.u / 2 → ∀ s, geometric E F C noerr lg lo hi (.num q) s = none) := by
  constructor
  · intro q h0 h1
    refine ⟨?_, ne_of_lt h0⟩
    unfold geometricP
    rw [← mkv_num false (ne_of_gt h0), toInteger_pos h0.le hlo (by
      have : (0 : ℝ) ≤ hi := by exact_mod_cast hhi
      linarith), Int.floor_eq_zero_iff.2 ⟨h0.le, h1⟩]
  · intro E noerr lg t hlg q h0 h1 s
    have hu := F.u_le
    have hsub : F.sub (.num 1) (.num q) = .num 1 := by
      show F.ofReal (decide ((1 : ℝ) + -q < 0)) (1 + -q) = _
      rw [← sub_eq_add_neg]
      unfold ofReal
      rw [rnd_near_one h0 h1, if_neg one_ne_zero, if_neg]
      rw [abs_one, not_le]
      exact one_lt_zpow₀ (by norm_num) (by have := F.emax_pos; omega)
    have hval : ∀ u, geometricValue F C noerr lg lo hi (.num q) u = none := by
      intro u
      unfold geometricValue
      rw [hsub, hlg]
      rcases div_zero_not_finite F (lg (F.sub (.num 1) u)) t with h | ⟨b, h⟩
      · rw [h]; simp [MathRound.floor, toInteger]
      · rw [h]
        cases b <;> simp [MathRound.floor, toInteger]
    unfold geometric
    split_ifs
    · cases uniform01 E F s with
      | none => rfl
      | some r => simp [hval]
    · rfl

example : geometricP (-2 ^ 31) (2 ^ 31 - 1) (.num (1 / 2)) = some 0 :=
  ((C127_geometric_refuted (σ := ℕ) double double (-2 ^ 31) (2 ^ 31 - 1) (by norm_num) (by norm_num)).1 (1 / 2) (by norm_num)
    (by norm_num)).1

theorem nn_floor (F C : Fmt) (noerr : Bool) (v w : FV) (hv : NN v) (h : MathRound.floor F C noerr v = some (.ret w)) : NN w := by
  have hcvt : ∀ (G : Fmt) (x : FV), NN x → NN (G.cvt x) := by
    intro G x hx
    rcases x with _ | t | t | x
    · exact hx
    · exact hx
    · exact hx
    · exact nn_ofReal _ (le_of_lt hx)
  unfold MathRound.floor at h
  split_ifs at h
  · cases h; exact hv
  · cases h; rfl
  · rename_i h1
    cases h
    rcases v with _ | t | t | x <;> simp_all [NN]
  · cases h; exact hv
  · unfold MathRound.large at h
    split_ifs at h
    · cases h; exact hv
    · cases h
  · have hc := hcvt C v hv
    unfold floorImpl at h
    have hn : ¬ (C.cvt v).lt (.zero false) := by
      generalize C.cvt v = x at hc
      rcases x with _ | t | t | x <;> simp_all [NN]
      exact hc.le
    rw [if_neg hn, Option.map_map] at h
    obtain ⟨n, hn1, hn2⟩ := Option.map_eq_some_iff.1 h
    cases hn2
    refine hcvt F _ (nn_ofInt ?_)
    generalize C.cvt v = x at hn1
    unfold toInteger at hn1
    split at hn1 <;> try (exact absurd hn1 (by simp))
    split_ifs at hn1 <;> simp_all <;> omega

theorem toInteger_nn {lo hi k : ℤ} {v : FV} (hv : NN v) (h : toInteger lo hi v = some k) : 0 ≤ k ∧ k ≤ hi := by
  have hval : 0 ≤ v.val := by
    rcases v with _ | t | t | y <;> simp only [NN, val] at * <;> first | exact le_rfl | exact hv.le
  unfold toInteger at h
  split at h
  · exact absurd h (by simp)
  · exact absurd h (by simp)
  · split_ifs at h with h1 h2 h2
    · linarith
    · cases h
      exact ⟨Int.floor_nonneg.2 hval, h2.2⟩

theorem div_neg_neg (F : Fmt) (a b : FV) (ha : NN a.neg) (hb : NN b.neg) :
    NN (F.div a b) ∨ F.div a b = .inf true := by
  rcases a with _ | s | s | x <;> rcases b with _ | t | t | y <;> simp only [NN, FV.neg] at ha hb
  all_goals try exact Or.inl trivial
  · cases s <;> cases t <;> simp_all [div, NN, sgn]
  · refine Or.inl ?_
    cases s <;> simp_all [div, NN, sgn]
  · exact Or.inl (nn_ofReal _ (by simp [val]))
  · cases t <;> simp_all [div, NN, sgn]
  · refine Or.inl (nn_ofReal _ ?_)
    simp only [val]
    exact div_nonneg_of_nonpos (by linarith) (by linarith)

theorem rep_of_mul (F : Fmt) {v w : FV} {x : ℝ} (h : Val (F.mul v w) x) : Rep F.p F.emin x := by
  have key : ∀ (s : Bool) (r : ℝ), Val (F.ofReal s r) x → Rep F.p F.emin x := by
    intro s r h
    by_cases hf : |F.rnd r| < (2 : ℝ) ^ F.emax
    · rw [h.unique (ofReal_val hf)]; exact F.rnd_rep r
    · have h2 := h.isFin
      unfold ofReal at h2
      split_ifs at h2 with h3 h4
      · rw [h3, abs_zero] at hf; exact absurd (by positivity) hf
      · simp [isFin] at h2
      · exact absurd (not_le.1 h4) hf
  rcases v with _ | s | s | a <;> rcases w with _ | t | t | b
  all_goals first
    | exact key _ _ h
    | exact absurd h.isFin (by simp [mul, isFin])

/-- `geometric_distribution`: a value that is returned is from 0 to the greatest of the type, given a logarithm that is not
positive on numbers up to 1. -/
theorem C127_geometric_partial (E : Engine σ) (F C : Fmt) (hE : E.Ok) (noerr : Bool) (lg : FV → FV) (lo hi : ℤ)
    (hlg : ∀ x : ℝ, 0 < x → x ≤ 1 → NN (lg (.num x)).neg) (q : ℝ) (hF : F.Has (.num q)) (s s' : σ) (k : ℤ)
    (h : geometric E F C noerr lg lo hi (.num q) s = some (.ret k, s')) :
    0 < q ∧ q < 1 ∧ 0 ≤ k ∧ k ≤ hi := by
  unfold geometric at h
  split_ifs at h with hq
  have hq0 : 0 < q := by simpa using hq.1
  have hq1 : q < 1 := by simpa using hq.2
  refine ⟨hq0, hq1, ?_⟩
  rcases hu : uniform01 E F s with _ | ⟨u, s1⟩
  · rw [hu] at h; exact absurd h (by simp)
  rw [hu] at h
  obtain ⟨⟨x, hux, hx0, hx1⟩, n, -, hu', -⟩ := C127_uniform_01 E F hE s u s1 hu
  have hrx : Rep F.p F.emin x := rep_of_mul F (v := F.ofInt (draw E s n - E.lo)) (hu' ▸ hux)
  have hsub : ∀ (v : FV) (y : ℝ), Val v y → Rep F.p F.emin y → 0 ≤ y → y < 1 → NN (lg (F.sub (.num 1) v)).neg := by
    intro v y hv hr hy0 hy1
    have hy2 := rep_lt_one hr hy1
    have hru : Rep F.p F.emin F.u := Rep.two_zpow _ (by have := F.emin_le; have := F.two_le_p; omega) F.one_le_p
    have h1 : F.rnd (1 - y) ≤ 1 := rnd_le (by linarith) F.rep_one
    have h2 : F.u ≤ F.rnd (1 - y) := le_rnd (by linarith) hru
    have h3 := F.u_pos
    have hval := sub_val (F := F) (Val.num one_ne_zero) hv (by
      rw [abs_of_nonneg (by linarith)]
      exact lt_of_le_of_lt h1 (one_lt_zpow₀ (by norm_num) (by have := F.emax_pos; omega)))
    rw [hval.eq_num (by linarith)]
    exact hlg _ (by linarith) h1
  have hd := div_neg_neg F _ _ (hsub u x hux hrx hx0 hx1) (hsub (.num q) q (Val.num (ne_of_gt hq0)) hF.2.1 hq0.le hq1)
  have h' : ∃ r, geometricValue F C noerr lg lo hi (.num q) u = some r ∧ (r, s1) = (Ret.ret k, s') :=
    Option.map_eq_some_iff.1 h
  obtain ⟨r, hr, hk⟩ := h'
  obtain rfl : r = Ret.ret k := congrArg Prod.fst hk
  unfold geometricValue at hr
  generalize F.div (lg (F.sub (.num 1) u)) (lg (F.sub (.num 1) (.num q))) = v at hr hd
  rcases hf : MathRound.floor F C noerr v with _ | (w | e)
  · rw [hf] at hr; exact absurd hr (by simp)
  · rw [hf] at hr
    obtain ⟨j, hj, hjk⟩ := Option.map_eq_some_iff.1 hr
    cases hjk
    have hw : NN w ∨ w = .inf true := by
      rcases hd with hd | rfl
      · exact Or.inl (nn_floor F C noerr v w hd hf)
      · simp [MathRound.floor] at hf
        exact Or.inr hf.symm
    rcases hw with hw | rfl
    · exact toInteger_nn hw hj
    · simp [toInteger] at hj
  · rw [hf] at hr; exact absurd hr (by simp)

end RandReal

end Sprout
