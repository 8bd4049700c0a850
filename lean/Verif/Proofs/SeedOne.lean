import Verif.Model.SeedOne
import Verif.Spec.SeedOne
import Verif.Proofs.ConstMod
import Verif.Props.C114
import Mathlib.Data.Nat.Bitwise

/-! # Seeding from a sequence of words -/

namespace Sprout.SeedOne
open Mt (forLoop)
open SeedArray (Word)
open CInt CMod

theorem seedLog_spec (w : Nat) {m : Nat} (h : m < 2 ^ 64) :
    (m = 0 → seedLog w m = none) ∧ (0 < m → ∃ r, seedLog w m = some r ∧ 2 ^ r ≤ m ∧ m < 2 ^ (r + 1)) := by
  have := C114_log2 m h
  refine ⟨fun h0 => by rw [seedLog, this.1 h0]; rfl, fun h0 => ?_⟩
  obtain ⟨r, h1, h2, h3⟩ := this.2 h0
  exact ⟨r, by rw [seedLog, h1]; simp; omega, h2, h3⟩

theorem and_not_pow {w m log : Nat} (hw : log < w) (h1 : 2 ^ log ≤ m) (h2 : m < 2 ^ (log + 1)) :
    (2 ^ w - 1 - 2 ^ log) &&& m = m - 2 ^ log := by
  have hlt : 2 ^ log < 2 ^ w := Nat.pow_lt_pow_right (by omega) hw
  obtain ⟨d, rfl⟩ := Nat.exists_eq_add_of_le h1
  have hd : d < 2 ^ log := by rw [Nat.pow_succ] at h2; omega
  rw [Nat.add_sub_cancel_left]
  apply Nat.eq_of_testBit_eq
  intro i
  rw [Nat.testBit_and, show 2 ^ w - 1 - 2 ^ log = 2 ^ w - (2 ^ log + 1) by omega, Nat.testBit_two_pow_sub_succ hlt, Nat.testBit_two_pow]
  by_cases hi : i < log
  · have : (2 ^ log + d).testBit i = d.testBit i := by
      rw [Nat.testBit_two_pow_add_gt hi]
    rw [this]
    simp; intro; omega
  · have hdi : d.testBit i = false := Nat.testBit_lt_two_pow (Nat.lt_of_lt_of_le hd (Nat.pow_le_pow_right (by omega) (by omega)))
    rw [hdi]
    by_cases he : i = log
    · simp [he]
    · have : (2 ^ log + d).testBit i = false := Nat.testBit_lt_two_pow (Nat.lt_of_lt_of_le h2 (Nat.pow_le_pow_right (by omega) (by omega)))
      simp [this]

theorem seedK_spec {w m log : Nat} (hw : m < 2 ^ w) (hm : 2 ≤ m) (h1 : 2 ^ log ≤ m) (h2 : m < 2 ^ (log + 1)) :
    seedK w m log = some (SeedSpec.words m) := by
  have hlw : log < w := (Nat.pow_lt_pow_iff_right (by omega : 1 < 2)).1 (Nat.lt_of_le_of_lt h1 hw)
  have hlog : log ≠ 0 := by rintro rfl; omega
  unfold seedK
  rw [if_neg hlog]
  have e : 2 * 2 ^ (log - 1) = 2 ^ log := by rw [← Nat.pow_succ']; congr 1; omega
  have hlt : 2 ^ log < 2 ^ w := Nat.pow_lt_pow_right (by omega) hlw
  rw [e, Nat.mod_eq_of_lt hlt, and_not_pow hlw h1 h2]
  congr 1
  symm
  unfold SeedSpec.words
  have key : ∀ k, Nat.clog (2 ^ 32) m ≤ k ↔ m ≤ 2 ^ (32 * k) := by
    intro k
    rw [Nat.clog_le_iff_le_pow (by norm_num), ← Nat.pow_mul]
  have both : ∀ K, m ≤ 2 ^ (32 * K) → (∀ k, k < K → ¬ m ≤ 2 ^ (32 * k)) → Nat.clog (2 ^ 32) m = K := by
    intro K ha hb
    apply Nat.le_antisymm ((key K).2 ha)
    by_contra hc
    exact hb _ (by omega) ((key _).1 (Nat.le_refl _))
  by_cases hp : m - 2 ^ log = 0
  · have hm2 : m = 2 ^ log := by omega
    rw [if_neg (by simpa using hp)]
    apply both
    · rw [hm2]; exact Nat.pow_le_pow_right (by omega) (by omega)
    · intro k hk hc
      rw [hm2, Nat.pow_le_pow_iff_right (by omega)] at hc
      omega
  · rw [if_pos hp]
    apply both
    · exact Nat.le_trans (Nat.le_of_lt h2) (Nat.pow_le_pow_right (by omega) (by omega))
    · intro k hk hc
      have : 2 ^ (32 * k) ≤ 2 ^ log := Nat.pow_le_pow_right (by omega) (by omega)
      omega

theorem words_le {w m log : Nat} (hw : m < 2 ^ w) (hm : 2 ≤ m) (h1 : 2 ^ log ≤ m) (h2 : m < 2 ^ (log + 1)) :
    SeedSpec.words m ≤ log / 32 + 1 := by
  have := seedK_spec hw hm h1 h2
  unfold seedK at this
  split at this
  · exact absurd this (by simp)
  · have := Option.some.inj this
    rw [← this]
    split <;> omega

theorem uty_std {w : Nat} (hw : w = 32 ∨ w = 64) : (uty w).Std := by
  rcases hw with rfl | rfl <;> decide

theorem uty_max (w : Nat) : (uty w).max = 2 ^ w - 1 := by simp [uty, CInt.max]

theorem uty_mod {w m : Nat} (hw : w = 32 ∨ w = 64) (hm : 1 ≤ m) (h : m < 2 ^ w) : Mod (uty w) m := by
  refine ⟨uty_std hw, by exact_mod_cast hm, ?_⟩
  rw [uty_max]
  have : (m : Int) < 2 ^ w := by exact_mod_cast h
  omega

theorem apply_eq {T : CInt} {m x : Int} (h : Mod T m) (hx0 : 0 ≤ x) (hx : x ≤ T.max) : apply T m x = some (x % m) := by
  unfold CMod.apply
  have hpos := h.pos
  split
  · rename_i hp
    rw [uns_conv_nn h.std hx0 hx, andMask_eq h hp hx0]
  · rw [rem_ok h.std hx0 hx (by omega), Option.map_some]
    have := Int.emod_nonneg x (by omega : m ≠ 0)
    have := Int.emod_lt_of_pos x (by omega : 0 < m)
    have := h.le
    rw [conv_ok h.std (has_nn h.std (by omega) (by omega))]

theorem word_le {w : Nat} (hw : w = 32 ∨ w = 64) (x : Word) : ((x.toNat : Nat) : Int) ≤ (uty w).max := by
  rw [uty_max]
  have := x.isLt
  rcases hw with rfl | rfl <;> omega

theorem body_eq {w m : Nat} (hw : w = 32 ∨ w = 64) (hm : 2 ≤ m) (h : m < 2 ^ w) {a : List Word} {s : Int} {j : Nat}
    (hj : 2 ^ (32 * j) < m) (ha : j + 3 < a.length) (hs : 0 ≤ s ∧ s < m) (hA : Able (uty w) m (2 ^ (32 * j))) :
    body w m a s j = some ((((a.getD (j + 3) 0).toNat : Int) * 2 ^ (32 * j) + s) % m) := by
  have hM := uty_mod hw (by omega : 1 ≤ m) h
  have hx := word_le hw a[j + 3]
  have hjw : 32 * j < w := (Nat.pow_lt_pow_iff_right (by omega : 1 < 2)).1 (Nat.lt_trans hj h)
  have hg : a.getD (j + 3) 0 = a[j + 3] := by simp [ha]
  unfold body
  rw [rd_eq ha, hg]
  simp only [Option.bind_eq_bind, Option.bind_some]
  rw [conv_ok hM.std (has_nn hM.std (by omega) hx), apply_eq hM (by omega) hx]
  simp only [Option.bind_some, shl32, if_pos hjw]
  have m0 : (m : Int) ≠ 0 := by omega
  rw [multAdd_eq hM ⟨by positivity, by exact_mod_cast hj⟩ ⟨Int.emod_nonneg _ m0, Int.emod_lt_of_pos _ (by omega)⟩ hs hA]
  congr 1
  rw [Int.add_emod, Int.mul_emod, Int.emod_emod_of_dvd _ (dvd_refl _), ← Int.mul_emod, ← Int.add_emod, Int.mul_comm]

theorem forLoop_succ {σ : Type} {n : Nat} {f : σ → Nat → Option σ} {s : σ} :
    forLoop 0 (n + 1) f s = (forLoop 0 n f s).bind fun x => f x n := by
  unfold forLoop
  rw [Nat.sub_zero, Nat.sub_zero, List.range'_concat, List.foldlM_append]
  simp

theorem loop_eq {w m : Nat} (hw : w = 32 ∨ w = 64) (hm : 2 ≤ m) (h : m < 2 ^ w) {a : List Word} (k : Nat)
    (hk : ∀ j < k, 2 ^ (32 * j) < m ∧ j + 3 < a.length ∧ Able (uty w) m (2 ^ (32 * j))) :
    forLoop 0 k (body w m a) 0 = some (((∑ j ∈ Finset.range k, (a.getD (j + 3) 0).toNat * 2 ^ (32 * j)) % m : Nat) : Int) := by
  induction k with
  | zero => simp [forLoop]
  | succ k ih =>
    obtain ⟨h1, h2, h3⟩ := hk k (by omega)
    have hlt := Nat.mod_lt (∑ j ∈ Finset.range k, (a.getD (j + 3) 0).toNat * 2 ^ (32 * j)) (by omega : 0 < m)
    rw [forLoop_succ, ih fun j hj => hk j (by omega), Option.bind_some,
      body_eq hw hm h h1 h2 ⟨by omega, by exact_mod_cast hlt⟩ h3, Finset.sum_range_succ]
    congr 1
    push_cast
    rw [Int.add_emod_emod, Int.add_comm]

theorem pow_lt_of_lt_words {m j : Nat} (hj : j < SeedSpec.words m) : 2 ^ (32 * j) < m := by
  have : ¬ SeedSpec.words m ≤ j := by omega
  unfold SeedSpec.words at this
  rw [Nat.clog_le_iff_le_pow (by norm_num), ← Nat.pow_mul] at this
  omega

theorem words_le_one {m : Nat} (h : m ≤ 2 ^ 32) : SeedSpec.words m ≤ 1 := by
  unfold SeedSpec.words
  rw [Nat.clog_le_iff_le_pow (by norm_num)]
  simpa using h

theorem able_of {w m : Nat} (hw : w = 32 ∨ w = 64) (h : m < 2 ^ w) (hm : 2 ≤ m) (hok : m ≤ 2 ^ 32 ∨ ∃ e, m = 2 ^ e) {j : Nat}
    (hj : j < SeedSpec.words m) : Able (uty w) m (2 ^ (32 * j)) := by
  unfold Able
  rcases hok with hok | ⟨e, rfl⟩
  · have := words_le_one hok
    have : j = 0 := by omega
    subst this
    right; right; left
    simp
  · left
    exact (pow2_iff (by omega)).2 ⟨e, by norm_cast⟩

theorem seedOneInt_eq {w m : Nat} (hw : w = 32 ∨ w = 64) (hm : 2 ≤ m) (h : m < 2 ^ w) (hok : m ≤ 2 ^ 32 ∨ ∃ e, m = 2 ^ e)
    {gen : Nat → Option (List Word)} {a : Nat → List Word} (hg : ∀ n, gen n = some (a n)) (hl : ∀ n, (a n).length = n) :
    seedOneInt w m gen = some (SeedSpec.oneInt m a : Int) := by
  have h64 : m < 2 ^ 64 := by rcases hw with rfl | rfl <;> omega
  obtain ⟨log, e, h1, h2⟩ := (seedLog_spec w h64).2 (by omega)
  have hwl := words_le h hm h1 h2
  unfold seedOneInt
  rw [e]
  simp only [Option.bind_eq_bind, Option.bind_some]
  rw [seedK_spec h hm h1 h2]
  simp only [Option.bind_some]
  rw [if_pos (by omega), hg, Option.bind_some, loop_eq hw hm h]
  · rfl
  · intro j hj
    exact ⟨pow_lt_of_lt_words hj, by rw [hl]; omega, able_of hw h hm hok hj⟩

/-- no other modulus can be used -/
theorem seedOneInt_none {m : Nat} (h : m < 2 ^ 64) (hlo : 2 ^ 32 < m) (hp : ∀ e, m ≠ 2 ^ e) (gen : Nat → Option (List Word)) :
    seedOneInt 64 m gen = none := by
  obtain ⟨log, e, h1, h2⟩ := (seedLog_spec 64 h).2 (by omega)
  have hM := uty_mod (w := 64) (Or.inr rfl) (by omega : 1 ≤ m) h
  have hk : 2 ≤ SeedSpec.words m := by
    by_contra hc
    have : SeedSpec.words m ≤ 1 := by omega
    unfold SeedSpec.words at this
    rw [Nat.clog_le_iff_le_pow (by norm_num)] at this
    omega
  have hp2 : ¬ pow2 m = true := by
    rw [pow2_iff (by omega)]
    rintro ⟨k, hk⟩
    exact hp k (by exact_mod_cast hk)
  have key : ∀ a s, 0 ≤ s → s < (m : Int) → body 64 m a s 1 = none := by
    intro a s hs0 hs1
    unfold body
    rcases hr : rd a (1 + 3) with _ | x
    · rfl
    · have hx := word_le (w := 64) (Or.inr rfl) x
      simp only [Option.bind_eq_bind, Option.bind_some]
      rw [conv_ok hM.std (has_nn hM.std (by omega) hx), apply_eq hM (by omega) hx]
      simp only [Option.bind_some, shl32]
      rw [if_pos (by omega)]
      simp only [Option.bind_some]
      have hmax : (uty 64).max = 2 ^ 64 - 1 := uty_max 64
      rw [multAdd, if_neg hp2, if_neg (by norm_num), arith_ok hM.std (has_nn hM.std (by omega) (by omega))]
      simp only [Option.bind_eq_bind, Option.bind_some]
      rw [div_ok hM.std (by omega) (by omega) (by norm_num)]
      simp only [Option.bind_some]
      rw [if_neg (by rw [hmax]; omega), mult, if_neg hp2, if_neg (by norm_num), if_neg (by norm_num),
        div_ok hM.std (by omega) (by omega) (by norm_num)]
      simp only [Option.bind_eq_bind, Option.bind_some]
      rw [if_neg (by rw [hmax]; omega), rem_ok hM.std (by omega) (by omega) (by norm_num), div_ok hM.std (by omega) (by omega) (by norm_num)]
      simp only [Option.bind_some]
      rw [if_neg (by simp [uty]), multGeneral, if_neg, Option.bind_none]
      rw [Int.le_ediv_iff_mul_le (by omega)]
      intro hc
      have : (2 ^ 32 + 1 : Int) ≤ m := by omega
      nlinarith
  have key2 : ∀ a k, 2 ≤ k → forLoop 0 k (body 64 m a) 0 = none := by
    intro a k hk
    induction k, hk using Nat.le_induction with
    | base =>
      rw [forLoop_succ, forLoop_succ]
      have : forLoop 0 0 (body 64 m a) (0 : Int) = some 0 := rfl
      rw [this, Option.bind_some]
      rcases hb : body 64 m a 0 0 with _ | s
      · rfl
      · rw [Option.bind_some]
        by_cases hl : 0 + 3 < a.length
        · rw [body_eq (Or.inr rfl) (by omega) h (by omega) hl ⟨by omega, by omega⟩ (by unfold Able; right; right; left; norm_num)] at hb
          have := Option.some.inj hb
          subst this
          exact key a _ (Int.emod_nonneg _ (by omega)) (Int.emod_lt_of_pos _ (by omega))
        · unfold body at hb
          have : rd a (0 + 3) = none := by unfold rd; simpa using hl
          rw [this] at hb
          exact absurd hb (by simp)
    | succ k hk ih => rw [forLoop_succ, ih]; rfl
  unfold seedOneInt
  rw [e]
  simp only [Option.bind_eq_bind, Option.bind_some]
  rw [seedK_spec h (by omega) h1 h2]
  simp only [Option.bind_some]
  split
  · rcases gen (SeedSpec.words m + 3) with _ | a
    · rfl
    · rw [Option.bind_some, key2 a _ hk]
  · rfl

end Sprout.SeedOne
