import Verif.Model.Gcd
import Mathlib.Algebra.Order.Ring.Int
import Mathlib.Data.Int.GCD
import Mathlib.Data.Nat.GCD.Basic

/-! # Helper lemmas for gcd and lcm -/

namespace Sprout

variable {T : IntTy}

theorem natAbs_tdiv_le (a b : Int) : (a.tdiv b).natAbs ≤ a.natAbs := by
  rw [Int.natAbs_tdiv]; exact Nat.div_le_self _ _

theorem mod_ok {a b : Int} (ha : T.fits a.natAbs = true) (hb : b ≠ 0) : T.mod a b = some (a.tmod b) := by
  rw [IntTy.mod, if_neg hb, IntTy.chk, if_pos (T.convex _ a (natAbs_tdiv_le a b) ha)]
  rfl

theorem natAbs_tmod (a b : Int) : (a.tmod b).natAbs = a.natAbs % b.natAbs := Int.natAbs_tmod a b

theorem fits_tmod {a b : Int} (ha : T.fits a.natAbs = true) : T.fits (a.tmod b).natAbs = true := by
  refine T.convex _ a ?_ ha
  rw [Int.natAbs_natCast, natAbs_tmod]; exact Nat.mod_le _ _

/-- the result of the Euclidean algorithm is, up to sign, the gcd -/
theorem gcdEuclidean_eq : ∀ (n : Nat) (a b : Int), a.natAbs = n → T.fits a.natAbs = true → T.fits b.natAbs = true →
    ∃ g, gcdEuclidean T a b = some g ∧ g.natAbs = Int.gcd a b := by
  intro n
  induction n using Nat.strongRecOn with
  | ind n ih =>
    intro a b hn ha hb
    rw [gcdEuclidean]
    by_cases h0 : a = 0
    · exact ⟨b, by rw [if_pos h0], by rw [h0, Int.gcd_zero_left]⟩
    · rw [if_neg h0, mod_ok hb h0]
      simp only [Option.bind_eq_bind, Option.bind_some]
      have ha0 : 0 < a.natAbs := Int.natAbs_pos.2 h0
      by_cases h1 : b.tmod a = 0
      · refine ⟨a, by rw [if_pos h1], ?_⟩
        have : a.natAbs ∣ b.natAbs := Nat.dvd_of_mod_eq_zero (by rw [← natAbs_tmod, h1]; rfl)
        rw [Int.gcd_def, Nat.gcd_eq_left this]
      · rw [if_neg h1, mod_ok ha h1]
        simp only [Option.bind_some]
        have hr : (b.tmod a).natAbs < a.natAbs := by rw [natAbs_tmod]; exact Nat.mod_lt _ ha0
        have hr0 : 0 < (b.tmod a).natAbs := Int.natAbs_pos.2 h1
        have hs : (a.tmod (b.tmod a)).natAbs < a.natAbs := by
          rw [natAbs_tmod]; exact Nat.lt_trans (Nat.mod_lt _ hr0) hr
        obtain ⟨g, e1, e2⟩ := ih _ (hn ▸ hs) _ (b.tmod a) rfl (fits_tmod ha) (fits_tmod hb)
        refine ⟨g, e1, ?_⟩
        rw [e2, Int.gcd_def, Int.gcd_def, natAbs_tmod a, natAbs_tmod b, ← Nat.gcd_rec, ← Nat.gcd_rec]

theorem gcdInteger_eq {a b : Int} (ha : T.fits a.natAbs = true) (hb : T.fits b.natAbs = true) :
    gcdInteger T a b = some (Int.gcd a b : Int) := by
  obtain ⟨g, h1, h2⟩ := gcdEuclidean_eq (T := T) _ a b rfl ha hb
  rw [gcdInteger, h1]
  simp only [Option.bind_eq_bind, Option.bind_some]
  by_cases hg : g < 0
  · have : T.fits (-g) = true := by
      by_cases h0 : a = 0
      · refine T.convex _ b ?_ hb
        rw [Int.natAbs_neg, h2, h0, Int.gcd_zero_left]
      · refine T.convex _ a ?_ ha
        rw [Int.natAbs_neg, h2, Int.gcd_def]
        exact Nat.gcd_le_left _ (Int.natAbs_pos.2 h0)
    rw [if_pos hg, IntTy.chk, if_pos this, ← h2]
    congr 1; omega
  · rw [if_neg hg, ← h2]
    congr 1; omega

/-! ### unsigned -/

variable {w : Nat}

theorem pick_upd_same (r : BitVec w × BitVec w) (b : Bool) (x : BitVec w) : pick (upd r b x) b = x := by
  cases b <;> rfl
theorem pick_upd_other (r : BitVec w × BitVec w) (b : Bool) (x : BitVec w) : pick (upd r b x) (!b) = pick r (!b) := by
  cases b <;> rfl

theorem even_iff (hw : 0 < w) (x : BitVec w) : x &&& 1 = 0 ↔ x.toNat % 2 = 0 := by
  have h1 : (x &&& 1).toNat = x.toNat % 2 := by
    rw [BitVec.toNat_and, show (1 : BitVec w).toNat = 1 from by
      show (1#w).toNat = 1
      rw [BitVec.toNat_ofNat, Nat.mod_eq_of_lt (Nat.one_lt_two_pow (by omega))], Nat.and_one_is_mod]
  constructor
  · intro h; rw [← h1, h]; simp
  · intro h; apply BitVec.eq_of_toNat_eq; rw [h1, h]; simp

theorem toNat_pos {x : BitVec w} (h : x ≠ 0) : 0 < x.toNat := by
  rcases Nat.eq_zero_or_pos x.toNat with e | e
  · exact absurd (BitVec.eq_of_toNat_eq (by simpa using e)) h
  · exact e

theorem width_pos_of_ne {x : BitVec w} (h : x ≠ 0) : 0 < w := by
  rcases Nat.eq_zero_or_pos w with e | e
  · subst e; exact absurd (BitVec.eq_of_toNat_eq (by have := x.isLt; simp at this ⊢; exact this)) h
  · exact e

theorem shr1_toNat (x : BitVec w) : (x >>> 1).toNat = x.toNat / 2 := by
  rw [BitVec.toNat_ushiftRight, Nat.shiftRight_eq_div_pow, Nat.pow_one]

theorem gcd_half {x y : Nat} (hx : x % 2 = 0) (hy : y % 2 = 1) : Nat.gcd (x / 2) y = Nat.gcd x y := by
  obtain ⟨k, rfl⟩ : ∃ k, x = 2 * k := ⟨x / 2, by omega⟩
  rw [show 2 * k / 2 = k by omega]
  have : Nat.Coprime 2 y := by rw [Nat.Coprime, Nat.gcd_rec, hy]; rfl
  exact (Nat.Coprime.gcd_mul_left_cancel k this).symm

theorem gcdHalve_eq : ∀ (n : Nat) (r : BitVec w × BitVec w) (b : Bool), (pick r b).toNat = n → 0 < n →
    (pick r (!b)).toNat % 2 = 1 → ∃ x, gcdHalve r b = some (upd r b x) ∧ x.toNat % 2 = 1 ∧ x.toNat ≤ n ∧
      Nat.gcd x.toNat (pick r (!b)).toNat = Nat.gcd n (pick r (!b)).toNat := by
  intro n
  induction n using Nat.strongRecOn with
  | ind n ih =>
    intro r b hn h0 hodd
    have hw : 0 < w := by
      rcases Nat.eq_zero_or_pos w with e | e
      · subst e; have := (pick r b).isLt; simp at this; omega
      · exact e
    rw [gcdHalve]
    by_cases he : pick r b &&& 1 = 0
    · have hev := (even_iff hw _).1 he
      rw [if_pos he]
      obtain ⟨x, h1, h2, h3, h4⟩ := ih (n / 2) (by omega) (upd r b (pick r b >>> 1)) b
        (by rw [pick_upd_same, shr1_toNat, hn]) (by omega) (by rw [pick_upd_other]; exact hodd)
      refine ⟨x, ?_, h2, by omega, ?_⟩
      · rw [h1]; cases b <;> rfl
      · rw [pick_upd_other] at h4
        rw [h4]; exact gcd_half (by omega) hodd
    · rw [if_neg he]
      have hodd' : (pick r b).toNat % 2 = 1 := by
        have := (not_congr (even_iff hw (pick r b))).1 he; omega
      exact ⟨pick r b, by cases b <;> rfl, hodd', by omega, by rw [hn]⟩

theorem gcdBinary2_eq (shifts : Nat) : ∀ (n : Nat) (r : BitVec w × BitVec w) (b : Bool),
    (pick r b).toNat + (pick r (!b)).toNat = n → 0 < (pick r b).toNat → (pick r (!b)).toNat % 2 = 1 →
    Nat.gcd (pick r b).toNat (pick r (!b)).toNat * 2 ^ shifts < 2 ^ w →
    ∃ g, gcdBinary2 shifts r b = some g ∧ g.toNat = Nat.gcd (pick r b).toNat (pick r (!b)).toNat * 2 ^ shifts := by
  intro n
  induction n using Nat.strongRecOn with
  | ind n ih =>
    intro r b hn h0 hodd hbound
    obtain ⟨x, e1, e2, e3, e4⟩ := gcdHalve_eq _ r b rfl h0 hodd
    rw [gcdBinary2, e1]
    simp only [Option.bind_eq_bind, Option.bind_some, pick_upd_same, pick_upd_other]
    generalize hy : pick r (!b) = y at *
    rw [← e4] at hbound ⊢
    have fin : ∀ (r' : BitVec w × BitVec w) (b' : Bool), (pick r' (!b')).toNat % 2 = 1 →
        (pick r' b').toNat + (pick r' (!b')).toNat < n →
        Nat.gcd (pick r' b').toNat (pick r' (!b')).toNat = Nat.gcd x.toNat y.toNat →
        ∃ g, (if pick r' b' ≠ 0 then gcdBinary2 shifts r' b'
          else if shifts < w then some (pick r' (!b') <<< shifts) else none) = some g ∧
          g.toNat = Nat.gcd x.toNat y.toNat * 2 ^ shifts := by
      intro r' b' ho hlt hg
      by_cases hz : pick r' b' = 0
      · rw [if_neg (by simpa using hz)]
        rw [hz] at hg
        have hg' : (pick r' (!b')).toNat = Nat.gcd x.toNat y.toNat := by
          rw [← hg]; simp
        have hs : shifts < w := by
          by_contra hc
          have h1 : 2 ^ w ≤ 2 ^ shifts := Nat.pow_le_pow_right (by omega) (by omega)
          have h2 : 1 ≤ Nat.gcd x.toNat y.toNat := by rw [← hg']; omega
          have h3 : 1 * 2 ^ shifts ≤ Nat.gcd x.toNat y.toNat * 2 ^ shifts := Nat.mul_le_mul_right _ h2
          omega
        rw [if_pos hs]
        refine ⟨_, rfl, ?_⟩
        rw [BitVec.toNat_shiftLeft, hg', Nat.shiftLeft_eq, Nat.mod_eq_of_lt hbound]
      · rw [if_pos hz]
        obtain ⟨g, h1, h2⟩ := ih _ hlt r' b' rfl (toNat_pos hz) ho (by rw [hg]; exact hbound)
        exact ⟨g, h1, by rw [h2, hg]⟩
    by_cases hgt : y > x
    · have hlt : x.toNat < y.toNat := BitVec.lt_def.1 hgt
      simp only [if_pos hgt]
      have p1 : pick (upd r b x) (!b) = y := by rw [pick_upd_other, hy]
      have p2 : pick (upd r b x) (!!b) = x := by rw [Bool.not_not, pick_upd_same]
      rw [p1, p2]
      have hsub : (y - x).toNat = y.toNat - x.toNat := BitVec.toNat_sub_of_le (BitVec.le_def.2 (by omega))
      have q1 : pick (upd (upd r b x) (!b) (y - x)) (!b) = y - x := pick_upd_same _ _ _
      have q2 : pick (upd (upd r b x) (!b) (y - x)) (!!b) = x := by rw [pick_upd_other, p2]
      have := fin _ (!b) (by rw [q2]; exact e2) (by rw [q1, q2, hsub]; omega)
        (by rw [q1, q2, hsub, Nat.gcd_comm, Nat.gcd_sub_self_right (by omega)])
      rw [q1, q2] at this
      exact this
    · have hle : y.toNat ≤ x.toNat := by
        have : ¬ (x.toNat < y.toNat) := fun h => hgt (BitVec.lt_def.2 h)
        omega
      simp only [if_neg hgt]
      rw [pick_upd_same, pick_upd_other, hy]
      have hsub : (x - y).toNat = x.toNat - y.toNat := BitVec.toNat_sub_of_le (BitVec.le_def.2 (by omega))
      have q1 : pick (upd (upd r b x) b (x - y)) b = x - y := pick_upd_same _ _ _
      have q2 : pick (upd (upd r b x) b (x - y)) (!b) = y := by rw [pick_upd_other, pick_upd_other, hy]
      have := fin _ b (by rw [q2]; exact hodd) (by rw [q1, q2, hsub]; omega)
        (by rw [q1, q2, hsub, Nat.gcd_sub_self_left (by omega)])
      rw [q1, q2] at this
      exact this

theorem gcdBinary1_eq : ∀ (n : Nat) (u v : BitVec w) (shifts : Nat), u.toNat = n → u ≠ 0 → v ≠ 0 →
    Nat.gcd u.toNat v.toNat * 2 ^ shifts < 2 ^ w →
    ∃ g, gcdBinary1 u v shifts = some g ∧ g.toNat = Nat.gcd u.toNat v.toNat * 2 ^ shifts := by
  intro n
  induction n using Nat.strongRecOn with
  | ind n ih =>
    intro u v shifts hn hu hv hb
    have hw := width_pos_of_ne hu
    have hu0 := toNat_pos hu
    have hv0 := toNat_pos hv
    rw [gcdBinary1]
    by_cases he : u &&& 1 = 0 ∧ v &&& 1 = 0
    · have h1 := (even_iff hw _).1 he.1
      have h2 := (even_iff hw _).1 he.2
      have hg : Nat.gcd (u.toNat / 2) (v.toNat / 2) * 2 ^ (shifts + 1) = Nat.gcd u.toNat v.toNat * 2 ^ shifts := by
        obtain ⟨a, ha⟩ : ∃ a, u.toNat = 2 * a := ⟨u.toNat / 2, by omega⟩
        obtain ⟨b, hb⟩ : ∃ b, v.toNat = 2 * b := ⟨v.toNat / 2, by omega⟩
        rw [ha, hb, Nat.gcd_mul_left, show 2 * a / 2 = a by omega, show 2 * b / 2 = b by omega, Nat.pow_succ]
        rw [Nat.mul_comm 2, Nat.mul_assoc, Nat.mul_comm 2]
      rw [if_pos he]
      have nz : ∀ z : BitVec w, z ≠ 0 → z.toNat % 2 = 0 → z >>> 1 ≠ 0 := by
        intro z hz hz2 hc
        have := shr1_toNat z
        rw [hc] at this
        have := toNat_pos hz
        simp at *; omega
      obtain ⟨g, e1, e2⟩ := ih (u.toNat / 2) (by omega) (u >>> 1) (v >>> 1) (shifts + 1) (shr1_toNat u) (nz u hu h1)
        (nz v hv h2) (by rw [shr1_toNat, shr1_toNat, hg]; exact hb)
      exact ⟨g, e1, by rw [e2, shr1_toNat, shr1_toNat, hg]⟩
    · rw [if_neg he]
      by_cases hu1 : u &&& 1 = 0
      · have hv1 : ¬ (v &&& 1 = 0) := fun h => he ⟨hu1, h⟩
        have e : (u &&& 1 != 0) = false := by rw [hu1]; exact bne_self_eq_false _
        rw [e]
        have := (not_congr (even_iff hw v)).1 hv1
        exact gcdBinary2_eq shifts _ (u, v) false rfl hu0 (by show v.toNat % 2 = 1; omega) hb
      · have e : (u &&& 1 != 0) = true := bne_iff_ne.2 hu1
        rw [e]
        have := (not_congr (even_iff hw u)).1 hu1
        obtain ⟨g, e1, e2⟩ := gcdBinary2_eq shifts _ (u, v) true rfl hv0 (by show u.toNat % 2 = 1; omega)
          (by rw [Nat.gcd_comm]; exact hb)
        exact ⟨g, e1, by rw [e2, Nat.gcd_comm]; rfl⟩

theorem gcdUnsigned_eq (u v : BitVec w) :
    ∃ g, gcdUnsigned u v = some g ∧ g.toNat = Nat.gcd u.toNat v.toNat := by
  rw [gcdUnsigned]
  by_cases h : u ≠ 0 ∧ v ≠ 0
  · rw [if_pos h]
    have hlt : Nat.gcd u.toNat v.toNat * 2 ^ 0 < 2 ^ w := by
      have := Nat.gcd_le_left v.toNat (toNat_pos h.1)
      have := u.isLt
      simp; omega
    obtain ⟨g, e1, e2⟩ := gcdBinary1_eq _ u v 0 rfl h.1 h.2 hlt
    exact ⟨g, e1, by rw [e2]; simp⟩
  · rw [if_neg h]
    refine ⟨_, rfl, ?_⟩
    by_cases hu : u = 0
    · rw [hu]; simp
    · have hv : v = 0 := by
        by_contra hv; exact h ⟨hu, hv⟩
      rw [hv]; simp

theorem gcdEuclideanU_eq : ∀ (n : Nat) (a b : BitVec w), a.toNat = n →
    ∃ g, gcdEuclideanU a b = some g ∧ g.toNat = Nat.gcd a.toNat b.toNat := by
  intro n
  induction n using Nat.strongRecOn with
  | ind n ih =>
    intro a b hn
    rw [gcdEuclideanU]
    by_cases h0 : a = 0
    · exact ⟨b, by rw [if_pos h0], by rw [h0]; simp⟩
    · rw [if_neg h0]
      have ha := toNat_pos h0
      by_cases h1 : b % a = 0
      · refine ⟨a, by rw [if_pos h1], ?_⟩
        have : a.toNat ∣ b.toNat := Nat.dvd_of_mod_eq_zero (by rw [← BitVec.toNat_umod, h1]; simp)
        rw [Nat.gcd_eq_left this]
      · rw [if_neg h1]
        have hr0 := toNat_pos h1
        rw [BitVec.toNat_umod] at hr0
        have hr := Nat.mod_lt b.toNat ha
        have hs := Nat.mod_lt a.toNat hr0
        obtain ⟨g, e1, e2⟩ := ih (a.toNat % (b.toNat % a.toNat)) (by rw [← hn]; omega) (a % (b % a)) (b % a) (by
          rw [BitVec.toNat_umod, BitVec.toNat_umod])
        refine ⟨g, e1, ?_⟩
        rw [e2, BitVec.toNat_umod, BitVec.toNat_umod, ← Nat.gcd_rec, ← Nat.gcd_rec]

theorem toInt_cases (a : BitVec w) :
    (2 * a.toNat < 2 ^ w ∧ a.toInt = a.toNat) ∨ (¬ 2 * a.toNat < 2 ^ w ∧ a.toInt = (a.toNat : Int) - (2 ^ w : Nat)) := by
  by_cases h : 2 * a.toNat < 2 ^ w
  · exact Or.inl ⟨h, by rw [BitVec.toInt_eq_toNat_cond, if_pos h]⟩
  · exact Or.inr ⟨h, by rw [BitVec.toInt_eq_toNat_cond, if_neg h]⟩

theorem absSigned_eq {a : BitVec w} (h : (IntTy.signed w).fits a.toInt.natAbs = true) :
    ∃ u, absSigned a = some u ∧ u.toNat = a.toInt.natAbs := by
  rw [absSigned]
  have hlt := a.isLt
  rcases toInt_cases a with ⟨hc, hI⟩ | ⟨hc, hI⟩
  · rw [if_neg (by omega)]
    exact ⟨a, rfl, by omega⟩
  · rw [if_pos (by omega), show -a.toInt = a.toInt.natAbs by omega, if_pos h]
    refine ⟨_, rfl, ?_⟩
    rw [BitVec.toNat_neg, Nat.mod_eq_of_lt (by omega)]
    omega

end Sprout
