import Verif.Proofs.Fft

/-!
# Stages of the split radix transform
-/

namespace Sprout.Fourier
open Complex Finset

/-- the L shaped butterfly -/
noncomputable def B4 (w1 w3 : ℂ) (v : Fin 4 → ℂ) : Fin 4 → ℂ :=
  ![v 0 + v 1, w1 * ((v 0 - v 1) + I * (v 3 - v 2)), v 2 + v 3, w3 * ((v 0 - v 1) - I * (v 3 - v 2))]

theorem mk1 (x1 x3 : ℂ) : (⟨x1.re - x3.im, x1.im + x3.re⟩ : ℂ) = x1 + I * x3 := by
  apply Complex.ext <;> simp; ring

theorem mk3 (x1 x3 : ℂ) : (⟨x1.re + x3.im, x1.im - x3.re⟩ : ℂ) = x1 - I * x3 := by
  apply Complex.ext <;> simp

theorem butterfly_body {f1 f3 : ℝ → ℝ → ℂ} {w1 w3 : Nat → ℂ} {mq n : Nat} {R : Nat → Prop} (h0 : 0 < mq)
    (hR : ∀ x, R x → x % (4 * mq) < mq ∧ x + 3 * mq < n)
    (h1 : ∀ x, R x → ∀ r i : ℝ, f1 r i = w1 x * ⟨r, i⟩) (h3 : ∀ x, R x → ∀ r i : ℝ, f3 r i = w3 x * ⟨r, i⟩) :
    Body 4 mq n R (fun x => B4 (w1 x) (w3 x)) (butterfly f1 f3 mq) := by
  intro x hx a ha
  obtain ⟨hb, hn⟩ := hR x hx
  refine ⟨(((a.set x (gv a x + gv a (x + mq))).set (x + mq + mq) (gv a (x + mq + mq) + gv a (x + mq + mq + mq))).set (x + mq)
      (w1 x * ((gv a x - gv a (x + mq)) + I * (gv a (x + mq + mq + mq) - gv a (x + mq + mq))))).set (x + mq + mq + mq)
      (w3 x * ((gv a x - gv a (x + mq)) - I * (gv a (x + mq + mq + mq) - gv a (x + mq + mq)))), ?_, ?_⟩
  · have e2 : gv (a.set x (gv a x + gv a (x + mq))) (x + mq + mq) = gv a (x + mq + mq) := by
      rw [gv_set _ _ _ _ (by omega), if_neg (by omega)]
    have e3 : gv (a.set x (gv a x + gv a (x + mq))) (x + mq + mq + mq) = gv a (x + mq + mq + mq) := by
      rw [gv_set _ _ _ _ (by omega), if_neg (by omega)]
    rw [← mk1, ← h1 x hx, ← mk3, ← h3 x hx]
    rw [butterfly]
    simp only [Option.bind_eq_bind]
    rw [rd_gv (by omega), Option.bind_some, rd_gv (by omega), Option.bind_some, Option.bind_some, Option.bind_some,
      wr_eq (by omega), Option.bind_some, rd_gv (by rw [List.length_set]; omega), Option.bind_some,
      rd_gv (by rw [List.length_set]; omega), Option.bind_some, Option.bind_some, Option.bind_some, e2, e3,
      wr_eq (by simp only [List.length_set]; omega), Option.bind_some, wr_eq (by simp only [List.length_set]; omega), Option.bind_some,
      wr_eq (by simp only [List.length_set]; omega)]
  · apply Upd.single hb (by simp)
    · intro i
      fin_cases i
      · simp (disch := ((try simp only [List.length_set]); omega)) only [gv_set]
        simp [B4]
        rw [if_neg (by omega), if_neg (by omega), if_neg (by omega)]
      · simp (disch := ((try simp only [List.length_set]); omega)) only [gv_set]
        simp [B4]
        rw [if_neg (by omega)]
        ring_nf
      · simp (disch := ((try simp only [List.length_set]); omega)) only [gv_set]
        simp [B4]
        rw [if_neg (by omega), if_neg (by omega), if_pos (by omega)]
        ring_nf
      · simp (disch := ((try simp only [List.length_set]); omega)) only [gv_set]
        simp [B4]
        rw [if_pos (by omega)]
        ring_nf
    · intro y hy
      have y0 := hy 0
      have y1 := hy 1
      have y2 := hy 2
      have y3 := hy 3
      simp at y0 y1 y2 y3
      simp (disch := ((try simp only [List.length_set]); omega)) only [gv_set]
      rw [if_neg (by omega), if_neg (by omega), if_neg (by omega), if_neg (by omega)]

/-- the factors of block number `b` -/
noncomputable def tw1 (p b : Nat) : ℂ := exp (((-(Real.pi / 2 / (2 ^ p : Nat)) : ℝ) * rev p b : ℝ) * I)
noncomputable def tw3 (p b : Nat) : ℂ := exp (((-(Real.pi / 2 / (2 ^ p : Nat)) : ℝ) * 3 * rev p b : ℝ) * I)

theorem tw1_zero (p : Nat) : tw1 p 0 = 1 := by simp [tw1, rev_zero]
theorem tw3_zero (p : Nat) : tw3 p 0 = 1 := by simp [tw3, rev_zero]

theorem rot (t r i : ℝ) : (⟨Real.cos t * r - Real.sin t * i, Real.cos t * i + Real.sin t * r⟩ : ℂ) = exp (t * I) * ⟨r, i⟩ := by
  rw [← cis_eq]; apply Complex.ext <;> simp

theorem rev_one {p : Nat} (hp : 0 < p) : rev p 1 = 2 ^ p / 2 := by
  obtain ⟨l, rfl⟩ : ∃ l, p = l + 1 := ⟨p - 1, by omega⟩
  rw [rev, show 1 / 2 = 0 from rfl, rev_zero, pow_succ]; omega

theorem half_angle {p : Nat} (hp : 0 < p) : (-(Real.pi / 2 / (2 ^ p : Nat)) : ℝ) * (2 ^ p / 2 : Nat) = -(Real.pi / 4) := by
  obtain ⟨l, rfl⟩ : ∃ l, p = l + 1 := ⟨p - 1, by omega⟩
  rw [show 2 ^ (l + 1) / 2 = 2 ^ l by rw [pow_succ]; omega]
  push_cast
  rw [pow_succ]
  field_simp
  ring

theorem tw1_one {p : Nat} (hp : 0 < p) (r i : ℝ) :
    (⟨Real.cos ((-(Real.pi / 2 / (2 ^ p : Nat)) : ℝ) * (2 ^ p / 2 : Nat)) * (r + i),
      Real.cos ((-(Real.pi / 2 / (2 ^ p : Nat)) : ℝ) * (2 ^ p / 2 : Nat)) * (i - r)⟩ : ℂ) = tw1 p 1 * ⟨r, i⟩ := by
  rw [tw1, rev_one hp, ← rot, half_angle hp, Real.sin_neg, Real.cos_neg, Real.cos_pi_div_four, Real.sin_pi_div_four]
  apply Complex.ext
  · show _ * _ = _ - _; ring
  · show _ * _ = _ + _; ring

theorem tw3_one {p : Nat} (hp : 0 < p) (r i : ℝ) :
    (⟨Real.cos ((-(Real.pi / 2 / (2 ^ p : Nat)) : ℝ) * (2 ^ p / 2 : Nat)) * (-r + i),
      Real.cos ((-(Real.pi / 2 / (2 ^ p : Nat)) : ℝ) * (2 ^ p / 2 : Nat)) * (-i - r)⟩ : ℂ) = tw3 p 1 * ⟨r, i⟩ := by
  have h3 : (-(Real.pi / 2 / (2 ^ p : Nat)) : ℝ) * 3 * (2 ^ p / 2 : Nat) = -(Real.pi - Real.pi / 4) := by
    have := half_angle hp
    calc (-(Real.pi / 2 / (2 ^ p : Nat)) : ℝ) * 3 * (2 ^ p / 2 : Nat) = 3 * ((-(Real.pi / 2 / (2 ^ p : Nat)) : ℝ) * (2 ^ p / 2 : Nat)) := by ring
      _ = -(Real.pi - Real.pi / 4) := by rw [this]; ring
  rw [tw3, rev_one hp, ← rot, half_angle hp, h3, Real.cos_neg, Real.cos_neg, Real.sin_neg, Real.cos_pi_sub, Real.sin_pi_sub,
    Real.cos_pi_div_four, Real.sin_pi_div_four]
  apply Complex.ext
  · show _ * _ = _ - _; ring
  · show _ * _ = _ + _; ring

/-! ### one stage -/

section Stage
variable {p t : Nat}

/-- the bases of block `b` -/
def inBlk (t b x : Nat) : Prop := b * 2 ^ (t + 2) ≤ x ∧ x < b * 2 ^ (t + 2) + 2 ^ t

theorem m_eq (t : Nat) : 4 * 2 ^ t = 2 ^ (t + 2) := by rw [pow_succ, pow_succ]; ring

theorem inBlk_iff {b x : Nat} : inBlk t b x ↔ x / 2 ^ (t + 2) = b ∧ x % 2 ^ (t + 2) < 2 ^ t := by
  have e := Nat.div_add_mod x (2 ^ (t + 2))
  have hm := Nat.mod_lt x (Nat.two_pow_pos (t + 2))
  have h4 := m_eq t
  rw [inBlk]
  constructor
  · rintro ⟨h1, h2⟩
    have h3 : x / 2 ^ (t + 2) = b := by
      apply Nat.div_eq_of_lt_le h1
      rw [Nat.succ_mul]; omega
    rw [h3, Nat.mul_comm] at e
    exact ⟨h3, by omega⟩
  · rintro ⟨h1, h2⟩
    rw [h1, Nat.mul_comm] at e
    omega

theorem blk_body {f1 f3 : ℝ → ℝ → ℂ} {b n : Nat} (hn : (b + 1) * 2 ^ (t + 2) ≤ n) {w1 w3 : Nat → ℂ}
    (h1 : ∀ r i : ℝ, f1 r i = w1 b * ⟨r, i⟩) (h3 : ∀ r i : ℝ, f3 r i = w3 b * ⟨r, i⟩) :
    Body 4 (2 ^ t) n (inBlk t b) (fun x => B4 (w1 (x / 2 ^ (t + 2))) (w3 (x / 2 ^ (t + 2)))) (butterfly f1 f3 (2 ^ t)) := by
  have h4 := m_eq t
  apply butterfly_body (Nat.two_pow_pos t) (w1 := fun x => w1 (x / 2 ^ (t + 2))) (w3 := fun x => w3 (x / 2 ^ (t + 2)))
  · intro x hx
    rw [h4]
    refine ⟨(inBlk_iff.1 hx).2, ?_⟩
    rw [Nat.succ_mul] at hn
    have := hx.2
    omega
  · intro x hx; rw [(inBlk_iff.1 hx).1]; exact h1
  · intro x hx; rw [(inBlk_iff.1 hx).1]; exact h3

theorem blk_upd {B : Nat → (Fin 4 → ℂ) → Fin 4 → ℂ} {b n : Nat} {body : List ℂ → Nat → Option (List ℂ)}
    (hb : Body 4 (2 ^ t) n (inBlk t b) B body) (a : List ℂ) (ha : a.length = n) :
    ∃ a', kLoop body (b * 2 ^ (t + 2)) (2 ^ t) (2 ^ t) a = some a' ∧
      Upd 4 (2 ^ t) (fun x => x / 2 ^ (t + 2) = b ∧ inS t (x % 2 ^ (t + 2))) B a a' := by
  obtain ⟨a', e, u⟩ := kLoop_upd hb (b * 2 ^ (t + 2)) (fun x h1 h2 => ⟨h1, h2⟩) t a (le_refl _) ha
  refine ⟨a', e, u.congr (fun x hx => ?_) (fun _ _ _ => rfl)⟩
  rw [m_eq] at hx
  rw [Nat.add_sub_cancel]
  have e := Nat.div_add_mod x (2 ^ (t + 2))
  constructor
  · rintro ⟨h1, h2, h3⟩
    have h4 := (inBlk_iff (t := t) (b := b) (x := x)).1 ⟨h1, h2⟩
    refine ⟨h4.1, ?_⟩
    rw [h4.1, Nat.mul_comm] at e
    rwa [show x % 2 ^ (t + 2) = x - b * 2 ^ (t + 2) by omega]
  · rintro ⟨h1, h2⟩
    have h4 := (inBlk_iff (t := t) (b := b) (x := x)).2 ⟨h1, hx⟩
    refine ⟨h4.1, h4.2, ?_⟩
    rw [h1, Nat.mul_comm] at e
    rwa [show x - b * 2 ^ (t + 2) = x % 2 ^ (t + 2) by omega]

/-- what a stage does to the bases -/
noncomputable def BS (p t : Nat) (x : Nat) : (Fin 4 → ℂ) → Fin 4 → ℂ := B4 (tw1 p (x / 2 ^ (t + 2))) (tw3 p (x / 2 ^ (t + 2)))

theorem iLoop_upd (ht : t + 2 ≤ p) : ∀ (k b : Nat) (a : List ℂ), 2 ^ (p - t - 2) - b = k → 1 ≤ b → b ≤ 2 ^ (p - t - 2) → a.length = 2 ^ p →
    ∃ a', iLoop (2 ^ p) (-(Real.pi / 2 / (2 ^ p : Nat))) (2 ^ (t + 2)) (2 ^ t) (rev p (b - 1)) (b * 2 ^ (t + 2)) a = some a' ∧
      Upd 4 (2 ^ t) (fun x => (b ≤ x / 2 ^ (t + 2) ∧ x / 2 ^ (t + 2) < 2 ^ (p - t - 2)) ∧ inS t (x % 2 ^ (t + 2))) (BS p t) a a' := by
  have hs : 2 ^ (p - t - 2) * 2 ^ (t + 2) = 2 ^ p := by rw [← pow_add]; congr 1; omega
  intro k
  induction k with
  | zero =>
    intro b a hk h1 hb ha
    have : b = 2 ^ (p - t - 2) := by omega
    rw [iLoop, this, hs, if_neg (by omega)]
    exact ⟨a, rfl, Upd.refl (fun x => by omega)⟩
  | succ k ih =>
    intro b a hk h1 hb ha
    have hlt : b * 2 ^ (t + 2) < 2 ^ p := by
      rw [← hs]; exact Nat.mul_lt_mul_of_pos_right (by omega) (Nat.two_pow_pos _)
    have hle : (b + 1) * 2 ^ (t + 2) ≤ 2 ^ p := by
      rw [← hs]; exact Nat.mul_le_mul_right _ (by omega)
    have hb2 : b < 2 ^ p := lt_of_le_of_lt (Nat.le_mul_of_pos_right b (Nat.two_pow_pos (t + 2))) hlt
    obtain ⟨a1, e1, u1⟩ := blk_upd (blk_body (t := t) hle (w1 := tw1 p) (w3 := tw3 p)
      (f1 := fun r i => ⟨Real.cos (-(Real.pi / 2 / (2 ^ p : Nat)) * rev p b) * r - Real.sin (-(Real.pi / 2 / (2 ^ p : Nat)) * rev p b) * i,
        Real.cos (-(Real.pi / 2 / (2 ^ p : Nat)) * rev p b) * i + Real.sin (-(Real.pi / 2 / (2 ^ p : Nat)) * rev p b) * r⟩)
      (f3 := fun r i => ⟨Real.cos (-(Real.pi / 2 / (2 ^ p : Nat)) * 3 * rev p b) * r - Real.sin (-(Real.pi / 2 / (2 ^ p : Nat)) * 3 * rev p b) * i,
        Real.cos (-(Real.pi / 2 / (2 ^ p : Nat)) * 3 * rev p b) * i + Real.sin (-(Real.pi / 2 / (2 ^ p : Nat)) * 3 * rev p b) * r⟩)
      (fun r i => rot _ r i) (fun r i => rot _ r i)) a ha
    obtain ⟨a2, e2, u2⟩ := ih (b + 1) a1 (by omega) (by omega) (by omega) (u1.1.trans ha)
    rw [iLoop, if_pos hlt, revInc_rev' (by omega), show b - 1 + 1 = b by omega]
    refine ⟨a2, ?_, (u1.trans u2 (fun x h => by omega)).congr (fun x hx => ?_) (fun _ _ _ => rfl)⟩
    · rw [Nat.add_sub_cancel, Nat.succ_mul] at e2
      show (kLoop (butterfly _ _ _) _ _ _ _ >>= _) = _
      rw [e1, Option.bind_eq_bind, Option.bind_some]
      exact e2
    · constructor
      · rintro (⟨h1, h2⟩ | ⟨h1, h2⟩)
        · exact ⟨by omega, h2⟩
        · exact ⟨by omega, h2⟩
      · rintro ⟨h1, h2⟩
        by_cases h3 : x / 2 ^ (t + 2) = b
        · exact Or.inl ⟨h3, h2⟩
        · exact Or.inr ⟨by omega, h2⟩

/-- stage `t` -/
def StageRel (p t : Nat) (a a' : List ℂ) : Prop :=
  Upd 4 (2 ^ t) (fun x => x / 2 ^ (t + 2) < 2 ^ (p - t - 2) ∧ inS t (x % 2 ^ (t + 2))) (BS p t) a a'

theorem mLoop_step (ht : t + 2 ≤ p) (a : List ℂ) (ha : a.length = 2 ^ p) :
    ∃ a', StageRel p t a a' ∧ mLoop (2 ^ p) (-(Real.pi / 2 / (2 ^ p : Nat))) (2 ^ (t + 2)) a =
      mLoop (2 ^ p) (-(Real.pi / 2 / (2 ^ p : Nat))) (2 ^ (t + 1 + 2)) a' := by
  have hs : 2 ^ (p - t - 2) * 2 ^ (t + 2) = 2 ^ p := by rw [← pow_add]; congr 1; omega
  have hle : 2 ^ (t + 2) ≤ 2 ^ p := Nat.pow_le_pow_right (by omega) ht
  have hq : 2 ^ (t + 2) / 4 = 2 ^ t := by rw [← m_eq]; omega
  have h2 : 2 ^ (t + 2) * 2 = 2 ^ (t + 1 + 2) := by rw [← pow_succ]
  obtain ⟨a1, e1, u1⟩ := blk_upd (blk_body (t := t) (b := 0) (n := 2 ^ p) (by omega) (w1 := tw1 p) (w3 := tw3 p)
    (f1 := fun r i => ⟨r, i⟩) (f3 := fun r i => ⟨r, i⟩)
    (fun r i => by rw [tw1_zero, one_mul]) (fun r i => by rw [tw3_zero, one_mul])) a ha
  rw [Nat.zero_mul] at e1
  rw [mLoop, if_pos hle, hq]
  by_cases hp : p = t + 2
  · refine ⟨a1, u1.congr (fun x hx => ?_) (fun _ _ _ => rfl), ?_⟩
    · rw [hp]; simp
    · show (kLoop (butterfly _ _ _) _ _ _ _ >>= _) = _
      rw [e1, Option.bind_eq_bind, Option.bind_some, if_pos (by rw [hp]), h2]
  · have hne : 2 ^ (t + 2) ≠ 2 ^ p := fun h => hp (Nat.pow_right_injective (le_refl 2) h).symm
    have h22 : 2 ≤ 2 ^ (p - t - 2) := by
      calc 2 = 2 ^ 1 := rfl
        _ ≤ _ := Nat.pow_le_pow_right (by omega) (by omega)
    have hle2 : (1 + 1) * 2 ^ (t + 2) ≤ 2 ^ p := by rw [← hs]; exact Nat.mul_le_mul_right _ h22
    obtain ⟨a2, e2, u2⟩ := blk_upd (blk_body (t := t) (b := 1) (n := 2 ^ p) hle2 (w1 := tw1 p) (w3 := tw3 p)
      (f1 := fun r i => ⟨Real.cos ((-(Real.pi / 2 / (2 ^ p : Nat)) : ℝ) * (2 ^ p / 2 : Nat)) * (r + i),
        Real.cos ((-(Real.pi / 2 / (2 ^ p : Nat)) : ℝ) * (2 ^ p / 2 : Nat)) * (i - r)⟩)
      (f3 := fun r i => ⟨Real.cos ((-(Real.pi / 2 / (2 ^ p : Nat)) : ℝ) * (2 ^ p / 2 : Nat)) * (-r + i),
        Real.cos ((-(Real.pi / 2 / (2 ^ p : Nat)) : ℝ) * (2 ^ p / 2 : Nat)) * (-i - r)⟩)
      (fun r i => tw1_one (by omega) r i) (fun r i => tw3_one (by omega) r i)) a1 (u1.1.trans ha)
    obtain ⟨a3, e3, u3⟩ := iLoop_upd ht _ 2 a2 rfl (by omega) h22 (u2.1.trans (u1.1.trans ha))
    refine ⟨a3, ((u1.trans u2 (fun x h => by omega)).trans u3 (fun x h => by omega)).congr (fun x hx => ?_) (fun _ _ _ => rfl), ?_⟩
    · constructor
      · rintro ((⟨h1, h2⟩ | ⟨h1, h2⟩) | ⟨h1, h2⟩)
        · exact ⟨by omega, h2⟩
        · exact ⟨by omega, h2⟩
        · exact ⟨by omega, h2⟩
      · rintro ⟨h1, h2⟩
        by_cases h0 : x / 2 ^ (t + 2) = 0
        · exact Or.inl (Or.inl ⟨h0, h2⟩)
        · by_cases h1' : x / 2 ^ (t + 2) = 1
          · exact Or.inl (Or.inr ⟨h1', h2⟩)
          · refine Or.inr ⟨⟨?_, h1⟩, h2⟩
            generalize x / 2 ^ (t + 2) = d at *
            omega
    · show (kLoop (butterfly _ _ _) _ _ _ _ >>= _) = _
      rw [e1, Option.bind_eq_bind, Option.bind_some, if_neg hne]
      show (kLoop (butterfly _ _ _) _ _ _ _ >>= _) = _
      rw [Nat.one_mul] at e2
      rw [e2, Option.bind_eq_bind, Option.bind_some]
      rw [show 2 - 1 = 1 from rfl, rev_one (by omega)] at e3
      rw [e3, Option.bind_some, h2]

end Stage

end Sprout.Fourier
