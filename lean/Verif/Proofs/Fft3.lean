import Verif.Proofs.Fft2

/-!
# The split radix transform computes the coefficients
-/

namespace Sprout.Fourier
open Complex Finset

/-- `exp(-2πi / 2^s)` -/
noncomputable def W (s : Nat) : ℂ := om (2 ^ s)

theorem W_sq (s : Nat) : W (s + 1) ^ 2 = W s := by
  rw [W, W, om_pow, om]
  congr 1
  push_cast
  rw [pow_succ]
  field_simp

theorem W_zero : W 0 = 1 := by
  have := om_pow_self (n := 1) (by omega)
  rwa [pow_one] at this

theorem W_one : W 1 = -1 := by
  rw [W, om]
  push_cast
  rw [show -(2 * (Real.pi : ℂ) * I / 2) = -(Real.pi * I) by ring, exp_neg, exp_pi_mul_I]
  norm_num

theorem W_quarter (s : Nat) : W (s + 2) ^ 2 ^ s = -I := by
  rw [W, om_pow]
  push_cast
  have h : (2 : ℂ) ^ s ≠ 0 := pow_ne_zero _ (by norm_num)
  rw [show -(2 * (Real.pi : ℂ) * I * 2 ^ s / 2 ^ (s + 2)) = -(Real.pi / 2 * I) by rw [pow_add]; field_simp,
    exp_neg, exp_pi_div_two_mul_I, inv_I]

theorem rev4 {s j c d : Nat} (hj : j < 2 ^ s) (hc : c < 2) (hd : d < 2) :
    rev (s + 2) (j + c * 2 ^ s + d * 2 ^ (s + 1)) = 4 * rev s j + 2 * c + d := by
  have : j + c * 2 ^ s < 2 ^ (s + 1) := by
    rw [pow_succ]
    have : c = 0 ∨ c = 1 := by omega
    rcases this with h | h <;> subst h <;> omega
  rw [rev_top (s + 1) _ d this hd, rev_top s j c hj hc]
  ring

theorem tw1_eq {t s b : Nat} (hb : b < 2 ^ s) : tw1 (t + 2 + s) b = W (s + 2) ^ rev s b := by
  rw [tw1, W, om_pow, show t + 2 + s = s + (t + 2) by ring, rev_pad (t + 2) s b hb]
  congr 1
  push_cast
  have h : (2 : ℂ) ^ s ≠ 0 := pow_ne_zero _ (by norm_num)
  have h' : (2 : ℂ) ^ t ≠ 0 := pow_ne_zero _ (by norm_num)
  simp only [pow_add]
  field_simp

theorem tw3_eq (p b : Nat) : tw3 p b = tw1 p b ^ 3 := by
  rw [tw1, tw3, ← exp_nat_mul]
  congr 1
  push_cast
  ring

/-! ### arithmetic of a split -/

section Split
variable {M : Nat} {V : ℂ} {Y y : Nat → ℂ}

theorem split_even (hV : V ^ M = -I) (H : ∀ k, ∑ j ∈ range (4 * M), y j * V ^ (j * k) = Y k) (k : Nat) :
    ∑ j ∈ range (2 * M), (y j + y (j + 2 * M)) * (V ^ 2) ^ (j * k) = Y (2 * k) := by
  rw [← H, show 4 * M = 2 * M + 2 * M by ring, sum_range_add, ← sum_add_distrib]
  refine sum_congr rfl fun j _ => ?_
  have h1 : V ^ ((2 * M + j) * (2 * k)) = V ^ (j * (2 * k)) := by
    rw [show (2 * M + j) * (2 * k) = M * 4 * k + j * (2 * k) by ring, pow_add, pow_mul, pow_mul, hV]
    have : (-I) ^ 4 = 1 := by rw [neg_pow]; norm_num
    rw [this]; simp
  have h2 : (V ^ 2) ^ (j * k) = V ^ (j * (2 * k)) := by rw [← pow_mul]; congr 1; ring
  rw [h1, h2, Nat.add_comm (2 * M)]
  ring

theorem sum_four (f : Nat → ℂ) : ∑ j ∈ range (4 * M), f j =
    ∑ j ∈ range M, (f j + f (j + M) + f (j + 2 * M) + f (j + 3 * M)) := by
  rw [show 4 * M = M + M + M + M by ring, sum_range_add, sum_range_add, sum_range_add, sum_add_distrib, sum_add_distrib, sum_add_distrib]
  congr 1
  · congr 1
    · congr 1
      exact sum_congr rfl fun j _ => by rw [Nat.add_comm]
    · exact sum_congr rfl fun j _ => by rw [show M + M + j = j + 2 * M by ring]
  · exact sum_congr rfl fun j _ => by rw [show M + M + M + j = j + 3 * M by ring]

theorem pow_shift (hV : V ^ M = -I) (c j k : Nat) : V ^ ((j + c * M) * k) = V ^ (j * k) * (-I) ^ (c * k) := by
  rw [show (j + c * M) * k = j * k + M * (c * k) by ring, pow_add, pow_mul V M, hV]

theorem split_odd1 (hV : V ^ M = -I) (H : ∀ k, ∑ j ∈ range (4 * M), y j * V ^ (j * k) = Y k) (k : Nat) :
    ∑ j ∈ range M, V ^ j * ((y j - y (j + 2 * M)) + I * (y (j + 3 * M) - y (j + M))) * (V ^ 4) ^ (j * k) = Y (4 * k + 1) := by
  rw [← H, sum_four]
  refine sum_congr rfl fun j _ => ?_
  have h4 : (-I) ^ 4 = 1 := by rw [neg_pow]; norm_num
  have h1 : (-I) ^ (1 * (4 * k + 1)) = -I := by
    rw [show 1 * (4 * k + 1) = 4 * k + 1 by ring, pow_add, pow_mul, h4]; simp
  have h2 : (-I) ^ (2 * (4 * k + 1)) = -1 := by
    rw [show 2 * (4 * k + 1) = 4 * (2 * k) + 2 by ring, pow_add, pow_mul, h4]; simp
  have h3 : (-I) ^ (3 * (4 * k + 1)) = I := by
    rw [show 3 * (4 * k + 1) = 4 * (3 * k) + 3 by ring, pow_add, pow_mul, h4, show (-I) ^ 3 = (-I) ^ 2 * (-I) by ring]; simp
  have e := pow_shift hV 1 j (4 * k + 1)
  rw [Nat.one_mul] at e
  rw [e, pow_shift hV 2, pow_shift hV 3, h1, h2, h3,
    show (V ^ 4) ^ (j * k) = V ^ (4 * (j * k)) by rw [← pow_mul], show j * (4 * k + 1) = 4 * (j * k) + j by ring, pow_add]
  ring

theorem split_odd3 (hV : V ^ M = -I) (H : ∀ k, ∑ j ∈ range (4 * M), y j * V ^ (j * k) = Y k) (k : Nat) :
    ∑ j ∈ range M, (V ^ j) ^ 3 * ((y j - y (j + 2 * M)) - I * (y (j + 3 * M) - y (j + M))) * (V ^ 4) ^ (j * k) = Y (4 * k + 3) := by
  rw [← H, sum_four]
  refine sum_congr rfl fun j _ => ?_
  have h4 : (-I) ^ 4 = 1 := by rw [neg_pow]; norm_num
  have h1 : (-I) ^ (1 * (4 * k + 3)) = I := by
    rw [show 1 * (4 * k + 3) = 4 * k + 3 by ring, pow_add, pow_mul, h4, show (-I) ^ 3 = (-I) ^ 2 * (-I) by ring]; simp
  have h2 : (-I) ^ (2 * (4 * k + 3)) = -1 := by
    rw [show 2 * (4 * k + 3) = 4 * (2 * k + 1) + 2 by ring, pow_add, pow_mul, h4]; simp
  have h3 : (-I) ^ (3 * (4 * k + 3)) = -I := by
    rw [show 3 * (4 * k + 3) = 4 * (3 * k + 2) + 1 by ring, pow_add, pow_mul, h4]; simp
  have e := pow_shift hV 1 j (4 * k + 3)
  rw [Nat.one_mul] at e
  rw [e, pow_shift hV 2, pow_shift hV 3, h1, h2, h3,
    show (V ^ 4) ^ (j * k) = V ^ (4 * (j * k)) by rw [← pow_mul], show j * (4 * k + 3) = 4 * (j * k) + j * 3 by ring, pow_add, pow_mul V j 3]
  ring

end Split

/-! ### lanes -/

/-- the cells `q`, `q + 2 ^ t`, … hold a sequence of length `2 ^ s`, in reversed order, the coefficients of which are
`X q`, `X (q + 2 ^ t)`, … -/
def Lane (X : Nat → ℂ) (a : List ℂ) (t s q : Nat) : Prop :=
  ∀ k, ∑ j ∈ range (2 ^ s), gv a (q + 2 ^ t * rev s j) * W s ^ (j * k) = X (q + 2 ^ t * k)

variable {X : Nat → ℂ}

/-- cells of lanes not taking part do not change -/
theorem stage_keep {t s : Nat} {a a' : List ℂ} (h : StageRel (t + 2 + s) t a a') (y : Nat) (hy : ¬inS t (y % 2 ^ t)) :
    gv a' y = gv a y := by
  have hm := m_eq t
  have h0 := Nat.two_pow_pos t
  have e1 := Nat.div_add_mod y (2 ^ t)
  have e2 := Nat.div_add_mod (y / 2 ^ t) 4
  have hq := Nat.mod_lt y h0
  have hi := Nat.mod_lt (y / 2 ^ t) (show 4 > 0 by omega)
  generalize y % 2 ^ t = q at *
  generalize y / 2 ^ t / 4 = b at *
  generalize y / 2 ^ t % 4 = i at *
  have ey : y = (q + 4 * 2 ^ t * b) + i * 2 ^ t := by
    rw [← e1, ← e2]; ring
  have hx : (q + 4 * 2 ^ t * b) % (4 * 2 ^ t) = q := by
    rw [Nat.add_mul_mod_self_left, Nat.mod_eq_of_lt (by omega)]
  have := (h.2 (q + 4 * 2 ^ t * b) (by rw [hx]; exact hq) ⟨i, hi⟩).2 (by
    rintro ⟨_, h2⟩
    rw [← hm, hx] at h2
    exact hy h2)
  rw [ey]
  exact this

theorem lane_keep {t s : Nat} {a a' : List ℂ} (h : StageRel (t + 2 + s) t a a') {u v q : Nat} (hu : t ≤ u) (hy : ¬inS t (q % 2 ^ t))
    (hl : Lane X a u v q) : Lane X a' u v q := by
  intro k
  rw [← hl k]
  refine sum_congr rfl fun j _ => ?_
  rw [stage_keep h]
  rw [show u = t + (u - t) by omega, pow_add, Nat.mul_assoc, Nat.add_mul_mod_self_left]
  exact hy

theorem stage_split {t s : Nat} {a a' : List ℂ} (h : StageRel (t + 2 + s) t a a') {q : Nat} (hq : q < 2 ^ t) (hS : inS t q)
    (hl : Lane X a t (s + 2) q) :
    Lane X a' (t + 1) (s + 1) q ∧ Lane X a' (t + 2) s (q + 2 ^ t) ∧ Lane X a' (t + 2) s (q + 3 * 2 ^ t) := by
  have hm := m_eq t
  have h4 : 4 * 2 ^ s = 2 ^ (s + 2) := m_eq s
  have h2 : 2 * 2 ^ s = 2 ^ (s + 1) := by rw [pow_succ]; ring
  let y : Nat → ℂ := fun j => gv a (q + 2 ^ t * rev (s + 2) j)
  have H : ∀ k, ∑ j ∈ range (4 * 2 ^ s), y j * W (s + 2) ^ (j * k) = X (q + 2 ^ t * k) := by rw [h4]; exact hl
  have hV := W_quarter s
  have hW2 : W (s + 2) ^ 2 = W (s + 1) := W_sq (s + 1)
  have hW4 : W (s + 2) ^ 4 = W s := by rw [show 4 = 2 * 2 from rfl, pow_mul, W_sq, W_sq]
  -- the four cells
  have cells : ∀ j, j < 2 ^ s → ∀ i : Fin 4, gv a' (q + 2 ^ (t + 2) * rev s j + i * 2 ^ t) =
      B4 (W (s + 2) ^ j) ((W (s + 2) ^ j) ^ 3) ![y j, y (j + 2 * 2 ^ s), y (j + 2 ^ s), y (j + 3 * 2 ^ s)] i := by
    intro j hj i
    have hr := rev_lt s j
    have hx : (q + 2 ^ (t + 2) * rev s j) % 2 ^ (t + 2) = q := by
      rw [Nat.add_mul_mod_self_left, Nat.mod_eq_of_lt (by omega)]
    have hd : (q + 2 ^ (t + 2) * rev s j) / 2 ^ (t + 2) = rev s j := by
      rw [Nat.add_mul_div_left _ _ (Nat.two_pow_pos _), Nat.div_eq_of_lt (by omega), Nat.zero_add]
    have := (h.2 (q + 2 ^ (t + 2) * rev s j) (by rw [hm, hx]; exact hq) i).1 ⟨by
      rw [hd, show t + 2 + s - t - 2 = s by omega]; exact hr, by rw [hx]; exact hS⟩
    rw [this, BS, hd, tw3_eq, tw1_eq hr, rev_rev s j hj]
    congr 1
    have r0 := rev4 (s := s) (j := j) (c := 0) (d := 0) hj (by omega) (by omega)
    have r1 := rev4 (s := s) (j := j) (c := 0) (d := 1) hj (by omega) (by omega)
    have r2 := rev4 (s := s) (j := j) (c := 1) (d := 0) hj (by omega) (by omega)
    have r3 := rev4 (s := s) (j := j) (c := 1) (d := 1) hj (by omega) (by omega)
    simp only [Nat.zero_mul, Nat.one_mul, Nat.add_zero, Nat.mul_zero, Nat.mul_one] at r0 r1 r2 r3
    funext i
    fin_cases i
    · show gv a _ = y j
      simp only [y, r0]
      congr 1
      rw [← hm]; ring
    · show gv a _ = y (j + 2 * 2 ^ s)
      simp only [y, h2, r1]
      congr 1
      rw [← hm]; ring
    · show gv a _ = y (j + 2 ^ s)
      simp only [y, r2]
      congr 1
      rw [← hm]; ring
    · show gv a _ = y (j + 3 * 2 ^ s)
      simp only [y]
      rw [show j + 3 * 2 ^ s = j + 2 ^ s + 2 ^ (s + 1) by rw [← h2]; ring, r3]
      congr 1
      rw [← hm]; ring
  refine ⟨fun k => ?_, fun k => ?_, fun k => ?_⟩
  · have := split_even hV H k
    rw [hW2, h2] at this
    rw [show q + 2 ^ (t + 1) * k = q + 2 ^ t * (2 * k) by rw [pow_succ]; ring, ← this]
    refine sum_congr rfl fun j hj => ?_
    congr 1
    rw [mem_range, ← h2] at hj
    by_cases hlt : j < 2 ^ s
    · have c0 := cells j hlt 0
      have r := rev_top s j 0 hlt (by omega)
      simp only [Nat.zero_mul, Nat.add_zero] at r
      rw [r]
      simp [B4] at c0
      rw [← h2, ← c0]
      congr 1
      rw [← hm, pow_succ]; ring
    · have c2 := cells (j - 2 ^ s) (by omega) 2
      have r := rev_top s (j - 2 ^ s) 1 (by omega) (by omega)
      rw [Nat.one_mul, show j - 2 ^ s + 2 ^ s = j by omega] at r
      rw [r]
      simp [B4] at c2
      rw [show j - 2 ^ s + 2 ^ s = j by omega, show j - 2 ^ s + 3 * 2 ^ s = j + 2 * 2 ^ s by omega] at c2
      rw [← h2, ← c2]
      congr 1
      rw [← hm, pow_succ]; ring
  · have := split_odd1 hV H k
    rw [hW4] at this
    rw [show q + 2 ^ t + 2 ^ (t + 2) * k = q + 2 ^ t * (4 * k + 1) by rw [← hm]; ring, ← this]
    refine sum_congr rfl fun j hj => ?_
    congr 1
    have c1 := cells j (mem_range.1 hj) 1
    simp [B4] at c1
    rw [← c1]
    congr 1
    ring
  · have := split_odd3 hV H k
    rw [hW4] at this
    rw [show q + 3 * 2 ^ t + 2 ^ (t + 2) * k = q + 2 ^ t * (4 * k + 3) by rw [← hm]; ring, ← this]
    refine sum_congr rfl fun j hj => ?_
    congr 1
    have c1 := cells j (mem_range.1 hj) 3
    simp [B4] at c1
    rw [← c1]
    congr 1
    ring

/-- after stage `t`; the size is `2 ^ (t + s + 1)` -/
def Inv (X : Nat → ℂ) (t s : Nat) (a : List ℂ) : Prop :=
  (∀ q, q < 2 ^ t → inS t q → Lane X a t (s + 1) q) ∧ (∀ q, q < 2 ^ (t + 1) → ¬inS t (q % 2 ^ t) → Lane X a (t + 1) s q)

theorem inv_step {t s : Nat} {a a' : List ℂ} (h : StageRel (t + 2 + s) t a a') (hi : Inv X t (s + 1) a) : Inv X (t + 1) s a' := by
  have h0 := Nat.two_pow_pos t
  have e1 : 2 ^ (t + 1) = 2 * 2 ^ t := by rw [pow_succ]; ring
  have e2 : 2 ^ (t + 1 + 1) = 4 * 2 ^ t := by rw [pow_succ, pow_succ]; ring
  constructor
  · intro q hq hS
    rw [inS_succ t q hq] at hS
    by_cases hin : inS t (q % 2 ^ t)
    · by_cases hlt : q < 2 ^ t
      · rw [Nat.mod_eq_of_lt hlt] at hin
        exact (stage_split h hlt hin (hi.1 q hlt hin)).1
      · rw [show q % 2 ^ t = q - 2 ^ t by rw [Nat.mod_eq_sub_mod (by omega), Nat.mod_eq_of_lt (by omega)]] at hin
        exact absurd ⟨by omega, hin⟩ hS
    · exact lane_keep h (by omega) hin (hi.2 q hq hin)
  · intro q hq hS
    have hl := Nat.mod_lt q (Nat.two_pow_pos (t + 1))
    rw [inS_succ t _ hl, not_not] at hS
    obtain ⟨h1, h2⟩ := hS
    by_cases hlt : q < 2 ^ (t + 1)
    · rw [Nat.mod_eq_of_lt hlt] at h1 h2
      have := (stage_split h (q := q - 2 ^ t) (by omega) h2 (hi.1 _ (by omega) h2)).2.1
      rwa [show q - 2 ^ t + 2 ^ t = q by omega] at this
    · rw [show q % 2 ^ (t + 1) = q - 2 ^ (t + 1) by rw [Nat.mod_eq_sub_mod (by omega), Nat.mod_eq_of_lt (by omega)]] at h1 h2
      have := (stage_split h (q := q - 2 ^ (t + 1) - 2 ^ t) (by omega) h2 (hi.1 _ (by omega) h2)).2.2
      rwa [show q - 2 ^ (t + 1) - 2 ^ t + 3 * 2 ^ t = q by omega] at this

theorem mLoop_inv : ∀ (s t p : Nat) (a : List ℂ), p = t + s + 1 → a.length = 2 ^ p → Inv X t s a →
    ∃ a', mLoop (2 ^ p) (-(Real.pi / 2 / (2 ^ p : Nat))) (2 ^ (t + 2)) a = some a' ∧ a'.length = 2 ^ p ∧ Inv X (p - 1) 0 a' := by
  intro s
  induction s with
  | zero =>
    intro t p a hp ha hi
    have : 2 ^ (t + 2) = 2 * 2 ^ p := by rw [hp, pow_succ]; ring
    have h0 := Nat.two_pow_pos p
    rw [mLoop, if_neg (by omega)]
    refine ⟨a, rfl, ha, ?_⟩
    rw [show p - 1 = t by omega]; exact hi
  | succ s ih =>
    intro t p a hp ha hi
    obtain ⟨a1, h1, e1⟩ := mLoop_step (p := p) (t := t) (by omega) a ha
    rw [e1]
    have h1' : StageRel (t + 2 + s) t a a1 := by rw [show t + 2 + s = p by omega]; exact h1
    exact ih (t + 1) p a1 (by omega) (h1.1.trans ha) (inv_step h1' hi)

/-- the last butterfly -/
noncomputable def B2 (v : Fin 2 → ℂ) : Fin 2 → ℂ := ![v 0 + v 1, v 0 - v 1]

theorem radix2_body {mq n : Nat} (h0 : 0 < mq) (hn : n = 2 * mq) :
    Body 2 mq n (fun x => x < mq) (fun _ => B2) (radix2 mq) := by
  intro x hx a ha
  refine ⟨(a.set x (gv a x + gv a (mq + x))).set (mq + x) (gv a x - gv a (mq + x)), ?_, ?_⟩
  · rw [radix2]
    simp only [Option.bind_eq_bind]
    rw [rd_gv (by omega), Option.bind_some, rd_gv (by omega), Option.bind_some, Option.bind_some, Option.bind_some,
      wr_eq (by omega), Option.bind_some, wr_eq (by simp only [List.length_set]; omega)]
  · apply Upd.single (by rw [Nat.mod_eq_of_lt (by omega)]; exact hx) (by simp)
    · intro i
      fin_cases i
      · simp (disch := ((try simp only [List.length_set]); omega)) only [gv_set]
        simp [B2]
        rw [if_neg (by omega), Nat.add_comm]
      · simp (disch := ((try simp only [List.length_set]); omega)) only [gv_set]
        simp [B2]
        rw [if_pos (by omega), Nat.add_comm]
    · intro y hy
      have y0 := hy 0
      have y1 := hy 1
      simp at y0 y1
      simp (disch := ((try simp only [List.length_set]); omega)) only [gv_set]
      rw [if_neg (by omega), if_neg (by omega)]

theorem final_stage {t : Nat} {a : List ℂ} (ha : a.length = 2 ^ (t + 1)) (hi : Inv X t 0 a) :
    ∃ a', kLoop (radix2 (2 ^ t)) 0 (2 ^ t) (2 ^ t) a = some a' ∧ a'.length = 2 ^ (t + 1) ∧ ∀ i, i < 2 ^ (t + 1) → gv a' i = X i := by
  have h0 := Nat.two_pow_pos t
  have e1 : 2 ^ (t + 1) = 2 * 2 ^ t := by rw [pow_succ]; ring
  obtain ⟨a', e, u⟩ := kLoop_upd (radix2_body h0 e1) 0 (fun x _ h => by omega) t a (le_refl _) ha
  refine ⟨a', e, u.1.trans ha, fun i hlt => ?_⟩
  have hq := Nat.mod_lt i h0
  have hx : i % 2 ^ t % (2 * 2 ^ t) = i % 2 ^ t := Nat.mod_eq_of_lt (by omega)
  have hP : (0 + 2 ^ t - 2 ^ t ≤ i % 2 ^ t ∧ i % 2 ^ t < 0 + 2 ^ t ∧ inS t (i % 2 ^ t - (0 + 2 ^ t - 2 ^ t))) ↔ inS t (i % 2 ^ t) := by
    rw [Nat.add_sub_cancel, Nat.sub_zero]
    exact ⟨fun h => h.2.2, fun h => ⟨by omega, by omega, h⟩⟩
  have hc : i = i % 2 ^ t ∨ i = i % 2 ^ t + 2 ^ t := by
    by_cases h : i < 2 ^ t
    · left; rw [Nat.mod_eq_of_lt h]
    · right; rw [Nat.mod_eq_sub_mod (by omega), Nat.mod_eq_of_lt (by omega)]; omega
  by_cases hS : inS t (i % 2 ^ t)
  · have c0 := (u.2 (i % 2 ^ t) (by rw [hx]; exact hq) 0).1 (hP.2 hS)
    have c1 := (u.2 (i % 2 ^ t) (by rw [hx]; exact hq) 1).1 (hP.2 hS)
    have l := hi.1 _ hq hS
    have l0 := l 0
    have l1 := l 1
    rw [show 2 ^ (0 + 1) = 2 from rfl, sum_range_succ, sum_range_one] at l0 l1
    simp [rev, W_one] at l0 l1
    simp [B2] at c0 c1
    rcases hc with hc | hc
    · rw [hc, c0, ← l0]
    · rw [hc, c1, ← l1]; ring
  · have c0 := (u.2 (i % 2 ^ t) (by rw [hx]; exact hq) 0).2 (fun h => hS (hP.1 h))
    have c1 := (u.2 (i % 2 ^ t) (by rw [hx]; exact hq) 1).2 (fun h => hS (hP.1 h))
    have l := hi.2 i hlt hS 0
    rw [pow_zero, sum_range_one] at l
    simp [rev] at l
    rw [← l]
    simp at c0 c1
    rcases hc with hc | hc
    · rw [hc]; simpa using c0
    · rw [hc]; simpa using c1

/-- the transform of a power of two -/
theorem fft_eq {p : Nat} {x : List ℂ} (hx : x.length = 2 ^ p) : fft x = some (Spec.dft x) := by
  have fin : ∀ b : List ℂ, b.length = 2 ^ p → (∀ i, i < 2 ^ p → gv b i = Spec.dftCoeff x i) → b = Spec.dft x := by
    intro b hb h
    apply List.ext_getElem?
    intro i
    by_cases hi : i < 2 ^ p
    · rw [spec_dft_getElem? (by omega), ← h i hi, gv_eq (by omega), List.getElem?_eq_getElem (by omega)]
    · rw [List.getElem?_eq_none (by omega), List.getElem?_eq_none (by rw [spec_dft_length]; omega)]
  obtain ⟨b, e1, hb, hv⟩ := scramble_full hx
  rw [fft]
  simp only [hx, e1, Option.bind_eq_bind, Option.bind_some]
  cases p with
  | zero =>
    rw [mLoop, if_neg (by omega), Option.bind_some, kLoop, if_neg (by omega)]
    refine congrArg some (fin b hb fun i hi => ?_)
    have : i = 0 := by omega
    subst this
    rw [hv 0 (by omega), dftCoeff_eq, hx]
    simp [rev]
  | succ t =>
    have hi : Inv (Spec.dftCoeff x) 0 t b := by
      constructor
      · intro q hq _ k
        have : q = 0 := by simpa using hq
        subst this
        rw [dftCoeff_eq, hx]
        simp only [Nat.zero_add, pow_zero, Nat.one_mul]
        refine sum_congr rfl fun j hj => ?_
        rw [hv _ (rev_lt _ _), rev_rev _ _ (mem_range.1 hj)]
        rfl
      · intro q hq hn
        exact absurd (by simp [inS, Nat.mod_one]) hn
    obtain ⟨c, e2, hc, hi2⟩ := mLoop_inv t 0 (t + 1) b (by omega) hb hi
    obtain ⟨d, e3, hd, hv3⟩ := final_stage hc hi2
    rw [show 2 ^ (0 + 2) = 4 from rfl] at e2
    rw [e2, Option.bind_some, show 2 ^ (t + 1) / 2 = 2 ^ t by rw [pow_succ]; omega]
    rw [e3]
    exact congrArg some (fin d hd hv3)

end Sprout.Fourier
