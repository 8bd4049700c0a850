import Verif.Proofs.Bitset2
import Verif.Proofs.Bits2

/-! # Helper lemmas for the bitset: counting, scanning, conversions -/

namespace Sprout
open Spec Bitset

namespace Bitset
variable {B : Nat}

theorem bitAt_cons_lo (w : BitVec B) (ws : List (BitVec B)) {i : Nat} (hi : i < B) :
    bitAt (w :: ws) i = w.getLsbD i := by
  rw [bitAt_mk' (q := 0) (r := i) _ hi (by omega)]; rfl

theorem bitAt_cons_hi (hB : 0 < B) (w : BitVec B) (ws : List (BitVec B)) (i : Nat) :
    bitAt (w :: ws) (B + i) = bitAt ws i := by
  unfold bitAt
  rw [Nat.add_div_left _ hB, Nat.add_mod_left]; rfl

theorem bitAt_nil (i : Nat) : bitAt ([] : List (BitVec B)) i = false := by simp [bitAt]

/-- bits of a list of words, shifted view -/
theorem bitAt_drop (hB : 0 < B) (ws : List (BitVec B)) (q i : Nat) : bitAt (ws.drop q) i = bitAt ws (q * B + i) := by
  induction q generalizing ws with
  | zero => simp
  | succ q ih =>
    cases ws with
    | nil => simp [bitAt_nil]
    | cons w ws =>
      rw [List.drop_succ_cons, ih, Nat.add_mul, Nat.one_mul, show q * B + B + i = B + (q * B + i) by omega,
        bitAt_cons_hi hB]

theorem countP_bits (hB : 0 < B) (ws : List (BitVec B)) :
    (List.range (ws.length * B)).countP (bitAt ws) = (ws.map ones).sum := by
  induction ws with
  | nil => simp
  | cons w ws ih =>
    rw [List.length_cons, Nat.add_mul, Nat.one_mul, Nat.add_comm, List.range_add, List.countP_append, List.countP_map,
      List.map_cons, List.sum_cons, ← ih]
    congr 1
    · unfold ones
      apply List.countP_congr
      intro i hi
      rw [bitAt_cons_lo w ws (List.mem_range.1 hi)]
    · apply List.countP_congr
      intro i hi
      rw [Function.comp, bitAt_cons_hi hB]

theorem count_eq (ws : List (BitVec B)) : count ws = some (ws.map ones).sum := by
  suffices ∀ acc, ws.foldlM (fun acc w => do let p ← popcount w; some (acc + p)) acc =
      some (acc + (ws.map ones).sum) by
    rw [count, this, Nat.zero_add]
  induction ws with
  | nil => intro acc; simp
  | cons w ws ih =>
    intro acc
    rw [List.foldlM_cons, popcount_eq _ w rfl]
    show List.foldlM _ (acc + ones w) ws = _
    rw [ih, List.map_cons, List.sum_cons, Nat.add_assoc]

theorem card_eq (hB : 0 < B) {N : Nat} {ws : List (BitVec B)} {f : Nat → Bool} (h : Rep B N ws f) :
    (ws.map ones).sum = card N f := by
  rw [rep_iff hB] at h
  rw [← countP_bits hB]
  have := (nwords_bounds hB N).1
  obtain ⟨d, hd⟩ := Nat.exists_eq_add_of_le (h.1 ▸ this)
  rw [hd, List.range_add, List.countP_append, List.countP_map]
  have h1 : (List.range N).countP (bitAt ws) = card N f := by
    apply List.countP_congr
    intro i hi
    rw [h.2, decide_eq_true (List.mem_range.1 hi), Bool.true_and]
  have h2 : (List.range d).countP (bitAt ws ∘ fun x => N + x) = 0 := by
    rw [List.countP_eq_zero]
    intro i _
    rw [Function.comp, h.2]; simp; omega
  rw [h1, h2, Nat.add_zero]

theorem any_iff (hB : 0 < B) (ws : List (BitVec B)) : any ws = true ↔ ∃ i, bitAt ws i = true := by
  rw [any, List.any_eq_true]
  constructor
  · rintro ⟨w, hw, hne⟩
    obtain ⟨k, hk, hkt, -⟩ := exists_lowest (bne_iff_ne.1 hne)
    obtain ⟨q, hq, rfl⟩ := List.getElem_of_mem hw
    exact ⟨q * B + k, by rw [bitAt_mk _ hk, List.getD_eq_getElem _ _ hq]; exact hkt⟩
  · rintro ⟨i, hi⟩
    unfold bitAt at hi
    by_cases hq : i / B < ws.length
    · rw [List.getD_eq_getElem _ _ hq] at hi
      refine ⟨_, List.getElem_mem hq, bne_iff_ne.2 fun e => ?_⟩
      rw [e] at hi; simp at hi
    · rw [List.getD_eq_default _ _ (by omega)] at hi; simp at hi

theorem allOnes_iff (w : BitVec B) : (w == ~~~ (0 : BitVec B)) = true ↔ ∀ r < B, w.getLsbD r = true := by
  rw [beq_iff_eq]
  constructor
  · rintro rfl r hr; simp [hr]
  · intro h
    apply BitVec.eq_of_getLsbD_eq
    intro r hr
    rw [h r hr]; simp [hr]

theorem all_eq (hB : 0 < B) {N : Nat} {ws : List (BitVec B)} {f : Nat → Bool} (h : Rep B N ws f) :
    ∃ b, all N ws = some b ∧ (b = true ↔ ∀ i < N, f i = true) := by
  rw [rep_iff hB] at h
  obtain ⟨b1, b2⟩ := nwords_bounds hB N
  rw [← h.1] at b1 b2
  rcases hcase : ws with _ | ⟨w0, rest⟩
  · rw [hcase] at b1
    simp at b1
    exact ⟨true, rfl, by simp [b1]⟩
  · have hunf : all N ws = if ws.dropLast.all (fun w => w == ~~~ (0 : BitVec B)) then
        (hiword ws).bind (fun h => (wshr (~~~ (0 : BitVec B)) (ws.length * B - N)).bind (fun m => some (h == m)))
        else some false := by subst hcase; rfl
    have hL : 1 ≤ ws.length := by rw [hcase]; simp
    rw [← hcase, hunf]
    clear hcase hunf
    have hlow : ws.dropLast.all (fun w => w == ~~~ (0 : BitVec B)) = true ↔
        ∀ i < (ws.length - 1) * B, f i = true := by
      rw [List.all_eq_true]
      constructor
      · intro ha i hi
        have hq : i / B < ws.length - 1 := (Nat.div_lt_iff_lt_mul hB).2 hi
        have := (allOnes_iff _).1 (ha (ws[i / B]'(by omega)) (by
          rw [List.mem_iff_getElem]
          exact ⟨i / B, by simpa using hq, by rw [List.getElem_dropLast]⟩)) (i % B) (Nat.mod_lt _ hB)
        have e := h.2 i
        rw [bitAt, List.getD_eq_getElem _ _ (by omega), this] at e
        have := Bool.and_eq_true_iff.1 e.symm
        exact this.2
      · intro ha w hw
        obtain ⟨q, hq, rfl⟩ := List.getElem_of_mem hw
        rw [List.length_dropLast] at hq
        refine (allOnes_iff _).2 fun r hr => ?_
        have hlt : q * B + r < (ws.length - 1) * B := by
          have : (q + 1) * B ≤ (ws.length - 1) * B := Nat.mul_le_mul_right _ (by omega)
          rw [Nat.add_mul] at this; omega
        have e := h.2 (q * B + r)
        rw [bitAt_mk _ hr, List.getD_eq_getElem _ _ (by omega), ha _ hlt] at e
        rw [List.getElem_dropLast, e]
        have : (ws.length - 1 + 1) * B = ws.length * B := by rw [Nat.sub_add_cancel hL]
        rw [Nat.add_mul] at this
        simp; omega
    have hlen : (ws.length - 1) * B + B = ws.length * B := by
      rw [← Nat.succ_mul, Nat.succ_eq_add_one, Nat.sub_add_cancel hL]
    by_cases hall : ws.dropLast.all (fun w => w == ~~~ (0 : BitVec B)) = true
    · rw [if_pos hall, hiword_eq, wshr, if_pos (by omega)]
      refine ⟨_, rfl, ?_⟩
      rw [beq_iff_eq]
      have hbit : ∀ r < B, (~~~ (0 : BitVec B) >>> (ws.length * B - N)).getLsbD r =
          decide ((ws.length - 1) * B + r < N) := by
        intro r hr
        rw [BitVec.getLsbD_ushiftRight, BitVec.getLsbD_not]
        simp; omega
      constructor
      · intro e i hi
        by_cases hi' : i < (ws.length - 1) * B
        · exact hlow.1 hall i hi'
        · have e' := h.2 i
          rw [bitAt_mk' (q := ws.length - 1) (r := i - (ws.length - 1) * B) _ (by omega) (by omega), e,
            hbit _ (by omega)] at e'
          have : (ws.length - 1) * B + (i - (ws.length - 1) * B) < N := by omega
          simpa [this, hi] using e'.symm
      · intro hf
        apply BitVec.eq_of_getLsbD_eq
        intro r hr
        have e' := h.2 ((ws.length - 1) * B + r)
        rw [bitAt_mk _ hr] at e'
        rw [hbit r hr, e']
        by_cases hn : (ws.length - 1) * B + r < N
        · simp [hn, hf _ hn]
        · simp [hn]
    · rw [if_neg hall]
      refine ⟨false, rfl, ⟨fun e => by simp at e, fun hc => ?_⟩⟩
      exact absurd (hlow.2 fun i hi => hc i (by omega)) hall

/-! ### scanning -/

theorem findFirstImpl_eq (hw : Width B) (nf : Nat) (ws : List (BitVec B)) (i : Nat) :
    (∃ p, bitAt ws p = true ∧ (∀ j < p, bitAt ws j = false) ∧
      findFirstImpl nf ws i = some ((i * B + p : Nat) : Int)) ∨
    ((∀ p, bitAt ws p = false) ∧ findFirstImpl nf ws i = some (nf : Int)) := by
  have hB : 0 < B := by obtain ⟨k, rfl⟩ := hw; exact Nat.mul_pos (by omega) (Nat.pow_pos (by omega))
  induction ws generalizing i with
  | nil => exact Or.inr ⟨bitAt_nil, rfl⟩
  | cons w ws ih =>
    by_cases h0 : w = 0
    · have hz : ∀ j < B, bitAt (w :: ws) j = false := fun j hj => by rw [bitAt_cons_lo w ws hj, h0]; simp
      have hu : findFirstImpl nf (w :: ws) i = findFirstImpl nf ws (i + 1) := by
        rw [findFirstImpl, if_neg (by simpa using h0)]
      rw [hu]
      rcases ih (i + 1) with ⟨p, h1, h2, h3⟩ | ⟨h1, h2⟩
      · refine Or.inl ⟨B + p, by rw [bitAt_cons_hi hB]; exact h1, fun j hj => ?_, by rw [h3, Nat.add_mul]; congr 2; omega⟩
        by_cases hj' : j < B
        · exact hz j hj'
        · obtain ⟨d, rfl⟩ := Nat.exists_eq_add_of_le (show B ≤ j by omega)
          rw [bitAt_cons_hi hB]; exact h2 d (by omega)
      · refine Or.inr ⟨fun p => ?_, h2⟩
        by_cases hj' : p < B
        · exact hz p hj'
        · obtain ⟨d, rfl⟩ := Nat.exists_eq_add_of_le (show B ≤ p by omega)
          rw [bitAt_cons_hi hB]; exact h1 d
    · obtain ⟨k, hk, hkt, hlow⟩ := exists_lowest h0
      refine Or.inl ⟨k, by rw [bitAt_cons_lo w ws hk]; exact hkt,
        fun j hj => by rw [bitAt_cons_lo w ws (by omega)]; exact hlow j hj, ?_⟩
      rw [findFirstImpl, if_pos h0, ctz_spec hw w ⟨by omega, hlow, fun _ => by simpa using hkt⟩]
      simp only [Option.bind_eq_bind, Option.bind_some]
      simp

theorem findFirst_eq (hw : Width B) (N : Nat) (ws : List (BitVec B)) (h0 : ws = [] → N = 0) :
    findFirst N ws = findFirstImpl N ws 0 := by
  rcases ws with _ | ⟨w, _ | ⟨w', rest⟩⟩
  · rw [h0 rfl]; rfl
  · rw [findFirst]
    by_cases h : w = 0
    · rw [if_neg (by simpa using h), findFirstImpl, if_neg (by simpa using h)]; rfl
    · obtain ⟨k, hk, hkt, hlow⟩ := exists_lowest h
      rw [if_pos h, findFirstImpl, if_pos h, ctz_spec hw w ⟨by omega, hlow, fun _ => by simpa using hkt⟩]
      simp
  · rfl

theorem findNext_eq (hw : Width B) (nf : Nat) {N : Nat} {ws : List (BitVec B)} (hl : ws.length = nwords B N)
    {prev : Nat} (hp : prev < N) :
    (∃ p, prev < p ∧ bitAt ws p = true ∧ (∀ j, prev < j → j < p → bitAt ws j = false) ∧
      findNext nf ws prev = some (p : Int)) ∨
    ((∀ p, prev < p → bitAt ws p = false) ∧ findNext nf ws prev = some (nf : Int)) := by
  have hB : 0 < B := by obtain ⟨k, rfl⟩ := hw; exact Nat.mul_pos (by omega) (Nat.pow_pos (by omega))
  have b1 := (nwords_bounds hB N).1
  rw [← hl] at b1
  rcases hcase : ws with _ | ⟨w, _ | ⟨w', rest⟩⟩
  · rw [hcase] at b1; simp at b1; omega
  · rw [findNext]
    by_cases hge : prev + 1 ≥ B
    · refine Or.inr ⟨fun p hpp => bitAt_ge _ hB (by simp; omega), by rw [if_pos hge]⟩
    · rw [if_neg hge, wshr, if_pos (by omega)]
      simp only [Option.bind_eq_bind, Option.bind_some]
      by_cases hx : w >>> (prev + 1) = 0
      · refine Or.inr ⟨fun p hpp => ?_, by rw [if_neg (by simpa using hx)]⟩
        by_cases hpB : p < B
        · rw [bitAt_cons_lo w [] hpB]
          have := congrArg (fun x => x.getLsbD (p - (prev + 1))) hx
          simp only [BitVec.getLsbD_ushiftRight] at this
          rw [show prev + 1 + (p - (prev + 1)) = p by omega] at this
          rw [this]; simp
        · exact bitAt_ge _ hB (by simp; omega)
      · obtain ⟨k, hk, hkt, hlow⟩ := exists_lowest hx
        rw [if_pos hx, ctz_spec hw _ ⟨by omega, hlow, fun _ => by simpa using hkt⟩]
        simp only [BitVec.getLsbD_ushiftRight] at hkt hlow
        have hkB : prev + 1 + k < B := by
          by_contra hc
          rw [BitVec.getLsbD_of_ge _ _ (by omega)] at hkt; simp at hkt
        refine Or.inl ⟨prev + 1 + k, by omega, by rw [bitAt_cons_lo _ _ hkB]; exact hkt, fun j hj hjk => ?_, ?_⟩
        · rw [bitAt_cons_lo _ _ (by omega)]
          have := hlow (j - (prev + 1)) (by omega)
          rwa [show prev + 1 + (j - (prev + 1)) = j by omega] at this
        · simp only [Option.bind_some]
          congr 1; omega
  · rw [← hcase]
    have hunf : findNext nf ws prev = if prev + 1 ≥ ws.length * B then some (nf : Int) else
      (rd ws (whichword B (prev + 1))).bind fun w =>
        (wshl (~~~ (0 : BitVec B)) (whichbit B (prev + 1))).bind fun m =>
          if w &&& m ≠ 0 then
            (ctz (w &&& m)).bind fun c => some ((whichword B (prev + 1) * B : Nat) + c)
          else findFirstImpl nf (ws.drop (whichword B (prev + 1) + 1)) (whichword B (prev + 1) + 1) := by
      subst hcase; rfl
    clear hcase
    rw [hunf]
    by_cases hge : prev + 1 ≥ ws.length * B
    · exact Or.inr ⟨fun p hpp => bitAt_ge _ hB (by omega), by rw [if_pos hge]⟩
    · rw [if_neg hge]
      have hq : (prev + 1) / B < ws.length := (Nat.div_lt_iff_lt_mul hB).2 (by omega)
      have hm := Nat.mod_lt (prev + 1) hB
      have hdm := Nat.div_add_mod (prev + 1) B
      rw [Nat.mul_comm] at hdm
      rw [whichword, whichbit, rd_some hq, wshl, if_pos hm]
      generalize (prev + 1) / B = q at *
      generalize (prev + 1) % B = r at *
      simp only [Option.bind_some]
      have hx : ∀ i < B, (ws.getD q 0 &&& (~~~ (0 : BitVec B)) <<< r).getLsbD i = (bitAt ws (q * B + i) && decide (r ≤ i)) := by
        intro i hi
        rw [BitVec.getLsbD_and, allOnes_shl hi, bitAt_mk _ hi]
      by_cases hx0 : ws.getD q 0 &&& (~~~ (0 : BitVec B)) <<< r = 0
      · rw [if_neg (by simpa using hx0)]
        have hz : ∀ p, prev < p → p < (q + 1) * B → bitAt ws p = false := by
          intro p h1 h2
          rw [Nat.add_mul] at h2
          have := hx (p - q * B) (by omega)
          rw [hx0, show q * B + (p - q * B) = p by omega] at this
          simp only [BitVec.getLsbD_zero, show r ≤ p - q * B by omega, decide_true, Bool.and_true] at this
          simpa using this.symm
        rcases findFirstImpl_eq hw nf (ws.drop (q + 1)) (q + 1) with ⟨p, h1, h2, h3⟩ | ⟨h1, h2⟩
        · rw [bitAt_drop hB] at h1
          refine Or.inl ⟨(q + 1) * B + p, by rw [Nat.add_mul]; omega, h1, fun j hj hjp => ?_, h3⟩
          by_cases hj' : j < (q + 1) * B
          · exact hz j hj hj'
          · have := h2 (j - (q + 1) * B) (by omega)
            rwa [bitAt_drop hB, show (q + 1) * B + (j - (q + 1) * B) = j by omega] at this
        · refine Or.inr ⟨fun p hp => ?_, h2⟩
          by_cases hj' : p < (q + 1) * B
          · exact hz p hp hj'
          · have := h1 (p - (q + 1) * B)
            rwa [bitAt_drop hB, show (q + 1) * B + (p - (q + 1) * B) = p by omega] at this
      · obtain ⟨k, hk, hkt, hlow⟩ := exists_lowest hx0
        rw [if_pos hx0, ctz_spec hw _ ⟨by omega, hlow, fun _ => by simpa using hkt⟩]
        rw [hx k hk] at hkt
        simp only [Bool.and_eq_true, decide_eq_true_eq] at hkt
        refine Or.inl ⟨q * B + k, by omega, hkt.1, fun j hj hjk => ?_, ?_⟩
        · have := hlow (j - q * B) (by omega)
          rw [hx _ (by omega), show q * B + (j - q * B) = j by omega] at this
          simpa [show r ≤ j - q * B by omega] using this
        · simp

end Bitset
end Sprout
