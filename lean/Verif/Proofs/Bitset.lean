import Verif.Model.Bitset
import Verif.Spec.Bitset
import Verif.Proofs.Bits
import Mathlib.Data.List.GetD

/-! # Helper lemmas for the bitset -/

namespace Sprout
open Spec Bitset

namespace Bitset
variable {B : Nat}

/-- bit `i` of the array -/
def bitAt (ws : List (BitVec B)) (i : Nat) : Bool := (ws.getD (i / B) 0).getLsbD (i % B)

theorem bitAt_mk (ws : List (BitVec B)) {q r : Nat} (hr : r < B) :
    bitAt ws (q * B + r) = (ws.getD q 0).getLsbD r := by
  unfold bitAt
  rw [Nat.add_comm, Nat.add_mul_div_right _ _ (by omega), Nat.add_mul_mod_self_right, Nat.div_eq_of_lt hr,
    Nat.mod_eq_of_lt hr, Nat.zero_add]

theorem bitAt_mk' (ws : List (BitVec B)) {q r i : Nat} (hr : r < B) (hi : i = q * B + r) :
    bitAt ws i = (ws.getD q 0).getLsbD r := by rw [hi, bitAt_mk _ hr]

theorem bitAt_ge (ws : List (BitVec B)) (hB : 0 < B) {i : Nat} (h : ws.length * B ≤ i) : bitAt ws i = false := by
  unfold bitAt
  have : ws.length ≤ i / B := (Nat.le_div_iff_mul_le hB).2 h
  rw [List.getD_eq_default _ _ this]; simp

theorem decomp (hB : 0 < B) (i : Nat) : ∃ q r, r < B ∧ i = q * B + r :=
  ⟨i / B, i % B, Nat.mod_lt _ hB, by rw [Nat.mul_comm]; exact (Nat.div_add_mod i B).symm⟩

theorem nwords_eq (hB : 0 < B) (N : Nat) : nwords B N = (N + B - 1) / B := by
  unfold nwords
  obtain ⟨q, r, hr, rfl⟩ := decomp hB N
  have e1 : (q * B + r) / B = q := by
    rw [Nat.add_comm, Nat.add_mul_div_right _ _ hB, Nat.div_eq_of_lt hr, Nat.zero_add]
  have e2 : (q * B + r) % B = r := by rw [Nat.add_comm, Nat.add_mul_mod_self_right, Nat.mod_eq_of_lt hr]
  rw [e1, e2]
  by_cases h : r = 0
  · subst h
    rw [if_pos rfl, show q * B + 0 + B - 1 = (B - 1) + q * B by omega, Nat.add_mul_div_right _ _ hB,
      Nat.div_eq_of_lt (by omega)]; omega
  · rw [if_neg h, show q * B + r + B - 1 = (r - 1) + (q + 1) * B by rw [Nat.add_mul]; omega,
      Nat.add_mul_div_right _ _ hB, Nat.div_eq_of_lt (by omega)]; omega

theorem nwords_bounds (hB : 0 < B) (N : Nat) : N ≤ nwords B N * B ∧ nwords B N * B < N + B := by
  rw [nwords_eq hB]
  have h1 := Nat.div_add_mod (N + B - 1) B
  have h2 := Nat.mod_lt (N + B - 1) hB
  rw [Nat.mul_comm] at h1
  generalize (N + B - 1) / B * B = x at *
  omega

theorem rep_iff (hB : 0 < B) {N : Nat} {ws : List (BitVec B)} {f : Nat → Bool} :
    Rep B N ws f ↔ ws.length = nwords B N ∧ ∀ i, bitAt ws i = (decide (i < N) && f i) := by
  unfold Rep
  rw [← nwords_eq hB]
  refine and_congr_right fun hl => ⟨fun h i => ?_, fun h q w hw r hr => ?_⟩
  · obtain ⟨q, r, hr, rfl⟩ := decomp hB i
    rw [bitAt_mk _ hr]
    by_cases hq : q < ws.length
    · have := h q ws[q] (List.getElem?_eq_getElem hq) r hr
      rw [List.getD_eq_getElem _ _ hq]; exact this
    · rw [List.getD_eq_default _ _ (by omega)]
      have h1 := (nwords_bounds hB N).1
      have h2 : nwords B N * B ≤ q * B := Nat.mul_le_mul_right _ (by omega)
      have : ¬ (q * B + r < N) := by omega
      simp [this]
  · have hi := h (q * B + r)
    rw [bitAt_mk _ hr] at hi
    rw [← hi, List.getD_eq_getElem?_getD, hw]; rfl

theorem getD_set (ws : List (BitVec B)) (p q : Nat) (v : BitVec B) (hp : p < ws.length) :
    (ws.set p v).getD q 0 = if q = p then v else ws.getD q 0 := by
  simp only [List.getD_eq_getElem?_getD, List.getElem?_set]
  grind

theorem pos_word (hB : 0 < B) {N : Nat} {pos n : Nat} (hl : n = nwords B N) (hp : pos < N) :
    pos / B < n := by
  rw [Nat.div_lt_iff_lt_mul hB, hl]
  have := (nwords_bounds hB N).1
  omega

theorem getword_eq {ws : List (BitVec B)} {pos : Nat} (h : pos / B < ws.length) :
    getword ws pos = some (ws.getD (pos / B) 0) := by
  rcases ws with _ | ⟨w, _ | ⟨w', rest⟩⟩
  · simp at h
  · simp only [List.length_cons, List.length_nil, Nat.zero_add] at h
    rw [Nat.lt_one_iff.mp h]; rfl
  · rw [getword, rd, whichword, List.getElem?_eq_getElem h, List.getD_eq_getElem _ _ h]
    · simp
    · simp

theorem setword_eq {ws : List (BitVec B)} {pos : Nat} {v : BitVec B} (h : pos / B < ws.length) :
    setword ws pos v = some (ws.set (pos / B) v) := by
  rcases ws with _ | ⟨w, _ | ⟨w', rest⟩⟩
  · simp at h
  · simp only [List.length_cons, List.length_nil, Nat.zero_add] at h
    rw [Nat.lt_one_iff.mp h]; rfl
  · rw [setword, wr, whichword, if_pos h]
    · simp
    · simp

theorem maskbit_eq (hB : 0 < B) (pos : Nat) : maskbit B pos = some ((1 : BitVec B) <<< (pos % B)) := by
  rw [maskbit, wshl, whichbit, if_pos (Nat.mod_lt _ hB)]

theorem mask_getLsbD {s r : Nat} (hr : r < B) : ((1 : BitVec B) <<< s).getLsbD r = decide (r = s) := by
  rw [BitVec.getLsbD_shiftLeft]
  have : (1 : BitVec B).getLsbD (r - s) = decide (r - s = 0) := by
    rw [show (1 : BitVec B) = 1#B from rfl, BitVec.getLsbD_one]
    by_cases h : r - s = 0 <;> simp [h]
    omega
  rw [this]
  simp only [hr, decide_true, Bool.true_and]
  by_cases h : r = s <;> by_cases h' : r < s <;> simp [h, h'] <;> omega

/-- the effect of replacing one word on the bits -/
theorem bitAt_set (hB : 0 < B) {ws : List (BitVec B)} {pos : Nat} (h : pos / B < ws.length) {v : BitVec B} {b : Bool}
    (hv : ∀ r < B, v.getLsbD r = if r = pos % B then b else (ws.getD (pos / B) 0).getLsbD r) (i : Nat) :
    bitAt (ws.set (pos / B) v) i = if i = pos then b else bitAt ws i := by
  unfold bitAt
  rw [getD_set _ _ _ _ h]
  by_cases hq : i / B = pos / B
  · rw [if_pos hq, hv _ (Nat.mod_lt _ hB), hq]
    have : i % B = pos % B ↔ i = pos := by
      constructor
      · intro hm
        rw [← Nat.div_add_mod i B, ← Nat.div_add_mod pos B, hq, hm]
      · rintro rfl; rfl
    simp only [this]
  · rw [if_neg hq, if_neg (fun e => hq (by rw [e]))]

theorem set_mask_or (w : BitVec B) {s : Nat} : ∀ r < B, (w ||| (1 : BitVec B) <<< s).getLsbD r =
    if r = s then true else w.getLsbD r := by
  intro r hr
  rw [BitVec.getLsbD_or, mask_getLsbD hr]
  by_cases h : r = s <;> simp [h]

theorem set_mask_andnot (w : BitVec B) {s : Nat} : ∀ r < B, (w &&& ~~~ ((1 : BitVec B) <<< s)).getLsbD r =
    if r = s then false else w.getLsbD r := by
  intro r hr
  rw [BitVec.getLsbD_and, BitVec.getLsbD_not, mask_getLsbD hr]
  by_cases h : r = s <;> simp [h, hr]

theorem set_mask_xor (w : BitVec B) {s : Nat} : ∀ r < B, (w ^^^ (1 : BitVec B) <<< s).getLsbD r =
    if r = s then !w.getLsbD s else w.getLsbD r := by
  intro r hr
  rw [BitVec.getLsbD_xor, mask_getLsbD hr]
  by_cases h : r = s <;> simp [h]

theorem and_mask_ne (w : BitVec B) {s : Nat} (hs : s < B) :
    (w &&& (1 : BitVec B) <<< s != 0) = w.getLsbD s := by
  cases hb : w.getLsbD s
  · have : w &&& (1 : BitVec B) <<< s = 0 := by
      apply BitVec.eq_of_getLsbD_eq
      intro i hi
      rw [BitVec.getLsbD_and, mask_getLsbD hi]
      by_cases h : i = s
      · simp [h, hb]
      · simp [h]
    rw [this]; exact bne_self_eq_false _
  · simp only [bne_iff_ne, ne_eq]
    intro h
    have := congrArg (fun x => x.getLsbD s) h
    simp only [BitVec.getLsbD_and, mask_getLsbD hs, hb] at this
    simp at this

theorem uncheckedTest_eq (hB : 0 < B) {ws : List (BitVec B)} {pos : Nat} (h : pos / B < ws.length) :
    uncheckedTest ws pos = some (bitAt ws pos) := by
  rw [uncheckedTest, getword_eq h, maskbit_eq hB]
  simp only [Option.bind_eq_bind, Option.bind_some]
  rw [and_mask_ne _ (Nat.mod_lt _ hB)]; rfl

/-! ### sanitize -/

theorem hiword_eq {ws : List (BitVec B)} : hiword ws = some (ws.getD (ws.length - 1) 0) := by
  rcases ws with _ | ⟨w, _ | ⟨w', rest⟩⟩
  · rfl
  · rfl
  · rw [hiword, rd, List.getElem?_eq_getElem (by simp), List.getD_eq_getElem _ _ (by simp)]
    · simp
    · simp

theorem setHiword_eq {ws : List (BitVec B)} {v : BitVec B} : setHiword ws v = some (ws.set (ws.length - 1) v) := by
  rcases ws with _ | ⟨w, _ | ⟨w', rest⟩⟩
  · rfl
  · rfl
  · rw [setHiword, wr, if_pos (by simp)]
    · simp
    · simp

theorem allOnes_shl {s r : Nat} (hr : r < B) : ((~~~ (0 : BitVec B)) <<< s).getLsbD r = decide (s ≤ r) := by
  rw [BitVec.getLsbD_shiftLeft, BitVec.getLsbD_not]
  by_cases h : s ≤ r
  · simp [hr, h, show ¬ r < s by omega, show r - s < B by omega]
  · simp [hr, h]

theorem sanitizeWord_eq (hB : 0 < B) (N : Nat) (v : BitVec B) : ∃ v', sanitizeWord (N % B) v = some v' ∧
    ∀ r < B, v'.getLsbD r = (v.getLsbD r && (decide (N % B = 0) || decide (r < N % B))) := by
  unfold sanitizeWord
  by_cases h : N % B = 0
  · exact ⟨v, by rw [if_pos h], fun r hr => by simp [h]⟩
  · rw [if_neg h, wshl, if_pos (Nat.mod_lt _ hB)]
    refine ⟨_, rfl, fun r hr => ?_⟩
    rw [BitVec.getLsbD_and, BitVec.getLsbD_not, allOnes_shl hr]
    simp only [hr, decide_true, Bool.true_and, h, decide_false, Bool.false_or]
    congr 1
    by_cases h' : N % B ≤ r <;> simp [h'] <;> omega

theorem sanitize_eq (hB : 0 < B) {N : Nat} {ws : List (BitVec B)} (hl : ws.length = nwords B N) :
    ∃ ws', sanitize N ws = some ws' ∧ ws'.length = nwords B N ∧
      ∀ i, bitAt ws' i = (decide (i < N) && bitAt ws i) := by
  obtain ⟨v', hv', hbits⟩ := sanitizeWord_eq hB N (ws.getD (ws.length - 1) 0)
  refine ⟨ws.set (ws.length - 1) v', ?_, by simpa using hl, fun i => ?_⟩
  · rw [sanitize, hiword_eq]
    simp only [Option.bind_eq_bind, Option.bind_some]
    rw [hv']
    simp only [Option.bind_some]
    rw [setHiword_eq]
  · obtain ⟨q, r, hr, rfl⟩ := decomp hB i
    obtain ⟨b1, b2⟩ := nwords_bounds hB N
    by_cases hq : q < ws.length
    · rw [bitAt_mk _ hr, bitAt_mk _ hr, getD_set _ _ _ _ (by omega)]
      by_cases hlast : q = ws.length - 1
      · rw [if_pos hlast, hbits r hr, hlast, Bool.and_comm]
        congr 1
        have hn : nwords B N = q + 1 := by omega
        have key : (decide (N % B = 0) || decide (r < N % B)) = decide (q * B + r < N) := by
          rw [hn, Nat.add_mul] at b1 b2
          by_cases hz : N = (q + 1) * B
          · have : N % B = 0 := by rw [hz]; exact Nat.mul_mod_left _ _
            rw [Nat.add_mul] at hz
            simp only [this, decide_true, Bool.true_or]
            simp; omega
          · rw [Nat.add_mul] at hz
            have : N % B = N - q * B := by
              have : N = (N - q * B) + q * B := by omega
              rw [this, Nat.add_mul_mod_self_right, Nat.mod_eq_of_lt (by omega)]
              omega
            rw [this]
            by_cases h0 : q * B + r < N
            · simp [h0]; omega
            · simp [h0]; omega
        rw [key, hlast]
      · rw [if_neg hlast]
        have : (q + 1 + 1) * B ≤ nwords B N * B := Nat.mul_le_mul_right _ (by omega)
        rw [Nat.add_mul, Nat.add_mul] at this
        have : q * B + r < N := by omega
        simp [this]
    · have : ws.length * B ≤ q * B := Nat.mul_le_mul_right _ (by omega)
      rw [bitAt_ge _ hB (by simp; omega), bitAt_ge _ hB (by omega), Bool.and_false]

/-! ### elementwise loops -/

theorem wordLoop_eq (op : BitVec B → BitVec B → BitVec B) (xs ws0 : List (BitVec B)) (hx : xs.length = ws0.length)
    (k i : Nat) (ws : List (BitVec B)) (hk : i + k = ws0.length) (hl : ws.length = ws0.length)
    (h1 : ∀ j < i, ws[j]? = (List.zipWith op ws0 xs)[j]?) (h2 : ∀ j, i ≤ j → ws[j]? = ws0[j]?) :
    wordLoop op ws xs i ws0.length = some (List.zipWith op ws0 xs) := by
  induction k generalizing i ws with
  | zero =>
    rw [wordLoop, if_neg (by omega)]
    congr 1
    apply List.ext_getElem?
    intro j
    by_cases hj : j < i
    · exact h1 j hj
    · rw [List.getElem?_eq_none (by omega), List.getElem?_eq_none (by simp; omega)]
  | succ k ih =>
    rw [wordLoop, if_pos (by omega), rd, rd, h2 i (Nat.le_refl _), List.getElem?_eq_getElem (by omega),
      List.getElem?_eq_getElem (l := xs) (by omega)]
    simp only [Option.bind_eq_bind, Option.bind_some]
    rw [wr, if_pos (by omega)]
    simp only [Option.bind_some]
    refine ih _ _ (by omega) (by simpa using hl) (fun j hj => ?_) (fun j hj => ?_)
    · rw [List.getElem?_set]
      by_cases hji : i = j
      · subst hji
        rw [if_pos rfl, if_pos (by omega), List.getElem?_zipWith, List.getElem?_eq_getElem (by omega),
          List.getElem?_eq_getElem (l := xs) (by omega)]
      · rw [if_neg hji]; exact h1 j (by omega)
    · rw [List.getElem?_set_ne (by omega)]; exact h2 j (by omega)

theorem opAssign_eq (op : BitVec B → BitVec B → BitVec B) {ws xs : List (BitVec B)} (h : xs.length = ws.length) :
    opAssign op ws xs = some (op2 op ws xs) :=
  wordLoop_eq op xs ws h ws.length 0 ws (by omega) rfl (by simp) (by simp)

theorem flipLoop_eq (ws0 : List (BitVec B))
    (k i : Nat) (ws : List (BitVec B)) (hk : i + k = ws0.length) (hl : ws.length = ws0.length)
    (h1 : ∀ j < i, ws[j]? = (ws0.map (~~~ ·))[j]?) (h2 : ∀ j, i ≤ j → ws[j]? = ws0[j]?) :
    flipLoop ws i ws0.length = some (ws0.map (~~~ ·)) := by
  induction k generalizing i ws with
  | zero =>
    rw [flipLoop, if_neg (by omega)]
    congr 1
    apply List.ext_getElem?
    intro j
    by_cases hj : j < i
    · exact h1 j hj
    · rw [List.getElem?_eq_none (by omega), List.getElem?_eq_none (by simp; omega)]
  | succ k ih =>
    rw [flipLoop, if_pos (by omega), rd, h2 i (Nat.le_refl _), List.getElem?_eq_getElem (by omega)]
    simp only [Option.bind_eq_bind, Option.bind_some]
    rw [wr, if_pos (by omega)]
    simp only [Option.bind_some]
    refine ih _ _ (by omega) (by simpa using hl) (fun j hj => ?_) (fun j hj => ?_)
    · rw [List.getElem?_set]
      by_cases hji : i = j
      · subst hji
        rw [if_pos rfl, if_pos (by omega), List.getElem?_map, List.getElem?_eq_getElem (by omega)]; rfl
      · rw [if_neg hji]; exact h1 j (by omega)
    · rw [List.getElem?_set_ne (by omega)]; exact h2 j (by omega)

theorem flipAll_eq (N : Nat) (ws : List (BitVec B)) : flipAll N ws = complement N ws := by
  rw [flipAll, flipLoop_eq ws ws.length 0 ws (by omega) rfl (by simp) (by simp)]; rfl

theorem bitAt_zipWith (op : BitVec B → BitVec B → BitVec B) (g : Bool → Bool → Bool) (hB : 0 < B)
    (hop : ∀ x y r, r < B → (op x y).getLsbD r = g (x.getLsbD r) (y.getLsbD r)) {ws xs : List (BitVec B)}
    (h : xs.length = ws.length) {i : Nat} (hi : i < ws.length * B) :
    bitAt (List.zipWith op ws xs) i = g (bitAt ws i) (bitAt xs i) := by
  have hq : i / B < ws.length := (Nat.div_lt_iff_lt_mul hB).2 hi
  unfold bitAt
  rw [List.getD_eq_getElem _ _ (by simp; omega), List.getD_eq_getElem _ _ hq, List.getD_eq_getElem _ _ (by omega),
    List.getElem_zipWith, hop _ _ _ (Nat.mod_lt _ hB)]

theorem bitAt_map (op : BitVec B → BitVec B) (g : Bool → Bool) (hB : 0 < B)
    (hop : ∀ x r, r < B → (op x).getLsbD r = g (x.getLsbD r)) {ws : List (BitVec B)}
    {i : Nat} (hi : i < ws.length * B) :
    bitAt (ws.map op) i = g (bitAt ws i) := by
  have hq : i / B < ws.length := (Nat.div_lt_iff_lt_mul hB).2 hi
  unfold bitAt
  rw [List.getD_eq_getElem _ _ (by simp; omega), List.getD_eq_getElem _ _ hq, List.getElem_map,
    hop _ _ (Nat.mod_lt _ hB)]

theorem bitAt_replicate_zero (n i : Nat) : bitAt (List.replicate n (0 : BitVec B)) i = false := by
  unfold bitAt
  rw [List.getD_eq_getElem?_getD, List.getElem?_replicate]
  split <;> simp

theorem bitAt_resetAll (ws : List (BitVec B)) (i : Nat) : bitAt (resetAll ws) i = false := by
  rw [resetAll, List.map_const', bitAt_replicate_zero]

end Bitset
end Sprout
