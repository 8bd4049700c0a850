import Verif.Proofs.Bitset

/-!
# C26: bitset operations act pointwise

For every word size `B > 0` and every size `N`. `Spec.Rep B N ws f` says that the words `ws` represent the bit vector `f`
with the unused bits of the last word zero. Every operation, applied to representations, returns the representation of
the pointwise result (so the unused bits stay zero), and `test`, `operator[]` and `==` depend on the represented vector
alone.
-/

namespace Sprout
open Spec Bitset

variable {B N : Nat} {ws xs : List (BitVec B)} {f g : Nat → Bool}

/-- the default constructor: all zero -/
theorem C26_default (hB : 0 < B) : Rep B N (List.replicate (nwords B N) 0) (fun _ => false) := by
  rw [rep_iff hB]
  exact ⟨by simp, fun i => by rw [bitAt_replicate_zero]; simp⟩

/-- `test` returns bit `pos`, and throws `out_of_range` exactly if `pos ≥ N` -/
theorem C26_test (hB : 0 < B) (h : Rep B N ws f) (pos : Nat) :
    Bitset.test N ws pos = some (if pos ≥ N then .throw .outOfRange else .ret (f pos)) := by
  rw [rep_iff hB] at h
  unfold Bitset.test
  by_cases hp : pos ≥ N
  · rw [if_pos hp, if_pos hp]
  · rw [if_neg hp, if_neg hp, uncheckedTest_eq hB (pos_word hB h.1 (by omega)), h.2 pos]
    simp only [Option.bind_eq_bind, Option.bind_some]
    simp; omega

/-- `operator[] const` -/
theorem C26_index (hB : 0 < B) (h : Rep B N ws f) {pos : Nat} (hp : pos < N) :
    uncheckedTest ws pos = some (f pos) := by
  rw [rep_iff hB] at h
  rw [uncheckedTest_eq hB (pos_word hB h.1 hp), h.2 pos]
  simp [hp]

theorem rep_update (hB : 0 < B) (h : Rep B N ws f) {pos : Nat} (hp : pos < N) {v : BitVec B} {b : Bool}
    (hv : ∀ r < B, v.getLsbD r = if r = pos % B then b else (ws.getD (pos / B) 0).getLsbD r) :
    Rep B N (ws.set (pos / B) v) (fun i => if i = pos then b else f i) := by
  rw [rep_iff hB] at h ⊢
  refine ⟨by simpa using h.1, fun i => ?_⟩
  rw [bitAt_set hB (pos_word hB h.1 hp) hv, h.2 i]
  by_cases hi : i = pos
  · simp [hi, hp]
  · simp [hi]

/-- `set(pos, val)` -/
theorem C26_set (hB : 0 < B) (h : Rep B N ws f) (pos : Nat) (val : Bool) :
    (pos ≥ N → Bitset.set N ws pos val = some (.throw .outOfRange)) ∧
    (pos < N → ∃ ws', Bitset.set N ws pos val = some (.ret ws') ∧
      Rep B N ws' (fun i => if i = pos then val else f i)) := by
  refine ⟨fun hp => by rw [Bitset.set, if_pos hp], fun hp => ?_⟩
  have hw := pos_word hB ((rep_iff hB).1 h).1 hp
  rw [Bitset.set, if_neg (by omega), getword_eq hw, maskbit_eq hB]
  simp only [Option.bind_eq_bind, Option.bind_some]
  rw [setword_eq hw]
  refine ⟨_, rfl, rep_update hB h hp ?_⟩
  cases val
  · exact set_mask_andnot _
  · exact set_mask_or _

/-- `reset(pos)` -/
theorem C26_reset (hB : 0 < B) (h : Rep B N ws f) (pos : Nat) :
    (pos ≥ N → Bitset.reset N ws pos = some (.throw .outOfRange)) ∧
    (pos < N → ∃ ws', Bitset.reset N ws pos = some (.ret ws') ∧
      Rep B N ws' (fun i => if i = pos then false else f i)) := by
  refine ⟨fun hp => by rw [Bitset.reset, if_pos hp], fun hp => ?_⟩
  have hw := pos_word hB ((rep_iff hB).1 h).1 hp
  rw [Bitset.reset, if_neg (by omega), getword_eq hw, maskbit_eq hB]
  simp only [Option.bind_eq_bind, Option.bind_some]
  rw [setword_eq hw]
  exact ⟨_, rfl, rep_update hB h hp (set_mask_andnot _)⟩

/-- `flip(pos)` -/
theorem C26_flip (hB : 0 < B) (h : Rep B N ws f) (pos : Nat) :
    (pos ≥ N → Bitset.flip N ws pos = some (.throw .outOfRange)) ∧
    (pos < N → ∃ ws', Bitset.flip N ws pos = some (.ret ws') ∧
      Rep B N ws' (fun i => if i = pos then !f i else f i)) := by
  refine ⟨fun hp => by rw [Bitset.flip, if_pos hp], fun hp => ?_⟩
  have hw := pos_word hB ((rep_iff hB).1 h).1 hp
  rw [Bitset.flip, if_neg (by omega), getword_eq hw, maskbit_eq hB]
  simp only [Option.bind_eq_bind, Option.bind_some]
  rw [setword_eq hw]
  refine ⟨_, rfl, ?_⟩
  have := rep_update hB h hp (set_mask_xor (ws.getD (pos / B) 0) (s := pos % B))
  have e : (ws.getD (pos / B) 0).getLsbD (pos % B) = f pos := by
    have := ((rep_iff hB).1 h).2 pos
    simpa [bitAt, hp] using this
  rw [e] at this
  have e2 : (fun i => if i = pos then !f i else f i) = (fun i => if i = pos then !f pos else f i) := by
    funext i; by_cases hi : i = pos <;> simp [hi]
  rw [e2]; exact this

/-- assignment through `b[pos]` -/
theorem C26_reference_assign (hB : 0 < B) (h : Rep B N ws f) {pos : Nat} (hp : pos < N) (x : Bool) :
    ∃ ws', refAssign ws pos x = some ws' ∧ Rep B N ws' (fun i => if i = pos then x else f i) := by
  have hw := pos_word hB ((rep_iff hB).1 h).1 hp
  rw [refAssign, getword_eq hw, maskbit_eq hB, whichbit, Nat.mod_mod]
  simp only [Option.bind_eq_bind, Option.bind_some]
  rw [setword_eq hw]
  refine ⟨_, rfl, rep_update hB h hp ?_⟩
  cases x
  · exact set_mask_andnot _
  · exact set_mask_or _

theorem rep_op2 (hB : 0 < B) (op : BitVec B → BitVec B → BitVec B) (o : Bool → Bool → Bool) (ho : o false false = false)
    (hop : ∀ x y r, r < B → (op x y).getLsbD r = o (x.getLsbD r) (y.getLsbD r))
    (h : Rep B N ws f) (h' : Rep B N xs g) : Rep B N (op2 op ws xs) (fun i => o (f i) (g i)) := by
  rw [rep_iff hB] at h h' ⊢
  have hl : xs.length = ws.length := by rw [h.1, h'.1]
  refine ⟨by simp [op2, hl, h.1], fun i => ?_⟩
  by_cases hi : i < ws.length * B
  · rw [op2, bitAt_zipWith op o hB hop hl hi, h.2, h'.2]
    by_cases hn : i < N <;> simp [hn, ho]
  · have : N ≤ ws.length * B := by rw [h.1]; exact (nwords_bounds hB N).1
    rw [bitAt_ge _ hB (by simp [op2, hl]; omega)]
    simp; omega

/-- `&` and `&=` -/
theorem C26_and (hB : 0 < B) (h : Rep B N ws f) (h' : Rep B N xs g) :
    Rep B N (op2 (· &&& ·) ws xs) (fun i => f i && g i) ∧
      opAssign (· &&& ·) ws xs = some (op2 (· &&& ·) ws xs) :=
  ⟨rep_op2 hB _ _ rfl (by simp) h h', opAssign_eq _ (by rw [h.1, h'.1])⟩

/-- `|` and `|=` -/
theorem C26_or (hB : 0 < B) (h : Rep B N ws f) (h' : Rep B N xs g) :
    Rep B N (op2 (· ||| ·) ws xs) (fun i => f i || g i) ∧
      opAssign (· ||| ·) ws xs = some (op2 (· ||| ·) ws xs) :=
  ⟨rep_op2 hB _ _ rfl (by simp) h h', opAssign_eq _ (by rw [h.1, h'.1])⟩

/-- `^` and `^=` -/
theorem C26_xor (hB : 0 < B) (h : Rep B N ws f) (h' : Rep B N xs g) :
    Rep B N (op2 (· ^^^ ·) ws xs) (fun i => f i ^^ g i) ∧
      opAssign (· ^^^ ·) ws xs = some (op2 (· ^^^ ·) ws xs) :=
  ⟨rep_op2 hB _ _ rfl (by simp) h h', opAssign_eq _ (by rw [h.1, h'.1])⟩

theorem rep_sanitized (hB : 0 < B) {ys : List (BitVec B)} (hl : ys.length = nwords B N)
    (hb : ∀ i < ys.length * B, i < N → bitAt ys i = f i) : ∃ ws', sanitize N ys = some ws' ∧ Rep B N ws' f := by
  obtain ⟨ws', h1, h2, h3⟩ := sanitize_eq hB hl
  refine ⟨ws', h1, (rep_iff hB).2 ⟨h2, fun i => ?_⟩⟩
  rw [h3]
  by_cases hi : i < N
  · have := (nwords_bounds hB N).1
    rw [hb i (by rw [hl]; omega) hi]
  · simp [hi]

/-- `~` and `flip()`, both versions -/
theorem C26_not (hB : 0 < B) (h : Rep B N ws f) :
    ∃ ws', complement N ws = some ws' ∧ flipAll N ws = some ws' ∧ Rep B N ws' (fun i => !f i) := by
  rw [rep_iff hB] at h
  obtain ⟨ws', h1, h2⟩ := rep_sanitized (N := N) (f := fun i => !f i) hB (ys := ws.map (~~~ ·)) (by simpa using h.1)
    (fun i hi hn => by
      rw [bitAt_map _ (! ·) hB (by intro x r hr; simp [hr]) (by simpa using hi), h.2]; simp [hn])
  exact ⟨ws', h1, by rw [flipAll_eq]; exact h1, h2⟩

/-- `set()` -/
theorem C26_set_all (hB : 0 < B) (h : Rep B N ws f) :
    ∃ ws', setAll N ws = some ws' ∧ Rep B N ws' (fun _ => true) := by
  rw [rep_iff hB] at h
  exact rep_sanitized hB (by simpa using h.1) (fun i hi hn => by
    rw [bitAt_map _ (fun _ => true) hB (by simp) (by simpa using hi)])

/-- `reset()` -/
theorem C26_reset_all (hB : 0 < B) (h : Rep B N ws f) : Rep B N (resetAll ws) (fun _ => false) := by
  rw [rep_iff hB] at h ⊢
  exact ⟨by simpa [resetAll] using h.1, fun i => by rw [bitAt_resetAll]; simp⟩

/-- `==` holds exactly if the represented vectors agree on the positions `< N`: the unused bits are not observable -/
theorem C26_eq (hB : 0 < B) (h : Rep B N ws f) (h' : Rep B N xs g) :
    Bitset.eq ws xs = true ↔ ∀ i < N, f i = g i := by
  rw [rep_iff hB] at h h'
  rw [Bitset.eq, decide_eq_true_iff]
  constructor
  · rintro rfl i hi
    have := (h.2 i).symm.trans (h'.2 i)
    simpa [hi] using this
  · intro hfg
    apply List.ext_getElem (by rw [h.1, h'.1])
    intro q hq hq'
    apply BitVec.eq_of_getLsbD_eq
    intro r hr
    have e1 := h.2 (q * B + r)
    have e2 := h'.2 (q * B + r)
    rw [bitAt_mk _ hr, List.getD_eq_getElem _ _ hq] at e1
    rw [bitAt_mk _ hr, List.getD_eq_getElem _ _ hq'] at e2
    rw [e1, e2]
    by_cases hn : q * B + r < N
    · rw [hfg _ hn]
    · simp [hn]

/-- non-vacuity: a 70-bit bitset (two 64-bit words) holding the bits 3 and 69; `~` clears the 58 unused bits -/
example : Rep 64 70 [8#64, 32#64] (fun i => i == 3 || i == 69) ∧
    complement 70 [8#64, 32#64] = some [0xFFFFFFFFFFFFFFF7#64, 31#64] ∧
    Bitset.test 70 [8#64, 32#64] 69 = some (.ret true) ∧
    Bitset.test 70 [8#64, 32#64] 70 = some (.throw .outOfRange) ∧
    Bitset.set 70 [8#64, 32#64] 64 true = some (.ret [8#64, 33#64]) := by
  refine ⟨⟨by decide, fun q w hw r hr => ?_⟩, by decide +kernel, by decide +kernel, by decide, by decide +kernel⟩
  have hq : q < 2 := (List.getElem?_eq_some_iff.1 hw).1
  have e : ∀ q < 2, ∀ r < 64, (([8#64, 32#64] : List (BitVec 64)).getD q 0).getLsbD r =
    (decide (q * 64 + r < 70) && (q * 64 + r == 3 || q * 64 + r == 69)) := by decide +kernel
  have := e q hq r hr
  rw [List.getD_eq_getElem?_getD, hw] at this
  exact this

end Sprout
