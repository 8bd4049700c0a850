import Verif.Props.C55

/-!
# C56: writing a Mersenne twister engine to a stream and reading it back

The standard asks that an engine written by `operator<<` and read by `operator>>` has the same future. Refuted: the first word is written
twice, and of the `n` words only `i` follow it (`i` is the position in the block). So what is written has `i + 1` numbers, too few to be read if
`i + 1 < n`; and from a fresh engine, or one whose block is used up, all words move up by one place.
-/

namespace Sprout
open Mt Spec

/-- the full statement: whatever an uninitialised array contains -/
def C56_statement : Prop := ∀ (W : Nat) (P : Par W), 32 ≤ W → P.Fits → P.Inv → ∀ s k e junk, MtReached P s k e → junk.length = P.n →
  ∃ out e', write P e junk = some out ∧ read P out = some e' ∧ MtSameFuture P e e'

/-- the number of words written is one more than the position in the block -/
theorem C56_length {W : Nat} (P : Par W) (e : Eng W) (junk out : List (BitVec W)) (h : write P e junk = some out) : out.length = e.i + 1 := by
  unfold write at h
  simp only [Option.bind_eq_bind] at h
  obtain ⟨data, -, h⟩ := Option.bind_eq_some_iff.1 h
  obtain ⟨data2, -, h⟩ := Option.bind_eq_some_iff.1 h
  obtain ⟨d0, -, h⟩ := Option.bind_eq_some_iff.1 h
  have gen : ∀ k a (acc : List (BitVec W)), forLoop a (a + k) (fun out i => (rd data2 i).bind fun v => some (out ++ [v])) acc = some out →
      out.length = acc.length + k := by
    intro k
    induction k with
    | zero => intro a acc h; rw [forLoop_nil (by omega)] at h; cases h; rfl
    | succ k ih =>
      intro a acc h
      rw [forLoop_cons (by omega)] at h
      obtain ⟨acc', h1, h⟩ := Option.bind_eq_some_iff.1 h
      obtain ⟨v, -, h1⟩ := Option.bind_eq_some_iff.1 h1
      cases h1
      rw [show a + (k + 1) = a + 1 + k by omega] at h
      rw [ih (a + 1) _ h]
      simp
      omega
  have := gen e.i 0 [d0] (by rwa [Nat.zero_add])
  rw [this]
  simp
  omega

/-- too few words: nothing can be read back -/
theorem C56_short {W : Nat} (P : Par W) (e : Eng W) (junk out : List (BitVec W)) (hi : e.i + 1 < P.n) (h : write P e junk = some out) :
    read P out = none := by
  unfold Mt.read
  rw [if_neg (by rw [C56_length P e junk out h]; omega)]

/-- an engine at the end of its block: all words are written, after one more copy of the first one -/
theorem C56_full {W : Nat} (P : Par W) (x junk : List (BitVec W)) (hn : 0 < P.n) (hx : x.length = P.n) (hj : junk.length = P.n) :
    ∃ x0, x[0]? = some x0 ∧ write P ⟨x, P.n⟩ junk = some (x0 :: x) ∧ read P (x0 :: x) = some ⟨x0 :: x.take (P.n - 1), P.n⟩ := by
  refine ⟨x[0], List.getElem?_eq_getElem _, ?_, ?_⟩
  · unfold write
    simp only [Option.bind_eq_bind]
    obtain ⟨data, h1, h2, h3⟩ := forLoop_inv (I := fun J (data : List (BitVec W)) => data.length = P.n ∧ data.take J = x.take J) (Nat.zero_le P.n)
      (fun data i => (rd x i).bind fun v => wr data (i + P.n - P.n) v) (by
        rintro j s _ hj ⟨a, b⟩
        rw [rd_eq (show j < x.length by omega), Option.bind_some, Nat.add_sub_cancel, wr_eq (show j < s.length by omega)]
        refine ⟨_, rfl, by simpa using a, ?_⟩
        rw [List.take_succ, List.take_succ, List.getElem?_set_self (by omega), List.getElem?_eq_getElem (show j < x.length by omega),
          List.take_set_of_le (Nat.le_refl _), b]) junk ⟨hj, by simp⟩
    rw [h1]
    have hd : data = x := by
      rwa [List.take_of_length_le (by omega), List.take_of_length_le (by omega)] at h3
    subst hd
    simp only [ne_eq, not_true_eq_false, if_false, Option.bind_some]
    rw [rd_eq (show 0 < data.length by omega), Option.bind_some]
    obtain ⟨out, g1, g2⟩ := forLoop_inv (I := fun J (out : List (BitVec W)) => out = data[0] :: data.take J) (Nat.zero_le P.n)
      (fun out i => (rd data i).bind fun v => some (out ++ [v])) (by
        rintro j s _ hj rfl
        rw [rd_eq (show j < data.length by omega), Option.bind_some]
        refine ⟨_, rfl, ?_⟩
        rw [List.take_succ, List.getElem?_eq_getElem (show j < data.length by omega)]
        rfl) [data[0]] (by simp)
    rw [g1, g2, List.take_of_length_le (by omega)]
  · unfold Mt.read
    rw [if_pos (by simp; omega)]
    obtain ⟨m, hm⟩ : ∃ m, P.n = m + 1 := ⟨P.n - 1, by omega⟩
    rw [hm, List.take_succ_cons, Nat.add_sub_cancel]

/-- so the same engine comes back only if all its words are the same -/
theorem C56_full_iff {W : Nat} (P : Par W) (x junk : List (BitVec W)) (hn : 0 < P.n) (hx : x.length = P.n) (hj : junk.length = P.n) :
    ((write P ⟨x, P.n⟩ junk).bind (read P) = some ⟨x, P.n⟩) ↔ ∃ v, x = List.replicate P.n v := by
  obtain ⟨x0, h0, h1, h2⟩ := C56_full P x junk hn hx hj
  rw [h1, Option.bind_some, h2]
  simp only [Option.some.injEq, Eng.mk.injEq, and_true]
  constructor
  · intro he
    refine ⟨x0, List.eq_replicate_iff.2 ⟨hx, ?_⟩⟩
    have : ∀ k (hk : k < x.length), x[k] = x0 := by
      intro k
      induction k with
      | zero => intro hk; rw [List.getElem?_eq_getElem hk] at h0; exact Option.some.inj h0
      | succ k ih =>
        intro hk
        have h3 : x[k + 1]? = (x0 :: x.take (P.n - 1))[k + 1]? := by rw [he]
        rw [List.getElem?_eq_getElem hk, List.getElem?_cons_succ, List.getElem?_take_of_lt (by omega),
          List.getElem?_eq_getElem (show k < x.length by omega)] at h3
        rw [Option.some.inj h3, ih (by omega)]
    intro b hb
    obtain ⟨k, hk, rfl⟩ := List.getElem_of_mem hb
    exact this k hk
  · rintro ⟨v, rfl⟩
    obtain ⟨m, hm⟩ : ∃ m, P.n = m + 1 := ⟨P.n - 1, by omega⟩
    rw [hm] at h0 ⊢
    simp at h0
    subst h0
    simp only [List.replicate_succ, Nat.add_sub_cancel]
    rw [← List.replicate_succ, List.take_replicate, Nat.min_eq_left (by omega), ← List.replicate_succ]

/-- a fresh engine comes back with another future -/
theorem C56_false : ¬ C56_statement := by
  intro h
  obtain ⟨out, e', h1, h2, h3⟩ := h 32 mtSmall (by decide) mtSmall_fits ⟨mtSmall_fits, by decide, by decide⟩ 0#32 0 ⟨[0#32, 1#32, 7#32], 3⟩
    [0#32, 0#32, 0#32] ⟨⟨[0#32, 1#32, 7#32], 3⟩, [], by decide, by decide⟩ rfl
  have e1 : write mtSmall ⟨[0#32, 1#32, 7#32], 3⟩ [0#32, 0#32, 0#32] = some [0#32, 0#32, 1#32, 7#32] := by decide
  rw [e1] at h1; cases h1
  have e2 : read mtSmall [0#32, 0#32, 1#32, 7#32] = some ⟨[0#32, 0#32, 1#32], 3⟩ := by decide
  rw [e2] at h2; cases h2
  exact absurd (h3 3) (by decide)

/-- the default-constructed `mt19937` (seed 5489) does not come back -/
theorem C56_mt19937_false (W : Nat) (hW : W = 32 ∨ W = 64) (value : BitVec W) (junk : List (BitVec W)) (hj : junk.length = 624)
    (hv : value.toNat = 5489) :
    ∃ e out e', seed (mt19937 W) value = some e ∧ write (mt19937 W) e junk = some out ∧ read (mt19937 W) out = some e' ∧ e' ≠ e := by
  have hf : (mt19937 W).Fits := by
    rcases hW with rfl | rfl
    · exact (C55_predefined.1 32 (Or.inl rfl)).1.fits
    · exact (C55_predefined.1 64 (Or.inr rfl)).1.fits
  have hX := seqAt_isMt (mt19937 W).nat value.toNat hf.ok
  obtain ⟨e, a1, a2, a3⟩ := seed_at hf hX
  obtain ⟨x, i⟩ := e
  simp only at a3
  subst a3
  obtain ⟨x0, h0, h1, h2⟩ := C56_full (mt19937 W) x junk (by show 0 < 624; omega) a2.len hj
  refine ⟨_, _, _, a1, h1, h2, ?_⟩
  intro he
  simp only [Eng.mk.injEq, and_true] at he
  have hlen : x.length = 624 := a2.len
  have g0 := a2.holds 0 (show 0 < x.length by omega)
  have g1 := a2.holds 1 (show 1 < x.length by omega)
  have e1 : x[1]? = (x0 :: x.take ((mt19937 W).n - 1))[1]? := by rw [he]
  rw [List.getElem?_cons_succ, List.getElem?_take_of_lt (by show 0 < 624 - 1; omega), h0, List.getElem?_eq_getElem (by omega)] at e1
  rw [List.getElem?_eq_getElem (by omega)] at h0
  have e2 := Option.some.inj (e1.trans h0.symm)
  simp only [Nat.sub_self, Nat.zero_add] at g0 g1
  rw [e2, g0, hX.init 1 (by omega) (by show 1 < 624; omega), hX.first, hv] at g1
  revert g1
  rcases hW with rfl | rfl <;> decide

example : write mtSmall ⟨[0#32, 1#32, 7#32], 3⟩ [9#32, 9#32, 9#32] = some [0#32, 0#32, 1#32, 7#32] ∧
    (write mtSmall ⟨[0#32, 1#32, 7#32], 1⟩ [9#32, 9#32, 9#32]).map List.length = some 2 := by decide

end Sprout
