import Verif.Proofs.NumIo
import Verif.Props.C31

/-!
# C149 stream operators of numbers and engines

What is written can be read back, whatever the variable held before and whatever follows; reading is defined for every input, and
leaves the variable as it was if it fails.
-/

namespace Sprout
open Io Spec.Io
open Opt (IStream)

variable {T : Type} {w : T → List Nat} {r : Reader T}

/-! ### decimal integers, the instance used below -/

theorem C149_int (b : Bool) : Codec wInt (rInt b) := int_codec b

example : rInt true (at' (wInt (-407) ++ [44])) = (some (-407), at' [44]) := by
  rw [(C149_int true).back _ _ (stop_comma _)]; rfl
example : wInt (-407) = [45, 52, 48, 55] := by simp [wInt, dec]

/-! ### complex -/

theorem C149_complex (h : Codec w r) (z : T) (v old : T × T) (t : List Nat) :
    rComplex r z (at' (wComplex w v ++ t)) old = some (at' t, v) := by
  have e : wComplex w v ++ t = 40 :: (w v.1 ++ 44 :: (w v.2 ++ 41 :: t)) := by simp [wComplex]
  rw [e]
  unfold rComplex
  rw [getCh_cons 40 _ (by decide)]
  simp only [Option.bind_eq_bind, Option.bind_some, if_true, h.back v.1 _ (stop_comma _), after_cons]
  rw [getCh_cons 44 _ (by decide)]
  simp only [Option.getD_some, if_true, complexIm, h.back v.2 _ (stop_close _), after_cons]
  rw [getCh_cons 41 _ (by decide)]
  simp

/-- a number alone is a complex number too, at the end of the stream as well -/
theorem C149_complex_real (h : Codec w r) (z v : T) (old : T × T) (t : List Nat) (ht : Stop t) :
    rComplex r z (at' (w v ++ t)) old = some (after t, (v, z)) := by
  have hb := h.back v t ht
  obtain ⟨c, u, hc, hn⟩ := h.head v
  rw [hc] at hb ⊢
  simp only [List.mem_cons, List.not_mem_nil, or_false, not_or] at hn
  unfold rComplex
  rw [List.cons_append, getCh_cons c _ (by simp [isSpace]; omega)]
  simp only [Option.bind_eq_bind, Option.bind_some, hn.2.2.2.2.2.2, if_false, putback_at]
  rw [← List.cons_append, hb]
  rfl

example : rComplex (rInt true) 0 (at' ([40, 51, 44, 45, 53, 41, 10])) (7, 7) = some (at' [10], (3, -5)) := by decide
example : rComplex (rInt true) 0 (at' ([40, 51, 41])) (7, 7) = some (at' [], (3, 0)) := by decide
example : rComplex (rInt true) 0 (at' ([40, 51, 59])) (7, 7) = some (⟨[], true, false⟩, (7, 7)) := by decide

/-- At the end of the stream `ch` is read although nothing has been stored in it -/
theorem C149_complex_refuted (z : T) (old : T × T) : rComplex r z (at' []) old = none := by
  rfl

/-- A text that is no number makes the stream fail and the variable zero -/
theorem C149_complex_fail_refuted : rComplex (rInt true) 0 (at' [120]) (7, 7) = some (⟨[120], true, false⟩, (0, 0)) := by decide

/-! ### quaternion -/

theorem C149_quaternion (h : Codec w r) (z : T) (v old : Q T) (t : List Nat) :
    rQ r z (at' (wQ w v ++ t)) old = some (at' t, v) := by
  have e : wQ w v ++ t = 40 :: (w v.a ++ 44 :: (w v.b ++ 44 :: (w v.c ++ 44 :: (w v.d ++ 41 :: t)))) := by simp [wQ]
  rw [e]
  obtain ⟨c, u, hc, hn⟩ := h.head v.a
  obtain ⟨c', u', hc', hn'⟩ := h.head v.b
  simp only [List.mem_cons, List.not_mem_nil, or_false, not_or] at hn hn'
  have hs : isSpace c = false := by simp [isSpace]; omega
  have hs' : isSpace c' = false := by simp [isSpace]; omega
  unfold rQ
  rw [qCh_cons 40 _ (by decide), if_pos rfl, hc, List.cons_append, qCh_cons c _ hs, if_neg hn.2.2.2.2.2.2, putback_at, ← List.cons_append,
    ← hc]
  unfold qA
  rw [qNum_codec h z _ _ _ (stop_comma _), qCh_cons 44 _ (by decide), if_neg (by decide), if_pos rfl]
  unfold qB
  rw [hc', List.cons_append, qCh_cons c' _ hs', if_neg hn'.2.2.2.2.2.2, putback_at, ← List.cons_append, ← hc',
    qNum_codec h z _ _ _ (stop_comma _), qCh_cons 44 _ (by decide), if_neg (by decide), if_pos rfl]
  unfold qC
  rw [qNum_codec h z _ _ _ (stop_comma _), qCh_cons 44 _ (by decide), if_neg (by decide), if_pos rfl]
  unfold qD
  rw [qNum_codec h z _ _ _ (stop_close _)]
  unfold qClose
  rw [qCh_cons 41 _ (by decide), if_pos rfl]

/-- a number alone, if something follows -/
theorem C149_quaternion_real_partial (h : Codec w r) (z v : T) (old : Q T) (c : Nat) (t : List Nat) (ht : Stop (c :: t)) :
    rQ r z (at' (w v ++ c :: t)) old = some (at' (c :: t), ⟨v, z, z, z⟩) := by
  have hq := qNum_codec h z v c t ht (fun a s => some (s, ⟨a, z, z, z⟩)) old
  obtain ⟨x, u, hc, hn⟩ := h.head v
  simp only [List.mem_cons, List.not_mem_nil, or_false, not_or] at hn
  have hs : isSpace x = false := by simp [isSpace]; omega
  unfold rQ
  rw [hc, List.cons_append, qCh_cons x _ hs, if_neg hn.2.2.2.2.2.2, putback_at, ← List.cons_append, ← hc, hq]

/-- a pair of complex numbers -/
theorem C149_quaternion_pair (h : Codec w r) (z : T) (v v' : T × T) (old : Q T) (t : List Nat) :
    rQ r z (at' (40 :: (wComplex w v ++ 44 :: (wComplex w v' ++ 41 :: t)))) old = some (at' t, ⟨v.1, v.2, v'.1, v'.2⟩) := by
  obtain ⟨u, hu⟩ : ∃ u, wComplex w v = 40 :: u := ⟨_, rfl⟩
  unfold rQ
  rw [qCh_cons 40 _ (by decide), if_pos rfl, hu, List.cons_append, qCh_cons 40 _ (by decide), if_pos rfl, putback_at, ← List.cons_append, ← hu]
  unfold qPair qComplex
  rw [C149_complex h]
  simp only [Option.bind_eq_bind, Option.bind_some]
  rw [if_neg (by simp [at', IStream.good]), qCh_cons 44 _ (by decide), if_neg (by decide), if_pos rfl, C149_complex h]
  simp only [Option.bind_some]
  rw [if_neg (by simp [at', IStream.good])]
  unfold qClose
  rw [qCh_cons 41 _ (by decide), if_pos rfl]

example : rQ (rInt true) 0 (at' [40, 49, 44, 50, 44, 51, 44, 52, 41]) ⟨7, 7, 7, 7⟩ = some (at' [], ⟨1, 2, 3, 4⟩) := by decide
example : rQ (rInt true) 0 (at' [40, 49, 44, 40, 51, 44, 52, 41, 41]) ⟨7, 7, 7, 7⟩ = some (at' [], ⟨1, 0, 3, 4⟩) := by decide
example : rQ (rInt true) 0 (at' []) ⟨7, 7, 7, 7⟩ = some (⟨[], true, true⟩, ⟨7, 7, 7, 7⟩) := by decide

/-- A number at the end of the stream is read, the stream does not fail, and the variable keeps its old value -/
theorem C149_quaternion_refuted (h : Codec w r) (z v : T) (old : Q T) : rQ r z (at' (w v)) old = some (⟨[], false, true⟩, old) := by
  have hb := h.back v [] (.inl rfl)
  obtain ⟨x, u, hc, hn⟩ := h.head v
  simp only [List.mem_cons, List.not_mem_nil, or_false, not_or] at hn
  have hs : isSpace x = false := by simp [isSpace]; omega
  unfold rQ
  rw [hc, qCh_cons x _ hs, if_neg hn.2.2.2.2.2.2, putback_at, ← hc]
  rw [List.append_nil] at hb
  unfold qNum
  rw [hb]
  simp [after, IStream.good]

example : rQ (rInt true) 0 (at' [53]) ⟨7, 7, 7, 7⟩ = some (⟨[], false, true⟩, ⟨7, 7, 7, 7⟩) := by decide

/-- `((1,2),` at the end of the stream: the second complex number is read there -/
theorem C149_quaternion_pair_refuted (old : Q Int) : rQ (rInt true) 0 (at' [40, 40, 49, 44, 50, 41, 44]) old = none := by rfl

/-! ### rational -/

theorem mk2_normal {x : Rational} (hx : Spec.Normal x) : Rational.mk2 x.num x.den = some (.ret x) := by
  obtain ⟨q, h1, h2, h3⟩ := Rational.mk2_eq (n := x.num) (d := x.den) (by have := hx.1; omega)
  rw [h1, C31_canonical h2 hx h3]

theorem get_cons (c : Nat) (t : List Nat) : (at' (c :: t)).get = (some c, at' t) := by
  simp [IStream.get, at', IStream.good]

theorem C149_rational {x : Rational} (hx : Spec.Normal x) (old : Rational) (t : List Nat) (ht : Stop t) :
    rRat (at' (wRat x ++ t)) old = some (.ret (after t, x)) := by
  have e : wRat x ++ t = wInt x.num ++ 47 :: (wInt x.den ++ t) := by simp [wRat]
  unfold rRat
  rw [e]
  simp only [(int_codec true).back x.num _ (stop_slash _), after_cons, get_cons, ratSlash, if_true, (int_codec false).back x.den _ ht,
    Option.getD_some]
  unfold ratAssign
  rw [mk2_normal hx]
  simp [after]

/-- the variable is as it was or a normal fraction; it is as it was if the stream fails; a zero denominator throws -/
theorem C149_rational_read (s : IStream) (old : Rational) :
    (∃ s', rRat s old = some (.ret (s', old)) ∧ s'.fail = true) ∨
    (∃ s' q, rRat s old = some (.ret (s', q)) ∧ s'.fail = false ∧ Spec.Normal q) ∨
    rRat s old = some (.throw .badRational) := by
  unfold rRat ratAssign
  simp only []
  split
  · rename_i h
    exact .inl ⟨_, rfl, h⟩
  · rename_i h
    generalize hd : (rInt false (ratSlash (rInt true s).2.get)).1.getD 1 = d
    generalize (rInt true s).1.getD 0 = n
    by_cases h0 : d = 0
    · subst h0
      refine .inr (.inr ?_)
      simp [Rational.mk2, Rational.normalizeG]
    · obtain ⟨q, h1, h2, -⟩ := Rational.mk2_eq (n := n) h0
      refine .inr (.inl ⟨_, q, ?_, by simpa using h, h2⟩)
      rw [h1]
      rfl

example : rRat (at' [45, 54, 47, 56, 41]) ⟨1, 2⟩ = some (.ret (at' [41], ⟨-3, 4⟩)) := by
  have : rRat (at' [45, 54, 47, 56, 41]) ⟨1, 2⟩ = ratAssign (-6) 8 (at' [41]) ⟨1, 2⟩ := rfl
  rw [this]
  obtain ⟨q, h1, h2, h3⟩ := Rational.mk2_eq (n := -6) (d := 8) (by decide)
  have hq : q = ⟨-3, 4⟩ := C31_canonical h2 ⟨by decide, fun d h1 h2 => by
    have := Int.dvd_add h1 h2; simpa using this⟩ (by rw [h3]; norm_num [Spec.val])
  subst hq
  unfold ratAssign
  rw [h1]
  rfl

/-! ### value_holder -/

theorem C149_holder (h : Codec w r) (v old : T) (t : List Nat) (ht : Stop t) :
    rHolder r (at' (wHolder w (some v) ++ t)) old = some (after t, v) := by
  unfold rHolder
  have e : wHolder w (some v) ++ t = 32 :: (w v ++ t) := rfl
  rw [e, get_cons]
  simp only [if_true, h.back v t ht]
  simp [at', IStream.good]

example : rHolder (rInt true) (at' [32, 53, 10]) 7 = some (at' [10], 5) := by decide

/-- At the end of the stream `x` is read although nothing has been stored in it -/
theorem C149_holder_refuted (old : Int) : rHolder (rInt true) (at' [32]) old = none := by rfl

/-! ### engines -/

/-- linear and inversive congruential engines -/
theorem C149_lcg (b p : Int) : ECodec (fun x => Lcg.staticMin b ≤ x ∧ x ≤ Lcg.staticMax p) wLcg (rLcg b p) (fun _ => True) where
  head g _ := (int_codec true).head g
  back g old t hg _ ht := by
    unfold rLcg wLcg
    rw [(int_codec true).back g t ht]
    simp only [after, Bool.false_eq_true, if_false]
    rw [if_pos hg]

/-- whatever is read, the state stays in the range -/
theorem C149_lcg_range (b p : Int) (s : IStream) (g : Int) (h : Lcg.staticMin b ≤ g ∧ g ≤ Lcg.staticMax p) :
    let x := (rLcg b p s g).2
    (Lcg.staticMin b ≤ x ∧ x ≤ Lcg.staticMax p) ∧ ((rLcg b p s g).1.fail = true → x = g) := by
  unfold rLcg
  simp only []
  split
  · exact ⟨h, fun _ => rfl⟩
  · rename_i hf
    generalize (rInt true s).1 = a
    cases a with
    | none => exact ⟨h, fun _ => rfl⟩
    | some v =>
      simp only []
      split
      · rename_i hv
        exact ⟨hv, fun hf' => absurd hf' hf⟩
      · exact ⟨h, fun _ => rfl⟩

theorem C149_lfsr : ECodec (fun _ => True) wInt rLfsr (fun _ => True) where
  head g _ := (int_codec true).head g
  back g old t _ _ ht := by
    unfold rLfsr rMember
    rw [(int_codec true).back g t ht]
    rfl

/-- combined engines -/
theorem C149_pair {G H : Type} {P1 Q1 : G → Prop} {P2 Q2 : H → Prop} {W1 : G → List Nat} {W2 : H → List Nat} {R1 : EReader G} {R2 : EReader H}
    (h1 : ECodec P1 W1 R1 Q1) (h2 : ECodec P2 W2 R2 Q2) :
    ECodec (fun g => P1 g.1 ∧ P2 g.2) (wPair W1 W2) (rPair R1 R2) (fun g => Q1 g.1 ∧ Q2 g.2) where
  head g hg := by
    obtain ⟨c, u, hc, hn⟩ := h1.head g.1 hg.1
    exact ⟨c, u ++ [32] ++ W2 g.2, by simp [wPair, hc], hn⟩
  back g old t hg ho ht := by
    have e : wPair W1 W2 g ++ t = W1 g.1 ++ 32 :: (W2 g.2 ++ t) := by simp [wPair]
    unfold rPair
    rw [e, h1.back g.1 old.1 _ hg.1 ho.1 (stop_space _), after_cons]
    simp only []
    rw [ws_space (h2.head g.2 hg.2), h2.back g.2 old.2 t hg.2 ho.2 ht]

theorem rMember_back (x old : Int) (t : List Nat) (ht : Stop t) : rMember (ws (at' (32 :: (wInt x ++ t)))) old = (after t, x) := by
  rw [ws_space ((int_codec true).head x)]
  unfold rMember
  rw [(int_codec true).back x t ht]
  rfl

theorem rTable_back (v : List Int) : ∀ (old : List Int) (t : List Nat), old.length = v.length →
    rTable (at' ((v.flatMap fun x => 32 :: wInt x) ++ 32 :: t)) old = (at' (32 :: t), v) := by
  induction v with
  | nil =>
    intro old t h
    cases old with
    | nil => rfl
    | cons => simp at h
  | cons x v ih =>
    intro old t h
    cases old with
    | nil => simp at h
    | cons o old =>
      have e : (((x :: v).flatMap fun x => 32 :: wInt x) ++ 32 :: t) = 32 :: (wInt x ++ ((v.flatMap fun x => 32 :: wInt x) ++ 32 :: t)) := by
        simp
      obtain ⟨u, hu⟩ : ∃ u, (v.flatMap fun x => 32 :: wInt x) ++ 32 :: t = 32 :: u := by
        cases v with
        | nil => exact ⟨t, rfl⟩
        | cons y v => exact ⟨_, by rw [List.flatMap_cons, List.cons_append, List.cons_append]⟩
      have hb := rMember_back x o _ (by rw [hu]; exact stop_space u : Stop ((v.flatMap fun x => 32 :: wInt x) ++ 32 :: t))
      have ha : after ((v.flatMap fun x => 32 :: wInt x) ++ 32 :: t) = at' ((v.flatMap fun x => 32 :: wInt x) ++ 32 :: t) := by
        rw [hu]; rfl
      rw [e, rTable, hb, ha]
      simp only []
      rw [ih old t (by simpa using h)]

/-- shuffle-order engines; the table of `rhs` has the length of the table written -/
theorem C149_shuffle {σ : Type} {P Q : σ → Prop} {W : σ → List Nat} {R : EReader σ} (h : ECodec P W R Q) (k : Nat) :
    ECodec (fun g => P g.rng ∧ g.v.length = k) (wShuffle W) (rShuffle R) (fun g => Q g.rng ∧ g.v.length = k) where
  head g hg := by
    obtain ⟨c, u, hc, hn⟩ := h.head g.rng hg.1
    exact ⟨c, _, by rw [wShuffle, hc, List.cons_append, List.cons_append], hn⟩
  back g old t hg ho ht := by
    have e : wShuffle W g ++ t = W g.rng ++ ((g.v.flatMap fun x => 32 :: wInt x) ++ 32 :: (wInt g.y ++ t)) := by simp [wShuffle]
    obtain ⟨u, hu⟩ : ∃ u, (g.v.flatMap fun x => 32 :: wInt x) ++ 32 :: (wInt g.y ++ t) = 32 :: u := by
      cases g.v with
      | nil => exact ⟨_, rfl⟩
      | cons y v => exact ⟨_, by rw [List.flatMap_cons, List.cons_append, List.cons_append]⟩
    have hb := h.back g.rng old.rng _ hg.1 ho.1 (by rw [hu]; exact stop_space u : Stop ((g.v.flatMap fun x => 32 :: wInt x) ++ 32 :: (wInt g.y ++ t)))
    have ha : after ((g.v.flatMap fun x => 32 :: wInt x) ++ 32 :: (wInt g.y ++ t)) =
        at' ((g.v.flatMap fun x => 32 :: wInt x) ++ 32 :: (wInt g.y ++ t)) := by
      rw [hu]; rfl
    unfold rShuffle
    rw [e, hb, ha]
    simp only []
    rw [rTable_back g.v old.v _ (by rw [ho.2, hg.2])]
    simp only []
    rw [rMember_back g.y old.y t ht]

/-- `knuth_b`: `shuffle_order_engine<minstd_rand0, 256>` -/
example : ECodec (fun g : ShuffleOrder.St Int => (1 ≤ g.rng ∧ g.rng ≤ 2147483646) ∧ g.v.length = 256) (wShuffle wLcg)
    (rShuffle (rLcg 0 2147483647)) (fun g => True ∧ g.v.length = 256) := C149_shuffle (C149_lcg 0 2147483647) 256

/-- `ecuyer1988`: two linear congruential engines -/
example : rPair (rLcg 0 2147483563) (rLcg 0 2147483399) (at' [49, 50, 32, 51]) (7, 7) = (⟨[], false, true⟩, (12, 3)) := by decide

/-- A linear feedback shift engine accepts the state `0`, which no seed gives and from which it never departs -/
theorem C149_lfsr_refuted :
    rLfsr (at' [48]) 7 = (⟨[], false, true⟩, 0) ∧ Lfsr.next (W := 32) XorCombine.P1 0 = some 0 := by
  refine ⟨by decide, ?_⟩
  decide

/-- A shuffle-order engine accepts a last number out of the range of the base engine: the next call leaves the table -/
theorem C149_shuffle_refuted (g : Additive.Gen Int) :
    ∃ st, rShuffle (rLcg 0 11) (at' [51, 32, 52, 32, 53, 32, 57, 57]) ⟨1, [1, 1], 1⟩ = (⟨[], false, true⟩, st) ∧
      ShuffleOrder.next ⟨⟨32, false⟩, 1, 10⟩ 2 g st = none := by
  refine ⟨⟨3, [4, 5], 99⟩, rfl, ?_⟩
  rfl

end Sprout
