import Verif.Spec.NumIo
import Verif.Proofs.Rational

namespace Sprout.Io
open Opt (IStream)
open Spec.Io

theorem dec_ne_nil (n : Nat) : dec n ≠ [] := by
  rw [dec]; split <;> simp

theorem dec_digit (n : Nat) : ∀ c ∈ dec n, isDigit c = true := by
  induction n using Nat.strongRecOn with
  | ind n ih =>
    rw [dec]
    split
    · intro c hc
      simp only [List.mem_singleton] at hc
      subst hc
      simp [isDigit]; omega
    · intro c hc
      rcases List.mem_append.1 hc with h | h
      · exact ih (n / 10) (by omega) c h
      · simp only [List.mem_singleton] at h
        subst h
        simp [isDigit]; omega

theorem ofDec_dec (n : Nat) : ofDec (dec n) = n := by
  induction n using Nat.strongRecOn with
  | ind n ih =>
    rw [dec]
    split
    · simp [ofDec]
    · have := ih (n / 10) (by omega)
      simp only [ofDec, List.foldl_append, List.foldl_cons, List.foldl_nil] at *
      rw [this]; omega

theorem takeWhile_dec (n : Nat) (t : List Nat) (ht : t.takeWhile isDigit = []) : (dec n ++ t).takeWhile isDigit = dec n := by
  rw [List.takeWhile_append_of_pos (dec_digit n), ht, List.append_nil]

theorem stop_digits {t : List Nat} (h : Stop t) : t.takeWhile isDigit = [] := by
  rcases h with rfl | ⟨c, u, rfl, hc⟩
  · rfl
  · simp only [List.mem_cons, List.not_mem_nil, or_false] at hc
    rcases hc with rfl | rfl | rfl | rfl | rfl <;> simp [isDigit]

theorem readDigits_dec (b : Bool) (n : Nat) (t : List Nat) (h : Stop t) :
    readDigits b (dec n ++ t) = (some (if b then -(n : Int) else n), after t) := by
  unfold readDigits
  simp only [takeWhile_dec n t (stop_digits h), ofDec_dec, List.drop_left, dec_ne_nil, decide_false]
  rfl

theorem dec_head (n : Nat) : ∃ c u, dec n = c :: u ∧ 48 ≤ c ∧ c ≤ 57 := by
  obtain ⟨c, u, h⟩ := List.exists_cons_of_ne_nil (dec_ne_nil n)
  have := dec_digit n c (by rw [h]; exact List.mem_cons_self)
  simp [isDigit] at this
  exact ⟨c, u, h, this.1, this.2⟩

theorem wInt_head (z : Int) : ∃ c u, wInt z = c :: u ∧ (c = 45 ∨ 48 ≤ c ∧ c ≤ 57) := by
  unfold wInt
  split
  · exact ⟨45, _, rfl, .inl rfl⟩
  · obtain ⟨c, u, h, h'⟩ := dec_head z.natAbs
    exact ⟨c, u, h, .inr h'⟩

theorem rInt_wInt (b : Bool) (z : Int) (t : List Nat) (h : Stop t) : rInt b (at' (wInt z ++ t)) = (some z, after t) := by
  have hd : (wInt z ++ t).dropWhile isSpace = wInt z ++ t := by
    obtain ⟨c, u, hc, h'⟩ := wInt_head z
    rw [hc, List.cons_append, List.dropWhile_cons_of_neg]
    simp only [isSpace]
    rcases h' with rfl | h'
    · decide
    · simp; omega
  have he : (if b then (wInt z ++ t).dropWhile isSpace else wInt z ++ t) = wInt z ++ t := by rw [hd]; cases b <;> rfl
  unfold rInt
  simp only [at', IStream.good, Bool.not_false, Bool.and_self, Bool.not_true, Bool.false_eq_true, if_false, he]
  by_cases hz : z < 0
  · simp only [wInt, hz, if_true, List.cons_append]
    rw [readDigits_dec true _ _ h]
    have : -(z.natAbs : Int) = z := by omega
    simp only [if_true, this]
  · simp only [wInt, hz, if_false]
    obtain ⟨c, u, hc, h1, h2⟩ := dec_head z.natAbs
    have hr := readDigits_dec false z.natAbs t h
    rw [hc] at hr ⊢
    simp only [List.cons_append] at hr ⊢
    split
    · rename_i h0; cases h0
    · rename_i t' h0
      obtain ⟨rfl, -⟩ := List.cons.inj h0
      omega
    · rw [hr]; simp; omega

theorem int_codec (b : Bool) : Codec wInt (rInt b) where
  head z := by
    obtain ⟨c, u, h, h'⟩ := wInt_head z
    refine ⟨c, u, h, ?_⟩
    simp only [List.mem_cons, List.not_mem_nil, or_false]
    omega
  back z t h := rInt_wInt b z t h

/-! ### characters -/

theorem head_space {l t : List Nat} (h : Head l) : (l ++ t).dropWhile isSpace = l ++ t := by
  obtain ⟨c, u, rfl, hc⟩ := h
  rw [List.cons_append, List.dropWhile_cons_of_neg]
  simp only [List.mem_cons, List.not_mem_nil, or_false] at hc
  simp [isSpace]; omega

theorem getCh_cons (c : Nat) (t : List Nat) (h : isSpace c = false) : getCh (at' (c :: t)) = (some c, at' t) := by
  simp [getCh, at', IStream.good, List.dropWhile_cons, h]

theorem after_cons (c : Nat) (t : List Nat) : after (c :: t) = at' (c :: t) := rfl

theorem ws_space {l t : List Nat} (h : Head l) : ws (at' (32 :: (l ++ t))) = at' (l ++ t) := by
  have := head_space (t := t) h
  obtain ⟨c, u, rfl, hc⟩ := h
  have e : (32 :: (c :: u ++ t)).dropWhile isSpace = (c :: u ++ t).dropWhile isSpace := by
    rw [List.dropWhile_cons_of_pos]; rfl
  unfold ws
  simp only [at', IStream.good, Bool.not_false, Bool.and_self, Bool.not_true, Bool.false_eq_true, if_false, e, this]
  simp

theorem ws_idem {l t : List Nat} (h : Head l) : ws (at' (l ++ t)) = at' (l ++ t) := by
  have := head_space (t := t) h
  obtain ⟨c, u, rfl, hc⟩ := h
  unfold ws
  simp only [at', IStream.good, Bool.not_false, Bool.and_self, Bool.not_true, Bool.false_eq_true, if_false, this]
  simp

theorem stop_comma (t : List Nat) : Stop (44 :: t) := .inr ⟨44, t, rfl, by decide⟩
theorem stop_close (t : List Nat) : Stop (41 :: t) := .inr ⟨41, t, rfl, by decide⟩
theorem stop_slash (t : List Nat) : Stop (47 :: t) := .inr ⟨47, t, rfl, by decide⟩
theorem stop_space (t : List Nat) : Stop (32 :: t) := .inr ⟨32, t, rfl, by decide⟩

theorem putback_at (c : Nat) (t : List Nat) : putback (at' t) c = at' (c :: t) := rfl

variable {T : Type} {w : T → List Nat} {r : Reader T}

theorem qCh_cons (c : Nat) (t : List Nat) (h : isSpace c = false) (k : Nat → IStream → Option (IStream × Q T)) (rhs : Q T) :
    qCh (at' (c :: t)) k rhs = k c (at' t) := by
  unfold qCh
  rw [getCh_cons c t h]
  simp [at', IStream.good]

theorem qNum_codec (h : Codec w r) (z v : T) (c : Nat) (t : List Nat) (hc : Stop (c :: t)) (k : T → IStream → Option (IStream × Q T))
    (rhs : Q T) : qNum r z (at' (w v ++ c :: t)) k rhs = k v (at' (c :: t)) := by
  unfold qNum
  rw [h.back v _ hc]
  simp [after_cons, at', IStream.good]

end Sprout.Io
