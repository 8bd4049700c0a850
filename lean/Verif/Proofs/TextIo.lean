import Verif.Model.TextIo
import Verif.Proofs.NumIo
import Verif.Proofs.StringClass
import Verif.Spec.Uuid

namespace Sprout.Io
open Opt (IStream)
open Spec.Io
open Str Str.BStr
open Spec.Str (Represents)
open Spec (overwrite)

/-- what may follow a word -/
def WordEnd (t : List Nat) : Prop := t = [] ∨ ∃ c u, t = c :: u ∧ isSpace c = true

theorem sentry_cons {c : Nat} (t : List Nat) (h : isSpace c = false) : sentry (at' (c :: t)) = (true, at' (c :: t)) := by
  simp [sentry, at', IStream.good, List.dropWhile_cons, h]

theorem strLoop_eq (u : List Nat) : ∀ (t : List Nat) (e : List Int) (cur n : Nat), (∀ c ∈ u, isSpace c = false) → WordEnd t → u.length ≤ n →
    cur + u.length ≤ e.length →
    strLoop (u ++ t) e cur n = some (t, overwrite e cur (u.map Int.ofNat), cur + u.length, decide (t = [] ∧ u.length < n)) := by
  induction u with
  | nil =>
    intro t e cur n _ ht _ _
    rw [List.nil_append, List.map_nil, overwrite_nil]
    cases n with
    | zero => simp [strLoop]
    | succ n =>
      rcases ht with rfl | ⟨c, u, rfl, hc⟩
      · simp [strLoop]
      · simp [strLoop, hc]
  | cons c u ih =>
    intro t e cur n hu ht hn he
    cases n with
    | zero => simp at hn
    | succ n =>
      have hc : isSpace c = false := hu c (by simp)
      simp only [List.length_cons] at hn he
      rw [List.cons_append, strLoop]
      simp only [hc, Bool.false_eq_true, if_false]
      rw [wr, if_pos (by omega), Option.bind_eq_bind, Option.bind_some,
        ih t _ (cur + 1) n (fun c h => hu c (by simp [h])) ht (by omega) (by simp; omega)]
      congr 2
      have : overwrite (e.set cur (c : Int)) (cur + 1) (u.map Int.ofNat) = overwrite e cur ((c :: u).map Int.ofNat) := by
        rw [List.map_cons, overwrite_cons (by simp; omega)]
        rfl
      rw [this]
      simp; omega

theorem bitLoop_eq (u : List Nat) : ∀ (t tmp : List Nat) (n : Nat), (∀ c ∈ u, c = 48 ∨ c = 49) → u.length ≤ n →
    (u.length = n ∨ t = [] ∨ ∃ c v, t = c :: v ∧ c ≠ 48 ∧ c ≠ 49) →
    bitLoop (u ++ t) tmp n = (t, tmp ++ u, decide (t = [] ∧ u.length < n)) := by
  induction u with
  | nil =>
    intro t tmp n _ _ ht
    rw [List.nil_append, List.append_nil]
    rcases ht with rfl | rfl | ⟨c, v, rfl, h1, h2⟩
    · simp [bitLoop]
    · cases n <;> simp [bitLoop]
    · induction n with
      | zero => simp [bitLoop]
      | succ n ih => simp [bitLoop, h1, h2] at ih ⊢; simp [ih]
  | cons c u ih =>
    intro t tmp n hu hn ht
    cases n with
    | zero => simp at hn
    | succ n =>
      have ih' := fun x => ih t (tmp ++ [x]) n (fun c h => hu c (by simp [h])) (by simpa using hn) (by simpa using ht)
      rcases hu c (by simp) with rfl | rfl
      · rw [List.cons_append, bitLoop]
        simp only [if_true, ih']
        simp
      · rw [List.cons_append, bitLoop]
        simp [ih']

/-! ### uuid -/

open Spec.Uuid (HexDigit Hex)

theorem hexDigit_read {c : Int} {v : Nat} (h : HexDigit c v) : isSpace c.toNat = false ∧ xdigits.idxOf? (upper c.toNat) = some v ∧ v < 16 := by
  have hc : c.toNat < 128 := by rcases h with h | h | h <;> omega
  have key : ∀ n < 128, ∀ v < 16, (n = v + 48 ∧ n ≤ 57) ∨ (97 ≤ n ∧ n = v + 87) ∨ (65 ≤ n ∧ n ≤ 70 ∧ n = v + 55) →
      isSpace n = false ∧ xdigits.idxOf? (upper n) = some v := by decide +kernel
  have hv : v < 16 := by rcases h with h | h | h <;> omega
  have := key c.toNat hc v hv (by rcases h with h | h | h <;> omega)
  exact ⟨this.1, this.2, hv⟩

theorem uuidDigit_cons {c : Int} {v : Nat} (h : HexDigit c v) (t : List Nat) (o : Option Nat) :
    uuidDigit (at' (c.toNat :: t)) o = some (some v, upper c.toNat, at' t) := by
  obtain ⟨h1, h2, -⟩ := hexDigit_read h
  unfold uuidDigit
  rw [getCh_cons _ _ h1]
  simp [h2]

theorem byte_eq {a b : Nat} (ha : a < 16) (hb : b < 16) : BitVec.ofNat 8 a <<< 4 ||| BitVec.ofNat 8 b = BitVec.ofNat 8 (16 * a + b) := by
  have key : ∀ a < 16, ∀ b < 16, BitVec.ofNat 8 a <<< 4 ||| BitVec.ofNat 8 b = BitVec.ofNat 8 (16 * a + b) := by decide +kernel
  exact key a ha b hb

theorem uuidLoop_byte {h l : Int} {a b : Nat} (hh : HexDigit h a) (hl : HexDigit l b) (k i : Nat) (hi : dashAfter i = false) (t : List Nat)
    (c : Option Nat) (data : List (BitVec 8)) :
    uuidLoop (k + 1) i (at' (h.toNat :: l.toNat :: t)) c data =
      uuidLoop k (i + 1) (at' t) (some (upper l.toNat)) (data ++ [BitVec.ofNat 8 (16 * a + b)]) := by
  rw [uuidLoop, if_neg (by simp [at']), uuidDigit_cons hh]
  simp only [Option.bind_eq_bind, Option.bind_some]
  rw [uuidDigit_cons hl]
  simp only [Option.bind_some]
  rw [if_neg (by simp [hi]), byte_eq (hexDigit_read hh).2.2 (hexDigit_read hl).2.2]

theorem uuidLoop_dash {h l : Int} {a b : Nat} (hh : HexDigit h a) (hl : HexDigit l b) (k i : Nat) (hi : dashAfter i = true) (t : List Nat)
    (c : Option Nat) (data : List (BitVec 8)) :
    uuidLoop (k + 1) i (at' (h.toNat :: l.toNat :: 45 :: t)) c data =
      uuidLoop k (i + 1) (at' t) (some 45) (data ++ [BitVec.ofNat 8 (16 * a + b)]) := by
  rw [uuidLoop, if_neg (by simp [at']), uuidDigit_cons hh]
  simp only [Option.bind_eq_bind, Option.bind_some]
  rw [uuidDigit_cons hl]
  simp only [Option.bind_some]
  rw [if_pos (by simp [hi, at']), byte_eq (hexDigit_read hh).2.2 (hexDigit_read hl).2.2, getCh_cons 45 _ (by decide)]
  simp

theorem uuidLoop_group {s : List Int} {bs : List (BitVec 8)} (hs : Hex s bs) : ∀ (k i : Nat) (t : List Nat) (c : Option Nat)
    (data : List (BitVec 8)), (∀ j < bs.length, dashAfter (i + j) = false) →
    ∃ c', uuidLoop (k + bs.length) i (at' (s.map Int.toNat ++ t)) c data = uuidLoop k (i + bs.length) (at' t) c' (data ++ bs) := by
  induction hs with
  | nil => intro k i t c data _; exact ⟨c, by simp⟩
  | @cons h l a b s bs hh hl _ ih =>
    intro k i t c data hj
    obtain ⟨c', hc'⟩ := ih k (i + 1) t (some (upper l.toNat)) (data ++ [BitVec.ofNat 8 (16 * a + b)])
      (fun j h => by have := hj (j + 1) (by simpa using h); rw [← this]; congr 1; omega)
    refine ⟨c', ?_⟩
    rw [List.length_cons, ← Nat.add_assoc, List.map_cons, List.map_cons, List.cons_append, List.cons_append,
      uuidLoop_byte hh hl _ _ (by simpa using hj 0 (by simp)), hc']
    simp only [List.append_assoc, List.singleton_append]
    congr 1; omega

theorem uuidLoop_groupDash {s : List Int} {bs : List (BitVec 8)} (hs : Hex s bs) : ∀ (k i m : Nat) (t : List Nat) (c : Option Nat)
    (data : List (BitVec 8)), bs.length = m + 1 → (∀ j < m, dashAfter (i + j) = false) → dashAfter (i + m) = true →
    ∃ c', uuidLoop (k + bs.length) i (at' (s.map Int.toNat ++ 45 :: t)) c data = uuidLoop k (i + bs.length) (at' t) c' (data ++ bs) := by
  induction hs with
  | nil => intro k i m t c data h; simp at h
  | @cons h l a b s bs hh hl hs' ih =>
    intro k i m t c data hm hj hd
    rw [List.length_cons, ← Nat.add_assoc, List.map_cons, List.map_cons, List.cons_append, List.cons_append]
    cases m with
    | zero =>
      have : bs = [] := List.length_eq_zero_iff.1 (by simpa using hm)
      subst this
      cases hs'
      refine ⟨some 45, ?_⟩
      rw [List.map_nil, List.nil_append, uuidLoop_dash hh hl _ _ (by simpa using hd)]
      rfl
    | succ m =>
      obtain ⟨c', hc'⟩ := ih k (i + 1) m t (some (upper l.toNat)) (data ++ [BitVec.ofNat 8 (16 * a + b)]) (by simpa using hm)
        (fun j h => by have := hj (j + 1) (by omega); rw [← this]; congr 1; omega) (by rw [← hd]; congr 1; omega)
      refine ⟨c', ?_⟩
      rw [uuidLoop_byte hh hl _ _ (by simpa using hj 0 (by simp)), hc']
      simp only [List.append_assoc, List.singleton_append]
      congr 1; omega

/-- the two digits of a byte -/
theorem wByte_eq (f : Fmt) (ha : f.adj ≠ .left) (hb : f.showbase = false) (b : BitVec 8) :
    wByte f b = [xdigit f.uppercase (b.toNat / 16), xdigit f.uppercase (b.toNat % 16)] := by
  have hlt := b.isLt
  have key : ∀ (up : Bool) (n : Nat), n < 256 → List.replicate (2 - (hexMin up n).length) 48 ++ hexMin up n =
      [xdigit up (n / 16), xdigit up (n % 16)] := by decide +kernel
  have := key f.uppercase b.toNat hlt
  unfold wByte
  rw [← this]
  cases hf : f.adj <;> simp_all

theorem xdigit_hex (up : Bool) {n : Nat} (hn : n < 16) : HexDigit (xdigit up n : Int) n := by
  unfold xdigit HexDigit
  split
  · omega
  · split <;> omega

theorem wLoop_hex (f : Fmt) (ha : f.adj ≠ .left) (hb : f.showbase = false) : ∀ (u : List (BitVec 8)),
    Hex ((u.flatMap (wByte f)).map Int.ofNat) u := by
  intro u
  induction u with
  | nil => exact .nil
  | cons b u ih =>
    have hlt := b.isLt
    have := Hex.cons (xdigit_hex f.uppercase (n := b.toNat / 16) (by omega)) (xdigit_hex f.uppercase (n := b.toNat % 16) (by omega)) ih
    rw [show BitVec.ofNat 8 (16 * (b.toNat / 16) + b.toNat % 16) = b by
      rw [Nat.div_add_mod]; simp] at this
    rw [List.flatMap_cons, wByte_eq f ha hb]
    exact this

end Sprout.Io
