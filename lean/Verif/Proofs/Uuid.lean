import Verif.Model.Uuid
import Verif.Spec.Uuid

namespace Sprout.Uuid
open Spec.Uuid

def ofOpt {α : Type} : Option α → Ret α
  | some a => .ret a
  | none => .throw .runtimeError

theorem ofOpt_bind {α β : Type} (o : Option α) (f : α → Option β) :
    (ofOpt o >>= fun a => ofOpt (f a)) = ofOpt (o.bind f) := by
  cases o <;> rfl

theorem ofOpt_ret {α : Type} {o : Option α} {a : α} : ofOpt o = .ret a ↔ o = some a := by
  cases o <;> simp [ofOpt]

/-- value of a hexadecimal digit -/
def hv (c : Int) : Option (BitVec 8) := values[digits.findIdx (· == c)]?

theorem getValue_eq (c : Int) : getValue c = ofOpt (hv c) := by
  unfold getValue valueAt hv
  by_cases h : digits.findIdx (· == c) < 22
  · rw [if_pos h]
    have : digits.findIdx (· == c) < values.length := h
    rw [List.getElem?_eq_getElem this]; rfl
  · rw [if_neg h, List.getElem?_eq_none (show values.length ≤ _ from Nat.le_of_not_lt h)]; rfl

theorem hv_mem {c : Int} {v : BitVec 8} (h : hv c = some v) : c ∈ digits := by
  by_contra hc
  have : digits.findIdx (· == c) = digits.length := by
    rw [List.findIdx_eq_length]; intro x hx; simp; intro e; exact hc (e ▸ hx)
  rw [hv, this] at h
  have e : values[digits.length]? = none := by decide
  rw [e] at h; cases h

theorem hv_iff (c : Int) (v : BitVec 8) : hv c = some v ↔ ∃ n, HexDigit c n ∧ v = BitVec.ofNat 8 n := by
  constructor
  · intro h
    have hm := hv_mem h
    have key : ∀ c ∈ digits, ∃ n, n < 16 ∧ HexDigit c n ∧ hv c = some (BitVec.ofNat 8 n) := by
      intro c hc
      simp only [digits, List.mem_cons, List.not_mem_nil, or_false] at hc
      rcases hc with rfl | rfl | rfl | rfl | rfl | rfl | rfl | rfl | rfl | rfl | rfl | rfl | rfl | rfl | rfl | rfl | rfl | rfl | rfl | rfl | rfl | rfl
      · exact ⟨0, by omega, by unfold HexDigit; omega, by decide⟩
      · exact ⟨1, by omega, by unfold HexDigit; omega, by decide⟩
      · exact ⟨2, by omega, by unfold HexDigit; omega, by decide⟩
      · exact ⟨3, by omega, by unfold HexDigit; omega, by decide⟩
      · exact ⟨4, by omega, by unfold HexDigit; omega, by decide⟩
      · exact ⟨5, by omega, by unfold HexDigit; omega, by decide⟩
      · exact ⟨6, by omega, by unfold HexDigit; omega, by decide⟩
      · exact ⟨7, by omega, by unfold HexDigit; omega, by decide⟩
      · exact ⟨8, by omega, by unfold HexDigit; omega, by decide⟩
      · exact ⟨9, by omega, by unfold HexDigit; omega, by decide⟩
      · exact ⟨10, by omega, by unfold HexDigit; omega, by decide⟩
      · exact ⟨11, by omega, by unfold HexDigit; omega, by decide⟩
      · exact ⟨12, by omega, by unfold HexDigit; omega, by decide⟩
      · exact ⟨13, by omega, by unfold HexDigit; omega, by decide⟩
      · exact ⟨14, by omega, by unfold HexDigit; omega, by decide⟩
      · exact ⟨15, by omega, by unfold HexDigit; omega, by decide⟩
      · exact ⟨10, by omega, by unfold HexDigit; omega, by decide⟩
      · exact ⟨11, by omega, by unfold HexDigit; omega, by decide⟩
      · exact ⟨12, by omega, by unfold HexDigit; omega, by decide⟩
      · exact ⟨13, by omega, by unfold HexDigit; omega, by decide⟩
      · exact ⟨14, by omega, by unfold HexDigit; omega, by decide⟩
      · exact ⟨15, by omega, by unfold HexDigit; omega, by decide⟩
    obtain ⟨n, _, hn, he⟩ := key c hm
    rw [he] at h
    exact ⟨n, hn, (Option.some.inj h).symm⟩
  · rintro ⟨n, h, rfl⟩
    have : n < 16 := by unfold HexDigit at h; omega
    have key : ∀ n : Nat, n < 16 → (n < 10 → hv ((n : Int) + 48) = some (BitVec.ofNat 8 n)) ∧
        (10 ≤ n → hv ((n : Int) + 87) = some (BitVec.ofNat 8 n) ∧ hv ((n : Int) + 55) = some (BitVec.ofNat 8 n)) := by decide
    unfold HexDigit at h
    rcases h with ⟨h1, h2, rfl⟩ | ⟨h1, h2, rfl⟩ | ⟨h1, h2, rfl⟩
    · exact (key n this).1 (by omega)
    · exact ((key n this).2 (by omega)).1
    · exact ((key n this).2 (by omega)).2

theorem HexDigit.lt {c : Int} {n : Nat} (h : HexDigit c n) : n < 16 := by unfold HexDigit at h; omega

theorem nibbles : ∀ a, a < 16 → ∀ b, b < 16 →
    (BitVec.ofNat 8 a <<< 4 ||| BitVec.ofNat 8 b) = BitVec.ofNat 8 (16 * a + b) := by decide +kernel

/-! ### parsing on lists -/

def takeB : List Int → Option (BitVec 8 × List Int)
  | h :: l :: r => do
    let a ← hv h
    let b ← hv l
    some (a <<< 4 ||| b, r)
  | _ => none

def skip (hd : Bool) (n : Nat) (s : List Int) : Option (List Int × Bool) :=
  if n = 4 then
    match s with
    | c :: r => if c = dash then some (r, true) else some (s, false)
    | [] => none
  else if n = 6 ∨ n = 8 ∨ n = 10 then
    if hd then
      match s with
      | c :: r => if c = dash then some (r, hd) else none
      | [] => none
    else some (s, hd)
  else some (s, hd)

def parse (ob : Int) (hd : Bool) (args : Bytes) (s : List Int) : Nat → Option Bytes
  | 0 =>
    if ob = 0 then some args
    else
      match s with
      | c :: _ => if ob = lbrace ∧ c = rbrace then some args else none
      | [] => none
  | k + 1 => do
    let (s, hd) ← skip hd args.length s
    let (b, s) ← takeB s
    parse ob hd (args ++ [b]) s k

theorem rbind_throw {α β : Type} (e : Exn) (f : α → Ret β) : (Ret.throw e >>= f) = .throw e := rfl
theorem rbind_ret {α β : Type} (a : α) (f : α → Ret β) : (Ret.ret a >>= f) = f a := rfl
theorem rbind_pure {α β : Type} (a : α) (f : α → Ret β) : ((pure a : Ret α) >>= f) = f a := rfl

/-- after the digits of a byte only the remaining input matters -/
theorem genByte_eq (c : Int) (r : List Int) (β : Type) (f : BitVec 8 × NC → Ret β) (g : BitVec 8 × List Int → Option β)
    (hfg : ∀ b c s, f (b, c, s) = ofOpt (g (b, s))) :
    (genByte (c, r) >>= f) = ofOpt ((takeB (c :: r)).bind g) := by
  unfold genByte
  simp only [getValue_eq]
  cases r with
  | nil =>
    simp only [takeB, nextChar]
    cases hv c <;> rfl
  | cons l r =>
    simp only [takeB, nextChar]
    cases hv c with
    | none => rfl
    | some a =>
      simp only [ofOpt, rbind_ret]
      cases hv l with
      | none => rfl
      | some b => exact hfg _ _ _

theorem gen2_eq : ∀ (k : Nat) (c : Int) (s : List Int) (ob : Int) (hd : Bool) (args : Bytes),
    (args ≠ [] → gen2 (c, s) ob hd args k = ofOpt (parse ob hd args s k)) ∧
    (args = [] → 0 < k → gen2 (c, s) ob hd args k = ofOpt (parse ob hd args (c :: s) k)) := by
  intro k
  induction k with
  | zero =>
    intro c s ob hd args
    refine ⟨fun _ => ?_, fun _ h => by omega⟩
    unfold gen2 parse
    split
    · rfl
    · cases s with
      | nil => rfl
      | cons d s =>
        show (if ob = lbrace ∧ d = rbrace then pure args else Ret.throw .runtimeError) = _
        simp only
        split <;> rfl
  | succ k ih =>
    intro c s ob hd args
    have step : ∀ (c : Int) (s : List Int) (hd : Bool),
        (genByte (c, s) >>= fun x => gen2 x.2 ob hd (args ++ [x.1]) k)
        = ofOpt ((takeB (c :: s)).bind fun x => parse ob hd (args ++ [x.1]) x.2 k) :=
      fun c s hd => genByte_eq c s _ _ _ (fun b c s => (ih c s ob hd (args ++ [b])).1 (by simp))
    constructor
    · intro hne
      have hn : args.length ≠ 0 := by simpa using hne
      rw [gen2, parse, enter, if_neg hn, skip.eq_def]
      cases s with
      | nil =>
        simp only [nextChar, rbind_throw]
        split
        · rfl
        · split
          · split <;> rfl
          · rfl
      | cons d s =>
        simp only [nextChar, rbind_ret]
        by_cases h4 : args.length = 4
        · rw [if_pos h4, if_pos h4]
          by_cases hda : d = dash
          · simp only [if_pos hda]
            cases s with
            | nil => rfl
            | cons e s => simp only [rbind_ret, rbind_pure]; exact step e s true
          · simp only [if_neg hda, rbind_pure]; exact step d s false
        · rw [if_neg h4, if_neg h4]
          by_cases h6 : args.length = 6 ∨ args.length = 8 ∨ args.length = 10
          · rw [if_pos h6, if_pos h6]
            cases hd with
            | false => exact step d s false
            | true =>
              simp only [if_true]
              by_cases hda : d = dash
              · simp only [if_pos hda]
                cases s with
                | nil => rfl
                | cons e s => simp only [rbind_ret, rbind_pure]; exact step e s true
              · simp only [if_neg hda]; rfl
          · rw [if_neg h6, if_neg h6]; exact step d s hd
    · rintro rfl _
      rw [gen2, parse, enter, if_pos (by rfl), show skip hd ([] : Bytes).length (c :: s) = some (c :: s, hd) from rfl]
      exact step c s hd

theorem makeUuid_eq (s : List Int) : makeUuid s = ofOpt (match s with
    | [] => none
    | c :: r => if c = lbrace then parse lbrace false [] r 16 else parse 0 false [] s 16) := by
  cases s with
  | nil => rfl
  | cons c r =>
    simp only [makeUuid, nextChar, rbind_ret]
    by_cases h : c = lbrace
    · subst h
      simp only [if_true]
      cases r with
      | nil => rfl
      | cons d r => exact (gen2_eq 16 d r lbrace false []).2 rfl (by omega)
    · simp only [if_neg h]
      exact (gen2_eq 16 c r 0 false []).2 rfl (by omega)

/-! ### runs of bytes -/

def hexRun : Nat → List Int → Option (Bytes × List Int)
  | 0, s => some ([], s)
  | n + 1, s => do
    let (b, s) ← takeB s
    let (bs, s) ← hexRun n s
    some (b :: bs, s)

theorem takeB_iff (s : List Int) (b : BitVec 8) (r : List Int) :
    takeB s = some (b, r) ↔ ∃ h l m n, HexDigit h m ∧ HexDigit l n ∧ b = BitVec.ofNat 8 (16 * m + n) ∧ s = h :: l :: r := by
  constructor
  · intro h
    match s, h with
    | hc :: l :: r', hh =>
      simp only [takeB, Option.bind_eq_bind, Option.bind_eq_some_iff, Option.some.injEq, Prod.mk.injEq] at hh
      obtain ⟨x, hx, y, hy, e1, rfl⟩ := hh
      obtain ⟨m, hm, rfl⟩ := (hv_iff _ _).1 hx
      obtain ⟨n, hn, rfl⟩ := (hv_iff _ _).1 hy
      exact ⟨hc, l, m, n, hm, hn, by rw [← e1, nibbles m (HexDigit.lt hm) n (HexDigit.lt hn)], rfl⟩
  · rintro ⟨h, l, m, n, hm, hn, rfl, rfl⟩
    simp only [takeB, (hv_iff h _).2 ⟨m, hm, rfl⟩, (hv_iff l _).2 ⟨n, hn, rfl⟩, Option.bind_eq_bind, Option.bind_some]
    rw [nibbles m (HexDigit.lt hm) n (HexDigit.lt hn)]

theorem hexRun_iff : ∀ (n : Nat) (s : List Int) (bs : Bytes) (r : List Int),
    hexRun n s = some (bs, r) ↔ ∃ t, s = t ++ r ∧ Hex t bs ∧ bs.length = n := by
  intro n
  induction n with
  | zero =>
    intro s bs r
    simp only [hexRun, Option.some.injEq, Prod.mk.injEq]
    constructor
    · rintro ⟨rfl, rfl⟩; exact ⟨[], rfl, .nil, rfl⟩
    · rintro ⟨t, rfl, ht, hl⟩
      cases ht with
      | nil => simp
      | cons => simp at hl
  | succ n ih =>
    intro s bs r
    simp only [hexRun, Option.bind_eq_bind, Option.bind_eq_some_iff, Option.some.injEq, Prod.mk.injEq, Prod.exists]
    constructor
    · rintro ⟨b, s', hb, bs', r', hr, rfl, rfl⟩
      obtain ⟨h, l, m, k, hm, hk, rfl, rfl⟩ := (takeB_iff _ _ _).1 hb
      obtain ⟨t, rfl, ht, hl⟩ := (ih _ _ _).1 hr
      exact ⟨h :: l :: t, rfl, .cons hm hk ht, by simp [hl]⟩
    · rintro ⟨t, rfl, ht, hl⟩
      cases ht with
      | nil => simp at hl
      | @cons h l m k t bs hm hk ht =>
        exact ⟨_, t ++ r, (takeB_iff _ _ _).2 ⟨h, l, m, k, hm, hk, rfl, rfl⟩, bs, r, (ih _ _ _).2 ⟨t, rfl, ht, by simpa using hl⟩, rfl, rfl⟩

theorem parse_run (ob : Int) (hd : Bool) : ∀ (j k : Nat) (args : Bytes) (s : List Int),
    (∀ i, i < j → ∀ s, skip hd (args.length + i) s = some (s, hd)) →
    parse ob hd args s (j + k) = (hexRun j s).bind fun x => parse ob hd (args ++ x.1) x.2 k := by
  intro j
  induction j with
  | zero => intro k args s _; simp [hexRun]
  | succ j ih =>
    intro k args s h
    rw [show j + 1 + k = j + k + 1 by omega, parse, show skip hd args.length s = some (s, hd) from h 0 (by omega) s, hexRun]
    simp only [Option.bind_eq_bind, Option.bind_some]
    cases takeB s with
    | none => rfl
    | some x =>
      obtain ⟨b, s'⟩ := x
      simp only [Option.bind_some]
      rw [ih k (args ++ [b]) s' (fun i hi s => by have := h (i + 1) (by omega) s; rw [← this]; congr 1; simp; omega)]
      cases hexRun j s' with
      | none => rfl
      | some y => simp

/-- a dash decides the rest: first byte after a place where a dash may be -/
theorem parse_dash (ob : Int) (hd : Bool) (args : Bytes) (s : List Int) (k : Nat) (hd' : Bool) (s' : List Int)
    (h : skip hd args.length s = some (s', hd')) :
    parse ob hd args s (k + 1) = (takeB s').bind fun x => parse ob hd' (args ++ [x.1]) x.2 k := by
  rw [parse, h]; rfl

/-- run of `j + 1` bytes of which the first is at a dash place -/
theorem parse_group (ob : Int) (hd hd' : Bool) (args : Bytes) (s s' : List Int) (j k : Nat)
    (h : skip hd args.length s = some (s', hd'))
    (hn : ∀ i, i < j → ∀ s, skip hd' (args.length + 1 + i) s = some (s, hd')) :
    parse ob hd args s (j + 1 + k) = (hexRun (j + 1) s').bind fun x => parse ob hd' (args ++ x.1) x.2 k := by
  rw [show j + 1 + k = j + k + 1 by omega, parse, h, hexRun]
  simp only [Option.bind_eq_bind, Option.bind_some]
  cases takeB s' with
  | none => rfl
  | some x =>
    obtain ⟨b, s''⟩ := x
    simp only [Option.bind_some]
    rw [parse_run ob hd' j k (args ++ [b]) s'' (fun i hi s => by have := hn i hi s; rw [← this]; congr 1; simp)]
    cases hexRun j s'' with
    | none => rfl
    | some y => simp

/-- the end of the input: nothing, or a closing brace -/
def EndOk (ob : Int) (s : List Int) : Prop := ob = 0 ∨ (ob = lbrace ∧ ∃ r, s = rbrace :: r)

theorem parse_zero (ob : Int) (hd : Bool) (args : Bytes) (s : List Int) (bs : Bytes) :
    parse ob hd args s 0 = some bs ↔ EndOk ob s ∧ bs = args := by
  unfold parse EndOk
  by_cases h0 : ob = 0
  · simp [h0, eq_comm]
  · simp only [if_neg h0, h0, false_or]
    cases s with
    | nil => simp
    | cons c s =>
      simp only [if_false]
      by_cases h : ob = lbrace ∧ c = rbrace
      · rw [if_pos h]; simp [h, eq_comm]
      · rw [if_neg h]
        constructor
        · intro h'; cases h'
        · rintro ⟨⟨h1, r, h2⟩, -⟩
          exact absurd ⟨h1, (List.cons.inj h2).1⟩ h

theorem skip_plain {hd : Bool} {n : Nat} (h : n ≠ 4 ∧ n ≠ 6 ∧ n ≠ 8 ∧ n ≠ 10) (s : List Int) : skip hd n s = some (s, hd) := by
  unfold skip; rw [if_neg h.1, if_neg (by omega)]
theorem skip_false {n : Nat} (h : n ≠ 4) (s : List Int) : skip false n s = some (s, false) := by
  unfold skip; rw [if_neg h]; split <;> rfl

theorem _root_.Sprout.Spec.Uuid.Hex.length {s : List Int} {bs : Bytes} (h : Hex s bs) : s.length = 2 * bs.length := by
  induction h with
  | nil => rfl
  | cons _ _ _ ih => simp [ih]; omega

theorem _root_.Sprout.Spec.Uuid.Hex.append {s t : List Int} {bs cs : Bytes} (h : Hex s bs) (h' : Hex t cs) : Hex (s ++ t) (bs ++ cs) := by
  induction h with
  | nil => exact h'
  | cons a b _ ih => exact .cons a b ih

theorem _root_.Sprout.Spec.Uuid.Hex.split {s : List Int} {bs : Bytes} (h : Hex s bs) : ∀ n, n ≤ bs.length → Hex (s.take (2 * n)) (bs.take n) ∧ Hex (s.drop (2 * n)) (bs.drop n) := by
  induction h with
  | nil => intro n hn; have : n = 0 := by simpa using hn
           subst this; exact ⟨.nil, .nil⟩
  | cons a b h ih =>
    intro n hn
    cases n with
    | zero => exact ⟨.nil, .cons a b h⟩
    | succ n =>
      have := ih n (by simpa using hn)
      rw [show 2 * (n + 1) = 2 * n + 1 + 1 by omega]
      exact ⟨.cons a b this.1, this.2⟩

/-- a hexadecimal text does not begin with a dash -/
theorem _root_.Sprout.Spec.Uuid.Hex.not_dash {c : Int} {s : List Int} {bs : Bytes} (h : Hex (c :: s) bs) : c ≠ dash ∧ c ≠ lbrace := by
  cases h with
  | cons hm _ _ => unfold HexDigit at hm; unfold dash lbrace; omega

theorem parse_iff (ob : Int) (s : List Int) (bs : Bytes) :
    parse ob false [] s 16 = some bs ↔ ∃ t r, s = t ++ r ∧ Body t bs ∧ EndOk ob r := by
  rw [show (16 : Nat) = 4 + 12 from rfl, parse_run ob false 4 12 [] s (fun i hi s => skip_plain (by simp; omega) s)]
  have at4 : ∀ (b1 : Bytes) (r1 : List Int), b1.length = 4 →
      (parse ob false b1 r1 12 = some bs ↔
        (∃ t r b, r1 = t ++ r ∧ Hex t b ∧ b.length = 12 ∧ EndOk ob r ∧ bs = b1 ++ b) ∨
        (∃ s2 s3 s4 s5 b2 b3 b4 b5 r, r1 = [45] ++ s2 ++ [45] ++ s3 ++ [45] ++ s4 ++ [45] ++ s5 ++ r ∧ Hex s2 b2 ∧ Hex s3 b3 ∧ Hex s4 b4 ∧ Hex s5 b5 ∧
          b2.length = 2 ∧ b3.length = 2 ∧ b4.length = 2 ∧ b5.length = 6 ∧ EndOk ob r ∧ bs = b1 ++ b2 ++ b3 ++ b4 ++ b5)) := by
    intro b1 r1 hb1
    cases r1 with
    | nil =>
      have : parse ob false b1 [] 12 = none := by
        rw [parse, hb1]; rfl
      rw [this]
      constructor
      · intro h; cases h
      · rintro (⟨t, r, b, h1, h2, h3, -⟩ | ⟨s2, s3, s4, s5, b2, b3, b4, b5, r, h, -⟩)
        · have := h2.length
          have : t = [] := by simpa using (List.append_eq_nil_iff.1 h1.symm).1
          subst this; simp at *; omega
        · simp at h
    | cons c r1 =>
      by_cases hc : c = dash
      · subst hc
        have hsk : skip false b1.length (dash :: r1) = some (r1, true) := by rw [skip, hb1]; rfl
        rw [show (12 : Nat) = 1 + 1 + 10 from rfl, parse_group ob false true b1 _ r1 1 10 hsk (fun i hi s => skip_plain (by omega) s)]
        have grp : ∀ (j k : Nat) (b : Bytes) (s : List Int), (b.length = 6 ∨ b.length = 8 ∨ b.length = 10) →
            (∀ i, i < j → b.length + 1 + i ≠ 8 ∧ b.length + 1 + i ≠ 10) → ∀ out,
            (parse ob true b s (j + 1 + k) = some out ↔
              ∃ t b' r, s = [45] ++ t ++ r ∧ Hex t b' ∧ b'.length = j + 1 ∧ parse ob true (b ++ b') r k = some out) := by
          intro j k b s hb hj out
          cases s with
          | nil =>
            have : parse ob true b [] (j + 1 + k) = none := by
              rw [show j + 1 + k = j + k + 1 by omega, parse, skip, if_neg (by omega), if_pos hb]; rfl
            rw [this]; simp
          | cons c s =>
            by_cases hc : c = dash
            · subst hc
              have hsk : skip true b.length (dash :: s) = some (s, true) := by rw [skip, if_neg (by omega), if_pos hb]; rfl
              rw [parse_group ob true true b _ s j k hsk (fun i hi s => by have := hj i hi; exact skip_plain (by omega) s)]
              simp only [Option.bind_eq_some_iff, Prod.exists, hexRun_iff]
              constructor
              · rintro ⟨b', r, ⟨t, rfl, ht, hl⟩, hp⟩; exact ⟨t, b', r, rfl, ht, hl, hp⟩
              · rintro ⟨t, b', r, he, ht, hl, hp⟩
                refine ⟨b', r, ⟨t, ?_, ht, hl⟩, hp⟩
                simpa [dash] using he
            · have : parse ob true b (c :: s) (j + 1 + k) = none := by
                rw [show j + 1 + k = j + k + 1 by omega, parse, skip, if_neg (by omega), if_pos hb]
                simp [hc]
              rw [this]
              constructor
              · intro h; cases h
              · rintro ⟨t, b', r, he, -⟩
                simp only [List.cons_append, List.nil_append, List.cons.injEq] at he
                exact absurd he.1 hc
        simp only [Option.bind_eq_some_iff, Prod.exists, hexRun_iff]
        constructor
        · rintro ⟨b2, r2, ⟨s2, rfl, h2, l2⟩, hp⟩
          replace hp := (grp 1 8 _ _ (by simp; omega) (by simp; omega) _).1 hp
          obtain ⟨s3, b3, r3, rfl, h3, l3, hp⟩ := hp
          replace hp := (grp 1 6 _ _ (by simp; omega) (by simp; omega) _).1 hp
          obtain ⟨s4, b4, r4, rfl, h4, l4, hp⟩ := hp
          replace hp := (grp 5 0 _ _ (by simp; omega) (by simp; omega) _).1 hp
          obtain ⟨s5, b5, r5, rfl, h5, l5, hp⟩ := hp
          rw [parse_zero] at hp
          exact Or.inr ⟨s2, s3, s4, s5, b2, b3, b4, b5, r5, by simp [dash], h2, h3, h4, h5, l2, l3, l4, l5, hp.1, hp.2⟩
        · rintro (⟨t, r, b, h1, h2, h3, -⟩ | ⟨s2, s3, s4, s5, b2, b3, b4, b5, r, he, h2, h3, h4, h5, l2, l3, l4, l5, hend, rfl⟩)
          · exfalso
            cases h2 with
            | nil => simp at h3
            | cons hm hk ht =>
              simp only [List.cons_append, List.cons.injEq] at h1
              obtain ⟨rfl, -⟩ := h1
              exact absurd rfl (Hex.not_dash (.cons hm hk ht)).1
          · refine ⟨b2, _, ⟨s2, by simpa [dash] using he, h2, l2⟩, ?_⟩
            refine (grp 1 8 _ _ (by simp; omega) (by simp; omega) _).2 ?_
            refine ⟨s3, b3, [45] ++ s4 ++ [45] ++ s5 ++ r, by simp, h3, l3, ?_⟩
            refine (grp 1 6 _ _ (by simp; omega) (by simp; omega) _).2 ?_
            refine ⟨s4, b4, [45] ++ s5 ++ r, by simp, h4, l4, ?_⟩
            refine (grp 5 0 _ _ (by simp; omega) (by simp; omega) _).2 ?_
            refine ⟨s5, b5, r, by simp, h5, l5, ?_⟩
            rw [parse_zero]
            exact ⟨hend, rfl⟩
      · have hsk : skip false b1.length (c :: r1) = some (c :: r1, false) := by rw [skip, hb1]; simp [hc]
        rw [show (12 : Nat) = 11 + 1 + 0 from rfl, parse_group ob false false b1 _ (c :: r1) 11 0 hsk (fun i hi s => skip_false (by omega) s)]
        simp only [Option.bind_eq_some_iff, Prod.exists, hexRun_iff, parse_zero]
        constructor
        · rintro ⟨b, r, ⟨t, he, ht, hl⟩, hend, rfl⟩
          exact Or.inl ⟨t, r, b, he, ht, hl, hend, rfl⟩
        · rintro (⟨t, r, b, he, ht, hl, hend, rfl⟩ | ⟨s2, s3, s4, s5, b2, b3, b4, b5, r, he, -⟩)
          · exact ⟨b, r, ⟨t, he, ht, hl⟩, hend, rfl⟩
          · simp only [List.cons_append, List.nil_append, List.append_assoc, List.cons.injEq] at he
            exact absurd he.1 hc
  simp only [Option.bind_eq_some_iff, Prod.exists, hexRun_iff, List.nil_append]
  constructor
  · rintro ⟨b1, r1, ⟨s1, rfl, h1, l1⟩, hp⟩
    rcases (at4 b1 r1 l1).1 hp with ⟨t, r, b, rfl, ht, hl, hend, rfl⟩ | ⟨s2, s3, s4, s5, b2, b3, b4, b5, r, rfl, h2, h3, h4, h5, l2, l3, l4, l5, hend, rfl⟩
    · exact ⟨s1 ++ t, r, by simp, .plain (Hex.append h1 ht) (by simp; omega), hend⟩
    · exact ⟨_, r, by simp, .dashed h1 h2 h3 h4 h5 l1 l2 l3 l4 l5, hend⟩
  · rintro ⟨t, r, rfl, hb, hend⟩
    cases hb with
    | plain h hl =>
      obtain ⟨ha, hb⟩ := Hex.split h 4 (by omega)
      refine ⟨bs.take 4, t.drop 8 ++ r, ⟨t.take 8, by rw [← List.append_assoc, List.take_append_drop], ha, by simp; omega⟩, ?_⟩
      rw [at4 _ _ (by simp; omega)]
      exact Or.inl ⟨t.drop 8, r, bs.drop 4, rfl, hb, by simp; omega, hend, (List.take_append_drop _ _).symm⟩
    | @dashed s1 s2 s3 s4 s5 b1 b2 b3 b4 b5 h1 h2 h3 h4 h5 l1 l2 l3 l4 l5 =>
      refine ⟨b1, [45] ++ s2 ++ [45] ++ s3 ++ [45] ++ s4 ++ [45] ++ s5 ++ r, ⟨s1, by simp, h1, l1⟩, ?_⟩
      rw [at4 _ _ l1]
      exact Or.inr ⟨s2, s3, s4, s5, b2, b3, b4, b5, r, rfl, h2, h3, h4, h5, l2, l3, l4, l5, hend, rfl⟩

theorem _root_.Sprout.Spec.Uuid.Body.nonempty {s : List Int} {bs : Bytes} (h : Body s bs) : ∃ c r, s = c :: r ∧ c ≠ lbrace := by
  have key : ∀ {s bs}, Hex s bs → bs.length ≠ 0 → ∃ c r, s = c :: r ∧ c ≠ lbrace := by
    intro s bs h hl
    cases h with
    | nil => simp at hl
    | cons hm hk ht => exact ⟨_, _, rfl, (Hex.not_dash (.cons hm hk ht)).2⟩
  cases h with
  | plain h hl => exact key h (by omega)
  | dashed h1 _ _ _ _ l1 _ _ _ _ =>
    obtain ⟨c, r, rfl, hc⟩ := key h1 (by omega)
    exact ⟨c, _, by simp only [List.cons_append]; rfl, hc⟩

/-- what the parser accepts: a textual form followed by anything -/
theorem makeUuid_iff (s : List Int) (bs : Bytes) :
    makeUuid s = .ret bs ↔ ∃ t r, s = t ++ r ∧ Form t bs := by
  rw [makeUuid_eq, ofOpt_ret]
  cases s with
  | nil =>
    constructor
    · intro h; cases h
    · rintro ⟨t, r, he, hf⟩
      have : t = [] := (List.append_eq_nil_iff.1 he.symm).1
      subst this
      exfalso
      generalize hu : ([] : List Int) = u at hf
      cases hf with
      | bare hb => obtain ⟨c, r, rfl, -⟩ := Body.nonempty hb; cases hu
      | braced hb => simp at hu
  | cons c s =>
    simp only
    by_cases hc : c = lbrace
    · subst hc
      rw [if_pos rfl, parse_iff]
      constructor
      · rintro ⟨t, r, rfl, hb, hend⟩
        rcases hend with h | ⟨-, r', rfl⟩
        · exact absurd h (by decide)
        · exact ⟨_, r', by simp [lbrace, rbrace], .braced hb⟩
      · rintro ⟨t, r, he, hf⟩
        cases hf with
        | bare hb =>
          obtain ⟨c, r', rfl, hc⟩ := Body.nonempty hb
          simp only [List.cons_append, List.cons.injEq] at he
          exact absurd he.1.symm hc
        | @braced t _ hb =>
          refine ⟨t, [125] ++ r, ?_, hb, Or.inr ⟨rfl, r, rfl⟩⟩
          simpa [lbrace] using he
    · rw [if_neg hc, parse_iff]
      constructor
      · rintro ⟨t, r, he, hb, -⟩
        exact ⟨t, r, he, .bare hb⟩
      · rintro ⟨t, r, he, hf⟩
        cases hf with
        | bare hb => exact ⟨t, r, he, hb, Or.inl rfl⟩
        | braced hb =>
          simp only [List.cons_append, List.nil_append, List.append_assoc, List.cons.injEq] at he
          exact absurd he.1 hc

/-- otherwise it throws `runtime_error` -/
theorem makeUuid_range (s : List Int) : (∃ bs, makeUuid s = .ret bs) ∨ makeUuid s = .throw .runtimeError := by
  rw [makeUuid_eq]
  generalize (match s with
    | [] => none
    | c :: r => if c = lbrace then parse lbrace false [] r 16 else parse 0 false [] s 16) = o
  cases o with
  | none => exact Or.inr rfl
  | some b => exact Or.inl ⟨b, rfl⟩

/-! ### printing -/

theorem hv_digits : ∀ n : Fin 16, ∃ v, hv (digits[n.val]'(Nat.lt_trans n.2 (by decide))) = some v ∧ v = BitVec.ofNat 8 n.val := by decide

theorem hex2_spec : ∀ b : BitVec 8, ∃ h l, hex2 b = some [h, l] ∧ Hex [h, l] [b] := by
  intro b
  have key : ∀ n : Fin 16, ∃ c, digits[n.val]? = some c ∧ HexDigit c n.val := by
    intro n
    have h : n.val < digits.length := by have := n.2; simp [digits]; omega
    refine ⟨digits[n.val], List.getElem?_eq_getElem h, ?_⟩
    obtain ⟨v, hv', he⟩ := hv_digits n
    obtain ⟨m, hm, e⟩ := (hv_iff _ _).1 hv'
    have hm16 := HexDigit.lt hm
    have : m = n.val := by
      have := he.symm.trans e
      have := congrArg BitVec.toNat this
      simp at this; omega
    exact this ▸ hm
  have hh : ((b >>> 4) &&& 0x0F).toNat < 16 := by
    have : ∀ b : BitVec 8, ((b >>> 4) &&& 0x0F).toNat < 16 := by decide +kernel
    exact this b
  have hl : (b &&& 0x0F).toNat < 16 := by
    have : ∀ b : BitVec 8, (b &&& 0x0F).toNat < 16 := by decide +kernel
    exact this b
  have hb : BitVec.ofNat 8 (16 * ((b >>> 4) &&& 0x0F).toNat + (b &&& 0x0F).toNat) = b := by
    have : ∀ b : BitVec 8, BitVec.ofNat 8 (16 * ((b >>> 4) &&& 0x0F).toNat + (b &&& 0x0F).toNat) = b := by decide +kernel
    exact this b
  obtain ⟨c, hc1, hc2⟩ := key ⟨_, hh⟩
  obtain ⟨d, hd1, hd2⟩ := key ⟨_, hl⟩
  refine ⟨c, d, ?_, ?_⟩
  · simp only [hex2]; simp only [] at hc1 hd1; rw [hc1, hd1]; rfl
  · have := Hex.cons hc2 hd2 .nil
    simpa only [hb] using this

theorem hexN_spec (u : Bytes) : ∀ (n i : Nat), i + n ≤ u.length → ∃ t, hexN u i n = some t ∧ Hex t ((u.drop i).take n) := by
  intro n
  induction n with
  | zero => intro i _; exact ⟨[], rfl, by simp; exact .nil⟩
  | succ n ih =>
    intro i hi
    obtain ⟨t, ht, hx⟩ := ih (i + 1) (by omega)
    obtain ⟨h, l, hb, hh⟩ := hex2_spec u[i]
    refine ⟨[h, l] ++ t, ?_, ?_⟩
    · rw [hexN, List.getElem?_eq_getElem (by omega)]
      simp only [Option.bind_eq_bind, Option.bind_some, hb, ht]
    · rw [List.drop_eq_getElem_cons (by omega), List.take_succ_cons]
      exact Hex.append hh hx

theorem toString_spec (u : Bytes) (hu : u.length = 16) :
    ∃ t, toString u = some t ∧ t.length = 36 ∧ Body t u := by
  obtain ⟨a, ha, xa⟩ := hexN_spec u 4 0 (by omega)
  obtain ⟨b, hb, xb⟩ := hexN_spec u 2 4 (by omega)
  obtain ⟨c, hc, xc⟩ := hexN_spec u 2 6 (by omega)
  obtain ⟨d, hd, xd⟩ := hexN_spec u 2 8 (by omega)
  obtain ⟨e, he, xe⟩ := hexN_spec u 6 10 (by omega)
  have la := xa.length; have lb := xb.length; have lc := xc.length; have ld := xd.length; have le := xe.length
  simp only [List.length_take, List.length_drop] at la lb lc ld le
  refine ⟨a ++ dash :: (b ++ dash :: (c ++ dash :: (d ++ dash :: e))), ?_, ?_, ?_⟩
  · rw [toString, ha, hb, hc, hd, he]; rfl
  · simp; omega
  · have := Body.dashed xa xb xc xd xe (by simp; omega) (by simp; omega) (by simp; omega) (by simp; omega) (by simp; omega)
    have e1 : (u.drop 0).take 4 ++ (u.drop 4).take 2 ++ (u.drop 6).take 2 ++ (u.drop 8).take 2 ++ (u.drop 10).take 6 = u := by
      match u, hu with
      | [_, _, _, _, _, _, _, _, _, _, _, _, _, _, _, _], _ => rfl
    rw [e1] at this
    simpa [dash] using this

end Sprout.Uuid
