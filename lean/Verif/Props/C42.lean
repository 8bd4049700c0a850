import Verif.Model.Ook
import Verif.Proofs.Ascii

/-!
# C42: Ook! to brainfuck

Refuted: all eight pairs are translated to `>`. With the intended replacements the translation is right (`C42_repaired`); what holds of the code as it
is: every pair becomes one character and every character between pairs one space.
-/

namespace Sprout
open Ook Spec

/-! ## the language, independently -/

/-- the eight pairs of Ook! and their meaning: `> < + - . , [ ]` -/
def OokTable : List ((Int × Int) × Int) :=
  [((46, 63), 62), ((63, 46), 60), ((46, 46), 43), ((33, 33), 45), ((33, 46), 46), ((46, 33), 44), ((33, 63), 91), ((63, 33), 93)]

/-- an instruction in a text: entry of the table, white space between the two words, white space after them -/
structure OokItem where
  e : (Int × Int) × Int
  ws1 : List Int
  ws2 : List Int

def White (w : List Int) : Prop := ∀ c ∈ w, Ctype.space c

def OokItem.Ok (i : OokItem) : Prop := i.e ∈ OokTable ∧ White i.ws1 ∧ White i.ws2

def OokItem.text (i : OokItem) : List Int := [79, 111, 111, 107, i.e.1.1] ++ i.ws1 ++ [79, 111, 111, 107, i.e.1.2] ++ i.ws2

/-- its translation: the instruction and a blank for every following white space character -/
def OokItem.trans (i : OokItem) : List Int := i.e.2 :: List.replicate i.ws2.length 32

/-- the full statement -/
def C42_statement (f : List Int → List Int → Option (List Int × Bool)) : Prop :=
  ∀ (ws : List Int) (p : List OokItem) (result : List Int), White ws → (∀ i ∈ p, i.Ok) →
    let t := List.replicate ws.length 32 ++ (p.map OokItem.trans).flatten
    f (ws ++ (p.map OokItem.text).flatten) result = some (t.take result.length ++ result.drop t.length, true)

/-! ## proofs -/

private theorem isspace_white {c : Int} (h : Ctype.space c) : Ascii.isspace c = true := by
  have hc : Ascii.IsChar c := by
    unfold Ctype.space at h; unfold Ascii.IsChar; omega
  rw [Ascii.isspace_eq hc]; simpa using h

private theorem spaces_tok (w : List Int) (hw : White w) (b : Int) (r : List Int) : spaces (w ++ (tok b ++ r)) = tok b ++ r := by
  induction w with
  | nil => show (if Ascii.isspace 79 then _ else _) = _; rw [if_neg (by decide)]; rfl
  | cons c w ih =>
    show (if Ascii.isspace c then _ else _) = _
    rw [if_pos (isspace_white (hw c (by simp)))]
    exact ih (fun x hx => hw x (by simp [hx]))

private theorem lit_tok (a b : Int) (r : List Int) : lit (tok a) (tok b ++ r) = if b = a then some r else none := by
  unfold lit tok
  by_cases h : b = a
  · simp [h]
  · simp [h]

private theorem lit_ne (a c : Int) (r : List Int) (h : c ≠ 79) : lit (tok a) (c :: r) = none := by
  unfold lit tok
  rw [if_neg]
  simp [h]

private theorem alt_ne (c : Int) (r : List Int) (h : c ≠ 79) (l : List ((Int × Int) × Int)) : alt (c :: r) l = some (32, r) := by
  induction l with
  | nil => rfl
  | cons x l ih =>
    obtain ⟨⟨a, b⟩, v⟩ := x
    have : pair (tok a) (tok b) (c :: r) = none := by unfold pair; rw [lit_ne a c r h]; rfl
    unfold alt
    rw [this]
    exact ih

private theorem pair_tok (a b a' b' : Int) (w : List Int) (hw : White w) (r : List Int) :
    pair (tok a') (tok b') (tok a ++ (w ++ (tok b ++ r))) = if a = a' ∧ b = b' then some r else none := by
  unfold pair
  rw [lit_tok]
  by_cases h : a = a'
  · simp only [h, if_true, Option.bind_eq_bind, Option.bind_some, true_and]
    rw [spaces_tok w hw, lit_tok]
  · simp [h]

/-- the alternatives on a pair: the entry of the table -/
private theorem alt_pair (l : List ((Int × Int) × Int)) (a b v : Int) (w : List Int) (hw : White w) (r : List Int) (hm : ((a, b), v) ∈ l)
    (hu : (l.map Prod.fst).Nodup) : alt (tok a ++ (w ++ (tok b ++ r))) l = some (v, r) := by
  induction l with
  | nil => simp at hm
  | cons x l ih =>
    obtain ⟨⟨a', b'⟩, v'⟩ := x
    unfold alt
    rw [pair_tok a b a' b' w hw r]
    by_cases h : a = a' ∧ b = b'
    · obtain ⟨rfl, rfl⟩ := h
      rw [if_pos ⟨rfl, rfl⟩]
      simp only [Option.some.injEq, Prod.mk.injEq, and_true]
      simp only [List.mem_cons, Prod.mk.injEq, true_and] at hm
      rcases hm with hm | hm
      · exact hm.symm
      · simp only [List.map_cons, List.nodup_cons, List.mem_map, not_exists, not_and] at hu
        exact absurd rfl (hu.1 _ hm)
    · rw [if_neg h]
      simp only [List.mem_cons, Prod.mk.injEq] at hm
      rcases hm with hm | hm
      · exact absurd hm.1 h
      · exact ih hm (by simp only [List.map_cons, List.nodup_cons] at hu; exact hu.2)

private def keep (N : Nat) (acc t : List Int) : List Int := acc ++ t.take (N - acc.length)

private theorem keep_cons (N : Nat) (acc : List Int) (v : Int) (t : List Int) :
    keep N (if acc.length < N then acc ++ [v] else acc) t = keep N acc (v :: t) := by
  unfold keep
  split
  · rw [List.length_append, show N - acc.length = (N - (acc.length + [v].length)) + 1 by simp; omega]
    simp
  · rw [show N - acc.length = 0 by omega]; simp

private theorem star_end (codes : List Int) (hc : codes.length = 8) (N : Nat) (acc : List Int) : star codes N [] acc = some acc := by
  rw [star]
  have h : ∀ l, alt [] l = none := by
    intro l
    induction l with
    | nil => rfl
    | cons x l ih =>
      obtain ⟨⟨a, b⟩, v⟩ := x
      unfold alt
      rw [show pair (tok a) (tok b) [] = none from rfl]
      exact ih
  rw [h]

private theorem star_white (codes : List Int) (N : Nat) (w : List Int) (hw : White w) : ∀ (s acc : List Int),
    star codes N (w ++ s) acc = star codes N s (keep N acc (List.replicate w.length 32)) := by
  induction w with
  | nil => intro s acc; simp [keep]
  | cons c w ih =>
    intro s acc
    rw [star, List.cons_append, alt_ne c _ (by rintro rfl; have := hw 79 (by simp); revert this; decide)]
    simp only
    rw [ih (fun x hx => hw x (by simp [hx])), keep_cons]
    rfl

private theorem keep_append (N : Nat) (acc t1 t2 : List Int) : keep N (keep N acc t1) t2 = keep N acc (t1 ++ t2) := by
  unfold keep
  rw [List.append_assoc, List.take_append]
  congr 2
  simp only [List.length_append, List.length_take]
  congr 1
  omega

/-- translation with given replacements -/
private theorem star_prog (codes : List Int) (hc : codes.length = 8) (N : Nat) (f : Int × Int → Int)
    (hf : ∀ e ∈ OokTable, (e.1, f e.1) ∈ pairs.zip codes) : ∀ (p : List OokItem), (∀ i ∈ p, i.Ok) → ∀ acc : List Int,
    star codes N (p.map OokItem.text).flatten acc =
      some (keep N acc (p.map (fun i => f i.e.1 :: List.replicate i.ws2.length 32)).flatten) := by
  have hu : ((pairs.zip codes).map Prod.fst).Nodup := by
    rw [List.map_fst_zip (by rw [hc]; decide)]; decide
  intro p
  induction p with
  | nil => intro _ acc; simp [keep, star_end codes hc]
  | cons i p ih =>
    intro hp acc
    obtain ⟨he, h1, h2⟩ := hp i (by simp)
    rw [star]
    have e : ((i :: p).map OokItem.text).flatten = tok i.e.1.1 ++ (i.ws1 ++ (tok i.e.1.2 ++ (i.ws2 ++ (p.map OokItem.text).flatten))) := by
      simp [OokItem.text, tok]
    rw [e, alt_pair _ _ _ (f i.e.1) _ h1 _ (hf i.e he) hu]
    simp only
    rw [star_white codes N i.ws2 h2, ih (fun x hx => hp x (by simp [hx])), keep_append, keep_cons]
    simp

private theorem prog_eq (codes : List Int) (hc : codes.length = 8) (f : Int × Int → Int) (hf : ∀ e ∈ OokTable, (e.1, f e.1) ∈ pairs.zip codes)
    (ws : List Int) (p : List OokItem) (result : List Int) (hw : White ws) (hp : ∀ i ∈ p, i.Ok) :
    let t := List.replicate ws.length 32 ++ (p.map (fun i => f i.e.1 :: List.replicate i.ws2.length 32)).flatten
    toBrainfuckC codes (ws ++ (p.map OokItem.text).flatten) result = some (t.take result.length ++ result.drop t.length, true) := by
  intro t
  unfold toBrainfuckC
  rw [star_white codes _ ws hw, star_prog codes hc _ f hf p hp, keep_append]
  have : keep result.length [] t = t.take result.length := by simp [keep]
  simp only [Option.bind_eq_bind, Option.bind_some]
  rw [show List.replicate ws.length 32 ++ (p.map (fun i => f i.e.1 :: List.replicate i.ws2.length 32)).flatten = t from rfl, this]
  simp only [Option.some.injEq, Prod.mk.injEq, and_true, List.length_take]
  congr 1
  rcases Nat.lt_or_ge t.length result.length with h | h
  · rw [Nat.min_eq_right (by omega)]
  · rw [Nat.min_eq_left h, List.drop_length, List.drop_eq_nil_of_le h]

/-- with the replacements of the language the translation is right -/
theorem C42_repaired : C42_statement toBrainfuckFixed := by
  intro ws p result hw hp
  have := prog_eq [62, 60, 43, 45, 46, 44, 91, 93] rfl (fun e => ((OokTable.lookup e).getD 0)) (by decide) ws p result hw hp
  have e : p.map (fun i => (OokTable.lookup i.e.1).getD 0 :: List.replicate i.ws2.length 32) = p.map OokItem.trans := by
    apply List.map_congr_left
    intro i hi
    have h : ∀ e ∈ OokTable, (OokTable.lookup e.1).getD 0 = e.2 := by decide
    simp only [OokItem.trans, h _ (hp i hi).1]
  rw [e] at this
  exact this

/-- what the code does: every pair becomes `>`. Missing: the other seven instructions, see `C42_false`. -/
theorem C42_code_partial (ws : List Int) (p : List OokItem) (result : List Int) (hw : White ws) (hp : ∀ i ∈ p, i.Ok) :
    let t := List.replicate ws.length 32 ++ (p.map (fun i => 62 :: List.replicate i.ws2.length 32)).flatten
    toBrainfuck (ws ++ (p.map OokItem.text).flatten) result = some (t.take result.length ++ result.drop t.length, true) :=
  prog_eq [62, 62, 62, 62, 62, 62, 62, 62] rfl (fun _ => 62) (by decide) ws p result hw hp

/-- `Ook? Ook.` should become `<` -/
theorem C42_false : ¬ C42_statement toBrainfuck := by
  intro h
  have hp : ∀ i ∈ [(⟨((63, 46), 60), [32], []⟩ : OokItem)], i.Ok := by
    intro i hi
    obtain rfl := List.mem_singleton.1 hi
    exact ⟨by decide, by intro c hc; obtain rfl := List.mem_singleton.1 hc; decide, by intro c hc; cases hc⟩
  have hw : White [] := by intro c hc; cases hc
  have h1 := h [] _ [0] hw hp
  have h2 := C42_code_partial [] _ [0] hw hp
  rw [h2] at h1
  revert h1
  decide

/-- so the translation is not injective on instructions -/
theorem C42_not_injective : toBrainfuck (OokItem.text ⟨((46, 63), 62), [32], []⟩) [0] = toBrainfuck (OokItem.text ⟨((63, 46), 60), [32], []⟩) [0] := by
  have hw : White [] := by intro c hc; cases hc
  have hs : White [32] := by intro c hc; obtain rfl := List.mem_singleton.1 hc; decide
  have h1 := C42_code_partial [] [⟨((46, 63), 62), [32], []⟩] [0] hw (by
    intro i hi; obtain rfl := List.mem_singleton.1 hi; exact ⟨by decide, hs, hw⟩)
  have h2 := C42_code_partial [] [⟨((63, 46), 60), [32], []⟩] [0] hw (by
    intro i hi; obtain rfl := List.mem_singleton.1 hi; exact ⟨by decide, hs, hw⟩)
  simpa using h1.trans h2.symm

/-- not vacuous: the table is a bijection onto the eight instructions, and a program of two instructions -/
example : (OokTable.map Prod.fst).Nodup ∧ (OokTable.map Prod.snd).Nodup ∧ OokTable.length = 8 := by decide

example : toBrainfuckFixed ([79, 111, 111, 107, 46, 32, 79, 111, 111, 107, 46, 10] ++ [79, 111, 111, 107, 33, 79, 111, 111, 107, 46]) [0, 0, 0, 0] =
    some ([43, 32, 46, 0], true) := by
  have hw : White [] := by intro c hc; cases hc
  refine C42_repaired [] [⟨((46, 46), 43), [32], [10]⟩, ⟨((33, 46), 46), [], []⟩] [0, 0, 0, 0] hw ?_
  intro i hi
  simp only [List.mem_cons, List.not_mem_nil, or_false] at hi
  rcases hi with rfl | rfl
  · refine ⟨by decide, ?_, ?_⟩ <;> (intro c hc; obtain rfl := List.mem_singleton.1 hc; decide)
  · exact ⟨by decide, hw, hw⟩

end Sprout
