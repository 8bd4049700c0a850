import Verif.Proofs.Uuid

/-!
# C37: the textual form of a uuid

`make_uuid` is exact on every text that is long enough to decide, but it does not look at what follows the last digit or the
closing brace, so "accepts exactly" is false; what it accepts are the textual forms followed by anything.
-/

namespace Sprout
open Spec Spec.Uuid Uuid

/-- the full statement: the accepted texts are the textual forms -/
def C37_statement : Prop := ∀ (s : List Int) (u : List (BitVec 8)), makeUuid s = .ret u ↔ Form s u

/-- "…ffff" of 34 digits, and a closing brace without an opening one -/
theorem C37_statement_false : ¬ C37_statement := by
  intro h
  have hx : ∀ n, Hex (List.replicate (2 * n) 48) (List.replicate n 0) := by
    intro n
    induction n with
    | zero => exact .nil
    | succ n ih => exact .cons (a := 0) (b := 0) (Or.inl (by omega)) (Or.inl (by omega)) ih
  have hf : Form (List.replicate 32 48) (List.replicate 16 0) := .bare (.plain (hx 16) (by simp))
  have h1 := (makeUuid_iff (List.replicate 32 48 ++ [125]) (List.replicate 16 0)).2 ⟨_, _, rfl, hf⟩
  have h2 := (h _ _).1 h1
  generalize hs : (List.replicate 32 48 ++ [125] : List Int) = s at h2
  generalize hu : (List.replicate 16 0 : List (BitVec 8)) = u at h2
  have e33 : s.length = 33 := by rw [← hs]; simp
  cases h2 with
  | bare hb =>
    cases hb with
    | plain h hl => have := h.length; omega
    | dashed a b c d e la lb lc ld le =>
      have := a.length; have := b.length; have := c.length; have := d.length; have := e.length
      simp only [List.length_append, List.length_cons, List.length_nil] at e33
      omega
  | braced hb =>
    simp only [List.replicate_succ, List.cons_append, List.nil_append, List.cons.injEq] at hs
    exact absurd hs.1 (by decide)

/-- exactly the texts of which a beginning is a textual form are accepted, with the bytes it denotes -/
theorem C37_parse_partial (s : List Int) (u : List (BitVec 8)) :
    makeUuid s = .ret u ↔ ∃ t rest, s = t ++ rest ∧ Form t u := makeUuid_iff s u

/-- every textual form is accepted with the bytes it denotes -/
theorem C37_accepts (s : List Int) (u : List (BitVec 8)) (h : Form s u) : makeUuid s = .ret u :=
  (makeUuid_iff s u).2 ⟨s, [], by simp, h⟩

/-- every other text is rejected with `runtime_error` -/
theorem C37_rejects (s : List Int) (h : ¬ ∃ t rest u, s = t ++ rest ∧ Form t u) : makeUuid s = .throw .runtimeError := by
  rcases makeUuid_range s with ⟨u, hu⟩ | h'
  · obtain ⟨t, r, he, hf⟩ := (makeUuid_iff s u).1 hu
    exact absurd ⟨t, r, u, he, hf⟩ h
  · exact h'

theorem form_length {s : List Int} {u : List (BitVec 8)} (h : Form s u) :
    s.length = 32 ∨ s.length = 34 ∨ s.length = 36 ∨ s.length = 38 := by
  have body : ∀ {s u}, Body s u → s.length = 32 ∨ s.length = 36 := by
    intro s u hb
    cases hb with
    | plain h hl => have := h.length; omega
    | dashed a b c d e la lb lc ld le =>
      have := a.length; have := b.length; have := c.length; have := d.length; have := e.length
      simp only [List.length_append, List.length_cons, List.length_nil]
      omega
  cases h with
  | bare hb => have := body hb; omega
  | braced hb => have := body hb; simp only [List.length_append, List.length_cons, List.length_nil]; omega

/-- texts of up to 32 code units: the property as stated -/
theorem C37_short (s : List Int) (u : List (BitVec 8)) (hs : s.length ≤ 32) : makeUuid s = .ret u ↔ Form s u := by
  rw [makeUuid_iff]
  constructor
  · rintro ⟨t, r, rfl, hf⟩
    have := form_length hf
    simp only [List.length_append] at hs
    have : r = [] := List.length_eq_zero_iff.1 (by omega)
    subst this; simpa using hf
  · intro h; exact ⟨s, [], by simp, h⟩

/-- printing a uuid gives 36 code units in the dashed form -/
theorem C37_print (u : List (BitVec 8)) (hu : u.length = 16) : ∃ s, Uuid.toString u = some s ∧ s.length = 36 ∧ Form s u := by
  obtain ⟨s, h1, h2, h3⟩ := toString_spec u hu
  exact ⟨s, h1, h2, .bare h3⟩

/-- printing and parsing again is the identity -/
theorem C37_roundtrip (u : List (BitVec 8)) (hu : u.length = 16) : ∃ s, Uuid.toString u = some s ∧ makeUuid s = .ret u := by
  obtain ⟨s, h1, _, h3⟩ := C37_print u hu
  exact ⟨s, h1, C37_accepts s u h3⟩

/-- a text that does not denote the same bytes is not accepted as them: the denotation is a function -/
theorem C37_unambiguous (s : List Int) (u v : List (BitVec 8)) (h1 : Form s u) (h2 : Form s v) : u = v :=
  Ret.ret.inj ((C37_accepts s u h1).symm.trans (C37_accepts s v h2))

-- "{01234567-89ab-cdef-0123-456789ABCDEF}"
example : makeUuid [123, 48, 49, 50, 51, 52, 53, 54, 55, 45, 56, 57, 97, 98, 45, 99, 100, 101, 102, 45, 48, 49, 50, 51, 45,
    52, 53, 54, 55, 56, 57, 65, 66, 67, 68, 69, 70, 125]
    = .ret [0x01, 0x23, 0x45, 0x67, 0x89, 0xab, 0xcd, 0xef, 0x01, 0x23, 0x45, 0x67, 0x89, 0xab, 0xcd, 0xef] := by decide +kernel
-- a missing closing brace; a dash at one place only
example : makeUuid (123 :: List.replicate 32 48) = .throw .runtimeError := by decide +kernel
example : makeUuid (List.replicate 8 48 ++ [45] ++ List.replicate 24 48) = .throw .runtimeError := by decide +kernel
example : Uuid.toString [0x01, 0x23, 0x45, 0x67, 0x89, 0xab, 0xcd, 0xef, 0x01, 0x23, 0x45, 0x67, 0x89, 0xab, 0xcd, 0xef]
    = some [48, 49, 50, 51, 52, 53, 54, 55, 45, 56, 57, 97, 98, 45, 99, 100, 101, 102, 45, 48, 49, 50, 51, 45,
    52, 53, 54, 55, 56, 57, 97, 98, 99, 100, 101, 102] := by decide +kernel

end Sprout
