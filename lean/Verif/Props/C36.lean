import Verif.Proofs.Cstring

/-!
# C36: the C string functions match the C standard

`cs`, `ds` are the characters before the terminators. The blocks `pre ++ cs ++ 0 :: post` are arbitrary;
taking `pre = post = []` shows that nothing outside the string and its terminator is read (such a read
is UB in the model). Positions returned are relative to the start of the string.
-/

namespace Sprout
open Spec Spec.Cstr

theorem C36_strlen (pre cs post : List Int) (h : (0 : Int) ∉ cs) :
    Cstr.strlen (pre ++ cs ++ 0 :: post) pre.length = some cs.length :=
  Cstr.strlen_eq (Cstr.IsStr.of_append _ _ _ h)

/-- `strlen(s, n)`; `n` may exceed the size of the block -/
theorem C36_strnlen (pre cs post : List Int) (n : Nat) (h : (0 : Int) ∉ cs) :
    Cstr.strlenN (pre ++ cs ++ 0 :: post) pre.length n = some (min cs.length n) :=
  Cstr.strlenN_eq (Cstr.IsStr.of_append _ _ _ h)

theorem C36_strchr (pre cs post : List Int) (c : Int) (h : (0 : Int) ∉ cs) :
    ∃ r, Cstr.strchr (pre ++ cs ++ 0 :: post) pre.length c = some (r.map (pre.length + ·)) ∧ First (cs ++ [0]) (· = c) r := by
  rw [Cstr.strchr_eq (Cstr.IsStr.of_append _ _ _ h)]
  by_cases hc : c ∈ cs ∨ c = 0
  · refine ⟨some (cs.findIdx (· == c)), by rw [if_pos hc]; rfl, ?_⟩
    have := Cstr.first_findIdx (cs ++ [0]) c (by simpa using hc)
    rwa [Cstr.findIdx_append0 cs c hc] at this
  · refine ⟨none, by rw [if_neg hc]; rfl, ?_⟩
    intro x hx e
    subst e
    exact hc (by simpa using hx)

theorem C36_strrchr (pre cs post : List Int) (c : Int) (h : (0 : Int) ∉ cs) :
    ∃ r, Cstr.strrchr (pre ++ cs ++ 0 :: post) pre.length c = some (r.map (pre.length + ·)) ∧ Last (cs ++ [0]) c r :=
  Cstr.strrchr_spec (Cstr.IsStr.of_append _ _ _ h) c

theorem C36_strspn (pre1 cs post1 pre2 ds post2 : List Int) (h1 : (0 : Int) ∉ cs) (h2 : (0 : Int) ∉ ds) :
    ∃ n, Cstr.strspn (pre1 ++ cs ++ 0 :: post1) (pre2 ++ ds ++ 0 :: post2) pre1.length pre2.length = some n ∧ Span cs (· ∈ ds) n :=
  ⟨_, Cstr.spanGen_eq false (Cstr.IsStr.of_append _ _ _ h1) (Cstr.IsStr.of_append _ _ _ h2), Cstr.span_takeWhile (· ∈ ds) cs⟩

theorem C36_strcspn (pre1 cs post1 pre2 ds post2 : List Int) (h1 : (0 : Int) ∉ cs) (h2 : (0 : Int) ∉ ds) :
    ∃ n, Cstr.strcspn (pre1 ++ cs ++ 0 :: post1) (pre2 ++ ds ++ 0 :: post2) pre1.length pre2.length = some n ∧ Span cs (· ∉ ds) n :=
  ⟨_, Cstr.spanGen_eq true (Cstr.IsStr.of_append _ _ _ h1) (Cstr.IsStr.of_append _ _ _ h2), Cstr.span_takeWhile (· ∉ ds) cs⟩

theorem C36_strpbrk (pre1 cs post1 pre2 ds post2 : List Int) (h1 : (0 : Int) ∉ cs) (h2 : (0 : Int) ∉ ds) :
    ∃ r, Cstr.strpbrk (pre1 ++ cs ++ 0 :: post1) (pre2 ++ ds ++ 0 :: post2) pre1.length pre2.length
        = some (r.map (pre1.length + ·)) ∧ First cs (· ∈ ds) r :=
  Cstr.strpbrk_spec (Cstr.IsStr.of_append _ _ _ h1) (Cstr.IsStr.of_append _ _ _ h2)

/-- Missing from the full statement: the case where both strings are empty (refuted below). -/
theorem C36_strstr_partial (pre1 cs post1 pre2 ds post2 : List Int) (h1 : (0 : Int) ∉ cs) (h2 : (0 : Int) ∉ ds)
    (hne : cs ≠ [] ∨ ds ≠ []) :
    ∃ r, Cstr.strstr (pre1 ++ cs ++ 0 :: post1) (pre2 ++ ds ++ 0 :: post2) pre1.length pre2.length
        = some (r.map (pre1.length + ·)) ∧ FirstSub cs ds r := by
  have s1 := Cstr.IsStr.of_append pre1 cs post1 h1
  have s2 := Cstr.IsStr.of_append pre2 ds post2 h2
  by_cases hd : ds = []
  · subst hd
    have hc : cs ≠ [] := by simpa using hne
    have hl : 0 < cs.length := List.length_pos_iff.2 hc
    refine ⟨some 0, ?_, by simp [FirstSub]⟩
    have := Cstr.findCheck_str s1 0 (by omega)
    rw [Nat.add_zero, if_neg (by omega)] at this
    rw [Cstr.strstr, Cstr.strstrPos, s2.atEnd_nil]
    simpa using this
  · obtain ⟨i, he, hi⟩ := Cstr.strstrPos_spec s1 s2 hd
    rw [Cstr.strstr, he]
    simp only [Option.bind_eq_bind, Option.bind_some]
    rcases hi with ⟨rfl, hf⟩ | ⟨hl, hf⟩
    · exact ⟨none, by rw [Cstr.findCheck_str s1 _ (Nat.le_refl _)]; simp, hf⟩
    · refine ⟨some i, ?_, hf⟩
      rw [Cstr.findCheck_str s1 i (by omega), if_neg (by omega)]; rfl

/-- `strstr("", "")` must return its first argument; the code returns null: `str_find_check` takes a result that
points at the terminator for "not found". -/
theorem C36_strstr_false :
    ¬ ∀ (cs ds : List Int), (0 : Int) ∉ cs → (0 : Int) ∉ ds →
      ∃ r, Cstr.strstr (cs ++ [0]) (ds ++ [0]) 0 0 = some r ∧ FirstSub cs ds r := by
  intro h
  obtain ⟨r, hr, hf⟩ := h [] [] (by simp) (by simp)
  have s1 := Cstr.IsStr.of_append [] [] [] (by simp : (0 : Int) ∉ ([] : List Int))
  have : Cstr.strstr ([] ++ [0]) ([] ++ [0]) 0 0 = some none := by
    rw [Cstr.strstr, Cstr.strstrPos, show Cstr.atEnd ([] ++ [0]) 0 = some true from rfl]
    rfl
  rw [this] at hr
  cases hr
  exact hf 0 (by simp) (by simp)

/-! ### comparison -/

theorem verdict_cmp {α : Type} (key : α → Nat) (a b : List α) :
    Cmp key a b (verdict (fun x y => decide (key x < key y)) a b) := by
  have hw : StrictWeak (fun x y : α => decide (key x < key y)) :=
    ⟨by simp, by simp only [decide_eq_true_eq]; intros; omega, by simp only [decide_eq_true_eq]; intros; omega⟩
  have hr := verdict_range (fun x y : α => decide (key x < key y)) a b
  have h1 := verdict_lt (comp := fun x y : α => decide (key x < key y)) a b
  have h2 := verdict_gt hw a b
  refine ⟨by rw [← h1]; omega, by rw [← h2]; omega, ?_⟩
  clear hr h1 h2
  induction a generalizing b with
  | nil => cases b <;> simp [verdict]
  | cons x a ih =>
    cases b with
    | nil => simp [verdict]
    | cons y b =>
      simp only [verdict, decide_eq_true_eq, List.map_cons, List.cons.injEq]
      by_cases h1 : key x < key y
      · simp [h1]; omega
      · by_cases h2 : key y < key x
        · simp [h1, h2]; omega
        · simp only [h1, h2, if_false, ih b]
          have : key x = key y := by omega
          simp [this]

theorem verdict_congr {α β : Type} (f : α → α → Bool) (g : β → β → Bool) (k : α → β) : ∀ (a b : List α),
    (∀ x ∈ a, ∀ y ∈ b, f x y = g (k x) (k y) ∧ f y x = g (k y) (k x)) → verdict f a b = verdict g (a.map k) (b.map k) := by
  intro a
  induction a with
  | nil => intro b _; cases b <;> simp [verdict]
  | cons x a ih =>
    intro b h
    cases b with
    | nil => simp [verdict]
    | cons y b =>
      simp only [verdict, List.map_cons]
      rw [(h x (by simp) y (by simp)).1, (h x (by simp) y (by simp)).2, ih b (fun x hx y hy => h x (by simp [hx]) y (by simp [hy]))]

theorem verdict_key (key : Int → Nat) (a b : List Int) (h : ∀ x ∈ a, ∀ y ∈ b, (x < y ↔ key x < key y) ∧ (y < x ↔ key y < key x)) :
    verdict Cstr.ilt a b = verdict (fun x y => decide (key x < key y)) a b := by
  have := verdict_congr Cstr.ilt (fun x y => decide (key x < key y)) id a b ?_
  · simpa using this
  · intro x hx y hy
    exact ⟨decide_eq_decide.2 (h x hx y hy).1, decide_eq_decide.2 (h x hx y hy).2⟩

/-- `strcmp` with the characters compared as the character type's own `<` compares them: for any order-preserving
`key`. This is what `wcscmp`-like uses with `wchar_t`, `char16_t`, `char32_t`, and `unsigned` plain `char` need. -/
theorem C36_strcmp (key : Int → Nat) (pre1 cs post1 pre2 ds post2 : List Int) (h1 : (0 : Int) ∉ cs) (h2 : (0 : Int) ∉ ds)
    (hk : ∀ x ∈ cs, ∀ y ∈ ds, (x < y ↔ key x < key y) ∧ (y < x ↔ key y < key x)) :
    ∃ r, Cstr.strcmp (pre1 ++ cs ++ 0 :: post1) (pre2 ++ ds ++ 0 :: post2) pre1.length pre2.length = some r ∧ Cmp key cs ds r := by
  rw [Cstr.strcmp_eq (Cstr.IsStr.of_append _ _ _ h1) (Cstr.IsStr.of_append _ _ _ h2), verdict_key key cs ds hk]
  exact ⟨_, rfl, verdict_cmp key cs ds⟩

/-- `strncmp`; `n` may exceed the sizes of the blocks -/
theorem C36_strncmp (key : Int → Nat) (pre1 cs post1 pre2 ds post2 : List Int) (n : Nat) (h1 : (0 : Int) ∉ cs) (h2 : (0 : Int) ∉ ds)
    (hk : ∀ x ∈ cs, ∀ y ∈ ds, (x < y ↔ key x < key y) ∧ (y < x ↔ key y < key x)) :
    ∃ r, Cstr.strncmp (pre1 ++ cs ++ 0 :: post1) (pre2 ++ ds ++ 0 :: post2) pre1.length pre2.length n = some r ∧
      Cmp key (cs.take n) (ds.take n) r := by
  rw [Cstr.strncmp_eq n (Cstr.IsStr.of_append _ _ _ h1) (Cstr.IsStr.of_append _ _ _ h2),
    verdict_key key _ _ (fun x hx y hy => hk x (List.mem_of_mem_take hx) y (List.mem_of_mem_take hy))]
  exact ⟨_, rfl, verdict_cmp key _ _⟩

/-- The ISO C result for plain `char` strings. Missing from the full statement: negative characters (refuted below). -/
theorem C36_strcmp_char_partial (pre1 cs post1 pre2 ds post2 : List Int)
    (h1 : ∀ x ∈ cs, 0 < x ∧ x < 256) (h2 : ∀ x ∈ ds, 0 < x ∧ x < 256) :
    ∃ r, Cstr.strcmp (pre1 ++ cs ++ 0 :: post1) (pre2 ++ ds ++ 0 :: post2) pre1.length pre2.length = some r ∧ Cmp asUChar cs ds r := by
  apply C36_strcmp asUChar
  · intro h; have := h1 0 h; omega
  · intro h; have := h2 0 h; omega
  · intro x hx y hy; have := h1 x hx; have := h2 y hy; unfold asUChar; omega

theorem C36_strncmp_char_partial (pre1 cs post1 pre2 ds post2 : List Int) (n : Nat)
    (h1 : ∀ x ∈ cs, 0 < x ∧ x < 256) (h2 : ∀ x ∈ ds, 0 < x ∧ x < 256) :
    ∃ r, Cstr.strncmp (pre1 ++ cs ++ 0 :: post1) (pre2 ++ ds ++ 0 :: post2) pre1.length pre2.length n = some r ∧
      Cmp asUChar (cs.take n) (ds.take n) r := by
  apply C36_strncmp asUChar
  · intro h; have := h1 0 h; omega
  · intro h; have := h2 0 h; omega
  · intro x hx y hy; have := h1 x hx; have := h2 y hy; unfold asUChar; omega

/-- With signed plain `char`, `"\x80"` (value -128, 128 as `unsigned char`) must compare greater than `"a"`;
`strcmp` and `strncmp` return -1. -/
theorem C36_strcmp_false :
    ¬ ∀ (cs ds : List Int), (∀ x ∈ cs, -128 ≤ x ∧ x < 128 ∧ x ≠ 0) → (∀ x ∈ ds, -128 ≤ x ∧ x < 128 ∧ x ≠ 0) →
      ∃ r, Cstr.strcmp (cs ++ [0]) (ds ++ [0]) 0 0 = some r ∧ Cmp asUChar cs ds r := by
  intro h
  obtain ⟨r, hr, hc⟩ := h [-128] [97] (by simp) (by simp)
  have := Cstr.strcmp_eq (Cstr.IsStr.of_append [] [-128] [] (by simp)) (Cstr.IsStr.of_append [] [97] [] (by simp))
  have hr' : some r = some (verdict Cstr.ilt [-128] [97]) := hr.symm.trans this
  have : r = -1 := by simpa [verdict] using hr'
  subst this
  have hl := hc.1.1 (by omega)
  rw [← verdict_lt] at hl
  simp [verdict, asUChar] at hl

theorem C36_strncmp_false :
    ¬ ∀ (cs ds : List Int) (n : Nat), (∀ x ∈ cs, -128 ≤ x ∧ x < 128 ∧ x ≠ 0) → (∀ x ∈ ds, -128 ≤ x ∧ x < 128 ∧ x ≠ 0) →
      ∃ r, Cstr.strncmp (cs ++ [0]) (ds ++ [0]) 0 0 n = some r ∧ Cmp asUChar (cs.take n) (ds.take n) r := by
  intro h
  obtain ⟨r, hr, hc⟩ := h [-128] [97] 5 (by simp) (by simp)
  have := Cstr.strncmp_eq 5 (Cstr.IsStr.of_append [] [-128] [] (by simp)) (Cstr.IsStr.of_append [] [97] [] (by simp))
  have hr' : some r = some (verdict Cstr.ilt [-128] [97]) := hr.symm.trans this
  have : r = -1 := by simpa [verdict] using hr'
  subst this
  have hl := hc.1.1 (by omega)
  rw [← verdict_lt] at hl
  exact absurd hl (by decide)

theorem C36_memcmp (pre1 xs post1 pre2 ys post2 : List Nat) (n : Nat) (h1 : xs.length = n) (h2 : ys.length = n) :
    ∃ r, Cstr.memcmp (pre1 ++ xs ++ post1) (pre2 ++ ys ++ post2) pre1.length pre2.length n = some r ∧ Cmp id xs ys r := by
  have := (triCompareRa_spec (fun x y : Nat => decide (x < y)) _ _ _ _ xs ys (Seg.of_append pre1 xs post1) (Seg.of_append pre2 ys post2)).1
  rw [h1, h2] at this
  exact ⟨_, this, verdict_cmp id xs ys⟩

/-- `memchr`: the first occurrence in the first `n` bytes, or null -/
theorem C36_memchr (pre xs post : List Nat) (c n : Nat) (h1 : xs.length = n) :
    ∃ r : Option Nat, Cstr.memchr (pre ++ xs ++ post) pre.length c n = some (r.map (pre.length + ·)) ∧
      match r with
      | some k => xs[k]? = some c ∧ ∀ j, j < k → xs[j]? ≠ some c
      | none => c ∉ xs := by
  subst h1
  have e := findIfRa_eq pre xs post (fun x => x == c)
  rw [Cstr.memchr, show findValRa (pre ++ xs ++ post) pre.length (pre.length + xs.length) c = _ from e]
  simp only [Option.bind_eq_bind, Option.bind_some]
  by_cases hc : c ∈ xs
  · have hl : xs.findIdx (· == c) < xs.length := List.findIdx_lt_length.2 ⟨c, hc, by simp⟩
    refine ⟨some (xs.findIdx (· == c)), by rw [if_neg (by omega)]; rfl, ?_, ?_⟩
    · rw [List.getElem?_eq_getElem hl]; congr 1; simpa using List.findIdx_getElem (w := hl)
    · intro j hj e
      have := List.not_of_lt_findIdx hj
      rw [List.getElem?_eq_some_iff] at e
      obtain ⟨_, e⟩ := e
      simp [e] at this
  · refine ⟨none, ?_, hc⟩
    have : xs.findIdx (· == c) = xs.length := by
      rw [List.findIdx_eq_length]; intro x hx; simp; intro e; exact hc (e ▸ hx)
    rw [this, if_pos rfl]; rfl

/-! ### non-vacuity -/

/-- "abcab": `strchr 'b'`, `strrchr 'b'` and a terminator search -/
example : First ([97, 98, 99, 97, 98] ++ [0]) (· = 98) (some 1) ∧ Last ([97, 98, 99, 97, 98] ++ [0]) 98 (some 4) ∧
    First ([97, 98, 99, 97, 98] ++ [0]) (· = 0) (some 5) ∧ Last ([97, 98, 99, 97, 98] ++ [0]) 120 none := by
  refine ⟨⟨⟨98, by simp, rfl⟩, ?_⟩, ⟨by simp, ?_⟩, ⟨⟨0, by simp, rfl⟩, ?_⟩, by simp [Last]⟩
  · intro j x hj hx; have : j = 0 := by omega
    subst this; simp at hx; omega
  · intro j hj; match j with
    | 5 => simp
    | j + 6 => simp
  · intro j x hj hx
    match j with
    | 0 => simp at hx; omega
    | 1 => simp at hx; omega
    | 2 => simp at hx; omega
    | 3 => simp at hx; omega
    | 4 => simp at hx; omega

/-- "aab" contains "ab" at 1, found although the failed comparison at 0 overlaps it -/
example : ∃ r, Cstr.strstr [97, 97, 98, 0] [97, 98, 0] 0 0 = some r ∧ FirstSub [97, 97, 98] [97, 98] r ∧ r = some 1 := by
  obtain ⟨r, h1, h2⟩ := C36_strstr_partial [] [97, 97, 98] [] [] [97, 98] [] (by simp) (by simp) (by simp)
  have hr : r = some 1 := by
    cases r with
    | none => exact absurd ⟨[], rfl⟩ (h2 1 (by simp))
    | some k =>
      obtain ⟨hk, h3, h4⟩ := h2
      match k with
      | 0 => simp at h3
      | 1 => rfl
      | k + 2 => exact absurd ⟨[], rfl⟩ (h4 1 (by omega))
  subst hr
  exact ⟨some 1, h1, h2, rfl⟩

end Sprout
