import Verif.Proofs.TextIo
import Verif.Props.C28

/-!
# C150 stream operators of strings, bitsets and uuids

What is written can be read back, whatever the variable held before and whatever follows; reading fails if there is nothing to read, and
then leaves the variable as it was (a string: empty).
-/

namespace Sprout
open Io Spec.Io
open Opt (IStream)
open Str (BStr)
open Spec.Str (Represents)

/-! ### basic_string -/

/-- Reading a word: the string gets the length of the word, but only as many of its characters as the string had before; the others are
null characters -/
theorem C150_string_read {N : Nat} {x : BStr} {cs : List Int} (hx : Represents N x.elems x.len cs) (u t : List Nat) (hu : u ≠ [])
    (hs : ∀ c ∈ u, isSpace c = false) (ht : WordEnd t) (hN : u.length ≤ N) :
    ∃ y, rStr 0 (at' (u ++ t)) x = some (.ret (⟨t, false, decide (t = [] ∧ u.length < N)⟩, y)) ∧
      Represents N y.elems y.len ((u.take cs.length).map Int.ofNat ++ List.replicate (u.length - cs.length) 0) := by
  have hsize := hx.size
  have hfits := hx.fits
  have hlen := hx.len
  have hsen : sentry (at' (u ++ t)) = (true, at' (u ++ t)) := by
    obtain ⟨c, v, rfl⟩ := List.exists_cons_of_ne_nil hu
    exact sentry_cons _ (hs c (by simp))
  have hrem : strRemain 0 x = N := by simp [strRemain, Str.maxSize_eq hx]
  unfold rStr
  rw [hsen]
  simp only [if_true, hrem]
  rw [show (at' (u ++ t)).rest = u ++ t from rfl, strLoop_eq u t x.elems 0 N hs ht hN (by omega)]
  simp only [Option.bind_eq_bind, Option.bind_some, Nat.zero_add]
  have he : (Spec.overwrite x.elems 0 (u.map Int.ofNat)).length = N + 1 := by rw [overwrite_length (by simp; omega), hsize]
  have hget := overwrite_getElem? (m := x.elems) (d := 0) (ys := u.map Int.ofNat) (by simp; omega)
  generalize Spec.overwrite x.elems 0 (u.map Int.ofNat) = e at he hget
  have hd : ((u.take cs.length).map Int.ofNat ++ List.replicate (u.length - cs.length) (0 : Int)).length = u.length := by simp; omega
  have hres : ∃ y, BStr.resize ⟨e, x.len⟩ u.length 0 = some (.ret y) ∧
      Represents N y.elems y.len ((u.take cs.length).map Int.ofNat ++ List.replicate (u.length - cs.length) 0) := by
    unfold BStr.resize BStr.lengthcheck BStr.maxSize
    rw [if_neg (by simp only []; omega)]
    have hchars : ∀ i, i < u.length →
        ((u.take cs.length).map Int.ofNat ++ List.replicate (u.length - cs.length) (0 : Int))[i]? =
          if i < cs.length then (u.map Int.ofNat)[i]? else some 0 := by
      intro i hi
      split
      · rename_i h
        rw [List.getElem?_append_left (by simp; omega), List.getElem?_map, List.getElem?_map, List.getElem?_take_of_lt h]
      · rename_i h
        rw [List.getElem?_append_right (by simp; omega), List.getElem?_replicate, if_pos (by simp; omega)]
    unfold BStr.finish
    by_cases hlt : u.length > x.len
    · simp only [hlt, if_true]
      rw [Str.fill_eq 0 _ _ _ (by omega), Option.bind_eq_bind, Option.bind_some]
      have hl2 : x.len + (List.replicate (u.length - x.len) (0 : Int)).length ≤ e.length := by simp; omega
      have hget2 := overwrite_getElem? hl2
      obtain ⟨y, h1, h2⟩ := Str.putTerminator_repr (N := N) (len := x.len) (e := Spec.overwrite e x.len (List.replicate (u.length - x.len) 0))
        (ds := (u.take cs.length).map Int.ofNat ++ List.replicate (u.length - cs.length) 0)
        (by rw [overwrite_length hl2, he]) (by omega) (by omega)
        (fun i hi => by
          rw [hd] at hi
          rw [hchars i hi, hget2, hget]
          simp only [List.length_replicate, List.length_map, List.getElem?_replicate, Nat.zero_add, Nat.sub_zero, Nat.not_lt_zero, if_false]
          by_cases h : i < cs.length
          · rw [if_pos (by omega), if_pos hi, if_pos h]
          · rw [if_neg (by omega), if_pos (by omega), if_pos (by omega), if_neg h])
        (fun i h1 h2 => by
          rw [hget2, hget]
          simp only [List.length_replicate, List.length_map, Nat.zero_add, Nat.not_lt_zero, if_false]
          rw [if_neg (by omega), if_neg (by omega), if_neg (by omega)]
          exact hx.nulls i (by omega) h2)
      rw [hd] at h1
      exact ⟨y, by rw [h1]; rfl, h2⟩
    · simp only [hlt, if_false]
      rw [Option.bind_eq_bind, Option.bind_some]
      obtain ⟨y, h1, h2⟩ := Str.putTerminator_repr (N := N) (len := x.len) (e := e)
        (ds := (u.take cs.length).map Int.ofNat ++ List.replicate (u.length - cs.length) 0) he (by omega) (by omega)
        (fun i hi => by
          rw [hd] at hi
          rw [hchars i hi, hget]
          simp only [List.length_map, Nat.zero_add, Nat.sub_zero, Nat.not_lt_zero, if_false]
          rw [if_pos hi, if_pos (by omega)])
        (fun i h1 h2 => by
          rw [hget]
          simp only [List.length_map, Nat.zero_add, Nat.not_lt_zero, if_false]
          rw [if_neg (by omega)]
          exact hx.nulls i (by omega) h2)
      rw [hd] at h1
      exact ⟨y, by rw [h1]; rfl, h2⟩
  obtain ⟨y, h1, h2⟩ := hres
  refine ⟨y, ?_, h2⟩
  unfold strEnd
  rw [h1]
  have : u.length ≠ 0 := fun h => hu (List.length_eq_zero_iff.1 h)
  simp [setState, at', this]

/-- words no longer than the string are read as they are -/
theorem C150_string_partial {N : Nat} {x : BStr} {cs : List Int} (hx : Represents N x.elems x.len cs) (u t : List Nat) (hu : u ≠ [])
    (hs : ∀ c ∈ u, isSpace c = false) (ht : WordEnd t) (hN : u.length ≤ cs.length) :
    ∃ y, rStr 0 (at' (u ++ t)) x = some (.ret (⟨t, false, decide (t = [] ∧ u.length < N)⟩, y)) ∧
      Represents N y.elems y.len (u.map Int.ofNat) := by
  obtain ⟨y, h1, h2⟩ := C150_string_read hx u t hu hs ht (by have := hx.fits; omega)
  refine ⟨y, h1, ?_⟩
  rwa [List.take_of_length_le hN, show u.length - cs.length = 0 by omega, List.replicate_zero, List.append_nil] at h2

/-- what is written are the characters, up to a null character -/
theorem C150_string_write {N : Nat} {x : BStr} {u : List Nat} (hx : Represents N x.elems x.len (u.map Int.ofNat)) (hu : ∀ c ∈ u, c ≠ 0) :
    wStr x = u := by
  have h1 := hx.size
  have h2 := hx.fits
  have h3 := hx.chars
  have h4 := hx.nulls
  rw [List.length_map] at h2 h3 h4
  have e : x.elems = u.map Int.ofNat ++ 0 :: x.elems.drop (u.length + 1) := by
    apply List.ext_getElem?
    intro i
    rcases Nat.lt_trichotomy i u.length with h | h | h
    · rw [h3 i h, List.getElem?_append_left (by simpa using h)]
    · subst h
      rw [h4 _ (Nat.le_refl _) (by omega), List.getElem?_append_right (by simp)]
      simp
    · rw [List.getElem?_append_right (by simp; omega), List.length_map]
      obtain ⟨k, rfl⟩ : ∃ k, i = u.length + 1 + k := ⟨i - u.length - 1, by omega⟩
      rw [show u.length + 1 + k - u.length = k + 1 by omega, List.getElem?_cons_succ, List.getElem?_drop]
  unfold wStr
  rw [e, List.takeWhile_append_of_pos]
  · rw [List.takeWhile_cons_of_neg (by simp), List.append_nil, List.map_map]
    exact (List.map_congr_left (fun a _ => rfl)).trans (List.map_id u)
  · intro a ha
    obtain ⟨c, hc, rfl⟩ := List.mem_map.1 ha
    have := hu c hc
    simp; omega

/-- A string that is empty is filled with null characters instead of the word read, and the stream does not fail -/
theorem C150_string_refuted {N : Nat} {x : BStr} (hx : Represents N x.elems x.len []) (u t : List Nat) (hu : u ≠ [])
    (hs : ∀ c ∈ u, isSpace c = false) (ht : WordEnd t) (hN : u.length ≤ N) :
    ∃ s y, rStr 0 (at' (u ++ t)) x = some (.ret (s, y)) ∧ s.fail = false ∧ Represents N y.elems y.len (List.replicate u.length 0) := by
  obtain ⟨y, h1, h2⟩ := C150_string_read hx u t hu hs ht hN
  exact ⟨_, y, h1, rfl, by simpa using h2⟩

/-- "ab" read into an empty `sprout::string<3>` -/
example : rStr 0 (at' [97, 98, 32]) ⟨[0, 0, 0, 0], 0⟩ = some (.ret (at' [32], ⟨[0, 0, 0, 0], 2⟩)) := by decide
example : rStr 0 (at' [97, 98, 32]) ⟨[120, 121, 122, 0], 3⟩ = some (.ret (at' [32], ⟨[97, 98, 0, 0], 2⟩)) := by decide

/-- without a word the stream fails and the string becomes empty -/
theorem C150_string_fail {N : Nat} {x : BStr} {cs : List Int} (hx : Represents N x.elems x.len cs) (s : IStream)
    (h : s.good = false ∨ s.rest.dropWhile isSpace = []) :
    ∃ s' y, rStr 0 s x = some (.ret (s', y)) ∧ s'.fail = true ∧ Represents N y.elems y.len [] := by
  have hsen : ∃ s', sentry s = (false, s') ∧ s'.fail = true := by
    unfold sentry
    by_cases hg : s.good = true
    · rcases h with h | h
      · simp [hg] at h
      · simp [hg, h]
    · simp [hg]
  obtain ⟨s', h1, h2⟩ := hsen
  unfold rStr
  rw [h1]
  simp only [Bool.false_eq_true, if_false]
  unfold strEnd BStr.resize BStr.lengthcheck BStr.finish
  obtain ⟨y, h3, h4⟩ := Str.putTerminator_repr (N := N) (len := x.len) (e := x.elems) (ds := []) hx.size (by rw [hx.len]; exact hx.fits) (by simp)
    (by simp) (fun i h1 h2 => hx.nulls i (by have := hx.len; simp at h1; omega) h2)
  simp only [List.length_nil] at h3
  refine ⟨setState s' true false, y, ?_, by simp [setState, h2], h4⟩
  simp [h3]

/-! ### bitset -/

open Bitset

variable {B N : Nat} {ws : List (BitVec B)} {f : Nat → Bool}

theorem C150_bitset (hB : 0 < B) (hN : 0 < N) (h : Spec.Rep B N ws f) (old : List (BitVec B)) (t : List Nat) :
    ∃ l, wBits B N ws = some l ∧ rBits B N (at' (l ++ t)) old = some (.ret (at' t, ws)) := by
  obtain ⟨l, h1, h2⟩ := C28_string_roundtrip hB h (zero := (48 : Nat)) (one := 49) (by decide) (Nat.le_refl N)
  obtain ⟨l', h1', h3, h4⟩ := C28_to_string hB h (48 : Nat) 49
  rw [h1] at h1'
  cases h1'
  refine ⟨l, h1, ?_⟩
  have hl : ∀ c ∈ l, c = 48 ∨ c = 49 := by
    intro c hc
    obtain ⟨i, hi, rfl⟩ := List.getElem_of_mem hc
    have := h4 (N - 1 - i) (by omega)
    rw [show N - 1 - (N - 1 - i) = i by omega, List.getElem?_eq_getElem hi] at this
    rw [Option.some.inj this]
    split
    · exact .inr rfl
    · exact .inl rfl
  have hne : l ≠ [] := fun h => by rw [h] at h3; simp at h3; omega
  have hsen : sentry (at' (l ++ t)) = (true, at' (l ++ t)) := by
    obtain ⟨c, v, rfl⟩ := List.exists_cons_of_ne_nil hne
    refine sentry_cons _ ?_
    rcases hl c (by simp) with rfl | rfl <;> decide
  unfold rBits
  rw [hsen]
  simp only [if_true, show (at' (l ++ t)).rest = l ++ t from rfl]
  rw [bitLoop_eq l t [] N hl (by omega) (.inl h3)]
  simp only [List.nil_append]
  unfold bitEnd
  rw [if_neg (by simp [hne]), h2]
  simp [setState, at', h3]

/-- Reading takes the binary digits at the front, at most `N`; they are the lowest bits, the other bits become zero -/
theorem C150_bitset_read (hB : 0 < B) (u t : List Nat) (hu : u ≠ []) (hd : ∀ c ∈ u, c = 48 ∨ c = 49) (hl : u.length ≤ N)
    (ht : u.length = N ∨ t = [] ∨ ∃ c v, t = c :: v ∧ c ≠ 48 ∧ c ≠ 49) (old : List (BitVec B)) :
    ∃ ws, rBits B N (at' (u ++ t)) old = some (.ret (⟨t, false, decide (t = [] ∧ u.length < N)⟩, ws)) ∧
      Spec.Rep B N ws (fun i => decide (i < u.length ∧ u[u.length - 1 - i]? = some 49)) := by
  have hsen : sentry (at' (u ++ t)) = (true, at' (u ++ t)) := by
    obtain ⟨c, v, rfl⟩ := List.exists_cons_of_ne_nil hu
    refine sentry_cons _ ?_
    rcases hd c (by simp) with rfl | rfl <;> decide
  obtain ⟨-, hs⟩ := C28_of_string hB N u 0 N 48 49
  have hused : (u.drop 0).take (min N N) = u := by rw [List.drop_zero, Nat.min_self, List.take_of_length_le hl]
  have := hs (by omega)
  simp only [hused] at this
  obtain ⟨ws, e1, e2⟩ := this.2 hd
  refine ⟨ws, ?_, ?_⟩
  · unfold rBits
    rw [hsen]
    simp only [if_true, show (at' (u ++ t)).rest = u ++ t from rfl]
    rw [bitLoop_eq u t [] N hd hl ht]
    simp only [List.nil_append]
    unfold bitEnd
    rw [if_neg (by simp [hu]), e1]
    simp [setState, at']
  · have hf : (fun i => decide (i < u.length ∧ u[u.length - 1 - i]? = some 49)) =
        fun i => decide (i < u.length ∧ u[u.length - 1 - i]? ≠ some 48) := by
      funext i
      apply decide_eq_decide.2
      refine and_congr_right fun hi => ?_
      rw [List.getElem?_eq_getElem (by omega)]
      rcases hd _ (List.getElem_mem (by omega : u.length - 1 - i < u.length)) with h | h <;> simp [h]
    rw [hf]
    exact e2

/-- If there is no digit, nothing tells so: the stream stays good, and the bitset is as it was -/
theorem C150_bitset_refuted (hN : 0 < N) (c : Nat) (t : List Nat) (h0 : isSpace c = false) (h1 : c ≠ 48 ∧ c ≠ 49) (old : List (BitVec B)) :
    rBits B N (at' (c :: t)) old = some (.ret (at' (c :: t), old)) := by
  unfold rBits
  rw [sentry_cons _ h0]
  simp only [if_true, show (at' (c :: t)).rest = c :: t from rfl]
  have := bitLoop_eq [] (c :: t) [] N (by simp) (by simp) (.inr (.inr ⟨c, t, rfl, h1⟩))
  rw [List.nil_append] at this
  rw [this]
  simp only [List.append_nil]
  unfold bitEnd
  rw [if_pos ⟨rfl, by omega⟩]
  rfl

example : rBits 8 4 (at' [120]) [5] = some (.ret (at' [120], [5])) := C150_bitset_refuted (by decide) _ _ (by decide) (by decide) _

/-! ### uuid -/

open Spec.Uuid (Hex HexDigit)

/-- the dashed form is read, digits of either case -/
theorem C150_uuid_read {s1 s2 s3 s4 s5 : List Int} {b1 b2 b3 b4 b5 : List (BitVec 8)} (h1 : Hex s1 b1) (h2 : Hex s2 b2) (h3 : Hex s3 b3)
    (h4 : Hex s4 b4) (h5 : Hex s5 b5) (l1 : b1.length = 4) (l2 : b2.length = 2) (l3 : b3.length = 2) (l4 : b4.length = 2)
    (l5 : b5.length = 6) (t : List Nat) (old : List (BitVec 8)) :
    rUuid (at' (s1.map Int.toNat ++ 45 :: (s2.map Int.toNat ++ 45 :: (s3.map Int.toNat ++ 45 :: (s4.map Int.toNat ++ 45 ::
      (s5.map Int.toNat ++ t)))))) old = some (at' t, b1 ++ b2 ++ b3 ++ b4 ++ b5) := by
  have hsen : ∀ t, sentry (at' (s1.map Int.toNat ++ t)) = (true, at' (s1.map Int.toNat ++ t)) := by
    intro t
    cases h1 with
    | nil => simp at l1
    | cons hh _ _ => exact sentry_cons _ (hexDigit_read hh).1
  unfold rUuid
  rw [hsen]
  simp only [if_true]
  obtain ⟨c1, e1⟩ := uuidLoop_groupDash h1 12 0 3 (s2.map Int.toNat ++ 45 :: (s3.map Int.toNat ++ 45 :: (s4.map Int.toNat ++ 45 ::
      (s5.map Int.toNat ++ t)))) none [] l1 (by decide) (by decide)
  obtain ⟨c2, e2⟩ := uuidLoop_groupDash h2 10 4 1 (s3.map Int.toNat ++ 45 :: (s4.map Int.toNat ++ 45 :: (s5.map Int.toNat ++ t))) c1
    ([] ++ b1) l2 (by decide) (by decide)
  obtain ⟨c3, e3⟩ := uuidLoop_groupDash h3 8 6 1 (s4.map Int.toNat ++ 45 :: (s5.map Int.toNat ++ t)) c2 ([] ++ b1 ++ b2) l3 (by decide)
    (by decide)
  obtain ⟨c4, e4⟩ := uuidLoop_groupDash h4 6 8 1 (s5.map Int.toNat ++ t) c3 ([] ++ b1 ++ b2 ++ b3) l4 (by decide) (by decide)
  obtain ⟨c5, e5⟩ := uuidLoop_group h5 0 10 t c4 ([] ++ b1 ++ b2 ++ b3 ++ b4) (by rw [l5]; decide)
  rw [l1] at e1
  rw [l2] at e2
  rw [l3] at e3
  rw [l4] at e4
  rw [l5] at e5
  rw [e1, e2, e3, e4, e5]
  simp [uuidLoop, at']

theorem map_toNat_ofNat (l : List Nat) : (l.map Int.ofNat).map Int.toNat = l := by
  rw [List.map_map]
  exact (List.map_congr_left (fun a _ => rfl)).trans (List.map_id l)

/-- what is written can be read, unless `left` or `showbase` is set -/
theorem C150_uuid_partial (f : Fmt) (ha : f.adj ≠ .left) (hb : f.showbase = false) (hw : f.width ≤ 36 ∨ f.adj = .none)
    (u : List (BitVec 8)) (hu : u.length = 16) (t : List Nat) (old : List (BitVec 8)) :
    rUuid (at' (wUuid f u ++ t)) old = some (at' t, u) := by
  have hw' : wUuid f u = wUuidLoop f 0 u := by
    unfold wUuid
    rcases hw with hw | hw
    · rw [show f.width - 36 = 0 by omega]; simp
    · simp [hw]
  rw [hw']
  match u, hu with
  | [a0, a1, a2, a3, a4, a5, a6, a7, a8, a9, a10, a11, a12, a13, a14, a15], _ =>
    have := C150_uuid_read (wLoop_hex f ha hb [a0, a1, a2, a3]) (wLoop_hex f ha hb [a4, a5]) (wLoop_hex f ha hb [a6, a7])
      (wLoop_hex f ha hb [a8, a9]) (wLoop_hex f ha hb [a10, a11, a12, a13, a14, a15]) rfl rfl rfl rfl rfl t old
    simp only [map_toNat_ofNat] at this
    rw [show [a0, a1, a2, a3] ++ [a4, a5] ++ [a6, a7] ++ [a8, a9] ++ [a10, a11, a12, a13, a14, a15] =
      [a0, a1, a2, a3, a4, a5, a6, a7, a8, a9, a10, a11, a12, a13, a14, a15] from rfl] at this
    rw [← this]
    simp [wUuidLoop, dashAfter]

/-- reading is defined for every input; it yields sixteen bytes, or fails and leaves the variable as it was -/
theorem C150_uuid_total (s : IStream) (old : List (BitVec 8)) :
    ∃ s' v, rUuid s old = some (s', v) ∧ (s'.fail = true → v = old) ∧ (s'.fail = false → v.length = 16) := by
  have hdig : ∀ s c, (c.isSome ∨ (getCh s).1.isSome) → ∃ d, uuidDigit s c = some d := by
    intro s c h
    unfold uuidDigit
    cases h1 : (getCh s).1 with
    | some v => exact ⟨_, by simp [h1]; rfl⟩
    | none =>
      cases c with
      | some v => exact ⟨_, by simp [h1]; rfl⟩
      | none => simp [h1] at h
  have hloop : ∀ k i s c data, (c.isSome ∨ (getCh s).1.isSome) →
      ∃ s' d', uuidLoop k i s c data = some (s', d') ∧ (s'.fail = false → d'.length = data.length + k) := by
    intro k
    induction k with
    | zero => intro i s c data _; exact ⟨s, data, rfl, fun _ => rfl⟩
    | succ k ih =>
      intro i s c data h
      rw [uuidLoop]
      split
      · rename_i hf
        exact ⟨s, data, rfl, fun h => by simp [hf] at h⟩
      · obtain ⟨d, hd⟩ := hdig s c h
        rw [hd]
        simp only [Option.bind_eq_bind, Option.bind_some]
        cases d.1 with
        | none => exact ⟨_, _, rfl, fun h => by simp [setFail] at h⟩
        | some a =>
          obtain ⟨e, he⟩ := hdig d.2.2 (some d.2.1) (.inl rfl)
          simp only [he, Option.bind_some]
          cases e.1 with
          | none => exact ⟨_, _, rfl, fun h => by simp [setFail] at h⟩
          | some b =>
            simp only []
            split
            · split
              · exact ⟨_, _, rfl, fun h => by simp [setFail] at h⟩
              · obtain ⟨s', d', h1, h2⟩ := ih (i + 1) (getCh e.2.2).2 (some ((getCh e.2.2).1.getD e.2.1))
                  (data ++ [BitVec.ofNat 8 a <<< 4 ||| BitVec.ofNat 8 b]) (.inl rfl)
                exact ⟨s', d', h1, fun h => by rw [h2 h]; simp; omega⟩
            · obtain ⟨s', d', h1, h2⟩ := ih (i + 1) e.2.2 (some e.2.1) (data ++ [BitVec.ofNat 8 a <<< 4 ||| BitVec.ofNat 8 b]) (.inl rfl)
              exact ⟨s', d', h1, fun h => by rw [h2 h]; simp; omega⟩
  unfold rUuid sentry
  by_cases hg : s.good = true
  · simp only [hg, Bool.not_true, Bool.false_eq_true, if_false]
    cases hs : s.rest.dropWhile isSpace with
    | nil => exact ⟨_, _, rfl, fun _ => rfl, fun h => by simp at h⟩
    | cons c t =>
      have hc : isSpace c = false := by
        have := List.head?_dropWhile_not isSpace s.rest
        rw [hs] at this
        simpa using this
      obtain ⟨s', d', h1, h2⟩ := hloop 16 0 ⟨c :: t, false, false⟩ none [] (.inr (by
        have := getCh_cons c t hc
        rw [at'] at this
        rw [this]; rfl))
      simp only [if_true]
      rw [h1]
      refine ⟨s', _, rfl, fun h => by simp [h], fun h => by simpa [h] using h2 h⟩
  · simp only [hg]
    exact ⟨_, _, rfl, fun _ => rfl, fun h => by simp at h⟩

def sampleUuid : List (BitVec 8) := [0x01, 0x23, 0x45, 0x67, 0x89, 0xab, 0xcd, 0xef, 0x01, 0x23, 0x45, 0x67, 0x89, 0xab, 0xcd, 0xef]

example : (wUuid ⟨.none, false, false, 0, 32⟩ sampleUuid).map Int.ofNat =
    [48, 49, 50, 51, 52, 53, 54, 55, 45, 56, 57, 97, 98, 45, 99, 100, 101, 102, 45, 48, 49, 50, 51, 45, 52, 53, 54, 55, 56, 57, 97, 98,
      99, 100, 101, 102] := by decide

/-- With `std::left` the fill character follows the digit: the byte `0x01` is written `10`, another uuid is read back -/
theorem C150_uuid_left_refuted :
    rUuid (at' (wUuid ⟨.left, false, false, 0, 32⟩ sampleUuid)) [] = some (at' [],
      [0x10, 0x23, 0x45, 0x67, 0x89, 0xab, 0xcd, 0xef, 0x10, 0x23, 0x45, 0x67, 0x89, 0xab, 0xcd, 0xef]) := by decide +kernel

/-- With `std::showbase` every byte gets the prefix `0x`, and reading fails -/
theorem C150_uuid_showbase_refuted :
    (rUuid (at' (wUuid ⟨.none, true, false, 0, 32⟩ sampleUuid)) []).map (fun r => (r.1.fail, r.2)) = some (true, []) := by decide +kernel

/-- In a new stream no adjustment is set, which means right-adjusted; the width is then ignored -/
theorem C150_uuid_width_refuted : (wUuid ⟨.none, false, false, 40, 32⟩ sampleUuid).length = 36 ∧
    (wUuid ⟨.right, false, false, 40, 32⟩ sampleUuid).length = 40 := by decide

end Sprout
