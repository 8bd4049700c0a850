import Verif.Model.DarkShade
import Verif.Props.C137
import Mathlib.Algebra.Order.Round
import Mathlib.Tactic.IntervalCases

/-!
# C138: colours, materials, textures and lights of the ray tracer
-/

namespace Sprout
open Dark Geo

/-- the functions with several arguments are the sums and the products of the components -/
theorem C138_colors (c d : Col) (k : ℝ) (ks : List ℝ) (ds : List Col) :
    c.muls k ks = c.mul (k * ks.prod) ∧
      c.adds d ds = ⟨c.r + d.r + (ds.map Col.r).sum, c.g + d.g + (ds.map Col.g).sum, c.b + d.b + (ds.map Col.b).sum⟩ ∧
      c.filters d ds = ⟨c.r * d.r * (ds.map Col.r).prod, c.g * d.g * (ds.map Col.g).prod, c.b * d.b * (ds.map Col.b).prod⟩ := by
  refine ⟨?_, ?_, ?_⟩
  · induction ks generalizing c k with
    | nil => simp [Col.muls]
    | cons x xs ih => rw [Col.muls, ih]; simp only [Col.mul, List.prod_cons, Col.mk.injEq]; exact ⟨by ring, by ring, by ring⟩
  · induction ds generalizing c d with
    | nil => simp [Col.adds, Col.add]
    | cons x xs ih => rw [Col.adds, ih]; simp only [Col.add, List.map_cons, List.sum_cons, Col.mk.injEq]; exact ⟨by ring, by ring, by ring⟩
  · induction ds generalizing c d with
    | nil => simp [Col.filters, Col.filter]
    | cons x xs ih => rw [Col.filters, ih]; simp only [Col.filter, List.map_cons, List.prod_cons, Col.mk.injEq]; exact ⟨by ring, by ring, by ring⟩

/-- The components of a pixel lie in the range of their type, grow with those of the colour, and are cut off outside of `[0, 1]`. -/
theorem C138_to_rgb (mx : ℕ) (c : ℝ) :
    toUnit mx c ≤ mx ∧ (∀ d, c ≤ d → toUnit mx c ≤ toUnit mx d) ∧ (c ≤ 0 → toUnit mx c = 0) ∧ (1 ≤ c → toUnit mx c = mx) ∧
      (0 ≤ c → c ≤ 1 → toUnit mx c = ⌊c * mx⌋₊) := by
  have hle : ∀ c, toUnit mx c ≤ mx := by
    intro c
    unfold toUnit
    split
    · omega
    · split
      · exact le_refl _
      · rename_i h1 h2
        refine Nat.floor_le_of_le ?_
        have : (0 : ℝ) ≤ mx := by positivity
        nlinarith
  have hmid : ∀ c, 0 ≤ c → c ≤ 1 → toUnit mx c = ⌊c * mx⌋₊ := by
    intro c h0 h1
    unfold toUnit
    rw [if_neg (not_lt.2 h0), if_neg (not_lt.2 h1)]
  refine ⟨hle c, ?_, ?_, ?_, hmid c⟩
  · intro d hcd
    by_cases h0 : c < 0
    · unfold toUnit; rw [if_pos h0]; omega
    · by_cases h1 : d > 1
      · have : toUnit mx d = mx := by unfold toUnit; rw [if_neg (by linarith), if_pos h1]
        rw [this]; exact hle c
      · rw [hmid c (by linarith) (by linarith), hmid d (by linarith) (by linarith)]
        refine Nat.floor_mono ?_
        exact mul_le_mul_of_nonneg_right hcd (by positivity)
  · intro h
    rcases h.lt_or_eq with h | rfl
    · unfold toUnit; rw [if_pos h]
    · simp [toUnit]
  · intro h
    rcases h.lt_or_eq with h | rfl
    · unfold toUnit; rw [if_neg (by linarith), if_pos h]
    · simp [toUnit]

/-- the pixel `0xRRGGBB` of a texture, read as a colour and converted back -/
theorem C138_decode (e : ℕ) : toRgb 255 (decode e) = (e / 65536 % 256, e / 256 % 256, e % 256) := by
  have h : ∀ k : ℕ, k < 256 → toUnit 255 ((k : ℝ) / 255) = k := by
    intro k hk
    have hk' : (k : ℝ) ≤ 255 := by exact_mod_cast Nat.lt_succ_iff.1 hk
    rw [(C138_to_rgb 255 _).2.2.2.2 (by positivity) (by rw [div_le_one (by norm_num)]; exact hk')]
    rw [show ((k : ℝ) / 255 * ((255 : ℕ) : ℝ)) = (k : ℝ) by push_cast; field_simp]
    exact Nat.floor_natCast k
  have hb : ∀ n : ℕ, n &&& 0xFF = n % 256 := fun n => Nat.and_two_pow_sub_one_eq_mod n 8
  unfold toRgb decode
  simp only [hb, Nat.shiftRight_eq_div_pow]
  rw [h _ (Nat.mod_lt _ (by norm_num)), h _ (Nat.mod_lt _ (by norm_num)), h _ (Nat.mod_lt _ (by norm_num))]

/-- Bilinear interpolation stays between its corners, and takes their colours at the corners. -/
theorem C138_bilinear (c00 c01 c10 c11 : Col) (u v : ℝ) (hu : 0 ≤ u) (hu1 : u ≤ 1) (hv : 0 ≤ v) (hv1 : v ≤ 1) :
    (∀ (f : Col → ℝ), f = Col.r ∨ f = Col.g ∨ f = Col.b → ∀ lo hi, (∀ c ∈ [c00, c01, c10, c11], lo ≤ f c ∧ f c ≤ hi) →
      lo ≤ f (bilinear c00 c01 c10 c11 u v) ∧ f (bilinear c00 c01 c10 c11 u v) ≤ hi) ∧
      bilinear c00 c01 c10 c11 0 0 = c00 ∧ bilinear c00 c01 c10 c11 1 0 = c01 ∧
      bilinear c00 c01 c10 c11 0 1 = c10 ∧ bilinear c00 c01 c10 c11 1 1 = c11 := by
  refine ⟨?_, by simp [bilinear, Col.mul, Col.add], by simp [bilinear, Col.mul, Col.add], by simp [bilinear, Col.mul, Col.add],
    by simp [bilinear, Col.mul, Col.add]⟩
  have key : ∀ a b c d lo hi : ℝ, lo ≤ a → a ≤ hi → lo ≤ b → b ≤ hi → lo ≤ c → c ≤ hi → lo ≤ d → d ≤ hi →
      lo ≤ (a * (1 - u) + b * u) * (1 - v) + (c * (1 - u) + d * u) * v ∧ (a * (1 - u) + b * u) * (1 - v) + (c * (1 - u) + d * u) * v ≤ hi := by
    intro a b c d lo hi a1 a2 b1 b2 c1 c2 d1 d2
    have hu' : 0 ≤ 1 - u := by linarith
    have hv' : 0 ≤ 1 - v := by linarith
    have p1 : lo ≤ a * (1 - u) + b * u := by nlinarith
    have p2 : a * (1 - u) + b * u ≤ hi := by nlinarith
    have p3 : lo ≤ c * (1 - u) + d * u := by nlinarith
    have p4 : c * (1 - u) + d * u ≤ hi := by nlinarith
    constructor <;> nlinarith
  intro f hf lo hi h
  have h00 := h c00 (by simp)
  have h01 := h c01 (by simp)
  have h10 := h c10 (by simp)
  have h11 := h c11 (by simp)
  rcases hf with rfl | rfl | rfl <;> exact key _ _ _ _ _ _ h00.1 h00.2 h01.1 h01.2 h10.1 h10.2 h11.1 h11.2

/-- what is wanted of a plaid: a chessboard whose squares have half the scale as their side -/
def PlaidFull : Prop := ∀ s u v : ℝ, 0 < s → plaid true false s u v = decide (Even (⌊2 * u / s⌋ + ⌊2 * v / s⌋))

/-- On the lines at negative multiples of the scale the colours are exchanged. -/
theorem C138_plaid_refuted : ¬ PlaidFull := by
  intro h
  have := h 1 (-1) 0 (by norm_num)
  have h1 : ⌊(2 : ℝ) * -1 / 1⌋ = -2 := by rw [Int.floor_eq_iff]; norm_num
  have h2 : ⌊(2 : ℝ) * 0 / 1⌋ = 0 := by rw [Int.floor_eq_iff]; norm_num
  have h3 : ⌈(-1 : ℝ)⌉ = -1 := by rw [Int.ceil_eq_iff]; norm_num
  rw [h1, h2] at this
  norm_num [plaid, plaid1, plaidCoord, fmod, h3] at this

theorem plaidCoord_nonneg (s u : ℝ) (hs : 0 < s) (hu : 0 ≤ u ∨ ∀ k : ℤ, u ≠ k * s) : 0 ≤ plaidCoord s u ↔ Odd ⌊2 * u / s⌋ := by
  have hfl : plaidCoord s u = u - s * (⌊u / s⌋ : ℝ) - s / 2 := by
    unfold plaidCoord fmod
    by_cases hneg : u < 0
    · have hne : ∀ k : ℤ, u ≠ k * s := by rcases hu with h | h <;> [linarith; exact h]
      have hdiv : u / s < 0 := div_neg_of_neg_of_pos hneg hs
      have hceil : (⌈u / s⌉ : ℝ) = ⌊u / s⌋ + 1 := by
        have : ⌈u / s⌉ = ⌊u / s⌋ + 1 := by
          rw [Int.ceil_eq_iff]
          push_cast
          refine ⟨?_, (Int.lt_floor_add_one _).le⟩
          have hle := Int.floor_le (u / s)
          have : (⌊u / s⌋ : ℝ) ≠ u / s := fun e => hne ⌊u / s⌋ (by rw [e]; field_simp)
          have := lt_of_le_of_ne hle this
          linarith
        rw [this]; push_cast; ring
      rw [if_pos hneg, if_pos hdiv, hceil]; ring
    · have hdiv : ¬ u / s < 0 := not_lt.2 (div_nonneg (not_lt.1 hneg) hs.le)
      rw [if_neg hneg, if_neg hdiv]
  set x := u / s with hx
  have hux : u = x * s := by rw [hx]; field_simp
  have h2x : 2 * u / s = 2 * x := by rw [hx]; ring
  have h1 := Int.floor_le x
  have h2 := Int.lt_floor_add_one x
  rw [hfl, h2x, hux]
  have hval : x * s - s * (⌊x⌋ : ℝ) - s / 2 = s * (x - ⌊x⌋ - 1 / 2) := by ring
  rw [hval, mul_nonneg_iff_of_pos_left hs]
  by_cases hc : 1 / 2 ≤ x - ⌊x⌋
  · have : ⌊2 * x⌋ = 2 * ⌊x⌋ + 1 := by
      rw [Int.floor_eq_iff]; push_cast; constructor <;> linarith
    rw [this]
    exact ⟨fun _ => odd_two_mul_add_one _, fun _ => by linarith⟩
  · have : ⌊2 * x⌋ = 2 * ⌊x⌋ := by
      rw [Int.floor_eq_iff]; push_cast; constructor <;> linarith
    rw [this]
    exact ⟨fun h => absurd h (by linarith), fun h => absurd h (Int.not_odd_iff_even.2 (even_two_mul _))⟩

/-- Everywhere else it is the chessboard. -/
theorem C138_plaid_partial {α : Type} (e1 e2 : α) (s u v : ℝ) (hs : 0 < s) (hu : 0 ≤ u ∨ ∀ k : ℤ, u ≠ k * s) (hv : 0 ≤ v ∨ ∀ k : ℤ, v ≠ k * s) :
    plaid e1 e2 s u v = if Even (⌊2 * u / s⌋ + ⌊2 * v / s⌋) then e1 else e2 := by
  have h1 := plaidCoord_nonneg s u hs hu
  have h2 := plaidCoord_nonneg s v hs hv
  unfold plaid plaid1
  have : ((plaidCoord s u ≥ 0 ∧ plaidCoord s v ≥ 0) ∨ (plaidCoord s u < 0 ∧ plaidCoord s v < 0)) ↔ Even (⌊2 * u / s⌋ + ⌊2 * v / s⌋) := by
    rw [Int.even_add, ge_iff_le, ge_iff_le, h1, h2, ← not_le, ← not_le, h1, h2, Int.not_odd_iff_even, Int.not_odd_iff_even,
      ← Int.not_even_iff_odd, ← Int.not_even_iff_odd]
    tauto
  by_cases hc : Even (⌊2 * u / s⌋ + ⌊2 * v / s⌋)
  · rw [if_pos (this.2 hc), if_pos hc]
  · rw [if_neg (fun h => hc (this.1 h)), if_neg hc]

/-- `make_plaid` with a scale is usable for `double` only. -/
theorem C138_make_plaid_undefined (e1 e2 : Col) (s : ℝ) (ty : ScaleTy) : (makePlaid ty e1 e2 s).isSome ↔ ty = .double := by
  unfold makePlaid
  cases ty <;> simp

/-- `make_texture_map` with a scale needs the default colour as an argument. -/
theorem C138_make_texture_map_undefined (tex : Tex) (s u v : ℝ) (n t : Bool) (d : Option Col) :
    (makeTexMap tex s u v d n t).isSome ↔ d.isSome := by
  cases d <;> simp [makeTexMap]

/-- the pixel of a texture that is repeated in all directions -/
noncomputable def tiled (t : Tex) (i j : ℤ) : Option Col := t.at (i % t.w).toNat (j % t.h).toNat

/-- what is wanted of `tile` -/
def TileFull : Prop := ∀ (t : TexMap) (x y : ℝ), t.tile = true → 0 < t.tex.w → 0 < t.tex.h →
  t.getColor x y = tiled t.tex ⌊x⌋ ⌊y⌋

/-- For the number -1, pixel `width - 2` is taken, not `width - 1`. -/
theorem C138_tile_refuted : ¬ TileFull := by
  intro h
  have := h ⟨⟨2, 1, [⟨0, 0, 0⟩, ⟨1, 1, 1⟩]⟩, 1, 0, 0, ⟨0, 0, 0⟩, true, true⟩ (-1) 0 rfl (by decide) (by decide)
  have h1 : ⌊(-1 : ℝ)⌋ = -1 := by rw [Int.floor_eq_iff]; norm_num
  norm_num [TexMap.getColor, tileIndex, tiled, Tex.at, h1] at this

theorem tileIndex_eq (n : ℕ) (hn : 0 < n) (x : ℝ) (hx : 0 ≤ x ∨ ∀ k : ℤ, x ≠ k) : tileIndex n x = (⌊x⌋ % n).toNat := by
  unfold tileIndex
  by_cases hneg : x < 0
  · have hne : ∀ k : ℤ, x ≠ k := by rcases hx with h | h <;> [linarith; exact h]
    rw [if_pos hneg]
    obtain ⟨k, hk⟩ : ∃ k : ℕ, ⌊-x⌋₊ = k := ⟨_, rfl⟩
    have h1 : (k : ℝ) ≤ -x := by rw [← hk]; exact Nat.floor_le (by linarith)
    have h2 : -x < k + 1 := by rw [← hk]; exact Nat.lt_floor_add_one _
    have hfl : ⌊x⌋ = -(k : ℤ) - 1 := by
      rw [Int.floor_eq_iff]
      push_cast
      have : x ≠ -(k : ℝ) := by have := hne (-(k : ℤ)); push_cast at this; exact this
      refine ⟨by linarith, ?_⟩
      have h3 : x ≤ -k := by linarith
      have := lt_of_le_of_ne h3 this
      linarith
    rw [hk, hfl]
    have hlt := Nat.mod_lt k hn
    have hm := Nat.div_add_mod k n
    have : (-(k : ℤ) - 1) % n = ((n - 1 - k % n : ℕ) : ℤ) := by
      have e : -(k : ℤ) - 1 = ((n - 1 - k % n : ℕ) : ℤ) + n * (-(k / n : ℕ) - 1) := by
        have : ((n - 1 - k % n : ℕ) : ℤ) = n - 1 - (k % n : ℕ) := by omega
        rw [this]
        have hm' : (n : ℤ) * (k / n : ℕ) + (k % n : ℕ) = k := by exact_mod_cast hm
        linear_combination hm'
      rw [e, Int.add_mul_emod_self_left]
      exact Int.emod_eq_of_lt (by omega) (by omega)
    rw [this]
    exact (Int.toNat_natCast _).symm
  · rw [if_neg hneg]
    have h0 : 0 ≤ x := not_lt.1 hneg
    have : ⌊x⌋ = (⌊x⌋₊ : ℤ) := (Int.natCast_floor_eq_floor h0).symm
    rw [this, ← Int.natCast_emod, Int.toNat_natCast]

/-- Except for negative integers the tiles repeat. -/
theorem C138_tile_partial (t : TexMap) (x y : ℝ) (ht : t.tile = true) (hw : 0 < t.tex.w) (hh : 0 < t.tex.h)
    (hx : 0 ≤ x ∨ ∀ k : ℤ, x ≠ k) (hy : 0 ≤ y ∨ ∀ k : ℤ, y ≠ k) : t.getColor x y = tiled t.tex ⌊x⌋ ⌊y⌋ := by
  unfold TexMap.getColor tiled
  rw [if_pos ht, if_neg (by omega), tileIndex_eq _ hw x hx, tileIndex_eq _ hh y hy]

/-- the interpolation of the four pixels around a point -/
noncomputable def tiledBilinear (t : Tex) (x y : ℝ) : Option Col := do
  let a ← tiled t ⌊x⌋ ⌊y⌋
  let b ← tiled t (⌊x⌋ + 1) ⌊y⌋
  let c ← tiled t ⌊x⌋ (⌊y⌋ + 1)
  let d ← tiled t (⌊x⌋ + 1) (⌊y⌋ + 1)
  some (bilinear a b c d (x - ⌊x⌋) (y - ⌊y⌋))

/-- what is wanted of the interpolation in tiles -/
def TileBilinearFull : Prop := ∀ (t : TexMap) (x y : ℝ), t.tile = true → t.nearest = false → 0 < t.tex.w → 0 < t.tex.h →
  t.calc x y = tiledBilinear t.tex x y

/-- The pixels left of 0 are those of negative integers: between the last and the first pixel the wrong ones are mixed. -/
theorem C138_tile_bilinear_refuted : ¬ TileBilinearFull := by
  intro h
  have := h ⟨⟨2, 1, [⟨0, 0, 0⟩, ⟨1, 1, 1⟩]⟩, 1, 0, 0, ⟨0, 0, 0⟩, false, true⟩ (-1 / 2) 0 rfl rfl (by decide) (by decide)
  have h1 : ⌊(-1 / 2 : ℝ)⌋ = -1 := by rw [Int.floor_eq_iff]; norm_num
  norm_num [TexMap.calc, TexMap.bilinear1, TexMap.getColor, tileIndex, tiledBilinear, tiled, Tex.at, h1, bilinear, Col.mul, Col.add] at this

/-- Right of 0 and below 0 the interpolation is that of the repeated texture. -/
theorem C138_tile_bilinear_partial (t : TexMap) (x y : ℝ) (ht : t.tile = true) (hn : t.nearest = false) (hw : 0 < t.tex.w) (hh : 0 < t.tex.h)
    (hx : 0 ≤ x) (hy : 0 ≤ y) : t.calc x y = tiledBilinear t.tex x y := by
  have h0x : (0 : ℝ) ≤ ⌊x⌋ := by exact_mod_cast Int.floor_nonneg.2 hx
  have h0y : (0 : ℝ) ≤ ⌊y⌋ := by exact_mod_cast Int.floor_nonneg.2 hy
  have f1 : ∀ n : ℤ, ⌊(n : ℝ) + 1⌋ = n + 1 := fun n => by rw [Int.floor_add_one, Int.floor_intCast]
  unfold TexMap.calc TexMap.bilinear1 tiledBilinear
  rw [hn]
  simp only [Bool.false_eq_true, if_false]
  rw [C138_tile_partial t _ _ ht hw hh (Or.inl h0x) (Or.inl h0y), C138_tile_partial t _ _ ht hw hh (Or.inl (by linarith)) (Or.inl h0y),
    C138_tile_partial t _ _ ht hw hh (Or.inl h0x) (Or.inl (by linarith)),
    C138_tile_partial t _ _ ht hw hh (Or.inl (by linarith)) (Or.inl (by linarith))]
  simp only [f1, Int.floor_intCast]

/-- A texture that is placed once covers the square of side `scale` around the offset, from left to right and from top to bottom;
elsewhere there is the default colour. -/
theorem C138_once (t : TexMap) (elems : List ℕ) (u v : ℝ) (hm : makeTex t.tex.w t.tex.h elems = some t.tex) (hs : 0 < t.scale)
    (hw : 0 < t.tex.w) (hh : 0 < t.tex.h) (ht : t.tile = false) (hn : t.nearest = true) :
    (u < t.offU - t.scale / 2 ∨ t.offU + t.scale / 2 ≤ u ∨ v ≤ t.offV - t.scale / 2 ∨ t.offV + t.scale / 2 < v → t.call u v = some t.dflt) ∧
      (t.offU - t.scale / 2 ≤ u → u < t.offU + t.scale / 2 → t.offV - t.scale / 2 < v → v ≤ t.offV + t.scale / 2 →
        ∃ i < t.tex.w, ∃ j < t.tex.h, ∃ e, elems[j * t.tex.w + i]? = some e ∧ t.call u v = some (decode e) ∧
          i * t.scale ≤ (u - (t.offU - t.scale / 2)) * t.tex.w ∧ (u - (t.offU - t.scale / 2)) * t.tex.w < (i + 1) * t.scale ∧
          j * t.scale ≤ (t.offV + t.scale / 2 - v) * t.tex.h ∧ (t.offV + t.scale / 2 - v) * t.tex.h < (j + 1) * t.scale) := by
  have hlen : elems.length = t.tex.w * t.tex.h := by
    unfold makeTex at hm
    by_contra hc
    rw [if_neg hc] at hm
    exact absurd hm (by simp)
  have hpx : t.tex.px = elems.map decode := by
    unfold makeTex at hm
    rw [if_pos hlen, Option.some.injEq] at hm
    rw [← hm]
  have hw' : (0 : ℝ) < t.tex.w := by exact_mod_cast hw
  have hh' : (0 : ℝ) < t.tex.h := by exact_mod_cast hh
  set X := (u - t.offU + t.scale / 2) / t.scale * t.tex.w with hX
  set Y := (-(v - t.offV) + t.scale / 2) / t.scale * t.tex.h with hY
  have hXs : X * t.scale = (u - (t.offU - t.scale / 2)) * t.tex.w := by rw [hX]; field_simp; ring
  have hYs : Y * t.scale = (t.offV + t.scale / 2 - v) * t.tex.h := by rw [hY]; field_simp; ring
  have hcall : t.call u v = if X < 0 ∨ X ≥ t.tex.w ∨ Y < 0 ∨ Y ≥ t.tex.h then some t.dflt else t.tex.at ⌊X⌋₊ ⌊Y⌋₊ := by
    unfold TexMap.call TexMap.calc TexMap.getColor
    rw [if_neg hs.ne', hn, if_pos rfl, ht]
    simp only [Bool.false_eq_true, if_false]
    rfl
  rw [hcall]
  constructor
  · intro h
    rw [if_pos]
    rcases h with h | h | h | h
    · left
      by_contra hc
      nlinarith [mul_nonneg (not_lt.1 hc) hs.le, mul_pos (show 0 < t.offU - t.scale / 2 - u by linarith) hw']
    · right; left
      by_contra hc
      have : X * t.scale < t.tex.w * t.scale := mul_lt_mul_of_pos_right (not_le.1 hc) hs
      nlinarith [mul_nonneg (show 0 ≤ u - (t.offU + t.scale / 2) by linarith) hw'.le]
    · right; right; right
      by_contra hc
      have : Y * t.scale < t.tex.h * t.scale := mul_lt_mul_of_pos_right (not_le.1 hc) hs
      nlinarith [mul_nonneg (show 0 ≤ t.offV - t.scale / 2 - v by linarith) hh'.le]
    · right; right; left
      by_contra hc
      nlinarith [mul_nonneg (not_lt.1 hc) hs.le, mul_pos (show 0 < v - (t.offV + t.scale / 2) by linarith) hh']
  · intro h1 h2 h3 h4
    have x0 : 0 ≤ X := by
      have : 0 ≤ X * t.scale := by rw [hXs]; exact mul_nonneg (by linarith) hw'.le
      exact nonneg_of_mul_nonneg_left this hs
    have x1 : X < t.tex.w := by
      refine lt_of_mul_lt_mul_right ?_ hs.le
      rw [hXs]
      nlinarith [mul_pos (show 0 < t.offU + t.scale / 2 - u by linarith) hw']
    have y0 : 0 ≤ Y := by
      have : 0 ≤ Y * t.scale := by rw [hYs]; exact mul_nonneg (by linarith) hh'.le
      exact nonneg_of_mul_nonneg_left this hs
    have y1 : Y < t.tex.h := by
      refine lt_of_mul_lt_mul_right ?_ hs.le
      rw [hYs]
      nlinarith [mul_pos (show 0 < v - (t.offV - t.scale / 2) by linarith) hh']
    have hi : ⌊X⌋₊ < t.tex.w := (Nat.floor_lt x0).2 x1
    have hj : ⌊Y⌋₊ < t.tex.h := (Nat.floor_lt y0).2 y1
    have hidx : ⌊Y⌋₊ * t.tex.w + ⌊X⌋₊ < elems.length := by
      rw [hlen]
      calc ⌊Y⌋₊ * t.tex.w + ⌊X⌋₊ < ⌊Y⌋₊ * t.tex.w + t.tex.w := by omega
        _ = (⌊Y⌋₊ + 1) * t.tex.w := by ring
        _ ≤ t.tex.h * t.tex.w := Nat.mul_le_mul_right _ hj
        _ = t.tex.w * t.tex.h := by ring
    refine ⟨⌊X⌋₊, hi, ⌊Y⌋₊, hj, elems[⌊Y⌋₊ * t.tex.w + ⌊X⌋₊], List.getElem?_eq_getElem hidx, ?_, ?_, ?_, ?_, ?_⟩
    · rw [if_neg (by push Not; exact ⟨x0, x1, y0, y1⟩)]
      unfold Tex.at
      rw [hpx, List.getElem?_map, List.getElem?_eq_getElem hidx]
      rfl
    · rw [← hXs]; exact mul_le_mul_of_nonneg_right (Nat.floor_le x0) hs.le
    · rw [← hXs]; exact mul_lt_mul_of_pos_right (Nat.lt_floor_add_one X) hs
    · rw [← hYs]; exact mul_le_mul_of_nonneg_right (Nat.floor_le y0) hs.le
    · rw [← hYs]; exact mul_lt_mul_of_pos_right (Nat.lt_floor_add_one Y) hs

/-- An ambient light gives its colour filtered by that of the material. -/
theorem C138_ambient (col : Col) (i : Isect Mat) (objs : Obj Mat) :
    ambientLight col i objs = some ⟨col.r * i.mat.color.r, col.g * i.mat.color.g, col.b * i.mat.color.b⟩ := rfl

/-- the colour of a light with an intensity -/
noncomputable def lit (col : Col) (m : Mat) (k : ℝ) : Col :=
  ⟨col.r * m.color.r * k, col.g * m.color.g * k, col.b * m.color.b * k⟩

theorem detached_ray (p d : Vec) (hd : Norm1 d.p) : ∃ r, makeDetachedRay p d = some r ∧ r.dir = d := by
  have hl : length d = 1 := length_unit hd
  have he : epsilon * 256 ≠ 0 := by unfold epsilon; positivity
  unfold makeDetachedRay detachPosition resize
  rw [if_neg he, normalizeImpl_eq (by rw [hl]; exact one_div_ne_zero he)]
  exact ⟨_, rfl, rfl⟩

/-- what is wanted of a point light: it is hidden if and only if some object lies between the point and the light, not counting what is
closer than `epsilon` -/
def PointFull : Prop := ∀ (pos : Vec) (col : Col) (i : Isect Mat) (objs : List (Obj Mat)) (d : Vec) (r : Ray) (rs : List (Isect Mat)),
  normalize (sub pos i.point) = some d → makeDetachedRay i.point d = some r → objs ≠ [] → objs.map (fun f => f r) = rs.map some →
  ((∃ h ∈ rs, h.does = true ∧ epsilon ≤ h.dist ∧ h.dist ≤ length (sub pos i.point)) →
    pointLight pos col i (intersectList objs) = some (lit col i.mat 0)) ∧
  ((¬ ∃ h ∈ rs, h.does = true ∧ epsilon ≤ h.dist ∧ h.dist ≤ length (sub pos i.point)) →
    pointLight pos col i (intersectList objs) = some (lit col i.mat (max epsilon (dot d i.normal / (length (sub pos i.point) + 1)))))

/-- the same for a parallel light -/
def ParallelFull : Prop := ∀ (dir : Vec) (col : Col) (i : Isect Mat) (objs : List (Obj Mat)) (d : Vec) (r : Ray) (rs : List (Isect Mat)),
  normalize dir = some d → makeDetachedRay i.point d = some r → objs ≠ [] → objs.map (fun f => f r) = rs.map some →
  ((∃ h ∈ rs, h.does = true ∧ epsilon ≤ h.dist) → parallelLight dir col i (intersectList objs) = some (lit col i.mat 0)) ∧
  ((¬ ∃ h ∈ rs, h.does = true ∧ epsilon ≤ h.dist) → parallelLight dir col i (intersectList objs) = some (lit col i.mat (max epsilon (dot d i.normal))))

theorem epsilon_pos : 0 < epsilon := by unfold epsilon; positivity

/-- Only the nearest object is looked at: if it is closer than `epsilon`, an object behind it casts no shadow. -/
theorem C138_shadow_refuted : ¬ PointFull ∧ ¬ ParallelFull := by
  have he := epsilon_pos
  have he1 : epsilon < 1 / 2 := by unfold epsilon; norm_num
  set m : Mat := ⟨⟨1, 1, 1⟩, 0, 0, 0⟩ with hm
  set i : Isect Mat := ⟨true, 1, ⟨0, 0, 0⟩, ⟨0, 1, 0⟩, m, false⟩ with hi
  set a : Isect Mat := ⟨true, epsilon / 2, ⟨0, 0, 0⟩, ⟨0, 1, 0⟩, m, false⟩ with ha
  set b : Isect Mat := ⟨true, 1 / 2, ⟨0, 0, 0⟩, ⟨0, 1, 0⟩, m, false⟩ with hb
  set d : Vec := ⟨0, 1, 0⟩ with hd
  have hlen : length d = 1 := length_unit (by norm_num [Norm1, Geo.inner, Vec.p, hd])
  have hsub : sub d ⟨0, 0, 0⟩ = d := by simp [sub, hd]
  have hnorm : normalize d = some d := by
    unfold Dark.normalize; rw [hlen, normalizeImpl_eq one_ne_zero]; simp
  obtain ⟨r, hr, -⟩ := detached_ray ⟨0, 0, 0⟩ d (by norm_num [Norm1, Geo.inner, Vec.p, hd])
  have hlist : ∀ r, intersectList [fun _ => some a, fun _ => some b] r = some a := by
    intro r
    have : ¬ (1 / 2 : ℝ) < epsilon / 2 := by linarith
    simp [intersectList, intersectListImpl, comp, ha, hb]
    intro hc; linarith
  constructor
  · intro h
    have h1 := (h d ⟨1, 1, 1⟩ i [fun _ => some a, fun _ => some b] d r [a, b] (by rw [hi]; simp only; rw [hsub, hnorm]) hr (by simp) (by simp)).1
      ⟨b, by simp, by rw [hb], by rw [hb]; exact he1.le, by rw [hi]; simp only; rw [hsub, hlen, hb]; norm_num⟩
    unfold pointLight at h1
    simp only [hi, hsub, hnorm, hr, hlist, Option.bind_eq_bind, Option.bind_some, Option.some.injEq] at h1
    have h2 := congrArg Col.r h1
    have : ¬ (epsilon / 2 > 1) := by linarith
    simp only [pointShade, lit, Col.mul, Col.filter, ha, hlen] at h2
    rw [if_pos (by simp; right; linarith)] at h2
    have := le_max_left epsilon (dot d ⟨0, 1, 0⟩ / (1 + 1))
    simp only [hm] at h2
    linarith
  · intro h
    have h1 := (h d ⟨1, 1, 1⟩ i [fun _ => some a, fun _ => some b] d r [a, b] hnorm hr (by simp) (by simp)).1
      ⟨b, by simp, by rw [hb], by rw [hb]; exact he1.le⟩
    unfold parallelLight at h1
    simp only [hi, hnorm, hr, hlist, Option.bind_eq_bind, Option.bind_some, Option.some.injEq] at h1
    have h2 := congrArg Col.r h1
    simp only [parallelShade, lit, Col.mul, Col.filter, ha] at h2
    rw [if_pos (by simp; linarith)] at h2
    have := le_max_left epsilon (dot d ⟨0, 1, 0⟩)
    simp only [hm] at h2
    linarith

/-- the nearest of the objects -/
theorem nearest_hit (objs : List (Obj Mat)) (r : Ray) (rs : List (Isect Mat)) (hne : objs ≠ []) (h : objs.map (fun f => f r) = rs.map some)
    (hsep : ∀ h ∈ rs, h.does = true → epsilon ≤ h.dist) :
    ∃ l, intersectList objs r = some l ∧ (l.does = true → epsilon ≤ l.dist) ∧
      ∀ hi : ℝ, (l.does = true ∧ l.dist ≤ hi) ↔ ∃ h ∈ rs, h.does = true ∧ h.dist ≤ hi := by
  obtain ⟨k, hk, e, hcase⟩ := C137_list objs r rs hne h
  refine ⟨rs[k], e, hsep _ (List.getElem_mem hk), ?_⟩
  intro hi
  constructor
  · rintro ⟨h1, h2⟩; exact ⟨_, List.getElem_mem hk, h1, h2⟩
  · rintro ⟨x, hx, h1, h2⟩
    obtain ⟨j, hj, rfl⟩ := List.getElem_of_mem hx
    rcases hcase with ⟨c1, c2⟩ | ⟨-, c2⟩
    · exact ⟨c1, (c2 j hj h1).1.trans h2⟩
    · rw [c2 j hj] at h1; exact absurd h1 (by simp)

/-- If nothing is closer than `epsilon`, the shadows are right. -/
theorem C138_point_partial (pos : Vec) (col : Col) (i : Isect Mat) (objs : List (Obj Mat)) (d : Vec) (r : Ray) (rs : List (Isect Mat))
    (h1 : normalize (sub pos i.point) = some d) (h2 : makeDetachedRay i.point d = some r) (hne : objs ≠ [])
    (h : objs.map (fun f => f r) = rs.map some) (hsep : ∀ h ∈ rs, h.does = true → epsilon ≤ h.dist) :
    ((∃ h ∈ rs, h.does = true ∧ epsilon ≤ h.dist ∧ h.dist ≤ length (sub pos i.point)) →
      pointLight pos col i (intersectList objs) = some (lit col i.mat 0)) ∧
    ((¬ ∃ h ∈ rs, h.does = true ∧ epsilon ≤ h.dist ∧ h.dist ≤ length (sub pos i.point)) →
      pointLight pos col i (intersectList objs) = some (lit col i.mat (max epsilon (dot d i.normal / (length (sub pos i.point) + 1))))) := by
  obtain ⟨l, e, hl, hiff⟩ := nearest_hit objs r rs hne h hsep
  have hp : pointLight pos col i (intersectList objs) = some (pointShade col i (sub pos i.point) d l) := by
    unfold pointLight
    simp only [h1, h2, e, Option.bind_eq_bind, Option.bind_some]
  rw [hp]
  have hiff := hiff (length (sub pos i.point))
  constructor
  · rintro ⟨x, hx, a1, a2, a3⟩
    obtain ⟨b1, b2⟩ := hiff.2 ⟨x, hx, a1, a3⟩
    unfold pointShade
    rw [if_neg (by simp [b1]; exact ⟨b2, hl b1⟩)]
    rfl
  · intro hn
    have : ¬ (l.does = true ∧ l.dist ≤ length (sub pos i.point)) := by
      intro hc
      obtain ⟨x, hx, a1, a2⟩ := hiff.1 hc
      exact hn ⟨x, hx, a1, hsep x hx a1, a2⟩
    unfold pointShade
    rw [if_pos]
    · rfl
    · cases hd : l.does
      · simp
      · rw [hd] at this; simp at this; simp [this]

/-- the same for a parallel light -/
theorem C138_parallel_partial (dir : Vec) (col : Col) (i : Isect Mat) (objs : List (Obj Mat)) (d : Vec) (r : Ray) (rs : List (Isect Mat))
    (h1 : normalize dir = some d) (h2 : makeDetachedRay i.point d = some r) (hne : objs ≠ [])
    (h : objs.map (fun f => f r) = rs.map some) (hsep : ∀ h ∈ rs, h.does = true → epsilon ≤ h.dist) :
    ((∃ h ∈ rs, h.does = true ∧ epsilon ≤ h.dist) → parallelLight dir col i (intersectList objs) = some (lit col i.mat 0)) ∧
    ((¬ ∃ h ∈ rs, h.does = true ∧ epsilon ≤ h.dist) →
      parallelLight dir col i (intersectList objs) = some (lit col i.mat (max epsilon (dot d i.normal)))) := by
  obtain ⟨l, e, hl, hiff⟩ := nearest_hit objs r rs hne h hsep
  have hp : parallelLight dir col i (intersectList objs) = some (parallelShade d col i l) := by
    unfold parallelLight
    simp only [h1, h2, e, Option.bind_eq_bind, Option.bind_some]
  rw [hp]
  constructor
  · rintro ⟨x, hx, a1, a2⟩
    obtain ⟨b1, -⟩ := (hiff x.dist).2 ⟨x, hx, a1, le_refl _⟩
    unfold parallelShade
    rw [if_neg (by simp [b1]; exact hl b1)]
    rfl
  · intro hn
    have : l.does = false := by
      by_contra hc
      have hc : l.does = true := by simpa using hc
      obtain ⟨x, hx, a1, -⟩ := (hiff l.dist).1 ⟨hc, le_refl _⟩
      exact hn ⟨x, hx, a1, hsep x hx a1⟩
    unfold parallelShade
    rw [if_pos (by simp [this])]
    rfl

theorem dot_le_one {a b : Vec} (ha : Norm1 a.p) (hb : Norm1 b.p) : dot a b ≤ 1 := by
  unfold Norm1 Geo.inner Vec.p at ha hb
  simp only at ha hb
  unfold dot
  nlinarith [mul_self_nonneg (a.x - b.x), mul_self_nonneg (a.y - b.y), mul_self_nonneg (a.z - b.z)]

/-- A light that gives a colour gives its own with an intensity between 0 and 1; a surface that is turned away from it gets no more
than `epsilon`. -/
theorem C138_intensity (l : Light) (v : Vec) (col : Col) (hl : l = pointLight v col ∨ l = parallelLight v col) (i : Isect Mat) (objs : Obj Mat)
    (hn : Norm1 i.normal.p) (c : Col) (h : l i objs = some c) :
    ∃ k, 0 ≤ k ∧ k ≤ 1 ∧ c = lit col i.mat k ∧
      (l = pointLight v col → Geo.inner (v.p - i.point.p) i.normal.p ≤ 0 → k ≤ epsilon) ∧
      (l = parallelLight v col → l ≠ pointLight v col → Geo.inner v.p i.normal.p ≤ 0 → k ≤ epsilon) := by
  have he := epsilon_pos
  have he1 : epsilon ≤ 1 := by unfold epsilon; norm_num
  have hdiv : ∀ w d : Vec, normalize w = some d → Norm1 d.p ∧ (Geo.inner w.p i.normal.p ≤ 0 → dot d i.normal ≤ 0) := by
    intro w d hd
    have hw : w ≠ ⟨0, 0, 0⟩ := by
      rintro rfl
      have := C136_normalize_zero ⟨0, 0, 0⟩ rfl
      rw [this] at hd; exact absurd hd (by simp)
    have hpos := length_pos hw
    rw [normalize_eq hw, Option.some.injEq] at hd
    subst hd
    constructor
    · have := length_mul_self w
      unfold lengthSq at this
      unfold Norm1 Geo.inner Vec.p
      simp only
      field_simp
      nlinarith
    · intro hle
      have : dot ⟨w.x / length w, w.y / length w, w.z / length w⟩ i.normal = Geo.inner w.p i.normal.p / length w := by
        unfold dot Geo.inner Vec.p; simp only; field_simp
      rw [this]
      exact div_nonpos_of_nonpos_of_nonneg hle hpos.le
  have hpt : ∀ c, pointLight v col i objs = some c → ∃ k, 0 ≤ k ∧ k ≤ 1 ∧ c = lit col i.mat k ∧ (Geo.inner (v.p - i.point.p) i.normal.p ≤ 0 → k ≤ epsilon) := by
    intro c h
    unfold pointLight at h
    simp only [Option.bind_eq_bind, Option.bind_eq_some_iff, Option.some.injEq] at h
    obtain ⟨d, hd, r, -, x, -, rfl⟩ := h
    obtain ⟨hu, hs⟩ := hdiv _ _ hd
    have hsub : (sub v i.point).p = v.p - i.point.p := rfl
    rw [hsub] at hs
    have hlen := length_nonneg (sub v i.point)
    unfold pointShade
    split
    · refine ⟨_, le_trans he.le (le_max_left _ _), max_le he1 ?_, rfl, fun hle => max_le (le_refl _) ?_⟩
      · rw [div_le_one (by linarith)]
        linarith [dot_le_one hu hn]
      · exact le_trans (div_nonpos_of_nonpos_of_nonneg (hs hle) (by linarith)) he.le
    · exact ⟨0, le_refl _, by norm_num, rfl, fun _ => he.le⟩
  have hpl : ∀ c, parallelLight v col i objs = some c → ∃ k, 0 ≤ k ∧ k ≤ 1 ∧ c = lit col i.mat k ∧ (Geo.inner v.p i.normal.p ≤ 0 → k ≤ epsilon) := by
    intro c h
    unfold parallelLight at h
    simp only [Option.bind_eq_bind, Option.bind_eq_some_iff, Option.some.injEq] at h
    obtain ⟨d, hd, r, -, x, -, rfl⟩ := h
    obtain ⟨hu, hs⟩ := hdiv _ _ hd
    unfold parallelShade
    split
    · exact ⟨_, le_trans he.le (le_max_left _ _), max_le he1 (dot_le_one hu hn), rfl, fun hle => max_le (le_refl _) ((hs hle).trans he.le)⟩
    · exact ⟨0, le_refl _, by norm_num, rfl, fun _ => he.le⟩
  by_cases hp : l = pointLight v col
  · subst hp
    obtain ⟨k, k0, k1, kc, ks⟩ := hpt c h
    exact ⟨k, k0, k1, kc, fun _ => ks, fun _ hne => absurd rfl hne⟩
  · have : l = parallelLight v col := hl.resolve_left hp
    subst this
    obtain ⟨k, k0, k1, kc, ks⟩ := hpl c h
    exact ⟨k, k0, k1, kc, fun e => absurd e hp, fun _ _ => ks⟩

/-- A list of lights gives the sum of the lights; there is no colour for the empty list. -/
theorem C138_light_list (ls : List Light) (i : Isect Mat) (objs : Obj Mat) (cs : List Col) (h : ls.map (fun l => l i objs) = cs.map some) :
    (ls ≠ [] → lightList ls i objs = some ⟨(cs.map Col.r).sum, (cs.map Col.g).sum, (cs.map Col.b).sum⟩) ∧ lightList [] i objs = none := by
  refine ⟨?_, rfl⟩
  have hs : ∀ (ds : List Col) (c : Col), sumCols c ds = ⟨c.r + (ds.map Col.r).sum, c.g + (ds.map Col.g).sum, c.b + (ds.map Col.b).sum⟩ := by
    intro ds
    induction ds with
    | nil => intro c; simp [sumCols]
    | cons d ds ih => intro c; rw [sumCols, ih]; simp only [Col.add, List.map_cons, List.sum_cons, Col.mk.injEq]; exact ⟨by ring, by ring, by ring⟩
  have hm : ∀ (ls : List Light) (cs : List Col), ls.map (fun l => l i objs) = cs.map some → ls.mapM (fun l => l i objs) = some cs := by
    intro ls
    induction ls with
    | nil => intro cs h; cases cs <;> simp_all
    | cons l ls ih =>
      intro cs h
      cases cs with
      | nil => simp at h
      | cons c cs =>
        simp only [List.map_cons, List.cons.injEq] at h
        rw [List.mapM_cons, h.1, ih cs h.2]
        rfl
  intro hne
  unfold lightList
  rw [hm ls cs h]
  cases cs with
  | nil => simp at h; exact absurd h hne
  | cons c cs =>
    simp only [Option.bind_eq_bind, Option.bind_some, List.map_cons, List.sum_cons]
    rw [hs]

/-- non-vacuity: colours -/
example : (Col.muls ⟨1, 2, 3⟩ 2 [3, 4]) = ⟨24, 48, 72⟩ := by norm_num [Col.muls, Col.mul]

/-- non-vacuity: the components of a pixel -/
example : toRgb 255 ⟨1 / 2, 2, -1⟩ = (127, 255, 0) := by
  have : ⌊(1 / 2 : ℝ) * ((255 : ℕ) : ℝ)⌋₊ = 127 := by rw [Nat.floor_eq_iff (by norm_num)]; norm_num
  norm_num [toRgb, toUnit]
  rw [Nat.floor_eq_iff (by norm_num)]; norm_num

/-- non-vacuity: pixels of textures -/
example : toRgb 255 (decode 0x123456) = (0x12, 0x34, 0x56) := by rw [C138_decode]

/-- non-vacuity: the middle of four pixels -/
example : bilinear ⟨0, 0, 0⟩ ⟨1, 0, 0⟩ ⟨0, 1, 0⟩ ⟨1, 1, 4⟩ (1 / 2) (1 / 2) = ⟨1 / 2, 1 / 2, 1⟩ := by
  norm_num [bilinear, Col.mul, Col.add]

/-- non-vacuity: a chessboard -/
example : plaid 1 2 1 (1 / 4) (3 / 4) = 2 ∧ plaid 1 2 1 (-1 / 4) (3 / 4) = 1 := by
  have h1 : ⌊(2 : ℝ) * (1 / 4) / 1⌋ = 0 := by rw [Int.floor_eq_iff]; norm_num
  have h2 : ⌊(2 : ℝ) * (3 / 4) / 1⌋ = 1 := by rw [Int.floor_eq_iff]; norm_num
  have h3 : ⌊(2 : ℝ) * (-1 / 4) / 1⌋ = -1 := by rw [Int.floor_eq_iff]; norm_num
  refine ⟨?_, ?_⟩
  · rw [C138_plaid_partial 1 2 1 (1 / 4) (3 / 4) (by norm_num) (by norm_num) (by norm_num), h1, h2]; decide
  · rw [C138_plaid_partial 1 2 1 (-1 / 4) (3 / 4) (by norm_num) (Or.inr ?_) (by norm_num), h2, h3]
    · decide
    · intro k hk
      rw [mul_one] at hk
      have h4 : (-1 : ℝ) < k := by rw [← hk]; norm_num
      have h5 : (k : ℝ) < 0 := by rw [← hk]; norm_num
      have h6 : -1 < k := by exact_mod_cast h4
      have h7 : k < 0 := by exact_mod_cast h5
      omega

/-- non-vacuity: left of a tiled texture is its last pixel -/
example : TexMap.getColor ⟨⟨2, 1, [⟨0, 0, 0⟩, ⟨1, 1, 1⟩]⟩, 1, 0, 0, ⟨0, 0, 0⟩, true, true⟩ (-1 / 2) 0 = some ⟨1, 1, 1⟩ := by
  have : ⌊(1 / 2 : ℝ)⌋₊ = 0 := by rw [Nat.floor_eq_iff (by norm_num)]; norm_num
  norm_num [TexMap.getColor, tileIndex, Tex.at]
  simp only [this]
  rfl

/-- non-vacuity: a texture placed once -/
example : TexMap.call ⟨⟨2, 1, [0xFF0000, 0xFF].map decode⟩, 2, 0, 0, ⟨0, 0, 0⟩, true, false⟩ (1 / 2) 0 = some (decode 0xFF) := by
  have : ⌊(3 / 2 : ℝ)⌋₊ = 1 := by rw [Nat.floor_eq_iff (by norm_num)]; norm_num
  norm_num [TexMap.call, TexMap.calc, TexMap.getColor, Tex.at, this]

end Sprout
