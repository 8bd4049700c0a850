import Mathlib.NumberTheory.Bernoulli
import Verif.Model.MathTables
import Verif.Proofs.FloatErr

/-! # Lemmas on the tables of factorials and Bernoulli numbers -/

namespace Sprout

open Classical FV Fmt

/-- a representable number is a multiple of the last place of its binade -/
theorem Rep.grid' {p : ℕ} {emin : ℤ} {z : ℝ} (h : Rep p emin z) {e : ℤ} (h1 : (2 : ℝ) ^ ((p : ℤ) - 1 + e) ≤ z) :
    ∃ b : ℤ, z = b * (2 : ℝ) ^ e := by
  obtain ⟨m, f, hf, hm, rfl⟩ := h
  have hc : e ≤ f := by
    by_contra hc
    have hm' : (m : ℝ) < (2 : ℝ) ^ (p : ℤ) := by
      rw [zpow_natCast]; exact lt_of_le_of_lt (le_abs_self _) (by exact_mod_cast hm)
    have hp : (0 : ℝ) < (2 : ℝ) ^ f := by positivity
    have h2 : (m : ℝ) * (2 : ℝ) ^ f < (2 : ℝ) ^ ((p : ℤ) + f) := by
      rw [zpow_add₀ (by norm_num)]; exact mul_lt_mul_of_pos_right hm' hp
    have h3 := (zpow_lt_zpow_iff_right₀ (by norm_num : (1 : ℝ) < 2)).1 (lt_of_le_of_lt h1 h2)
    omega
  obtain ⟨d, hd⟩ := Int.eq_ofNat_of_zero_le (sub_nonneg.2 hc)
  refine ⟨m * 2 ^ d, ?_⟩
  rw [show f = (d : ℤ) + e by omega, zpow_add₀ (by norm_num), zpow_natCast]
  push_cast; ring

/-- rounding to a value less than half a unit of the last place away -/
theorem Fmt.rnd_eq {F : Fmt} {x : ℝ} {m e : ℤ} (h1 : 2 ^ (F.p - 1) < m) (h2 : m < 2 ^ F.p) (he : F.emin ≤ e)
    (h : 2 * |x - m * (2 : ℝ) ^ e| < (2 : ℝ) ^ e) : F.rnd x = m * (2 : ℝ) ^ e := by
  have hp : (0 : ℝ) < (2 : ℝ) ^ e := by positivity
  have hm0 : (0 : ℤ) < m := lt_trans (by positivity) h1
  have hn := F.rnd_near x _ ⟨m, e, he, by rwa [abs_of_pos hm0], rfl⟩
  rw [abs_sub_comm (_ * _)] at hn
  have hd : |F.rnd x - m * (2 : ℝ) ^ e| < (2 : ℝ) ^ e := by
    calc |F.rnd x - m * (2 : ℝ) ^ e| = |(F.rnd x - x) + (x - m * (2 : ℝ) ^ e)| := by ring_nf
      _ ≤ |F.rnd x - x| + |x - m * (2 : ℝ) ^ e| := abs_add_le _ _
      _ < _ := by linarith
  rw [abs_lt] at hd
  have hm1 : ((2 : ℝ) ^ (F.p - 1)) ≤ (m : ℝ) - 1 := by
    have : (2 : ℤ) ^ (F.p - 1) ≤ m - 1 := by omega
    exact_mod_cast this
  have hge : (2 : ℝ) ^ ((F.p : ℤ) - 1 + e) ≤ F.rnd x := by
    have e1 : (2 : ℝ) ^ ((F.p : ℤ) - 1 + e) = (2 : ℝ) ^ (F.p - 1) * (2 : ℝ) ^ e := by
      have := F.two_le_p
      rw [zpow_add₀ (by norm_num), ← zpow_natCast, Nat.cast_sub (by omega)]; rfl
    rw [e1]
    have := mul_le_mul_of_nonneg_right hm1 (le_of_lt hp)
    linarith [hd.1]
  obtain ⟨b, hb⟩ := (F.rnd_rep x).grid' hge
  rw [hb] at hd ⊢
  have h3 : (b : ℝ) < m + 1 := by
    by_contra hc
    have := mul_le_mul_of_nonneg_right (not_lt.1 hc) (le_of_lt hp)
    linarith [hd.2]
  have h4 : (m : ℝ) < b + 1 := by
    by_contra hc
    have := mul_le_mul_of_nonneg_right (not_lt.1 hc) (le_of_lt hp)
    linarith [hd.1]
  have h3' : b < m + 1 := by exact_mod_cast h3
  have h4' : m < b + 1 := by exact_mod_cast h4
  rw [show b = m by omega]

namespace MathTables

/-- nearest integer to a quotient of naturals by a power of two, rounding halves up -/
def near (n e : ℕ) : ℕ := (2 * n + 2 ^ e) / 2 ^ (e + 1)

/-- exponent of the last place of an integer -/
def place (p n : ℕ) : ℕ := Nat.log2 n + 1 - p

/-- the literal is the number itself, or both are near the same representable number -/
def good (p n : ℕ) (d : Dec) : Bool :=
  d.m * 10 ^ d.e == n * 10 ^ d.f ||
    (let e := place p n
    let m := near n e
    2 ^ (p - 1) < m && m < 2 ^ p && decide (2 * |(n : ℤ) - m * 2 ^ e| < 2 ^ e) &&
    decide (2 * |(d.m : ℤ) * 10 ^ d.e - m * 2 ^ e * 10 ^ d.f| < 2 ^ e * 10 ^ d.f))

theorem good_rnd {F : Fmt} {n : ℕ} {d : Dec} (h : good F.p n d = true) : F.rnd d.val = F.rnd n := by
  unfold good at h
  rw [Bool.or_eq_true] at h
  have h10 : (0 : ℝ) < (10 : ℝ) ^ d.f := by positivity
  rcases h with h | h
  · have h' : d.m * 10 ^ d.e = n * 10 ^ d.f := by simpa using h
    have h2 : (d.m : ℝ) * 10 ^ d.e = n * 10 ^ d.f := by exact_mod_cast h'
    have : d.val = n := by
      unfold Dec.val
      rw [h2]; field_simp
    rw [this]
  · simp only [Bool.and_eq_true, decide_eq_true_eq] at h
    obtain ⟨⟨⟨h1, h2⟩, h3⟩, h4⟩ := h
    have h3' : 2 * |(n : ℝ) - (near n (place F.p n) : ℤ) * (2 : ℝ) ^ ((place F.p n : ℕ) : ℤ)| <
        (2 : ℝ) ^ ((place F.p n : ℕ) : ℤ) := by
      rw [zpow_natCast]; exact_mod_cast h3
    have h4' : 2 * |d.val - (near n (place F.p n) : ℤ) * (2 : ℝ) ^ ((place F.p n : ℕ) : ℤ)| <
        (2 : ℝ) ^ ((place F.p n : ℕ) : ℤ) := by
      have h5 : 2 * |(d.m : ℝ) * 10 ^ d.e - (near n (place F.p n) : ℝ) * 2 ^ (place F.p n) * 10 ^ d.f| <
        2 ^ (place F.p n) * 10 ^ d.f := by exact_mod_cast h4
      have e1 : (d.m : ℝ) * 10 ^ d.e - (near n (place F.p n) : ℝ) * 2 ^ (place F.p n) * 10 ^ d.f =
          (d.val - (near n (place F.p n) : ℤ) * (2 : ℝ) ^ ((place F.p n : ℕ) : ℤ)) * 10 ^ d.f := by
        unfold Dec.val
        rw [zpow_natCast]
        push_cast
        field_simp
      rw [e1, abs_mul, abs_of_pos h10, ← mul_assoc] at h5
      rw [zpow_natCast]
      rw [zpow_natCast] at h5
      exact lt_of_mul_lt_mul_right h5 (le_of_lt h10)
    have hz := F.emin_le_zero
    rw [rnd_eq (by exact_mod_cast h1) (by exact_mod_cast h2) (by omega) h3',
      rnd_eq (by exact_mod_cast h1) (by exact_mod_cast h2) (by omega) h4']

/-! ## Bernoulli numbers -/

/-- common denominator of the first 101 Bernoulli numbers -/
def bden : ℕ := 232862364358497360900063316880507363070

/-- their numerators -/
def bnum : List ℤ := [
  232862364358497360900063316880507363070, -116431182179248680450031658440253681535,
  38810394059749560150010552813417893845, 0, -7762078811949912030002110562683578769, 0,
  5544342008535651450001507544773984835, 0, -7762078811949912030002110562683578769, 0,
  17641088208977072795459342187917224475, 0, -58940620429202079260785257129828054169, 0,
  271672758418246921050073869693925256915, 0, -1651496415460166577206919641483912023969, 0,
  12800718467812285376695585866663178566155, 0, -123213122130307826315518047950976579312169, 0,
  1441912446051251125759389892010963683616195, 0, -20161282446779130708806742760771457322654769, 0,
  331949297863626142167735709300103028099351035, 0, -6356730629256243284707358744696652263193699769, 0,
  140085544649354638681861927342343472639633194675, 0, -3520021029914712361952201479165607130654995007169, 0,
  100041081546255182339450949134068917326713801051115, 0, -3192928450325366202739422333220164972370348864048969, 0,
  113714218388858805958487066719362184506237314811304355, 0,
  -4493447089595501383895901388299709710640599610609209169, 0,
  195998633122116934157827457336072869771906715921932818395, 0,
  -9393218785599240087519101659563432865707185245214877783769, 0,
  492521333581604055892151262500440380302769187701250806937235, 0,
  -28145204291000914485469162289041801081315576418090793955980769, 0,
  1746669565229510581341423309047746268449951794157344312263484875, 0,
  -117334178218870226013505741980689794781230868737970043811720920169, 0,
  8506177259377828276572968147456346450490108284275478235056800765315, 0,
  -663629080107607701292299597179448375598935163236598200292996984633969, 0,
  55573598740026315608163924727757655702280753162169030305675906489562555, 0,
  -4983242781189360610220028356468081777334505884660390260111380757190066169, 0,
  477390567862526579509779426923510468276476772107316056885066845517661140595, 0,
  -48756735614683119609080657023056544269434551328325107786364433014068139072769, 0,
  5298246699834894605445018030432451606827584612401726769231577426592847339243435, 0,
  -611443249989418418962809814036896289699992656572777796851992707199394998152421769, 0,
  74807225736497690301403124067017380186616902629035040492957142339618227413976095075, 0,
  -9686673407162275626893958214856596981027312637680225933062912907487566905175781793169, 0,
  1325468773087677394866928336580397177064929861966176384009790798014818831429748652399515, 0,
  -191374742582535989226253103850631556295104360500817445416619678584130384171501548913778969, 0,
  29114558629721936215231330229825252651955135863563794677021736849988314222774536426501340755, 0,
  -4660876035708512667361539282792493475089644617890113774832784130136039499305953248909825883169, 0,
  784163614140375260888228635287767045179970139745068322715420168734840119379255015497549716582795, 0,
  -138485508020545757435052589072330988805923449343219178687591413652562792649714290247527075474521769, 0,
  25642594740637567005478464137847918548796998367330551737899935230635896882994756447642626723104269635, 0,
  -4972836229197099454377067969991962148615174492531889830934605144800197658962965587896789013715015022769, 0,
  1008966939735503970703237797893497450823435231145628012781195239474091001344460887131628867238820739025275, 0,
  -213966813566846024565916775101751122046875575643672511180464608706902361547334991793090548680914407273626169, 0,
  47380264906942763252980194433638170888835399039882676799764739323499051728131522520125070619979226387883953715, 0,
  -10945423909382427561565890831495044562618707720502892804757401455860777687280129752917799476236128799989611483969,
  0,
  2635546356627656115693062757375456121176978253095019608369104559508945188086690723199178495453615055145355934638955,
  0,
  -660915774084468328995815214761748480267852539020012174324378769515675663896832903683589414874392717402444826340660169]

/-- row of Pascal's triangle -/
def pascal : ℕ → List ℕ
  | 0 => [1]
  | n + 1 => List.zipWith (· + ·) (0 :: pascal n) (pascal n ++ [0])

/-- sum of products -/
def dot : List ℕ → List ℤ → ℤ
  | a :: l, b :: m => a * b + dot l m
  | _, _ => 0

/-- the recurrence holds in the row given and the `k` next ones -/
def checks (l : List ℤ) : ℕ → List ℕ → Bool
  | 0, r => dot r.dropLast l == 0
  | k + 1, r => dot r.dropLast l == 0 && checks l k (List.zipWith (· + ·) (0 :: r) (r ++ [0]))

theorem checked : checks bnum 99 [1, 2, 1] = true := by decide +kernel

theorem pascal_eq (n : ℕ) : pascal n = (List.range (n + 1)).map n.choose := by
  induction n with
  | zero => rfl
  | succ n ih =>
    rw [pascal, ih]
    apply List.ext_getElem
    · simp
    · intro i h1 h2
      simp at h1
      rw [List.getElem_zipWith]
      rcases i with _ | i
      · simp
      · simp only [List.getElem_cons_succ, List.getElem_map, List.getElem_range]
        rw [Nat.choose_succ_succ]
        congr 1
        rcases Nat.lt_or_ge (i + 1) (n + 1) with h | h
        · rw [List.getElem_append_left (by simpa using h)]
          simp
        · rw [List.getElem_append_right (by simpa using h)]
          simp
          rw [Nat.choose_eq_zero_of_lt (by omega)]

theorem dot_eq (f : ℕ → ℕ) (n : ℕ) (l : List ℤ) (h : n ≤ l.length) :
    dot ((List.range n).map f) l = ∑ k ∈ Finset.range n, (f k : ℤ) * l.getD k 0 := by
  induction n generalizing f l with
  | zero => cases l <;> rfl
  | succ n ih =>
    cases l with
    | nil => simp at h
    | cons b m =>
      rw [List.range_succ_eq_map, List.map_cons, List.map_map, dot, Finset.sum_range_succ', ih _ _ (by simpa using h)]
      simp [add_comm]

theorem checks_spec {l : List ℤ} (k n : ℕ) (h : checks l k (pascal n) = true) (j : ℕ) (hj : j ≤ k) :
    dot (pascal (n + j)).dropLast l = 0 := by
  induction k generalizing n j with
  | zero =>
    obtain rfl : j = 0 := by omega
    simpa [checks] using h
  | succ k ih =>
    rw [checks, Bool.and_eq_true] at h
    rcases j with _ | j
    · simpa using h.1
    · have := ih (n + 1) h.2 j (by omega)
      rwa [show n + (j + 1) = n + 1 + j by ring]

theorem bernoulli_eq (n : ℕ) (hn : n ≤ 100) : bernoulli n = (bnum.getD n 0 : ℚ) / bden := by
  induction n using Nat.strong_induction_on with
  | _ n ih =>
    have hs := sum_bernoulli (n + 1)
    rw [Finset.sum_range_succ] at hs
    have hb0 : (bden : ℚ) ≠ 0 := by decide +kernel
    have hn1 : ((n + 1).choose n : ℚ) ≠ 0 := by
      have : (n + 1).choose n ≠ 0 := by rw [Nat.choose_succ_self_right]; omega
      exact_mod_cast this
    rcases Nat.eq_zero_or_pos n with rfl | hpos
    · simp
      decide +kernel
    have hc := checks_spec (l := bnum) 99 2 checked (n - 1) (by omega)
    rw [show 2 + (n - 1) = n + 1 by omega, pascal_eq, ← List.map_dropLast, List.range_succ, List.dropLast_concat,
      dot_eq _ _ _ (by rw [show bnum.length = 101 by decide +kernel]; omega), Finset.sum_range_succ] at hc
    have hc' : (∑ k ∈ Finset.range n, ((n + 1).choose k : ℚ) * ((bnum.getD k 0 : ℚ) / bden)) +
        ((n + 1).choose n : ℚ) * ((bnum.getD n 0 : ℚ) / bden) = 0 := by
      have h1 : (((∑ k ∈ Finset.range n, ((n + 1).choose k : ℤ) * bnum.getD k 0) +
        ((n + 1).choose n : ℤ) * bnum.getD n 0 : ℤ) : ℚ) = 0 := by rw [hc]; simp
      push_cast at h1
      have e1 : ∀ k, ((n + 1).choose k : ℚ) * ((bnum.getD k 0 : ℚ) / bden) =
          ((n + 1).choose k : ℚ) * (bnum.getD k 0 : ℚ) * (bden : ℚ)⁻¹ := fun k => by rw [div_eq_mul_inv]; ring
      rw [Finset.sum_congr rfl (fun k _ => e1 k), ← Finset.sum_mul, e1, ← add_mul, h1, zero_mul]
    rw [Finset.sum_congr rfl (fun k hk => by
      rw [ih k (Finset.mem_range.1 hk) (by have := Finset.mem_range.1 hk; omega)]), if_neg (by omega)] at hs
    have := hs.trans hc'.symm
    exact mul_left_cancel₀ hn1 (add_left_cancel this)

end MathTables

end Sprout
