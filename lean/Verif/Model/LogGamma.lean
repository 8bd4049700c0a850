import Verif.Model.Gamma
import Mathlib.Analysis.SpecialFunctions.Log.Basic
import Mathlib.Analysis.SpecialFunctions.Trigonometric.Basic

/-!
# The logarithm of the gamma function (`sprout/math/lgamma.hpp`)

The builtin functions are commented out (215-217, 221). Simplifications: numbers are real and arithmetic is exact, and so are `log`, `sin`
and `pi`. A result that is infinite, a logarithm of a number that is not positive and a division by zero are `none`.
-/

namespace Sprout.LogGamma

open Gamma (horner div toInt)

/-- `lgamma_impl_2_a` for k = 0 (lgamma.hpp 174-177) -/
def lgA0 : List ℚ := [
  9.967270908702825e-5, -1.9831672170162227e-4, -0.00117085315349625822, 0.00722012810948319552, -0.0096221300936780297,
  -0.04219772092994235254, 0.16653861065243609743, -0.04200263501129018037, -0.65587807152061930091, 0.57721566490153514421,
  0.99999999999999999764]

/-- `lgamma_impl_2_a` for k = 1 (lgamma.hpp 179-182) -/
def lgA1 : List ℚ := [
  4.67209725901142e-5, -6.812300803992063e-5, -0.00132531159076610073, 0.0073352117810720277, -0.00968095666383935949,
  -0.0421764281187354028, 0.16653313644244428256, -0.04200165481709274859, -0.65587818792782740945, 0.57721567315209190522,
  0.99999999973565236061]

/-- `lgamma_impl_2_b_2` for k = 0 (lgamma.hpp 114-118) -/
def lgB0 : List ℚ := [
  -4.587497028e-11, 1.902363396e-10, 8.6377323367e-10, 1.15513678861e-8, -2.556403058605e-8, -1.5236723372486e-7,
  -3.1680510638574e-6, 1.22903704923381e-6, 2.334372474572637e-5, 0.00111544038088797696, 0.00344717051723468982,
  0.03198287045148788384, -0.32705333652955399526, 0.40120442440953927615]

/-- `lgamma_impl_2_b_2` for k = 1 (lgamma.hpp 120-124) -/
def lgB1 : List ℚ := [
  -5.184290387e-11, -8.3355121068e-10, -2.56167239813e-9, 1.455875381397e-8, 1.3512178394703e-7, 2.9898826810905e-7,
  -3.58107254612779e-6, -2.445260816156224e-5, -4.417127762011821e-5, 0.00112859455189416567, 0.00804694454346728197,
  0.04919775747126691372, -0.24818372840948854178, 0.11071780856646862561]

/-- `lgamma_impl_2_b_2` for k = 2 (lgamma.hpp 126-130) -/
def lgB2 : List ℚ := [
  3.0279161576e-10, 1.60742167357e-9, -4.05596009522e-9, -5.089259920266e-8, -2.029496209743e-8, 1.35130272477793e-6,
  3.91430041115376e-6, -2.871505678061895e-5, -2.3052137536922035e-4, 4.5534656385400747e-4, 0.01153444585593040046,
  0.07924014651650476036, -0.12152192626936502982, -0.07916438300260539592]

/-- `lgamma_impl_2_b_2` for k = 3 (lgamma.hpp 132-136) -/
def lgB3 : List ℚ := [
  -5.091914958e-10, -1.15274986907e-9, 1.237873512188e-8, 2.937383549209e-8, -3.0621450667958e-7, -7.7409414949954e-7,
  8.16753874325579e-6, 2.412433382517375e-5, -2.60612176060637e-4, -9.1000087658659231e-4, 0.01068093850598380797,
  0.11395654404408482305, 0.07209569059984075595, -0.10971041451764266684]

/-- `lgamma_impl_2_b_2` for k = 4 (lgamma.hpp 138-142) -/
def lgB4 : List ℚ := [
  4.0119897187e-10, -1.3224526679e-10, -1.002723190355e-8, 2.569249716518e-8, 2.0336011868466e-7, -1.1809768272606e-6,
  -3.00660303810663e-6, 4.402212897757763e-5, -1.462405876235375e-5, -0.0016487379559600128, 0.00513927520866443706,
  0.13843580753590579416, 0.32730190978254056722, 0.08588339725978624973]

/-- `lgamma_impl_2_b_2` for k = 5 (lgamma.hpp 144-148) -/
def lgB5 : List ℚ := [
  -1.5413428348e-10, 6.4905779353e-10, 1.60702811151e-9, -2.655645793815e-8, 7.619544277956e-8, 4.7604380765353e-7,
  -4.90748870866195e-6, 8.21513040821212e-6, 1.4804944070262948e-4, -0.00122152255762163238, -8.7425289205498532e-4,
  0.1443870369965796831, 0.61315889733595543766, 0.55513708159976477557]

/-- `lgamma_impl_2_b_2` for k = 6 (lgamma.hpp 150-154) -/
def lgB6 : List ℚ := [
  1.049740243e-11, -2.5832017855e-10, 1.39591845075e-9, -2.1177278325e-10, -5.082950464905e-8, 3.7801785193343e-7,
  -7.3982266659145e-7, -1.088918441519888e-5, 1.2491810452478905e-4, -4.9171790705139895e-4, -0.0042570708944826646,
  0.13595080378472757216, 0.89518356003149514744, 1.31073912535196238583]

/-- `lgamma_impl_2_c_1` for k = 0 (lgamma.hpp 72-76) -/
def lgC0 : List ℚ := [
  1.16333640008e-8, -8.33156123568e-8, 3.832869977018e-7, -1.5814047847688e-6, 6.50106723241e-6, -2.74514060128677e-5,
  1.209015360925566e-4, -5.666333178228163e-4, 0.0029294103665559733, -0.0180340086069185819, 0.1651788780501166204,
  1.1031566406452431944, 1.2009736023470742248]

/-- `lgamma_impl_2_c_1` for k = 1 (lgamma.hpp 78-82) -/
def lgC1 : List ℚ := [
  1.3842760642e-9, -6.9417501176e-9, 3.42976459827e-8, -1.785317236779e-7, 9.525947257118e-7, -5.2483007560905e-6,
  3.02364659535708e-5, -1.858396115473822e-4, 0.0012634378559425382, -0.0102594702201954322, 0.1243625515195050218,
  1.3888709263595291174, 2.4537365708424422209]

/-- `lgamma_impl_2_c_1` for k = 2 (lgamma.hpp 84-88) -/
def lgC2 : List ℚ := [
  1.298977078e-10, -8.02957489e-10, 4.945484615e-9, -3.17563534834e-8, 2.092136698089e-7, -1.4252023958462e-6,
  1.01652510114008e-5, -7.74550502862323e-5, 6.537746948291078e-4, -0.006601491253552183, 0.0996711934948138193,
  1.6110931485817511402, 3.9578139676187162939]

/-- `lgamma_impl_2_c_1` for k = 3 (lgamma.hpp 90-94) -/
def lgC3 : List ℚ := [
  1.83995642e-11, -1.353537034e-10, 9.984676809e-10, -7.6346363974e-9, 5.99311464148e-8, -4.868554120177e-7,
  4.1441957716669e-6, -3.77160856623282e-5, 3.805693126824884e-4, -0.0045979851178130194, 0.0831422678749791178,
  1.7929113303999329439, 5.6625620598571415285]

/-- `lgamma_impl_2_c_1` for k = 4 (lgamma.hpp 96-100) -/
def lgC4 : List ℚ := [
  3.4858778e-12, -2.97587783e-11, 2.557677575e-10, -2.2705728282e-9, 2.0702499245e-8, -1.954426390917e-7,
  1.9343161886722e-6, -2.0479024910257e-5, 2.405181940241215e-4, -0.0033842087561074799, 0.0713079483483518997,
  1.9467574842460867884, 7.5343642367587329552]

/-- `log` -/
noncomputable def log (a : ℝ) : Option ℝ := if 0 < a then some (Real.log a) else none

/-- `lgamma_impl_3` (44-50) -/
noncomputable def impl3 (x y : ℝ) : Option ℝ :=
  if x < 0 then do
    let q ← div Real.pi |x * Real.sin (x * Real.pi)|
    let l ← log q
    pure (l - y)
  else some y

/-- `lgamma_impl_2_d_1` (51-60), `lgamma_impl_2_d` (61-65) -/
noncomputable def impl2d (x w v : ℝ) : Option ℝ := do
  let l ← log w
  impl3 x (horner [-0.00163312359200500807, 8.3644533703385956e-4, -5.9518947575728181e-4, 7.9365057505415415e-4, -0.00277777777735463043,
    0.08333333333333309869] (v * v) * v + 0.91893853320467274178 + ((w - 0.5) * l - w))

/-- the polynomials of `lgamma_impl_2_c_1` (71-100) -/
def lgC (k : ℤ) : List ℚ :=
  if k = 0 then lgC0 else if k = 1 then lgC1 else if k = 2 then lgC2 else if k = 3 then lgC3 else lgC4

/-- `lgamma_impl_2_c_1` (66-102), `lgamma_impl_2_c` (103-107) -/
noncomputable def impl2c (x w : ℝ) (k : ℤ) : Option ℝ := impl3 x (horner (lgC k) (w - (k + 3.5)))

/-- the polynomials of `lgamma_impl_2_b_2` (113-154) -/
def lgB (k : ℤ) : List ℚ :=
  if k = 0 then lgB0 else if k = 1 then lgB1 else if k = 2 then lgB2 else if k = 3 then lgB3 else if k = 4 then lgB4
  else if k = 5 then lgB5 else lgB6

/-- `lgamma_impl_2_b_2` (108-156), `lgamma_impl_2_b_1` (157-161) -/
noncomputable def impl2b1 (x t : ℝ) (k : ℤ) : Option ℝ := impl3 x (horner (lgB k) (t - (k - 3.5)))

/-- `lgamma_impl_2_b` (162-166) -/
noncomputable def impl2b (x t : ℝ) : Option ℝ := impl2b1 x t (toInt t + 4)

/-- `lgamma_impl_2_a` (167-185) -/
noncomputable def impl2a (x w : ℝ) (k : ℤ) : Option ℝ := do
  let l ← log (horner (if k = 0 then lgA0 else lgA1) w * w)
  impl3 x (-l)

/-- `lgamma_impl_1` (187-195) -/
noncomputable def impl1 (x w : ℝ) : Option ℝ :=
  if w < 0.5 then impl2a x w (if w < 0.25 then 0 else 1)
  else if w < 3.5 then do
    let q ← div 4.5 (w + 0.5)
    impl2b x (w - q)
  else if w < 8 then impl2c x w (toInt w - 3)
  else do
    let v ← div 1 w
    impl2d x w v

/-- `lgamma_impl` (196-200) -/
noncomputable def impl (x : ℝ) : Option ℝ := impl1 x (if x < 0 then -x else x)

open Classical in
/-- `lgamma` (205-223) of a finite number -/
noncomputable def lgamma (x : ℝ) : Option ℝ :=
  if x ≤ 0 ∧ ∃ k : ℤ, x = k then none
  else if x = 1 then some 0
  else if x = 2 then some 0
  else impl x

end Sprout.LogGamma
