import Verif.Model.Gamma

/-!
# The error function (`sprout/math/erf.hpp`, `erfc.hpp`), without the builtin functions

Simplifications: numbers are real and arithmetic is exact.
-/

namespace Sprout.Erf

open Gamma (horner toInt)

/-- `erf_impl_2_b` for k = 0 (erf.hpp 54-58) -/
def erfB0 : List ℚ := [
  -2.9734388465e-10, 2.69776334046e-9, -6.40788827665e-9, -1.6678201321e-8, -2.1854388148686e-7, 2.66246030457984e-6,
  1.612722157047886e-5, -2.5616361025506629e-4, 1.5380842432375365e-4, 0.00815533022524927908, -0.01402283663896319337,
  -0.19746892495383021487, 0.71511720328842845913]

/-- `erf_impl_2_b` for k = 1 (erf.hpp 60-64) -/
def erfB1 : List ℚ := [
  -1.951073787e-11, -3.2302692214e-10, 5.22461866919e-9, 3.42940918551e-9, -3.5772874310272e-7, 1.9999935792654e-7,
  2.687044575042908e-5, -1.1843240273775776e-4, -8.0991728956032271e-4, 0.00661062970502241174, 0.00909530922354827295,
  -0.2016007277849101314, 0.51169696718727644908]

/-- `erf_impl_2_b` for k = 2 (erf.hpp 66-70) -/
def erfB2 : List ℚ := [
  3.147682272e-11, -4.8465972408e-10, 6.3675740242e-10, 3.377623323271e-8, -1.5451139637086e-7, -2.03340624738438e-6,
  1.947204525295057e-5, 2.854147231653228e-5, -0.00101565063152200272, 0.00271187003520095655, 0.02328095035422810727,
  -0.16725021123116877197, 0.32490054966649436974]

/-- `erf_impl_2_b` for k = 3 (erf.hpp 72-76) -/
def erfB3 : List ℚ := [
  2.31936337e-11, -6.303206648e-11, -2.64888267434e-9, 2.050708040581e-8, 1.1371857327578e-7, -2.11211337219663e-6,
  3.68797328322935e-6, 9.823686253424796e-5, -6.5860243990455368e-4, -7.5285814895230877e-4, 0.02585434424202960464,
  -0.11637092784486193258, 0.18267336775296612024]

/-- `erf_impl_2_b` for k = 4 (erf.hpp 78-82) -/
def erfB4 : List ℚ := [
  -3.67789363e-12, 2.0876046746e-10, -1.93319027226e-9, -4.35953392472e-9, 1.8006992266137e-7, -7.8441223763969e-7,
  -6.75407647949153e-6, 8.428418334440096e-5, -1.7604388937031815e-4, -0.0023972961143507161, 0.0206412902387602297,
  -0.06905562880005864105, 0.09084526782065478489]

/-- `erf_impl_2_a_1` for k = 0 (erf.hpp 94-98) -/
def erfA0 : List ℚ := [
  5.958930743e-11, -1.13739022964e-9, 1.466005199839e-8, -1.635035446196e-7, 1.6461004480962e-6, -1.492559551950604e-5,
  1.2055331122299265e-4, -8.548326981129666e-4, 0.00522397762482322257, -0.0268661706450773342, 0.11283791670954881569,
  -0.37612638903183748117, 1.12837916709551257377]

/-- `erf_impl_2_a_1` for k = 1 (erf.hpp 100-104) -/
def erfA1 : List ℚ := [
  2.372510631e-11, -4.5493253732e-10, 5.90362766598e-9, -6.642090827576e-8, 6.7595634268133e-7, -6.21188515924e-6,
  5.10388300970969e-5, -3.7015410692956173e-4, 0.00233307631218880978, -0.0125498847718219221, 0.05657061146827041994,
  -0.2137966477645600658, 0.84270079294971486929]

/-- `erf_impl_2_a_1` for k = 2 (erf.hpp 106-110) -/
def erfA2 : List ℚ := [
  9.49905026e-12, -1.8310229805e-10, 2.39463074e-9, -2.721444369609e-8, 2.8045522331686e-7, -2.61830022482897e-6,
  2.195455056768781e-5, -1.6358986921372656e-4, 0.00107052153564110318, -0.00608284718113590151, 0.02986978465246258244,
  -0.13055593046562267625, 0.67493323603965504676]

/-- `erf_impl_2_a_1` for k = 3 (erf.hpp 112-116) -/
def erfA3 : List ℚ := [
  3.82722073e-12, -7.421598602e-11, 9.793057408e-10, -1.126008898854e-8, 1.1775134830784e-7, -1.1199275838265e-6,
  9.62023443095201e-6, -7.404402135070773e-5, 5.0689993654144881e-4, -0.00307553051439272889, 0.01668977892553165586,
  -0.08548534594781312114, 0.56909076642393639985]

/-- `erf_impl_2_a_1` for k = 4 (erf.hpp 118-122) -/
def erfA4 : List ℚ := [
  1.55296588e-12, -3.032205868e-11, 4.0424830707e-10, -4.71135111493e-9, 5.011915876293e-8, -4.8722516178974e-7,
  4.30683284629395e-6, -3.445026145385764e-5, 2.4879276133931664e-4, -0.00162940941748079288, 0.00988786373932350462,
  -0.05962426839442303805, 0.49766113250947636708]

/-- `erf_impl_3` (40-46) -/
noncomputable def impl3 (x y : ℝ) : ℝ := if x < 0 then -y else y

/-- the polynomials of `erf_impl_2_b` (53-82) -/
def erfB (k : ℤ) : List ℚ :=
  if k = 0 then erfB0 else if k = 1 then erfB1 else if k = 2 then erfB2 else if k = 3 then erfB3 else erfB4

/-- `erf_impl_2_b` (47-87) -/
noncomputable def impl2b (x t : ℝ) (k : ℤ) : ℝ := impl3 x (1 - horner (erfB k) t ^ 16)

/-- the polynomials of `erf_impl_2_a_1` (93-122) -/
def erfA (k : ℤ) : List ℚ :=
  if k = 0 then erfA0 else if k = 1 then erfA1 else if k = 2 then erfA2 else if k = 3 then erfA3 else erfA4

/-- `erf_impl_2_a_1` (88-124) -/
noncomputable def impl2a1 (x w t : ℝ) (k : ℤ) : ℝ := impl3 x (horner (erfA k) t * w)

/-- `fractional_part` (`sprout/math/fractional_part.hpp`, 38-45) -/
noncomputable def frac (t : ℝ) : ℝ := t - toInt t

/-- `erf_impl_2_a` (125-129) -/
noncomputable def impl2a (x w t : ℝ) : ℝ := impl2a1 x w (frac t) (toInt t)

/-- `erf_impl_1` (130-137) -/
noncomputable def impl1 (x w : ℝ) : ℝ :=
  if w < 2.2 then impl2a x w (w * w)
  else if w < 6.9 then impl2b x (frac w) (toInt w - 2)
  else impl3 x 1

/-- `erf_impl` (138-142) -/
noncomputable def impl (x : ℝ) : ℝ := impl1 x (if x < 0 then -x else x)

/-- `erf` (147-163) of a finite number -/
noncomputable def erf (x : ℝ) : ℝ := if x = 0 then x else impl x

/-- `erfc_impl` (erfc.hpp 36-41) -/
noncomputable def erfcImpl (x : ℝ) : ℝ := 1 - erf x

/-- `erfc` (erfc.hpp 46-61) of a finite number -/
noncomputable def erfc (x : ℝ) : ℝ := erfcImpl x

end Sprout.Erf
