import Verif.Proofs.ErfPoly

/-!
# The polynomials of the error function against its series

The coefficients of `sprout/math/erf.hpp`, in units of `10 ^ -20` and that of the constant first (that these are those of the model is proved
in `Verif/Proofs/ErfBound.lean`), and expansions of the differences, in units of `10 ^ -30`.
-/

namespace Sprout.ErfPoly

/-- the polynomial for `x²` from 0 -/
def pA0 : List ℤ := [
  112837916709551257377, -37612638903183748117, 11283791670954881569, -2686617064507733420, 522397762482322257,
  -85483269811296660, 12055331122299265, -1492559551950604, 164610044809620, -16350354461960, 1466005199839, -113739022964,
  5958930743]

/-- its expansion -/
def dA0 : List ℤ := [
  -4887309396, -3595074575, -6511398919, 2354788838, -4163316266, 3373701823, -3618348332, 3526523281, -3514340211,
  3483141623, -3450902298, 3415240059, -3376493625, 127832676752, -2122090006, 33046467, -484594, 6714, -88, 1]

theorem checkA0 : checkA 0 500 501 1001 pA0 (3 ^ 140) 50 dA0 (2 * 10 ^ 11) = true := by decide +kernel

/-- the polynomial for `x²` from 1 -/
def pA1 : List ℤ := [
  84270079294971486929, -21379664776456006580, 5657061146827041994, -1254988477182192210, 233307631218880978,
  -37015410692956173, 5103883009709690, -621188515924000, 67595634268133, -6642090827576, 590362766598, -45493253732,
  2372510631]

/-- its expansion -/
def dA1 : List ℤ := [
  -5481120365, -3955509902, -2693179325, 1270213360, -1372666821, 1452720289, -1393481618, 1406366774, -1388920431,
  1379046404, -1365938185, 1351854864, -1336515788, 50604429145, -835897812, 12960719, -189331, 2614, -34]

theorem checkA1 : checkA 1 500 501 1001 pA1 (3 ^ 140) 50 dA1 (2 * 10 ^ 11) = true := by decide +kernel

/-- the polynomial for `x²` from 2 -/
def pA2 : List ℤ := [
  67493323603965504676, -13055593046562267625, 2986978465246258244, -608284718113590151, 107052153564110318,
  -16358986921372656, 2195455056768781, -261830022482897, 28045522331686, -2721444369609, 239463074000, -18310229805,
  949905026]

/-- its expansion -/
def dA2 : List ℤ := [
  -3790089522, -210943793, 437577286, 1123858222, -419004808, 584845104, -569976549, 549961954, -555517562, 547845555,
  -543410466, 537698446, -531606939, 20130178359, -330669215, 5102326, -74219, 1021, -13]

theorem checkA2 : checkA 2 500 501 1001 pA2 (3 ^ 140) 50 dA2 (2 * 10 ^ 11) = true := by decide +kernel

/-- the polynomial for `x²` from 3 -/
def pA3 : List ℤ := [
  56909076642393639985, -8548534594781312114, 1668977892553165586, -307553051439272889, 50689993654144881,
  -7404402135070773, 962023443095201, -111992758382650, 11775134830784, -1126008898854, 97930574080, -7421598602, 382722073]

/-- its expansion -/
def dA3 : List ℤ := [
  -5693689441, -1312224632, -1509527882, -179493301, -269925497, 228618718, -224253014, 221389276, -221745230, 219216276,
  -217290839, 215039080, -212598647, 8051299103, -131429015, 2017044, -29202, 400, -5]

theorem checkA3 : checkA 3 500 501 1001 pA3 (3 ^ 140) 50 dA3 (2 * 10 ^ 11) = true := by decide +kernel

/-- the polynomial for `x²` from 4 -/
def pA4 : List ℤ := [
  49766113250947636708, -5962426839442303805, 988786373932350462, -162940941748079288, 24879276133931664, -3445026145385764,
  430683284629395, -48722516178974, 5011915876293, -471135111493, 40424830707, -3032205868, 155296588]

/-- its expansion -/
def dA4 : List ℤ := [
  3467256842, 1851968010, 978930828, 458557810, 3912387, -291368029, -581936034, -837885100, -893555047, -459409080,
  709754647, 1922898863, -1701790736, 367359532, -5012539, 64360, -780, 9]

theorem checkA4 : checkA 4 8 8 19 pA4 (3 ^ 140) 50 dA4 (2 * 10 ^ 11) = true := by decide +kernel

/-- the polynomial for `x` from 2 -/
def pB0 : List ℤ := [
  71511720328842845913, -19746892495383021487, -1402283663896319337, 815533022524927908, 15380842432375365,
  -25616361025506629, 1612722157047886, 266246030457984, -21854388148686, -1667820132100, -640788827665, 269776334046,
  -29734388465]

/-- its expansion -/
def dB0 : List ℤ := [
  -7743923381, 15652055618, -15903440708, 15737260300, -14364566996, 10782917997, -4312667927, -4225486911, 11142989497,
  -10789483607, 2053964173, 5076907794, -1994056595, -317917836, 333543708, -66324084, -4968351, 5326574, -1335734, 191194,
  -16031, 420, 78, -11, 1]

theorem checkB0 : checkB 2 600 401 1001 pB0 (3 ^ 200) 60 dB0 (2 * 10 ^ 11) = true := by decide +kernel

/-- the polynomial for `x` from 3 -/
def pB1 : List ℤ := [
  51169696718727644908, -20160072778491013140, 909530922354827295, 661062970502241174, -80991728956032271,
  -11843240273775776, 2687044575042908, 19999935792654, -35772874310272, 342940918551, 522461866919, -32302692214,
  -1951073787]

/-- its expansion -/
def dB1 : List ℤ := [
  -1314271, 2937062, -3526624, 3965908, -4166820, 4222733, -4234762, 4310886, -4749023, 6432725, -11171382, 20646301,
  -32574240, 38282313, -31278278, 18169632, -7822698, 2584830, -671500, 138998, -22965, 2983, -290, 18]

theorem checkB1 : checkB 3 500 501 1001 pB1 (3 ^ 270) 85 dB1 (2 * 10 ^ 11) = true := by decide +kernel

/-- the polynomial for `x` from 4 -/
def pB2 : List ℤ := [
  32490054966649436974, -16725021123116877197, 2328095035422810727, 271187003520095655, -101565063152200272,
  2854147231653228, 1947204525295057, -203340624738438, -15451139637086, 3377623323271, 63675740242, -48465972408, 3147682272]

/-- its expansion -/
def dB2 : List ℤ := [
  2484, 713, -642, 831, -795, 913, -870, 973, -1110, 1625, -2670, 4399, -6224, 7022, -6068, 4039, -2112, 889, -307, 89, -22,
  5, -1]

theorem checkB2 : checkB 4 500 501 1001 pB2 (3 ^ 390) 112 dB2 (2 * 10 ^ 11) = true := by decide +kernel

/-- the polynomial for `x` from 5 -/
def pB3 : List ℤ := [
  18267336775296612024, -11637092784486193258, 2585434424202960464, -75285814895230877, -65860243990455368,
  9823686253424796, 368797328322935, -211211337219663, 11371857327578, 2050708040581, -264888267434, -6303206648, 2319363370]

/-- its expansion -/
def dB3 : List ℤ := [
  11780, 17640, 16528, 14830, 12745, 10492, 8277, 6259, 4539, 3157, 2109, 1351, 834, 492, 282, 153, 82, 41, 20, 10, 4, 2, 1]

theorem checkB3 : checkB 5 500 501 1001 pB3 (3 ^ 520) 140 dB3 (2 * 10 ^ 11) = true := by decide +kernel

/-- the polynomial for `x` from 6 -/
def pB4 : List ℤ := [
  9084526782065478489, -6905562880005864105, 2064129023876022970, -239729611435071610, -17604388937031815, 8428418334440096,
  -675407647949153, -78441223763969, 18006992266137, -435953392472, -193319027226, 20876046746, -367789363]

/-- its expansion -/
def dB4 : List ℤ := [
  1953, -1592, -1490, -1335, -1144, -939, -738, -556, -401, -278, -184, -117, -72, -42, -24, -13, -7, -3, -2, -1]

theorem checkB4 : checkB 6 5 5 11 pB4 (3 ^ 690) 175 dB4 (2 * 10 ^ 11) = true := by decide +kernel

end Sprout.ErfPoly
