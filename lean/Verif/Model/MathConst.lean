import Verif.Model.Float

/-!
# Mathematical constants (`sprout/math/constants.hpp`)
-/

namespace Sprout.MathConst

/-- the function templates of `sprout/math/constants.hpp` -/
inductive Const
  | pi | halfPi | thirdPi | twoThirdsPi | quarterPi | threeQuartersPi | twoPi | fourPi | twoDivPi | rootTwoDivPi | rootPi | oneDivRootPi | rootOneDivPi | twoDivRootPi | half | quarter | third | twoThirds | rootTwo | rootThree | halfRootTwo | e | lnTen | lnTwo | phi
deriving DecidableEq

/-- the `long double` literals of `sprout/math/constants.hpp`; the lines are given beside each -/
def Const.lit : Const → ℚ
  /- `pi` (19-21) -/
  | .pi => 314159265358979323846264338327950288419716939937510582097494459230781640628620899862803482534211706798214808651 / 10 ^ 110
  /- `half_pi` (26-28) -/
  | .halfPi => 157079632679489661923132169163975144209858469968755291048747229615390820314310449931401741267105853399107404326 / 10 ^ 110
  /- `third_pi` (34-36) -/
  | .thirdPi => 104719755119659774615421446109316762806572313312503527365831486410260546876206966620934494178070568932738269550 / 10 ^ 110
  /- `two_thirds_pi` (38-40) -/
  | .twoThirdsPi => 209439510239319549230842892218633525613144626625007054731662972820521093752413933241868988356141137865476539101 / 10 ^ 110
  /- `quarter_pi` (46-48) -/
  | .quarterPi => 78539816339744830961566084581987572104929234984377645524373614807695410157155224965700870633552926699553702163 / 10 ^ 110
  /- `three_quarters_pi` (50-52) -/
  | .threeQuartersPi => 235619449019234492884698253745962716314787704953132936573120844423086230471465674897102611900658780098661106488 / 10 ^ 110
  /- `two_pi` (58-60) -/
  | .twoPi => 628318530717958647692528676655900576839433879875021164194988918461563281257241799725606965068423413596429617303 / 10 ^ 110
  /- `four_pi` (62-64) -/
  | .fourPi => 1256637061435917295385057353311801153678867759750042328389977836923126562514483599451213930136846827192859234606 / 10 ^ 110
  /- `two_div_pi` (70-72) -/
  | .twoDivPi => 636619772367581343075535053490057448137838582961825794990669376235587190536906140360455211065012343824291370907 / 10 ^ 111
  /- `root_two_div_pi` (74-76) -/
  | .rootTwoDivPi => 797884560802865355879892119868763736951717262329869315331851659341315851798603677002504667814613872860605117725 / 10 ^ 111
  /- `root_pi` (84-86) -/
  | .rootPi => 177245385090551602729816748334114518279754945612238712821380778985291128459103218137495065673854466541622682362 / 10 ^ 110
  /- `one_div_root_pi` (88-90) -/
  | .oneDivRootPi => 564189583547756286948079451560772585844050629328998856844085721710642468441493414486743660202107363443028347906 / 10 ^ 111
  /- `root_one_div_pi` (92-94) -/
  | .rootOneDivPi => 564189583547756286948079451560772585844050629328998856844085721710642468441493414486743660202107363443028347906 / 10 ^ 111
  /- `two_div_root_pi` (96-98) -/
  | .twoDivRootPi => 1128379167095512573896158903121545171688101258657997713688171443421284936882986828973487320404214726886056695812 / 10 ^ 111
  /- `half` (106-108) -/
  | .half => 5 / 10 ^ 1
  /- `quarter` (110-112) -/
  | .quarter => 25 / 10 ^ 2
  /- `third` (114-116) -/
  | .third => 33333333333333333333333333333333333333333333333333333333333333333333333333333333333333333333333333333333333333 / 10 ^ 110
  /- `two_thirds` (118-120) -/
  | .twoThirds => 66666666666666666666666666666666666666666666666666666666666666666666666666666666666666666666666666666666666666 / 10 ^ 110
  /- `root_two` (127-129) -/
  | .rootTwo => 141421356237309504880168872420969807856967187537694807317667973799073247846210703885038753432764157273501384623 / 10 ^ 110
  /- `root_three` (131-133) -/
  | .rootThree => 173205080756887729352744634150587236694280525381038062805580697945193301690880003708114618675724857567562614142 / 10 ^ 110
  /- `half_root_two` (135-137) -/
  | .halfRootTwo => 707106781186547524400844362104849039284835937688474036588339868995366239231053519425193767163820786367506923115 / 10 ^ 111
  /- `e` (142-144) -/
  | .e => 271828182845904523536028747135266249775724709369995957496696762772407663035354759457138217852516642742746639193 / 10 ^ 110
  /- `ln_ten` (150-152) -/
  | .lnTen => 230258509299404568401799145468436420760110148862877297603332790096757260967735248023599720508959829834196778404 / 10 ^ 110
  /- `ln_two` (154-156) -/
  | .lnTwo => 693147180559945309417232121458176568075500134360255254120680009493393621969694715605863326996418687542001481021 / 10 ^ 111
  /- `phi` (161-163) -/
  | .phi => 161803398874989484820458683436563811772030917980576286213544862270526046281890244970720720418939113748475408807 / 10 ^ 110

/-- `static_cast<T>(…L)`: the literal is rounded to the format `L` of `long double`, and then to the format `F` of `T` -/
noncomputable def const (L F : Fmt) (c : Const) : FV := F.cvt (L.ofReal false (c.lit : ℝ))

end Sprout.MathConst
