import Verif.Proofs.MathRound

/-!
# Tables of factorials and Bernoulli numbers (`sprout/math/factorial.hpp`, `sprout/math/bernoulli.hpp`)

A decimal literal is converted to the nearest value of its type. A failed `SPROUT_ASSERT`, and an index out of range, is
undefined.
-/

namespace Sprout.MathTables

open Classical

/-- decimal floating literal: digits without the point, the number of them after the point, exponent -/
structure Dec where
  m : ℕ
  f : ℕ
  e : ℕ
  deriving DecidableEq

/-- the number a literal denotes -/
noncomputable def Dec.val (d : Dec) : ℝ := d.m * 10 ^ d.e / 10 ^ d.f

/-- `SPROUT_FACTORIAL_TABLE_DEF_INT_1` (`sprout/math/factorial.hpp`, 23-31) -/
def factInt1 : List ℤ := [
  1, 1, 2, 6, 24, 120]

/-- `SPROUT_FACTORIAL_TABLE_DEF_UINT_1` (`sprout/math/factorial.hpp`, 32-40) -/
def factUint1 : List ℤ := [
  1, 1, 2, 6, 24, 120]

/-- `SPROUT_FACTORIAL_TABLE_DEF_INT_2` (`sprout/math/factorial.hpp`, 41-51) -/
def factInt2 : List ℤ := [
  1, 1, 2, 6, 24, 120, 720, 5040]

/-- `SPROUT_FACTORIAL_TABLE_DEF_UINT_2` (`sprout/math/factorial.hpp`, 52-63) -/
def factUint2 : List ℤ := [
  1, 1, 2, 6, 24, 120, 720, 5040, 40320]

/-- `SPROUT_FACTORIAL_TABLE_DEF_INT_4` (`sprout/math/factorial.hpp`, 64-78) -/
def factInt4 : List ℤ := [
  1, 1, 2, 6, 24, 120, 720, 5040, 40320, 362880, 3628800, 39916800]

/-- `SPROUT_FACTORIAL_TABLE_DEF_UINT_4` (`sprout/math/factorial.hpp`, 79-93) -/
def factUint4 : List ℤ := [
  1, 1, 2, 6, 24, 120, 720, 5040, 40320, 362880, 3628800, 39916800]

/-- `SPROUT_FACTORIAL_TABLE_DEF_INT_8` (`sprout/math/factorial.hpp`, 94-117) -/
def factInt8 : List ℤ := [
  1, 1, 2, 6, 24, 120, 720, 5040, 40320, 362880, 3628800, 39916800, 479001600, 6227020800, 87178291200,
  1307674368000, 20922789888000, 355687428096000, 6402373705728000, 121645100408832000, 2432902008176640000]

/-- `SPROUT_FACTORIAL_TABLE_DEF_UINT_8` (`sprout/math/factorial.hpp`, 118-141) -/
def factUint8 : List ℤ := [
  1, 1, 2, 6, 24, 120, 720, 5040, 40320, 362880, 3628800, 39916800, 479001600, 6227020800, 87178291200,
  1307674368000, 20922789888000, 355687428096000, 6402373705728000, 121645100408832000, 2432902008176640000]

/-- `SPROUT_FACTORIAL_TABLE_DEF_FLOAT` (`sprout/math/factorial.hpp`, 142-179) -/
def factFloat : List Dec := [
  ⟨1, 0, 0⟩, ⟨1, 0, 0⟩, ⟨2, 0, 0⟩, ⟨6, 0, 0⟩, ⟨24, 0, 0⟩, ⟨120, 0, 0⟩, ⟨720, 0, 0⟩, ⟨5040, 0, 0⟩, ⟨40320, 0, 0⟩,
  ⟨362880, 0, 0⟩, ⟨3628800, 0, 0⟩, ⟨39916800, 0, 0⟩, ⟨479001600, 0, 0⟩, ⟨6227020800, 0, 0⟩, ⟨87178291200, 0, 0⟩,
  ⟨1307674368000, 0, 0⟩, ⟨20922789888000, 0, 0⟩, ⟨355687428096000, 0, 0⟩, ⟨6402373705728000, 0, 0⟩,
  ⟨121645100408832000, 0, 0⟩, ⟨243290200817664, 15, 19⟩, ⟨5109094217170944, 16, 20⟩, ⟨112400072777760768, 18, 22⟩,
  ⟨2585201673888497664, 19, 23⟩, ⟨62044840173323943936, 20, 24⟩, ⟨15511210043330985984, 20, 26⟩,
  ⟨403291461126605635584, 21, 27⟩, ⟨10888869450418352160768, 23, 29⟩, ⟨304888344611713860501504, 24, 30⟩,
  ⟨8841761993739701954543616, 25, 31⟩, ⟨26525285981219105863630848, 26, 33⟩, ⟨822283865417792281772556288, 27, 34⟩,
  ⟨26313083693369353016721801216, 29, 36⟩, ⟨868331761881188649551819440128, 30, 37⟩,
  ⟨29523279903960414084761860964352, 32, 39⟩]

/-- `SPROUT_FACTORIAL_TABLE_DEF_DOUBLE` (`sprout/math/factorial.hpp`, 180-353); `SPROUT_FACTORIAL_TABLE_DEF_LONG_DOUBLE` (354-527) has the
same literals but for the suffix -/
def factDouble : List Dec := [
  ⟨1, 0, 0⟩, ⟨1, 0, 0⟩, ⟨2, 0, 0⟩, ⟨6, 0, 0⟩, ⟨24, 0, 0⟩, ⟨120, 0, 0⟩, ⟨720, 0, 0⟩, ⟨5040, 0, 0⟩, ⟨40320, 0, 0⟩,
  ⟨362880, 0, 0⟩, ⟨3628800, 0, 0⟩, ⟨39916800, 0, 0⟩, ⟨479001600, 0, 0⟩, ⟨6227020800, 0, 0⟩, ⟨87178291200, 0, 0⟩,
  ⟨1307674368000, 0, 0⟩, ⟨20922789888000, 0, 0⟩, ⟨355687428096000, 0, 0⟩, ⟨6402373705728000, 0, 0⟩,
  ⟨121645100408832000, 0, 0⟩, ⟨243290200817664, 15, 19⟩, ⟨5109094217170944, 16, 20⟩, ⟨112400072777760768, 18, 22⟩,
  ⟨2585201673888497664, 19, 23⟩, ⟨62044840173323943936, 20, 24⟩, ⟨15511210043330985984, 20, 26⟩,
  ⟨403291461126605635584, 21, 27⟩, ⟨10888869450418352160768, 23, 29⟩, ⟨304888344611713860501504, 24, 30⟩,
  ⟨8841761993739701954543616, 25, 31⟩, ⟨26525285981219105863630848, 26, 33⟩, ⟨822283865417792281772556288, 27, 34⟩,
  ⟨26313083693369353016721801216, 29, 36⟩, ⟨868331761881188649551819440128, 30, 37⟩,
  ⟨29523279903960414084761860964352, 32, 39⟩, ⟨103331479663861449296666513375232, 33, 41⟩,
  ⟨3719933267899012174679994481508352, 34, 42⟩, ⟨137637530912263450463159795815809024, 36, 44⟩,
  ⟨5230226174666011117600072241000742912, 37, 45⟩, ⟨203978820811974433586402817399028973568, 39, 47⟩,
  ⟨815915283247897734345611269596115894272, 39, 48⟩, ⟨3345252661316380710817006205344075166515, 40, 50⟩,
  ⟨1405006117752879898543142606244511569936, 40, 52⟩, ⟨6041526306337383563735513206851399750726, 40, 53⟩,
  ⟨265827157478844876804362581101461589032, 39, 55⟩, ⟨1196222208654801945619631614956577150644, 40, 57⟩,
  ⟨5502622159812088949850305428800254892962, 40, 58⟩, ⟨2586232415111681806429643551536119799692, 40, 60⟩,
  ⟨1241391559253607267086228904737337503852, 40, 62⟩, ⟨6082818640342675608722521633212953768876, 40, 63⟩,
  ⟨3041409320171337804361260816606476884438, 40, 65⟩, ⟨1551118753287382280224243016469303211063, 40, 67⟩,
  ⟨8065817517094387857166063685640376697529, 40, 68⟩, ⟨427488328406002556429801375338939964969, 39, 70⟩,
  ⟨2308436973392413804720927426830275810833, 40, 72⟩, ⟨1269640335365827592596510084756651695958, 40, 74⟩,
  ⟨7109985878048634518540456474637249497365, 40, 75⟩, ⟨4052691950487721675568060190543232213498, 40, 77⟩,
  ⟨2350561331282878571829474910515074683829, 40, 79⟩, ⟨1386831185456898357379390197203894063459, 40, 81⟩,
  ⟨8320987112741390144276341183223364380754, 40, 82⟩, ⟨507580213877224798800856812176625227226, 39, 84⟩,
  ⟨3146997326038793752565312235495076408801, 40, 86⟩, ⟨1982608315404440064116146708361898137545, 40, 88⟩,
  ⟨1268869321858841641034333893351614808029, 40, 90⟩, ⟨8247650592082470666723170306785496252186, 40, 91⟩,
  ⟨5443449390774430640037292402478427526443, 40, 93⟩, ⟨3647111091818868528824985909660546442717, 40, 95⟩,
  ⟨2480035542436830599600990418569171581047, 40, 97⟩, ⟨1711224524281413113724683388812728390923, 40, 99⟩,
  ⟨1197857166996989179607278372168909873646, 40, 101⟩, ⟨8504785885678623175211676442399260102886, 40, 102⟩,
  ⟨6123445837688608686152407038527467274078, 40, 104⟩, ⟨4470115461512684340891257138125051110077, 40, 106⟩,
  ⟨3307885441519386412259530282212537821457, 40, 108⟩, ⟨2480914081139539809194647711659403366093, 40, 110⟩,
  ⟨188549470166605025498793226086114655823, 39, 112⟩, ⟨1451830920282858696340707840863082849837, 40, 114⟩,
  ⟨1132428117820629783145752115873204622873, 40, 116⟩, ⟨8946182130782975286851441715398316520698, 40, 117⟩,
  ⟨7156945704626380229481153372318653216558, 40, 119⟩, ⟨5797126020747367985879734231578109105412, 40, 121⟩,
  ⟨4753643337012841748421382069894049466438, 40, 123⟩, ⟨3945523969720658651189747118012061057144, 40, 125⟩,
  ⟨3314240134565353266999387579130131288001, 40, 127⟩, ⟨2817104114380550276949479442260611594801, 40, 129⟩,
  ⟨2422709538367273238176552320344125971528, 40, 131⟩, ⟨210775729837952771721360051869938959523, 39, 133⟩,
  ⟨1854826422573984391147968456455462843802, 40, 135⟩, ⟨1650795516090846108121691926245361930984, 40, 137⟩,
  ⟨1485715964481761497309522733620825737886, 40, 139⟩, ⟨1352001527678402962551665687594951421476, 40, 141⟩,
  ⟨1243841405464130725547532432587355307758, 40, 143⟩, ⟨1156772507081641574759205162306240436215, 40, 145⟩,
  ⟨1087366156656743080273652852567866010042, 40, 147⟩, ⟨103299784882390592625997020993947270954, 39, 149⟩,
  ⟨9916779348709496892095714015418938011582, 40, 150⟩, ⟨9619275968248211985332842594956369871234, 40, 152⟩,
  ⟨942689044888324774562618574305724247381, 39, 154⟩, ⟨9332621544394415268169923885626670049072, 40, 156⟩,
  ⟨9332621544394415268169923885626670049072, 40, 158⟩, ⟨9425947759838359420851623124482936749562, 40, 160⟩,
  ⟨9614466715035126609268655586972595484554, 40, 162⟩, ⟨990290071648618040754671525458177334909, 39, 164⟩,
  ⟨1029901674514562762384858386476504428305, 40, 167⟩, ⟨1081396758240290900504101305800329649721, 40, 169⟩,
  ⟨1146280563734708354534347384148349428704, 40, 171⟩, ⟨1226520203196137939351751701038733888713, 40, 173⟩,
  ⟨132464181945182897449989183712183259981, 39, 175⟩, ⟨1443859583202493582204882102462797533793, 40, 177⟩,
  ⟨1588245541522742940425370312709077287172, 40, 179⟩, ⟨1762952551090244663872161047107075788761, 40, 181⟩,
  ⟨1974506857221074023536820372759924883413, 40, 183⟩, ⟨2231192748659813646596607021218715118256, 40, 185⟩,
  ⟨2543559733472187557120132004189335234812, 40, 187⟩, ⟨2925093693493015690688151804817735520034, 40, 189⟩,
  ⟨339310868445189820119825609358857320324, 39, 191⟩, ⟨396993716080872089540195962949863064779, 39, 193⟩,
  ⟨4684525849754290656574312362808384164393, 40, 195⟩, ⟨5574585761207605881323431711741977155627, 40, 197⟩,
  ⟨6689502913449127057588118054090372586753, 40, 199⟩, ⟨8094298525273443739681622845449350829971, 40, 201⟩,
  ⟨9875044200833601362411579871448208012564, 40, 203⟩, ⟨1214630436702532967576624324188129585545, 40, 206⟩,
  ⟨1506141741511140879795014161993280686076, 40, 208⟩, ⟨1882677176888926099743767702491600857595, 40, 210⟩,
  ⟨237217324288004688567714730513941708057, 39, 212⟩, ⟨3012660018457659544809977077527059692324, 40, 214⟩,
  ⟨3856204823625804217356770659234636406175, 40, 216⟩, ⟨4974504222477287440390234150412680963966, 40, 218⟩,
  ⟨6466855489220473672507304395536485253155, 40, 220⟩, ⟨8471580690878820510984568758152795681634, 40, 222⟩,
  ⟨1118248651196004307449963076076169029976, 40, 225⟩, ⟨1487270706090685728908450891181304809868, 40, 227⟩,
  ⟨1992942746161518876737324194182948445223, 40, 229⟩, ⟨269047270731805048359538766214698040105, 39, 231⟩,
  ⟨3659042881952548657689727220519893345429, 40, 233⟩, ⟨5012888748274991661034926292112253883237, 40, 235⟩,
  ⟨6917786472619488492228198283114910358867, 40, 237⟩, ⟨9615723196941089004197195613529725398826, 40, 239⟩,
  ⟨1346201247571752460587607385894161555836, 40, 242⟩, ⟨1898143759076170969428526414110767793728, 40, 244⟩,
  ⟨2695364137888162776588507508037290267094, 40, 246⟩, ⟨3854370717180072770521565736493325081944, 40, 248⟩,
  ⟨5550293832739304789551054660550388118, 37, 250⟩, ⟨80479260574719919448490292577980627711, 38, 252⟩,
  ⟨1174997204390910823947958271638517164581, 40, 255⟩, ⟨1727245890454638911203498659308620231933, 40, 257⟩,
  ⟨2556323917872865588581178015776757943262, 40, 259⟩, ⟨380892263763056972698595524350736933546, 39, 261⟩,
  ⟨571338395644585459047893286526105400319, 39, 263⟩, ⟨8627209774233240431623188626544191544816, 40, 265⟩,
  ⟨1311335885683452545606724671234717114812, 40, 268⟩, ⟨2006343905095682394778288746989117185662, 40, 270⟩,
  ⟨308976961384735088795856467036324046592, 39, 272⟩, ⟨4789142901463393876335775239063022722176, 40, 274⟩,
  ⟨7471062926282894447083809372938315446595, 40, 276⟩, ⟨1172956879426414428192158071551315525115, 40, 279⟩,
  ⟨1853271869493734796543609753051078529682, 40, 281⟩, ⟨2946702272495038326504339507351214862195, 40, 283⟩,
  ⟨4714723635992061322406943211761943779512, 40, 285⟩, ⟨7590705053947218729075178570936729485014, 40, 287⟩,
  ⟨1229694218739449434110178928491750176572, 40, 290⟩, ⟨2004401576545302577599591653441552787813, 40, 292⟩,
  ⟨3287218585534296227263330311644146572013, 40, 294⟩, ⟨5423910666131588774984495014212841843822, 40, 296⟩,
  ⟨9003691705778437366474261723593317460744, 40, 298⟩, ⟨1503616514864999040201201707840084015944, 40, 301⟩,
  ⟨2526075744973198387538018869171341146786, 40, 303⟩, ⟨4269068009004705274939251888899566538069, 40, 305⟩,
  ⟨7257415615307998967396728211129263114717, 40, 307⟩]

/-- entry of a table of Bernoulli numbers: sign, literal, divisor if there is one -/
structure Entry where
  neg : Bool
  lit : Dec
  den : Option ℕ
  deriving DecidableEq

/-- `SPROUT_BERNOULLI_TABLE_DEF_DOUBLE` (`sprout/math/bernoulli.hpp`, 56-109); `SPROUT_BERNOULLI_TABLE_DEF_LONG_DOUBLE`
(110-163) has the same entries but for the suffix, and `SPROUT_BERNOULLI_TABLE_DEF_FLOAT` (20-55) the first 33 of them -/
def bernoulliTable : List Entry := [
  ⟨false, ⟨1, 0, 0⟩, none⟩, ⟨false, ⟨1, 0, 0⟩, some 6⟩, ⟨true, ⟨1, 0, 0⟩, some 30⟩, ⟨false, ⟨1, 0, 0⟩, some 42⟩,
  ⟨true, ⟨1, 0, 0⟩, some 30⟩, ⟨false, ⟨5, 0, 0⟩, some 66⟩, ⟨true, ⟨691, 0, 0⟩, some 2730⟩,
  ⟨false, ⟨7, 0, 0⟩, some 6⟩, ⟨true, ⟨3617, 0, 0⟩, some 510⟩, ⟨false, ⟨43867, 0, 0⟩, some 798⟩,
  ⟨true, ⟨174611, 0, 0⟩, some 330⟩, ⟨false, ⟨854513, 0, 0⟩, some 138⟩, ⟨true, ⟨236364091, 0, 0⟩, some 2730⟩,
  ⟨false, ⟨8553103, 0, 0⟩, some 6⟩, ⟨true, ⟨236364091, 0, 0⟩, some 870⟩, ⟨false, ⟨8615841276005, 0, 0⟩, some 14322⟩,
  ⟨true, ⟨7709321041217, 0, 0⟩, some 510⟩, ⟨false, ⟨2577687858367, 0, 0⟩, some 6⟩,
  ⟨true, ⟨26315271553053477373, 0, 0⟩, some 1919190⟩, ⟨false, ⟨2929993913841559, 0, 0⟩, some 6⟩,
  ⟨true, ⟨261082718496449122051, 0, 0⟩, some 13530⟩, ⟨false, ⟨1520097643918070802691, 0, 0⟩, some 1806⟩,
  ⟨true, ⟨2783326957930102423502, 21, 22⟩, some 690⟩, ⟨false, ⟨596451111593912163278, 20, 23⟩, some 282⟩,
  ⟨true, ⟨120866265222965259346, 20, 23⟩, none⟩, ⟨false, ⟨7500866746076964366856, 21, 24⟩, none⟩,
  ⟨true, ⟨5038778101481068914138, 21, 26⟩, none⟩, ⟨false, ⟨365287764848181233351, 20, 28⟩, none⟩,
  ⟨true, ⟨2849876930245088222627, 21, 30⟩, none⟩, ⟨false, ⟨2386542749968362764465, 21, 32⟩, none⟩,
  ⟨true, ⟨2139994925722533366581, 21, 34⟩, none⟩, ⟨false, ⟨2050097572347809756992, 21, 36⟩, none⟩,
  ⟨true, ⟨209380059113463784091, 20, 38⟩, none⟩, ⟨false, ⟨2275269648846351555965, 21, 40⟩, none⟩,
  ⟨true, ⟨262577102862395760473, 20, 42⟩, none⟩, ⟨false, ⟨321250821027180325182, 20, 44⟩, none⟩,
  ⟨true, ⟨4159827816679471091392, 21, 46⟩, none⟩, ⟨false, ⟨5692069548203528002388, 21, 48⟩, none⟩,
  ⟨true, ⟨821836294197845756923, 20, 50⟩, none⟩, ⟨false, ⟨1250290432716699301673, 21, 53⟩, none⟩,
  ⟨true, ⟨2001558323324837027493, 21, 55⟩, none⟩, ⟨false, ⟨336749829153643742334, 20, 57⟩, none⟩,
  ⟨true, ⟨5947097050313544771866, 21, 59⟩, none⟩, ⟨false, ⟨1101191032362797755956, 21, 62⟩, none⟩,
  ⟨true, ⟨2135525954525350118866, 21, 64⟩, none⟩, ⟨false, ⟨4332889698664119241962, 21, 66⟩, none⟩,
  ⟨true, ⟨918855282416693282262, 20, 68⟩, none⟩, ⟨false, ⟨2034689677632907449346, 21, 71⟩, none⟩,
  ⟨true, ⟨470038339580357310786, 20, 73⟩, none⟩, ⟨false, ⟨1131804344548424927068, 21, 76⟩, none⟩,
  ⟨true, ⟨2838224957069370695926, 21, 78⟩, none⟩]

/-- integer types by size and signedness; floating types -/
inductive IntTy
  | s1 | u1 | s2 | u2 | s4 | u4 | s8 | u8
  deriving DecidableEq

/-- the range of the type -/
def IntTy.max : IntTy → ℤ
  | s1 => 2 ^ 7 - 1
  | u1 => 2 ^ 8 - 1
  | s2 => 2 ^ 15 - 1
  | u2 => 2 ^ 16 - 1
  | s4 => 2 ^ 31 - 1
  | u4 => 2 ^ 32 - 1
  | s8 => 2 ^ 63 - 1
  | u8 => 2 ^ 64 - 1

/-- `factorials<T>::table` (`sprout/math/factorial.hpp`, 532-690) -/
def IntTy.table : IntTy → List ℤ
  | s1 => factInt1
  | u1 => factUint1
  | s2 => factInt2
  | u2 => factUint2
  | s4 => factInt4
  | u4 => factUint4
  | s8 => factInt8
  | u8 => factUint8

/-- `factorials<T>::limit` (`sprout/math/factorial.hpp`, 532-690) -/
def IntTy.limit : IntTy → ℕ
  | s1 => 5
  | u1 => 5
  | s2 => 7
  | u2 => 8
  | s4 => 11
  | u4 => 11
  | s8 => 20
  | u8 => 20

/-- the floating types -/
inductive FloatTy
  | float | double | longDouble
  deriving DecidableEq

/-- `factorials<T>::limit` (`sprout/math/factorial.hpp`, 692-744) -/
def FloatTy.limit : FloatTy → ℕ
  | float => 34
  | double => 170
  | longDouble => 170

/-- `factorials<T>::table` (`sprout/math/factorial.hpp`, 692-750) -/
def FloatTy.table : FloatTy → List Dec
  | float => factFloat
  | double => factDouble
  | longDouble => factDouble

/-- `unchecked_factorial` (`sprout/math/factorial.hpp`, 776-779) of an integer type -/
def uncheckedFactorialInt (t : IntTy) (x : ℕ) : Option ℤ := t.table[x]?

/-- `factorial` (`sprout/math/factorial.hpp`, 784-788) of an integer type -/
def factorialInt (t : IntTy) (x : ℕ) : Option ℤ :=
  if x ≤ t.limit then uncheckedFactorialInt t x else none

/-- `unchecked_factorial` (`sprout/math/factorial.hpp`, 776-779) of the floating type `t` with the format `F` -/
noncomputable def uncheckedFactorial (F : Fmt) (t : FloatTy) (x : ℕ) : Option FV :=
  t.table[x]?.map fun d => F.ofReal false d.val

/-- `factorial` (`sprout/math/factorial.hpp`, 784-788) of a floating type -/
noncomputable def factorial (F : Fmt) (t : FloatTy) (x : ℕ) : Option FV :=
  if x ≤ t.limit then uncheckedFactorial F t x else none

/-- the value of an entry: `± literal / divisor` -/
noncomputable def Entry.eval (F : Fmt) (a : Entry) : FV :=
  let l := if a.neg then (F.ofReal false a.lit.val).neg else F.ofReal false a.lit.val
  match a.den with
  | none => l
  | some d => F.div l (F.ofInt d)

/-- `bernoulli_numbers<T>::limit` (`sprout/math/bernoulli.hpp`, 168-228) -/
def FloatTy.bernoulliLimit : FloatTy → ℕ
  | float => 64
  | double => 100
  | longDouble => 100

/-- `bernoulli_number` (`sprout/math/bernoulli.hpp`, 256-263) -/
noncomputable def bernoulliNumber (F : Fmt) (t : FloatTy) (x : ℕ) : Option FV :=
  if x ≤ t.bernoulliLimit then
    if x = 1 then some (F.div (F.ofInt (-1)) (F.ofInt 2))
    else if x % 2 = 1 then some (.zero false)
    else (bernoulliTable.take (t.bernoulliLimit / 2 + 1))[x / 2]?.map fun a => a.eval F
  else none

end Sprout.MathTables
