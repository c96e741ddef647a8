import Verif.Lemmas.CrcLog
/-!
Four terms `x^a + x^b + x^c + x^d` with exponents less than 3006 apart do not cancel.

The table has for each `a` from 1 to 3005 the exponent `v` with `1 + x^a = x^v`. `1 + x^i + x^j + x^k = 0` would mean that the exponents of `i` and `k - j` differ by `j`.
-/
namespace Yenc.Crc.Four
open Polynomial Yenc.Spec

/-- An exponent `a` and the exponent `v` with `1 + x^a = x^v`. -/
structure Entry where
  v : Nat
  a : Nat

set_option maxRecDepth 100000

/-- In the order of `v`. -/
def logs : List Entry := [
  ⟨2628309, 118⟩, ⟨3121335, 2573⟩, ⟨3528940, 2163⟩, ⟨3605729, 1434⟩, ⟨5256618, 236⟩, ⟨7211458, 2868⟩, ⟨8755353, 532⟩, ⟨10513236, 472⟩,
  ⟨11076833, 2928⟩, ⟨12378976, 585⟩, ⟨12821639, 2708⟩, ⟨14437713, 2986⟩, ⟨15782809, 1387⟩, ⟨17510706, 1064⟩, ⟨17578813, 606⟩, ⟨17953488, 1599⟩,
  ⟨18062928, 1943⟩, ⟨21026472, 944⟩, ⟨24407523, 2339⟩, ⟨24742271, 1629⟩, ⟨24757952, 1170⟩, ⟨24802857, 2826⟩, ⟨26713573, 2429⟩, ⟨27798487, 1115⟩,
  ⟨28220763, 1308⟩, ⟨28292161, 2375⟩, ⟨29590742, 1909⟩, ⟨31565618, 2774⟩, ⟨35021412, 2128⟩, ⟨35157626, 1212⟩, ⟨36966451, 2365⟩, ⟨42052944, 1888⟩,
  ⟨42306236, 897⟩, ⟨44424839, 805⟩, ⟨47420492, 555⟩, ⟨49515904, 2340⟩, ⟨50435755, 2497⟩, ⟨55313290, 2811⟩, ⟨55596974, 2230⟩, ⟨55632295, 1478⟩,
  ⟨56441526, 2616⟩, ⟨58836353, 1666⟩, ⟨62953291, 1926⟩, ⟨68568422, 79⟩, ⟨69908841, 1557⟩, ⟨70315252, 2424⟩, ⟨70381815, 2984⟩, ⟨73865231, 2509⟩,
  ⟨78001559, 2875⟩, ⟨81958544, 2297⟩, ⟨83615998, 1797⟩, ⟨84612472, 1794⟩, ⟨85735513, 788⟩, ⟨88849678, 1610⟩, ⟨93313869, 2521⟩, ⟨94276037, 688⟩,
  ⟨94455264, 2049⟩, ⟨94840984, 1110⟩, ⟨95326709, 448⟩, ⟨96506239, 1558⟩, ⟨97042422, 895⟩, ⟨99638656, 539⟩, ⟨100781727, 1717⟩, ⟨108753658, 605⟩,
  ⟨110808391, 1651⟩, ⟨111264590, 2956⟩, ⟨113666246, 823⟩, ⟨118180403, 1623⟩, ⟨119302049, 2250⟩, ⟨119312379, 264⟩, ⟨120284406, 1999⟩, ⟨121042829, 2196⟩,
  ⟨121091591, 1461⟩, ⟨122246994, 2591⟩, ⟨123445335, 778⟩, ⟨124106738, 2553⟩, ⟨126852583, 705⟩, ⟨129045983, 2615⟩, ⟨130408249, 1952⟩, ⟨131661382, 919⟩,
  ⟨131756082, 877⟩, ⟨136288413, 2798⟩, ⟨137136844, 158⟩, ⟨139336123, 2579⟩, ⟨141077717, 2551⟩, ⟨142764856, 2983⟩, ⟨145740091, 1679⟩, ⟨145925099, 1356⟩,
  ⟨146466991, 2469⟩, ⟨146685665, 1903⟩, ⟨147772985, 1876⟩, ⟨148285407, 752⟩, ⟨149956026, 2387⟩, ⟨150939842, 1759⟩, ⟨151212979, 1440⟩, ⟨156998698, 483⟩,
  ⟨158594912, 27⟩, ⟨158963886, 2031⟩, ⟨161380948, 685⟩, ⟨162477831, 414⟩, ⟨163913340, 2775⟩, ⟨164278522, 1045⟩, ⟨165508257, 1552⟩, ⟨171471026, 1576⟩,
  ⟨174163459, 2599⟩, ⟨175334121, 1706⟩, ⟨176150007, 2203⟩, ⟨177397351, 666⟩, ⟨177857501, 1168⟩, ⟨178298759, 1619⟩, ⟨180055045, 806⟩, ⟨180131573, 322⟩,
  ⟨181154711, 2418⟩, ⟨181703082, 265⟩, ⟨187592161, 837⟩, ⟨187867842, 2101⟩, ⟨188552074, 1376⟩, ⟨189149144, 1201⟩, ⟨189681968, 2220⟩, ⟨189886738, 1813⟩,
  ⟨190062004, 2149⟩, ⟨190653418, 896⟩, ⟨192029837, 570⟩, ⟨192118467, 505⟩, ⟨192701809, 2950⟩, ⟨194084844, 1790⟩, ⟨195572903, 1449⟩, ⟨197128776, 1775⟩,
  ⟨197888728, 201⟩, ⟨199007823, 515⟩, ⟨199277312, 1078⟩, ⟨199564211, 3000⟩, ⟨200308942, 2575⟩, ⟨203622619, 1518⟩, ⟨206368221, 1401⟩, ⟨207104479, 741⟩,
  ⟨208612279, 81⟩, ⟨210454871, 1471⟩, ⟨211074486, 1765⟩, ⟨212661284, 2659⟩, ⟨214608403, 2282⟩, ⟨217436145, 1618⟩, ⟨217507316, 1210⟩, ⟨218162159, 2991⟩,
  ⟨219958295, 2309⟩, ⟨222447361, 2214⟩, ⟨225904439, 35⟩, ⟨226099507, 1394⟩, ⟨227332492, 1646⟩, ⟨230106949, 2536⟩, ⟨230297775, 527⟩, ⟨234105305, 1031⟩,
  ⟨238624758, 528⟩, ⟨238738677, 25⟩, ⟨240222580, 875⟩, ⟨241094282, 2015⟩, ⟨242183182, 2922⟩, ⟨245464585, 1439⟩, ⟨245893527, 481⟩, ⟨246890670, 1556⟩,
  ⟨247585519, 455⟩, ⟨247637213, 238⟩, ⟨247815743, 2172⟩, ⟨247890333, 463⟩, ⟨252739757, 659⟩, ⟨253705166, 1410⟩, ⟨257621070, 21⟩, ⟨262295438, 2915⟩,
  ⟨263036721, 436⟩, ⟨263322764, 1838⟩, ⟨263512164, 1754⟩, ⟨263848255, 1925⟩, ⟨264428645, 1821⟩, ⟨266597494, 443⟩, ⟨266612435, 117⟩, ⟨269127758, 183⟩,
  ⟨270276740, 227⟩, ⟨271343243, 1039⟩, ⟨272755925, 2278⟩, ⟨274273688, 316⟩, ⟨276138478, 1427⟩, ⟨276497970, 329⟩, ⟨278779722, 97⟩, ⟨280113631, 312⟩,
  ⟨282115449, 981⟩, ⟨282271349, 1153⟩, ⟨287924845, 501⟩, ⟨291130870, 1177⟩, ⟨291850198, 2712⟩, ⟨292071355, 1839⟩, ⟨292139207, 2527⟩, ⟨295336225, 892⟩,
  ⟨296570814, 1504⟩, ⟨300945449, 783⟩, ⟨302425958, 2880⟩, ⟨309751988, 1063⟩, ⟨310589414, 2143⟩, ⟨312002688, 667⟩, ⟨312152503, 949⟩, ⟨312605159, 1468⟩,
  ⟨313997396, 966⟩, ⟨316417702, 1241⟩, ⟨317189824, 54⟩, ⟨318691071, 2269⟩, ⟨322761896, 1370⟩, ⟨324955662, 828⟩, ⟨326922206, 271⟩, ⟨326961957, 2571⟩,
  ⟨327838536, 1235⟩, ⟨328557044, 2090⟩, ⟨333946761, 2262⟩, ⟨336359625, 2213⟩, ⟨336953712, 1911⟩, ⟨337852983, 48⟩, ⟨338330473, 1774⟩, ⟨339353994, 99⟩,
  ⟨341014934, 903⟩, ⟨343006387, 372⟩, ⟨345708237, 1298⟩, ⟨346101249, 89⟩, ⟨347855433, 2666⟩, ⟨348351237, 1918⟩, ⟨348879588, 181⟩, ⟨352221819, 2810⟩,
  ⟨354070577, 60⟩, ⟨354372709, 274⟩, ⟨354794702, 1332⟩, ⟨355715002, 2336⟩, ⟨357384293, 1997⟩, ⟨357842382, 2683⟩, ⟨360110090, 1612⟩, ⟨360263146, 644⟩,
  ⟨362298815, 557⟩, ⟨363123237, 11⟩, ⟨363406164, 530⟩, ⟨365820181, 2724⟩, ⟨369157823, 2025⟩, ⟨370452736, 2389⟩, ⟨371666863, 2067⟩, ⟨374416763, 1543⟩,
  ⟨374819678, 1693⟩, ⟨375184322, 1674⟩, ⟨376269800, 2791⟩, ⟨376820508, 1⟩, ⟨377104148, 2752⟩, ⟨378298288, 2402⟩, ⟨378927192, 2095⟩, ⟨379692919, 1018⟩,
  ⟨380346619, 260⟩, ⟨381306836, 1792⟩, ⟨382881795, 780⟩, ⟨384059674, 1140⟩, ⟨384236934, 1010⟩, ⟨385116046, 1825⟩, ⟨387150236, 1217⟩, ⟨387641099, 1015⟩,
  ⟨388119566, 1769⟩, ⟨388626821, 803⟩, ⟨389897875, 2510⟩, ⟨390086213, 2294⟩, ⟨391145806, 2898⟩, ⟨392488857, 571⟩, ⟨392674404, 1315⟩, ⟨393731637, 2019⟩,
  ⟨393744615, 2715⟩, ⟨395777456, 402⟩, ⟨397193285, 1587⟩, ⟨398015646, 1030⟩, ⟨398548203, 104⟩, ⟨398554624, 2156⟩, ⟨399282947, 1254⟩, ⟨399547242, 2321⟩,
  ⟨406981400, 1589⟩, ⟨409655110, 485⟩, ⟨409861464, 1329⟩, ⟨409969143, 2088⟩, ⟨410962619, 2569⟩, ⟨411198985, 1564⟩, ⟨412736442, 2802⟩,
  ⟨412820377, 1385⟩, ⟨412887283, 2895⟩, ⟨413368873, 203⟩, ⟨414035794, 1517⟩, ⟨414208958, 1482⟩, ⟨415629274, 789⟩, ⟨415923871, 1700⟩, ⟨416932213, 2382⟩,
  ⟨417224558, 162⟩, ⟨420909742, 2942⟩, ⟨422383093, 1670⟩, ⟨423017413, 866⟩, ⟨423852025, 1000⟩, ⟨424339749, 1850⟩, ⟨426107075, 1864⟩, ⟨430500874, 1897⟩,
  ⟨435014632, 2420⟩, ⟨435465445, 841⟩, ⟨437591310, 931⟩, ⟨445045951, 2122⟩, ⟨445085494, 229⟩, ⟨447445871, 2494⟩, ⟨449575800, 2115⟩, ⟨449932565, 1121⟩,
  ⟨450071948, 1563⟩, ⟨451808878, 70⟩, ⟨452199014, 2788⟩, ⟨452299395, 2832⟩, ⟨456166770, 879⟩, ⟨456588439, 34⟩, ⟨460595550, 1054⟩, ⟨466332295, 2847⟩,
  ⟨468210610, 2062⟩, ⟨475293348, 1051⟩, ⟨477249516, 1056⟩, ⟨477292556, 1887⟩, ⟨477477354, 50⟩, ⟨478142664, 857⟩, ⟨480445160, 1750⟩, ⟨480552763, 2302⟩,
  ⟨480853851, 1685⟩, ⟨490320480, 193⟩, ⟨490929170, 2878⟩, ⟨491787054, 962⟩, ⟨491998229, 237⟩, ⟨495110553, 719⟩, ⟨495171038, 910⟩, ⟨495274426, 476⟩,
  ⟨495542773, 1271⟩, ⟨495780666, 926⟩, ⟨497134798, 1481⟩, ⟨499237686, 2205⟩, ⟨499680769, 2227⟩, ⟨500870385, 1242⟩, ⟨502364367, 700⟩, ⟨505255991, 171⟩,
  ⟨505474465, 2669⟩, ⟨505479514, 1318⟩, ⟨507410332, 2820⟩, ⟨512048027, 1456⟩, ⟨514847858, 199⟩, ⟨515242140, 42⟩, ⟨515490616, 921⟩, ⟨519013654, 249⟩,
  ⟨520049955, 2364⟩, ⟨520334082, 2687⟩, ⟨522919082, 1881⟩, ⟨523151917, 2730⟩, ⟨523705453, 1725⟩, ⟨526073442, 872⟩, ⟨529861643, 1218⟩, ⟨530878245, 640⟩,
  ⟨531217685, 721⟩, ⟨531520143, 578⟩, ⟨533194988, 886⟩, ⟨533224870, 234⟩, ⟨536281556, 1755⟩, ⟨536532118, 2453⟩, ⟨537028963, 2533⟩, ⟨537545666, 2323⟩,
  ⟨538255516, 366⟩, ⟨539638953, 811⟩, ⟨539643364, 1001⟩, ⟨540028579, 709⟩, ⟨540553480, 454⟩, ⟨541280009, 2311⟩, ⟨542686486, 2078⟩, ⟨548547376, 632⟩,
  ⟨552276956, 2854⟩, ⟨552377427, 536⟩, ⟨552995940, 658⟩, ⟨553171943, 244⟩, ⟨553782919, 814⟩, ⟨557559444, 194⟩, ⟨560227262, 624⟩, ⟨563181667, 408⟩,
  ⟨563573962, 2431⟩, ⟨564230898, 1962⟩, ⟨564542698, 2306⟩, ⟨569102570, 991⟩, ⟨569288237, 1163⟩, ⟨571273159, 2045⟩, ⟨571966866, 1529⟩,
  ⟨572380818, 1509⟩, ⟨573873707, 1969⟩, ⟨575295908, 2185⟩, ⟨575849690, 1002⟩, ⟨581166062, 2087⟩, ⟨581242165, 2899⟩, ⟨582261740, 2354⟩,
  ⟨584533678, 1279⟩, ⟨586883361, 2963⟩, ⟨587198225, 2946⟩, ⟨587306223, 943⟩, ⟨589687107, 1158⟩, ⟨589852415, 125⟩, ⟨590665057, 2838⟩, ⟨590672450, 1784⟩,
  ⟨591153398, 957⟩, ⟨591167962, 1867⟩, ⟨594836937, 2681⟩, ⟨597456815, 2611⟩, ⟨598052049, 2916⟩, ⟨601890898, 1566⟩, ⟨603594045, 1034⟩,
  ⟨614680515, 2371⟩, ⟨619503976, 2126⟩, ⟨622747579, 1570⟩, ⟨624005376, 1334⟩, ⟨624305006, 1898⟩, ⟨624316180, 2447⟩, ⟨625210318, 2936⟩,
  ⟨626597423, 2917⟩, ⟨627759439, 2932⟩, ⟨627994792, 1932⟩, ⟨629094277, 2361⟩, ⟨629295327, 2787⟩, ⟨632835404, 2482⟩, ⟨634379648, 108⟩,
  ⟨636322547, 1525⟩, ⟨639478987, 300⟩, ⟨641014093, 2543⟩, ⟨642103406, 2217⟩, ⟨643329717, 293⟩, ⟨643590499, 2604⟩, ⟨645410065, 1068⟩, ⟨645523792, 2740⟩,
  ⟨646719463, 1432⟩, ⟨646844597, 633⟩, ⟨649911324, 1656⟩, ⟨653844412, 542⟩, ⟨653901219, 1977⟩, ⟨654285835, 1736⟩, ⟨655677072, 2470⟩, ⟨656670319, 1221⟩,
  ⟨658819582, 2411⟩, ⟨659029123, 1494⟩, ⟨659402411, 2524⟩, ⟨659432220, 2379⟩, ⟨663812648, 1817⟩, ⟨665434523, 2649⟩, ⟨673730044, 1043⟩, ⟨675705966, 96⟩,
  ⟨677169543, 107⟩, ⟨677625441, 484⟩, ⟨678707988, 198⟩, ⟨679643478, 2343⟩, ⟨682029868, 1806⟩, ⟨682606466, 1807⟩, ⟨682776285, 2525⟩, ⟨686012774, 744⟩,
  ⟨687323319, 2073⟩, ⟨687678585, 20⟩, ⟨689881719, 2943⟩, ⟨690298248, 1291⟩, ⟨690585697, 1273⟩, ⟨691416474, 2596⟩, ⟨692202498, 178⟩, ⟨693144741, 1565⟩,
  ⟨694819425, 2850⟩, ⟨695923576, 441⟩, ⟨697759176, 362⟩, ⟨702386743, 369⟩, ⟨702812192, 355⟩, ⟨704461684, 2999⟩, ⟨705301224, 2511⟩, ⟨706040851, 673⟩,
  ⟨708141154, 120⟩, ⟨708745418, 548⟩, ⟨709589404, 2664⟩, ⟨713014817, 1046⟩, ⟨715171021, 1686⟩, ⟨715486381, 157⟩, ⟨718921226, 1311⟩, ⟨720526292, 1288⟩,
  ⟨721000173, 2153⟩, ⟨721262654, 1627⟩, ⟨722141679, 1022⟩, ⟨724597630, 1114⟩, ⟨725484133, 147⟩, ⟨725536851, 2272⟩, ⟨725794204, 111⟩, ⟨726125616, 915⟩,
  ⟨726246474, 22⟩, ⟨726812328, 1060⟩, ⟨728192515, 2412⟩, ⟨729969615, 2701⟩, ⟨733331367, 2673⟩, ⟨739500708, 2357⟩, ⟨741519882, 689⟩, ⟨741687016, 2417⟩,
  ⟨747735161, 2310⟩, ⟨753641016, 2⟩, ⟨754481601, 758⟩, ⟨755334673, 852⟩, ⟨758324597, 1415⟩, ⟨759385838, 2036⟩, ⟨760693238, 520⟩, ⟨763936305, 770⟩,
  ⟨764769877, 1534⟩, ⟨765763590, 1560⟩, ⟨768119348, 2280⟩, ⟨768473868, 2020⟩, ⟨768629479, 1116⟩, ⟨768880887, 2119⟩, ⟨770517303, 143⟩,
  ⟨772252199, 2514⟩, ⟨772783428, 2395⟩, ⟨773495625, 1431⟩, ⟨774300472, 2434⟩, ⟨775282198, 2030⟩, ⟨777253642, 1606⟩, ⟨779464875, 1665⟩,
  ⟨780069889, 864⟩, ⟨780542091, 2625⟩, ⟨780860351, 1722⟩, ⟨781622071, 275⟩, ⟨783378375, 2226⟩, ⟨784977714, 1142⟩, ⟨785348808, 2630⟩, ⟨785353981, 1777⟩,
  ⟨785465957, 636⟩, ⟨787389004, 2109⟩, ⟨788354451, 2254⟩, ⟨788924958, 1641⟩, ⟨791554912, 804⟩, ⟨792613297, 1694⟩, ⟨792786960, 2723⟩, ⟨796031292, 2060⟩,
  ⟨797096406, 208⟩, ⟨797598708, 209⟩, ⟨797621116, 1023⟩, ⟨798270084, 2855⟩, ⟨798565894, 2508⟩, ⟨798600933, 1708⟩, ⟨799392270, 1465⟩, ⟨800247359, 2807⟩,
  ⟨801855479, 2114⟩, ⟨806546121, 2577⟩, ⟨808044007, 2301⟩, ⟨808212215, 241⟩, ⟨809417423, 2961⟩, ⟨814757179, 90⟩, ⟨815493852, 2667⟩, ⟨818141431, 1393⟩,
  ⟨819310220, 970⟩, ⟨819722928, 2658⟩, ⟨819772664, 763⟩, ⟨820174077, 1701⟩, ⟨820864601, 2400⟩, ⟨822153425, 253⟩, ⟨822256151, 1894⟩, ⟨823416151, 1062⟩,
  ⟨825640754, 2770⟩, ⟨826177618, 1873⟩, ⟨826737746, 406⟩, ⟨828417916, 2964⟩, ⟨830049561, 2495⟩, ⟨831013924, 1579⟩, ⟨831258548, 1578⟩,
  ⟨832434441, 1822⟩, ⟨833575080, 177⟩, ⟨834449116, 324⟩, ⟨836226592, 563⟩, ⟨836579393, 1035⟩, ⟨837562014, 1947⟩, ⟨837987601, 1709⟩, ⟨840596129, 1502⟩,
  ⟨842381094, 1945⟩, ⟨846034826, 1732⟩, ⟨846107078, 1319⟩, ⟨847704050, 2000⟩, ⟨847753083, 1869⟩, ⟨850652421, 142⟩, ⟨851670441, 2344⟩,
  ⟨855342120, 1495⟩, ⟨857478249, 2748⟩, ⟨858902968, 1011⟩, ⟨859147077, 2891⟩, ⟨860552830, 115⟩, ⟨861821591, 345⟩, ⟨862065036, 551⟩, ⟨862640000, 2219⟩,
  ⟨863273494, 1957⟩, ⟨863691206, 1409⟩, ⟨864735298, 795⟩, ⟨868241627, 471⟩, ⟨868867823, 1075⟩, ⟨869556093, 2870⟩, ⟨870930890, 1682⟩, ⟨873528861, 2476⟩,
  ⟨875182620, 1862⟩, ⟨877529607, 123⟩, ⟨878083764, 2585⟩, ⟨878144899, 2982⟩, ⟨882946404, 2479⟩, ⟨883350644, 893⟩, ⟨883943395, 1840⟩, ⟨884050726, 1181⟩,
  ⟨884081083, 1791⟩, ⟨884095842, 913⟩, ⟨887384600, 2467⟩, ⟨890170988, 458⟩, ⟨890522343, 3005⟩, ⟨895624996, 1477⟩, ⟨895883123, 2422⟩, ⟨898760771, 2793⟩,
  ⟨899537991, 2720⟩, ⟨899625958, 2407⟩, ⟨899742473, 1965⟩, ⟨899865130, 2242⟩, ⟨900335009, 547⟩, ⟨900987370, 623⟩, ⟨901289939, 1740⟩, ⟨901493646, 247⟩,
  ⟨903617756, 140⟩, ⟨903620622, 2215⟩, ⟨904188011, 165⟩, ⟨909726548, 2777⟩, ⟨912333540, 1758⟩, ⟨912879459, 2795⟩, ⟨913176878, 68⟩, ⟨914485796, 131⟩,
  ⟨916678157, 304⟩, ⟨918599865, 82⟩, ⟨921191100, 2108⟩, ⟨921553118, 2733⟩, ⟨922630716, 2827⟩, ⟨925246021, 2768⟩, ⟨925571472, 1995⟩, ⟨928949026, 2047⟩,
  ⟨929667149, 1428⟩, ⟨930400305, 994⟩, ⟨932343675, 1955⟩, ⟨937825052, 2593⟩, ⟨940781218, 2987⟩, ⟨943591467, 1922⟩, ⟨943633565, 2540⟩,
  ⟨946689397, 1858⟩, ⟨947947878, 2907⟩, ⟨948541345, 1223⟩, ⟨950586696, 2102⟩, ⟨951240368, 273⟩, ⟨954499032, 2112⟩, ⟨954514721, 185⟩, ⟨954954708, 100⟩,
  ⟨956285328, 1714⟩, ⟨958133745, 2174⟩, ⟨960475309, 365⟩, ⟨960818396, 891⟩, ⟨962344771, 1499⟩, ⟨962760225, 1436⟩, ⟨964331633, 2886⟩, ⟨964636431, 1327⟩,
  ⟨965400751, 1066⟩, ⟨966883659, 2292⟩, ⟨967634658, 85⟩, ⟨968556468, 1933⟩, ⟨969168757, 1085⟩, ⟨969436773, 2487⟩, ⟨969768385, 1574⟩, ⟨974608149, 924⟩,
  ⟨977194899, 2307⟩, ⟨980640960, 386⟩, ⟨983241402, 647⟩, ⟨983412339, 2888⟩, ⟨983574108, 1924⟩, ⟨983996458, 474⟩, ⟨984071523, 1841⟩, ⟨985384224, 2173⟩,
  ⟨986895819, 834⟩, ⟨988384779, 128⟩, ⟨989939737, 1404⟩, ⟨990221106, 1438⟩, ⟨990342076, 1820⟩, ⟨990548852, 952⟩, ⟨991085546, 2542⟩, ⟨991561332, 1852⟩,
  ⟨994269596, 2962⟩, ⟨995653195, 2065⟩, ⟨996143321, 2013⟩, ⟨997574637, 2367⟩, ⟨999257383, 419⟩, ⟨1000800341, 967⟩, ⟨1001740770, 2484⟩,
  ⟨1001800799, 415⟩, ⟨1002399996, 29⟩, ⟨1003777212, 2221⟩, ⟨1004300147, 225⟩, ⟨1004728734, 1400⟩, ⟨1006006249, 1226⟩, ⟨1007257191, 337⟩,
  ⟨1008487542, 1197⟩, ⟨1008861616, 1597⟩, ⟨1010511982, 342⟩, ⟨1010544056, 1979⟩, ⟨1010959028, 2636⟩, ⟨1013394042, 535⟩, ⟨1014111772, 2069⟩,
  ⟨1015237754, 935⟩, ⟨1020087071, 1450⟩, ⟨1024096054, 2912⟩, ⟨1025222637, 1506⟩, ⟨1027222231, 2167⟩, ⟨1027615703, 1520⟩, ⟨1029695716, 398⟩,
  ⟨1030484280, 84⟩, ⟨1030981232, 1842⟩, ⟨1031461473, 612⟩, ⟨1032704105, 745⟩, ⟨1034619663, 1804⟩, ⟨1036892173, 982⟩, ⟨1037257962, 2151⟩,
  ⟨1038027308, 498⟩, ⟨1038113077, 1306⟩, ⟨1040492729, 2858⟩, ⟨1042589244, 1603⟩, ⟨1052146884, 1744⟩, ⟨1053585495, 151⟩, ⟨1053788099, 799⟩,
  ⟨1057863405, 756⟩, ⟨1059723286, 2436⟩, ⟨1061756490, 1280⟩, ⟨1062435370, 1442⟩, ⟨1062715869, 2133⟩, ⟨1063040286, 1156⟩, ⟨1065739395, 1485⟩,
  ⟨1066389976, 1772⟩, ⟨1066449740, 468⟩, ⟨1067461008, 287⟩, ⟨1067620869, 442⟩, ⟨1069813305, 2451⟩, ⟨1073392603, 2305⟩, ⟨1075175127, 1634⟩,
  ⟨1075930662, 133⟩, ⟨1076511032, 732⟩, ⟨1079277906, 1622⟩, ⟨1079286728, 2002⟩, ⟨1080057158, 1418⟩, ⟨1080734955, 904⟩, ⟨1081106960, 908⟩,
  ⟨1084412115, 2853⟩, ⟨1085256798, 1523⟩, ⟨1087620247, 1680⟩, ⟨1095175702, 197⟩, ⟨1097094752, 1264⟩, ⟨1097310833, 172⟩, ⟨1097573501, 112⟩,
  ⟨1098357239, 2639⟩, ⟨1101914912, 2079⟩, ⟨1103722822, 927⟩, ⟨1104002531, 549⟩, ⟨1104598766, 1079⟩, ⟨1104754854, 1072⟩, ⟨1105991880, 1316⟩,
  ⟨1106343886, 488⟩, ⟨1107565838, 1628⟩, ⟨1107761683, 1781⟩, ⟨1109560415, 2923⟩, ⟨1110680433, 768⟩, ⟨1110685070, 469⟩, ⟨1113797259, 1956⟩,
  ⟨1115024819, 2690⟩, ⟨1115118888, 388⟩, ⟨1115179951, 2556⟩, ⟨1118203239, 2919⟩, ⟨1118206199, 292⟩, ⟨1120454524, 1248⟩, ⟨1122248689, 1900⟩,
  ⟨1122389049, 856⟩, ⟨1126363334, 816⟩, ⟨1127133221, 1689⟩, ⟨1127552364, 1093⟩, ⟨1128586396, 1583⟩, ⟨1129608889, 1342⟩, ⟨1131051581, 1644⟩,
  ⟨1131268561, 634⟩, ⟨1134696609, 1584⟩, ⟨1137776384, 831⟩, ⟨1138205140, 1982⟩, ⟨1138576474, 2326⟩, ⟨1139501004, 109⟩, ⟨1141687490, 2607⟩,
  ⟨1147162107, 1882⟩, ⟨1147575880, 223⟩, ⟨1147699559, 1074⟩, ⟨1151699380, 2004⟩, ⟨1153030367, 2462⟩, ⟨1153553622, 2489⟩, ⟨1155530113, 2814⟩,
  ⟨1155571827, 1968⟩, ⟨1159694647, 1038⟩, ⟨1162259468, 15⟩, ⟨1163090171, 1134⟩, ⟨1163104764, 1067⟩, ⟨1165196869, 681⟩, ⟨1166418223, 881⟩,
  ⟨1167114640, 1185⟩, ⟨1169067356, 2558⟩, ⟨1171474548, 1505⟩, ⟨1174102793, 2753⟩, ⟨1174612446, 1886⟩, ⟨1174861153, 1710⟩, ⟨1175188375, 1225⟩,
  ⟨1176541570, 391⟩, ⟨1179374214, 2316⟩, ⟨1179704830, 250⟩, ⟨1181949899, 1780⟩, ⟨1182306796, 1914⟩, ⟨1184237114, 865⟩, ⟨1184377740, 2057⟩,
  ⟨1185497551, 2992⟩, ⟨1187590803, 1265⟩, ⟨1190617047, 2160⟩, ⟨1190979595, 2408⟩, ⟨1194569335, 1129⟩, ⟨1201577309, 2100⟩, ⟨1201768411, 1531⟩,
  ⟨1201912432, 1625⟩, ⟨1205203430, 1727⟩, ⟨1206461385, 160⟩, ⟨1207188090, 2068⟩, ⟨1209402418, 1527⟩, ⟨1212240637, 1042⟩, ⟨1221788643, 790⟩,
  ⟨1222715020, 2077⟩, ⟨1223254836, 729⟩, ⟨1232142218, 2785⟩, ⟨1233386301, 2488⟩, ⟨1233838485, 2223⟩, ⟨1235094340, 267⟩, ⟨1235434892, 2949⟩,
  ⟨1237933499, 1647⟩, ⟨1239113461, 1337⟩, ⟨1242611205, 1827⟩, ⟨1242652689, 1424⟩, ⟨1243148184, 121⟩, ⟨1245661470, 5⟩, ⟨1246593547, 2646⟩,
  ⟨1247109699, 1895⟩, ⟨1248010752, 2668⟩, ⟨1249158993, 1301⟩, ⟨1249173287, 2613⟩, ⟨1250349499, 1282⟩, ⟨1256853731, 2403⟩, ⟨1262575492, 213⟩,
  ⟨1262793682, 2985⟩, ⟨1263386070, 2933⟩, ⟨1264815893, 1373⟩, ⟨1268759296, 216⟩, ⟨1270108313, 159⟩, ⟨1272585841, 2834⟩, ⟨1273127310, 757⟩,
  ⟨1273392057, 427⟩, ⟨1276021465, 2581⟩, ⟨1278957974, 600⟩, ⟨1281127854, 827⟩, ⟨1282630252, 1383⟩, ⟨1283541610, 1737⟩, ⟨1284437683, 1667⟩,
  ⟨1286659434, 586⟩, ⟨1287106113, 2896⟩, ⟨1288111386, 687⟩, ⟨1289631695, 2713⟩, ⟨1290027269, 2072⟩, ⟨1290820130, 2136⟩, ⟨1292124039, 619⟩,
  ⟨1293438926, 2864⟩, ⟨1293629357, 1698⟩, ⟨1293689194, 1266⟩, ⟨1296458891, 946⟩, ⟨1298279533, 2037⟩, ⟨1298973133, 2021⟩, ⟨1299123323, 1205⟩,
  ⟨1301545156, 2903⟩, ⟨1301562281, 2555⟩, ⟨1302911363, 76⟩, ⟨1304603607, 2566⟩, ⟨1305053329, 692⟩, ⟨1305442448, 1863⟩, ⟨1306158611, 357⟩,
  ⟨1307688824, 1084⟩, ⟨1309650215, 635⟩, ⟨1309737667, 2164⟩, ⟨1310348253, 2732⟩, ⟨1313340638, 2442⟩, ⟨1314307533, 2390⟩, ⟨1314431880, 359⟩,
  ⟨1317393861, 231⟩, ⟨1317587615, 2656⟩, ⟨1318058246, 2988⟩, ⟨1319455441, 1381⟩, ⟨1320322837, 2890⟩, ⟨1321226758, 351⟩, ⟨1321994974, 2449⟩,
  ⟨1322368623, 2981⟩, ⟨1323017845, 1984⟩, ⟨1323970936, 2287⟩, ⟨1324126649, 2952⟩, ⟨1327530241, 2840⟩, ⟨1327549799, 2249⟩, ⟨1328841246, 1059⟩,
  ⟨1331607192, 153⟩, ⟨1332362055, 1322⟩, ⟨1332911295, 1453⟩, ⟨1333473386, 2603⟩, ⟨1337436576, 1289⟩, ⟨1338207675, 189⟩, ⟨1343951540, 1157⟩,
  ⟨1346774810, 2705⟩, ⟨1347460088, 2086⟩, ⟨1347770001, 1637⟩, ⟨1348069532, 43⟩, ⟨1348131086, 1741⟩, ⟨1348135199, 28⟩, ⟨1351411932, 192⟩,
  ⟨1354303996, 475⟩, ⟨1354339086, 214⟩, ⟨1355250882, 968⟩, ⟨1355439063, 2010⟩, ⟨1356504719, 411⟩, ⟨1357415976, 396⟩, ⟨1359722945, 2977⟩,
  ⟨1361232891, 1528⟩, ⟨1365093806, 1815⟩, ⟨1367195755, 1331⟩, ⟨1367538409, 2726⟩, ⟨1369287068, 867⟩, ⟨1370161937, 960⟩, ⟨1370422586, 1083⟩,
  ⟨1371050713, 1027⟩, ⟨1371570621, 2699⟩, ⟨1372025548, 1488⟩, ⟨1374118177, 1375⟩, ⟨1374136151, 525⟩, ⟨1375357170, 40⟩, ⟨1378808728, 1829⟩,
  ⟨1380596496, 2582⟩, ⟨1381171394, 2546⟩, ⟨1381464437, 2008⟩, ⟨1382088399, 622⟩, ⟨1384404996, 356⟩, ⟨1385836479, 2565⟩, ⟨1388351717, 2953⟩,
  ⟨1388781450, 2763⟩, ⟨1389602811, 1249⟩, ⟨1390475111, 1124⟩, ⟨1391847152, 882⟩, ⟨1392161895, 2267⟩, ⟨1392765809, 871⟩, ⟨1392880747, 2515⟩,
  ⟨1393542555, 1484⟩, ⟨1395481521, 1487⟩, ⟨1395518352, 724⟩, ⟨1396248641, 518⟩, ⟨1396803599, 1771⟩, ⟨1397672630, 801⟩, ⟨1399533123, 1186⟩,
  ⟨1400005156, 173⟩, ⟨1401328887, 683⟩, ⟨1401774249, 2938⟩, ⟨1404496285, 496⟩, ⟨1404773486, 738⟩, ⟨1405624384, 710⟩, ⟨1407525336, 1411⟩,
  ⟨1409335767, 773⟩, ⟨1411015421, 2201⟩, ⟨1412081702, 1346⟩, ⟨1414462869, 1284⟩, ⟨1416282308, 240⟩, ⟨1417490836, 1096⟩, ⟨1419107933, 502⟩,
  ⟨1419490837, 1601⟩, ⟨1420557230, 1801⟩, ⟨1423716890, 2083⟩, ⟨1424865895, 124⟩, ⟨1426029634, 2092⟩, ⟨1427357541, 321⟩, ⟨1428266203, 1657⟩,
  ⟨1428750405, 2472⟩, ⟨1428923753, 1256⟩, ⟨1430929425, 618⟩, ⟨1430972762, 314⟩, ⟨1433229108, 1361⟩, ⟨1433334057, 255⟩, ⟨1434126341, 2430⟩,
  ⟨1434722151, 1707⟩, ⟨1437842452, 2622⟩, ⟨1438368933, 1020⟩, ⟨1439689726, 2901⟩, ⟨1441052584, 2576⟩, ⟨1442943337, 707⟩, ⟨1444283358, 2044⟩,
  ⟨1444360942, 2333⟩, ⟨1449195260, 2228⟩, ⟨1450093693, 2359⟩, ⟨1450271217, 1713⟩, ⟨1450968266, 294⟩, ⟨1451588408, 222⟩, ⟨1452247478, 1559⟩,
  ⟨1452251232, 1830⟩, ⟨1452492948, 44⟩, ⟨1453624656, 2120⟩, ⟨1454167843, 2373⟩, ⟨1455477184, 1069⟩, ⟨1456733115, 1787⟩, ⟨1461170393, 2289⟩,
  ⟨1461798862, 1917⟩, ⟨1466058307, 2110⟩, ⟨1467034628, 1585⟩, ⟨1468493978, 611⟩, ⟨1471057334, 979⟩, ⟨1475328454, 1189⟩, ⟨1476806053, 2828⟩,
  ⟨1477012211, 2539⟩, ⟨1478251096, 2911⟩, ⟨1483039764, 1378⟩, ⟨1484226377, 1106⟩, ⟨1490324237, 2253⟩, ⟨1492226015, 1923⟩, ⟨1493033647, 1351⟩,
  ⟨1494803082, 625⟩, ⟨1495705403, 169⟩, ⟨1500657623, 2534⟩, ⟨1500840801, 713⟩, ⟨1503505063, 1317⟩, ⟨1504162012, 1295⟩, ⟨1505687392, 2445⟩,
  ⟨1507282032, 4⟩, ⟨1508905769, 1176⟩, ⟨1508963202, 1516⟩, ⟨1510669346, 1704⟩, ⟨1511003823, 2989⟩, ⟨1511386337, 888⟩, ⟨1513954102, 587⟩,
  ⟨1515004497, 176⟩, ⟨1515839595, 1058⟩, ⟨1516649194, 2830⟩, ⟨1518275503, 1203⟩, ⟨1521386476, 1040⟩, ⟨1523757755, 1167⟩, ⟨1523900131, 668⟩,
  ⟨1525756136, 791⟩, ⟨1525758351, 2866⟩, ⟨1527872610, 1540⟩, ⟨1529508863, 278⟩, ⟨1531087499, 2796⟩, ⟨1531356565, 2969⟩, ⟨1531751340, 2299⟩,
  ⟨1533569610, 319⟩, ⟨1534612407, 2263⟩, ⟨1535596827, 2765⟩, ⟨1536399016, 1971⟩, ⟨1536760822, 1307⟩, ⟨1536790837, 2902⟩, ⟨1537258958, 2232⟩,
  ⟨1538368395, 413⟩, ⟨1539552349, 1389⟩, ⟨1541034606, 286⟩, ⟨1541231681, 646⟩, ⟨1545310994, 1371⟩, ⟨1545383319, 1548⟩, ⟨1546718973, 2655⟩,
  ⟨1546991250, 2862⟩, ⟨1549633095, 1105⟩, ⟨1549699531, 1353⟩, ⟨1552878527, 1658⟩, ⟨1553359608, 2319⟩, ⟨1553603920, 2897⟩, ⟨1553712899, 1596⟩,
  ⟨1554884060, 405⟩, ⟨1555923539, 2435⟩, ⟨1555954602, 601⟩, ⟨1556771513, 1729⟩, ⟨1560139778, 1728⟩, ⟨1561295734, 2121⟩, ⟨1562456041, 1770⟩,
  ⟨1563244142, 550⟩, ⟨1564477414, 577⟩, ⟨1569955428, 2284⟩, ⟨1570315269, 470⟩, ⟨1570931914, 1272⟩, ⟨1572982211, 2240⟩, ⟨1577011274, 269⟩,
  ⟨1578107442, 307⟩, ⟨1579008617, 2444⟩, ⟨1580076517, 682⟩, ⟨1581454961, 2366⟩, ⟨1582106291, 2640⟩, ⟨1582511951, 2433⟩, ⟨1583109824, 1608⟩,
  ⟨1584821791, 1877⟩, ⟨1584866747, 126⟩, ⟨1585218997, 1733⟩, ⟨1586633690, 2491⟩, ⟨1588370291, 2937⟩, ⟨1594192812, 416⟩, ⟨1594651145, 1162⟩,
  ⟨1595197416, 418⟩, ⟨1595242232, 2046⟩, ⟨1595509936, 1463⟩, ⟨1598784540, 2930⟩, ⟨1599325581, 2107⟩, ⟨1599732814, 1993⟩, ⟨1599780898, 1003⟩,
  ⟨1607295697, 282⟩, ⟨1607815211, 2384⟩, ⟨1613274815, 1338⟩, ⟨1614333919, 2784⟩, ⟨1614380831, 437⟩, ⟨1616424430, 482⟩, ⟨1625526783, 33⟩,
  ⟨1629514358, 180⟩, ⟨1630800375, 1843⟩, ⟨1635558262, 375⟩, ⟨1636282862, 2786⟩, ⟨1638620440, 1940⟩, ⟨1639545328, 1526⟩, ⟨1641888544, 2531⟩,
  ⟨1642423428, 2245⟩, ⟨1642618300, 2369⟩, ⟨1644306850, 506⟩, ⟨1644517439, 1179⟩, ⟨1646374175, 1299⟩, ⟨1646832302, 2124⟩, ⟨1648941370, 2209⟩,
  ⟨1652452215, 478⟩, ⟨1653475492, 812⟩, ⟨1655160665, 2839⟩, ⟨1655622289, 575⟩, ⟨1660431261, 13⟩, ⟨1663876120, 233⟩, ⟨1664676155, 1237⟩,
  ⟨1667150160, 354⟩, ⟨1668898232, 648⟩, ⟨1670833902, 2749⟩, ⟨1670860657, 2473⟩, ⟨1672453184, 1126⟩, ⟨1673158786, 2070⟩, ⟨1674618739, 182⟩,
  ⟨1674906084, 1865⟩, ⟨1676535867, 559⟩, ⟨1677450341, 1678⟩, ⟨1677696620, 2129⟩, ⟨1678882915, 844⟩, ⟨1679659914, 67⟩, ⟨1680903515, 1169⟩,
  ⟨1681010444, 51⟩, ⟨1681192258, 3004⟩, ⟨1683649509, 1990⟩, ⟨1684245033, 2500⟩, ⟨1685304771, 824⟩, ⟨1685438349, 703⟩, ⟨1686454799, 972⟩,
  ⟨1687854317, 676⟩, ⟨1688023026, 945⟩, ⟨1691357399, 1508⟩, ⟨1692214156, 2638⟩, ⟨1692398465, 217⟩, ⟨1692770620, 2441⟩, ⟨1693938853, 1659⟩,
  ⟨1694672490, 2885⟩, ⟨1697670542, 1343⟩, ⟨1698315565, 2341⟩, ⟨1700915728, 1553⟩, ⟨1701304842, 284⟩, ⟨1702151956, 1985⟩, ⟨1702320778, 1545⟩,
  ⟨1703650019, 2645⟩, ⟨1704754520, 781⟩, ⟨1708395909, 2852⟩, ⟨1710684240, 2990⟩, ⟨1711173445, 2697⟩, ⟨1714993051, 2993⟩, ⟨1717805936, 2022⟩,
  ⟨1721105660, 230⟩, ⟨1723284249, 1285⟩, ⟨1723367295, 2147⟩, ⟨1723512379, 2951⟩, ⟨1723643182, 690⟩, ⟨1724130072, 1102⟩, ⟨1724573271, 2633⟩,
  ⟨1725928163, 1088⟩, ⟨1727382412, 2818⟩, ⟨1729470596, 1590⟩, ⟨1729576587, 447⟩, ⟨1733539278, 361⟩, ⟨1734029806, 701⟩, ⟨1734160833, 16⟩,
  ⟨1734552583, 1812⟩, ⟨1734746304, 951⟩, ⟨1736483254, 942⟩, ⟨1737114902, 457⟩, ⟨1737735646, 2150⟩, ⟨1738493873, 1065⟩, ⟨1738515947, 2042⟩,
  ⟨1744682430, 615⟩, ⟨1745288310, 2137⟩, ⟨1745704605, 113⟩, ⟨1746870851, 2096⟩, ⟨1750524105, 933⟩, ⟨1750566475, 1137⟩, ⟨1752240006, 1681⟩,
  ⟨1752341858, 1261⟩, ⟨1754698604, 477⟩, ⟨1755059214, 246⟩, ⟨1759485185, 301⟩, ⟨1759813303, 1412⟩, ⟨1760849113, 2348⟩, ⟨1764624188, 2161⟩,
  ⟨1764937635, 2772⟩, ⟨1765050693, 704⟩, ⟨1766701288, 1786⟩, ⟨1768101452, 2362⟩, ⟨1768191684, 1826⟩, ⟨1772093575, 2518⟩, ⟨1774120603, 1640⟩,
  ⟨1776397492, 743⟩, ⟨1777676137, 662⟩, ⟨1779956571, 1190⟩, ⟨1780260156, 1357⟩, ⟨1780341976, 916⟩, ⟨1780766847, 191⟩, ⟨1784074269, 1303⟩,
  ⟨1789750045, 1462⟩, ⟨1790348961, 2286⟩, ⟨1791249992, 2954⟩, ⟨1794745562, 997⟩, ⟨1798083366, 597⟩, ⟨1799629877, 431⟩, ⟨1800633229, 2672⟩,
  ⟨1800670018, 1094⟩, ⟨1801974740, 1246⟩, ⟨1802987292, 494⟩, ⟨1806814447, 1831⟩, ⟨1807235512, 280⟩, ⟨1807946432, 737⟩, ⟨1808376022, 330⟩,
  ⟨1811589637, 298⟩, ⟨1812695955, 1312⟩, ⟨1815474077, 2869⟩, ⟨1818494947, 1593⟩, ⟨1821275832, 103⟩, ⟨1822164712, 2557⟩, ⟨1823068157, 1112⟩,
  ⟨1823220438, 1719⟩, ⟨1826353756, 136⟩, ⟨1827419824, 1321⟩, ⟨1828760244, 1367⟩, ⟨1828971592, 262⟩, ⟨1832377811, 205⟩, ⟨1833356314, 608⟩,
  ⟨1833410163, 516⟩, ⟨1834104684, 2493⟩, ⟨1835950123, 2241⟩, ⟨1837199730, 164⟩, ⟨1839311145, 1276⟩, ⟨1842477739, 1245⟩, ⟨1844491560, 299⟩,
  ⟨1845674950, 467⟩, ⟨1846887439, 138⟩, ⟨1853046950, 1715⟩, ⟨1858139503, 2218⟩, ⟨1858506285, 1652⟩, ⟨1859334298, 2856⟩, ⟨1859585047, 1028⟩,
  ⟨1860070897, 297⟩, ⟨1860800610, 1988⟩, ⟨1860866707, 9⟩, ⟨1864347592, 821⟩, ⟨1869171129, 1144⟩, ⟨1869959429, 2584⟩, ⟨1870317212, 907⟩,
  ⟨1870780557, 74⟩, ⟨1871030595, 2392⟩, ⟨1872373853, 1335⟩, ⟨1872893845, 1893⟩, ⟨1878146887, 154⟩, ⟨1878788502, 155⟩, ⟨1882269716, 643⟩,
  ⟨1886245779, 777⟩, ⟨1886538363, 326⟩, ⟨1888872964, 1359⟩, ⟨1889195104, 2739⟩, ⟨1890197627, 1104⟩, ⟨1890355237, 495⟩, ⟨1890646143, 607⟩,
  ⟨1891557102, 2135⟩, ⟨1897082690, 2446⟩, ⟨1897940345, 315⟩, ⟨1898265473, 1239⟩, ⟨1900164003, 3⟩, ⟨1902480736, 546⟩, ⟨1909029442, 370⟩,
  ⟨1909502497, 2383⟩, ⟨1909879507, 1533⟩, ⟨1909909416, 200⟩, ⟨1909965902, 815⟩, ⟨1911366521, 863⟩, ⟨1913932259, 1326⟩, ⟨1915296369, 1551⟩,
  ⟨1918921506, 1937⟩, ⟨1919517147, 2471⟩, ⟨1920950618, 730⟩, ⟨1921636792, 1782⟩, ⟨1922512932, 397⟩, ⟨1923484620, 851⟩, ⟨1924568945, 1620⟩,
  ⟨1924689542, 2998⟩, ⟨1924909887, 2597⟩, ⟨1924961279, 430⟩, ⟨1925520450, 2872⟩, ⟨1927588907, 610⟩, ⟨1928028228, 2861⟩, ⟨1928441474, 2863⟩,
  ⟨1928851113, 2404⟩, ⟨1929272862, 2654⟩, ⟨1929392746, 2001⟩, ⟨1930801502, 2132⟩, ⟨1930821599, 987⟩, ⟨1933021071, 1166⟩, ⟨1935269316, 170⟩,
  ⟨1935625715, 2165⟩, ⟨1936328791, 657⟩, ⟨1938337514, 2170⟩, ⟨1939569939, 347⟩, ⟨1941057119, 404⟩, ⟨1942262069, 1111⟩, ⟨1943274173, 95⟩,
  ⟨1943839546, 1275⟩, ⟨1944571856, 569⟩, ⟨1946661140, 765⟩, ⟨1946986094, 2139⟩, ⟨1947024457, 105⟩, ⟨1947760193, 1025⟩, ⟨1949216298, 1848⟩,
  ⟨1949513526, 1377⟩, ⟨1949583674, 2609⟩, ⟨1953032480, 691⟩, ⟨1953461757, 135⟩, ⟨1955219699, 2298⟩, ⟨1955589222, 2233⟩, ⟨1958009273, 2200⟩,
  ⟨1958595477, 889⟩, ⟨1961281920, 772⟩, ⟨1961316167, 2018⟩, ⟨1962487689, 859⟩, ⟨1962942361, 2308⟩, ⟨1964385439, 212⟩, ⟨1966482804, 1294⟩,
  ⟨1967737271, 1152⟩, ⟨1967992916, 948⟩, ⟨1973791638, 1668⟩, ⟨1976283187, 1515⟩, ⟨1976769558, 256⟩, ⟨1979879474, 2808⟩, ⟨1980442212, 2876⟩,
  ⟨1981097704, 1904⟩, ⟨1981868697, 1099⟩, ⟨1983720154, 2237⟩, ⟨1983836950, 1213⟩, ⟨1984324413, 245⟩, ⟨1984414324, 825⟩, ⟨1984443777, 1281⟩,
  ⟨1984988189, 343⟩, ⟨1986293781, 1880⟩, ⟨1989568193, 2805⟩, ⟨1991787062, 1017⟩, ⟨1993196927, 1799⟩, ⟨1993928121, 1313⟩, ⟨1994226584, 1251⟩,
  ⟨1995665291, 2376⟩, ⟨1998514766, 838⟩, ⟨2000943510, 645⟩, ⟨2001600682, 1934⟩, ⟨2001644210, 2605⟩, ⟨2002031771, 72⟩, ⟨2003244456, 1721⟩,
  ⟨2003601598, 830⟩, ⟨2004799992, 58⟩, ⟨2004880736, 313⟩, ⟨2008600294, 450⟩, ⟨2009457468, 2800⟩, ⟨2012012498, 2452⟩, ⟨2012028807, 928⟩,
  ⟨2012916289, 2914⟩, ⟨2013077801, 1076⟩, ⟨2014514382, 674⟩, ⟨2015390680, 977⟩, ⟨2015481111, 409⟩, ⟨2016975084, 2394⟩, ⟨2017462473, 1228⟩,
  ⟨2018053351, 1522⟩, ⟨2021023964, 684⟩, ⟨2022565404, 937⟩, ⟨2023227427, 1532⟩, ⟨2025338773, 2728⟩, ⟨2025453445, 1998⟩, ⟨2026788084, 1070⟩,
  ⟨2030087280, 2905⟩, ⟨2030102119, 2169⟩, ⟨2030475508, 1870⟩, ⟨2037299361, 590⟩, ⟨2040174142, 2900⟩, ⟨2041767077, 2425⟩, ⟨2042257253, 2106⟩,
  ⟨2044499693, 504⟩, ⟨2046553933, 2694⟩, ⟨2047591679, 1455⟩, ⟨2048968419, 2038⟩, ⟨2050779499, 2342⟩, ⟨2054508505, 1983⟩, ⟨2055786145, 2771⟩,
  ⟨2056589262, 1339⟩, ⟨2056979088, 965⟩, ⟨2059391432, 796⟩, ⟨2060968560, 168⟩, ⟨2062922946, 1224⟩, ⟨2063986795, 802⟩, ⟨2064599981, 930⟩,
  ⟨2065408210, 1490⟩, ⟨2065494903, 1692⟩, ⟨2066859208, 2843⟩, ⟨2073784346, 1964⟩, ⟨2076054616, 996⟩, ⟨2076226154, 2612⟩, ⟨2077421121, 899⟩,
  ⟨2078157339, 2698⟩, ⟨2081342571, 592⟩, ⟨2081803953, 1664⟩, ⟨2085822369, 1672⟩, ⟨2089042729, 127⟩, ⟨2095284843, 2882⟩, ⟨2095753041, 2893⟩,
  ⟨2098527963, 145⟩, ⟨2101319199, 736⟩, ⟨2104696898, 503⟩, ⟨2104868813, 1145⟩, ⟨2107057206, 349⟩, ⟨2107170990, 302⟩, ⟨2107576198, 1598⟩,
  ⟨2110330775, 2142⟩, ⟨2115504937, 1310⟩, ⟨2115726810, 1512⟩, ⟨2116250199, 679⟩, ⟨2117006700, 2801⟩, ⟨2117134853, 2141⟩, ⟨2120060977, 526⟩,
  ⟨2123512980, 2560⟩, ⟨2124240299, 2052⟩, ⟨2124288904, 57⟩, ⟨2124870740, 2884⟩, ⟨2126080572, 2312⟩, ⟨2127447863, 1571⟩, ⟨2131478790, 2970⟩,
  ⟨2132523498, 2477⟩, ⟨2132611139, 922⟩, ⟨2132899480, 936⟩, ⟨2133823529, 2717⟩, ⟨2134215493, 1128⟩, ⟨2134801198, 1117⟩, ⟨2134907686, 1743⟩,
  ⟨2134922016, 574⟩, ⟨2135241738, 884⟩, ⟨2136167791, 2098⟩, ⟨2140178620, 2837⟩, ⟨2140273211, 1232⟩, ⟨2141242623, 2028⟩, ⟨2145143457, 1397⟩,
  ⟨2145406131, 1240⟩, ⟨2145715671, 2438⟩, ⟨2147845832, 1567⟩, ⟨2148797802, 59⟩, ⟨2149144764, 2499⟩, ⟨2149286512, 717⟩, ⟨2151350193, 1542⟩,
  ⟨2151861324, 266⟩, ⟨2153022064, 1464⟩, ⟨2153894467, 1354⟩, ⟨2154702504, 1493⟩, ⟨2155082085, 2975⟩, ⟨2156273054, 303⟩, ⟨2159191179, 2345⟩,
  ⟨2159885076, 1413⟩, ⟨2160114316, 2836⟩, ⟨2161469910, 1808⟩, ⟨2161594029, 654⟩, ⟨2162213920, 1816⟩, ⟨2162556029, 1748⟩, ⟨2166488106, 2501⟩,
  ⟨2167168633, 2707⟩, ⟨2170730425, 1928⟩, ⟨2175299795, 739⟩, ⟨2176901824, 833⟩, ⟨2178602958, 1577⟩, ⟨2178960293, 963⟩, ⟨2182674555, 1492⟩,
  ⟨2185844962, 2651⟩, ⟨2186159767, 2892⟩, ⟨2190351404, 394⟩, ⟨2194096613, 2547⟩, ⟨2194189504, 2528⟩, ⟨2194621666, 344⟩, ⟨2195062791, 1783⟩,
  ⟨2195147002, 224⟩, ⟨2195736767, 779⟩, ⟨2198553713, 2913⟩, ⟨2207134672, 1125⟩, ⟨2207139837, 132⟩, ⟨2207405019, 2608⟩, ⟨2207445644, 1854⟩,
  ⟨2208005062, 1098⟩, ⟨2208018199, 1946⟩, ⟨2209197532, 2158⟩, ⟨2209206315, 389⟩, ⟨2209509708, 2144⟩, ⟨2211983760, 2632⟩, ⟨2212687772, 976⟩,
  ⟨2215627854, 1399⟩, ⟨2218512517, 2154⟩, ⟨2220446197, 678⟩, ⟨2221360866, 1536⟩, ⟨2221370140, 938⟩, ⟨2221626351, 376⟩, ⟨2223090137, 720⟩,
  ⟨2224076454, 1669⟩, ⟨2225496365, 2377⟩, ⟨2228171794, 2229⟩, ⟨2228722563, 207⟩, ⟨2230093496, 2813⟩, ⟨2230237776, 776⟩, ⟨2232740695, 2386⟩,
  ⟨2235150708, 853⟩, ⟨2236182323, 333⟩, ⟨2236412398, 584⟩, ⟨2237511170, 403⟩, ⟨2237549434, 161⟩, ⟨2238061003, 1209⟩, ⟨2240164839, 2806⟩,
  ⟨2240770533, 2454⟩, ⟨2240909048, 2496⟩, ⟨2243498566, 285⟩, ⟨2243834552, 1475⟩, ⟨2244094163, 2145⟩, ⟨2244778098, 1712⟩, ⟨2247265753, 1500⟩,
  ⟨2249294957, 759⟩, ⟨2251933438, 2455⟩, ⟨2252726668, 1632⟩, ⟨2254151117, 1510⟩, ⟨2254787849, 1141⟩, ⟨2255104728, 2186⟩, ⟨2256201720, 809⟩,
  ⟨2256909559, 2689⟩, ⟨2257531773, 1973⟩, ⟨2258707328, 1107⟩, ⟨2259217778, 2684⟩, ⟨2259608196, 2423⟩, ⟨2260533401, 697⟩, ⟨2262537122, 1268⟩,
  ⟨2262555823, 2465⟩, ⟨2263500815, 2318⟩, ⟨2265921233, 1614⟩, ⟨2270352439, 1716⟩, ⟨2270550286, 1991⟩, ⟨2270886393, 2574⟩, ⟨2271302254, 119⟩,
  ⟨2271391519, 1086⟩, ⟨2275552768, 1662⟩, ⟨2279002008, 218⟩, ⟨2280936473, 1941⟩, ⟨2281904589, 2877⟩, ⟨2282260105, 2024⟩, ⟨2283091561, 2759⟩,
  ⟨2283861610, 1139⟩, ⟨2287540463, 156⟩, ⟨2287979382, 2561⟩, ⟨2295151760, 446⟩, ⟨2295399118, 2148⟩, ⟨2298620875, 2520⟩, ⟨2298915709, 2351⟩,
  ⟨2302012999, 2346⟩, ⟨2303786227, 734⟩, ⟨2311210030, 2677⟩, ⟨2314457028, 1131⟩, ⟨2314841565, 1912⟩, ⟨2316410139, 24⟩, ⟨2316648884, 887⟩,
  ⟨2318986841, 186⟩, ⟨2319389294, 2076⟩, ⟨2320337766, 649⟩, ⟨2321411364, 1333⟩, ⟨2321659266, 959⟩, ⟨2323594557, 1405⟩, ⟨2324518936, 30⟩,
  ⟨2324670002, 137⟩, ⟨2325650106, 2243⟩, ⟨2326180342, 2268⟩, ⟨2326209528, 2134⟩, ⟨2327521861, 2300⟩, ⟨2327980170, 2055⟩, ⟨2330393738, 1362⟩,
  ⟨2332836446, 1762⟩, ⟨2334229280, 2370⟩, ⟨2337330107, 509⟩, ⟨2337448961, 2398⟩, ⟨2337656957, 130⟩, ⟨2338924545, 390⟩, ⟨2339324000, 2789⟩,
  ⟨2340364008, 2329⟩, ⟨2340824842, 1845⟩, ⟨2341428833, 2966⟩, ⟨2342432585, 1255⟩, ⟨2342526754, 1147⟩, ⟨2344686397, 2211⟩, ⟨2346757749, 52⟩,
  ⟨2347125121, 627⟩, ⟨2350376750, 2450⟩, ⟨2350566159, 2017⟩, ⟨2352468219, 1044⟩, ⟨2353083140, 782⟩, ⟨2355445583, 850⟩, ⟨2355949754, 1191⟩,
  ⟨2358675194, 835⟩, ⟨2358992354, 433⟩, ⟨2359409660, 500⟩, ⟨2359653522, 925⟩, ⟨2360537185, 932⟩, ⟨2361267790, 2513⟩, ⟨2368474228, 1730⟩,
  ⟨2370006623, 1061⟩, ⟨2371206583, 1247⟩, ⟨2372148043, 2043⟩, ⟨2373633345, 1416⟩, ⟨2375181606, 2530⟩, ⟨2375777867, 17⟩, ⟨2380625633, 2592⟩,
  ⟨2382804436, 2803⟩, ⟨2387333651, 2960⟩, ⟨2387760029, 1151⟩, ⟨2388689226, 2505⟩, ⟨2389138670, 2258⟩, ⟨2390557887, 1581⟩, ⟨2391997405, 1586⟩,
  ⟨2392816600, 2567⟩, ⟨2394373443, 1600⟩, ⟨2397918840, 621⟩, ⟨2398665831, 350⟩, ⟨2403507661, 728⟩, ⟨2405343506, 2957⟩, ⟨2406206908, 1809⟩,
  ⟨2407508625, 1182⟩, ⟨2409059606, 1365⟩, ⟨2411176173, 2236⟩, ⟨2411204214, 1927⟩, ⟨2411206305, 1837⟩, ⟨2411209417, 1749⟩, ⟨2412414469, 609⟩,
  ⟨2412922770, 320⟩, ⟨2413243719, 289⟩, ⟨2413544908, 1735⟩, ⟨2414719237, 2466⟩, ⟨2423672361, 268⟩, ⟨2424069619, 122⟩, ⟨2424105863, 2600⟩,
  ⟨2424375107, 407⟩, ⟨2424481274, 2084⟩, ⟨2424609584, 1711⟩, ⟨2427172604, 1513⟩, ⟨2429074481, 204⟩, ⟨2429375967, 2075⟩, ⟨2429509306, 2767⟩,
  ⟨2431333872, 2413⟩, ⟨2433160846, 2867⟩, ⟨2441082760, 1473⟩, ⟨2442327201, 579⟩, ⟨2442816176, 1419⟩, ⟨2443577286, 1580⟩, ⟨2445474785, 1857⟩,
  ⟨2446509672, 1458⟩, ⟨2446786101, 2812⟩, ⟨2448206433, 1915⟩, ⟨2449280670, 517⟩, ⟨2456449973, 2704⟩, ⟨2456898335, 2583⟩, ⟨2458857437, 785⟩,
  ⟨2459100210, 2265⟩, ⟨2461363367, 1466⟩, ⟨2466004371, 2860⟩, ⟨2467223141, 150⟩, ⟨2469278897, 1302⟩, ⟨2470188680, 534⟩, ⟨2470843379, 716⟩,
  ⟨2471918007, 1975⟩, ⟨2474626565, 868⟩, ⟨2476998209, 747⟩, ⟨2477036611, 1615⟩, ⟨2477184853, 1262⟩, ⟨2477706469, 1607⟩, ⟨2478226922, 2674⟩,
  ⟨2481686207, 1889⟩, ⟨2485305378, 2848⟩, ⟨2486296368, 242⟩, ⟨2490148713, 1871⟩, ⟨2491322940, 10⟩, ⟨2494893360, 1425⟩, ⟨2495288021, 1687⟩,
  ⟨2495840576, 1951⟩, ⟨2496525824, 2997⟩, ⟨2498317986, 2602⟩, ⟨2500698998, 2564⟩, ⟨2503991056, 523⟩, ⟨2505069158, 843⟩, ⟨2508554487, 511⟩,
  ⟨2510252073, 1136⟩, ⟨2511579905, 1206⟩, ⟨2513605740, 2709⟩, ⟨2514389211, 2468⟩, ⟨2521351228, 1155⟩, ⟨2524724448, 379⟩, ⟨2524928791, 2790⟩,
  ⟨2525150984, 426⟩, ⟨2525564193, 2058⟩, ⟨2528621429, 2781⟩, ⟨2528847269, 1978⟩, ⟨2529451800, 385⟩, ⟨2529631786, 2746⟩, ⟨2529868586, 767⟩,
  ⟨2530059233, 1805⟩, ⟨2531798387, 558⟩, ⟨2533609747, 1257⟩, ⟨2533652823, 1626⟩, ⟨2534366895, 1835⟩, ⟨2535699314, 2085⟩, ⟨2537518592, 432⟩,
  ⟨2537913823, 861⟩, ⟨2538003767, 1538⟩, ⟨2539172835, 1113⟩, ⟨2540216626, 318⟩, ⟨2540482101, 1970⟩, ⟨2541521099, 2063⟩, ⟨2541660873, 1127⟩,
  ⟨2542625816, 2283⟩, ⟨2543790296, 847⟩, ⟨2546222661, 1910⟩, ⟨2546254620, 1514⟩, ⟨2546784114, 854⟩, ⟨2548411387, 1057⟩, ⟨2550413676, 2727⟩,
  ⟨2550416635, 1751⟩, ⟨2551121381, 2279⟩, ⟨2554496439, 2967⟩, ⟨2554862237, 45⟩, ⟨2555306279, 1757⟩, ⟨2557915948, 1200⟩, ⟨2558611723, 947⟩,
  ⟨2559191723, 531⟩, ⟨2559758090, 1861⟩, ⟨2562083116, 1633⟩, ⟨2562255708, 1654⟩, ⟨2563700868, 911⟩, ⟨2565260504, 2766⟩, ⟨2567781712, 751⟩,
  ⟨2572809858, 71⟩, ⟨2573318868, 1172⟩, ⟨2576222772, 1374⟩, ⟨2578732626, 1855⟩, ⟨2579333648, 1949⟩, ⟨2582261694, 1435⟩, ⟨2584248078, 1238⟩,
  ⟨2586556097, 1491⟩, ⟨2587378388, 2532⟩, ⟨2589455345, 920⟩, ⟨2590374961, 2117⟩, ⟨2590501569, 2846⟩, ⟨2592917782, 1892⟩, ⟨2594503604, 2463⟩,
  ⟨2595425209, 1211⟩, ⟨2597252643, 1360⟩, ⟨2598128617, 870⟩, ⟨2598246646, 2410⟩, ⟨2599605433, 2760⟩, ⟨2605822726, 152⟩, ⟨2606783580, 41⟩,
  ⟨2610106658, 1384⟩, ⟨2612317222, 714⟩, ⟨2612683800, 497⟩, ⟨2615377648, 2168⟩, ⟨2615476547, 2623⟩, ⟨2616114513, 2845⟩, ⟨2618496412, 2029⟩,
  ⟨2619279381, 961⟩, ⟨2619300430, 1270⟩, ⟨2620828346, 929⟩, ⟨2621230453, 1793⟩, ⟨2621683481, 1761⟩, ⟨2623067799, 2027⟩, ⟨2623339053, 1788⟩,
  ⟨2625754361, 2105⟩, ⟨2626550520, 1087⟩, ⟨2628863760, 718⟩, ⟨2629448425, 1638⟩, ⟨2629649464, 1443⟩, ⟨2630184023, 533⟩, ⟨2630925477, 1146⟩,
  ⟨2631657627, 2776⟩, ⟨2631764838, 2475⟩, ⟨2632367840, 787⟩, ⟨2634787722, 462⟩, ⟨2638910882, 2762⟩, ⟨2639189817, 1444⟩, ⟨2640931557, 417⟩,
  ⟨2641151929, 2804⟩, ⟨2641676037, 64⟩, ⟨2642274440, 1851⟩, ⟨2642453516, 702⟩, ⟨2650486772, 613⟩, ⟨2653492313, 1828⟩, ⟨2655228411, 2700⟩,
  ⟨2655556189, 2281⟩, ⟨2656293664, 1649⟩, ⟨2657527183, 725⟩, ⟨2657682492, 2118⟩, ⟨2658514415, 2737⟩, ⟨2659600641, 2711⟩, ⟨2660094966, 753⟩,
  ⟨2661291499, 760⟩, ⟨2662009376, 2039⟩, ⟨2663214384, 306⟩, ⟨2664724110, 2644⟩, ⟨2664793479, 902⟩, ⟨2665822590, 2906⟩, ⟨2665929734, 491⟩,
  ⟨2666540186, 653⟩, ⟨2667730012, 1429⟩, ⟨2668451142, 1885⟩, ⟨2671697237, 2831⟩, ⟨2674873152, 2578⟩, ⟨2676415350, 378⟩, ⟨2681294082, 221⟩,
  ⟨2683453241, 2741⟩, ⟨2683762425, 2460⟩, ⟨2685071211, 817⟩, ⟨2687851125, 452⟩, ⟨2687903080, 2314⟩, ⟨2689128957, 1913⟩, ⟨2691293771, 840⟩,
  ⟨2696139064, 86⟩, ⟨2696190844, 2835⟩, ⟨2696270398, 56⟩, ⟨2698520260, 2181⟩, ⟨2698522097, 2091⟩, ⟨2700438180, 2397⟩, ⟨2702823864, 384⟩,
  ⟨2704382277, 978⟩, ⟨2704996057, 1345⟩, ⟨2705073623, 1278⟩, ⟨2706586747, 146⟩, ⟨2708607992, 950⟩, ⟨2708678172, 428⟩, ⟨2710501764, 1936⟩,
  ⟨2712288092, 671⟩, ⟨2713009438, 822⟩, ⟨2713117928, 317⟩, ⟨2713623975, 2842⟩, ⟨2714515229, 2695⟩, ⟨2714831952, 792⟩, ⟨2715842415, 1963⟩,
  ⟨2717093045, 2178⟩, ⟨2720685498, 2945⟩, ⟨2721064701, 941⟩, ⟨2721333427, 537⟩, ⟨2723827121, 1908⟩, ⟨2723998831, 1231⟩, ⟨2725248704, 1407⟩,
  ⟨2725269561, 984⟩, ⟨2725600878, 2761⟩, ⟨2727330971, 519⟩, ⟨2729028733, 567⟩, ⟨2729393949, 2066⟩, ⟨2729915157, 2041⟩, ⟨2734391510, 2662⟩,
  ⟨2734914224, 855⟩, ⟨2736669605, 2747⟩, ⟨2738458597, 890⟩, ⟨2738574136, 1734⟩, ⟨2738918856, 1541⟩, ⟨2740232423, 1496⟩, ⟨2740323874, 1920⟩,
  ⟨2740845172, 2166⟩, ⟨2742101426, 2054⟩, ⟨2742792171, 1080⟩, ⟨2742973445, 1204⟩, ⟨2743285101, 2879⟩, ⟨2744051096, 2976⟩, ⟨2744939962, 1705⟩,
  ⟨2746198540, 1935⟩, ⟨2746649681, 2978⟩, ⟨2747106103, 1986⟩, ⟨2748236354, 2750⟩, ⟨2748272302, 1050⟩, ⟨2750714340, 80⟩, ⟨2753603966, 521⟩,
  ⟨2758377969, 395⟩, ⟨2759907123, 2586⟩, ⟨2761429299, 2093⟩, ⟨2762881021, 2833⟩, ⟨2764019816, 1673⟩, ⟨2764176798, 1244⟩, ⟨2765235477, 2816⟩,
  ⟨2768165413, 2459⟩, ⟨2768809992, 712⟩, ⟨2769799155, 2994⟩, ⟨2770780421, 1323⟩, ⟨2771687226, 2661⟩, ⟨2772658397, 641⟩, ⟨2779205622, 2498⟩,
  ⟨2780950222, 2248⟩, ⟨2783694304, 1764⟩, ⟨2783776568, 1417⟩, ⟨2785531618, 1742⟩, ⟨2787085110, 2968⟩, ⟨2790809118, 2931⟩, ⟨2790963042, 2974⟩,
  ⟨2791036704, 1448⟩, ⟨2792497282, 1036⟩, ⟨2794298326, 849⟩, ⟨2795345260, 1602⟩, ⟨2795713093, 473⟩, ⟨2798939329, 38⟩, ⟨2799066246, 2372⟩,
  ⟨2799785451, 1283⟩, ⟨2800010312, 346⟩, ⟨2802352481, 1082⟩, ⟨2802657774, 1366⟩, ⟨2804637414, 1195⟩, ⟨2805225170, 2303⟩, ⟨2806277455, 1328⟩,
  ⟨2807645066, 1445⟩, ⟨2808992570, 992⟩, ⟨2809546972, 1476⟩, ⟨2810622673, 2972⟩, ⟨2810898371, 2660⟩, ⟨2811248768, 1420⟩, ⟨2813664675, 661⟩,
  ⟨2815050672, 2822⟩, ⟨2815737253, 2648⟩, ⟨2816894239, 2721⟩, ⟨2818671534, 1546⟩, ⟨2819506444, 2929⟩, ⟨2821551247, 14⟩, ⟨2821619863, 2653⟩,
  ⟨2821820667, 2325⟩, ⟨2821986574, 1879⟩, ⟨2823090079, 1550⟩, ⟨2824163404, 2692⟩, ⟨2824821795, 2857⟩, ⟨2825203179, 1005⟩, ⟨2825209403, 2180⟩,
  ⟨2826689863, 2643⟩, ⟨2828100093, 764⟩, ⟨2828925738, 2568⟩, ⟨2829374438, 1511⟩, ⟨2830181627, 1696⟩, ⟨2831252852, 1363⟩, ⟨2832564616, 480⟩,
  ⟨2834213847, 1987⟩, ⟨2834981672, 2192⟩, ⟨2838215866, 1004⟩, ⟨2838527847, 311⟩, ⟨2842721203, 562⟩, ⟨2844254925, 742⟩, ⟨2845036315, 1547⟩,
  ⟨2845607968, 259⟩, ⟨2845736940, 2421⟩, ⟨2847250209, 593⟩, ⟨2848370772, 1469⟩, ⟨2849560003, 1671⟩, ⟨2849731790, 248⟩, ⟨2854715082, 642⟩,
  ⟨2857037614, 251⟩, ⟨2857847506, 2512⟩, ⟨2859916595, 62⟩, ⟨2861858850, 1236⟩, ⟨2861945524, 628⟩, ⟨2862948360, 309⟩, ⟨2864546818, 1215⟩,
  ⟨2866458216, 2722⟩, ⟨2866668114, 510⟩, ⟨2868462887, 2190⟩, ⟨2871964176, 2131⟩, ⟨2873315647, 1942⟩, ⟨2876737866, 2040⟩, ⟨2880512801, 1055⟩,
  ⟨2885886674, 1414⟩, ⟨2885970278, 2595⟩, ⟨2887839587, 2889⟩, ⟨2888895313, 2631⟩, ⟨2889596836, 553⟩, ⟨2897366169, 2388⟩, ⟨2897812459, 1267⟩,
  ⟨2900496974, 2363⟩, ⟨2900521543, 2159⟩, ⟨2901936532, 588⟩, ⟨2902270477, 1507⟩, ⟨2903176816, 444⟩, ⟨2903552213, 1724⟩, ⟨2904662800, 2097⟩,
  ⟨2904985896, 88⟩, ⟨2905403445, 529⟩, ⟨2908438321, 2819⟩, ⟨2909433713, 334⟩, ⟨2910362823, 1433⟩, ⟨2910725895, 2688⟩, ⟨2910954368, 2138⟩,
  ⟨2911742143, 2246⟩, ⟨2912238079, 139⟩, ⟨2913027397, 1398⟩, ⟨2915879066, 1451⟩, ⟨2916787681, 2797⟩, ⟨2916981873, 1976⟩, ⟨2918099488, 323⟩,
  ⟨2918823793, 1683⟩, ⟨2920175307, 774⟩, ⟨2922028561, 1723⟩, ⟨2923922911, 829⟩, ⟨2924340097, 798⟩, ⟨2928711668, 885⟩, ⟨2929254579, 2048⟩,
  ⟨2932641282, 235⟩, ⟨2932721239, 2330⟩, ⟨2933974753, 1120⟩, ⟨2936818433, 2948⟩, ⟨2936987956, 1222⟩, ⟨2937521906, 341⟩, ⟨2938211128, 1183⟩,
  ⟨2938536793, 1320⟩, ⟨2939917021, 63⟩, ⟨2940593635, 2071⟩, ⟨2942114668, 1958⟩, ⟨2942562225, 2526⟩, ⟨2944809220, 581⟩, ⟨2945500005, 2331⟩,
  ⟨2946908884, 2941⟩, ⟨2948573134, 2171⟩, ⟨2949385056, 1907⟩, ⟨2950656908, 2378⟩, ⟨2951131496, 141⟩, ⟨2951391253, 1192⟩, ⟨2954121055, 669⟩,
  ⟨2954650607, 1392⟩, ⟨2955267803, 1905⟩, ⟨2960662070, 3001⟩, ⟨2966079528, 2756⟩, ⟨2968452754, 2212⟩, ⟨2973709755, 239⟩, ⟨2978254841, 1891⟩,
  ⟨2979540373, 3003⟩, ⟨2984793017, 91⟩, ⟨2986067294, 2702⟩, ⟨2986208818, 839⟩, ⟨2986693433, 2035⟩, ⟨2986925105, 422⟩, ⟨2988559636, 2947⟩,
  ⟨2989308402, 995⟩, ⟨2989606164, 1250⟩, ⟨2989693419, 1960⟩, ⟨2990136033, 412⟩, ⟨2990711047, 486⟩, ⟨2991410806, 338⟩, ⟨2993162347, 754⟩,
  ⟨2995003627, 2744⟩, ⟨2997249983, 1568⟩, ⟨2997483301, 2934⟩, ⟨2998939428, 1875⟩, ⟨3001681602, 1426⟩, ⟨3007010126, 2634⟩, ⟨3007580543, 1916⟩,
  ⟨3007818128, 1645⟩, ⟨3008281673, 2823⟩, ⟨3008324024, 2590⟩, ⟨3009032742, 2191⟩, ⟨3010447729, 544⟩, ⟨3014564064, 8⟩, ⟨3014759939, 906⟩,
  ⟨3016741621, 1021⟩, ⟨3017197723, 2182⟩, ⟨3017811538, 2352⟩, ⟨3020919073, 1048⟩, ⟨3022772674, 1776⟩, ⟨3027390299, 706⟩, ⟨3027908204, 1174⟩,
  ⟨3028255134, 2865⟩, ⟨3028525778, 2399⟩, ⟨3029482648, 2503⟩, ⟨3029952465, 1386⟩, ⟨3030008994, 352⟩, ⟨3031679190, 2116⟩, ⟨3033530435, 1259⟩,
  ⟨3034543949, 820⟩, ⟨3036321716, 331⟩, ⟨3036551006, 2406⟩, ⟨3037461933, 595⟩, ⟨3037870653, 2113⟩, ⟨3038457961, 2432⟩, ⟨3038673357, 2064⟩,
  ⟨3042358670, 731⟩, ⟨3042658128, 1143⟩, ⟨3042772952, 2080⟩, ⟨3043896963, 2260⟩, ⟨3047515510, 2334⟩, ⟨3047800262, 1336⟩, ⟨3048420534, 2549⟩,
  ⟨3050408054, 1591⟩, ⟨3051512272, 1582⟩, ⟨3053278466, 149⟩, ⟨3053831625, 656⟩, ⟨3054198277, 2231⟩, ⟨3058232353, 1539⟩, ⟨3059017726, 556⟩,
  ⟨3062050742, 1763⟩, ⟨3062743792, 2887⟩, ⟨3063089951, 2874⟩, ⟨3064149519, 2051⟩, ⟨3064188729, 258⟩, ⟨3066765711, 1684⟩, ⟨3067139220, 638⟩,
  ⟨3068549916, 2347⟩, ⟨3070927367, 69⟩, ⟨3072587511, 2738⟩, ⟨3073521644, 2614⟩, ⟨3076553399, 1109⟩, ⟨3076736790, 826⟩, ⟨3077276171, 514⟩,
  ⟨3077873453, 2594⟩, ⟨3079104698, 2778⟩, ⟨3082069212, 572⟩, ⟨3082463362, 1292⟩, ⟨3082840981, 2082⟩, ⟨3082873926, 37⟩, ⟨3082998945, 1196⟩,
  ⟨3086557091, 77⟩, ⟨3087194031, 2014⟩, ⟨3087732505, 1868⟩, ⟨3090621988, 2742⟩, ⟨3090752829, 163⟩, ⟨3092582461, 552⟩, ⟨3099266190, 2210⟩,
  ⟨3099399062, 2706⟩, ⟨3102838736, 1853⟩, ⟨3103021045, 2074⟩, ⟨3104449777, 663⟩, ⟨3109409547, 1756⟩, ⟨3109747959, 2745⟩, ⟨3109768120, 810⟩,
  ⟨3109964287, 215⟩, ⟨3111278101, 305⟩, ⟨3111732757, 2007⟩, ⟨3111909204, 1202⟩, ⟨3113994183, 583⟩, ⟨3115385762, 2617⟩, ⟨3118012207, 202⟩,
  ⟨3125093497, 1149⟩, ⟨3126488284, 1100⟩, ⟨3128141731, 1009⟩, ⟨3128954828, 1154⟩, ⟨3129676367, 106⟩, ⟨3131170097, 3002⟩, ⟨3131352283, 576⟩,
  ⟨3135587775, 2548⟩, ⟨3136503962, 2177⟩, ⟨3139136439, 2322⟩, ⟨3140006299, 2516⟩, ⟨3140630538, 940⟩, ⟨3141476326, 2257⟩, ⟨3141863828, 2544⟩,
  ⟨3144914561, 2285⟩, ⟨3145316293, 1188⟩, ⟨3148499533, 36⟩, ⟨3153498051, 464⟩, ⟨3153941792, 1457⟩, ⟨3154022548, 538⟩, ⟨3154144003, 2504⟩,
  ⟨3156214884, 614⟩, ⟨3156510323, 761⟩, ⟨3158256381, 1738⟩, ⟨3159097361, 766⟩, ⟨3160153034, 1364⟩, ⟨3160210370, 999⟩, ⟨3163340984, 1811⟩,
  ⟨3166133328, 295⟩, ⟨3168612274, 1053⟩, ⟨3169733494, 252⟩, ⟨3170760614, 1347⟩, ⟨3171967857, 1019⟩, ⟨3172515353, 1739⟩, ⟨3172873397, 1171⟩,
  ⟨3173018716, 1661⟩, ⟨3179477045, 401⟩, ⟨3179783638, 465⟩, ⟨3180231099, 846⟩, ⟨3183040175, 2026⟩, ⟨3186562317, 1349⟩, ⟨3188154933, 296⟩,
  ⟨3188221475, 2939⟩, ⟨3188385624, 832⟩, ⟨3189302290, 2324⟩, ⟨3190394832, 836⟩, ⟨3191019872, 2926⟩, ⟨3192287789, 2809⟩, ⟨3192330235, 1989⟩,
  ⟨3195126069, 1441⟩, ⟨3198143247, 368⟩, ⟨3199561796, 2006⟩, ⟨3201955259, 2849⟩, ⟨3202649035, 1071⟩, ⟨3205214821, 2005⟩, ⟨3205236116, 655⟩,
  ⟨3207249479, 2216⟩, ⟨3207427544, 2755⟩, ⟨3207514136, 263⟩, ⟨3209603797, 1026⟩, ⟨3213789217, 461⟩, ⟨3214591394, 564⟩, ⟨3215567543, 1049⟩,
  ⟨3216206173, 2481⟩, ⟨3217620253, 616⟩, ⟨3218104959, 1014⟩, ⟨3220186713, 620⟩, ⟨3220341483, 1219⟩, ⟨3220729334, 2207⟩, ⟨3223158744, 771⟩,
  ⟨3224430881, 677⟩, ⟨3226549630, 2676⟩, ⟨3228280662, 327⟩, ⟨3228761662, 874⟩, ⟨3229048101, 2758⟩, ⟨3229265996, 2935⟩, ⟨3232848860, 964⟩,
  ⟨3233646961, 2545⟩, ⟨3234111569, 2572⟩, ⟨3238820925, 746⟩, ⟨3239462918, 1609⟩, ⟨3239949952, 2641⟩, ⟨3240210172, 1883⟩, ⟨3240367935, 2266⟩,
  ⟨3240563531, 1446⟩, ⟨3241298945, 2273⟩, ⟨3251053566, 66⟩, ⟨3251186157, 1304⟩, ⟨3251492747, 973⟩, ⟨3252854433, 2971⟩, ⟨3256739906, 1077⟩,
  ⟨3257706746, 339⟩, ⟨3258296823, 188⟩, ⟨3258310891, 2851⟩, ⟨3259028716, 360⟩, ⟨3259971793, 2206⟩, ⟨3263853995, 1193⟩, ⟨3264522923, 2621⟩,
  ⟨3266453653, 1980⟩, ⟨3266860452, 1573⟩, ⟨3267420740, 2033⟩, ⟨3267566067, 1403⟩, ⟨3267617277, 2428⟩, ⟨3267868914, 1227⟩, ⟨3270797105, 2665⟩,
  ⟨3271116524, 750⟩, ⟨3274559206, 755⟩, ⟨3276478535, 2958⟩, ⟨3276840495, 2094⟩, ⟨3279234055, 1159⟩, ⟨3280444264, 807⟩, ⟨3282659867, 858⟩,
  ⟨3282926844, 1287⟩, ⟨3283179407, 543⟩, ⟨3285126003, 2483⟩, ⟨3285569244, 2059⟩, ⟨3286473102, 2337⟩, ⟨3287615195, 2157⟩, ⟨3287626822, 2769⟩,
  ⟨3288613700, 1012⟩, ⟨3289034878, 2358⟩, ⟨3291253879, 78⟩, ⟨3292670881, 2458⟩, ⟨3292748350, 2598⟩, ⟨3293263595, 2610⟩, ⟨3296794085, 1260⟩,
  ⟨3298490147, 1173⟩, ⟨3299376761, 367⟩, ⟨3304175007, 2780⟩, ⟨3304904430, 956⟩, ⟨3305688717, 12⟩, ⟨3306950984, 1624⟩, ⟨3306977068, 93⟩,
  ⟨3307038110, 2523⟩, ⟨3308600970, 1695⟩, ⟨3309506812, 1847⟩, ⟨3311244578, 1150⟩, ⟨3314955649, 2184⟩, ⟨3316208128, 1199⟩, ⟨3316312126, 65⟩,
  ⟨3316945920, 195⟩, ⟨3318198064, 1483⟩, ⟨3320862522, 26⟩, ⟨3322470655, 1572⟩, ⟨3323717757, 522⟩, ⟨3325206439, 425⟩, ⟨3327273772, 2751⟩,
  ⟨3327752240, 466⟩, ⟨3329352310, 2474⟩, ⟨3330562413, 2350⟩, ⟨3333920459, 2821⟩, ⟨3334300320, 708⟩, ⟨3337796464, 1296⟩, ⟨3341150473, 1480⟩,
  ⟨3342066046, 2239⟩, ⟨3343482350, 793⟩, ⟨3343891397, 2353⟩, ⟨3344670369, 800⟩, ⟨3344906368, 2252⟩, ⟨3346816563, 175⟩, ⟨3349237478, 364⟩,
  ⟨3350862116, 1561⟩, ⟨3351237960, 591⟩, ⟨3353071734, 1118⟩, ⟨3354812269, 2179⟩, ⟨3354843266, 1233⟩, ⟨3357765830, 1688⟩, ⟨3359319828, 134⟩,
  ⟨3359518457, 61⟩, ⟨3359536579, 1300⟩, ⟨3359912599, 2032⟩, ⟨3360526201, 1961⟩, ⟨3361807030, 2338⟩, ⟨3362020888, 102⟩, ⟨3370609542, 1648⟩,
  ⟨3370876698, 1406⟩, ⟨3372909598, 1944⟩, ⟨3375002744, 2099⟩, ⟨3375038284, 2871⟩, ⟨3375320363, 2405⟩, ⟨3375708634, 1352⟩, ⟨3376046052, 1890⟩,
  ⟨3378165331, 733⟩, ⟨3380485833, 1430⟩, ⟨3381095218, 75⟩, ⟨3382123096, 651⟩, ⟨3382905337, 358⟩, ⟨3384796930, 434⟩, ⟨3386076074, 631⟩,
  ⟨3387007743, 1981⟩, ⟨3387904879, 2587⟩, ⟨3388835177, 2920⟩, ⟨3390271220, 2743⟩, ⟨3393924474, 1767⟩, ⟨3394666332, 2629⟩, ⟨3394753165, 1878⟩,
  ⟨3395084433, 1588⟩, ⟨3395341084, 2686⟩, ⟨3400130647, 1921⟩, ⟨3402609684, 568⟩, ⟨3402625782, 2881⟩, ⟨3403143574, 1621⟩, ⟨3403273600, 603⟩,
  ⟨3403313619, 2202⟩, ⟨3404678253, 1234⟩, ⟨3404877821, 1720⟩, ⟨3406622021, 2461⟩, ⟨3409509040, 1562⟩, ⟨3409571406, 1795⟩, ⟨3409948043, 1395⟩,
  ⟨3410265744, 1029⟩, ⟨3411907282, 989⟩, ⟨3412437577, 2317⟩, ⟨3413382841, 279⟩, ⟨3414310059, 813⟩, ⟨3415388333, 2440⟩, ⟨3416119790, 2261⟩,
  ⟨3416485531, 769⟩, ⟨3417724698, 985⟩, ⟨3420163551, 1948⟩, ⟨3420594978, 955⟩, ⟨3421415768, 1901⟩, ⟨3423004068, 1617⟩, ⟨3425423710, 1605⟩,
  ⟨3425693195, 2396⟩, ⟨3428289379, 2618⟩, ⟨3429241087, 2680⟩, ⟨3442211320, 460⟩, ⟨3442734432, 1423⟩, ⟨3445710238, 1639⟩, ⟨3446109969, 680⟩,
  ⟨3446547956, 435⟩, ⟨3446568498, 2570⟩, ⟨3447286364, 1380⟩, ⟨3448260144, 2204⟩, ⟨3449292130, 2195⟩, ⟨3450347869, 2628⟩, ⟨3450517619, 2244⟩,
  ⟨3451856326, 2176⟩, ⟨3453484173, 1950⟩, ⟨3454137502, 2199⟩, ⟨3459153174, 894⟩, ⟨3459492473, 1690⟩, ⟨3462207860, 819⟩, ⟨3462946386, 573⟩,
  ⟨3463312461, 1388⟩, ⟨3463565964, 2401⟩, ⟨3464881574, 1675⟩, ⟨3467078556, 722⟩, ⟨3467763626, 2089⟩, ⟨3468059612, 1402⟩, ⟨3468321666, 32⟩,
  ⟨3469261181, 1616⟩, ⟨3469492608, 1902⟩, ⟨3469861900, 2955⟩, ⟨3472966508, 1884⟩, ⟨3474229804, 914⟩, ⟨3474914234, 2729⟩, ⟨3475097853, 1350⟩,
  ⟨3476987746, 2130⟩, ⟨3478129397, 380⟩, ⟨3479880387, 451⟩, ⟨3480897152, 2409⟩, ⟨3483320129, 2276⟩, ⟨3484941330, 2685⟩, ⟨3486231638, 2155⟩,
  ⟨3486631155, 2563⟩, ⟨3489364860, 1230⟩, ⟨3491409210, 226⟩, ⟨3492457272, 1643⟩, ⟨3492664289, 2393⟩, ⟨3493130533, 420⟩, ⟨3499674786, 489⟩,
  ⟨3500020459, 639⟩, ⟨3500777021, 73⟩, ⟨3501048210, 1866⟩, ⟨3501132950, 2274⟩, ⟨3504295635, 1421⟩, ⟨3504683716, 2522⟩, ⟨3505536598, 2627⟩,
  ⟨3506030170, 1089⟩, ⟨3509397208, 954⟩, ⟨3510118428, 492⟩, ⟨3511676343, 2320⟩, ⟨3511686329, 2162⟩, ⟨3512180622, 1033⟩, ⟨3514734013, 1906⟩,
  ⟨3516712946, 445⟩, ⟨3517110057, 2601⟩, ⟨3517162625, 2764⟩, ⟨3517599859, 748⟩, ⟨3518879733, 540⟩, ⟨3518970370, 602⟩, ⟨3519626606, 2824⟩,
  ⟨3520808488, 1489⟩, ⟨3521036699, 993⟩, ⟨3527437209, 1293⟩, ⟨3527609079, 2391⟩, ⟨3529699010, 2825⟩, ⟨3530101386, 1408⟩, ⟨3532190373, 1779⟩,
  ⟨3532383225, 1497⟩, ⟨3534994887, 2904⟩, ⟨3539820781, 1537⟩, ⟨3544175149, 2650⟩, ⟨3546953312, 19⟩, ⟨3547884487, 2293⟩, ⟨3547976915, 2235⟩,
  ⟨3548659888, 541⟩, ⟨3550043901, 2517⟩, ⟨3550622375, 664⟩, ⟨3552090537, 1753⟩, ⟨3552735503, 1824⟩, ⟨3552794984, 1486⟩, ⟨3552932833, 1330⟩,
  ⟨3555352274, 1324⟩, ⟨3557640853, 2925⟩, ⟨3558042391, 1972⟩, ⟨3558259271, 7⟩, ⟨3559028687, 775⟩, ⟨3559913142, 2380⟩, ⟨3560088349, 1090⟩,
  ⟨3560520312, 2714⟩, ⟨3560683952, 1832⟩, ⟨3561533694, 382⟩, ⟨3562574461, 848⟩, ⟨3568046287, 1836⟩, ⟨3568148538, 2606⟩, ⟨3568844249, 281⟩,
  ⟨3569611110, 371⟩, ⟨3570752873, 2183⟩, ⟨3573563759, 2779⟩, ⟨3577441945, 31⟩, ⟨3579500090, 2924⟩, ⟨3581715091, 1095⟩, ⟨3581745079, 2125⟩,
  ⟨3582373833, 2225⟩, ⟨3584141471, 971⟩, ⟨3585166717, 1746⟩, ⟨3589491124, 1994⟩, ⟨3596166732, 1194⟩, ⟨3599259754, 862⟩, ⟨3600625965, 2693⟩,
  ⟨3601340036, 2188⟩, ⟨3602200504, 167⟩, ⟨3602732580, 1555⟩, ⟨3602846595, 1344⟩, ⟨3603354719, 1123⟩, ⟨3603949480, 2492⟩, ⟨3603997346, 699⟩,
  ⟨3605072939, 1846⟩, ⟨3605974584, 988⟩, ⟨3607510384, 2965⟩, ⟨3607571301, 387⟩, ⟨3609653696, 399⟩, ⟨3610248049, 1818⟩, ⟨3612110937, 1024⟩,
  ⟨3613551577, 2011⟩, ⟨3613844267, 1165⟩, ⟨3614471024, 560⟩, ⟨3615892864, 1474⟩, ⟨3616752044, 660⟩, ⟨3618764760, 1263⟩, ⟨3620581189, 2437⟩,
  ⟨3623179274, 596⟩, ⟨3623609476, 2457⟩, ⟨3623806527, 2356⟩, ⟨3624808951, 696⟩, ⟨3625391910, 2624⟩, ⟨3638869017, 2414⟩, ⟨3639119497, 2146⟩,
  ⟨3640946200, 211⟩, ⟨3642330357, 980⟩, ⟨3642551664, 206⟩, ⟨3642839171, 243⟩, ⟨3644064821, 377⟩, ⟨3644985461, 1372⟩, ⟨3645588132, 2637⟩,
  ⟨3645636901, 2255⟩, ⟨3646108639, 784⟩, ⟨3646136314, 2224⟩, ⟨3646225298, 1467⟩, ⟨3649028799, 1938⟩, ⟨3651273919, 958⟩, ⟨3652557619, 1959⟩,
  ⟨3652707512, 272⟩, ⟨3654839648, 2642⟩, ⟨3654863617, 453⟩, ⟨3656082509, 1091⟩, ⟨3657340227, 2940⟩, ⟨3657520488, 2734⟩, ⟨3657943184, 524⟩,
  ⟨3661178797, 353⟩, ⟨3662459880, 693⟩, ⟨3664180271, 2270⟩, ⟨3664664779, 1996⟩, ⟨3664755622, 410⟩, ⟨3666712628, 1216⟩, ⟨3666820326, 1032⟩,
  ⟨3669432129, 1130⟩, ⟨3670092941, 2829⟩, ⟨3670118896, 2671⟩, ⟨3674399460, 328⟩, ⟨3675981556, 1785⟩, ⟨3677423313, 1747⟩, ⟨3678622290, 2552⟩,
  ⟨3679028623, 1437⟩, ⟨3679578012, 129⟩, ⟨3679788317, 2519⟩, ⟨3680866503, 842⟩, ⟨3681984268, 2635⟩, ⟨3682142532, 2773⟩, ⟨3683777403, 1369⟩,
  ⟨3684955478, 2490⟩, ⟨3686121733, 257⟩, ⟨3686300442, 1731⟩, ⟨3686420374, 1297⟩, ⟨3688904138, 1041⟩, ⟨3688983120, 598⟩, ⟨3691080663, 1007⟩,
  ⟨3691349900, 934⟩, ⟨3693774878, 276⟩, ⟨3698994170, 1037⟩, ⟨3701258036, 2275⟩, ⟨3701711715, 2908⟩, ⟨3702188421, 878⟩, ⟨3706489751, 101⟩,
  ⟨3706537037, 2675⟩, ⟨3708806745, 2580⟩, ⟨3712321831, 53⟩, ⟨3713068696, 1501⟩, ⟨3713159789, 288⟩, ⟨3713707450, 1745⟩, ⟨3715277535, 1274⟩,
  ⟨3716798019, 2541⟩, ⟨3717051867, 1161⟩, ⟨3717486797, 1258⟩, ⟨3718682633, 1939⟩, ⟨3719170094, 2056⟩, ⟨3720141794, 594⟩, ⟨3720169020, 1521⟩,
  ⟨3721733414, 18⟩, ⟨3722525929, 2619⟩, ⟨3724232673, 232⟩, ⟨3724555649, 1252⟩, ⟨3726611838, 869⟩, ⟨3727032328, 383⟩, ⟨3727262942, 1697⟩,
  ⟨3728695184, 1642⟩, ⟨3729914800, 1663⟩, ⟨3737315811, 2909⟩, ⟨3737599197, 423⟩, ⟨3738342258, 2288⟩, ⟨3739003735, 1013⟩, ⟨3739433881, 1800⟩,
  ⟨3740634424, 1814⟩, ⟨3741561114, 148⟩, ⟨3744747706, 2670⟩, ⟨3746363866, 2485⟩, ⟨3746555271, 184⟩, ⟨3750131082, 2757⟩, ⟨3751108387, 1108⟩,
  ⟨3752285546, 513⟩, ⟨3752346117, 2973⟩, ⟨3756293774, 308⟩, ⟨3756536127, 507⟩, ⟨3757577004, 310⟩, ⟨3758344269, 2918⟩, ⟨3762007698, 1379⟩,
  ⟨3763090233, 2696⟩, ⟨3764539432, 1286⟩, ⟨3764922494, 2197⟩, ⟨3766242075, 1834⟩, ⟨3766894110, 373⟩, ⟨3766957149, 1636⟩, ⟨3767667615, 1133⟩,
  ⟨3767765413, 723⟩, ⟨3772491558, 1554⟩, ⟨3772907291, 2996⟩, ⟨3773076726, 652⟩, ⟨3774705105, 2921⟩, ⟨3776632059, 94⟩, ⟨3777469544, 1103⟩,
  ⟨3777745928, 2718⟩, ⟨3780395254, 2208⟩, ⟨3780710474, 990⟩, ⟨3781250158, 1849⟩, ⟨3781292286, 1214⟩, ⟨3783854706, 2187⟩, ⟨3785722915, 1479⟩,
  ⟨3785903895, 1047⟩, ⟨3786156157, 2238⟩, ⟨3787510435, 2194⟩, ⟨3788813581, 429⟩, ⟨3789128561, 2736⟩, ⟨3789745884, 1635⟩, ⟨3793110587, 39⟩,
  ⟨3793521133, 1691⟩, ⟨3793819088, 1229⟩, ⟨3794115445, 1305⟩, ⟨3795289727, 1929⟩, ⟨3795880690, 630⟩, ⟨3795962223, 1655⟩, ⟨3796530946, 2478⟩,
  ⟨3798816091, 2259⟩, ⟨3799571151, 1390⟩, ⟨3800328006, 6⟩, ⟨3802517301, 2691⟩, ⟨3804961472, 1092⟩, ⟨3806917888, 1859⟩, ⟨3808718975, 786⟩,
  ⟨3809342526, 261⟩, ⟨3812364752, 1575⟩, ⟨3812764854, 1175⟩, ⟨3814961535, 2927⟩, ⟨3818058884, 740⟩, ⟨3819818832, 400⟩, ⟨3819931804, 1630⟩,
  ⟨3822733042, 1726⟩, ⟨3823334611, 1524⟩, ⟨3827251937, 650⟩, ⟨3827439947, 1016⟩, ⟨3827864518, 2652⟩, ⟨3832214379, 2815⟩, ⟨3836424200, 2123⟩,
  ⟨3837726564, 715⟩, ⟨3838124872, 2719⟩, ⟨3838229476, 2873⟩, ⟨3838546303, 1503⟩, ⟨3838936316, 179⟩, ⟨3841901236, 1460⟩, ⟨3843976461, 2506⟩,
  ⟨3844860230, 939⟩, ⟨3844879621, 1611⟩, ⟨3845025864, 794⟩, ⟨3846969240, 1702⟩, ⟨3849140457, 1101⟩, ⟨3849822774, 617⟩, ⟨3849922558, 860⟩,
  ⟨3854230149, 2360⟩, ⟨3855177814, 1220⟩, ⟨3857565423, 974⟩, ⟨3858391430, 2783⟩, ⟨3860330245, 1198⟩, ⟨3860542097, 1966⟩, ⟨3861628337, 1309⟩,
  ⟨3861643198, 1974⟩, ⟨3862104191, 1340⟩, ⟨3866042142, 2332⟩, ⟨3870483831, 2703⟩, ⟨3870538632, 340⟩, ⟨3872657582, 1314⟩, ⟨3872742457, 1122⟩,
  ⟨3873211190, 1833⟩, ⟨3873619933, 1569⟩, ⟨3874225734, 975⟩, ⟨3874595978, 2507⟩, ⟨3877229884, 845⟩, ⟨3878774328, 1967⟩, ⟨3879139878, 694⟩,
  ⟨3882114238, 808⟩, ⟨3883031477, 2016⟩, ⟨3884524138, 2222⟩, ⟨3885032574, 675⟩, ⟨3886548346, 190⟩, ⟨3887679092, 2550⟩, ⟨3887828496, 2647⟩,
  ⟨3889143712, 1138⟩, ⟨3893322280, 1530⟩, ⟨3894048914, 210⟩, ⟨3895101526, 1631⟩, ⟨3895520386, 2050⟩, ⟨3898238323, 2247⟩, ⟨3899027052, 2754⟩,
  ⟨3900707067, 2103⟩, ⟨3901427293, 2313⟩, ⟨3903321819, 1160⟩, ⟨3903326812, 1081⟩, ⟨3904850654, 953⟩, ⟨3906064960, 1382⟩, ⟨3906283577, 374⟩,
  ⟨3906923514, 270⟩, ⟨3907979473, 2979⟩, ⟨3912652609, 1810⟩, ⟨3914981091, 1452⟩, ⟨3917190954, 1778⟩, ⟨3919571222, 1325⟩, ⟨3921509468, 2061⟩,
  ⟨3922563840, 1544⟩, ⟨3922794835, 332⟩, ⟨3923851399, 912⟩, ⟨3923950064, 665⟩, ⟨3924975378, 1718⟩, ⟨3926050638, 2335⟩, ⟨3926504843, 986⟩,
  ⟨3927527822, 545⟩, ⟨3928403914, 2081⟩, ⟨3928461311, 2264⟩, ⟨3928499296, 2731⟩, ⟨3928568023, 2053⟩, ⟨3928679399, 1752⟩, ⟨3928770878, 424⟩,
  ⟨3931506791, 918⟩, ⟨3932965608, 2588⟩, ⟨3935474542, 2304⟩, ⟨3935985832, 1896⟩, ⟨3937004635, 1803⟩, ⟨3939045131, 2841⟩, ⟨3940013468, 2725⟩,
  ⟨3940067006, 873⟩, ⟨3943227635, 2427⟩, ⟨3948906945, 672⟩, ⟨3950020117, 923⟩, ⟨3952607672, 909⟩, ⟨3953539116, 512⟩, ⟨3955083558, 2327⟩,
  ⟨3957243142, 2959⟩, ⟨3959028948, 2415⟩, ⟨3959204886, 1819⟩, ⟨3959386911, 1178⟩, ⟨3959888123, 348⟩, ⟨3963737394, 2198⟩, ⟨3966918156, 1207⟩,
  ⟨3967043396, 1073⟩, ⟨3967229695, 2328⟩, ⟨3967673900, 2426⟩, ⟨3968648826, 490⟩, ⟨3968828648, 1650⟩, ⟨3968887554, 2562⟩, ⟨3969976378, 686⟩,
  ⟨3970537967, 392⟩, ⟨3971555763, 2792⟩, ⟨3971998047, 969⟩, ⟨3972466035, 2416⟩, ⟨3973120607, 479⟩, ⟨3976153761, 1470⟩, ⟨3979573783, 1135⟩,
  ⟨3979816037, 998⟩, ⟨3980144688, 2859⟩, ⟨3982199712, 565⟩, ⟨3983074327, 2894⟩, ⟨3983467067, 2175⟩, ⟨3983574124, 2034⟩, ⟨3984007869, 1766⟩,
  ⟨3984637427, 2023⟩, ⟨3987856242, 2626⟩, ⟨3987916899, 421⟩, ⟨3988453168, 2502⟩, ⟨3995894027, 2291⟩, ⟨3997029532, 1676⟩, ⟨3998339505, 1454⟩,
  ⟨3998577858, 439⟩, ⟨4001887020, 1290⟩, ⟨4004063542, 144⟩, ⟨4005122415, 637⟩, ⟨4006227046, 629⟩, ⟨4007203196, 1660⟩, ⟨4008946142, 2883⟩,
  ⟨4009599984, 116⟩, ⟨4009761472, 626⟩, ⟨4010504895, 1760⟩, ⟨4010952872, 1549⟩, ⟨4017200588, 900⟩, ⟨4018079451, 2419⟩, ⟨4020761283, 92⟩,
  ⟨4021984910, 2535⟩, ⟨4023037841, 554⟩, ⟨4024057614, 1856⟩, ⟨4026155602, 2152⟩, ⟨4026655782, 1459⟩, ⟨4028085965, 2657⟩, ⟨4029028764, 1348⟩,
  ⟨4030085864, 2003⟩, ⟨4030402989, 2368⟩, ⟨4030604685, 917⟩, ⟨4030781360, 1954⟩, ⟨4030826491, 2349⟩, ⟨4030962222, 818⟩, ⟨4033937293, 1498⟩,
  ⟨4034924946, 2456⟩, ⟨4035799677, 47⟩, ⟨4037119281, 2782⟩, ⟨4040561726, 1119⟩, ⟨4041238865, 1097⟩, ⟨4042047928, 1368⟩, ⟨4045130808, 1874⟩,
  ⟨4045701412, 1699⟩, ⟨4046532111, 2385⟩, ⟨4047269223, 695⟩, ⟨4049364467, 1919⟩, ⟨4051256635, 2817⟩, ⟨4051843135, 393⟩, ⟨4053576168, 2140⟩,
  ⟨4058459527, 2682⟩, ⟨4059150953, 762⟩, ⟨4060473784, 2315⟩, ⟨4061109616, 325⟩, ⟨4061203621, 508⟩, ⟨4067791771, 2538⟩, ⟨4069471878, 1253⟩,
  ⟨4071189599, 1796⟩, ⟨4074598722, 1180⟩, ⟨4074945045, 2529⟩, ⟨4076266359, 487⟩, ⟨4077140171, 2995⟩, ⟨4077648770, 599⟩, ⟨4077754696, 983⟩,
  ⟨4078535743, 670⟩, ⟨4083854876, 561⟩, ⟨4088491864, 2589⟩, ⟨4088999386, 1008⟩, ⟨4092521927, 2374⟩, ⟨4095183358, 2910⟩, ⟨4099144557, 580⟩,
  ⟨4100625436, 187⟩, ⟨4103809952, 905⟩, ⟨4104974193, 726⟩, ⟨4108881065, 166⟩, ⟨4109409347, 456⟩, ⟨4110309501, 2944⟩, ⟨4110736069, 493⟩,
  ⟨4111714303, 1132⟩, ⟨4111823347, 876⟩, ⟨4113178524, 2678⟩, ⟨4113237043, 459⟩, ⟨4113958176, 1930⟩, ⟨4116869314, 1535⟩, ⟨4117745538, 1613⟩,
  ⟨4118782864, 1592⟩, ⟨4119822509, 2735⟩, ⟨4121713218, 1677⟩, ⟨4121937120, 336⟩, ⟨4123820297, 2012⟩, ⟨4125845892, 2448⟩, ⟨4127177103, 589⟩,
  ⟨4127427709, 174⟩, ⟨4127973590, 1604⟩, ⟨4129199962, 1860⟩, ⟨4130816420, 2980⟩, ⟨4131098495, 1164⟩, ⟨4132752631, 196⟩, ⟨4133261529, 1396⟩,
  ⟨4133716665, 1208⟩, ⟨4135560528, 735⟩, ⟨4137391666, 499⟩, ⟨4139020811, 1447⟩, ⟨4139487582, 883⟩, ⟨4140329013, 2251⟩, ⟨4140835890, 2127⟩,
  ⟨4145474547, 1802⟩, ⟨4146653400, 727⟩, ⟨4152109232, 1992⟩, ⟨4152634357, 2537⟩, ⟨4152736095, 880⟩, ⟨4154773177, 2554⟩, ⟨4154842242, 1798⟩,
  ⟨4155536529, 2710⟩, ⟨4157811660, 2189⟩, ⟨4157864289, 46⟩, ⟨4159002568, 277⟩, ⟨4162685142, 1184⟩, ⟨4164452294, 749⟩, ⟨4166043288, 1391⟩,
  ⟨4170033501, 2716⟩, ⟨4170697719, 2439⟩, ⟨4176713411, 1341⟩, ⟨4177059124, 381⟩, ⟨4178085458, 254⟩, ⟨4181379533, 1269⟩, ⟨4183078447, 898⟩,
  ⟨4185276613, 2104⟩, ⟨4185298369, 1594⟩, ⟨4186751519, 335⟩, ⟨4192055920, 2111⟩, ⟨4193744611, 1187⟩, ⟨4197055926, 290⟩, ⟨4198518980, 2193⟩,
  ⟨4199970744, 363⟩, ⟨4201886196, 1519⟩, ⟨4201924180, 83⟩, ⟨4202188321, 228⟩, ⟨4202638398, 1472⟩, ⟨4203340799, 566⟩, ⟨4203395321, 438⟩,
  ⟨4203680939, 1789⟩, ⟨4205256305, 2443⟩, ⟨4209393796, 1006⟩, ⟨4209544045, 1931⟩, ⟨4209737626, 2290⟩, ⟨4211197502, 87⟩, ⟨4213032895, 582⟩,
  ⟨4213859963, 98⟩, ⟨4214114412, 698⟩, ⟨4214341980, 604⟩, ⟨4218185933, 1823⟩, ⟨4220220921, 901⟩, ⟨4223131444, 2295⟩, ⟨4223851695, 440⟩,
  ⟨4224870236, 1277⟩, ⟨4225234619, 1653⟩, ⟨4225251912, 1355⟩, ⟨4226415792, 23⟩, ⟨4231009874, 2620⟩, ⟨4232500398, 1358⟩, ⟨4236527295, 2009⟩,
  ⟨4236815801, 2559⟩, ⟨4237634064, 1595⟩, ⟨4239022871, 449⟩, ⟨4240048711, 2271⟩, ⟨4240121954, 1052⟩, ⟨4240132832, 797⟩, ⟨4242682594, 2679⟩,
  ⟨4244396845, 1703⟩, ⟨4244720769, 2296⟩, ⟨4248577808, 114⟩, ⟨4249154047, 283⟩, ⟨4249181308, 219⟩, ⟨4254000095, 291⟩, ⟨4254413629, 49⟩,
  ⟨4259409495, 220⟩, ⟨4262067655, 2381⟩, ⟨4265222278, 1844⟩, ⟨4265798960, 1872⟩, ⟨4268164401, 2486⟩, ⟨4268430986, 2256⟩, ⟨4269602396, 2234⟩,
  ⟨4269629651, 1899⟩, ⟨4269844032, 1148⟩, ⟨4270483476, 1768⟩, ⟨4271385503, 2844⟩, ⟨4271866848, 2799⟩, ⟨4275124086, 1773⟩, ⟨4275721621, 2663⟩,
  ⟨4277188395, 110⟩, ⟨4280546422, 2464⟩, ⟨4281565848, 1243⟩, ⟨4283176399, 1422⟩, ⟨4285743067, 2355⟩, ⟨4286077845, 55⟩, ⟨4289071847, 711⟩,
  ⟨4290286914, 2794⟩, ⟨4290566181, 2277⟩, ⟨4290812262, 2480⟩, ⟨4293446575, 1953⟩]

/-- `1 + x^a = x^v`. -/
noncomputable def right (t : Entry) : Bool :=
  Entry.rec (fun v a => Bool.rec false (Bool.rec false (Nat.beq (Log.pw v) (Nat.xor 1 (Log.pw a))) (Nat.ble v 4294967294)) (Nat.ble a 3005)) t

/-- The exponents that occur, as bits of a number. -/
noncomputable def occurring (l : List Entry) : Nat → Nat :=
  List.rec (fun acc => acc) (fun t _ ih acc => Entry.rec (fun _ a => Log.force (Nat.lor acc (Nat.shiftLeft 1 a)) ih) t) l

/-- For the entries `l` after `u` and `(v, a)`: a step is at least `d - a`, two steps are at least `d`, and the last entry is at most `top`. -/
noncomputable def spaced (d top : Nat) (l : List Entry) : Nat → Nat → Nat → Bool :=
  List.rec (fun _ v _ => Nat.ble v top)
    (fun t _ ih u v a => Entry.rec (fun w c =>
      Bool.rec false (Bool.rec false (Bool.rec false (ih v w c) (Nat.ble (Nat.add v d) (Nat.add w a))) (Nat.ble (Nat.add u d) w)) (Nat.ble v w)) t) l

theorem logs_right : Log.every right logs = true := by decide +kernel

theorem logs_occurring : Nat.beq (occurring logs 0) (Nat.sub (Nat.pow 2 3006) 2) = true := by decide +kernel

theorem logs_spaced : spaced 3006 4293446575 logs 0 0 3006 = true := by decide +kernel

attribute [irreducible] logs

theorem three (p q r : Bool) (h : (Bool.rec false (Bool.rec false r q) p : Bool) = true) : p = true ∧ q = true ∧ r = true := by
  revert p q r; decide

theorem four (p q r s : Bool) (h : (Bool.rec false (Bool.rec false (Bool.rec false s r) q) p : Bool) = true) : p = true ∧ q = true ∧ r = true ∧ s = true := by
  revert p q r s; decide

theorem right_spec (t : Entry) (h : right t = true) : t.v < 2 ^ 32 - 1 ∧ t.a ≤ 3005 ∧ x ^ t.v = 1 + x ^ t.a := by
  obtain ⟨v, a⟩ := t
  obtain ⟨h1, h2, h3⟩ := three _ _ _ h
  have h1 := Nat.le_of_ble_eq_true h1
  have h2 := Nat.le_of_ble_eq_true h2
  have h3 := Nat.eq_of_beq_eq_true h3
  refine ⟨by show v < _; omega, h1, ?_⟩
  show x ^ v = 1 + x ^ a
  rw [← Log.ev_pw v (by omega), h3]
  show ev x (1 ^^^ Log.pw a) = _
  rw [evx_xor, ev_one, Log.ev_pw a (by omega)]

theorem occurring_spec (l : List Entry) (acc i : Nat) (h : (occurring l acc).testBit i = true) : acc.testBit i = true ∨ ∃ t ∈ l, t.a = i := by
  induction l generalizing acc with
  | nil => exact Or.inl h
  | cons t l ih =>
    obtain ⟨v, a⟩ := t
    have hs : occurring (⟨v, a⟩ :: l) acc = occurring l (acc ||| 1 <<< a) := by
      show Log.force (acc ||| 1 <<< a) (occurring l) = _
      rw [Log.force_eq]
    rw [hs] at h
    rcases ih _ h with h | ⟨t, ht, h⟩
    · rw [Nat.testBit_or, Bool.or_eq_true] at h
      rcases h with h | h
      · exact Or.inl h
      · rw [Nat.shiftLeft_eq, one_mul, Nat.testBit_two_pow, decide_eq_true_eq] at h
        exact Or.inr ⟨_, List.mem_cons_self .., h⟩
    · exact Or.inr ⟨t, List.mem_cons_of_mem _ ht, h⟩

/-- The exponents of `s` and of a later entry `t`. -/
def Spaced (d : Nat) (s t : Entry) : Prop := s.v ≤ t.v ∧ s.v + d ≤ t.v + s.a

theorem spaced_spec (d top : Nat) (l : List Entry) (u v a : Nat) (h : spaced d top l u v a = true) :
    v ≤ top ∧ (∀ t ∈ l, v ≤ t.v ∧ u + d ≤ t.v ∧ v + d ≤ t.v + a ∧ t.v ≤ top) ∧ l.Pairwise (Spaced d) := by
  induction l generalizing u v a with
  | nil => exact ⟨Nat.le_of_ble_eq_true h, by simp, List.Pairwise.nil⟩
  | cons t l ih =>
    obtain ⟨w, c⟩ := t
    obtain ⟨h1, h2, h3, h4⟩ := four _ _ _ _ h
    have h1 : v ≤ w := Nat.le_of_ble_eq_true h1
    have h2 : u + d ≤ w := Nat.le_of_ble_eq_true h2
    have h3 : v + d ≤ w + a := Nat.le_of_ble_eq_true h3
    obtain ⟨g1, g2, g3⟩ := ih v w c h4
    refine ⟨by omega, ?_, ?_⟩
    · intro t ht
      rcases List.mem_cons.1 ht with rfl | ht
      · exact ⟨h1, h2, h3, g1⟩
      · obtain ⟨k1, k2, k3, k4⟩ := g2 t ht
        exact ⟨by omega, by omega, by omega, k4⟩
    · refine List.Pairwise.cons ?_ g3
      intro t ht
      obtain ⟨k1, k2, k3, k4⟩ := g2 t ht
      exact ⟨k1, k3⟩

theorem pairwise_or {α : Type} {P : α → α → Prop} (l : List α) (h : l.Pairwise P) (s t : α) (hs : s ∈ l) (ht : t ∈ l) (hne : s ≠ t) : P s t ∨ P t s := by
  induction h with
  | nil => simp at hs
  | cons h1 _ ih =>
    rcases List.mem_cons.1 hs with rfl | hs' <;> rcases List.mem_cons.1 ht with rfl | ht'
    · exact absurd rfl hne
    · exact Or.inl (h1 t ht')
    · exact Or.inr (h1 s hs')
    · exact ih hs' ht'

theorem exists_log (a : Nat) (h0 : 0 < a) (h1 : a ≤ 3005) : ∃ t ∈ logs, t.a = a ∧ t.v < 2 ^ 32 - 1 ∧ x ^ t.v = 1 + x ^ a := by
  have h := Nat.eq_of_beq_eq_true logs_occurring
  have hb : (occurring logs 0).testBit a = true := by
    rw [h]
    show (2 ^ 3006 - 2).testBit a = true
    obtain ⟨b, rfl⟩ : ∃ b, a = b + 1 := ⟨a - 1, by omega⟩
    rw [Nat.testBit_succ, show (2 ^ 3006 - 2) / 2 = 2 ^ 3005 - 1 by rw [pow_succ]; omega, Nat.testBit_two_pow_sub_one]
    simpa using h1
  rcases occurring_spec logs 0 a hb with h | ⟨t, ht, rfl⟩
  · simp at h
  · obtain ⟨h2, _, h3⟩ := right_spec t (Log.every_spec _ _ logs_right t ht)
    exact ⟨t, ht, rfl, h2, h3⟩

/-- Four powers of `x` less than 3006 apart do not cancel. -/
theorem quadrinomial (i j k : Nat) (h0 : 0 < i) (h1 : i < j) (h2 : j < k) (h3 : k ≤ 3005) : 1 + x ^ i + x ^ j + x ^ k ≠ 0 := by
  intro h
  obtain ⟨s, hs, es, s1, s2⟩ := exists_log i h0 (by omega)
  obtain ⟨t, ht, et, t1, t2⟩ := exists_log (k - j) (by omega) (by omega)
  have e : x ^ s.v = x ^ (t.v + j) := by
    rw [pow_add, s2, t2, add_mul, one_mul, ← pow_add, show k - j + j = k by omega]
    linear_combination h - (x ^ j + x ^ k) * two_eq_zero
  rw [Log.x_pow_mod (t.v + j)] at e
  have e := x_pow_inj s1 (Nat.mod_lt _ (by norm_num)) e
  rw [show 2 ^ 32 - 1 = 4294967295 from rfl] at e s1 t1
  obtain ⟨_, hl, hp⟩ := spaced_spec 3006 4293446575 logs 0 0 3006 logs_spaced
  have hts := (hl t ht).2.2.2
  have hne : s ≠ t := by
    rintro rfl
    omega
  rcases pairwise_or logs hp s t hs ht hne with ⟨g1, g2⟩ | ⟨g1, g2⟩ <;> omega

/-- At the distance 3006 there are four that cancel. -/
theorem quadrinomial_sharp : 1 + x ^ 2215 + x ^ 2866 + x ^ 3006 = 0 := by
  rw [x_pow_eq_phi 2215 (by norm_num), x_pow_eq_phi 2866 (by norm_num), x_pow_eq_phi 3006 (by norm_num), ← phi_one, ← phi_xor, ← phi_xor, ← phi_xor, ← phi_zero]
  congr 1

end Yenc.Crc.Four
