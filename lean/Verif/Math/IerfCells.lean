import Verif.Math.ErfPoly

/-! `ierf` (nanomath.h:705-735): its first polynomial against the error function, by a certified subdivision of [0, 1021/1024]. -/

namespace Nanostl.Math
open Nanostl.Pack

/-- The first polynomial (nanomath.h:713-721) without rounding. -/
noncomputable def PA (v : ℝ) : ℝ :=
  (((((((1977521 / 2 ^ 46 * v + 6038939 / 2 ^ 44) * v + -15496023 / 2 ^ 42) * v + -9657025 / 2 ^ 41) * v + 15020763 / 2 ^ 36) * v + -1346177 / 2 ^ 30) * v + -8971503 / 2 ^ 31) * v + 16551779 / 2 ^ 26) * v + 12594735 / 2 ^ 23

/-- A polynomial with natural coefficients. -/
def hn : List ℕ → ℕ → ℕ
  | [], _ => 0
  | a :: l, x => a + x * hn l x

theorem hn_cast (l : List ℕ) (x : ℕ) : (hn l x : ℝ) = hor l (x : ℝ) := by
  induction l with
  | nil => simp [hn, hor]
  | cons a l ih => rw [hn, hor_cons]; push_cast; rw [ih]

/-- The positive and the negative part of `PA (w - 5 / 2)`, for arguments multiplied by 2^16. -/
def lP : List ℕ := [5432554915443750075597086889060370021799622445283409920, 21701937149212148006904666412343668686184905703424, 16458809413255697868116312978712484932222976, 0, 0, 349488901773590607188459520, 0, 0, 506245376]
def lM : List ℕ := [0, 0, 0, 50030951879084297264339986119028375552, 55737422278009635221317875662848, 0, 356896991667183157248, 258279603175424, 0]

theorem hor_PA (w : ℝ) : hor lP (2 ^ 16 * w) - hor lM (2 ^ 16 * w) = 2 ^ 182 * PA (w - 5 / 2) := by
  simp only [lP, lM, hor_cons, PA]
  simp only [hor, List.foldr_nil]
  push_cast
  ring

/-- The Taylor polynomial of `exp(-s)`, likewise. -/
def eP30 : List ℕ := (List.range 30).map fun m => if m % 2 = 0 then (Nat.factorial 29 / m.factorial) * 2 ^ (16 * (29 - m)) else 0
def eM30 : List ℕ := (List.range 30).map fun m => if m % 2 = 1 then (Nat.factorial 29 / m.factorial) * 2 ^ (16 * (29 - m)) else 0

theorem hor_exp (s : ℝ) : hor eP30 (2 ^ 16 * s) - hor eM30 (2 ^ 16 * s) = 2 ^ 464 * Nat.factorial 29 * expT 30 s := by
  rw [eP30, eM30, hor_range, hor_range, ← Finset.sum_sub_distrib, expT, Finset.mul_sum]
  apply Finset.sum_congr rfl
  intro m hm
  have hm := Finset.mem_range.1 hm
  have hd : m.factorial ∣ Nat.factorial 29 := Nat.factorial_dvd_factorial (by omega)
  have hne : (m.factorial : ℝ) ≠ 0 := by positivity
  have hc : ((Nat.factorial 29 / m.factorial * 2 ^ (16 * (29 - m)) : ℕ) : ℝ) = Nat.factorial 29 / m.factorial * 2 ^ (16 * (29 - m)) := by
    rw [Nat.cast_mul, Nat.cast_div hd hne]; push_cast; ring
  have hp : (2 : ℝ) ^ 464 = 2 ^ (16 * (29 - m)) * 2 ^ (16 * m) := by rw [← pow_add]; congr 1; omega
  have hx : (2 ^ 16 * s) ^ m = 2 ^ (16 * m) * s ^ m := by rw [mul_pow, ← pow_mul]
  rw [hx, hp]
  rcases Nat.mod_two_eq_zero_or_one m with h | h
  · rw [if_pos h, if_neg (by omega), hc, Even.neg_pow (Nat.even_iff.2 h)]
    push_cast
    ring
  · rw [if_neg (by omega), if_pos h, hc, Odd.neg_pow (Nat.odd_iff.2 h)]
    push_cast
    ring

/-- `-log(1 - (i / 1024)^2)`, multiplied by 2^16 and rounded down. -/
def logTab : List ℕ := [
  0, 0, 0, 0, 1, 1, 2, 3, 4, 5, 6, 7, 9, 10, 12, 14, 16, 18, 20, 22, 25, 27, 30, 33,
  36, 39, 42, 45, 49, 52, 56, 60, 64, 68, 72, 76, 81, 85, 90, 95, 100, 105, 110, 115, 121, 126, 132, 138,
  144, 150, 156, 162, 169, 175, 182, 189, 196, 203, 210, 217, 225, 232, 240, 248, 256, 264, 272, 281, 289, 298, 306, 315,
  324, 333, 343, 352, 361, 371, 381, 391, 401, 411, 421, 431, 442, 453, 463, 474, 485, 496, 508, 519, 531, 542, 554, 566,
  578, 590, 603, 615, 627, 640, 653, 666, 679, 692, 706, 719, 733, 746, 760, 774, 788, 802, 817, 831, 846, 861, 876, 891,
  906, 921, 936, 952, 968, 983, 999, 1015, 1032, 1048, 1064, 1081, 1098, 1114, 1131, 1149, 1166, 1183, 1201, 1218, 1236, 1254, 1272, 1290,
  1308, 1327, 1345, 1364, 1383, 1402, 1421, 1440, 1460, 1479, 1499, 1519, 1538, 1558, 1579, 1599, 1619, 1640, 1661, 1681, 1702, 1724, 1745, 1766,
  1788, 1809, 1831, 1853, 1875, 1897, 1920, 1942, 1965, 1987, 2010, 2033, 2056, 2080, 2103, 2127, 2150, 2174, 2198, 2222, 2247, 2271, 2296, 2320,
  2345, 2370, 2395, 2420, 2446, 2471, 2497, 2523, 2548, 2574, 2601, 2627, 2654, 2680, 2707, 2734, 2761, 2788, 2815, 2843, 2870, 2898, 2926, 2954,
  2982, 3011, 3039, 3068, 3097, 3125, 3154, 3184, 3213, 3242, 3272, 3302, 3332, 3362, 3392, 3422, 3453, 3484, 3514, 3545, 3576, 3608, 3639, 3670,
  3702, 3734, 3766, 3798, 3830, 3863, 3895, 3928, 3961, 3994, 4027, 4060, 4094, 4127, 4161, 4195, 4229, 4263, 4298, 4332, 4367, 4402, 4437, 4472,
  4507, 4542, 4578, 4614, 4650, 4686, 4722, 4758, 4795, 4831, 4868, 4905, 4942, 4980, 5017, 5055, 5092, 5130, 5168, 5207, 5245, 5283, 5322, 5361,
  5400, 5439, 5479, 5518, 5558, 5597, 5637, 5678, 5718, 5758, 5799, 5840, 5881, 5922, 5963, 6004, 6046, 6088, 6130, 6172, 6214, 6256, 6299, 6342,
  6385, 6428, 6471, 6514, 6558, 6602, 6646, 6690, 6734, 6778, 6823, 6868, 6913, 6958, 7003, 7048, 7094, 7140, 7186, 7232, 7278, 7325, 7371, 7418,
  7465, 7512, 7560, 7607, 7655, 7703, 7751, 7799, 7847, 7896, 7944, 7993, 8042, 8092, 8141, 8191, 8241, 8291, 8341, 8391, 8442, 8492, 8543, 8594,
  8646, 8697, 8749, 8800, 8852, 8905, 8957, 9009, 9062, 9115, 9168, 9222, 9275, 9329, 9383, 9437, 9491, 9545, 9600, 9655, 9710, 9765, 9820, 9876,
  9931, 9987, 10044, 10100, 10156, 10213, 10270, 10327, 10385, 10442, 10500, 10558, 10616, 10674, 10733, 10791, 10850, 10909, 10969, 11028, 11088, 11148, 11208, 11268,
  11329, 11389, 11450, 11511, 11573, 11634, 11696, 11758, 11820, 11883, 11945, 12008, 12071, 12134, 12198, 12261, 12325, 12389, 12454, 12518, 12583, 12648, 12713, 12778,
  12844, 12910, 12976, 13042, 13108, 13175, 13242, 13309, 13376, 13444, 13512, 13580, 13648, 13716, 13785, 13854, 13923, 13993, 14062, 14132, 14202, 14272, 14343, 14414,
  14485, 14556, 14627, 14699, 14771, 14843, 14915, 14988, 15061, 15134, 15207, 15281, 15355, 15429, 15503, 15578, 15652, 15728, 15803, 15878, 15954, 16030, 16106, 16183,
  16260, 16337, 16414, 16492, 16569, 16647, 16726, 16804, 16883, 16962, 17041, 17121, 17201, 17281, 17361, 17442, 17523, 17604, 17685, 17767, 17849, 17931, 18013, 18096,
  18179, 18262, 18346, 18430, 18514, 18598, 18683, 18768, 18853, 18939, 19024, 19110, 19197, 19283, 19370, 19457, 19545, 19632, 19720, 19809, 19897, 19986, 20075, 20165,
  20255, 20345, 20435, 20526, 20617, 20708, 20799, 20891, 20983, 21076, 21168, 21262, 21355, 21449, 21542, 21637, 21731, 21826, 21921, 22017, 22113, 22209, 22305, 22402,
  22499, 22597, 22694, 22793, 22891, 22990, 23089, 23188, 23288, 23388, 23488, 23589, 23690, 23791, 23893, 23995, 24097, 24200, 24303, 24407, 24510, 24614, 24719, 24824,
  24929, 25034, 25140, 25246, 25353, 25460, 25567, 25675, 25783, 25891, 26000, 26109, 26219, 26328, 26439, 26549, 26660, 26771, 26883, 26995, 27108, 27221, 27334, 27447,
  27561, 27676, 27791, 27906, 28021, 28137, 28254, 28371, 28488, 28605, 28723, 28842, 28961, 29080, 29199, 29319, 29440, 29561, 29682, 29804, 29926, 30049, 30171, 30295,
  30419, 30543, 30668, 30793, 30919, 31045, 31171, 31298, 31425, 31553, 31682, 31810, 31939, 32069, 32199, 32330, 32461, 32592, 32724, 32857, 32990, 33123, 33257, 33391,
  33526, 33662, 33798, 33934, 34071, 34208, 34346, 34484, 34623, 34762, 34902, 35042, 35183, 35325, 35467, 35609, 35752, 35895, 36040, 36184, 36329, 36475, 36621, 36768,
  36915, 37063, 37211, 37360, 37510, 37660, 37810, 37961, 38113, 38265, 38418, 38572, 38726, 38881, 39036, 39192, 39348, 39505, 39663, 39821, 39980, 40140, 40300, 40461,
  40622, 40784, 40947, 41110, 41274, 41438, 41604, 41770, 41936, 42103, 42271, 42440, 42609, 42779, 42949, 43121, 43293, 43465, 43639, 43813, 43987, 44163, 44339, 44516,
  44694, 44872, 45051, 45231, 45412, 45593, 45775, 45958, 46141, 46326, 46511, 46697, 46884, 47071, 47260, 47449, 47639, 47829, 48021, 48213, 48406, 48600, 48795, 48991,
  49188, 49385, 49583, 49782, 49982, 50183, 50385, 50588, 50791, 50996, 51201, 51408, 51615, 51823, 52032, 52242, 52453, 52665, 52878, 53092, 53307, 53523, 53740, 53958,
  54177, 54397, 54618, 54840, 55063, 55287, 55512, 55738, 55965, 56194, 56423, 56654, 56886, 57118, 57352, 57588, 57824, 58061, 58300, 58539, 58780, 59023, 59266, 59510,
  59756, 60003, 60251, 60501, 60752, 61004, 61257, 61512, 61768, 62025, 62284, 62544, 62805, 63068, 63332, 63598, 63864, 64133, 64403, 64674, 64947, 65221, 65496, 65774,
  66052, 66332, 66614, 66898, 67182, 67469, 67757, 68047, 68338, 68631, 68926, 69222, 69521, 69820, 70122, 70425, 70730, 71037, 71346, 71657, 71969, 72283, 72600, 72918,
  73238, 73560, 73884, 74210, 74538, 74868, 75200, 75534, 75870, 76209, 76549, 76892, 77237, 77584, 77934, 78286, 78640, 78996, 79355, 79716, 80080, 80446, 80814, 81185,
  81559, 81935, 82314, 82695, 83079, 83466, 83856, 84248, 84643, 85041, 85442, 85846, 86253, 86663, 87076, 87492, 87911, 88333, 88758, 89187, 89619, 90055, 90494, 90936,
  91382, 91831, 92284, 92741, 93201, 93665, 94134, 94605, 95081, 95561, 96045, 96533, 97026, 97522, 98023, 98529, 99038, 99553, 100072, 100596, 101124, 101658, 102196, 102740,
  103289, 103842, 104402, 104966, 105537, 106113, 106694, 107282, 107875, 108475, 109080, 109692, 110311, 110936, 111567, 112206, 112852, 113504, 114164, 114832, 115507, 116189, 116880, 117579,
  118286, 119001, 119726, 120459, 121201, 121953, 122714, 123484, 124265, 125056, 125858, 126670, 127494, 128328, 129175, 130033, 130904, 131788, 132684, 133594, 134518, 135455, 136408, 137375,
  138358, 139358, 140373, 141406, 142456, 143525, 144612, 145719, 146846, 147994, 149163, 150356, 151571, 152811, 154076, 155367, 156686, 158033, 159409, 160817, 162257, 163731, 165240, 166787,
  168373, 169999, 171669, 173384, 175147, 176961, 178828, 180752, 182736, 184784, 186901, 189090, 191357, 193708, 196149, 198687, 201330, 204087, 206968, 209984, 213149, 216478, 219989, 223703,
  227644, 231841, 236331, 241155, 246369, 252039, 258253, 265126, 272813, 281532, 291602, 303518, 318110, 336932, 363472, 408866]

/-- Bounds of `ierf` on the cells, multiplied by 2^16. -/
def loTab : List ℕ := [
  0, 54, 111, 168, 224, 281, 338, 395, 451, 508, 565, 621, 678, 735, 792, 848, 905, 962, 1019, 1075, 1132, 1189, 1245, 1302,
  1359, 1416, 1472, 1529, 1586, 1643, 1699, 1756, 1813, 1870, 1926, 1983, 2040, 2097, 2154, 2210, 2267, 2324, 2381, 2438, 2494, 2551, 2608, 2665,
  2722, 2778, 2835, 2892, 2949, 3006, 3063, 3119, 3176, 3233, 3290, 3347, 3404, 3461, 3517, 3574, 3631, 3688, 3745, 3802, 3859, 3916, 3973, 4030,
  4087, 4143, 4200, 4257, 4314, 4371, 4428, 4485, 4542, 4599, 4656, 4713, 4770, 4827, 4884, 4941, 4998, 5055, 5113, 5170, 5227, 5284, 5341, 5398,
  5455, 5512, 5569, 5626, 5684, 5741, 5798, 5855, 5912, 5969, 6027, 6084, 6141, 6198, 6255, 6313, 6370, 6427, 6485, 6542, 6599, 6656, 6714, 6771,
  6828, 6886, 6943, 7000, 7058, 7115, 7173, 7230, 7287, 7345, 7402, 7460, 7517, 7575, 7632, 7690, 7747, 7805, 7862, 7920, 7977, 8035, 8092, 8150,
  8208, 8265, 8323, 8381, 8438, 8496, 8554, 8611, 8669, 8727, 8785, 8842, 8900, 8958, 9016, 9073, 9131, 9189, 9247, 9305, 9363, 9421, 9478, 9536,
  9594, 9652, 9710, 9768, 9826, 9884, 9942, 10000, 10058, 10116, 10175, 10233, 10291, 10349, 10407, 10465, 10523, 10582, 10640, 10698, 10756, 10815, 10873, 10931,
  10990, 11048, 11106, 11165, 11223, 11282, 11340, 11398, 11457, 11515, 11574, 11632, 11691, 11750, 11808, 11867, 11925, 11984, 12043, 12101, 12160, 12219, 12277, 12336,
  12395, 12454, 12513, 12571, 12630, 12689, 12748, 12807, 12866, 12925, 12984, 13043, 13102, 13161, 13220, 13279, 13338, 13397, 13456, 13516, 13575, 13634, 13693, 13753,
  13812, 13871, 13930, 13990, 14049, 14109, 14168, 14227, 14287, 14346, 14406, 14465, 14525, 14585, 14644, 14704, 14764, 14823, 14883, 14943, 15002, 15062, 15122, 15182,
  15242, 15302, 15361, 15421, 15481, 15541, 15601, 15661, 15722, 15782, 15842, 15902, 15962, 16022, 16082, 16143, 16203, 16263, 16324, 16384, 16444, 16505, 16565, 16626,
  16686, 16747, 16807, 16868, 16929, 16989, 17050, 17111, 17171, 17232, 17293, 17354, 17415, 17475, 17536, 17597, 17658, 17719, 17780, 17841, 17902, 17964, 18025, 18086,
  18147, 18208, 18270, 18331, 18392, 18454, 18515, 18577, 18638, 18700, 18761, 18823, 18884, 18946, 19008, 19069, 19131, 19193, 19255, 19317, 19378, 19440, 19502, 19564,
  19626, 19688, 19751, 19813, 19875, 19937, 19999, 20062, 20124, 20186, 20249, 20311, 20373, 20436, 20498, 20561, 20624, 20686, 20749, 20812, 20874, 20937, 21000, 21063,
  21126, 21189, 21252, 21315, 21378, 21441, 21504, 21567, 21631, 21694, 21757, 21821, 21884, 21947, 22011, 22074, 22138, 22201, 22265, 22329, 22393, 22456, 22520, 22584,
  22648, 22712, 22776, 22840, 22904, 22968, 23032, 23096, 23161, 23225, 23289, 23354, 23418, 23482, 23547, 23611, 23676, 23741, 23805, 23870, 23935, 24000, 24065, 24130,
  24195, 24260, 24325, 24390, 24455, 24520, 24585, 24651, 24716, 24782, 24847, 24913, 24978, 25044, 25109, 25175, 25241, 25307, 25373, 25438, 25504, 25570, 25637, 25703,
  25769, 25835, 25901, 25968, 26034, 26101, 26167, 26234, 26300, 26367, 26434, 26500, 26567, 26634, 26701, 26768, 26835, 26902, 26969, 27036, 27104, 27171, 27238, 27306,
  27373, 27441, 27509, 27576, 27644, 27712, 27780, 27848, 27916, 27984, 28052, 28120, 28188, 28256, 28325, 28393, 28461, 28530, 28599, 28667, 28736, 28805, 28874, 28943,
  29012, 29081, 29150, 29219, 29288, 29357, 29427, 29496, 29566, 29635, 29705, 29774, 29844, 29914, 29984, 30054, 30124, 30194, 30264, 30334, 30405, 30475, 30545, 30616,
  30687, 30757, 30828, 30899, 30970, 31041, 31112, 31183, 31254, 31325, 31396, 31468, 31539, 31611, 31683, 31754, 31826, 31898, 31970, 32042, 32114, 32186, 32258, 32331,
  32403, 32475, 32548, 32621, 32693, 32766, 32839, 32912, 32985, 33058, 33131, 33205, 33278, 33351, 33425, 33498, 33572, 33646, 33720, 33794, 33868, 33942, 34016, 34090,
  34165, 34239, 34314, 34389, 34463, 34538, 34613, 34688, 34763, 34838, 34914, 34989, 35064, 35140, 35216, 35291, 35367, 35443, 35519, 35595, 35672, 35748, 35824, 35901,
  35978, 36054, 36131, 36208, 36285, 36362, 36439, 36517, 36594, 36672, 36749, 36827, 36905, 36983, 37061, 37139, 37217, 37296, 37374, 37453, 37531, 37610, 37689, 37768,
  37847, 37926, 38006, 38085, 38165, 38244, 38324, 38404, 38484, 38564, 38644, 38725, 38805, 38886, 38967, 39047, 39128, 39210, 39291, 39372, 39453, 39535, 39617, 39698,
  39780, 39862, 39945, 40027, 40109, 40192, 40275, 40357, 40440, 40523, 40607, 40690, 40773, 40857, 40941, 41025, 41109, 41193, 41277, 41361, 41446, 41531, 41615, 41700,
  41786, 41871, 41956, 42042, 42127, 42213, 42299, 42385, 42472, 42558, 42644, 42731, 42818, 42905, 42992, 43079, 43167, 43254, 43342, 43430, 43518, 43607, 43695, 43784,
  43872, 43961, 44050, 44139, 44229, 44318, 44408, 44498, 44588, 44678, 44768, 44859, 44950, 45040, 45131, 45223, 45314, 45406, 45497, 45589, 45681, 45774, 45866, 45959,
  46052, 46145, 46238, 46331, 46425, 46519, 46613, 46707, 46801, 46896, 46991, 47086, 47181, 47276, 47372, 47467, 47563, 47659, 47756, 47852, 47949, 48046, 48143, 48241,
  48338, 48436, 48534, 48633, 48731, 48830, 48929, 49028, 49127, 49227, 49327, 49427, 49527, 49627, 49728, 49829, 49931, 50032, 50134, 50236, 50338, 50440, 50543, 50646,
  50749, 50853, 50956, 51060, 51164, 51269, 51374, 51479, 51584, 51689, 51795, 51901, 52008, 52114, 52221, 52328, 52436, 52543, 52651, 52760, 52868, 52977, 53086, 53196,
  53306, 53416, 53526, 53637, 53748, 53859, 53971, 54083, 54195, 54307, 54420, 54533, 54647, 54761, 54875, 54990, 55104, 55220, 55335, 55451, 55567, 55684, 55801, 55918,
  56036, 56154, 56272, 56391, 56510, 56630, 56749, 56870, 56990, 57111, 57233, 57355, 57477, 57599, 57722, 57846, 57969, 58094, 58219, 58344, 58469, 58595, 58721, 58848,
  58975, 59103, 59231, 59360, 59489, 59619, 59749, 59879, 60010, 60141, 60273, 60406, 60539, 60672, 60806, 60940, 61075, 61211, 61347, 61483, 61620, 61758, 61896, 62035,
  62174, 62314, 62454, 62595, 62737, 62879, 63021, 63165, 63309, 63453, 63598, 63744, 63890, 64037, 64185, 64334, 64483, 64632, 64783, 64934, 65086, 65238, 65391, 65545,
  65700, 65855, 66011, 66168, 66325, 66484, 66643, 66803, 66963, 67125, 67287, 67451, 67615, 67779, 67945, 68112, 68279, 68448, 68617, 68787, 68958, 69131, 69304, 69478,
  69653, 69829, 70006, 70184, 70363, 70543, 70724, 70906, 71090, 71275, 71460, 71647, 71835, 72024, 72215, 72406, 72599, 72793, 72989, 73186, 73384, 73583, 73784, 73986,
  74190, 74395, 74601, 74809, 75019, 75230, 75442, 75657, 75873, 76090, 76309, 76530, 76753, 76978, 77204, 77432, 77662, 77894, 78128, 78364, 78602, 78842, 79084, 79329,
  79575, 79824, 80076, 80329, 80585, 80844, 81105, 81368, 81635, 81904, 82176, 82450, 82728, 83009, 83293, 83579, 83869, 84163, 84460, 84760, 85064, 85372, 85683, 85999,
  86318, 86642, 86970, 87302, 87639, 87980, 88327, 88678, 89035, 89397, 89764, 90137, 90516, 90902, 91293, 91691, 92097, 92509, 92929, 93356, 93792, 94236, 94689, 95151,
  95623, 96105, 96598, 97102, 97617, 98145, 98686, 99241, 99810, 100395, 100996, 101615, 102252, 102910, 103588, 104290, 105017, 105770, 106552, 107366, 108214, 109101, 110029, 111003,
  112029, 113114, 114264, 115488, 116800, 118212, 119743, 121418, 123268, 125337, 127692, 130432, 133720]
def hiTab : List ℕ := [
  59, 116, 173, 229, 286, 343, 400, 456, 513, 570, 626, 683, 740, 797, 853, 910, 967, 1024, 1080, 1137, 1194, 1250, 1307, 1364,
  1421, 1477, 1534, 1591, 1648, 1704, 1761, 1818, 1875, 1931, 1988, 2045, 2102, 2159, 2215, 2272, 2329, 2386, 2443, 2499, 2556, 2613, 2670, 2727,
  2783, 2840, 2897, 2954, 3011, 3068, 3124, 3181, 3238, 3295, 3352, 3409, 3466, 3522, 3579, 3636, 3693, 3750, 3807, 3864, 3921, 3978, 4035, 4092,
  4148, 4205, 4262, 4319, 4376, 4433, 4490, 4547, 4604, 4661, 4718, 4775, 4832, 4889, 4946, 5003, 5060, 5118, 5175, 5232, 5289, 5346, 5403, 5460,
  5517, 5574, 5631, 5689, 5746, 5803, 5860, 5917, 5974, 6032, 6089, 6146, 6203, 6261, 6318, 6375, 6432, 6490, 6547, 6604, 6661, 6719, 6776, 6833,
  6891, 6948, 7005, 7063, 7120, 7178, 7235, 7292, 7350, 7407, 7465, 7522, 7580, 7637, 7695, 7752, 7810, 7867, 7925, 7982, 8040, 8098, 8155, 8213,
  8270, 8328, 8386, 8443, 8501, 8559, 8616, 8674, 8732, 8790, 8847, 8905, 8963, 9021, 9078, 9136, 9194, 9252, 9310, 9368, 9426, 9484, 9541, 9599,
  9657, 9715, 9773, 9831, 9889, 9947, 10005, 10063, 10122, 10180, 10238, 10296, 10354, 10412, 10470, 10529, 10587, 10645, 10703, 10762, 10820, 10878, 10936, 10995,
  11053, 11111, 11170, 11228, 11287, 11345, 11404, 11462, 11520, 11579, 11637, 11696, 11755, 11813, 11872, 11930, 11989, 12048, 12106, 12165, 12224, 12282, 12341, 12400,
  12459, 12518, 12576, 12635, 12694, 12753, 12812, 12871, 12930, 12989, 13048, 13107, 13166, 13225, 13284, 13343, 13402, 13461, 13521, 13580, 13639, 13698, 13758, 13817,
  13876, 13936, 13995, 14054, 14114, 14173, 14233, 14292, 14351, 14411, 14471, 14530, 14590, 14649, 14709, 14769, 14828, 14888, 14948, 15007, 15067, 15127, 15187, 15247,
  15307, 15367, 15426, 15486, 15546, 15606, 15666, 15727, 15787, 15847, 15907, 15967, 16027, 16088, 16148, 16208, 16268, 16329, 16389, 16449, 16510, 16570, 16631, 16691,
  16752, 16812, 16873, 16934, 16994, 17055, 17116, 17176, 17237, 17298, 17359, 17420, 17481, 17541, 17602, 17663, 17724, 17785, 17846, 17908, 17969, 18030, 18091, 18152,
  18214, 18275, 18336, 18397, 18459, 18520, 18582, 18643, 18705, 18766, 18828, 18889, 18951, 19013, 19074, 19136, 19198, 19260, 19322, 19384, 19446, 19507, 19569, 19631,
  19694, 19756, 19818, 19880, 19942, 20004, 20067, 20129, 20191, 20254, 20316, 20379, 20441, 20504, 20566, 20629, 20691, 20754, 20817, 20880, 20942, 21005, 21068, 21131,
  21194, 21257, 21320, 21383, 21446, 21509, 21572, 21636, 21699, 21762, 21826, 21889, 21952, 22016, 22079, 22143, 22207, 22270, 22334, 22398, 22461, 22525, 22589, 22653,
  22717, 22781, 22845, 22909, 22973, 23037, 23101, 23166, 23230, 23294, 23359, 23423, 23488, 23552, 23617, 23681, 23746, 23811, 23875, 23940, 24005, 24070, 24135, 24200,
  24265, 24330, 24395, 24460, 24525, 24591, 24656, 24721, 24787, 24852, 24918, 24983, 25049, 25115, 25180, 25246, 25312, 25378, 25444, 25510, 25576, 25642, 25708, 25774,
  25840, 25906, 25973, 26039, 26106, 26172, 26239, 26305, 26372, 26439, 26505, 26572, 26639, 26706, 26773, 26840, 26907, 26974, 27042, 27109, 27176, 27244, 27311, 27379,
  27446, 27514, 27581, 27649, 27717, 27785, 27853, 27921, 27989, 28057, 28125, 28193, 28261, 28330, 28398, 28467, 28535, 28604, 28672, 28741, 28810, 28879, 28948, 29017,
  29086, 29155, 29224, 29293, 29362, 29432, 29501, 29571, 29640, 29710, 29780, 29849, 29919, 29989, 30059, 30129, 30199, 30269, 30340, 30410, 30480, 30551, 30621, 30692,
  30762, 30833, 30904, 30975, 31046, 31117, 31188, 31259, 31330, 31402, 31473, 31545, 31616, 31688, 31759, 31831, 31903, 31975, 32047, 32119, 32191, 32263, 32336, 32408,
  32481, 32553, 32626, 32698, 32771, 32844, 32917, 32990, 33063, 33136, 33210, 33283, 33356, 33430, 33504, 33577, 33651, 33725, 33799, 33873, 33947, 34021, 34096, 34170,
  34244, 34319, 34394, 34468, 34543, 34618, 34693, 34768, 34843, 34919, 34994, 35070, 35145, 35221, 35297, 35372, 35448, 35524, 35601, 35677, 35753, 35830, 35906, 35983,
  36059, 36136, 36213, 36290, 36367, 36444, 36522, 36599, 36677, 36754, 36832, 36910, 36988, 37066, 37144, 37222, 37301, 37379, 37458, 37536, 37615, 37694, 37773, 37852,
  37931, 38011, 38090, 38170, 38249, 38329, 38409, 38489, 38569, 38650, 38730, 38811, 38891, 38972, 39053, 39134, 39215, 39296, 39377, 39459, 39540, 39622, 39704, 39786,
  39868, 39950, 40032, 40115, 40197, 40280, 40363, 40445, 40529, 40612, 40695, 40779, 40862, 40946, 41030, 41114, 41198, 41282, 41367, 41451, 41536, 41621, 41706, 41791,
  41876, 41961, 42047, 42133, 42218, 42304, 42390, 42477, 42563, 42650, 42736, 42823, 42910, 42997, 43085, 43172, 43260, 43348, 43435, 43523, 43612, 43700, 43789, 43877,
  43966, 44055, 44144, 44234, 44323, 44413, 44503, 44593, 44683, 44773, 44864, 44955, 45046, 45137, 45228, 45319, 45411, 45503, 45595, 45687, 45779, 45871, 45964, 46057,
  46150, 46243, 46337, 46430, 46524, 46618, 46712, 46806, 46901, 46996, 47091, 47186, 47281, 47377, 47473, 47569, 47665, 47761, 47858, 47954, 48051, 48148, 48246, 48344,
  48441, 48539, 48638, 48736, 48835, 48934, 49033, 49132, 49232, 49332, 49432, 49532, 49633, 49734, 49835, 49936, 50037, 50139, 50241, 50343, 50445, 50548, 50651, 50754,
  50858, 50961, 51065, 51170, 51274, 51379, 51484, 51589, 51695, 51800, 51907, 52013, 52119, 52226, 52333, 52441, 52549, 52657, 52765, 52874, 52982, 53092, 53201, 53311,
  53421, 53531, 53642, 53753, 53864, 53976, 54088, 54200, 54313, 54425, 54539, 54652, 54766, 54880, 54995, 55110, 55225, 55340, 55456, 55572, 55689, 55806, 55923, 56041,
  56159, 56277, 56396, 56515, 56635, 56754, 56875, 56995, 57116, 57238, 57360, 57482, 57605, 57727, 57851, 57975, 58099, 58224, 58349, 58474, 58600, 58727, 58853, 58981,
  59108, 59236, 59365, 59494, 59624, 59754, 59884, 60015, 60147, 60279, 60411, 60544, 60677, 60811, 60945, 61080, 61216, 61352, 61488, 61625, 61763, 61901, 62040, 62179,
  62319, 62459, 62600, 62742, 62884, 63027, 63170, 63314, 63458, 63603, 63749, 63896, 64043, 64190, 64339, 64488, 64637, 64788, 64939, 65091, 65243, 65396, 65550, 65705,
  65860, 66016, 66173, 66330, 66489, 66648, 66808, 66969, 67130, 67292, 67456, 67620, 67785, 67950, 68117, 68285, 68453, 68622, 68792, 68964, 69136, 69309, 69483, 69658,
  69834, 70011, 70189, 70368, 70548, 70730, 70912, 71095, 71280, 71465, 71652, 71840, 72029, 72220, 72412, 72604, 72799, 72994, 73191, 73389, 73588, 73789, 73991, 74195,
  74400, 74607, 74814, 75024, 75235, 75448, 75662, 75878, 76095, 76315, 76535, 76758, 76983, 77209, 77437, 77667, 77899, 78133, 78369, 78607, 78847, 79090, 79334, 79581,
  79829, 80081, 80334, 80590, 80849, 81110, 81374, 81640, 81909, 82181, 82456, 82733, 83014, 83298, 83585, 83875, 84168, 84465, 84765, 85069, 85377, 85689, 86004, 86323,
  86647, 86975, 87307, 87644, 87986, 88332, 88683, 89040, 89402, 89769, 90142, 90521, 90907, 91298, 91697, 92102, 92514, 92934, 93362, 93797, 94241, 94694, 95157, 95629,
  96110, 96603, 97107, 97622, 98150, 98691, 99246, 99815, 100400, 101001, 101620, 102257, 102915, 103594, 104295, 105022, 105775, 106557, 107371, 108219, 109106, 110034, 111008, 112035,
  113119, 114269, 115494, 116805, 118217, 119749, 121423, 123273, 125343, 127697, 130437, 133726, 137868]

/-- The coefficients of `erf`, for arguments multiplied by 2^16. -/
def rl2 : List ℕ := [2 ^ 134, 9465447 * 2 ^ 91, 11349991 * 2 ^ 74, 9954153 * 2 ^ 56, 10446343 * 2 ^ 34, 9502777 * 2 ^ 19, 11837287]

theorem hor_rl2 (b : ℝ) : hor rl2 (2 ^ 16 * b) = 2 ^ 134 * RR b := by
  simp only [rl2, hor_cons, RR]
  simp only [hor, List.foldr_nil]
  push_cast
  ring

/-- The table of logarithms at `i`. -/
def logOk (i X : ℕ) : Bool :=
  Nat.ble (30 * (2 ^ 464 * Nat.factorial 29) * (2 ^ 20 - i * i) + 30 * 2 ^ 20 * hn eM30 X + 16 * X ^ 30) (30 * 2 ^ 20 * hn eP30 X) &&
  Nat.ble (30 * 2 ^ 20 * hn eP30 (X + 1) + 16 * (X + 1) ^ 30) (30 * (2 ^ 464 * Nat.factorial 29) * (2 ^ 20 - i * i) + 30 * 2 ^ 20 * hn eM30 (X + 1))

/-- The cell from `i / 1024` to `(i + 1) / 1024`. -/
def cellOk (i X Y l h : ℕ) : Bool :=
  (Nat.ble l 0 || Nat.ble ((l + 2) * (1024 * 2 ^ 166) + i * hn lM X) (i * hn lP X)) &&
  Nat.ble ((i + 1) * hn lP (Y + 1) + 2 * (1024 * 2 ^ 166)) (h * (1024 * 2 ^ 166) + (i + 1) * hn lM (Y + 1)) &&
  Nat.ble ((1024 * 10 ^ 6 + 1024) * hn rl2 h ^ 16) (1024 * 10 ^ 6 * (2 ^ 134) ^ 16 + (i * 10 ^ 6 + 1024 * 1250) * hn rl2 h ^ 16) &&
  Nat.ble (((i + 1) * 10 ^ 6 + 1024) * hn rl2 l ^ 16 + 1024 * 10 ^ 6 * (2 ^ 134) ^ 16) ((1024 * 10 ^ 6 + 1024 * 1250) * hn rl2 l ^ 16)

def logsOk : ℕ → List ℕ → Bool
  | _, [] => true
  | i, X :: l => logOk i X && logsOk (i + 1) l

def cellsOk : ℕ → List ℕ → List ℕ → List ℕ → Bool
  | i, X :: Y :: l, a :: as, b :: bs => cellOk i X Y a b && cellsOk (i + 1) (Y :: l) as bs
  | _, _, _, _ => true

theorem logs_ok : logsOk 0 logTab = true := by decide +kernel

theorem cells_ok : cellsOk 0 logTab loTab hiTab = true := by decide +kernel

end Nanostl.Math
