import Verif.Model.Keys

/-
  Model of /repo/src/unicode.c.
-/

namespace Keyd

/-- `unicode_table`, unicode.c:7, run-length encoded as (first code point,
number of consecutive code points), in table order: the C table is the
concatenation of these runs (34493 entries). Generated from the source. -/
def unicodeRuns : List (Nat × Nat) := [
(128, 760), (890, 6), (900, 7), (908, 1), (910, 20), (931, 397), (1329, 38), (1369, 50), (1421, 3), 
(1425, 55), (1488, 27), (1519, 6), (1536, 270), (1807, 60), (1869, 101), (1984, 59), (2045, 49), 
(2096, 15), (2112, 28), (2142, 1), (2144, 11), (2160, 31), (2192, 2), (2200, 236), (2437, 8), 
(2447, 2), (2451, 22), (2474, 7), (2482, 1), (2486, 4), (2492, 9), (2503, 2), (2507, 4), (2519, 1), 
(2524, 2), (2527, 5), (2534, 25), (2561, 3), (2565, 6), (2575, 2), (2579, 22), (2602, 7), (2610, 
2), (2613, 2), (2616, 2), (2620, 1), (2622, 5), (2631, 2), (2635, 3), (2641, 1), (2649, 4), (2654, 
1), (2662, 17), (2689, 3), (2693, 9), (2703, 3), (2707, 22), (2730, 7), (2738, 2), (2741, 5), 
(2748, 10), (2759, 3), (2763, 3), (2768, 1), (2784, 4), (2790, 12), (2809, 7), (2817, 3), (2821, 
8), (2831, 2), (2835, 22), (2858, 7), (2866, 2), (2869, 5), (2876, 9), (2887, 2), (2891, 3), (2901, 
3), (2908, 2), (2911, 5), (2918, 18), (2946, 2), (2949, 6), (2958, 3), (2962, 4), (2969, 2), (2972, 
1), (2974, 2), (2979, 2), (2984, 3), (2990, 12), (3006, 5), (3014, 3), (3018, 4), (3024, 1), (3031, 
1), (3046, 21), (3072, 13), (3086, 3), (3090, 23), (3114, 16), (3132, 9), (3142, 3), (3146, 4), 
(3157, 2), (3160, 3), (3165, 1), (3168, 4), (3174, 10), (3191, 22), (3214, 3), (3218, 23), (3242, 
10), (3253, 5), (3260, 9), (3270, 3), (3274, 4), (3285, 2), (3293, 2), (3296, 4), (3302, 10), 
(3313, 2), (3328, 13), (3342, 3), (3346, 51), (3398, 3), (3402, 6), (3412, 16), (3430, 26), (3457, 
3), (3461, 18), (3482, 24), (3507, 9), (3517, 1), (3520, 7), (3530, 1), (3535, 6), (3542, 1), 
(3544, 8), (3558, 10), (3570, 3), (3585, 58), (3647, 29), (3713, 2), (3716, 1), (3718, 5), (3724, 
24), (3749, 1), (3751, 23), (3776, 5), (3782, 1), (3784, 6), (3792, 10), (3804, 4), (3840, 72), 
(3913, 36), (3953, 39), (3993, 36), (4030, 15), (4046, 13), (4096, 198), (4295, 1), (4301, 1), 
(4304, 377), (4682, 4), (4688, 7), (4696, 1), (4698, 4), (4704, 41), (4746, 4), (4752, 33), (4786, 
4), (4792, 7), (4800, 1), (4802, 4), (4808, 15), (4824, 57), (4882, 4), (4888, 67), (4957, 32), 
(4992, 26), (5024, 86), (5112, 6), (5120, 669), (5792, 89), (5888, 22), (5919, 24), (5952, 20), 
(5984, 13), (5998, 3), (6002, 2), (6016, 94), (6112, 10), (6128, 10), (6144, 26), (6176, 89), 
(6272, 43), (6320, 70), (6400, 31), (6432, 12), (6448, 12), (6464, 1), (6468, 42), (6512, 5), 
(6528, 44), (6576, 26), (6608, 11), (6622, 62), (6686, 65), (6752, 29), (6783, 11), (6800, 10), 
(6816, 14), (6832, 31), (6912, 77), (6992, 47), (7040, 116), (7164, 60), (7227, 15), (7245, 60), 
(7312, 43), (7357, 11), (7376, 43), (7424, 534), (7960, 6), (7968, 38), (8008, 6), (8016, 8), 
(8025, 1), (8027, 1), (8029, 1), (8031, 31), (8064, 53), (8118, 15), (8134, 14), (8150, 6), (8157, 
19), (8178, 3), (8182, 9), (8192, 101), (8294, 12), (8308, 27), (8336, 13), (8352, 33), (8400, 33), 
(8448, 140), (8592, 663), (9280, 11), (9312, 1812), (11126, 32), (11159, 349), (11513, 45), (11559, 
1), (11565, 1), (11568, 56), (11631, 2), (11647, 24), (11680, 7), (11688, 7), (11696, 7), (11704, 
7), (11712, 7), (11720, 7), (11728, 7), (11736, 7), (11744, 126), (11904, 26), (11931, 89), (12032, 
214), (12272, 12), (12288, 64), (12353, 86), (12441, 103), (12549, 43), (12593, 94), (12688, 84), 
(12784, 47), (12832, 481), (19903, 66), (40959, 1166), (42128, 55), (42192, 348), (42560, 184), 
(42752, 203), (42960, 2), (42963, 1), (42965, 5), (42994, 59), (43056, 10), (43072, 56), (43136, 
70), (43214, 12), (43232, 116), (43359, 30), (43392, 78), (43471, 11), (43486, 33), (43520, 55), 
(43584, 14), (43600, 10), (43612, 103), (43739, 28), (43777, 6), (43785, 6), (43793, 6), (43808, 
7), (43816, 7), (43824, 60), (43888, 126), (44016, 10), (44032, 1), (55203, 1), (55216, 23), 
(55243, 49), (57344, 1), (63743, 367), (64112, 106), (64256, 7), (64275, 5), (64285, 26), (64312, 
5), (64318, 1), (64320, 2), (64323, 2), (64326, 125), (64467, 445), (64914, 54), (64975, 1), 
(65008, 42), (65056, 51), (65108, 19), (65128, 4), (65136, 5), (65142, 135), (65279, 1), (65281, 
190), (65474, 6), (65482, 6), (65490, 6), (65498, 3), (65504, 7), (65512, 7), (65529, 5), (65536, 
12), (65549, 26), (65576, 19), (65596, 2), (65599, 15), (65616, 14), (65664, 123), (65792, 3), 
(65799, 45), (65847, 88), (65936, 13), (65952, 1), (66000, 46), (66176, 29), (66208, 49), (66272, 
28), (66304, 36), (66349, 30), (66384, 43), (66432, 30), (66463, 37), (66504, 14), (66560, 158), 
(66720, 10), (66736, 36), (66776, 36), (66816, 40), (66864, 52), (66927, 12), (66940, 15), (66956, 
7), (66964, 2), (66967, 11), (66979, 15), (66995, 7), (67003, 2), (67072, 311), (67392, 22), 
(67424, 8), (67456, 6), (67463, 42), (67506, 9), (67584, 6), (67592, 1), (67594, 44), (67639, 2), 
(67644, 1), (67647, 23), (67671, 72), (67751, 9), (67808, 19), (67828, 2), (67835, 33), (67871, 
27), (67903, 1), (67968, 56), (68028, 20), (68050, 50), (68101, 2), (68108, 8), (68117, 3), (68121, 
29), (68152, 3), (68159, 10), (68176, 9), (68192, 64), (68288, 39), (68331, 12), (68352, 54), 
(68409, 29), (68440, 27), (68472, 26), (68505, 4), (68521, 7), (68608, 73), (68736, 51), (68800, 
51), (68858, 46), (68912, 10), (69216, 31), (69248, 42), (69291, 3), (69296, 2), (69376, 40), 
(69424, 42), (69488, 26), (69552, 28), (69600, 23), (69632, 78), (69714, 36), (69759, 68), (69837, 
1), (69840, 25), (69872, 10), (69888, 53), (69942, 18), (69968, 39), (70016, 96), (70113, 20), 
(70144, 18), (70163, 44), (70272, 7), (70280, 1), (70282, 4), (70287, 15), (70303, 11), (70320, 
59), (70384, 10), (70400, 4), (70405, 8), (70415, 2), (70419, 22), (70442, 7), (70450, 2), (70453, 
5), (70459, 10), (70471, 2), (70475, 3), (70480, 1), (70487, 1), (70493, 7), (70502, 7), (70512, 
5), (70656, 92), (70749, 5), (70784, 72), (70864, 10), (71040, 54), (71096, 38), (71168, 69), 
(71248, 10), (71264, 13), (71296, 58), (71360, 10), (71424, 27), (71453, 15), (71472, 23), (71680, 
60), (71840, 83), (71935, 8), (71945, 1), (71948, 8), (71957, 2), (71960, 30), (71991, 2), (71995, 
12), (72016, 10), (72096, 8), (72106, 46), (72154, 11), (72192, 72), (72272, 83), (72368, 73), 
(72704, 9), (72714, 45), (72760, 14), (72784, 29), (72816, 32), (72850, 22), (72873, 14), (72960, 
7), (72968, 2), (72971, 44), (73018, 1), (73020, 2), (73023, 9), (73040, 10), (73056, 6), (73063, 
2), (73066, 37), (73104, 2), (73107, 6), (73120, 10), (73440, 25), (73648, 1), (73664, 50), (73727, 
923), (74752, 111), (74864, 5), (74880, 196), (77712, 99), (77824, 1071), (78896, 9), (82944, 583), 
(92160, 569), (92736, 31), (92768, 10), (92782, 81), (92864, 10), (92880, 30), (92912, 6), (92928, 
70), (93008, 10), (93019, 7), (93027, 21), (93053, 19), (93760, 91), (93952, 75), (94031, 57), 
(94095, 17), (94176, 5), (94192, 2), (94208, 1), (100343, 1), (100352, 1238), (101632, 1), (101640, 
1), (110576, 4), (110581, 7), (110589, 2), (110592, 291), (110928, 3), (110948, 4), (110960, 396), 
(113664, 107), (113776, 13), (113792, 9), (113808, 10), (113820, 8), (118528, 46), (118576, 23), 
(118608, 116), (118784, 246), (119040, 39), (119081, 194), (119296, 70), (119520, 20), (119552, 
87), (119648, 25), (119808, 85), (119894, 71), (119966, 2), (119970, 1), (119973, 2), (119977, 4), 
(119982, 12), (119995, 1), (119997, 7), (120005, 65), (120071, 4), (120077, 8), (120086, 7), 
(120094, 28), (120123, 4), (120128, 5), (120134, 1), (120138, 7), (120146, 340), (120488, 292), 
(120782, 702), (121499, 5), (121505, 15), (122624, 31), (122880, 7), (122888, 17), (122907, 7), 
(122915, 2), (122918, 5), (123136, 45), (123184, 14), (123200, 10), (123214, 2), (123536, 31), 
(123584, 58), (123647, 1), (124896, 7), (124904, 4), (124909, 2), (124912, 15), (124928, 197), 
(125127, 16), (125184, 76), (125264, 10), (125278, 2), (126065, 68), (126209, 61), (126464, 4), 
(126469, 27), (126497, 2), (126500, 1), (126503, 1), (126505, 10), (126516, 4), (126521, 1), 
(126523, 1), (126530, 1), (126535, 1), (126537, 1), (126539, 1), (126541, 3), (126545, 2), (126548, 
1), (126551, 1), (126553, 1), (126555, 1), (126557, 1), (126559, 1), (126561, 2), (126564, 1), 
(126567, 4), (126572, 7), (126580, 4), (126585, 4), (126590, 1), (126592, 10), (126603, 17), 
(126625, 3), (126629, 5), (126635, 17), (126704, 2), (126976, 44), (127024, 100), (127136, 15), 
(127153, 15), (127169, 15), (127185, 37), (127232, 174), (127462, 29), (127504, 44), (127552, 9), 
(127568, 2), (127584, 6), (127744, 984), (128733, 16), (128752, 13), (128768, 116), (128896, 89), 
(128992, 12), (129008, 1), (129024, 12), (129040, 56), (129104, 10), (129120, 40), (129168, 30), 
(129200, 2), (129280, 340), (129632, 14), (129648, 5), (129656, 5), (129664, 7), (129680, 29), 
(129712, 11), (129728, 6), (129744, 10), (129760, 8), (129776, 7), (129792, 147), (129940, 55), 
(130032, 10), (131072, 1), (173791, 1), (173824, 1), (177976, 1), (177984, 1), (178205, 1), 
(178208, 1), (183969, 1), (183984, 1), (191456, 1), (194560, 542), (196608, 1), (201546, 1), 
(917505, 1), (917536, 96), (917760, 240), (31169, 1), (983040, 1), (1048573, 1), (1048576, 1), 
(1114109, 1)
]

/-- Index of the first table entry equal to `cp`, `base` being the index of
the first entry of the first run. -/
def unicodeLookupRuns (cp : Nat) : List (Nat × Nat) → Nat → Option Nat
  | [], _ => none
  | (start, n) :: rs, base =>
    if start ≤ cp ∧ cp < start + n then some (base + (cp - start))
    else unicodeLookupRuns cp rs (base + n)

/-- `unicode_lookup_index`, unicode.c:9-19 (`none` is -1). -/
def unicodeLookupIndex (cp : Nat) : Option Nat := unicodeLookupRuns cp unicodeRuns 0

/-- The `chars[]` array of `unicode_get_sequence`, unicode.c:23-29. -/
def unicodeChars : List Code :=
  [KEYD.«0», KEYD.«1», KEYD.«2», KEYD.«3», KEYD.«4», KEYD.«5», KEYD.«6», KEYD.«7»,
   KEYD.«8», KEYD.«9», KEYD.A, KEYD.B, KEYD.C, KEYD.D, KEYD.E, KEYD.F,
   KEYD.G, KEYD.H, KEYD.I, KEYD.J, KEYD.K, KEYD.L, KEYD.M, KEYD.N,
   KEYD.O, KEYD.P, KEYD.Q, KEYD.R, KEYD.S, KEYD.T, KEYD.U, KEYD.V,
   KEYD.W, KEYD.X, KEYD.Y, KEYD.Z]

/-- `unicode_get_sequence`, unicode.c:21-35. -/
def unicodeGetSequence (idx : Nat) : List Code :=
  [KEYD.CANCEL,
   unicodeChars.getD (idx / (36 * 36) % 36) 0,
   unicodeChars.getD (idx / 36 % 36) 0,
   unicodeChars.getD (idx % 36) 0]

end Keyd
