import Verif.Basic
set_option maxRecDepth 20000

/-!
# Model of the G.711 tables (`src/g711.h`)

The tables are copied from the text by `tools/g711.py`; the two large ones are written as runs `(length, value)`.  A
sample is an integer, a 16-bit one if it is in the range of `int16_t`; `>>` on a negative number is the arithmetic shift
of the compilers in use, i.e. division rounding down.
-/

namespace Verif.G711

/-- Entry `i` of a table written as runs; `none` is beyond its end. -/
def lookup : List (Nat × UInt8) → Nat → Option UInt8
  | [], _ => none
  | (n, v) :: r, i => if i < n then some v else lookup r (i - n)

/-- `_u2sl`, g711.h:34-67. -/
def u2sl : List Int :=
  [-32124, -31100, -30076, -29052, -28028, -27004, -25980, -24956, -23932, -22908, -21884, -20860, -19836, -18812,
  -17788, -16764, -15996, -15484, -14972, -14460, -13948, -13436, -12924, -12412, -11900, -11388, -10876, -10364,
  -9852, -9340, -8828, -8316, -7932, -7676, -7420, -7164, -6908, -6652, -6396, -6140, -5884, -5628, -5372, -5116,
  -4860, -4604, -4348, -4092, -3900, -3772, -3644, -3516, -3388, -3260, -3132, -3004, -2876, -2748, -2620, -2492,
  -2364, -2236, -2108, -1980, -1884, -1820, -1756, -1692, -1628, -1564, -1500, -1436, -1372, -1308, -1244, -1180,
  -1116, -1052, -988, -924, -876, -844, -812, -780, -748, -716, -684, -652, -620, -588, -556, -524, -492, -460, -428,
  -396, -372, -356, -340, -324, -308, -292, -276, -260, -244, -228, -212, -196, -180, -164, -148, -132, -120, -112,
  -104, -96, -88, -80, -72, -64, -56, -48, -40, -32, -24, -16, -8, -2, 32124, 31100, 30076, 29052, 28028, 27004,
  25980, 24956, 23932, 22908, 21884, 20860, 19836, 18812, 17788, 16764, 15996, 15484, 14972, 14460, 13948, 13436,
  12924, 12412, 11900, 11388, 10876, 10364, 9852, 9340, 8828, 8316, 7932, 7676, 7420, 7164, 6908, 6652, 6396, 6140,
  5884, 5628, 5372, 5116, 4860, 4604, 4348, 4092, 3900, 3772, 3644, 3516, 3388, 3260, 3132, 3004, 2876, 2748, 2620,
  2492, 2364, 2236, 2108, 1980, 1884, 1820, 1756, 1692, 1628, 1564, 1500, 1436, 1372, 1308, 1244, 1180, 1116, 1052,
  988, 924, 876, 844, 812, 780, 748, 716, 684, 652, 620, 588, 556, 524, 492, 460, 428, 396, 372, 356, 340, 324, 308,
  292, 276, 260, 244, 228, 212, 196, 180, 164, 148, 132, 120, 112, 104, 96, 88, 80, 72, 64, 56, 48, 40, 32, 24, 16,
  8, 2]

/-- `_A2sl`, g711.h:69-102. -/
def a2sl : List Int :=
  [-5504, -5248, -6016, -5760, -4480, -4224, -4992, -4736, -7552, -7296, -8064, -7808, -6528, -6272, -7040, -6784,
  -2752, -2624, -3008, -2880, -2240, -2112, -2496, -2368, -3776, -3648, -4032, -3904, -3264, -3136, -3520, -3392,
  -22016, -20992, -24064, -23040, -17920, -16896, -19968, -18944, -30208, -29184, -32256, -31232, -26112, -25088,
  -28160, -27136, -11008, -10496, -12032, -11520, -8960, -8448, -9984, -9472, -15104, -14592, -16128, -15616, -13056,
  -12544, -14080, -13568, -344, -328, -376, -360, -280, -264, -312, -296, -472, -456, -504, -488, -408, -392, -440,
  -424, -88, -72, -120, -104, -24, -8, -56, -40, -216, -200, -248, -232, -152, -136, -184, -168, -1376, -1312, -1504,
  -1440, -1120, -1056, -1248, -1184, -1888, -1824, -2016, -1952, -1632, -1568, -1760, -1696, -688, -656, -752, -720,
  -560, -528, -624, -592, -944, -912, -1008, -976, -816, -784, -880, -848, 5504, 5248, 6016, 5760, 4480, 4224, 4992,
  4736, 7552, 7296, 8064, 7808, 6528, 6272, 7040, 6784, 2752, 2624, 3008, 2880, 2240, 2112, 2496, 2368, 3776, 3648,
  4032, 3904, 3264, 3136, 3520, 3392, 22016, 20992, 24064, 23040, 17920, 16896, 19968, 18944, 30208, 29184, 32256,
  31232, 26112, 25088, 28160, 27136, 11008, 10496, 12032, 11520, 8960, 8448, 9984, 9472, 15104, 14592, 16128, 15616,
  13056, 12544, 14080, 13568, 344, 328, 376, 360, 280, 264, 312, 296, 472, 456, 504, 488, 408, 392, 440, 424, 88, 72,
  120, 104, 24, 8, 56, 40, 216, 200, 248, 232, 152, 136, 184, 168, 1376, 1312, 1504, 1440, 1120, 1056, 1248, 1184,
  1888, 1824, 2016, 1952, 1632, 1568, 1760, 1696, 688, 656, 752, 720, 560, 528, 624, 592, 944, 912, 1008, 976, 816,
  784, 880, 848]

/-- `_sl2u`, g711.h:118-1485. -/
def sl2u : List (Nat × UInt8) :=
  [(290, 0), (256, 1), (256, 2), (256, 3), (256, 4), (256, 5), (256, 6), (256, 7), (256, 8), (256, 9), (256, 10),
  (256, 11), (256, 12), (256, 13), (256, 14), (256, 15), (128, 16), (128, 17), (128, 18), (128, 19), (128, 20),
  (128, 21), (128, 22), (128, 23), (128, 24), (128, 25), (128, 26), (128, 27), (128, 28), (128, 29), (128, 30),
  (128, 31), (64, 32), (64, 33), (64, 34), (64, 35), (64, 36), (64, 37), (64, 38), (64, 39), (64, 40), (64, 41),
  (64, 42), (64, 43), (64, 44), (64, 45), (64, 46), (64, 47), (32, 48), (32, 49), (32, 50), (32, 51), (32, 52),
  (32, 53), (32, 54), (32, 55), (32, 56), (32, 57), (32, 58), (32, 59), (32, 60), (32, 61), (32, 62), (32, 63),
  (16, 64), (16, 65), (16, 66), (16, 67), (16, 68), (16, 69), (16, 70), (16, 71), (16, 72), (16, 73), (16, 74),
  (16, 75), (16, 76), (16, 77), (16, 78), (16, 79), (8, 80), (8, 81), (8, 82), (8, 83), (8, 84), (8, 85), (8, 86),
  (8, 87), (8, 88), (8, 89), (8, 90), (8, 91), (8, 92), (8, 93), (8, 94), (8, 95), (4, 96), (4, 97), (4, 98),
  (4, 99), (4, 100), (4, 101), (4, 102), (4, 103), (4, 104), (4, 105), (4, 106), (4, 107), (4, 108), (4, 109),
  (4, 110), (4, 111), (2, 112), (2, 113), (2, 114), (2, 115), (2, 116), (2, 117), (2, 118), (2, 119), (2, 120),
  (2, 121), (2, 122), (2, 123), (2, 124), (2, 125), (2, 126), (1, 255), (2, 254), (2, 253), (2, 252), (2, 251),
  (2, 250), (2, 249), (2, 248), (2, 247), (2, 246), (2, 245), (2, 244), (2, 243), (2, 242), (2, 241), (2, 240),
  (4, 239), (4, 238), (4, 237), (4, 236), (4, 235), (4, 234), (4, 233), (4, 232), (4, 231), (4, 230), (4, 229),
  (4, 228), (4, 227), (4, 226), (4, 225), (4, 224), (8, 223), (8, 222), (8, 221), (8, 220), (8, 219), (8, 218),
  (8, 217), (8, 216), (8, 215), (8, 214), (8, 213), (8, 212), (8, 211), (8, 210), (8, 209), (8, 208), (16, 207),
  (16, 206), (16, 205), (16, 204), (16, 203), (16, 202), (16, 201), (16, 200), (16, 199), (16, 198), (16, 197),
  (16, 196), (16, 195), (16, 194), (16, 193), (16, 192), (32, 191), (32, 190), (32, 189), (32, 188), (32, 187),
  (32, 186), (32, 185), (32, 184), (32, 183), (32, 182), (32, 181), (32, 180), (32, 179), (32, 178), (32, 177),
  (32, 176), (64, 175), (64, 174), (64, 173), (64, 172), (64, 171), (64, 170), (64, 169), (64, 168), (64, 167),
  (64, 166), (64, 165), (64, 164), (64, 163), (64, 162), (64, 161), (64, 160), (128, 159), (128, 158), (128, 157),
  (128, 156), (128, 155), (128, 154), (128, 153), (128, 152), (128, 151), (128, 150), (128, 149), (128, 148),
  (128, 147), (128, 146), (128, 145), (128, 144), (256, 143), (256, 142), (256, 141), (256, 140), (256, 139),
  (256, 138), (256, 137), (256, 136), (256, 135), (256, 134), (256, 133), (256, 132), (256, 131), (256, 130),
  (256, 129), (289, 128)]

/-- `_sl2A`, g711.h:1487-2171. -/
def sl2a : List (Nat × UInt8) :=
  [(128, 42), (128, 43), (128, 40), (128, 41), (128, 46), (128, 47), (128, 44), (128, 45), (128, 34), (128, 35),
  (128, 32), (128, 33), (128, 38), (128, 39), (128, 36), (128, 37), (64, 58), (64, 59), (64, 56), (64, 57), (64, 62),
  (64, 63), (64, 60), (64, 61), (64, 50), (64, 51), (64, 48), (64, 49), (64, 54), (64, 55), (64, 52), (64, 53),
  (32, 10), (32, 11), (32, 8), (32, 9), (32, 14), (32, 15), (32, 12), (32, 13), (32, 2), (32, 3), (32, 0), (32, 1),
  (32, 6), (32, 7), (32, 4), (32, 5), (16, 26), (16, 27), (16, 24), (16, 25), (16, 30), (16, 31), (16, 28), (16, 29),
  (16, 18), (16, 19), (16, 16), (16, 17), (16, 22), (16, 23), (16, 20), (16, 21), (8, 106), (8, 107), (8, 104),
  (8, 105), (8, 110), (8, 111), (8, 108), (8, 109), (8, 98), (8, 99), (8, 96), (8, 97), (8, 102), (8, 103), (8, 100),
  (8, 101), (4, 122), (4, 123), (4, 120), (4, 121), (4, 126), (4, 127), (4, 124), (4, 125), (4, 114), (4, 115),
  (4, 112), (4, 113), (4, 118), (4, 119), (4, 116), (4, 117), (2, 74), (2, 75), (2, 72), (2, 73), (2, 78), (2, 79),
  (2, 76), (2, 77), (2, 66), (2, 67), (2, 64), (2, 65), (2, 70), (2, 71), (2, 68), (2, 69), (2, 90), (2, 91),
  (2, 88), (2, 89), (2, 94), (2, 95), (2, 92), (2, 93), (2, 82), (2, 83), (2, 80), (2, 81), (2, 86), (2, 87),
  (2, 84), (2, 85), (2, 213), (2, 212), (2, 215), (2, 214), (2, 209), (2, 208), (2, 211), (2, 210), (2, 221),
  (2, 220), (2, 223), (2, 222), (2, 217), (2, 216), (2, 219), (2, 218), (2, 197), (2, 196), (2, 199), (2, 198),
  (2, 193), (2, 192), (2, 195), (2, 194), (2, 205), (2, 204), (2, 207), (2, 206), (2, 201), (2, 200), (2, 203),
  (2, 202), (4, 245), (4, 244), (4, 247), (4, 246), (4, 241), (4, 240), (4, 243), (4, 242), (4, 253), (4, 252),
  (4, 255), (4, 254), (4, 249), (4, 248), (4, 251), (4, 250), (8, 229), (8, 228), (8, 231), (8, 230), (8, 225),
  (8, 224), (8, 227), (8, 226), (8, 237), (8, 236), (8, 239), (8, 238), (8, 233), (8, 232), (8, 235), (8, 234),
  (16, 149), (16, 148), (16, 151), (16, 150), (16, 145), (16, 144), (16, 147), (16, 146), (16, 157), (16, 156),
  (16, 159), (16, 158), (16, 153), (16, 152), (16, 155), (16, 154), (32, 133), (32, 132), (32, 135), (32, 134),
  (32, 129), (32, 128), (32, 131), (32, 130), (32, 141), (32, 140), (32, 143), (32, 142), (32, 137), (32, 136),
  (32, 139), (32, 138), (64, 181), (64, 180), (64, 183), (64, 182), (64, 177), (64, 176), (64, 179), (64, 178),
  (64, 189), (64, 188), (64, 191), (64, 190), (64, 185), (64, 184), (64, 187), (64, 186), (128, 165), (128, 164),
  (128, 167), (128, 166), (128, 161), (128, 160), (128, 163), (128, 162), (128, 173), (128, 172), (128, 175),
  (128, 174), (128, 169), (128, 168), (128, 171), (128, 170)]

/-- `_A2U`, g711.h:2173-2196. -/
def a2u : List UInt8 :=
  [41, 42, 39, 40, 45, 46, 43, 44, 33, 34, 31, 32, 37, 38, 35, 36, 57, 58, 55, 56, 61, 62, 59, 60, 49, 50, 47, 48,
  53, 54, 51, 52, 10, 11, 8, 9, 14, 15, 12, 13, 2, 3, 0, 1, 6, 7, 4, 5, 26, 27, 24, 25, 30, 31, 28, 29, 18, 19, 16,
  17, 22, 23, 20, 21, 98, 99, 96, 97, 102, 103, 100, 101, 93, 93, 92, 92, 95, 95, 94, 94, 116, 118, 112, 114, 124,
  126, 120, 122, 106, 107, 104, 105, 110, 111, 108, 109, 72, 73, 70, 71, 76, 77, 74, 75, 64, 65, 63, 63, 68, 69, 66,
  67, 86, 87, 84, 85, 90, 91, 88, 89, 79, 79, 78, 78, 82, 83, 80, 81, 169, 170, 167, 168, 173, 174, 171, 172, 161,
  162, 159, 160, 165, 166, 163, 164, 185, 186, 183, 184, 189, 190, 187, 188, 177, 178, 175, 176, 181, 182, 179, 180,
  138, 139, 136, 137, 142, 143, 140, 141, 130, 131, 128, 129, 134, 135, 132, 133, 154, 155, 152, 153, 158, 159, 156,
  157, 146, 147, 144, 145, 150, 151, 148, 149, 226, 227, 224, 225, 230, 231, 228, 229, 221, 221, 220, 220, 223, 223,
  222, 222, 244, 246, 240, 242, 252, 254, 248, 250, 234, 235, 232, 233, 238, 239, 236, 237, 200, 201, 198, 199, 204,
  205, 202, 203, 192, 193, 191, 191, 196, 197, 194, 195, 214, 215, 212, 213, 218, 219, 216, 217, 207, 207, 206, 206,
  210, 211, 208, 209]

/-- `_U2A`, g711.h:2198-2221. -/
def u2a : List UInt8 :=
  [42, 43, 40, 41, 46, 47, 44, 45, 34, 35, 32, 33, 38, 39, 36, 37, 58, 59, 56, 57, 62, 63, 60, 61, 50, 51, 48, 49,
  54, 55, 52, 53, 11, 8, 9, 14, 15, 12, 13, 2, 3, 0, 1, 6, 7, 4, 5, 26, 27, 24, 25, 30, 31, 28, 29, 18, 19, 16, 17,
  22, 23, 20, 21, 107, 104, 105, 110, 111, 108, 109, 98, 99, 96, 97, 102, 103, 100, 101, 123, 121, 126, 127, 124,
  125, 114, 115, 112, 113, 118, 119, 116, 117, 75, 73, 79, 77, 66, 67, 64, 65, 70, 71, 68, 69, 90, 91, 88, 89, 94,
  95, 92, 93, 82, 82, 83, 83, 80, 80, 81, 81, 86, 86, 87, 87, 84, 84, 85, 85, 170, 171, 168, 169, 174, 175, 172, 173,
  162, 163, 160, 161, 166, 167, 164, 165, 186, 187, 184, 185, 190, 191, 188, 189, 178, 179, 176, 177, 182, 183, 180,
  181, 139, 136, 137, 142, 143, 140, 141, 130, 131, 128, 129, 134, 135, 132, 133, 154, 155, 152, 153, 158, 159, 156,
  157, 146, 147, 144, 145, 150, 151, 148, 149, 235, 232, 233, 238, 239, 236, 237, 226, 227, 224, 225, 230, 231, 228,
  229, 251, 249, 254, 255, 252, 253, 242, 243, 240, 241, 246, 247, 244, 245, 203, 201, 207, 205, 194, 195, 192, 193,
  198, 199, 196, 197, 218, 219, 216, 217, 222, 223, 220, 221, 210, 210, 211, 211, 208, 208, 209, 209, 214, 214, 215,
  215, 212, 212, 213, 213]

/-- One step of `ULAW2SL`, g711.h:104-109. -/
def decU (c : UInt8) : Int := u2sl.getD c.toNat 0

/-- One step of `ALAW2SL`, g711.h:111-116. -/
def decA (c : UInt8) : Int := a2sl.getD c.toNat 0

/-- An access to `tab[i]` with a signed index. -/
def at' (tab : List (Nat × UInt8)) (i : Int) : Option UInt8 := if i < 0 then none else lookup tab i.toNat

/-- One step of `SL2ULAW`, g711.h:2223-2228; `none` is an access outside the table. -/
def encU (s : Int) : Option UInt8 := at' sl2u (s / 4 + 0x2000)

/-- One step of `SL2ALAW`, g711.h:2230-2235. -/
def encA (s : Int) : Option UInt8 := at' sl2a (s / 8 + 0x1000)

/-- One step of `ALAW2ULAW`, g711.h:2244-2249. -/
def transAU (c : UInt8) : UInt8 := a2u.getD c.toNat 0

/-- One step of `ULAW2ALAW`, g711.h:2237-2242. -/
def transUA (c : UInt8) : UInt8 := u2a.getD c.toNat 0

end Verif.G711
