/-
The tables of the parser, copied number by number from
lib/SPVM/Builder/src/spvm_yacc.c.
-/

namespace SPVM.Parse

/-- Entries 0-199 of `yytranslate` (spvm_yacc.c 518-558). -/
def yytranslate_0 : List Int :=
  [0, 2, 2, 2, 2, 2, 2, 2, 2, 2, 2, 2, 2, 2, 2, 2, 2, 2, 2, 2,
   2, 2, 2, 2, 2, 2, 2, 2, 2, 2, 2, 2, 2, 2, 2, 2, 2, 2, 2, 2,
   72, 136, 104, 101, 135, 102, 103, 2, 2, 2, 2, 2, 2, 2, 2, 2, 2, 2, 132, 133,
   2, 2, 2, 2, 113, 2, 2, 2, 2, 2, 2, 2, 2, 2, 2, 2, 2, 2, 2, 2,
   2, 2, 2, 2, 2, 2, 2, 2, 2, 2, 2, 70, 2, 131, 2, 2, 2, 2, 2, 2,
   2, 2, 2, 2, 2, 2, 2, 2, 2, 2, 2, 2, 2, 2, 2, 2, 2, 2, 2, 2,
   2, 2, 2, 71, 2, 134, 2, 2, 2, 2, 2, 2, 2, 2, 2, 2, 2, 2, 2, 2,
   2, 2, 2, 2, 2, 2, 2, 2, 2, 2, 2, 2, 2, 2, 2, 2, 2, 2, 2, 2,
   2, 2, 2, 2, 2, 2, 2, 2, 2, 2, 2, 2, 2, 2, 2, 2, 2, 2, 2, 2,
   2, 2, 2, 2, 2, 2, 2, 2, 2, 2, 2, 2, 2, 2, 2, 2, 2, 2, 2, 2]

/-- Entries 200-377 of `yytranslate` (spvm_yacc.c 518-558). -/
def yytranslate_1 : List Int :=
  [2, 2, 2, 2, 2, 2, 2, 2, 2, 2, 2, 2, 2, 2, 2, 2, 2, 2, 2, 2,
   2, 2, 2, 2, 2, 2, 2, 2, 2, 2, 2, 2, 2, 2, 2, 2, 2, 2, 2, 2,
   2, 2, 2, 2, 2, 2, 2, 2, 2, 2, 2, 2, 2, 2, 2, 2, 1, 2, 3, 4,
   5, 6, 7, 8, 9, 10, 11, 12, 13, 14, 15, 16, 17, 18, 19, 20, 21, 22, 23, 24,
   25, 26, 27, 28, 29, 30, 31, 32, 33, 34, 35, 36, 37, 38, 39, 40, 41, 42, 43, 44,
   45, 46, 47, 48, 49, 50, 51, 52, 53, 54, 55, 56, 57, 58, 59, 60, 61, 62, 63, 64,
   65, 66, 67, 68, 69, 73, 74, 75, 76, 77, 78, 79, 80, 81, 82, 83, 84, 85, 86, 87,
   88, 89, 90, 91, 92, 93, 94, 95, 96, 97, 98, 99, 100, 105, 106, 107, 108, 109, 110, 111,
   112, 114, 115, 116, 117, 118, 119, 120, 121, 122, 123, 124, 125, 126, 127, 128, 129, 130]

/-- `yytranslate` (spvm_yacc.c 518-558). -/
def yytranslate : List Int := List.flatten [
  yytranslate_0, yytranslate_1]

/-- Entries 0-199 of `yypact` (spvm_yacc.c 681-739). -/
def yypact_0 : List Int :=
  [20, 202, 37, -455, 20, -455, -455, -455, -455, -455, -455, -455, -455, -455, -455, -455, -9, -455, -455, 202,
   -50, -455, 29, 30, 3, 7, 31, 34, 202, 202, 202, -455, 202, 50, 32, -43, 105, -455, -455, -455,
   -455, -455, -455, -455, -455, -455, -25, -455, 62, 94, -45, -455, -455, -455, -16, -13, -5, 117, -4, 4,
   25, 1120, -455, -455, -455, -455, -10, 85, -455, 106, 108, 30, 30, 125, -455, 125, -455, -455, -455, 126,
   129, 2832, -455, -455, 93, 95, 8, 96, 33, 38, 98, 2832, 40, 43, 32, -455, -455, -455, -455, -455,
   -455, 202, 202, 1608, 126, 1730, 1852, 2832, 2832, -455, 126, 998, 1242, 2588, 2832, 2832, 2832, 2832, 2954, 2832,
   126, 64, 2832, 126, 2832, 2832, 2832, 2832, 2832, 2832, 2832, 2832, -455, 51, -455, 175, 48, 1364, -455, 60,
   61, -455, -455, -455, -455, -455, -455, -455, -455, -455, -455, -455, -455, -455, 3888, -455, -455, -455, -455, -455,
   -455, -455, -455, -455, -455, -455, -455, -455, -455, -455, -455, -455, -455, 24, 27, -455, -455, -455, -455, 100,
   52, 148, -455, -455, -455, 293, 293, -455, 63, 66, 65, 123, 1486, 4426, 2710, 2832, 1974, 128, 2832, -455]

/-- Entries 200-399 of `yypact` (spvm_yacc.c 681-739). -/
def yypact_1 : List Int :=
  [-455, 2832, 4071, 32, -455, -455, 131, 132, -455, -455, -27, -455, 133, -455, 3949, 74, 2096, -31, 3639, 4426,
   4426, 4426, 75, 31, -87, -455, 76, 78, 4426, 72, -455, 3888, -3, 202, 79, -455, -11, -66, -66, -66,
   -66, 1486, -66, -66, -455, 3076, -66, 80, -66, -66, -66, -66, -66, -66, -54, -54, 148, 84, -455, -455,
   -455, -455, 2832, 2832, 2832, 2832, 2832, 2832, 2832, 2832, 2832, 2832, 2832, 2832, 2832, 2832, 2832, 2832, 2832, 2832,
   2832, 202, 202, 202, 202, 202, 2832, 2832, 55, 2832, 2832, 2832, 2832, 2832, 2832, 2832, 2832, 2832, 2832, 2832,
   -455, -455, -15, -455, 2832, 31, 2832, 31, -455, 153, 140, 100, 145, 86, 87, -455, 153, 153, -455, -455,
   293, 749, 202, 83, 3255, 3319, 88, 4426, 110, 3383, 3447, 32, -455, 2344, 2466, 97, -455, 103, -455, 154,
   4426, 2832, 155, 99, 30, 23, 30, -455, 2222, -455, -455, 2832, -455, 3702, 1486, -66, 156, 157, 100, 4426,
   4426, 4481, 4535, 4587, 4587, 4638, 4689, 4689, 4689, 4689, 170, 170, 170, 170, 170, 170, 170, 170, -455, -455,
   -455, -455, -455, 170, 170, -455, -455, 246, 45, 45, 45, -66, -66, -66, -66, -66, -66, -66, 2832, 31]

/-- Entries 400-557 of `yypact` (spvm_yacc.c 681-739). -/
def yypact_2 : List Int :=
  [625, 163, 4131, 102, 4190, 107, 202, -455, -455, 126, 168, 215, -455, 148, -455, 120, 153, 150, -455, 32,
   32, 32, 2832, 3198, 32, 216, -455, -455, 4249, -455, 4308, 31, 4426, 31, 30, 283, -455, 76, 293, 4426,
   -66, -455, 3764, 31, 749, 217, 4367, 158, 159, 160, 749, -455, -455, -455, -455, -455, 213, 165, 167, -455,
   162, 126, -455, -455, -455, -455, -455, 266, 109, 109, 4010, 1486, 3511, -455, 272, -455, -455, -455, 171, 173,
   293, 172, 153, -455, 176, 177, 126, -455, -455, -455, -455, 178, 202, -40, 126, 293, 179, 32, 237, 32,
   -455, -455, 872, 3826, 32, -14, 272, -455, -455, -455, 153, 100, 243, -455, -455, 181, -455, -455, -455, -455,
   -455, 153, -37, -455, 2832, -455, 182, 183, -455, -455, 187, -455, 250, 252, 2832, 32, 253, -455, -455, 3575,
   32, 32, -455, 2832, 126, 4426, -455, 2832, 32, -455, -455, 4426, 193, 4426, 109, 32, -455, -455]

/-- `yypact` (spvm_yacc.c 681-739). -/
def yypact : List Int := List.flatten [
  yypact_0, yypact_1, yypact_2]

/-- Entries 0-199 of `yydefact` (spvm_yacc.c 744-802). -/
def yydefact_0 : List Int :=
  [32, 40, 0, 2, 33, 35, 11, 12, 13, 14, 15, 16, 17, 19, 18, 41, 42, 1, 34, 0,
   0, 43, 98, 98, 0, 0, 0, 0, 0, 0, 0, 101, 0, 0, 0, 0, 98, 48, 54, 49,
   50, 51, 52, 53, 55, 56, 0, 58, 0, 99, 0, 38, 36, 3, 0, 0, 0, 0, 0, 0,
   0, 98, 59, 44, 47, 57, 0, 0, 100, 0, 0, 98, 98, 0, 61, 0, 65, 66, 60, 0,
   0, 98, 176, 177, 0, 0, 0, 0, 0, 0, 0, 98, 0, 0, 0, 164, 171, 170, 172, 178,
   179, 0, 0, 98, 0, 98, 98, 98, 98, 180, 0, 98, 98, 98, 98, 98, 98, 98, 98, 98,
   0, 0, 98, 0, 98, 98, 98, 98, 98, 98, 98, 98, 123, 0, 269, 0, 0, 98, 105, 0,
   0, 130, 107, 108, 109, 111, 112, 113, 115, 106, 110, 114, 175, 169, 0, 194, 181, 211, 184, 185,
   182, 220, 221, 222, 223, 224, 186, 173, 188, 183, 174, 189, 193, 190, 191, 133, 134, 192, 4, 0,
   0, 69, 67, 39, 37, 0, 0, 5, 0, 0, 163, 274, 98, 135, 98, 98, 98, 0, 98, 116]

/-- Entries 200-399 of `yydefact` (spvm_yacc.c 744-802). -/
def yydefact_1 : List Int :=
  [117, 98, 0, 152, 118, 161, 267, 0, 268, 187, 8, 10, 9, 119, 0, 0, 98, 8, 125, 136,
   131, 132, 0, 0, 0, 93, 169, 0, 198, 166, 272, 198, 0, 0, 0, 6, 0, 199, 200, 255,
   201, 98, 212, 207, 206, 98, 204, 0, 202, 203, 205, 208, 210, 209, 216, 218, 0, 0, 160, 104,
   124, 122, 98, 98, 98, 98, 98, 98, 98, 98, 98, 98, 98, 98, 98, 98, 98, 98, 98, 98,
   98, 0, 0, 0, 0, 0, 98, 98, 0, 98, 98, 98, 98, 98, 98, 98, 98, 98, 98, 98,
   217, 219, 0, 121, 98, 0, 98, 0, 26, 27, 0, 0, 74, 0, 70, 73, 27, 27, 62, 64,
   0, 98, 0, 0, 0, 0, 0, 168, 0, 0, 0, 150, 151, 98, 98, 0, 20, 0, 120, 0,
   127, 98, 0, 0, 98, 92, 98, 270, 197, 271, 7, 98, 195, 198, 98, 214, 0, 276, 0, 265,
   266, 253, 254, 236, 234, 235, 238, 239, 245, 246, 240, 241, 242, 243, 247, 248, 249, 250, 256, 257,
   258, 259, 260, 244, 251, 264, 263, 237, 225, 226, 252, 227, 228, 229, 230, 231, 232, 233, 98, 0]

/-- Entries 400-557 of `yydefact` (spvm_yacc.c 744-802). -/
def yydefact_2 : List Int :=
  [98, 278, 0, 0, 0, 0, 0, 25, 28, 84, 0, 0, 68, 72, 77, 0, 27, 0, 63, 0,
   0, 0, 98, 98, 0, 0, 149, 21, 0, 22, 0, 0, 129, 0, 98, 0, 91, 0, 0, 196,
   261, 213, 198, 0, 98, 0, 0, 0, 0, 0, 98, 281, 285, 282, 284, 31, 29, 0, 85, 88,
   0, 84, 75, 71, 76, 162, 273, 153, 157, 157, 0, 98, 0, 141, 145, 142, 23, 24, 0, 0,
   0, 0, 27, 215, 0, 0, 84, 280, 283, 262, 279, 0, 0, 0, 87, 0, 0, 0, 0, 0,
   155, 156, 98, 198, 0, 0, 146, 148, 286, 287, 27, 0, 96, 288, 275, 0, 277, 30, 81, 80,
   86, 27, 0, 154, 98, 158, 0, 0, 139, 143, 0, 147, 94, 0, 98, 0, 89, 79, 78, 0,
   0, 0, 144, 98, 84, 97, 82, 98, 0, 138, 140, 95, 0, 90, 157, 0, 159, 83]

/-- `yydefact` (spvm_yacc.c 744-802). -/
def yydefact : List Int := List.flatten [
  yydefact_0, yydefact_1, yydefact_2]

/-- `yypgoto` (spvm_yacc.c 805-817). -/
def yypgoto : List Int :=
  [-455, -455, -201, -64, 255, -107, -94, 0, -455, 231, -455, -297, -304, -455, -455, -455, -455, 329, -455, -455,
   292, -455, -455, 307, -455, -455, -455, -455, -455, -455, -455, -455, -455, -455, -455, -69, -455, -455, -455, -455,
   -437, -455, -149, -455, 1, -19, -455, -455, -455, 220, -455, -455, -455, -455, -455, -455, -455, -455, -455, -455,
   -438, -146, -455, -455, -454, -34, -455, 274, -39, -314, -141, 302, -455, -103, -455, -455, -455, -455, -455, -455,
   -455, -455, -455, -455, -455, -455, -455, -455, -455, -455, -455, -455, -455, -455, -455, -455]

/-- `yydefgoto` (spvm_yacc.c 820-832). -/
def yydefgoto : List Int :=
  [-1, 2, 54, 312, 188, 309, 235, 133, 211, 212, 208, 310, 407, 408, 456, 3, 4, 5, 16, 20,
   25, 35, 36, 37, 38, 39, 40, 323, 41, 42, 43, 44, 182, 313, 314, 315, 45, 46, 47, 134,
   457, 458, 459, 224, 225, 135, 49, 136, 137, 138, 139, 140, 141, 142, 143, 144, 145, 475, 505, 506,
   146, 147, 148, 149, 500, 150, 151, 152, 153, 227, 326, 228, 155, 229, 156, 157, 158, 159, 160, 161,
   162, 163, 164, 165, 166, 167, 168, 169, 170, 171, 172, 173, 174, 175, 176, 177]

/-- Entries 0-199 of `yytable` (spvm_yacc.c 837-1321). -/
def yytable_0 : List Int :=
  [62, 15, 180, 48, 50, 73, 234, 417, 209, 232, 236, 216, 414, 415, 410, 501, 79, 48, 92, 21,
   178, 22, 343, 1, 496, 178, 22, 223, 56, 57, 58, 61, 59, 26, 61, 27, 507, 17, 28, 335,
   190, 29, 30, 335, 344, 31, 31, 32, 345, 515, 33, 19, 185, 186, 51, 398, 399, 400, 52, 95,
   205, 445, 300, 301, 302, 215, 53, 66, 531, 67, 55, 222, 226, 336, -168, -168, 302, 336, 316, 317,
   196, 244, 23, 24, 247, 34, 449, 60, 69, 232, 178, 63, 385, 518, 304, 305, 537, 306, 307, 256,
   556, 206, 210, 61, 403, 217, 405, 552, 65, 26, 68, 27, 465, 217, 28, 233, 71, 29, 30, 72,
   529, 31, 179, 32, 348, 352, 33, 75, 74, 76, 485, 349, 348, 498, 499, 6, 491, 77, 232, 350,
   308, 7, 8, 9, 10, 11, 12, 13, 14, 293, 294, 295, 296, 297, 298, 299, 181, 183, 78, 184,
   187, 34, 95, -45, 191, 194, 199, 195, 198, 332, 201, 200, 203, 300, 301, 302, 204, 245, 512, 210,
   257, 256, 258, 178, 311, 210, 210, 378, 379, 380, 381, 382, 357, 260, 261, 321, 318, 320, 447, 319]

/-- Entries 200-399 of `yytable` (spvm_yacc.c 837-1321). -/
def yytable_1 : List Int :=
  [328, 333, 334, 337, 339, 342, 532, 348, 346, 347, 356, 406, 409, 416, 533, 351, 358, 536, 411, 419,
   412, 422, 413, 423, 386, 431, 433, 443, 427, 444, 478, 434, 479, 210, 429, 450, 452, 6, 401, -46,
   461, 454, 484, 7, 8, 9, 10, 11, 12, 13, 14, 232, 462, 464, -168, -168, -168, -168, -168, -168,
   -168, -168, -168, -168, -168, -168, -168, -168, -168, -168, 289, 290, 291, 292, 293, 294, 295, 296, 297, 298,
   299, 210, 210, 210, 210, 210, 466, 474, 481, 486, 492, 497, 488, 448, 495, 489, 490, 426, 300, 301,
   302, 493, 494, 91, 511, 508, 437, 509, 233, 524, 513, 210, 455, 514, 516, 522, 534, 535, 540, 541,
   210, 542, 418, 543, 544, 435, 547, 438, 6, 555, 189, 482, 207, 18, 7, 8, 9, 10, 11, 12,
   13, 14, 70, 64, 463, 520, 436, 290, 291, 292, 293, 294, 295, 296, 297, 298, 299, 259, 210, 530,
   197, 526, 0, 154, 0, 0, 0, 0, 232, 0, 460, 0, 0, 510, 300, 301, 302, 0, 0, 0,
   0, 0, 0, 193, 0, 467, 468, 469, 521, 0, 473, 0, 0, 202, 0, 0, 0, 0, 517, 0]

/-- Entries 400-599 of `yytable` (spvm_yacc.c 837-1321). -/
def yytable_2 : List Int :=
  [217, 0, 0, 0, 0, 214, 210, 218, 219, 220, 221, 0, 0, 0, 231, 480, 237, 238, 239, 240,
   242, 243, 460, 0, 246, 0, 248, 249, 250, 251, 252, 253, 254, 255, 0, 0, 0, 0, 210, 154,
   0, 0, 0, 0, 0, 0, 0, 460, 0, 0, 0, 0, 0, 0, 0, 460, 0, 0, 0, 519,
   0, 0, 0, 523, 0, 525, 0, 0, 0, 0, 528, 0, 0, 0, 0, 0, 0, 0, 0, 0,
   210, 0, 0, 0, 0, 0, 0, 0, 538, 0, 0, 0, 210, 0, 0, 210, 324, 325, 327, 0,
   329, 546, 0, 330, 0, 460, 549, 550, 0, 0, 0, 210, 0, 0, 554, 0, 0, 0, 340, 0,
   0, 557, 0, 0, 0, 0, 0, 0, 0, 0, 0, 0, 0, 0, 0, 0, 0, 0, 0, 0,
   0, 0, 0, 353, 0, 0, 0, 355, 0, 0, 0, 0, 0, 0, 0, 0, 0, 0, 0, 0,
   0, 0, 0, 0, 359, 360, 361, 362, 363, 364, 365, 366, 367, 368, 369, 370, 371, 372, 373, 374,
   375, 376, 377, 0, 0, 0, 0, 0, 383, 384, 0, 387, 388, 389, 390, 391, 392, 393, 394, 395]

/-- Entries 600-799 of `yytable` (spvm_yacc.c 837-1321). -/
def yytable_3 : List Int :=
  [396, 397, 0, 0, 0, 0, 402, 0, 404, 0, 0, 0, 0, 0, 0, 0, 0, 0, 0, 0,
   0, 0, 0, 0, 0, 0, 0, 0, 0, 0, 0, 0, 0, 79, 0, 428, 430, 0, 0, 80,
   233, 31, 0, 432, 82, 83, 0, 0, 0, 0, 439, 0, 0, 440, 0, 0, 442, 0, 0, 0,
   6, 95, 96, 97, 98, 0, 7, 8, 9, 10, 11, 12, 13, 14, 99, 100, 0, 0, 0, 0,
   0, 0, 101, 0, 102, 0, 0, 0, 0, 0, 0, 0, 0, 109, 0, 111, 192, 113, 0, 0,
   446, 0, 0, 0, 0, 0, 0, 0, 0, 0, 0, 0, 0, 0, 0, 0, 0, 0, 0, 0,
   0, 0, 0, 0, 470, 472, 114, 115, 0, 0, 0, 0, 0, 0, 0, 0, 116, 117, 118, 119,
   120, 0, 0, 0, 121, 122, 123, 124, 125, 126, 127, 128, 129, 130, 131, 0, 0, 79, 0, 0,
   0, -165, 0, 80, 0, 31, 0, 0, 82, 83, 0, 0, 0, 503, 0, 0, 0, 0, 0, 0,
   0, 0, 0, 0, 6, 95, 96, 97, 98, 0, 7, 8, 9, 10, 11, 12, 13, 14, 99, 100]

/-- Entries 800-999 of `yytable` (spvm_yacc.c 837-1321). -/
def yytable_4 : List Int :=
  [0, 0, 0, 0, 327, 0, 101, 0, 102, 0, 0, 0, 0, 0, 0, 0, 0, 109, 0, 111,
   192, 113, 0, 0, 0, 0, 539, 0, 0, 0, 0, 0, 0, 0, 0, 0, 545, 0, 0, 0,
   0, 0, 0, 0, 0, 551, 0, 0, 0, 553, 114, 115, 0, 0, 0, 0, 0, 0, 0, 0,
   116, 117, 118, 119, 120, 0, 0, 0, 121, 122, 123, 124, 125, 126, 127, 128, 129, 130, 131, 0,
   79, 0, 0, 0, 0, -165, 80, 0, 31, 0, 0, 82, 83, 0, 0, 0, 0, 0, 0, 0,
   0, 0, 0, 0, 0, 0, 0, 6, 95, 96, 97, 98, 0, 7, 8, 9, 10, 11, 12, 13,
   14, 99, 100, 0, 0, 0, 0, 0, 0, 101, 0, 102, 0, 0, 0, 0, 0, 0, 0, 0,
   109, 0, 111, 192, 113, 0, 0, 0, 0, 0, 0, 0, 0, 0, 0, 0, 0, 0, 0, 0,
   0, 0, 0, 0, 0, 0, 0, 0, 0, 0, 0, 0, 0, 114, 115, 0, 0, 0, 0, 0,
   0, 0, 0, 116, 117, 118, 119, 120, 0, 0, 0, 121, 122, 123, 124, 125, 126, 127, 128, 129]

/-- Entries 1000-1199 of `yytable` (spvm_yacc.c 837-1321). -/
def yytable_5 : List Int :=
  [130, 131, 223, 0, 0, 0, 79, 0, -167, 0, 0, 0, 80, 0, 31, 0, 0, 82, 83, 0,
   0, 0, 0, 0, 0, 0, 0, 0, 0, 0, 0, 0, 0, 6, 95, 96, 97, 98, 0, 7,
   8, 9, 10, 11, 12, 13, 14, 99, 100, 0, 0, 0, 0, 0, 0, 101, 0, 102, 0, 0,
   0, 0, 0, 0, 0, 0, 109, 0, 111, 192, 113, 0, 0, 0, 0, 0, 0, 0, 0, 0,
   0, 0, 0, 0, 0, 0, 0, 0, 0, 0, 0, 0, 0, 0, 0, 0, 0, 0, 0, 114,
   115, 0, 0, 0, 0, 0, 0, 0, 0, 116, 117, 118, 119, 120, 0, 0, 0, 121, 122, 123,
   124, 125, 126, 127, 128, 129, 130, 131, 79, -165, 0, 0, 0, 0, 80, 0, 31, 81, 0, 82,
   83, 0, 84, 85, 0, 0, 86, 87, 88, 89, 90, 91, 92, 93, 94, 6, 95, 96, 97, 98,
   0, 7, 8, 9, 10, 11, 12, 13, 14, 99, 100, 0, 0, 0, 0, 0, 0, 101, 0, 102,
   0, 0, 103, 104, 105, 106, 107, 108, 109, 110, 111, 112, 113, 0, 0, 0, 0, 0, 0, 0]

/-- Entries 1200-1399 of `yytable` (spvm_yacc.c 837-1321). -/
def yytable_6 : List Int :=
  [0, 0, 0, 0, 0, 0, 0, 0, 0, 0, 0, 0, 0, 0, 0, 0, 0, 0, 0, 0,
   0, 114, 115, 0, 0, 0, 0, 0, 0, 0, 0, 116, 117, 118, 119, 120, 0, 0, 0, 121,
   122, 123, 124, 125, 126, 127, 128, 129, 130, 131, 79, 0, 0, 132, -102, 0, 80, 0, 31, 81,
   0, 82, 83, 0, 84, 85, 0, 0, 86, 87, 88, 89, 90, 91, 92, 93, 94, 6, 95, 96,
   97, 98, 0, 7, 8, 9, 10, 11, 12, 13, 14, 99, 100, 0, 0, 0, 0, 0, 0, 101,
   0, 102, 0, 0, 103, 104, 105, 106, 107, 108, 109, 110, 111, 112, 113, 0, 0, 0, 0, 0,
   0, 0, 0, 0, 0, 0, 0, 0, 0, 0, 0, 0, 0, 0, 0, 0, 0, 0, 0, 0,
   0, 0, 0, 114, 115, 0, 0, 0, 0, 0, 0, 0, 0, 116, 117, 118, 119, 120, 0, 0,
   0, 121, 122, 123, 124, 125, 126, 127, 128, 129, 130, 131, 79, 0, 0, 132, 230, 0, 80, 0,
   31, 81, 0, 82, 83, 0, 84, 85, 0, 0, 86, 87, 88, 89, 90, 91, 92, 93, 94, 6]

/-- Entries 1400-1599 of `yytable` (spvm_yacc.c 837-1321). -/
def yytable_7 : List Int :=
  [95, 96, 97, 98, 0, 7, 8, 9, 10, 11, 12, 13, 14, 99, 100, 0, 0, 0, 0, 0,
   0, 101, 0, 102, 0, 0, 103, 104, 105, 106, 107, 108, 109, 110, 111, 112, 113, 0, 0, 0,
   0, 0, 0, 0, 0, 0, 0, 0, 0, 0, 0, 0, 0, 0, 0, 0, 0, 0, 0, 0,
   0, 0, 0, 0, 0, 114, 115, 0, 0, 0, 0, 0, 0, 0, 0, 116, 117, 118, 119, 120,
   0, 0, 0, 121, 122, 123, 124, 125, 126, 127, 128, 129, 130, 131, 79, 0, 0, 132, -103, 0,
   80, 0, 31, 0, 0, 82, 83, 0, 0, 0, 0, 0, 0, 0, 0, 0, 0, 0, 0, 0,
   0, 6, 95, 96, 97, 98, 0, 7, 8, 9, 10, 11, 12, 13, 14, 99, 100, 0, 0, 0,
   0, 0, 0, 101, 0, 102, 0, 0, 0, 0, 0, 0, 0, 0, 109, 0, 111, 192, 113, 0,
   0, 0, 0, 0, 0, 0, 0, 0, 0, 0, 0, 0, 0, 0, 0, 0, 0, 0, 0, 0,
   0, 0, 0, 0, 0, 0, 0, 114, 115, 0, 0, 0, 0, 0, 0, 0, 0, 116, 117, 118]

/-- Entries 1600-1799 of `yytable` (spvm_yacc.c 837-1321). -/
def yytable_8 : List Int :=
  [119, 120, 0, 0, 0, 121, 122, 123, 124, 125, 126, 127, 128, 129, 130, 131, 79, 0, 0, 0,
   230, 0, 80, 0, 31, 0, 0, 82, 83, 0, 0, 0, 0, 0, 0, 0, 0, 0, 0, 0,
   0, 0, 0, 6, 95, 96, 97, 98, 0, 7, 8, 9, 10, 11, 12, 13, 14, 99, 100, 0,
   0, 0, 0, 0, 0, 101, 0, 102, 0, 0, 0, 0, 0, 0, 0, 0, 109, 0, 111, 192,
   113, 0, 0, 0, 0, 0, 0, 0, 0, 0, 0, 0, 0, 0, 0, 0, 0, 0, 0, 0,
   0, 0, 0, 0, 0, 0, 0, 0, 0, 114, 115, 0, 0, 0, 0, 0, 0, 0, 0, 116,
   117, 118, 119, 120, 0, 0, 0, 121, 122, 123, 124, 125, 126, 127, 128, 129, 130, 131, 79, 0,
   0, 213, 0, 0, 80, 0, 31, 0, 0, 82, 83, 0, 0, 0, 0, 0, 0, 0, 0, 0,
   0, 0, 0, 0, 0, 6, 95, 96, 97, 98, 0, 7, 8, 9, 10, 11, 12, 13, 14, 99,
   100, 0, 0, 0, 0, 0, 0, 101, 0, 102, 0, 0, 0, 0, 0, 0, 0, 0, 109, 0]

/-- Entries 1800-1999 of `yytable` (spvm_yacc.c 837-1321). -/
def yytable_9 : List Int :=
  [111, 192, 113, 0, 0, 0, 0, 0, 0, 0, 0, 0, 0, 0, 0, 0, 0, 0, 0, 0,
   0, 0, 0, 0, 0, 0, 0, 0, 0, 0, 0, 114, 115, 0, 0, 0, 0, 0, 0, 0,
   0, 116, 117, 118, 119, 120, 0, 0, 0, 121, 122, 123, 124, 125, 126, 127, 128, 129, 130, 131,
   79, 0, 0, -126, 0, 0, 80, 0, 31, 0, 0, 82, 83, 0, 0, 0, 0, 0, 0, 0,
   0, 0, 0, 0, 0, 0, 0, 6, 95, 96, 97, 98, 0, 7, 8, 9, 10, 11, 12, 13,
   14, 99, 100, 0, 0, 0, 0, 0, 0, 101, 0, 102, 0, 0, 0, 0, 0, 0, 0, 0,
   109, 0, 111, 192, 113, 0, 0, 0, 0, 0, 0, 0, 0, 0, 0, 0, 0, 0, 0, 0,
   0, 0, 0, 0, 0, 0, 0, 0, 0, 0, 0, 0, 0, 114, 115, 0, 0, 0, 0, 0,
   0, 0, 0, 116, 117, 118, 119, 120, 0, 0, 0, 121, 122, 123, 124, 125, 126, 127, 128, 129,
   130, 131, 79, 0, 0, -137, 0, 0, 80, 0, 31, 0, 0, 82, 83, 0, 0, 0, 0, 0]

/-- Entries 2000-2199 of `yytable` (spvm_yacc.c 837-1321). -/
def yytable_10 : List Int :=
  [0, 0, 0, 0, 0, 0, 0, 0, 0, 6, 95, 96, 97, 98, 0, 7, 8, 9, 10, 11,
   12, 13, 14, 99, 100, 0, 0, 0, 0, 0, 0, 101, 0, 102, 0, 0, 0, 0, 0, 0,
   0, 0, 109, 0, 111, 192, 113, 0, 0, 0, 0, 0, 0, 0, 0, 0, 0, 0, 0, 0,
   0, 0, 0, 0, 0, 0, 0, 0, 0, 0, 0, 0, 0, 0, 0, 114, 115, 0, 0, 0,
   0, 0, 0, 0, 0, 116, 117, 118, 119, 120, 0, 0, 0, 121, 122, 123, 124, 125, 126, 127,
   128, 129, 130, 131, 79, 0, 0, -167, 0, 0, 80, 0, 31, 0, 0, 82, 83, 0, 0, 0,
   0, 0, 0, 0, 0, 0, 0, 0, 0, 0, 0, 6, 95, 96, 97, 98, 0, 7, 8, 9,
   10, 11, 12, 13, 14, 99, 100, 0, 0, 0, 0, 0, 0, 101, 0, 102, 0, 0, 0, 0,
   0, 0, 0, 0, 109, 0, 111, 192, 113, 0, 0, 0, 0, 0, 0, 0, 0, 0, 0, 0,
   0, 0, 0, 0, 0, 0, 0, 0, 0, 0, 0, 0, 0, 0, 0, 0, 0, 114, 115, 0]

/-- Entries 2200-2399 of `yytable` (spvm_yacc.c 837-1321). -/
def yytable_11 : List Int :=
  [0, 0, 0, 0, 0, 0, 0, 116, 117, 118, 119, 120, 0, 0, 0, 121, 122, 123, 124, 125,
   126, 127, 128, 129, 130, 131, 0, -98, 0, -128, 79, 0, 0, 0, 0, 0, 80, 0, 31, 0,
   0, 82, 83, 0, 0, 0, 0, 0, 0, 0, 0, 0, 0, 0, 0, 0, 0, 6, 95, 96,
   97, 98, 0, 7, 8, 9, 10, 11, 12, 13, 14, 99, 100, 0, 0, 0, 0, 0, 0, 101,
   0, 102, 0, 0, 0, 0, 0, 0, 0, 0, 109, 0, 111, 192, 113, 0, 0, 0, 0, 0,
   0, 0, 0, 0, 0, 0, 0, 0, 0, 0, 0, 0, 0, 0, 0, 0, 0, 0, 0, 0,
   0, 0, 0, 114, 115, 0, 0, 0, 0, 0, 0, 0, 0, 116, 117, 118, 119, 120, 0, 0,
   0, 121, 122, 123, 124, 125, 126, 127, 128, 129, 130, 131, 79, 0, 0, 0, 0, 0, 80, 0,
   31, 0, 0, 82, 83, 0, 0, 0, 0, 0, 0, 0, 0, 0, 0, 0, 0, 0, 0, 6,
   95, 96, 97, 98, 0, 7, 8, 9, 10, 11, 12, 13, 14, 99, 100, 0, 0, 0, 0, 0]

/-- Entries 2400-2599 of `yytable` (spvm_yacc.c 837-1321). -/
def yytable_12 : List Int :=
  [0, 101, 0, 102, 0, 0, 0, 0, 0, 0, 0, 0, 109, 0, 111, 192, 113, 0, 0, 0,
   0, 0, 0, 0, 0, 0, 0, 0, 0, 0, 0, 0, 0, 0, 0, 0, 0, 0, 0, 0,
   0, 0, 0, 0, 0, 114, 115, 0, 0, 0, 0, 0, 0, 0, 0, 116, 117, 118, 119, 120,
   0, 0, 0, 121, 122, 123, 124, 125, 126, 127, 128, 129, 130, 131, 79, 427, 0, 0, 0, 0,
   80, 0, 31, 0, 0, 82, 83, 0, 0, 0, 0, 0, 0, 0, 0, 0, 0, 0, 0, 0,
   0, 6, 95, 96, 97, 98, 0, 7, 8, 9, 10, 11, 12, 13, 14, 99, 100, 0, 0, 0,
   0, 0, 0, 101, 0, 102, 0, 0, 0, 0, 0, 0, 0, 0, 109, 0, 111, 192, 113, 0,
   0, 0, 0, 0, 0, 0, 0, 0, 0, 0, 0, 0, 0, 0, 0, 0, 0, 0, 0, 0,
   0, 0, 0, 0, 0, 0, 0, 114, 115, 0, 0, 0, 0, 0, 0, 0, 0, 116, 117, 118,
   119, 120, 0, 0, 0, 121, 122, 123, 124, 125, 126, 127, 128, 129, 130, 131, 79, 429, 0, 0]

/-- Entries 2600-2799 of `yytable` (spvm_yacc.c 837-1321). -/
def yytable_13 : List Int :=
  [0, 0, 80, 233, 31, 0, 0, 82, 83, 0, 0, 0, 0, 0, 0, 0, 0, 0, 0, 0,
   0, 0, 0, 6, 95, 96, 97, 98, 0, 7, 8, 9, 10, 11, 12, 13, 14, 99, 100, 0,
   0, 0, 0, 0, 0, 101, 0, 102, 0, 0, 0, 0, 0, 0, 0, 0, 109, 0, 111, 192,
   113, 0, 0, 0, 0, 0, 0, 0, 0, 0, 0, 0, 0, 0, 0, 0, 0, 0, 0, 0,
   0, 0, 0, 0, 0, 0, 0, 0, 0, 114, 115, 0, 0, 0, 0, 0, 0, 0, 0, 116,
   117, 118, 119, 120, 0, 0, 0, 121, 122, 123, 124, 125, 126, 127, 128, 129, 130, 131, 79, 0,
   0, 322, 0, 0, 80, 0, 31, 0, 0, 82, 83, 0, 0, 0, 0, 0, 0, 0, 0, 0,
   0, 0, 0, 0, 0, 6, 95, 96, 97, 98, 0, 7, 8, 9, 10, 11, 12, 13, 14, 99,
   100, 0, 0, 0, 0, 0, 0, 101, 0, 102, 0, 0, 0, 0, 0, 0, 0, 0, 109, 0,
   111, 192, 113, 0, 0, 0, 0, 0, 0, 0, 0, 0, 0, 0, 0, 0, 0, 0, 0, 0]

/-- Entries 2800-2999 of `yytable` (spvm_yacc.c 837-1321). -/
def yytable_14 : List Int :=
  [0, 0, 0, 0, 0, 0, 0, 0, 0, 0, 0, 114, 115, 0, 0, 0, 0, 0, 0, 0,
   0, 116, 117, 118, 119, 120, 0, 0, 0, 121, 122, 123, 124, 125, 126, 127, 128, 129, 130, 131,
   79, 0, 0, 0, 0, 0, 80, 0, 31, 0, 0, 82, 83, 0, 0, 0, 0, 0, 0, 0,
   0, 0, 0, 0, 0, 0, 0, 6, 95, 96, 97, 98, 0, 7, 8, 9, 10, 11, 12, 13,
   14, 99, 100, 0, 0, 0, 0, 0, 0, 101, 0, 102, 0, 0, 0, 0, 0, 0, 0, 0,
   109, 0, 111, 192, 113, 0, 0, 0, 0, 0, 0, 0, 0, 0, 0, 0, 0, 0, 0, 0,
   0, 0, 0, 0, 0, 0, 0, 0, 0, 0, 0, 0, 0, 114, 115, 0, 0, 0, 0, 0,
   0, 0, 0, 116, 117, 118, 119, 120, 0, 0, 0, 121, 122, 123, 124, 125, 126, 127, 128, 129,
   130, 131, 79, 0, 0, 0, 0, 0, 80, 0, 31, 0, 0, 82, 83, 0, 0, 0, 0, 0,
   0, 0, 0, 0, 0, 0, 0, 0, 0, 6, 95, 96, 97, 98, 0, 7, 8, 9, 10, 11]

/-- Entries 3000-3199 of `yytable` (spvm_yacc.c 837-1321). -/
def yytable_15 : List Int :=
  [12, 13, 14, 99, 100, 0, 0, 0, 0, 0, 0, 101, 0, 102, 0, 0, 0, 0, 0, 0,
   0, 0, 109, 0, 111, 241, 113, 0, 0, 0, 0, 0, 0, 0, 0, 0, 0, 0, 0, 0,
   0, 0, 0, 0, 0, 0, 0, 0, 0, 0, 0, 0, 0, 0, 0, 114, 115, 0, 0, 0,
   0, 0, 0, 0, 0, 116, 117, 118, 119, 120, 0, 0, 0, 121, 122, 123, 124, 125, 126, 127,
   128, 129, 130, 131, 79, 0, 0, 0, 0, 0, 80, 0, 31, 0, 0, 82, 83, 0, 0, 0,
   0, 0, 0, 0, 0, 0, 0, 0, 0, 0, 0, 6, 95, 96, 97, 98, 0, 7, 8, 9,
   10, 11, 12, 13, 14, 99, 100, 0, 0, 0, 0, 0, 0, 101, 0, 102, 0, 0, 0, 0,
   0, 0, 0, 0, 109, 0, 111, 354, 113, 0, 0, 0, 0, 0, 0, 0, 0, 0, 0, 0,
   0, 0, 0, 0, 0, 0, 0, 0, 0, 0, 0, 0, 0, 0, 0, 0, 0, 114, 115, 0,
   0, 0, 0, 0, 0, 0, 0, 116, 117, 118, 119, 120, 0, 0, 0, 121, 122, 123, 124, 125]

/-- Entries 3200-3399 of `yytable` (spvm_yacc.c 837-1321). -/
def yytable_16 : List Int :=
  [126, 127, 128, 129, 130, 131, 79, 0, 0, 0, 0, 0, 80, 0, 31, 0, 0, 82, 83, 0,
   0, 0, 0, 0, 0, 0, 0, 0, 0, 0, 0, 0, 0, 6, 95, 96, 97, 98, 0, 7,
   8, 9, 10, 11, 12, 13, 14, 99, 100, 0, 0, 0, 0, 0, 0, 101, 0, 102, 0, 0,
   0, 0, 0, 0, 0, 0, 109, 0, 111, 471, 113, 0, 0, 0, 0, 0, 0, 0, 0, 0,
   0, 0, 0, 0, 0, 0, 0, 0, 0, 0, 0, 0, 0, 0, 0, 0, 0, 0, 0, 114,
   115, 0, 0, 0, 0, 0, 0, 0, 0, 116, 117, 118, 119, 120, 0, 0, 0, 121, 122, 123,
   124, 125, 126, 127, 128, 129, 130, 131, 262, 263, 264, 265, 266, 267, 268, 269, 270, 271, 272, 273,
   274, 275, 276, 277, 278, 279, 280, 281, 282, 283, 284, 285, 286, 287, 288, 289, 290, 291, 292, 293,
   294, 295, 296, 297, 298, 299, 0, 0, 0, 0, 0, 0, 0, 0, 0, 0, 0, 0, 0, 0,
   0, 0, 0, 300, 301, 302, 0, 0, 0, 0, 0, 420, 262, 263, 264, 265, 266, 267, 268, 269]

/-- Entries 3400-3599 of `yytable` (spvm_yacc.c 837-1321). -/
def yytable_17 : List Int :=
  [270, 271, 272, 273, 274, 275, 276, 277, 278, 279, 280, 281, 282, 283, 284, 285, 286, 287, 288, 289,
   290, 291, 292, 293, 294, 295, 296, 297, 298, 299, 0, 0, 0, 0, 0, 0, 0, 0, 0, 0,
   0, 0, 0, 0, 0, 0, 0, 300, 301, 302, 0, 0, 0, 0, 0, 421, 262, 263, 264, 265,
   266, 267, 268, 269, 270, 271, 272, 273, 274, 275, 276, 277, 278, 279, 280, 281, 282, 283, 284, 285,
   286, 287, 288, 289, 290, 291, 292, 293, 294, 295, 296, 297, 298, 299, 0, 0, 0, 0, 0, 0,
   0, 0, 0, 0, 0, 0, 0, 0, 0, 0, 0, 300, 301, 302, 0, 0, 0, 0, 0, 424,
   262, 263, 264, 265, 266, 267, 268, 269, 270, 271, 272, 273, 274, 275, 276, 277, 278, 279, 280, 281,
   282, 283, 284, 285, 286, 287, 288, 289, 290, 291, 292, 293, 294, 295, 296, 297, 298, 299, 0, 0,
   0, 0, 0, 0, 0, 0, 0, 0, 0, 0, 0, 0, 0, 0, 0, 300, 301, 302, 0, 0,
   0, 0, 0, 425, 262, 263, 264, 265, 266, 267, 268, 269, 270, 271, 272, 273, 274, 275, 276, 277]

/-- Entries 3600-3799 of `yytable` (spvm_yacc.c 837-1321). -/
def yytable_18 : List Int :=
  [278, 279, 280, 281, 282, 283, 284, 285, 286, 287, 288, 289, 290, 291, 292, 293, 294, 295, 296, 297,
   298, 299, 0, 0, 0, 0, 0, 0, 0, 0, 0, 0, 0, 0, 0, 0, 0, 0, 0, 300,
   301, 302, 0, 0, 0, 0, 0, 504, 262, 263, 264, 265, 266, 267, 268, 269, 270, 271, 272, 273,
   274, 275, 276, 277, 278, 279, 280, 281, 282, 283, 284, 285, 286, 287, 288, 289, 290, 291, 292, 293,
   294, 295, 296, 297, 298, 299, 0, 0, 0, 0, 0, 0, 0, 0, 0, 0, 0, 0, 0, 0,
   0, 0, 0, 300, 301, 302, 0, 0, 0, 0, 0, 548, 262, 263, 264, 265, 266, 267, 268, 269,
   270, 271, 272, 273, 274, 275, 276, 277, 278, 279, 280, 281, 282, 283, 284, 285, 286, 287, 288, 289,
   290, 291, 292, 293, 294, 295, 296, 297, 298, 299, 0, 0, 0, 0, 0, 0, 0, 0, 0, 0,
   0, 0, 0, 0, 0, 0, 0, 300, 301, 302, 0, 0, 0, 0, 341, 262, 263, 264, 265, 266,
   267, 268, 269, 270, 271, 272, 273, 274, 275, 276, 277, 278, 279, 280, 281, 282, 283, 284, 285, 286]

/-- Entries 3800-3999 of `yytable` (spvm_yacc.c 837-1321). -/
def yytable_19 : List Int :=
  [287, 288, 289, 290, 291, 292, 293, 294, 295, 296, 297, 298, 299, 0, 0, 0, 0, 0, 0, 0,
   0, 0, 0, 0, 0, 0, 0, 0, 0, 0, 300, 301, 302, 0, 0, 0, 441, 262, 263, 264,
   265, 266, 267, 268, 269, 270, 271, 272, 273, 274, 275, 276, 277, 278, 279, 280, 281, 282, 283, 284,
   285, 286, 287, 288, 289, 290, 291, 292, 293, 294, 295, 296, 297, 298, 299, 0, 0, 0, 0, 0,
   0, 0, 0, 0, 0, 0, 0, 0, 0, 0, 0, 0, 300, 301, 302, 0, 0, 0, 483, 262,
   263, 264, 265, 266, 267, 268, 269, 270, 271, 272, 273, 274, 275, 276, 277, 278, 279, 280, 281, 282,
   283, 284, 285, 286, 287, 288, 289, 290, 291, 292, 293, 294, 295, 296, 297, 298, 299, 0, 0, 0,
   0, 0, 0, 0, 0, 0, 0, 0, 0, 0, 0, 0, 0, 0, 300, 301, 302, 0, 0, 0,
   527, 262, 263, 264, 265, 266, 267, 268, 269, 270, 271, 272, 273, 274, 275, 276, 277, 278, 279, 280,
   281, 282, 283, 284, 285, 286, 287, 288, 289, 290, 291, 292, 293, 294, 295, 296, 297, 298, 299, 0]

/-- Entries 4000-4199 of `yytable` (spvm_yacc.c 837-1321). -/
def yytable_20 : List Int :=
  [0, 0, 0, 0, 0, 0, 0, 0, 0, 0, 0, 0, 0, 0, 0, 0, 300, 301, 302, 0,
   0, 303, 262, 263, 264, 265, 266, 267, 268, 269, 270, 271, 272, 273, 274, 275, 276, 277, 278, 279,
   280, 281, 282, 283, 284, 285, 286, 287, 288, 289, 290, 291, 292, 293, 294, 295, 296, 297, 298, 299,
   0, 0, 0, 0, 0, 0, 0, 0, 0, 0, 0, 0, 0, 0, 0, 0, 0, 300, 301, 302,
   0, 0, 338, 262, 263, 264, 265, 266, 267, 268, 269, 270, 271, 272, 273, 274, 275, 276, 277, 278,
   279, 280, 281, 282, 283, 284, 285, 286, 287, 288, 289, 290, 291, 292, 293, 294, 295, 296, 297, 298,
   299, 0, 0, 0, 0, 0, 0, 0, 0, 0, 0, 0, 0, 0, 0, 0, 0, 0, 300, 301,
   302, 0, 0, 502, 262, 263, 264, 265, 266, 267, 268, 269, 270, 271, 272, 273, 274, 275, 276, 277,
   278, 279, 280, 281, 282, 283, 284, 285, 286, 287, 288, 289, 290, 291, 292, 293, 294, 295, 296, 297,
   298, 299, 0, 0, 0, 0, 0, 0, 0, 0, 0, 0, 0, 0, 0, 0, 0, 0, 0, 300]

/-- Entries 4200-4399 of `yytable` (spvm_yacc.c 837-1321). -/
def yytable_21 : List Int :=
  [301, 302, 0, 331, 262, 263, 264, 265, 266, 267, 268, 269, 270, 271, 272, 273, 274, 275, 276, 277,
   278, 279, 280, 281, 282, 283, 284, 285, 286, 287, 288, 289, 290, 291, 292, 293, 294, 295, 296, 297,
   298, 299, 0, 0, 0, 0, 0, 0, 0, 0, 0, 0, 0, 0, 0, 0, 0, 0, 0, 300,
   301, 302, 451, 262, 263, 264, 265, 266, 267, 268, 269, 270, 271, 272, 273, 274, 275, 276, 277, 278,
   279, 280, 281, 282, 283, 284, 285, 286, 287, 288, 289, 290, 291, 292, 293, 294, 295, 296, 297, 298,
   299, 0, 0, 0, 0, 0, 0, 0, 0, 0, 0, 0, 0, 0, 0, 0, 0, 0, 300, 301,
   302, 453, 262, 263, 264, 265, 266, 267, 268, 269, 270, 271, 272, 273, 274, 275, 276, 277, 278, 279,
   280, 281, 282, 283, 284, 285, 286, 287, 288, 289, 290, 291, 292, 293, 294, 295, 296, 297, 298, 299,
   0, 0, 0, 0, 0, 0, 0, 0, 0, 0, 0, 0, 0, 0, 0, 0, 0, 300, 301, 302,
   476, 262, 263, 264, 265, 266, 267, 268, 269, 270, 271, 272, 273, 274, 275, 276, 277, 278, 279, 280]

/-- Entries 4400-4599 of `yytable` (spvm_yacc.c 837-1321). -/
def yytable_22 : List Int :=
  [281, 282, 283, 284, 285, 286, 287, 288, 289, 290, 291, 292, 293, 294, 295, 296, 297, 298, 299, 0,
   0, 0, 0, 0, 0, 0, 0, 0, 0, 0, 0, 0, 0, 0, 0, 0, 300, 301, 302, 477,
   262, 263, 264, 265, 266, 267, 268, 269, 270, 271, 272, 273, 274, 275, 276, 277, 278, 279, 280, 281,
   282, 283, 284, 285, 286, 287, 288, 289, 290, 291, 292, 293, 294, 295, 296, 297, 298, 299, 0, 0,
   0, 0, 0, 0, 0, 0, 0, 0, 0, 0, 0, 0, 0, 0, 0, 300, 301, 302, 487, 262,
   263, 264, 265, 266, 267, 268, 269, 270, 271, 272, 273, 274, 275, 276, 277, 278, 279, 280, 281, 282,
   283, 284, 285, 286, 287, 288, 289, 290, 291, 292, 293, 294, 295, 296, 297, 298, 299, 0, 0, 0,
   0, 0, 0, 0, 0, 0, 0, 0, 0, 0, 0, 0, 0, 0, 300, 301, 302, 265, 266, 267,
   268, 269, 270, 271, 272, 273, 274, 275, 276, 277, 278, 279, 280, 281, 282, 283, 284, 285, 286, 287,
   288, 289, 290, 291, 292, 293, 294, 295, 296, 297, 298, 299, 0, 0, 0, 0, 0, 0, 0, 0]

/-- Entries 4600-4799 of `yytable` (spvm_yacc.c 837-1321). -/
def yytable_23 : List Int :=
  [0, 0, 0, 0, 0, 0, 0, 0, 0, 300, 301, 302, 266, 267, 268, 269, 270, 271, 272, 273,
   274, 275, 276, 277, 278, 279, 280, 281, 282, 283, 284, 285, 286, 287, 288, 289, 290, 291, 292, 293,
   294, 295, 296, 297, 298, 299, 0, 0, 0, 0, 0, 0, 0, 0, 0, 0, 0, 0, 0, 0,
   0, 0, 0, 300, 301, 302, 268, 269, 270, 271, 272, 273, 274, 275, 276, 277, 278, 279, 280, 281,
   282, 283, 284, 285, 286, 287, 288, 289, 290, 291, 292, 293, 294, 295, 296, 297, 298, 299, 0, 0,
   0, 0, 0, 0, 0, 0, 0, 0, 0, 0, 0, 0, 0, 0, 0, 300, 301, 302, 269, 270,
   271, 272, 273, 274, 275, 276, 277, 278, 279, 280, 281, 282, 283, 284, 285, 286, 287, 288, 289, 290,
   291, 292, 293, 294, 295, 296, 297, 298, 299, 0, 0, 0, 0, 0, 0, 0, 0, 0, 0, 0,
   0, 0, 0, 0, 0, 0, 300, 301, 302, -168, -168, -168, -168, 273, 274, 275, 276, 277, 278, 279,
   280, 281, 282, 283, 284, 285, 286, 287, 288, 289, 290, 291, 292, 293, 294, 295, 296, 297, 298, 299]

/-- Entries 4800-4819 of `yytable` (spvm_yacc.c 837-1321). -/
def yytable_24 : List Int :=
  [0, 0, 0, 0, 0, 0, 0, 0, 0, 0, 0, 0, 0, 0, 0, 0, 0, 300, 301, 302]

/-- `yytable` (spvm_yacc.c 837-1321). -/
def yytable : List Int := List.flatten [
  yytable_0, yytable_1, yytable_2, yytable_3, yytable_4, yytable_5, yytable_6, yytable_7, yytable_8, yytable_9, yytable_10, yytable_11, yytable_12, yytable_13, yytable_14, yytable_15, yytable_16, yytable_17, yytable_18, yytable_19, yytable_20, yytable_21, yytable_22, yytable_23, yytable_24]

/-- Entries 0-199 of `yycheck` (spvm_yacc.c 1323-1807). -/
def yycheck_0 : List Int :=
  [34, 1, 66, 22, 23, 10, 113, 321, 102, 112, 113, 105, 316, 317, 311, 469, 8, 36, 32, 19,
   35, 71, 223, 3, 461, 35, 71, 4, 28, 29, 30, 71, 32, 4, 71, 6, 474, 0, 9, 70,
   79, 12, 13, 70, 131, 16, 16, 18, 135, 486, 21, 60, 71, 72, 51, 70, 71, 72, 51, 36,
   94, 358, 128, 129, 130, 104, 35, 5, 506, 7, 36, 110, 111, 104, 128, 129, 130, 104, 185, 186,
   72, 120, 132, 133, 123, 56, 400, 37, 133, 192, 35, 134, 37, 133, 70, 71, 133, 70, 71, 130,
   554, 101, 102, 71, 305, 105, 307, 544, 133, 4, 16, 6, 416, 113, 9, 15, 132, 12, 13, 132,
   134, 16, 132, 18, 135, 136, 21, 10, 133, 133, 444, 134, 135, 24, 25, 35, 450, 133, 241, 233,
   40, 41, 42, 43, 44, 45, 46, 47, 48, 104, 105, 106, 107, 108, 109, 110, 71, 51, 133, 51,
   35, 56, 36, 134, 35, 72, 133, 72, 72, 203, 72, 133, 132, 128, 129, 130, 133, 113, 482, 179,
   5, 130, 134, 35, 132, 185, 186, 281, 282, 283, 284, 285, 256, 133, 133, 72, 133, 132, 399, 133]

/-- Entries 200-399 of `yycheck` (spvm_yacc.c 1323-1807). -/
def yycheck_1 : List Int :=
  [72, 70, 70, 70, 130, 130, 510, 135, 132, 131, 130, 58, 72, 320, 511, 136, 132, 521, 73, 136,
   134, 133, 135, 113, 288, 71, 71, 71, 131, 72, 431, 132, 433, 233, 131, 72, 134, 35, 302, 134,
   72, 134, 443, 41, 42, 43, 44, 45, 46, 47, 48, 354, 37, 133, 84, 85, 86, 87, 88, 89,
   90, 91, 92, 93, 94, 95, 96, 97, 98, 99, 100, 101, 102, 103, 104, 105, 106, 107, 108, 109,
   110, 281, 282, 283, 284, 285, 136, 71, 5, 72, 77, 25, 134, 400, 132, 136, 136, 331, 128, 129,
   130, 136, 135, 31, 132, 134, 345, 134, 15, 72, 134, 311, 406, 136, 136, 136, 73, 136, 136, 136,
   320, 134, 322, 73, 72, 344, 73, 346, 35, 136, 75, 438, 101, 4, 41, 42, 43, 44, 45, 46,
   47, 48, 50, 36, 413, 494, 345, 101, 102, 103, 104, 105, 106, 107, 108, 109, 110, 137, 358, 505,
   86, 502, -1, 61, -1, -1, -1, -1, 471, -1, 409, -1, -1, 480, 128, 129, 130, -1, -1, -1,
   -1, -1, -1, 81, -1, 419, 420, 421, 495, -1, 424, -1, -1, 91, -1, -1, -1, -1, 492, -1]

/-- Entries 400-599 of `yycheck` (spvm_yacc.c 1323-1807). -/
def yycheck_2 : List Int :=
  [400, -1, -1, -1, -1, 103, 406, 105, 106, 107, 108, -1, -1, -1, 112, 434, 114, 115, 116, 117,
   118, 119, 461, -1, 122, -1, 124, 125, 126, 127, 128, 129, 130, 131, -1, -1, -1, -1, 438, 137,
   -1, -1, -1, -1, -1, -1, -1, 486, -1, -1, -1, -1, -1, -1, -1, 494, -1, -1, -1, 493,
   -1, -1, -1, 497, -1, 499, -1, -1, -1, -1, 504, -1, -1, -1, -1, -1, -1, -1, -1, -1,
   480, -1, -1, -1, -1, -1, -1, -1, 522, -1, -1, -1, 492, -1, -1, 495, 194, 195, 196, -1,
   198, 535, -1, 201, -1, 544, 540, 541, -1, -1, -1, 511, -1, -1, 548, -1, -1, -1, 216, -1,
   -1, 555, -1, -1, -1, -1, -1, -1, -1, -1, -1, -1, -1, -1, -1, -1, -1, -1, -1, -1,
   -1, -1, -1, 241, -1, -1, -1, 245, -1, -1, -1, -1, -1, -1, -1, -1, -1, -1, -1, -1,
   -1, -1, -1, -1, 262, 263, 264, 265, 266, 267, 268, 269, 270, 271, 272, 273, 274, 275, 276, 277,
   278, 279, 280, -1, -1, -1, -1, -1, 286, 287, -1, 289, 290, 291, 292, 293, 294, 295, 296, 297]

/-- Entries 600-799 of `yycheck` (spvm_yacc.c 1323-1807). -/
def yycheck_3 : List Int :=
  [298, 299, -1, -1, -1, -1, 304, -1, 306, -1, -1, -1, -1, -1, -1, -1, -1, -1, -1, -1,
   -1, -1, -1, -1, -1, -1, -1, -1, -1, -1, -1, -1, -1, 8, -1, 333, 334, -1, -1, 14,
   15, 16, -1, 341, 19, 20, -1, -1, -1, -1, 348, -1, -1, 351, -1, -1, 354, -1, -1, -1,
   35, 36, 37, 38, 39, -1, 41, 42, 43, 44, 45, 46, 47, 48, 49, 50, -1, -1, -1, -1,
   -1, -1, 57, -1, 59, -1, -1, -1, -1, -1, -1, -1, -1, 68, -1, 70, 71, 72, -1, -1,
   398, -1, -1, -1, -1, -1, -1, -1, -1, -1, -1, -1, -1, -1, -1, -1, -1, -1, -1, -1,
   -1, -1, -1, -1, 422, 423, 101, 102, -1, -1, -1, -1, -1, -1, -1, -1, 111, 112, 113, 114,
   115, -1, -1, -1, 119, 120, 121, 122, 123, 124, 125, 126, 127, 128, 129, -1, -1, 8, -1, -1,
   -1, 136, -1, 14, -1, 16, -1, -1, 19, 20, -1, -1, -1, 471, -1, -1, -1, -1, -1, -1,
   -1, -1, -1, -1, 35, 36, 37, 38, 39, -1, 41, 42, 43, 44, 45, 46, 47, 48, 49, 50]

/-- Entries 800-999 of `yycheck` (spvm_yacc.c 1323-1807). -/
def yycheck_4 : List Int :=
  [-1, -1, -1, -1, 502, -1, 57, -1, 59, -1, -1, -1, -1, -1, -1, -1, -1, 68, -1, 70,
   71, 72, -1, -1, -1, -1, 524, -1, -1, -1, -1, -1, -1, -1, -1, -1, 534, -1, -1, -1,
   -1, -1, -1, -1, -1, 543, -1, -1, -1, 547, 101, 102, -1, -1, -1, -1, -1, -1, -1, -1,
   111, 112, 113, 114, 115, -1, -1, -1, 119, 120, 121, 122, 123, 124, 125, 126, 127, 128, 129, -1,
   8, -1, -1, -1, -1, 136, 14, -1, 16, -1, -1, 19, 20, -1, -1, -1, -1, -1, -1, -1,
   -1, -1, -1, -1, -1, -1, -1, 35, 36, 37, 38, 39, -1, 41, 42, 43, 44, 45, 46, 47,
   48, 49, 50, -1, -1, -1, -1, -1, -1, 57, -1, 59, -1, -1, -1, -1, -1, -1, -1, -1,
   68, -1, 70, 71, 72, -1, -1, -1, -1, -1, -1, -1, -1, -1, -1, -1, -1, -1, -1, -1,
   -1, -1, -1, -1, -1, -1, -1, -1, -1, -1, -1, -1, -1, 101, 102, -1, -1, -1, -1, -1,
   -1, -1, -1, 111, 112, 113, 114, 115, -1, -1, -1, 119, 120, 121, 122, 123, 124, 125, 126, 127]

/-- Entries 1000-1199 of `yycheck` (spvm_yacc.c 1323-1807). -/
def yycheck_5 : List Int :=
  [128, 129, 4, -1, -1, -1, 8, -1, 136, -1, -1, -1, 14, -1, 16, -1, -1, 19, 20, -1,
   -1, -1, -1, -1, -1, -1, -1, -1, -1, -1, -1, -1, -1, 35, 36, 37, 38, 39, -1, 41,
   42, 43, 44, 45, 46, 47, 48, 49, 50, -1, -1, -1, -1, -1, -1, 57, -1, 59, -1, -1,
   -1, -1, -1, -1, -1, -1, 68, -1, 70, 71, 72, -1, -1, -1, -1, -1, -1, -1, -1, -1,
   -1, -1, -1, -1, -1, -1, -1, -1, -1, -1, -1, -1, -1, -1, -1, -1, -1, -1, -1, 101,
   102, -1, -1, -1, -1, -1, -1, -1, -1, 111, 112, 113, 114, 115, -1, -1, -1, 119, 120, 121,
   122, 123, 124, 125, 126, 127, 128, 129, 8, 131, -1, -1, -1, -1, 14, -1, 16, 17, -1, 19,
   20, -1, 22, 23, -1, -1, 26, 27, 28, 29, 30, 31, 32, 33, 34, 35, 36, 37, 38, 39,
   -1, 41, 42, 43, 44, 45, 46, 47, 48, 49, 50, -1, -1, -1, -1, -1, -1, 57, -1, 59,
   -1, -1, 62, 63, 64, 65, 66, 67, 68, 69, 70, 71, 72, -1, -1, -1, -1, -1, -1, -1]

/-- Entries 1200-1399 of `yycheck` (spvm_yacc.c 1323-1807). -/
def yycheck_6 : List Int :=
  [-1, -1, -1, -1, -1, -1, -1, -1, -1, -1, -1, -1, -1, -1, -1, -1, -1, -1, -1, -1,
   -1, 101, 102, -1, -1, -1, -1, -1, -1, -1, -1, 111, 112, 113, 114, 115, -1, -1, -1, 119,
   120, 121, 122, 123, 124, 125, 126, 127, 128, 129, 8, -1, -1, 133, 134, -1, 14, -1, 16, 17,
   -1, 19, 20, -1, 22, 23, -1, -1, 26, 27, 28, 29, 30, 31, 32, 33, 34, 35, 36, 37,
   38, 39, -1, 41, 42, 43, 44, 45, 46, 47, 48, 49, 50, -1, -1, -1, -1, -1, -1, 57,
   -1, 59, -1, -1, 62, 63, 64, 65, 66, 67, 68, 69, 70, 71, 72, -1, -1, -1, -1, -1,
   -1, -1, -1, -1, -1, -1, -1, -1, -1, -1, -1, -1, -1, -1, -1, -1, -1, -1, -1, -1,
   -1, -1, -1, 101, 102, -1, -1, -1, -1, -1, -1, -1, -1, 111, 112, 113, 114, 115, -1, -1,
   -1, 119, 120, 121, 122, 123, 124, 125, 126, 127, 128, 129, 8, -1, -1, 133, 134, -1, 14, -1,
   16, 17, -1, 19, 20, -1, 22, 23, -1, -1, 26, 27, 28, 29, 30, 31, 32, 33, 34, 35]

/-- Entries 1400-1599 of `yycheck` (spvm_yacc.c 1323-1807). -/
def yycheck_7 : List Int :=
  [36, 37, 38, 39, -1, 41, 42, 43, 44, 45, 46, 47, 48, 49, 50, -1, -1, -1, -1, -1,
   -1, 57, -1, 59, -1, -1, 62, 63, 64, 65, 66, 67, 68, 69, 70, 71, 72, -1, -1, -1,
   -1, -1, -1, -1, -1, -1, -1, -1, -1, -1, -1, -1, -1, -1, -1, -1, -1, -1, -1, -1,
   -1, -1, -1, -1, -1, 101, 102, -1, -1, -1, -1, -1, -1, -1, -1, 111, 112, 113, 114, 115,
   -1, -1, -1, 119, 120, 121, 122, 123, 124, 125, 126, 127, 128, 129, 8, -1, -1, 133, 134, -1,
   14, -1, 16, -1, -1, 19, 20, -1, -1, -1, -1, -1, -1, -1, -1, -1, -1, -1, -1, -1,
   -1, 35, 36, 37, 38, 39, -1, 41, 42, 43, 44, 45, 46, 47, 48, 49, 50, -1, -1, -1,
   -1, -1, -1, 57, -1, 59, -1, -1, -1, -1, -1, -1, -1, -1, 68, -1, 70, 71, 72, -1,
   -1, -1, -1, -1, -1, -1, -1, -1, -1, -1, -1, -1, -1, -1, -1, -1, -1, -1, -1, -1,
   -1, -1, -1, -1, -1, -1, -1, 101, 102, -1, -1, -1, -1, -1, -1, -1, -1, 111, 112, 113]

/-- Entries 1600-1799 of `yycheck` (spvm_yacc.c 1323-1807). -/
def yycheck_8 : List Int :=
  [114, 115, -1, -1, -1, 119, 120, 121, 122, 123, 124, 125, 126, 127, 128, 129, 8, -1, -1, -1,
   134, -1, 14, -1, 16, -1, -1, 19, 20, -1, -1, -1, -1, -1, -1, -1, -1, -1, -1, -1,
   -1, -1, -1, 35, 36, 37, 38, 39, -1, 41, 42, 43, 44, 45, 46, 47, 48, 49, 50, -1,
   -1, -1, -1, -1, -1, 57, -1, 59, -1, -1, -1, -1, -1, -1, -1, -1, 68, -1, 70, 71,
   72, -1, -1, -1, -1, -1, -1, -1, -1, -1, -1, -1, -1, -1, -1, -1, -1, -1, -1, -1,
   -1, -1, -1, -1, -1, -1, -1, -1, -1, 101, 102, -1, -1, -1, -1, -1, -1, -1, -1, 111,
   112, 113, 114, 115, -1, -1, -1, 119, 120, 121, 122, 123, 124, 125, 126, 127, 128, 129, 8, -1,
   -1, 133, -1, -1, 14, -1, 16, -1, -1, 19, 20, -1, -1, -1, -1, -1, -1, -1, -1, -1,
   -1, -1, -1, -1, -1, 35, 36, 37, 38, 39, -1, 41, 42, 43, 44, 45, 46, 47, 48, 49,
   50, -1, -1, -1, -1, -1, -1, 57, -1, 59, -1, -1, -1, -1, -1, -1, -1, -1, 68, -1]

/-- Entries 1800-1999 of `yycheck` (spvm_yacc.c 1323-1807). -/
def yycheck_9 : List Int :=
  [70, 71, 72, -1, -1, -1, -1, -1, -1, -1, -1, -1, -1, -1, -1, -1, -1, -1, -1, -1,
   -1, -1, -1, -1, -1, -1, -1, -1, -1, -1, -1, 101, 102, -1, -1, -1, -1, -1, -1, -1,
   -1, 111, 112, 113, 114, 115, -1, -1, -1, 119, 120, 121, 122, 123, 124, 125, 126, 127, 128, 129,
   8, -1, -1, 133, -1, -1, 14, -1, 16, -1, -1, 19, 20, -1, -1, -1, -1, -1, -1, -1,
   -1, -1, -1, -1, -1, -1, -1, 35, 36, 37, 38, 39, -1, 41, 42, 43, 44, 45, 46, 47,
   48, 49, 50, -1, -1, -1, -1, -1, -1, 57, -1, 59, -1, -1, -1, -1, -1, -1, -1, -1,
   68, -1, 70, 71, 72, -1, -1, -1, -1, -1, -1, -1, -1, -1, -1, -1, -1, -1, -1, -1,
   -1, -1, -1, -1, -1, -1, -1, -1, -1, -1, -1, -1, -1, 101, 102, -1, -1, -1, -1, -1,
   -1, -1, -1, 111, 112, 113, 114, 115, -1, -1, -1, 119, 120, 121, 122, 123, 124, 125, 126, 127,
   128, 129, 8, -1, -1, 133, -1, -1, 14, -1, 16, -1, -1, 19, 20, -1, -1, -1, -1, -1]

/-- Entries 2000-2199 of `yycheck` (spvm_yacc.c 1323-1807). -/
def yycheck_10 : List Int :=
  [-1, -1, -1, -1, -1, -1, -1, -1, -1, 35, 36, 37, 38, 39, -1, 41, 42, 43, 44, 45,
   46, 47, 48, 49, 50, -1, -1, -1, -1, -1, -1, 57, -1, 59, -1, -1, -1, -1, -1, -1,
   -1, -1, 68, -1, 70, 71, 72, -1, -1, -1, -1, -1, -1, -1, -1, -1, -1, -1, -1, -1,
   -1, -1, -1, -1, -1, -1, -1, -1, -1, -1, -1, -1, -1, -1, -1, 101, 102, -1, -1, -1,
   -1, -1, -1, -1, -1, 111, 112, 113, 114, 115, -1, -1, -1, 119, 120, 121, 122, 123, 124, 125,
   126, 127, 128, 129, 8, -1, -1, 133, -1, -1, 14, -1, 16, -1, -1, 19, 20, -1, -1, -1,
   -1, -1, -1, -1, -1, -1, -1, -1, -1, -1, -1, 35, 36, 37, 38, 39, -1, 41, 42, 43,
   44, 45, 46, 47, 48, 49, 50, -1, -1, -1, -1, -1, -1, 57, -1, 59, -1, -1, -1, -1,
   -1, -1, -1, -1, 68, -1, 70, 71, 72, -1, -1, -1, -1, -1, -1, -1, -1, -1, -1, -1,
   -1, -1, -1, -1, -1, -1, -1, -1, -1, -1, -1, -1, -1, -1, -1, -1, -1, 101, 102, -1]

/-- Entries 2200-2399 of `yycheck` (spvm_yacc.c 1323-1807). -/
def yycheck_11 : List Int :=
  [-1, -1, -1, -1, -1, -1, -1, 111, 112, 113, 114, 115, -1, -1, -1, 119, 120, 121, 122, 123,
   124, 125, 126, 127, 128, 129, -1, 5, -1, 133, 8, -1, -1, -1, -1, -1, 14, -1, 16, -1,
   -1, 19, 20, -1, -1, -1, -1, -1, -1, -1, -1, -1, -1, -1, -1, -1, -1, 35, 36, 37,
   38, 39, -1, 41, 42, 43, 44, 45, 46, 47, 48, 49, 50, -1, -1, -1, -1, -1, -1, 57,
   -1, 59, -1, -1, -1, -1, -1, -1, -1, -1, 68, -1, 70, 71, 72, -1, -1, -1, -1, -1,
   -1, -1, -1, -1, -1, -1, -1, -1, -1, -1, -1, -1, -1, -1, -1, -1, -1, -1, -1, -1,
   -1, -1, -1, 101, 102, -1, -1, -1, -1, -1, -1, -1, -1, 111, 112, 113, 114, 115, -1, -1,
   -1, 119, 120, 121, 122, 123, 124, 125, 126, 127, 128, 129, 8, -1, -1, -1, -1, -1, 14, -1,
   16, -1, -1, 19, 20, -1, -1, -1, -1, -1, -1, -1, -1, -1, -1, -1, -1, -1, -1, 35,
   36, 37, 38, 39, -1, 41, 42, 43, 44, 45, 46, 47, 48, 49, 50, -1, -1, -1, -1, -1]

/-- Entries 2400-2599 of `yycheck` (spvm_yacc.c 1323-1807). -/
def yycheck_12 : List Int :=
  [-1, 57, -1, 59, -1, -1, -1, -1, -1, -1, -1, -1, 68, -1, 70, 71, 72, -1, -1, -1,
   -1, -1, -1, -1, -1, -1, -1, -1, -1, -1, -1, -1, -1, -1, -1, -1, -1, -1, -1, -1,
   -1, -1, -1, -1, -1, 101, 102, -1, -1, -1, -1, -1, -1, -1, -1, 111, 112, 113, 114, 115,
   -1, -1, -1, 119, 120, 121, 122, 123, 124, 125, 126, 127, 128, 129, 8, 131, -1, -1, -1, -1,
   14, -1, 16, -1, -1, 19, 20, -1, -1, -1, -1, -1, -1, -1, -1, -1, -1, -1, -1, -1,
   -1, 35, 36, 37, 38, 39, -1, 41, 42, 43, 44, 45, 46, 47, 48, 49, 50, -1, -1, -1,
   -1, -1, -1, 57, -1, 59, -1, -1, -1, -1, -1, -1, -1, -1, 68, -1, 70, 71, 72, -1,
   -1, -1, -1, -1, -1, -1, -1, -1, -1, -1, -1, -1, -1, -1, -1, -1, -1, -1, -1, -1,
   -1, -1, -1, -1, -1, -1, -1, 101, 102, -1, -1, -1, -1, -1, -1, -1, -1, 111, 112, 113,
   114, 115, -1, -1, -1, 119, 120, 121, 122, 123, 124, 125, 126, 127, 128, 129, 8, 131, -1, -1]

/-- Entries 2600-2799 of `yycheck` (spvm_yacc.c 1323-1807). -/
def yycheck_13 : List Int :=
  [-1, -1, 14, 15, 16, -1, -1, 19, 20, -1, -1, -1, -1, -1, -1, -1, -1, -1, -1, -1,
   -1, -1, -1, 35, 36, 37, 38, 39, -1, 41, 42, 43, 44, 45, 46, 47, 48, 49, 50, -1,
   -1, -1, -1, -1, -1, 57, -1, 59, -1, -1, -1, -1, -1, -1, -1, -1, 68, -1, 70, 71,
   72, -1, -1, -1, -1, -1, -1, -1, -1, -1, -1, -1, -1, -1, -1, -1, -1, -1, -1, -1,
   -1, -1, -1, -1, -1, -1, -1, -1, -1, 101, 102, -1, -1, -1, -1, -1, -1, -1, -1, 111,
   112, 113, 114, 115, -1, -1, -1, 119, 120, 121, 122, 123, 124, 125, 126, 127, 128, 129, 8, -1,
   -1, 11, -1, -1, 14, -1, 16, -1, -1, 19, 20, -1, -1, -1, -1, -1, -1, -1, -1, -1,
   -1, -1, -1, -1, -1, 35, 36, 37, 38, 39, -1, 41, 42, 43, 44, 45, 46, 47, 48, 49,
   50, -1, -1, -1, -1, -1, -1, 57, -1, 59, -1, -1, -1, -1, -1, -1, -1, -1, 68, -1,
   70, 71, 72, -1, -1, -1, -1, -1, -1, -1, -1, -1, -1, -1, -1, -1, -1, -1, -1, -1]

/-- Entries 2800-2999 of `yycheck` (spvm_yacc.c 1323-1807). -/
def yycheck_14 : List Int :=
  [-1, -1, -1, -1, -1, -1, -1, -1, -1, -1, -1, 101, 102, -1, -1, -1, -1, -1, -1, -1,
   -1, 111, 112, 113, 114, 115, -1, -1, -1, 119, 120, 121, 122, 123, 124, 125, 126, 127, 128, 129,
   8, -1, -1, -1, -1, -1, 14, -1, 16, -1, -1, 19, 20, -1, -1, -1, -1, -1, -1, -1,
   -1, -1, -1, -1, -1, -1, -1, 35, 36, 37, 38, 39, -1, 41, 42, 43, 44, 45, 46, 47,
   48, 49, 50, -1, -1, -1, -1, -1, -1, 57, -1, 59, -1, -1, -1, -1, -1, -1, -1, -1,
   68, -1, 70, 71, 72, -1, -1, -1, -1, -1, -1, -1, -1, -1, -1, -1, -1, -1, -1, -1,
   -1, -1, -1, -1, -1, -1, -1, -1, -1, -1, -1, -1, -1, 101, 102, -1, -1, -1, -1, -1,
   -1, -1, -1, 111, 112, 113, 114, 115, -1, -1, -1, 119, 120, 121, 122, 123, 124, 125, 126, 127,
   128, 129, 8, -1, -1, -1, -1, -1, 14, -1, 16, -1, -1, 19, 20, -1, -1, -1, -1, -1,
   -1, -1, -1, -1, -1, -1, -1, -1, -1, 35, 36, 37, 38, 39, -1, 41, 42, 43, 44, 45]

/-- Entries 3000-3199 of `yycheck` (spvm_yacc.c 1323-1807). -/
def yycheck_15 : List Int :=
  [46, 47, 48, 49, 50, -1, -1, -1, -1, -1, -1, 57, -1, 59, -1, -1, -1, -1, -1, -1,
   -1, -1, 68, -1, 70, 71, 72, -1, -1, -1, -1, -1, -1, -1, -1, -1, -1, -1, -1, -1,
   -1, -1, -1, -1, -1, -1, -1, -1, -1, -1, -1, -1, -1, -1, -1, 101, 102, -1, -1, -1,
   -1, -1, -1, -1, -1, 111, 112, 113, 114, 115, -1, -1, -1, 119, 120, 121, 122, 123, 124, 125,
   126, 127, 128, 129, 8, -1, -1, -1, -1, -1, 14, -1, 16, -1, -1, 19, 20, -1, -1, -1,
   -1, -1, -1, -1, -1, -1, -1, -1, -1, -1, -1, 35, 36, 37, 38, 39, -1, 41, 42, 43,
   44, 45, 46, 47, 48, 49, 50, -1, -1, -1, -1, -1, -1, 57, -1, 59, -1, -1, -1, -1,
   -1, -1, -1, -1, 68, -1, 70, 71, 72, -1, -1, -1, -1, -1, -1, -1, -1, -1, -1, -1,
   -1, -1, -1, -1, -1, -1, -1, -1, -1, -1, -1, -1, -1, -1, -1, -1, -1, 101, 102, -1,
   -1, -1, -1, -1, -1, -1, -1, 111, 112, 113, 114, 115, -1, -1, -1, 119, 120, 121, 122, 123]

/-- Entries 3200-3399 of `yycheck` (spvm_yacc.c 1323-1807). -/
def yycheck_16 : List Int :=
  [124, 125, 126, 127, 128, 129, 8, -1, -1, -1, -1, -1, 14, -1, 16, -1, -1, 19, 20, -1,
   -1, -1, -1, -1, -1, -1, -1, -1, -1, -1, -1, -1, -1, 35, 36, 37, 38, 39, -1, 41,
   42, 43, 44, 45, 46, 47, 48, 49, 50, -1, -1, -1, -1, -1, -1, 57, -1, 59, -1, -1,
   -1, -1, -1, -1, -1, -1, 68, -1, 70, 71, 72, -1, -1, -1, -1, -1, -1, -1, -1, -1,
   -1, -1, -1, -1, -1, -1, -1, -1, -1, -1, -1, -1, -1, -1, -1, -1, -1, -1, -1, 101,
   102, -1, -1, -1, -1, -1, -1, -1, -1, 111, 112, 113, 114, 115, -1, -1, -1, 119, 120, 121,
   122, 123, 124, 125, 126, 127, 128, 129, 73, 74, 75, 76, 77, 78, 79, 80, 81, 82, 83, 84,
   85, 86, 87, 88, 89, 90, 91, 92, 93, 94, 95, 96, 97, 98, 99, 100, 101, 102, 103, 104,
   105, 106, 107, 108, 109, 110, -1, -1, -1, -1, -1, -1, -1, -1, -1, -1, -1, -1, -1, -1,
   -1, -1, -1, 128, 129, 130, -1, -1, -1, -1, -1, 136, 73, 74, 75, 76, 77, 78, 79, 80]

/-- Entries 3400-3599 of `yycheck` (spvm_yacc.c 1323-1807). -/
def yycheck_17 : List Int :=
  [81, 82, 83, 84, 85, 86, 87, 88, 89, 90, 91, 92, 93, 94, 95, 96, 97, 98, 99, 100,
   101, 102, 103, 104, 105, 106, 107, 108, 109, 110, -1, -1, -1, -1, -1, -1, -1, -1, -1, -1,
   -1, -1, -1, -1, -1, -1, -1, 128, 129, 130, -1, -1, -1, -1, -1, 136, 73, 74, 75, 76,
   77, 78, 79, 80, 81, 82, 83, 84, 85, 86, 87, 88, 89, 90, 91, 92, 93, 94, 95, 96,
   97, 98, 99, 100, 101, 102, 103, 104, 105, 106, 107, 108, 109, 110, -1, -1, -1, -1, -1, -1,
   -1, -1, -1, -1, -1, -1, -1, -1, -1, -1, -1, 128, 129, 130, -1, -1, -1, -1, -1, 136,
   73, 74, 75, 76, 77, 78, 79, 80, 81, 82, 83, 84, 85, 86, 87, 88, 89, 90, 91, 92,
   93, 94, 95, 96, 97, 98, 99, 100, 101, 102, 103, 104, 105, 106, 107, 108, 109, 110, -1, -1,
   -1, -1, -1, -1, -1, -1, -1, -1, -1, -1, -1, -1, -1, -1, -1, 128, 129, 130, -1, -1,
   -1, -1, -1, 136, 73, 74, 75, 76, 77, 78, 79, 80, 81, 82, 83, 84, 85, 86, 87, 88]

/-- Entries 3600-3799 of `yycheck` (spvm_yacc.c 1323-1807). -/
def yycheck_18 : List Int :=
  [89, 90, 91, 92, 93, 94, 95, 96, 97, 98, 99, 100, 101, 102, 103, 104, 105, 106, 107, 108,
   109, 110, -1, -1, -1, -1, -1, -1, -1, -1, -1, -1, -1, -1, -1, -1, -1, -1, -1, 128,
   129, 130, -1, -1, -1, -1, -1, 136, 73, 74, 75, 76, 77, 78, 79, 80, 81, 82, 83, 84,
   85, 86, 87, 88, 89, 90, 91, 92, 93, 94, 95, 96, 97, 98, 99, 100, 101, 102, 103, 104,
   105, 106, 107, 108, 109, 110, -1, -1, -1, -1, -1, -1, -1, -1, -1, -1, -1, -1, -1, -1,
   -1, -1, -1, 128, 129, 130, -1, -1, -1, -1, -1, 136, 73, 74, 75, 76, 77, 78, 79, 80,
   81, 82, 83, 84, 85, 86, 87, 88, 89, 90, 91, 92, 93, 94, 95, 96, 97, 98, 99, 100,
   101, 102, 103, 104, 105, 106, 107, 108, 109, 110, -1, -1, -1, -1, -1, -1, -1, -1, -1, -1,
   -1, -1, -1, -1, -1, -1, -1, 128, 129, 130, -1, -1, -1, -1, 135, 73, 74, 75, 76, 77,
   78, 79, 80, 81, 82, 83, 84, 85, 86, 87, 88, 89, 90, 91, 92, 93, 94, 95, 96, 97]

/-- Entries 3800-3999 of `yycheck` (spvm_yacc.c 1323-1807). -/
def yycheck_19 : List Int :=
  [98, 99, 100, 101, 102, 103, 104, 105, 106, 107, 108, 109, 110, -1, -1, -1, -1, -1, -1, -1,
   -1, -1, -1, -1, -1, -1, -1, -1, -1, -1, 128, 129, 130, -1, -1, -1, 134, 73, 74, 75,
   76, 77, 78, 79, 80, 81, 82, 83, 84, 85, 86, 87, 88, 89, 90, 91, 92, 93, 94, 95,
   96, 97, 98, 99, 100, 101, 102, 103, 104, 105, 106, 107, 108, 109, 110, -1, -1, -1, -1, -1,
   -1, -1, -1, -1, -1, -1, -1, -1, -1, -1, -1, -1, 128, 129, 130, -1, -1, -1, 134, 73,
   74, 75, 76, 77, 78, 79, 80, 81, 82, 83, 84, 85, 86, 87, 88, 89, 90, 91, 92, 93,
   94, 95, 96, 97, 98, 99, 100, 101, 102, 103, 104, 105, 106, 107, 108, 109, 110, -1, -1, -1,
   -1, -1, -1, -1, -1, -1, -1, -1, -1, -1, -1, -1, -1, -1, 128, 129, 130, -1, -1, -1,
   134, 73, 74, 75, 76, 77, 78, 79, 80, 81, 82, 83, 84, 85, 86, 87, 88, 89, 90, 91,
   92, 93, 94, 95, 96, 97, 98, 99, 100, 101, 102, 103, 104, 105, 106, 107, 108, 109, 110, -1]

/-- Entries 4000-4199 of `yycheck` (spvm_yacc.c 1323-1807). -/
def yycheck_20 : List Int :=
  [-1, -1, -1, -1, -1, -1, -1, -1, -1, -1, -1, -1, -1, -1, -1, -1, 128, 129, 130, -1,
   -1, 133, 73, 74, 75, 76, 77, 78, 79, 80, 81, 82, 83, 84, 85, 86, 87, 88, 89, 90,
   91, 92, 93, 94, 95, 96, 97, 98, 99, 100, 101, 102, 103, 104, 105, 106, 107, 108, 109, 110,
   -1, -1, -1, -1, -1, -1, -1, -1, -1, -1, -1, -1, -1, -1, -1, -1, -1, 128, 129, 130,
   -1, -1, 133, 73, 74, 75, 76, 77, 78, 79, 80, 81, 82, 83, 84, 85, 86, 87, 88, 89,
   90, 91, 92, 93, 94, 95, 96, 97, 98, 99, 100, 101, 102, 103, 104, 105, 106, 107, 108, 109,
   110, -1, -1, -1, -1, -1, -1, -1, -1, -1, -1, -1, -1, -1, -1, -1, -1, -1, 128, 129,
   130, -1, -1, 133, 73, 74, 75, 76, 77, 78, 79, 80, 81, 82, 83, 84, 85, 86, 87, 88,
   89, 90, 91, 92, 93, 94, 95, 96, 97, 98, 99, 100, 101, 102, 103, 104, 105, 106, 107, 108,
   109, 110, -1, -1, -1, -1, -1, -1, -1, -1, -1, -1, -1, -1, -1, -1, -1, -1, -1, 128]

/-- Entries 4200-4399 of `yycheck` (spvm_yacc.c 1323-1807). -/
def yycheck_21 : List Int :=
  [129, 130, -1, 132, 73, 74, 75, 76, 77, 78, 79, 80, 81, 82, 83, 84, 85, 86, 87, 88,
   89, 90, 91, 92, 93, 94, 95, 96, 97, 98, 99, 100, 101, 102, 103, 104, 105, 106, 107, 108,
   109, 110, -1, -1, -1, -1, -1, -1, -1, -1, -1, -1, -1, -1, -1, -1, -1, -1, -1, 128,
   129, 130, 131, 73, 74, 75, 76, 77, 78, 79, 80, 81, 82, 83, 84, 85, 86, 87, 88, 89,
   90, 91, 92, 93, 94, 95, 96, 97, 98, 99, 100, 101, 102, 103, 104, 105, 106, 107, 108, 109,
   110, -1, -1, -1, -1, -1, -1, -1, -1, -1, -1, -1, -1, -1, -1, -1, -1, -1, 128, 129,
   130, 131, 73, 74, 75, 76, 77, 78, 79, 80, 81, 82, 83, 84, 85, 86, 87, 88, 89, 90,
   91, 92, 93, 94, 95, 96, 97, 98, 99, 100, 101, 102, 103, 104, 105, 106, 107, 108, 109, 110,
   -1, -1, -1, -1, -1, -1, -1, -1, -1, -1, -1, -1, -1, -1, -1, -1, -1, 128, 129, 130,
   131, 73, 74, 75, 76, 77, 78, 79, 80, 81, 82, 83, 84, 85, 86, 87, 88, 89, 90, 91]

/-- Entries 4400-4599 of `yycheck` (spvm_yacc.c 1323-1807). -/
def yycheck_22 : List Int :=
  [92, 93, 94, 95, 96, 97, 98, 99, 100, 101, 102, 103, 104, 105, 106, 107, 108, 109, 110, -1,
   -1, -1, -1, -1, -1, -1, -1, -1, -1, -1, -1, -1, -1, -1, -1, -1, 128, 129, 130, 131,
   73, 74, 75, 76, 77, 78, 79, 80, 81, 82, 83, 84, 85, 86, 87, 88, 89, 90, 91, 92,
   93, 94, 95, 96, 97, 98, 99, 100, 101, 102, 103, 104, 105, 106, 107, 108, 109, 110, -1, -1,
   -1, -1, -1, -1, -1, -1, -1, -1, -1, -1, -1, -1, -1, -1, -1, 128, 129, 130, 131, 73,
   74, 75, 76, 77, 78, 79, 80, 81, 82, 83, 84, 85, 86, 87, 88, 89, 90, 91, 92, 93,
   94, 95, 96, 97, 98, 99, 100, 101, 102, 103, 104, 105, 106, 107, 108, 109, 110, -1, -1, -1,
   -1, -1, -1, -1, -1, -1, -1, -1, -1, -1, -1, -1, -1, -1, 128, 129, 130, 76, 77, 78,
   79, 80, 81, 82, 83, 84, 85, 86, 87, 88, 89, 90, 91, 92, 93, 94, 95, 96, 97, 98,
   99, 100, 101, 102, 103, 104, 105, 106, 107, 108, 109, 110, -1, -1, -1, -1, -1, -1, -1, -1]

/-- Entries 4600-4799 of `yycheck` (spvm_yacc.c 1323-1807). -/
def yycheck_23 : List Int :=
  [-1, -1, -1, -1, -1, -1, -1, -1, -1, 128, 129, 130, 77, 78, 79, 80, 81, 82, 83, 84,
   85, 86, 87, 88, 89, 90, 91, 92, 93, 94, 95, 96, 97, 98, 99, 100, 101, 102, 103, 104,
   105, 106, 107, 108, 109, 110, -1, -1, -1, -1, -1, -1, -1, -1, -1, -1, -1, -1, -1, -1,
   -1, -1, -1, 128, 129, 130, 79, 80, 81, 82, 83, 84, 85, 86, 87, 88, 89, 90, 91, 92,
   93, 94, 95, 96, 97, 98, 99, 100, 101, 102, 103, 104, 105, 106, 107, 108, 109, 110, -1, -1,
   -1, -1, -1, -1, -1, -1, -1, -1, -1, -1, -1, -1, -1, -1, -1, 128, 129, 130, 80, 81,
   82, 83, 84, 85, 86, 87, 88, 89, 90, 91, 92, 93, 94, 95, 96, 97, 98, 99, 100, 101,
   102, 103, 104, 105, 106, 107, 108, 109, 110, -1, -1, -1, -1, -1, -1, -1, -1, -1, -1, -1,
   -1, -1, -1, -1, -1, -1, 128, 129, 130, 80, 81, 82, 83, 84, 85, 86, 87, 88, 89, 90,
   91, 92, 93, 94, 95, 96, 97, 98, 99, 100, 101, 102, 103, 104, 105, 106, 107, 108, 109, 110]

/-- Entries 4800-4819 of `yycheck` (spvm_yacc.c 1323-1807). -/
def yycheck_24 : List Int :=
  [-1, -1, -1, -1, -1, -1, -1, -1, -1, -1, -1, -1, -1, -1, -1, -1, -1, 128, 129, 130]

/-- `yycheck` (spvm_yacc.c 1323-1807). -/
def yycheck : List Int := List.flatten [
  yycheck_0, yycheck_1, yycheck_2, yycheck_3, yycheck_4, yycheck_5, yycheck_6, yycheck_7, yycheck_8, yycheck_9, yycheck_10, yycheck_11, yycheck_12, yycheck_13, yycheck_14, yycheck_15, yycheck_16, yycheck_17, yycheck_18, yycheck_19, yycheck_20, yycheck_21, yycheck_22, yycheck_23, yycheck_24]

/-- Entries 0-199 of `yyr1` (spvm_yacc.c 1872-1903). -/
def yyr1_0 : List Int :=
  [0, 137, 138, 139, 140, 141, 142, 142, 143, 143, 143, 144, 144, 144, 144, 144, 144, 144, 144, 144,
   145, 146, 146, 147, 147, 148, 148, 149, 149, 150, 151, 151, 152, 152, 153, 153, 154, 154, 154, 154,
   155, 155, 156, 156, 157, 158, 158, 159, 159, 160, 160, 160, 160, 160, 160, 160, 160, 160, 160, 161,
   162, 163, 163, 164, 165, 166, 167, 168, 169, 170, 170, 171, 171, 171, 172, 172, 173, 174, 175, 175,
   175, 175, 176, 176, 177, 177, 178, 178, 178, 179, 179, 180, 180, 180, 181, 181, 181, 181, 182, 182,
   183, 183, 184, 184, 185, 185, 186, 186, 186, 186, 186, 186, 186, 186, 186, 186, 186, 186, 186, 186,
   186, 186, 186, 186, 186, 187, 187, 187, 187, 187, 188, 188, 188, 188, 188, 188, 189, 189, 190, 191,
   191, 192, 193, 194, 194, 195, 195, 196, 196, 197, 197, 198, 198, 199, 199, 200, 200, 201, 201, 201,
   202, 203, 204, 204, 205, 206, 206, 207, 207, 208, 208, 208, 208, 208, 208, 208, 208, 208, 208, 208,
   208, 208, 208, 208, 208, 208, 208, 208, 208, 208, 208, 208, 208, 208, 208, 209, 210, 210, 210, 211]

/-- Entries 200-288 of `yyr1` (spvm_yacc.c 1872-1903). -/
def yyr1_1 : List Int :=
  [211, 211, 211, 211, 211, 211, 211, 211, 211, 211, 211, 211, 212, 212, 212, 212, 213, 213, 214, 214,
   215, 215, 215, 215, 215, 216, 216, 216, 216, 216, 216, 216, 216, 216, 217, 217, 217, 217, 218, 218,
   218, 218, 218, 218, 218, 218, 218, 218, 218, 218, 218, 218, 219, 220, 220, 220, 221, 221, 221, 221,
   221, 222, 222, 223, 223, 224, 224, 225, 225, 225, 226, 226, 226, 227, 227, 227, 227, 227, 227, 227,
   228, 228, 228, 229, 229, 229, 230, 231, 232]

/-- `yyr1` (spvm_yacc.c 1872-1903). -/
def yyr1 : List Int := List.flatten [
  yyr1_0, yyr1_1]

/-- Entries 0-199 of `yyr2` (spvm_yacc.c 1906-1937). -/
def yyr2_0 : List Int :=
  [0, 2, 1, 1, 1, 1, 1, 2, 1, 1, 1, 1, 1, 1, 1, 1, 1, 1, 1, 1,
   2, 3, 3, 4, 4, 2, 1, 0, 1, 2, 3, 1, 0, 1, 2, 1, 5, 7, 5, 7,
   0, 1, 0, 2, 3, 0, 1, 2, 1, 1, 1, 1, 1, 1, 1, 1, 1, 2, 1, 2,
   3, 3, 5, 2, 5, 3, 3, 3, 3, 0, 1, 3, 2, 1, 1, 3, 7, 6, 9, 9,
   8, 8, 8, 11, 0, 1, 3, 2, 1, 4, 6, 3, 2, 1, 6, 8, 5, 7, 0, 1,
   2, 1, 0, 1, 2, 1, 1, 1, 1, 1, 1, 1, 1, 1, 1, 1, 2, 2, 2, 2,
   3, 2, 2, 1, 2, 2, 1, 3, 2, 4, 1, 2, 2, 1, 1, 2, 2, 1, 9, 7,
   9, 5, 5, 3, 4, 0, 1, 2, 1, 4, 3, 3, 2, 5, 7, 6, 6, 0, 2, 6,
   3, 2, 5, 2, 1, 0, 1, 0, 1, 1, 1, 1, 1, 1, 1, 1, 1, 1, 1, 1,
   1, 1, 1, 1, 1, 1, 1, 2, 1, 1, 1, 1, 1, 1, 1, 3, 3, 2, 1, 2]

/-- Entries 200-288 of `yyr2` (spvm_yacc.c 1906-1937). -/
def yyr2_1 : List Int :=
  [2, 2, 2, 2, 2, 2, 2, 2, 2, 2, 2, 1, 2, 4, 3, 5, 2, 2, 2, 2,
   1, 1, 1, 1, 1, 3, 3, 3, 3, 3, 3, 3, 3, 3, 3, 3, 3, 3, 3, 3,
   3, 3, 3, 3, 3, 3, 3, 3, 3, 3, 3, 3, 3, 3, 3, 2, 3, 3, 3, 3,
   3, 4, 5, 3, 3, 3, 3, 2, 2, 1, 3, 3, 2, 5, 2, 6, 3, 6, 3, 5,
   5, 4, 4, 5, 4, 4, 6, 6, 6]

/-- `yyr2` (spvm_yacc.c 1906-1937). -/
def yyr2 : List Int := List.flatten [
  yyr2_0, yyr2_1]

end SPVM.Parse
