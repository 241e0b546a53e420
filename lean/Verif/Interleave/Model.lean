/-!
Model of src/coding/gsm0503_interleaving.c and src/coding/gsm0503_mapping.c.  A bit (`ubit_t` or `sbit_t`) is of any type, as all
these functions do is to copy bits; a buffer is a list, with as many elements as the documentation of the function says.
-/
namespace Verif.Interleave

variable {α : Type}

/-- Assignments `dst[q] = src[p]`, one after the other; `none`: outside of a buffer. -/
def copy (src : List α) : List (Nat × Nat) → List α → Option (List α)
  | [], dst => some dst
  | (p, q) :: ps, dst =>
    match src[p]? with
    | some x => if q < dst.length then copy src ps (dst.set q x) else none
    | none => none

/-- `for (k = 0; k < n; k++) dst[f(k)] = src[k]` -/
def scatter (n : Nat) (f : Nat → Nat) (src dst : List α) : Option (List α) := copy src ((List.range n).map fun k => (k, f k)) dst

/-- `for (k = 0; k < n; k++) dst[k] = src[f(k)]` -/
def gather (n : Nat) (f : Nat → Nat) (src dst : List α) : Option (List α) := copy src ((List.range n).map fun k => (f k, k)) dst

/-- a loop of `n` rounds that copies from `src[p]`, `src[p + s]`, ... to `dst[q]`, `dst[q + s]`, ... (or `memcpy`, with `s = 1`) -/
def loop (n s p q : Nat) : List (Nat × Nat) := (List.range n).map fun i => (p + s * i, q + s * i)

/-! ### xCCH -/

/-- src/coding/gsm0503_interleaving.c:87-89 and 101-103: the place of coded bit `k` -/
def xcchPlace (k : Nat) : Nat := (k &&& 3) * 114 + (2 * ((49 * k) % 57) + ((k &&& 7) >>> 2))

/-- src/coding/gsm0503_interleaving.c:96-105 `gsm0503_xcch_interleave` -/
def xcchInterleave (cB iB : List α) : Option (List α) := scatter 456 xcchPlace cB iB

/-- src/coding/gsm0503_interleaving.c:82-91 `gsm0503_xcch_deinterleave` -/
def xcchDeinterleave (cB iB : List α) : Option (List α) := gather 456 xcchPlace iB cB

/-! ### MCS-1 to MCS-4 -/

/-- src/coding/gsm0503_interleaving.c:167-176 and 235-244: from `c` to `cp` -/
def mcs1Insert : List (Nat × Nat) := loop 25 1 0 0 ++ loop 56 1 25 26 ++ loop 56 1 81 83 ++ loop 284 1 137 140 ++ loop 31 1 421 425

/-- src/coding/gsm0503_interleaving.c:121-130 and 198-207: from `cp` to `c` -/
def mcs1Remove : List (Nat × Nat) := loop 25 1 0 0 ++ loop 56 1 26 25 ++ loop 56 1 83 81 ++ loop 284 1 140 137 ++ loop 31 1 425 421

/-- src/coding/gsm0503_interleaving.c:178-181 and 246-249; `o` is the bit 0 -/
def mcs1Zero (o : α) (cp : List α) : List α := (((cp.set 25 o).set 82 o).set 139 o).set 424 o

/-- src/coding/gsm0503_interleaving.c:153-184 `gsm0503_mcs1_dl_interleave`; `z` is what the local arrays are filled with before -/
def mcs1DlInterleave (o z : α) (up hc dc iB : List α) : Option (List α) := do
  let c ← copy up (loop 12 1 0 0) (List.replicate 452 z)
  let c ← copy hc (loop 68 1 0 12) c
  let c ← copy dc (loop 372 1 0 80) c
  let cp ← copy c mcs1Insert (List.replicate 456 z)
  xcchInterleave (mcs1Zero o cp) iB

/-- src/coding/gsm0503_interleaving.c:112-146 `gsm0503_mcs1_dl_deinterleave`, with all outputs wanted -/
def mcs1DlDeinterleave (z : α) (u hc dc iB : List α) : Option (List α × List α × List α) := do
  let cp ← xcchDeinterleave (List.replicate 456 z) iB
  let c ← copy cp mcs1Remove (List.replicate 452 z)
  let u ← copy c (loop 12 1 0 0) u
  let hc ← copy c (loop 68 1 12 0) hc
  let dc ← copy c (loop 372 1 80 0) dc
  some (u, hc, dc)

/-- src/coding/gsm0503_interleaving.c:224-252 `gsm0503_mcs1_ul_interleave` -/
def mcs1UlInterleave (o z : α) (hc dc iB : List α) : Option (List α) := do
  let c ← copy hc (loop 80 1 0 0) (List.replicate 452 z)
  let c ← copy dc (loop 372 1 0 80) c
  let cp ← copy c mcs1Insert (List.replicate 456 z)
  xcchInterleave (mcs1Zero o cp) iB

/-- src/coding/gsm0503_interleaving.c:190-218 `gsm0503_mcs1_ul_deinterleave`, with all outputs wanted -/
def mcs1UlDeinterleave (z : α) (hc dc iB : List α) : Option (List α × List α) := do
  let cp ← xcchDeinterleave (List.replicate 456 z) iB
  let c ← copy cp mcs1Remove (List.replicate 452 z)
  let hc ← copy c (loop 80 1 0 0) hc
  let dc ← copy c (loop 372 1 80 0) dc
  some (hc, dc)

/-! ### MCS-5 to MCS-9 -/

/-- src/coding/gsm0503_tables.c:1563-1642 `gsm0503_interleave_mcs5` -/
def mcs5Table : List Nat :=
  [0, 463, 890, 1038, 220, 371, 795, 946, 582, 733, 1160, 63, 490, 641, 277, 428, 852, 1003, 185, 333, 1223, 120, 547, 698,
   1122, 28, 915, 1066, 242, 390, 817, 968, 610, 761, 1185, 85, 512, 660, 305, 453, 880, 1031, 204, 355, 782, 1242, 148, 575,
   723, 1150, 50, 474, 625, 1088, 267, 418, 845, 993, 169, 320, 1207, 113, 537, 688, 1115, 12, 902, 1050, 232, 383, 807, 958,
   594, 745, 1172, 75, 502, 653, 289, 440, 864, 1015, 197, 345, 1235, 132, 559, 710, 1134, 40, 927, 1078, 254, 402, 829, 980,
   159, 622, 773, 1197, 97, 524, 672, 1099, 5, 465, 892, 1043, 216, 367, 794, 942, 587, 735, 1162, 62, 486, 637, 279, 430,
   857, 1005, 181, 332, 1219, 125, 549, 700, 1127, 24, 914, 1062, 244, 395, 819, 970, 606, 757, 1184, 87, 514, 665, 301, 452,
   876, 1027, 209, 357, 784, 1247, 144, 571, 722, 1146, 52, 479, 627, 1090, 266, 414, 841, 992, 171, 322, 1209, 109, 536, 684,
   1111, 17, 904, 1055, 228, 379, 806, 954, 599, 747, 1174, 74, 498, 649, 291, 442, 869, 1017, 193, 344, 1231, 137, 561, 712,
   1139, 36, 926, 1074, 256, 407, 831, 982, 158, 618, 769, 1196, 99, 526, 677, 1101, 7, 458, 894, 1033, 227, 363, 802, 941,
   577, 740, 1152, 70, 485, 645, 284, 420, 859, 998, 189, 328, 1215, 127, 542, 702, 1117, 35, 922, 1061, 246, 385, 824, 960,
   605, 765, 1180, 92, 504, 667, 309, 448, 887, 1023, 211, 350, 786, 1237, 155, 567, 730, 1145, 54, 469, 632, 1080, 274, 413,
   849, 988, 176, 312, 1202, 117, 532, 695, 1107, 19, 906, 1045, 239, 375, 814, 953, 589, 752, 1164, 82, 497, 657, 296, 432,
   871, 1010, 201, 340, 1227, 139, 554, 714, 1129, 47, 934, 1073, 258, 397, 836, 972, 166, 617, 777, 1192, 104, 516, 679, 1094,
   9, 460, 899, 1035, 223, 362, 798, 937, 579, 742, 1157, 66, 481, 644, 286, 425, 861, 1000, 188, 324, 1214, 129, 544, 707,
   1119, 31, 918, 1057, 251, 387, 826, 965, 601, 764, 1176, 94, 509, 669, 308, 444, 883, 1022, 213, 352, 791, 1239, 151, 566,
   726, 1141, 59, 471, 634, 1085, 270, 409, 848, 984, 178, 317, 1204, 116, 528, 691, 1106, 21, 911, 1047, 235, 374, 810, 949,
   591, 754, 1169, 78, 493, 656, 298, 437, 873, 1012, 200, 336, 1226, 141, 556, 719, 1131, 43, 930, 1069, 263, 399, 838, 977,
   162, 613, 776, 1188, 106, 521, 681, 1096, 2, 462, 889, 1040, 219, 370, 797, 945, 584, 732, 1159, 65, 489, 640, 276, 427,
   854, 1002, 184, 335, 1222, 122, 546, 697, 1124, 27, 917, 1065, 241, 392, 816, 967, 609, 760, 1187, 84, 511, 662, 304, 455,
   879, 1030, 206, 354, 781, 1244, 147, 574, 725, 1149, 49, 476, 624, 1087, 269, 417, 844, 995, 168, 319, 1206, 112, 539, 687,
   1114, 14, 901, 1052, 231, 382, 809, 957, 596, 744, 1171, 77, 501, 652, 288, 439, 866, 1014, 196, 347, 1234, 134, 558, 709,
   1136, 39, 929, 1077, 253, 404, 828, 979, 161, 621, 772, 1199, 96, 523, 674, 1098, 4, 467, 891, 1042, 218, 366, 793, 944,
   586, 737, 1161, 61, 488, 636, 281, 429, 856, 1007, 180, 331, 1218, 124, 551, 699, 1126, 26, 913, 1064, 243, 394, 821, 969,
   608, 756, 1183, 89, 513, 664, 300, 451, 878, 1026, 208, 359, 783, 1246, 146, 570, 721, 1148, 51, 478, 629, 1089, 265, 416,
   840, 991, 173, 321, 1211, 108, 535, 686, 1110, 16, 903, 1054, 230, 378, 805, 956, 598, 749, 1173, 73, 500, 648, 293, 441,
   868, 1019, 192, 343, 1230, 136, 563, 711, 1138, 38, 925, 1076, 255, 406, 833, 981, 157, 620, 768, 1195, 101, 525, 676, 1103,
   6, 457, 896, 1032, 226, 365, 801, 940, 576, 739, 1154, 69, 484, 647, 283, 422, 858, 997, 191, 327, 1217, 126, 541, 704,
   1116, 34, 921, 1060, 248, 384, 823, 962, 604, 767, 1179, 91, 506, 666, 311, 447, 886, 1025, 210, 349, 788, 1236, 154, 569,
   729, 1144, 56, 468, 631, 1082, 273, 412, 851, 987, 175, 314, 1201, 119, 531, 694, 1109, 18, 908, 1044, 238, 377, 813, 952,
   588, 751, 1166, 81, 496, 659, 295, 434, 870, 1009, 203, 339, 1229, 138, 553, 716, 1128, 46, 933, 1072, 260, 396, 835, 974,
   165, 616, 779, 1191, 103, 518, 678, 1093, 11, 459, 898, 1037, 222, 361, 800, 936, 581, 741, 1156, 68, 480, 643, 285, 424,
   863, 999, 187, 326, 1213, 131, 543, 706, 1121, 30, 920, 1056, 250, 389, 825, 964, 600, 763, 1178, 93, 508, 671, 307, 446,
   882, 1021, 215, 351, 790, 1241, 150, 565, 728, 1140, 58, 473, 633, 1084, 272, 408, 847, 986, 177, 316, 1203, 115, 530, 690,
   1105, 23, 910, 1049, 234, 373, 812, 948, 593, 753, 1168, 80, 492, 655, 297, 436, 875, 1011, 199, 338, 1225, 143, 555, 718,
   1133, 42, 932, 1068, 262, 401, 837, 976, 164, 612, 775, 1190, 105, 520, 683, 1095, 1, 464, 888, 1039, 221, 369, 796, 947,
   583, 734, 1158, 64, 491, 639, 278, 426, 853, 1004, 183, 334, 1221, 121, 548, 696, 1123, 29, 916, 1067, 240, 391, 818, 966,
   611, 759, 1186, 86, 510, 661, 303, 454, 881, 1029, 205, 356, 780, 1243, 149, 573, 724, 1151, 48, 475, 626, 1086, 268, 419,
   843, 994, 170, 318, 1208, 111, 538, 689, 1113, 13, 900, 1051, 233, 381, 808, 959, 595, 746, 1170, 76, 503, 651, 290, 438,
   865, 1016, 195, 346, 1233, 133, 560, 708, 1135, 41, 928, 1079, 252, 403, 830, 978, 160, 623, 771, 1198, 98, 522, 673, 1100,
   3, 466, 893, 1041, 217, 368, 792, 943, 585, 736, 1163, 60, 487, 638, 280, 431, 855, 1006, 182, 330, 1220, 123, 550, 701,
   1125, 25, 912, 1063, 245, 393, 820, 971, 607, 758, 1182, 88, 515, 663, 302, 450, 877, 1028, 207, 358, 785, 1245, 145, 572,
   720, 1147, 53, 477, 628, 1091, 264, 415, 842, 990, 172, 323, 1210, 110, 534, 685, 1112, 15, 905, 1053, 229, 380, 804, 955,
   597, 748, 1175, 72, 499, 650, 292, 443, 867, 1018, 194, 342, 1232, 135, 562, 713, 1137, 37, 924, 1075, 257, 405, 832, 983,
   156, 619, 770, 1194, 100, 527, 675, 1102, 8, 456, 895, 1034, 225, 364, 803, 939, 578, 738, 1153, 71, 483, 646, 282, 421,
   860, 996, 190, 329, 1216, 128, 540, 703, 1118, 33, 923, 1059, 247, 386, 822, 961, 603, 766, 1181, 90, 505, 668, 310, 449,
   885, 1024, 212, 348, 787, 1238, 153, 568, 731, 1143, 55, 470, 630, 1081, 275, 411, 850, 989, 174, 313, 1200, 118, 533, 693,
   1108, 20, 907, 1046, 237, 376, 815, 951, 590, 750, 1165, 83, 495, 658, 294, 433, 872, 1008, 202, 341, 1228, 140, 552, 715,
   1130, 45, 935, 1071, 259, 398, 834, 973, 167, 615, 778, 1193, 102, 517, 680, 1092, 10, 461, 897, 1036, 224, 360, 799, 938,
   580, 743, 1155, 67, 482, 642, 287, 423, 862, 1001, 186, 325, 1212, 130, 545, 705, 1120, 32, 919, 1058, 249, 388, 827, 963,
   602, 762, 1177, 95, 507, 670, 306, 445, 884, 1020, 214, 353, 789, 1240, 152, 564, 727, 1142, 57, 472, 635, 1083, 271, 410,
   846, 985, 179, 315, 1205, 114, 529, 692, 1104, 22, 909, 1048, 236, 372, 811, 950, 592, 755, 1167, 79, 494, 654, 299, 435,
   874, 1013, 198, 337, 1224, 142, 557, 717, 1132, 44, 931, 1070, 261, 400, 839, 975, 163, 614, 774, 1189, 107, 519, 682, 1097]

/-- src/coding/gsm0503_interleaving.c:266-266 and 289-289: the place of header bit `k` -/
def mcs5UlHdrPlace (k : Nat) : Nat := 34 * (k % 4) + 2 * (11 * k % 17) + k % 8 / 4

/-- src/coding/gsm0503_interleaving.c:315-315 and 338-338 -/
def mcs5DlHdrPlace (k : Nat) : Nat := 25 * (k % 4) + ((17 * k) % 25)

/-- src/coding/gsm0503_interleaving.c:366-366, 396-396, 553-553 and 583-583 -/
def mcs7DlHdrPlace (k : Nat) : Nat := 31 * (k % 4) + ((17 * k) % 31)

/-- src/coding/gsm0503_interleaving.c:428-428, 458-458, 490-490 and 521-521 -/
def mcs7UlHdrPlace (k : Nat) : Nat := 40 * (k % 4) + 2 * (13 * (k / 8) % 20) + k % 8 / 4

/-- src/coding/gsm0503_interleaving.c:375-376, 404-405, 437-438 and 466-467 -/
def mcs7Place (k : Nat) : Nat := 306 * (k % 4) + 3 * (44 * k % 102 + k / 4 % 2) + (k + 2 - k / 408) % 3

/-- src/coding/gsm0503_interleaving.c:499-500, 529-530, 562-563 and 591-592 -/
def mcs8Place (k : Nat) : Nat := 306 * (2 * (k / 612) + (k % 2)) + 3 * (74 * k % 102 + k / 2 % 2) + (k + 2 - k / 204) % 3

/-- `di[gsm0503_interleave_mcs5[k]] = dc[k]` for all `k` -/
def mcs5Pairs : List (Nat × Nat) := (List.range 1248).zip mcs5Table

/-- src/coding/gsm0503_interleaving.c:259-275 `gsm0503_mcs5_ul_interleave` -/
def mcs5UlInterleave (hc dc hi di : List α) : Option (List α × List α) := do
  let hi ← scatter 136 mcs5UlHdrPlace hc hi
  let di ← copy dc mcs5Pairs di
  some (hi, di)

/-- src/coding/gsm0503_interleaving.c:281-301 `gsm0503_mcs5_ul_deinterleave`, with all outputs wanted -/
def mcs5UlDeinterleave (hc dc hi di : List α) : Option (List α × List α) := do
  let hc ← gather 136 mcs5UlHdrPlace hi hc
  let dc ← copy di (mcs5Pairs.map Prod.swap) dc
  some (hc, dc)

/-- src/coding/gsm0503_interleaving.c:308-324 `gsm0503_mcs5_dl_interleave` -/
def mcs5DlInterleave (hc dc hi di : List α) : Option (List α × List α) := do
  let hi ← scatter 100 mcs5DlHdrPlace hc hi
  let di ← copy dc mcs5Pairs di
  some (hi, di)

/-- src/coding/gsm0503_interleaving.c:330-350 `gsm0503_mcs5_dl_deinterleave`, with all outputs wanted -/
def mcs5DlDeinterleave (hc dc hi di : List α) : Option (List α × List α) := do
  let hc ← gather 100 mcs5DlHdrPlace hi hc
  let dc ← copy di (mcs5Pairs.map Prod.swap) dc
  some (hc, dc)

/-- src/coding/gsm0503_interleaving.c:370-378, 432-440, 494-502 and 557-565: the first 612 bits of data come from `c1`, the others
from `c2` (the array `dc` between is left out) -/
def split2 (f : Nat → Nat) (c1 c2 di : List α) : Option (List α) := do
  let di ← copy c1 ((List.range 612).map fun k => (k, f k)) di
  copy c2 ((List.range 612).map fun k => (k, f (k + 612))) di

/-- src/coding/gsm0503_interleaving.c:401-411, 463-473, 526-536 and 588-598: the other way, with both wanted -/
def join2 (f : Nat → Nat) (c1 c2 di : List α) : Option (List α × List α) := do
  let c1 ← copy di ((List.range 612).map fun k => (f k, k)) c1
  let c2 ← copy di ((List.range 612).map fun k => (f (k + 612), k)) c2
  some (c1, c2)

/-- src/coding/gsm0503_interleaving.c:358-379 `gsm0503_mcs7_dl_interleave` -/
def mcs7DlInterleave (hc c1 c2 hi di : List α) : Option (List α × List α) := do
  let hi ← scatter 124 mcs7DlHdrPlace hc hi
  let di ← split2 mcs7Place c1 c2 di
  some (hi, di)

/-- src/coding/gsm0503_interleaving.c:387-412 `gsm0503_mcs7_dl_deinterleave`, with all outputs wanted -/
def mcs7DlDeinterleave (hc c1 c2 hi di : List α) : Option (List α × List α × List α) := do
  let hc ← gather 124 mcs7DlHdrPlace hi hc
  let c ← join2 mcs7Place c1 c2 di
  some (hc, c)

/-- src/coding/gsm0503_interleaving.c:420-441 `gsm0503_mcs7_ul_interleave` -/
def mcs7UlInterleave (hc c1 c2 hi di : List α) : Option (List α × List α) := do
  let hi ← scatter 160 mcs7UlHdrPlace hc hi
  let di ← split2 mcs7Place c1 c2 di
  some (hi, di)

/-- src/coding/gsm0503_interleaving.c:449-474 `gsm0503_mcs7_ul_deinterleave`, with all outputs wanted -/
def mcs7UlDeinterleave (hc c1 c2 hi di : List α) : Option (List α × List α × List α) := do
  let hc ← gather 160 mcs7UlHdrPlace hi hc
  let c ← join2 mcs7Place c1 c2 di
  some (hc, c)

/-- src/coding/gsm0503_interleaving.c:482-503 `gsm0503_mcs8_ul_interleave` -/
def mcs8UlInterleave (hc c1 c2 hi di : List α) : Option (List α × List α) := do
  let hi ← scatter 160 mcs7UlHdrPlace hc hi
  let di ← split2 mcs8Place c1 c2 di
  some (hi, di)

/-- src/coding/gsm0503_interleaving.c:512-537 `gsm0503_mcs8_ul_deinterleave`, with all outputs wanted -/
def mcs8UlDeinterleave (hc c1 c2 hi di : List α) : Option (List α × List α × List α) := do
  let hc ← gather 160 mcs7UlHdrPlace hi hc
  let c ← join2 mcs8Place c1 c2 di
  some (hc, c)

/-- src/coding/gsm0503_interleaving.c:545-566 `gsm0503_mcs8_dl_interleave` -/
def mcs8DlInterleave (hc c1 c2 hi di : List α) : Option (List α × List α) := do
  let hi ← scatter 124 mcs7DlHdrPlace hc hi
  let di ← split2 mcs8Place c1 c2 di
  some (hi, di)

/-- src/coding/gsm0503_interleaving.c:574-599 `gsm0503_mcs8_dl_deinterleave`, with all outputs wanted -/
def mcs8DlDeinterleave (hc c1 c2 hi di : List α) : Option (List α × List α × List α) := do
  let hc ← gather 124 mcs7DlHdrPlace hi hc
  let c ← join2 mcs8Place c1 c2 di
  some (hc, c)

/-! ### TCH -/

/-- src/coding/gsm0503_interleaving.c:633-634 and 647-648 -/
def tchFrPlace (k : Nat) : Nat := (k &&& 7) * 114 + (2 * ((49 * k) % 57) + ((k &&& 7) >>> 2))

/-- src/coding/gsm0503_interleaving.c:642-651 `gsm0503_tch_fr_interleave`: into 8 bursts -/
def tchFrInterleave (cB iB : List α) : Option (List α) := scatter 456 tchFrPlace cB iB

/-- src/coding/gsm0503_interleaving.c:628-637 `gsm0503_tch_fr_deinterleave` -/
def tchFrDeinterleave (cB iB : List α) : Option (List α) := gather 456 tchFrPlace iB cB

/-- src/coding/gsm0503_tables.c:1694-1733 `gsm0503_tch_hr_interleaving`: `j` and `B` -/
def tchHrTable : List (Nat × Nat) :=
  [(0, 0), (1, 2), (78, 1), (79, 3), (48, 0), (49, 2), (54, 1), (55, 3), (24, 0), (25, 2), (30, 1), (31, 3),
   (72, 0), (73, 2), (6, 1), (7, 3), (96, 0), (97, 2), (12, 0), (13, 2), (102, 1), (103, 3), (60, 0), (61, 2),
   (66, 1), (67, 3), (90, 1), (91, 3), (36, 0), (37, 2), (42, 1), (43, 3), (18, 1), (19, 3), (84, 0), (85, 2),
   (108, 0), (109, 2), (2, 0), (3, 2), (80, 1), (81, 3), (50, 0), (51, 2), (56, 1), (57, 3), (26, 0), (27, 2),
   (32, 1), (33, 3), (74, 0), (75, 2), (8, 1), (9, 3), (98, 0), (99, 2), (14, 0), (15, 2), (104, 1), (105, 3),
   (62, 0), (63, 2), (68, 1), (69, 3), (92, 1), (93, 3), (38, 0), (39, 2), (44, 1), (45, 3), (20, 1), (21, 3),
   (86, 0), (87, 2), (110, 0), (111, 2), (4, 0), (5, 2), (82, 1), (83, 3), (52, 0), (53, 2), (58, 1), (59, 3),
   (28, 0), (29, 2), (34, 1), (35, 3), (76, 0), (77, 2), (10, 1), (11, 3), (100, 0), (101, 2), (16, 0), (17, 2),
   (106, 1), (107, 3), (64, 0), (65, 2), (70, 1), (71, 3), (94, 1), (95, 3), (40, 0), (41, 2), (46, 1), (47, 3),
   (22, 1), (23, 3), (88, 0), (89, 2), (112, 0), (113, 2), (6, 0), (7, 2), (84, 1), (85, 3), (54, 0), (55, 2),
   (60, 1), (61, 3), (30, 0), (31, 2), (36, 1), (37, 3), (78, 0), (79, 2), (12, 1), (13, 3), (102, 0), (103, 2),
   (18, 0), (19, 2), (108, 1), (109, 3), (66, 0), (67, 2), (72, 1), (73, 3), (96, 1), (97, 3), (42, 0), (43, 2),
   (48, 1), (49, 3), (24, 1), (25, 3), (90, 0), (91, 2), (0, 1), (1, 3), (8, 0), (9, 2), (86, 1), (87, 3),
   (56, 0), (57, 2), (62, 1), (63, 3), (32, 0), (33, 2), (38, 1), (39, 3), (80, 0), (81, 2), (14, 1), (15, 3),
   (104, 0), (105, 2), (20, 0), (21, 2), (110, 1), (111, 3), (68, 0), (69, 2), (74, 1), (75, 3), (98, 1), (99, 3),
   (44, 0), (45, 2), (50, 1), (51, 3), (26, 1), (27, 3), (92, 0), (93, 2), (2, 1), (3, 3), (10, 0), (11, 2),
   (88, 1), (89, 3), (58, 0), (59, 2), (64, 1), (65, 3), (34, 0), (35, 2), (40, 1), (41, 3), (82, 0), (83, 2),
   (16, 1), (17, 3), (106, 0), (107, 2), (22, 0), (23, 2), (112, 1), (113, 3), (70, 0), (71, 2), (76, 1), (77, 3),
   (100, 1), (101, 3), (46, 0), (47, 2), (52, 1), (53, 3), (28, 1), (29, 3), (94, 0), (95, 2), (4, 1), (5, 3)]

/-- src/coding/gsm0503_interleaving.c:661-662 and 675-676: the place of coded bit `k`, with `k` -/
def tchHrPairs : List (Nat × Nat) := (List.range 228).zip (tchHrTable.map fun e => e.2 * 114 + e.1)

/-- src/coding/gsm0503_interleaving.c:670-679 `gsm0503_tch_hr_interleave`: into 4 bursts -/
def tchHrInterleave (cB iB : List α) : Option (List α) := copy cB tchHrPairs iB

/-- src/coding/gsm0503_interleaving.c:656-665 `gsm0503_tch_hr_deinterleave` -/
def tchHrDeinterleave (cB iB : List α) : Option (List α) := copy iB (tchHrPairs.map Prod.swap) cB

/-- src/coding/gsm0503_interleaving.c:710-712 and 724-726 -/
def tchF96Place (k : Nat) : Nat := (k % 19 + k / 114) * 114 + (k % 19 + 19 * (k % 6))

/-- src/coding/gsm0503_interleaving.c:704-716 `gsm0503_tch_f96_interleave`: into 22 bursts -/
def tchF96Interleave (cB iB : List α) : Option (List α) := scatter 456 tchF96Place cB iB

/-- src/coding/gsm0503_interleaving.c:718-730 `gsm0503_tch_f96_deinterleave` -/
def tchF96Deinterleave (cB iB : List α) : Option (List α) := gather 456 tchF96Place iB cB

/-! ### Burst mapping -/

/-- src/coding/gsm0503_mapping.c:49-59 `gsm0503_xcch_burst_map`, from `iB + i` to `eB + e` -/
def xcchBurstMap (i e : Nat) (iB eB : List α) (hl hn : Option α) : Option (List α) := do
  let eB ← copy iB (loop 57 1 i e) eB
  let eB ← copy iB (loop 57 1 (i + 57) (e + 59)) eB
  let eB ← copy hl.toList ((List.range hl.toList.length).map fun _ => (0, e + 57)) eB
  copy hn.toList ((List.range hn.toList.length).map fun _ => (0, e + 58)) eB

/-- src/coding/gsm0503_mapping.c:36-47 `gsm0503_xcch_burst_unmap`: `iB`, `*hl` and `*hn` -/
def xcchBurstUnmap (i e : Nat) (iB eB : List α) : Option (List α × α × α) := do
  let iB ← copy eB (loop 57 1 e i) iB
  let iB ← copy eB (loop 57 1 (e + 59) (i + 57)) iB
  let hl ← eB[e + 57]?
  let hn ← eB[e + 58]?
  some (iB, hl, hn)

/-- src/coding/gsm0503_mapping.c:87-90: the bits of one parity; 29 or 28 and then 28 or 29 rounds -/
def tchPairs (i e odd : Nat) : List (Nat × Nat) :=
  loop (29 - odd) 2 (i + odd) (e + odd) ++ loop (28 + odd) 2 (i + 58 - odd) (e + 58 - odd + 2)

/-- src/coding/gsm0503_mapping.c:81-94 `gsm0503_tch_burst_map`, from `iB + i` to `eB + e`, with `h` -/
def tchBurstMap (i e odd : Nat) (h : α) (iB eB : List α) : Option (List α) := do
  let eB ← copy iB (tchPairs i e odd) eB
  copy [h] [(0, e + if odd = 0 then 58 else 57)] eB

/-- src/coding/gsm0503_mapping.c:61-79 `gsm0503_tch_burst_unmap`, the part for `iB` -/
def tchBurstUnmap (i e odd : Nat) (iB eB : List α) : Option (List α) :=
  copy eB (loop (29 - odd) 2 (e + odd) (i + odd) ++ loop (28 + odd) 2 (e + 58 - odd + 2) (i + 58 - odd)) iB

/-- src/coding/gsm0503_mapping.c:73-78 `gsm0503_tch_burst_unmap`, the part for `h` -/
def tchBurstFlag (e odd : Nat) (eB : List α) : Option α := if odd = 0 then eB[e + 58]? else eB[e + 57]?

/-- src/coding/gsm0503_mapping.c:96-116 `gsm0503_mcs5_dl_burst_map`; `o` is the bit 0 -/
def mcs5DlBurstMap (o : α) (di eB hi up : List α) (B : Nat) : Option (List α) := do
  let eB ← copy di (loop 156 1 (312 * B) 0) eB
  let eB ← copy hi (loop 12 1 (25 * B) 156) eB
  let eB ← copy up (loop 6 1 (9 * B) 168) eB
  let eB ← copy [o, o, o, o, o, o, o, o] (loop 2 1 (2 * B) 174) eB
  let eB ← copy up (loop 3 1 (9 * B + 6) 176) eB
  let eB ← copy hi (loop 13 1 (25 * B + 12) 179) eB
  copy di (loop 156 1 (312 * B + 156) 192) eB

/-- src/coding/gsm0503_mapping.c:118-136 `gsm0503_mcs5_dl_burst_unmap` -/
def mcs5DlBurstUnmap (di eB hi up : List α) (B : Nat) : Option (List α × List α × List α) := do
  let di ← copy eB (loop 156 1 0 (312 * B)) di
  let hi ← copy eB (loop 12 1 156 (25 * B)) hi
  let up ← copy eB (loop 6 1 168 (9 * B)) up
  let up ← copy eB (loop 3 1 176 (9 * B + 6)) up
  let hi ← copy eB (loop 13 1 179 (25 * B + 12)) hi
  let di ← copy eB (loop 156 1 192 (312 * B + 156)) di
  some (di, hi, up)

/-- src/coding/gsm0503_mapping.c:138-153 `gsm0503_mcs5_ul_burst_map` -/
def mcs5UlBurstMap (o : α) (di eB hi : List α) (B : Nat) : Option (List α) := do
  let eB ← copy di (loop 156 1 (312 * B) 0) eB
  let eB ← copy hi (loop 18 1 (34 * B) 156) eB
  let eB ← copy [o, o] (loop 2 1 0 174) eB
  let eB ← copy hi (loop 16 1 (34 * B + 18) 176) eB
  copy di (loop 156 1 (312 * B + 156) 192) eB

/-- src/coding/gsm0503_mapping.c:155-168 `gsm0503_mcs5_ul_burst_unmap` -/
def mcs5UlBurstUnmap (di eB hi : List α) (B : Nat) : Option (List α × List α) := do
  let di ← copy eB (loop 156 1 0 (312 * B)) di
  let hi ← copy eB (loop 18 1 156 (34 * B)) hi
  let hi ← copy eB (loop 16 1 176 (34 * B + 18)) hi
  let di ← copy eB (loop 156 1 192 (312 * B + 156)) di
  some (di, hi)

/-- src/coding/gsm0503_mapping.c:170-190 `gsm0503_mcs7_dl_burst_map`; `o` is the bit 0 and `l` the bit 1 -/
def mcs7DlBurstMap (o l : α) (di eB hi up : List α) (B : Nat) : Option (List α) := do
  let eB ← copy di (loop 153 1 (306 * B) 0) eB
  let eB ← copy hi (loop 15 1 (31 * B) 153) eB
  let eB ← copy up (loop 6 1 (9 * B) 168) eB
  let eB ← copy [l, l, l, o, o, l, l, l] (loop 2 1 (2 * B) 174) eB
  let eB ← copy up (loop 3 1 (9 * B + 6) 176) eB
  let eB ← copy hi (loop 16 1 (31 * B + 15) 179) eB
  copy di (loop 153 1 (306 * B + 153) 195) eB

/-- src/coding/gsm0503_mapping.c:192-210 `gsm0503_mcs7_dl_burst_unmap` -/
def mcs7DlBurstUnmap (di eB hi up : List α) (B : Nat) : Option (List α × List α × List α) := do
  let di ← copy eB (loop 153 1 0 (306 * B)) di
  let hi ← copy eB (loop 15 1 153 (31 * B)) hi
  let up ← copy eB (loop 6 1 168 (9 * B)) up
  let up ← copy eB (loop 3 1 176 (9 * B + 6)) up
  let hi ← copy eB (loop 16 1 179 (31 * B + 15)) hi
  let di ← copy eB (loop 153 1 195 (306 * B + 153)) di
  some (di, hi, up)

/-- src/coding/gsm0503_mapping.c:212-228 `gsm0503_mcs7_ul_burst_map` -/
def mcs7UlBurstMap (o l : α) (di eB hi : List α) (B : Nat) : Option (List α) := do
  let eB ← copy di (loop 153 1 (306 * B) 0) eB
  let eB ← copy hi (loop 21 1 (40 * B) 153) eB
  let eB ← copy [l, l, l, o, o, l, l, l] (loop 2 1 (2 * B) 174) eB
  let eB ← copy hi (loop 19 1 (40 * B + 21) 176) eB
  copy di (loop 153 1 (306 * B + 153) 195) eB

/-- src/coding/gsm0503_mapping.c:230-244 `gsm0503_mcs7_ul_burst_unmap` -/
def mcs7UlBurstUnmap (di eB hi : List α) (B : Nat) : Option (List α × List α) := do
  let di ← copy eB (loop 153 1 0 (306 * B)) di
  let hi ← copy eB (loop 21 1 153 (40 * B)) hi
  let hi ← copy eB (loop 19 1 176 (40 * B + 21)) hi
  let di ← copy eB (loop 153 1 195 (306 * B + 153)) di
  some (di, hi)

/-- src/coding/gsm0503_mapping.c:250-293: the bits exchanged -/
def swapTable : List (Nat × Nat) :=
  [(155, 142), (158, 144), (161, 145), (164, 147), (167, 148), (170, 150), (173, 151),
   (195, 176), (196, 179), (198, 182), (199, 185), (201, 188), (202, 191), (204, 194)]

/-- src/coding/gsm0503_mapping.c:246-294 `gsm0503_mcs5_burst_swap`: to `t`, within `eB` (one at a time), and from `t` -/
def mcs5BurstSwap (z : α) (eB : List α) : Option (List α) := do
  let t ← copy eB ((swapTable.map Prod.fst).zip (List.range 14)) (List.replicate 14 z)
  let eB ← swapTable.foldlM (fun b p => copy b [(p.2, p.1)] b) eB
  copy t ((List.range 14).zip (swapTable.map Prod.snd)) eB

/-! ### Chains -/

/-- src/coding/gsm0503_coding.c:664-667: 456 coded bits to four bursts at `bursts`; `iB` is the array on the stack before -/
def xcchSend (hl hn : α) (iB cB bursts : List α) : Option (List α) := do
  let iB ← xcchInterleave cB iB
  (List.range 4).foldlM (fun b i => xcchBurstMap (i * 114) (i * 116) iB b (some hl) (some hn)) bursts

/-- src/coding/gsm0503_coding.c:644-647 -/
def xcchReceive (cB iB bursts : List α) : Option (List α) := do
  let iB ← (List.range 4).foldlM (fun iB i => (xcchBurstUnmap (i * 114) (i * 116) iB bursts).map (·.1)) iB
  xcchDeinterleave cB iB

/-- src/coding/gsm0503_coding.c:1989-1994: 456 coded bits to eight bursts at `bursts + base` -/
def tchFrSend (base : Nat) (h : α) (iB cB bursts : List α) : Option (List α) := do
  let iB ← tchFrInterleave cB iB
  (List.range 8).foldlM (fun b i => tchBurstMap (i * 114) (base + i * 116) (i >>> 2) h iB b) bursts

/-- src/coding/gsm0503_coding.c:1866-1874, the bits -/
def tchFrReceive (base : Nat) (cB iB bursts : List α) : Option (List α) := do
  let iB ← (List.range 8).foldlM (fun iB i => tchBurstUnmap (i * 114) (base + i * 116) (i >>> 2) iB bursts) iB
  tchFrDeinterleave cB iB

/-- src/coding/gsm0503_coding.c:1866-1870, the flags `h` -/
def tchFrFlags (base : Nat) (bursts : List α) : Option (List α) :=
  (List.range 8).mapM fun i => tchBurstFlag (base + i * 116) (i >>> 2) bursts

/-- src/coding/gsm0503_coding.c:2128-2132: 228 coded bits to four bursts at `bursts + base` -/
def tchHrSend (base : Nat) (h : α) (iB cB bursts : List α) : Option (List α) := do
  let iB ← tchHrInterleave cB iB
  (List.range 4).foldlM (fun b i => tchBurstMap (i * 114) (base + i * 116) (i >>> 1) h iB b) bursts

/-- src/coding/gsm0503_coding.c:2049-2054 -/
def tchHrReceive (base : Nat) (cB iB bursts : List α) : Option (List α) := do
  let iB ← (List.range 4).foldlM (fun iB i => tchBurstUnmap (i * 114) (base + i * 116) (i >>> 1) iB bursts) iB
  tchHrDeinterleave cB iB

/-- src/coding/gsm0503_coding.c:3814-3823 and 2142-2150: a FACCH/H block to six bursts at `bursts + base` -/
def facchHSend (base : Nat) (h : α) (iB cB bursts : List α) : Option (List α) := do
  let iB ← tchFrInterleave cB iB
  let b ← (List.range 6).foldlM (fun b i => tchBurstMap (i * 114) (base + i * 116) (i >>> 2) h iB b) bursts
  [2, 3].foldlM (fun b i => tchBurstMap (i * 114 + 456) (base + i * 116) 1 h iB b) b

/-- src/coding/gsm0503_coding.c:3853-3859 and 2028-2038 -/
def facchHReceive (base : Nat) (cB iB bursts : List α) : Option (List α) := do
  let iB ← (List.range 6).foldlM (fun iB i => tchBurstUnmap (i * 114) (base + i * 116) (i >>> 2) iB bursts) iB
  let iB ← [2, 3].foldlM (fun iB i => tchBurstUnmap (i * 114 + 456) (base + i * 116) 1 iB bursts) iB
  tchFrDeinterleave cB iB

end Verif.Interleave
