import Mathlib.Data.Nat.Notation

/-! # Tables of standard profiles

Generated from the `parameters` dictionaries of the classes in `geometry/profiles`; all dimensions are in
tenths of a millimetre (every entry of the source has at most one decimal). -/

set_option autoImplicit false
set_option maxRecDepth 10000

namespace SC

/-- A row of a table: the dictionary `{'h': ..., 'b': ..., ...}`. -/
inductive ProfRow
  /-- keys `h, b, tw, tf, r` -/
  | i (h b tw tf r : ℕ)
  /-- keys `h, b, tw, tf, r1, r2` and possibly `d` -/
  | taper (h b tw tf r1 r2 : ℕ) (d : Option ℕ)
  /-- keys `h, b, t, r1, r2` -/
  | angle (h b t r1 r2 : ℕ)

/-- geometry/profiles/_hd.py:19-286 `HD.parameters`. -/
def tableHD : List (String × ProfRow) := [
  ("HD260x54.1", .i 2440 2600 65 95 240),
  ("HD260x68.2", .i 2500 2600 75 125 240),
  ("HD260x93.0", .i 2600 2600 100 175 240),
  ("HD260x114.0", .i 2680 2620 125 215 240),
  ("HD260x142.0", .i 2780 2650 155 265 240),
  ("HD260x172.0", .i 2900 2680 180 325 240),
  ("HD320x74.2", .i 3010 3000 80 110 270),
  ("HD320x97.6", .i 3100 3000 90 155 270),
  ("HD320x127.0", .i 3200 3000 115 205 270),
  ("HD320x158.0", .i 3300 3030 145 255 270),
  ("HD320x198.0", .i 3430 3060 180 320 270),
  ("HD320x245.0", .i 3590 3090 210 400 270),
  ("HD320x300.0", .i 3750 3130 270 480 270),
  ("HD360x134.0", .i 3560 3690 112 180 150),
  ("HD360x147.0", .i 3600 3700 123 198 150),
  ("HD360x162.0", .i 3640 3710 133 218 150),
  ("HD360x179.0", .i 3680 3730 150 239 150),
  ("HD360x196.0", .i 3720 3740 164 262 150),
  ("HD400x187.0", .i 3680 3910 150 240 150),
  ("HD400x216.0", .i 3750 3940 173 277 150),
  ("HD400x237.0", .i 3800 3950 189 302 150),
  ("HD400x262.0", .i 3870 3980 211 333 150),
  ("HD400x287.0", .i 3930 3990 226 366 150),
  ("HD400x314.0", .i 3990 4010 249 396 150),
  ("HD400x347.0", .i 4070 4040 272 437 150),
  ("HD400x382.0", .i 4160 4060 298 480 150),
  ("HD400x421.0", .i 4250 4090 328 526 150),
  ("HD400x463.0", .i 4350 4120 358 574 150),
  ("HD400x509.0", .i 4460 4160 391 627 150),
  ("HD400x551.0", .i 4550 4180 420 676 150),
  ("HD400x592.0", .i 4650 4210 450 723 150),
  ("HD400x634.0", .i 4740 4240 476 771 150),
  ("HD400x677.0", .i 4830 4280 512 815 150),
  ("HD400x744.0", .i 4980 4320 556 889 150),
  ("HD400x818.0", .i 5140 4370 605 970 150),
  ("HD400x900.0", .i 5310 4420 659 1060 150),
  ("HD400x990.0", .i 5500 4480 719 1150 150),
  ("HD400x1086.0", .i 5690 4540 780 1250 150)]

/-- geometry/profiles/_he.py:19-104 `HE.parameters`. -/
def tableHE : List (String × ProfRow) := [
  ("HEA100", .i 960 1000 50 80 120),
  ("HEA120", .i 1140 1200 50 80 120),
  ("HEA140", .i 1330 1400 55 85 120),
  ("HEA160", .i 1520 1600 60 90 150),
  ("HEA180", .i 1710 1800 60 95 150),
  ("HEA200", .i 1900 2000 65 100 180),
  ("HEA220", .i 2100 2200 70 110 180),
  ("HEA240", .i 2300 2400 75 120 210),
  ("HEA260", .i 2500 2600 75 125 240),
  ("HEA280", .i 2700 2800 80 130 240),
  ("HEA300", .i 2900 3000 85 140 270),
  ("HEA320", .i 3100 3000 90 155 270),
  ("HEA340", .i 3300 3000 95 165 270),
  ("HEA360", .i 3500 3000 100 175 270),
  ("HEA400", .i 3900 3000 110 190 270),
  ("HEA450", .i 4400 3000 115 210 270),
  ("HEA500", .i 4900 3000 120 230 270),
  ("HEA550", .i 5400 3000 125 240 270),
  ("HEA600", .i 5900 3000 130 250 270),
  ("HEA650", .i 6400 3000 135 260 270),
  ("HEA700", .i 6900 3000 145 270 270),
  ("HEA800", .i 7900 3000 150 280 300),
  ("HEA900", .i 8900 3000 160 300 300),
  ("HEA1000", .i 9900 3000 165 310 300),
  ("HEB100", .i 1000 1000 60 100 120),
  ("HEB120", .i 1200 1200 65 110 120),
  ("HEB140", .i 1400 1400 70 120 120),
  ("HEB160", .i 1600 1600 80 130 150),
  ("HEB180", .i 1800 1800 85 140 150),
  ("HEB200", .i 2000 2000 90 150 180),
  ("HEB220", .i 2200 2200 95 160 180),
  ("HEB240", .i 2400 2400 100 170 210),
  ("HEB260", .i 2600 2600 100 175 240),
  ("HEB280", .i 2800 2800 105 180 240),
  ("HEB300", .i 3000 3000 110 190 270),
  ("HEB320", .i 3200 3000 115 205 270),
  ("HEB340", .i 3400 3000 120 215 270),
  ("HEB360", .i 3600 3000 125 225 270),
  ("HEB400", .i 4000 3000 135 240 270),
  ("HEB450", .i 4500 3000 140 260 270),
  ("HEB500", .i 5000 3000 145 280 270),
  ("HEB550", .i 5500 3000 150 290 270),
  ("HEB600", .i 6000 3000 155 300 270),
  ("HEB650", .i 6500 3000 160 310 270),
  ("HEB700", .i 7000 3000 170 320 270),
  ("HEB800", .i 8000 3000 175 330 300),
  ("HEB900", .i 9000 3000 185 350 300),
  ("HEB1000", .i 10000 3000 190 360 300),
  ("HEM100", .i 1200 1060 120 200 120),
  ("HEM120", .i 1400 1260 125 210 120),
  ("HEM140", .i 1600 1460 130 220 120),
  ("HEM160", .i 1800 1660 140 230 150),
  ("HEM180", .i 2000 1860 145 240 150),
  ("HEM200", .i 2200 2060 150 250 180),
  ("HEM220", .i 2400 2260 155 260 180),
  ("HEM240", .i 2700 2480 180 320 210),
  ("HEM260", .i 2900 2680 180 325 240),
  ("HEM280", .i 3100 2880 185 330 240),
  ("HEM300", .i 3400 3100 210 390 270),
  ("HEM320", .i 3590 3090 210 400 270),
  ("HEM340", .i 3770 3090 210 400 270),
  ("HEM360", .i 3950 3080 210 400 270),
  ("HEM400", .i 4320 3070 210 400 270),
  ("HEM450", .i 4780 3070 210 400 270),
  ("HEM500", .i 5240 3060 210 400 270),
  ("HEM550", .i 5720 3060 210 400 270),
  ("HEM600", .i 6200 3050 210 400 270),
  ("HEM650", .i 6680 3050 210 400 270),
  ("HEM700", .i 7160 3040 210 400 270),
  ("HEM800", .i 8140 3030 210 400 300),
  ("HEM900", .i 9100 3020 210 400 300),
  ("HEM1000", .i 10080 3020 210 400 300)]

/-- geometry/profiles/_hp.py:19-231 `HP.parameters`. -/
def tableHP : List (String × ProfRow) := [
  ("HP200x43", .i 2000 2050 90 90 100),
  ("HP200x53", .i 2040 2070 113 113 100),
  ("HP220x57", .i 2100 2245 110 110 180),
  ("HP260x75", .i 2490 2650 120 120 240),
  ("HP260x87", .i 2530 2670 140 140 240),
  ("HP305x79", .i 2993 3064 110 111 150),
  ("HP305x88", .i 3017 3078 124 123 150),
  ("HP305x95", .i 3037 3087 133 133 150),
  ("HP305x110", .i 3079 3107 153 154 150),
  ("HP305x126", .i 3123 3129 175 176 150),
  ("HP305x149", .i 3185 3160 206 207 150),
  ("HP305x180", .i 3267 3197 248 248 150),
  ("HP305x186", .i 3283 3209 255 256 150),
  ("HP305x223", .i 3379 3257 303 304 150),
  ("HP320x88", .i 3030 3040 120 120 270),
  ("HP320x103", .i 3070 3060 140 140 270),
  ("HP320x117", .i 3110 3080 160 160 270),
  ("HP320x147", .i 3190 3120 200 200 270),
  ("HP320x184", .i 3290 3170 250 250 270),
  ("HP360x109", .i 3464 3710 128 129 150),
  ("HP360x133", .i 3520 3738 156 157 150),
  ("HP360x152", .i 3564 3760 178 179 150),
  ("HP360x174", .i 3614 3785 203 204 150),
  ("HP360x180", .i 3629 3788 211 211 150),
  ("HP400x122", .i 3480 3900 140 140 150),
  ("HP400x140", .i 3520 3920 160 160 150),
  ("HP400x158", .i 3560 3940 180 180 150),
  ("HP400x176", .i 3600 3960 200 200 150),
  ("HP400x194", .i 3640 3980 220 220 150),
  ("HP400x213", .i 3680 4000 240 240 150),
  ("HP400x231", .i 3720 4020 260 260 150)]

/-- geometry/profiles/_ipe.py:19-38 `IPE.parameters`. -/
def tableIPE : List (String × ProfRow) := [
  ("IPE80", .i 800 460 38 52 50),
  ("IPE100", .i 1000 550 41 57 70),
  ("IPE120", .i 1200 640 44 63 70),
  ("IPE140", .i 1400 730 47 69 70),
  ("IPE160", .i 1600 820 50 74 90),
  ("IPE180", .i 1800 910 53 80 90),
  ("IPE200", .i 2000 1000 56 85 120),
  ("IPE220", .i 2200 1100 59 92 120),
  ("IPE240", .i 2400 1200 62 98 150),
  ("IPE270", .i 2700 1350 66 102 150),
  ("IPE300", .i 3000 1500 71 107 150),
  ("IPE330", .i 3300 1600 75 115 180),
  ("IPE360", .i 3600 1700 80 127 180),
  ("IPE400", .i 4000 1800 86 135 210),
  ("IPE450", .i 4500 1900 94 146 210),
  ("IPE500", .i 5000 2000 102 160 210),
  ("IPE550", .i 5500 2100 111 172 240),
  ("IPE600", .i 6000 2200 120 190 240)]

/-- geometry/profiles/_ipn.py:21-211 `IPN.parameters`. -/
def tableIPN : List (String × ProfRow) := [
  ("IPN80", .taper 800 420 39 59 39 23 (some 590)),
  ("IPN100", .taper 1000 500 45 68 45 27 (some 757)),
  ("IPN120", .taper 1200 580 51 77 51 31 (some 924)),
  ("IPN140", .taper 1400 660 57 86 57 34 (some 1091)),
  ("IPN160", .taper 1600 740 63 95 63 38 (some 1258)),
  ("IPN180", .taper 1800 820 69 104 69 41 (some 1424)),
  ("IPN200", .taper 2000 900 75 113 75 45 (some 1591)),
  ("IPN220", .taper 2200 980 81 122 81 49 (some 1758)),
  ("IPN240", .taper 2400 1060 87 131 87 52 (some 1925)),
  ("IPN260", .taper 2600 1130 94 141 94 56 (some 2089)),
  ("IPN280", .taper 2800 1190 101 152 101 61 (some 2251)),
  ("IPN300", .taper 3000 1250 108 162 108 65 (some 2416)),
  ("IPN320", .taper 3200 1310 115 173 115 69 (some 2579)),
  ("IPN340", .taper 3400 1370 122 183 122 73 (some 2743)),
  ("IPN360", .taper 3600 1430 130 195 130 78 (some 2902)),
  ("IPN380", .taper 3800 1490 137 205 137 82 (some 3067)),
  ("IPN400", .taper 4000 1550 144 216 144 86 (some 3229)),
  ("IPN450", .taper 4500 1700 162 243 162 97 (some 3636)),
  ("IPN500", .taper 5000 1850 180 270 180 108 (some 4043)),
  ("IPN550", .taper 5500 2000 190 300 190 119 (some 4456)),
  ("IPN600", .taper 6000 2150 216 324 216 130 (some 4858))]

/-- geometry/profiles/_l.py:20-425 `L.parameters`. -/
def tableL : List (String × ProfRow) := [
  ("L20x20x3", .angle 200 200 30 35 20),
  ("L25x25x3", .angle 250 250 30 35 20),
  ("L25x25x4", .angle 250 250 40 35 20),
  ("L30x30x3", .angle 300 300 30 50 25),
  ("L30x30x4", .angle 300 300 40 50 25),
  ("L35x35x4", .angle 350 350 40 50 25),
  ("L40x40x4", .angle 400 400 40 60 30),
  ("L40x40x5", .angle 400 400 50 60 30),
  ("L45x45x4.5", .angle 450 450 45 70 35),
  ("L50x50x4", .angle 500 500 40 70 35),
  ("L50x50x5", .angle 500 500 50 70 35),
  ("L50x50x6", .angle 500 500 60 70 35),
  ("L60x60x5", .angle 600 600 50 80 40),
  ("L60x60x6", .angle 600 600 60 80 40),
  ("L60x60x8", .angle 600 600 80 80 40),
  ("L65x65x7", .angle 650 650 70 90 45),
  ("L70x70x6", .angle 700 700 60 90 45),
  ("L70x70x7", .angle 700 700 70 90 45),
  ("L75x75x6", .angle 750 750 60 100 50),
  ("L75x75x8", .angle 750 750 80 100 50),
  ("L80x80x8", .angle 800 800 80 100 50),
  ("L80x80x10", .angle 800 800 100 100 50),
  ("L90x90x7", .angle 900 900 70 110 55),
  ("L90x90x8", .angle 900 900 80 110 55),
  ("L90x90x9", .angle 900 900 90 110 55),
  ("L90x90x10", .angle 900 900 100 110 55),
  ("L100x100x8", .angle 1000 1000 80 120 60),
  ("L100x100x10", .angle 1000 1000 100 120 60),
  ("L100x100x12", .angle 1000 1000 120 120 60),
  ("L110x110x10", .angle 1100 1100 100 130 65),
  ("L110x110x12", .angle 1100 1100 120 130 65),
  ("L120x120x10", .angle 1200 1200 100 130 65),
  ("L120x120x11", .angle 1200 1200 110 130 65),
  ("L120x120x12", .angle 1200 1200 120 130 65),
  ("L120x120x13", .angle 1200 1200 130 130 65),
  ("L120x120x15", .angle 1200 1200 150 130 65),
  ("L130x130x12", .angle 1300 1300 120 140 70),
  ("L150x150x10", .angle 1500 1500 100 160 80),
  ("L150x150x12", .angle 1500 1500 120 160 80),
  ("L150x150x14", .angle 1500 1500 140 160 80),
  ("L150x150x15", .angle 1500 1500 150 160 80),
  ("L150x150x18", .angle 1500 1500 180 160 80),
  ("L160x160x14", .angle 1600 1600 140 170 85),
  ("L160x160x15", .angle 1600 1600 150 170 85),
  ("L160x160x16", .angle 1600 1600 160 170 85),
  ("L160x160x17", .angle 1600 1600 170 170 85),
  ("L180x180x13", .angle 1800 1800 130 180 90),
  ("L180x180x14", .angle 1800 1800 140 180 90),
  ("L180x180x15", .angle 1800 1800 150 180 90),
  ("L180x180x16", .angle 1800 1800 160 180 90),
  ("L180x180x17", .angle 1800 1800 170 180 90),
  ("L180x180x18", .angle 1800 1800 180 180 90),
  ("L180x180x19", .angle 1800 1800 190 180 90),
  ("L180x180x20", .angle 1800 1800 200 180 90),
  ("L200x200x15", .angle 2000 2000 150 180 90),
  ("L200x200x16", .angle 2000 2000 160 180 90),
  ("L200x200x17", .angle 2000 2000 170 180 90),
  ("L200x200x18", .angle 2000 2000 180 180 90),
  ("L200x200x19", .angle 2000 2000 190 180 90),
  ("L200x200x20", .angle 2000 2000 200 180 90),
  ("L200x200x21", .angle 2000 2000 210 180 90),
  ("L200x200x22", .angle 2000 2000 220 180 90),
  ("L200x200x23", .angle 2000 2000 230 180 90),
  ("L200x200x24", .angle 2000 2000 240 180 90),
  ("L200x200x25", .angle 2000 2000 250 180 90),
  ("L200x200x26", .angle 2000 2000 260 180 90),
  ("L250x250x20", .angle 2500 2500 200 180 90),
  ("L250x250x21", .angle 2500 2500 210 180 90),
  ("L250x250x22", .angle 2500 2500 220 180 90),
  ("L250x250x23", .angle 2500 2500 230 180 90),
  ("L250x250x24", .angle 2500 2500 240 180 90),
  ("L250x250x25", .angle 2500 2500 250 180 90),
  ("L250x250x26", .angle 2500 2500 260 180 90),
  ("L250x250x27", .angle 2500 2500 270 180 90),
  ("L250x250x28", .angle 2500 2500 280 180 90),
  ("L250x250x35", .angle 2500 2500 350 180 90),
  ("L203x203x19", .angle 2030 2030 190 80 40),
  ("L203x203x22.2", .angle 2030 2030 222 80 40),
  ("L203x203x25.4", .angle 2030 2030 254 80 40),
  ("L203x203x28.6", .angle 2030 2030 286 80 40)]

/-- geometry/profiles/_li.py:20-114 `LI.parameters`. -/
def tableLI : List (String × ProfRow) := [
  ("L120x80x8", .angle 1200 800 80 110 55),
  ("L120x80x10", .angle 1200 800 100 110 55),
  ("L120x80x12", .angle 1200 800 120 110 55),
  ("L150x75x9", .angle 1500 750 90 120 60),
  ("L150x75x10", .angle 1500 750 100 120 60),
  ("L150x75x11", .angle 1500 750 110 120 60),
  ("L150x75x12", .angle 1500 750 120 120 60),
  ("L150x90x10", .angle 1500 900 100 120 60),
  ("L150x90x11", .angle 1500 900 110 120 60),
  ("L150x100x10", .angle 1500 1000 100 120 60),
  ("L150x100x12", .angle 1500 1000 120 120 60),
  ("L150x100x14", .angle 1500 1000 140 120 60),
  ("L200x100x10", .angle 2000 1000 100 150 75),
  ("L200x100x12", .angle 2000 1000 120 150 75),
  ("L200x100x14", .angle 2000 1000 140 150 75)]

/-- geometry/profiles/_u.py:23-56 `U.parameters`. -/
def tableU : List (String × ProfRow) := [
  ("U40x20", .taper 400 200 50 55 50 25 none),
  ("U50x25", .taper 500 250 50 60 60 30 none),
  ("U60x30", .taper 600 300 60 60 60 30 none),
  ("U65x42", .taper 650 420 55 75 75 40 none)]

/-- geometry/profiles/_ub.py:19-1268 `UB.parameters`. -/
def tableUB : List (String × ProfRow) := [
  ("UB1100x400x607", .i 11380 4100 310 550 300),
  ("UB1100x400x548", .i 11280 4070 280 500 300),
  ("UB1100x400x499", .i 11180 4050 260 450 300),
  ("UB1100x400x433", .i 11080 4020 220 400 300),
  ("UB1100x400x390", .i 11000 4000 200 360 300),
  ("UB1100x400x343", .i 10900 4000 180 310 300),
  ("UB1016x305x584", .i 10560 3140 360 640 300),
  ("UB1016x305x494", .i 10360 3090 310 540 300),
  ("UB1016x305x438", .i 10260 3050 269 490 300),
  ("UB1016x305x415", .i 10200 3040 260 460 300),
  ("UB1016x305x393", .i 10160 3030 244 439 300),
  ("UB1016x305x350", .i 10080 3020 211 400 300),
  ("UB1016x305x314", .i 10000 3000 191 359 300),
  ("UB1016x305x272", .i 9900 3000 165 310 300),
  ("UB1016x305x249", .i 9800 3000 165 260 300),
  ("UB1016x305x222", .i 9700 3000 160 211 300),
  ("UB1000x400x976", .i 11080 4280 500 899 300),
  ("UB1000x400x883", .i 10920 4240 455 820 300),
  ("UB1000x400x748", .i 10680 4170 390 700 300),
  ("UB1000x400x642", .i 10480 4120 340 600 300),
  ("UB1000x400x591", .i 10400 4090 310 559 300),
  ("UB1000x400x554", .i 10320 4080 295 520 300),
  ("UB1000x400x539", .i 10300 4070 284 511 300),
  ("UB1000x400x483", .i 10200 4040 254 460 300),
  ("UB1000x400x443", .i 10120 4020 236 419 300),
  ("UB1000x400x412", .i 10080 4020 211 400 300),
  ("UB1000x400x371", .i 10000 4000 190 361 300),
  ("UB1000x400x321", .i 9900 4000 165 310 300),
  ("UB1000x400x296", .i 9820 4000 165 271 300),
  ("UB920x420x1377", .i 10930 4730 767 1151 250),
  ("UB920x420x1269", .i 10930 4610 640 1151 250),
  ("UB920x420x1194", .i 10810 4570 605 1090 250),
  ("UB920x420x1077", .i 10610 4510 550 991 250),
  ("UB920x420x970", .i 10430 4460 500 899 250),
  ("UB920x420x787", .i 10110 4370 409 739 250),
  ("UB920x420x725", .i 9990 4340 381 681 250),
  ("UB920x420x656", .i 9870 4310 345 620 250),
  ("UB920x420x588", .i 9750 4270 310 559 250),
  ("UB920x420x537", .i 9650 4250 284 511 250),
  ("UB920x420x491", .i 9570 4220 259 470 250),
  ("UB920x420x449", .i 9480 4230 240 427 250),
  ("UB920x420x420", .i 9430 4220 225 399 250),
  ("UB920x420x390", .i 9360 4200 213 366 250),
  ("UB920x420x368", .i 9310 4190 203 343 250),
  ("UB920x420x344", .i 9270 4180 193 320 250),
  ("UB914x305x576", .i 9930 3220 361 650 200),
  ("UB914x305x521", .i 9810 3190 330 589 200),
  ("UB914x305x474", .i 9710 3160 300 541 200),
  ("UB914x305x425", .i 9610 3130 269 490 200),
  ("UB914x305x381", .i 9510 3100 244 439 200),
  ("UB914x305x345", .i 9430 3080 221 399 200),
  ("UB914x305x313", .i 9320 3090 211 345 200),
  ("UB914x305x289", .i 9266 3077 195 320 200),
  ("UB914x305x271", .i 9230 3070 184 300 200),
  ("UB914x305x253", .i 9184 3055 173 279 200),
  ("UB914x305x238", .i 9150 3050 165 259 200),
  ("UB914x305x224", .i 9104 3041 159 239 200),
  ("UB914x305x201", .i 9030 3033 151 202 200),
  ("UB840x400x576", .i 9130 4110 320 579 200),
  ("UB840x400x527", .i 9030 4090 295 531 200),
  ("UB840x400x473", .i 8930 4060 264 480 200),
  ("UB840x400x433", .i 8850 4040 244 439 200),
  ("UB840x400x392", .i 8770 4010 221 399 200),
  ("UB840x400x359", .i 8680 4030 211 356 200),
  ("UB840x400x329", .i 8620 4010 197 324 200),
  ("UB840x400x299", .i 8560 4000 182 292 200),
  ("UB838x292x251", .i 8590 2920 170 310 200),
  ("UB838x292x226", .i 8509 2938 161 268 200),
  ("UB838x292x194", .i 8407 2924 147 217 200),
  ("UB838x292x176", .i 8349 2917 140 188 200),
  ("UB760x380x582", .i 8430 3960 345 620 200),
  ("UB760x380x531", .i 8330 3930 315 569 200),
  ("UB760x380x484", .i 8230 3900 290 521 200),
  ("UB760x380x434", .i 8130 3870 259 470 200),
  ("UB760x380x389", .i 8030 3850 236 419 200),
  ("UB760x380x350", .i 7950 3820 211 381 200),
  ("UB760x380x314", .i 7860 3840 197 334 200),
  ("UB760x380x284", .i 7800 3820 180 301 200),
  ("UB760x380x257", .i 7720 3810 166 271 200),
  ("UB762x267x220", .i 7790 2660 165 300 200),
  ("UB762x267x197", .i 7698 2680 156 254 200),
  ("UB762x267x173", .i 7622 2667 143 216 200),
  ("UB762x267x147", .i 7540 2652 128 175 200),
  ("UB762x267x134", .i 7500 2644 120 155 200),
  ("UB690x360x802", .i 8260 3870 500 899 200),
  ("UB690x360x548", .i 7720 3720 351 630 200),
  ("UB690x360x500", .i 7620 3690 320 579 200),
  ("UB690x360x457", .i 7520 3670 295 531 200),
  ("UB690x360x419", .i 7440 3640 269 490 200),
  ("UB690x360x384", .i 7360 3620 249 450 200),
  ("UB690x360x350", .i 7280 3600 231 409 200),
  ("UB690x360x323", .i 7220 3590 211 381 200),
  ("UB690x360x289", .i 7140 3560 190 340 200),
  ("UB690x360x265", .i 7060 3580 184 302 200),
  ("UB690x360x240", .i 7010 3560 168 274 200),
  ("UB690x360x217", .i 6950 3550 154 248 200),
  ("UB686x254x192", .i 7020 2540 155 279 200),
  ("UB686x254x170", .i 6929 2558 145 237 200),
  ("UB686x254x152", .i 6875 2545 132 210 200),
  ("UB686x254x140", .i 6835 2537 124 190 200),
  ("UB686x254x125", .i 6779 2530 117 162 200),
  ("UB610x325x551", .i 7110 3470 386 691 200),
  ("UB610x325x498", .i 6990 3430 351 630 200),
  ("UB610x325x455", .i 6890 3400 320 579 200),
  ("UB610x325x415", .i 6790 3380 295 531 200),
  ("UB610x325x372", .i 6690 3350 264 480 200),
  ("UB610x325x341", .i 6610 3330 244 439 200),
  ("UB610x325x307", .i 6530 3300 221 399 200),
  ("UB610x325x285", .i 6470 3290 206 371 200),
  ("UB610x325x262", .i 6410 3270 190 340 200),
  ("UB610x325x241", .i 6350 3290 179 310 200),
  ("UB610x325x217", .i 6280 3280 165 277 200),
  ("UB610x325x195", .i 6220 3270 154 244 200),
  ("UB610x325x174", .i 6160 3250 140 216 200),
  ("UB610x325x155", .i 6110 3240 127 190 200),
  ("UB610x305x238", .i 6358 3114 184 314 200),
  ("UB610x305x179", .i 6202 3071 141 236 200),
  ("UB610x305x149", .i 6124 3048 118 197 200),
  ("UB610x229x153", .i 6230 2290 140 249 200),
  ("UB610x229x140", .i 6172 2302 131 221 200),
  ("UB610x229x125", .i 6122 2290 119 196 200),
  ("UB610x229x113", .i 6076 2282 111 173 200),
  ("UB610x229x101", .i 6026 2276 105 148 200),
  ("UB610x178x92", .i 6030 1790 109 150 130),
  ("UB610x178x82", .i 5990 1780 100 128 130),
  ("UB533x210x138", .i 5490 2140 147 236 130),
  ("UB533x210x122", .i 5445 2119 127 213 130),
  ("UB533x210x109", .i 5395 2108 116 188 130),
  ("UB533x210x101", .i 5367 2100 108 174 130),
  ("UB533x210x92", .i 5331 2093 101 156 130),
  ("UB533x210x82", .i 5283 2088 96 132 130),
  ("UB533x165x85", .i 5350 1660 103 165 130),
  ("UB533x165x74", .i 5290 1660 97 136 130),
  ("UB533x165x66", .i 5250 1650 89 114 130),
  ("UB457x191x106", .i 4690 1940 126 206 100),
  ("UB457x191x98", .i 4672 1928 114 196 100),
  ("UB457x191x89", .i 4634 1919 105 177 100),
  ("UB457x191x82", .i 4600 1913 99 160 100),
  ("UB457x191x74", .i 4570 1904 90 145 100),
  ("UB457x191x67", .i 4534 1899 85 127 100),
  ("UB457x152x82", .i 4658 1553 105 189 100),
  ("UB457x152x74", .i 4620 1544 96 170 100),
  ("UB457x152x67", .i 4580 1538 90 150 100),
  ("UB457x152x60", .i 4546 1529 81 133 100),
  ("UB457x152x52", .i 4498 1524 76 109 100),
  ("UB406x178x85", .i 4170 1810 109 182 100),
  ("UB406x178x74", .i 4128 1795 95 160 100),
  ("UB406x178x67", .i 4094 1788 88 143 100),
  ("UB406x178x60", .i 4064 1779 79 128 100),
  ("UB406x178x54", .i 4026 1777 77 109 100),
  ("UB406x140x53", .i 4066 1433 79 129 100),
  ("UB406x140x46", .i 4032 1422 68 112 100),
  ("UB406x140x39", .i 3980 1418 64 86 100),
  ("UB356x171x67", .i 3634 1732 91 157 100),
  ("UB356x171x57", .i 3580 1722 81 130 100),
  ("UB356x171x51", .i 3550 1715 74 115 100),
  ("UB356x171x45", .i 3514 1711 70 97 100),
  ("UB356x127x39", .i 3534 1260 66 107 100),
  ("UB356x127x33", .i 3490 1254 60 85 100),
  ("UB305x165x54", .i 3104 1669 79 137 90),
  ("UB305x165x46", .i 3066 1657 67 118 90),
  ("UB305x165x40", .i 3034 1650 60 102 90),
  ("UB305x127x48", .i 3110 1253 90 140 90),
  ("UB305x127x42", .i 3072 1243 80 121 90),
  ("UB305x127x37", .i 3044 1234 71 107 90),
  ("UB305x102x33", .i 3127 1024 66 108 80),
  ("UB305x102x28", .i 3087 1018 60 88 80),
  ("UB305x102x25", .i 3051 1016 58 70 80),
  ("UB254x146x43", .i 2596 1473 72 127 80),
  ("UB254x146x37", .i 2560 1464 63 109 80),
  ("UB254x146x31", .i 2514 1461 60 86 80),
  ("UB254x102x28", .i 2604 1022 63 100 80),
  ("UB254x102x25", .i 2572 1019 60 84 80),
  ("UB254x102x22", .i 2540 1016 57 68 80),
  ("UB203x133x30", .i 2068 1339 64 96 80),
  ("UB203x133x25", .i 2032 1332 57 78 80),
  ("UB203x102x23", .i 2032 1018 54 93 80),
  ("UB178x102x19", .i 1778 1012 48 79 80),
  ("UB152x89x16", .i 1524 887 45 77 80),
  ("UB127x76x13", .i 1270 760 40 76 80)]

/-- geometry/profiles/_ubp.py:19-139 `UBP.parameters`. -/
def tableUBP : List (String × ProfRow) := [
  ("UBP203x203x45", .i 2000 2060 95 95 100),
  ("UBP203x203x54", .i 2040 2080 113 114 100),
  ("UBP254x254x63", .i 2470 2570 106 107 200),
  ("UBP254x254x71", .i 2500 2580 120 120 200),
  ("UBP254x254x85", .i 2540 2600 144 143 200),
  ("UBP305x305x79", .i 2990 3060 110 111 200),
  ("UBP305x305x88", .i 3020 3080 124 123 200),
  ("UBP305x305x95", .i 3040 3090 133 133 200),
  ("UBP305x305x110", .i 3080 3110 153 154 200),
  ("UBP305x305x126", .i 3120 3130 175 176 200),
  ("UBP305x305x149", .i 3180 3160 206 207 200),
  ("UBP305x305x186", .i 3280 3210 255 256 20),
  ("UBP305x305x223", .i 3380 3260 303 304 200),
  ("UBP356x368x109", .i 3460 3710 128 129 200),
  ("UBP356x368x133", .i 3520 3740 156 157 200),
  ("UBP356x368x152", .i 3560 3760 178 179 200),
  ("UBP356x368x174", .i 3610 3780 203 204 200)]

/-- geometry/profiles/_uc.py:19-188 `UC.parameters`. -/
def tableUC : List (String × ProfRow) := [
  ("UC152x152x23", .i 1520 1520 58 68 80),
  ("UC152x152x30", .i 1580 1530 65 94 80),
  ("UC152x152x37", .i 1620 1540 80 115 80),
  ("UC152x152x44", .i 1660 1560 95 136 80),
  ("UC152x152x51", .i 1700 1570 110 157 80),
  ("UC203x203x46", .i 2030 2040 72 110 130),
  ("UC203x203x52", .i 2060 2040 79 125 130),
  ("UC203x203x60", .i 2100 2060 94 142 130),
  ("UC203x203x71", .i 2160 2060 100 173 130),
  ("UC203x203x86", .i 2220 2090 127 205 130),
  ("UC203x203x100", .i 2290 2100 145 237 130),
  ("UC203x203x113", .i 2350 2120 163 269 130),
  ("UC203x203x127", .i 2410 2140 181 301 130),
  ("UC254x254x73", .i 2540 2550 86 142 200),
  ("UC254x254x81", .i 2560 2550 94 156 200),
  ("UC254x254x89", .i 2600 2560 103 173 200),
  ("UC254x254x101", .i 2640 2570 119 196 200),
  ("UC254x254x107", .i 2670 2590 128 205 200),
  ("UC254x254x115", .i 2690 2590 135 221 200),
  ("UC254x254x132", .i 2760 2610 153 253 200),
  ("UC254x254x149", .i 2820 2630 173 284 200),
  ("UC254x254x167", .i 2890 2650 192 317 200),
  ("UC305x305x97", .i 3080 3050 99 154 200),
  ("UC305x305x107", .i 3110 3060 109 170 200)]

/-- geometry/profiles/_upe.py:19-34 `UPE.parameters`. -/
def tableUPE : List (String × ProfRow) := [
  ("UPE80", .i 800 500 40 70 100),
  ("UPE100", .i 1000 550 45 75 100),
  ("UPE120", .i 1200 600 50 80 120),
  ("UPE140", .i 1400 650 50 90 120),
  ("UPE160", .i 1600 700 55 95 120),
  ("UPE180", .i 1800 750 55 105 120),
  ("UPE200", .i 2000 800 60 110 130),
  ("UPE220", .i 2200 850 65 120 130),
  ("UPE240", .i 2400 900 70 125 150),
  ("UPE270", .i 2700 950 75 135 150),
  ("UPE300", .i 3000 1000 95 150 150),
  ("UPE330", .i 3300 1050 110 160 180),
  ("UPE360", .i 3600 1100 120 170 180),
  ("UPE400", .i 4000 1150 135 180 180)]

/-- geometry/profiles/_upn.py:23-186 `UPN.parameters`. -/
def tableUPN : List (String × ProfRow) := [
  ("UPN50", .taper 500 380 50 70 70 40 (some 210)),
  ("UPN65", .taper 650 420 55 75 80 40 (some 340)),
  ("UPN80", .taper 800 450 60 80 80 40 (some 470)),
  ("UPN100", .taper 1000 500 60 85 90 50 (some 640)),
  ("UPN120", .taper 1200 550 70 90 90 50 (some 820)),
  ("UPN140", .taper 1400 600 70 100 100 50 (some 980)),
  ("UPN160", .taper 1600 650 75 105 110 60 (some 1150)),
  ("UPN180", .taper 1800 700 80 110 110 60 (some 1330)),
  ("UPN200", .taper 2000 750 85 115 120 60 (some 1510)),
  ("UPN220", .taper 2200 800 90 125 130 70 (some 1670)),
  ("UPN240", .taper 2400 850 95 130 130 70 (some 1840)),
  ("UPN260", .taper 2600 900 100 140 140 70 (some 2000)),
  ("UPN280", .taper 2800 950 100 150 150 80 (some 2160)),
  ("UPN300", .taper 3000 1000 100 160 160 80 (some 2320)),
  ("UPN320", .taper 3200 1000 140 175 180 90 (some 2460)),
  ("UPN350", .taper 3500 1000 140 160 160 80 (some 2820)),
  ("UPN380", .taper 3800 1020 135 160 160 80 (some 3130)),
  ("UPN400", .taper 4000 1100 140 180 180 90 (some 3240))]

/-- geometry/profiles/_w.py:24-2069 `W.parameters`. -/
def tableW : List (String × ProfRow) := [
  ("W1100x400x607", .i 11380 4100 310 550 300),
  ("W1100x400x548", .i 11280 4070 280 500 300),
  ("W1100x400x499", .i 11180 4050 260 450 300),
  ("W1100x400x433", .i 11080 4020 220 400 300),
  ("W1100x400x390", .i 11000 4000 200 360 300),
  ("W1100x400x343", .i 10900 4000 180 310 300),
  ("W1000x400x976", .i 11080 4280 500 899 300),
  ("W1000x400x883", .i 10920 4240 455 820 300),
  ("W1000x400x748", .i 10680 4170 390 700 300),
  ("W1000x400x642", .i 10480 4120 340 600 300),
  ("W1000x400x591", .i 10400 4090 310 559 300),
  ("W1000x400x554", .i 10320 4080 295 520 300),
  ("W1000x400x539", .i 10300 4070 284 511 300),
  ("W1000x400x483", .i 10200 4040 254 460 300),
  ("W1000x400x443", .i 10120 4020 236 419 300),
  ("W1000x400x412", .i 10080 4020 211 400 300),
  ("W1000x400x371", .i 10000 4000 190 361 300),
  ("W1000x400x321", .i 9900 4000 165 310 300),
  ("W1000x400x296", .i 9820 4000 165 271 300),
  ("W1000x300x584", .i 10560 3140 360 640 300),
  ("W1000x300x494", .i 10360 3090 310 540 300),
  ("W1000x300x486", .i 10360 3080 300 541 300),
  ("W1000x300x438", .i 10260 3050 269 490 300),
  ("W1000x300x415", .i 10200 3040 260 460 300),
  ("W1000x300x393", .i 10160 3030 244 439 300),
  ("W1000x300x350", .i 10080 3020 211 400 300),
  ("W1000x300x314", .i 10000 3000 191 359 300),
  ("W1000x300x272", .i 9900 3000 165 310 300),
  ("W1000x300x249", .i 9800 3000 165 260 300),
  ("W1000x300x222", .i 9700 3000 160 211 300),
  ("W920x420x1377", .i 10930 4730 767 1151 250),
  ("W920x420x1269", .i 10930 4610 640 1151 250),
  ("W920x420x1194", .i 10810 4570 605 1090 250),
  ("W920x420x1077", .i 10610 4510 550 991 250),
  ("W920x420x970", .i 10430 4460 500 899 250),
  ("W920x420x787", .i 10110 4370 409 739 250),
  ("W920x420x725", .i 9990 4340 381 681 250),
  ("W920x420x656", .i 9870 4310 345 620 250),
  ("W920x420x588", .i 9750 4270 310 559 250),
  ("W920x420x537", .i 9650 4250 284 511 250),
  ("W920x420x491", .i 9570 4220 259 470 250),
  ("W920x420x449", .i 9480 4230 240 427 250),
  ("W920x420x420", .i 9430 4220 225 399 250),
  ("W920x420x390", .i 9360 4200 213 366 250),
  ("W920x420x368", .i 9310 4190 203 343 250),
  ("W920x420x344", .i 9270 4180 193 320 250),
  ("W920x310x576", .i 9930 3220 361 650 250),
  ("W920x310x521", .i 9810 3190 330 589 250),
  ("W920x310x474", .i 9710 3160 300 541 250),
  ("W920x310x425", .i 9610 3130 269 490 250),
  ("W920x310x381", .i 9510 3100 244 439 250),
  ("W920x310x345", .i 9430 3080 221 399 250),
  ("W920x310x313", .i 9320 3090 211 345 250),
  ("W920x310x289", .i 9270 3080 194 320 250),
  ("W920x310x271", .i 9230 3070 184 300 250),
  ("W920x310x253", .i 9190 3060 173 279 250),
  ("W920x310x238", .i 9150 3050 165 259 250),
  ("W920x310x223", .i 9110 3040 159 239 250),
  ("W920x310x201", .i 9030 3040 152 201 250),
  ("W840x400x576", .i 9130 4110 320 579 200),
  ("W840x400x527", .i 9030 4090 295 531 200),
  ("W840x400x473", .i 8930 4060 264 480 200),
  ("W840x400x433", .i 8850 4040 244 439 200),
  ("W840x400x392", .i 8770 4010 221 399 200),
  ("W840x400x359", .i 8680 4030 211 356 200),
  ("W840x400x329", .i 8620 4010 197 324 200),
  ("W840x400x299", .i 8560 4000 182 292 200),
  ("W840x295x251", .i 8590 2920 170 310 200),
  ("W840x295x226", .i 8510 2940 161 268 200),
  ("W840x295x210", .i 8460 2930 154 244 200),
  ("W840x295x193", .i 8400 2920 147 217 200),
  ("W840x295x176", .i 8350 2920 140 188 200),
  ("W760x380x582", .i 8430 3960 345 620 200),
  ("W760x380x531", .i 8330 3930 315 569 200),
  ("W760x380x484", .i 8230 3900 290 521 200),
  ("W760x380x434", .i 8130 3870 259 470 200),
  ("W760x380x389", .i 8030 3850 236 419 200),
  ("W760x380x350", .i 7950 3820 211 381 200),
  ("W760x380x314", .i 7860 3840 197 334 200),
  ("W760x380x284", .i 7800 3820 180 301 200),
  ("W760x380x257", .i 7720 3810 166 271 200),
  ("W760x265x220", .i 7790 2660 165 300 200),
  ("W760x265x196", .i 7700 2680 156 254 200),
  ("W760x265x185", .i 7660 2670 149 236 200),
  ("W760x265x173", .i 7620 2670 144 216 200),
  ("W760x265x161", .i 7580 2660 138 193 200),
  ("W760x265x147", .i 7530 2650 132 170 200),
  ("W760x265x134", .i 7500 2640 119 155 200),
  ("W690x360x802", .i 8260 3870 500 899 200),
  ("W690x360x548", .i 7720 3720 351 630 200),
  ("W690x360x500", .i 7620 3690 320 579 200),
  ("W690x360x457", .i 7520 3670 295 531 200),
  ("W690x360x419", .i 7440 3640 269 490 200),
  ("W690x360x384", .i 7360 3620 249 450 200),
  ("W690x360x350", .i 7280 3600 231 409 200),
  ("W690x360x323", .i 7220 3590 211 381 200),
  ("W690x360x289", .i 7140 3560 190 340 200),
  ("W690x360x265", .i 7060 3580 184 302 200),
  ("W690x360x240", .i 7010 3560 168 274 200),
  ("W690x360x217", .i 6950 3550 154 248 200),
  ("W690x250x192", .i 7020 2540 155 279 200),
  ("W690x250x170", .i 6930 2560 145 236 200),
  ("W690x250x152", .i 6880 2540 131 211 200),
  ("W690x250x140", .i 6840 2540 124 189 200),
  ("W690x250x125", .i 6780 2530 117 163 200),
  ("W610x325x551", .i 7110 3470 386 691 200),
  ("W610x325x498", .i 6990 3430 351 630 200),
  ("W610x325x455", .i 6890 3400 320 579 200),
  ("W610x325x415", .i 6790 3380 295 531 200),
  ("W610x325x372", .i 6690 3350 264 480 200),
  ("W610x325x341", .i 6610 3330 244 439 200),
  ("W610x325x307", .i 6530 3300 221 399 200),
  ("W610x325x285", .i 6470 3290 206 371 200),
  ("W610x325x262", .i 6410 3270 190 340 200),
  ("W610x325x241", .i 6350 3290 179 310 200),
  ("W610x325x217", .i 6280 3280 165 277 200),
  ("W610x325x195", .i 6220 3270 154 244 200),
  ("W610x325x174", .i 6160 3250 140 216 200),
  ("W610x325x155", .i 6110 3240 127 190 200),
  ("W610x230x153", .i 6230 2290 140 249 200),
  ("W610x230x140", .i 6170 2300 131 222 200),
  ("W610x230x125", .i 6120 2290 119 196 200),
  ("W610x230x113", .i 6080 2280 112 173 200),
  ("W610x230x101", .i 6030 2280 105 149 200),
  ("W610x180x92", .i 6030 1790 109 150 130),
  ("W610x180x82", .i 5990 1780 100 128 130),
  ("W530x315x409", .i 6130 3270 310 556 250),
  ("W530x315x369", .i 6030 3240 279 505 250),
  ("W530x315x332", .i 5930 3220 254 455 250),
  ("W530x315x300", .i 5850 3190 231 414 250),
  ("W530x315x272", .i 5770 3170 211 376 250),
  ("W530x315x248", .i 5710 3150 190 345 250),
  ("W530x315x219", .i 5600 3180 183 292 250),
  ("W530x315x196", .i 5540 3160 165 263 250),
  ("W530x315x182", .i 5510 3150 152 244 250),
  ("W530x315x165", .i 5460 3130 140 222 250),
  ("W530x315x150", .i 5430 3120 127 203 250),
  ("W530x210x138", .i 5490 2140 147 236 130),
  ("W530x210x123", .i 5440 2120 131 212 130),
  ("W530x210x109", .i 5390 2110 116 188 130),
  ("W530x210x101", .i 5370 2100 109 174 130),
  ("W530x210x92", .i 5330 2090 102 156 130),
  ("W530x210x82", .i 5280 2090 95 133 130),
  ("W530x210x72", .i 5240 2070 90 109 130),
  ("W530x165x85", .i 5350 1660 103 165 130),
  ("W530x165x74", .i 5290 1660 97 136 130),
  ("W530x165x66", .i 5250 1650 89 114 130),
  ("W460x280x464", .i 5670 3050 386 696 200),
  ("W460x280x421", .i 5550 3020 356 635 200),
  ("W460x280x384", .i 5450 2990 325 584 200),
  ("W460x280x349", .i 5350 2960 295 536 200),
  ("W460x280x315", .i 5250 2930 269 485 200),
  ("W460x280x286", .i 5170 2910 244 444 200),
  ("W460x280x260", .i 5090 2890 226 404 200),
  ("W460x280x235", .i 5010 2870 206 366 200),
  ("W460x280x213", .i 4950 2850 185 335 200),
  ("W460x280x193", .i 4890 2830 170 305 200),
  ("W460x280x177", .i 4820 2860 166 269 200),
  ("W460x280x158", .i 4760 2840 150 239 200),
  ("W460x280x144", .i 4720 2830 136 221 200),
  ("W460x280x128", .i 4670 2820 122 196 200),
  ("W460x280x113", .i 4630 2800 108 173 200),
  ("W460x190x106", .i 4690 1940 126 206 100),
  ("W460x190x97", .i 4660 1930 114 190 100),
  ("W460x190x89", .i 4630 1920 105 177 100),
  ("W460x190x82", .i 4600 1910 99 160 100),
  ("W460x190x74", .i 4570 1900 90 145 100),
  ("W460x190x67#", .i 4540 1900 85 127 100),
  ("W460x150x68", .i 4590 1540 91 154 100),
  ("W460x150x60", .i 4550 1530 80 133 100),
  ("W460x150x52", .i 4500 1520 76 108 100),
  ("W410x260x149", .i 4310 2650 149 250 100),
  ("W410x260x132", .i 4250 2630 133 222 100),
  ("W410x260x114", .i 4200 2610 116 193 100),
  ("W410x260x100", .i 4150 2600 100 169 100),
  ("W410x180x85", .i 4170 1810 109 182 100),
  ("W410x180x75", .i 4130 1800 97 160 100),
  ("W410x180x67", .i 4100 1790 88 144 100),
  ("W410x180x60", .i 4070 1780 77 128 100),
  ("W410x180x53", .i 4030 1770 75 109 100),
  ("W410x140x53.3#", .i 4070 1430 79 129 100),
  ("W410x140x46.1", .i 4030 1400 70 112 100),
  ("W410x140x38.8", .i 3990 1400 64 88 100),
  ("W360x410x1488", .i 6400 4840 1080 1598 200),
  ("W360x410x1384", .i 6170 4810 1045 1484 200),
  ("W360x410x1299", .i 6000 4760 1000 1400 200),
  ("W360x410x1202", .i 5800 4710 950 1300 200),
  ("W360x410x1086", .i 5690 4540 780 1250 200),
  ("W360x410x990", .i 5500 4480 719 1150 200),
  ("W360x410x900", .i 5310 4420 659 1060 200),
  ("W360x410x818", .i 5140 4370 605 970 200),
  ("W360x410x744", .i 4980 4320 556 889 200),
  ("W360x410x677", .i 4830 4280 512 815 200),
  ("W360x410x634", .i 4740 4240 476 771 200),
  ("W360x410x592", .i 4650 4210 450 723 200),
  ("W360x410x551", .i 4550 4180 420 676 200),
  ("W360x410x509", .i 4460 4160 391 627 200),
  ("W360x410x463", .i 4350 4120 358 574 200),
  ("W360x410x421", .i 4250 4090 328 526 200),
  ("W360x410x382", .i 4160 4060 298 480 200),
  ("W360x410x347", .i 4070 4040 272 437 200),
  ("W360x410x314", .i 3990 4010 249 396 200),
  ("W360x410x287", .i 3930 3990 226 366 200),
  ("W360x410x262", .i 3870 3980 211 333 200),
  ("W360x410x237", .i 3800 3950 189 302 200),
  ("W360x410x216", .i 3750 3940 173 277 200),
  ("W360x370x196", .i 3720 3740 164 262 200),
  ("W360x370x179", .i 3680 3730 150 239 200),
  ("W360x370x162", .i 3640 3710 133 218 200),
  ("W360x370x147", .i 3600 3700 123 198 200),
  ("W360x370x134", .i 3560 3690 112 180 200),
  ("W360x250x122", .i 3630 2570 130 217 150),
  ("W360x250x110", .i 3600 2560 114 199 150),
  ("W360x250x101", .i 3570 2550 105 183 150),
  ("W360x250x91", .i 3530 2540 95 164 150),
  ("W360x200x79", .i 3540 2050 94 168 150),
  ("W360x200x72", .i 3500 2040 86 151 150),
  ("W360x200x64", .i 3470 2030 77 135 150),
  ("W360x170x58", .i 3580 1720 79 131 100),
  ("W360x170x51", .i 3550 1710 72 116 100),
  ("W360x170x44.6", .i 3520 1710 69 98 100),
  ("W360x130x39.0", .i 3530 1280 65 107 100),
  ("W360x130x32.9", .i 3490 1270 58 85 100),
  ("W310x310x500", .i 4270 3400 451 751 200),
  ("W310x310x454", .i 4150 3360 413 687 200),
  ("W310x310x415", .i 4030 3340 389 627 200),
  ("W310x310x375", .i 3910 3300 354 572 200),
  ("W310x310x342", .i 3820 3280 326 526 200),
  ("W310x310x313", .i 3740 3250 300 483 200),
  ("W310x310x283", .i 3650 3220 269 441 200),
  ("W310x310x253", .i 3560 3190 244 396 200),
  ("W310x310x226", .i 3480 3170 221 356 200),
  ("W310x310x202", .i 3410 3150 201 318 200),
  ("W310x310x179", .i 3330 3130 180 281 200),
  ("W310x310x158", .i 3270 3100 155 251 200),
  ("W310x310x143", .i 3230 3090 140 229 200),
  ("W310x310x129", .i 3180 3080 131 206 200),
  ("W310x310x117", .i 3140 3070 119 187 200),
  ("W310x310x107", .i 3110 3060 109 170 200),
  ("W310x310x97", .i 3080 3050 99 154 200),
  ("W310x250x86", .i 3100 2540 91 163 150),
  ("W310x250x79", .i 3060 2540 88 146 150),
  ("W310x200x74", .i 3100 2050 94 163 150),
  ("W310x200x67", .i 3060 2040 85 146 150),
  ("W310x200x60", .i 3030 2030 75 131 150),
  ("W310x165x52", .i 3170 1670 76 132 80),
  ("W310x165x44.5", .i 3130 1660 66 112 80),
  ("W310x165x38.7", .i 3100 1650 58 97 80),
  ("W310x100x32.7", .i 3130 1020 66 108 80),
  ("W310x100x28.3", .i 3090 1020 60 89 80),
  ("W310x100x23.8", .i 3050 1010 56 67 80),
  ("W310x100x21.0", .i 3030 1010 51 57 80),
  ("W250x250x167", .i 2890 2650 192 318 130),
  ("W250x250x149", .i 2820 2630 173 284 130),
  ("W250x250x131", .i 2750 2610 154 251 130),
  ("W250x250x115", .i 2690 2590 135 221 130),
  ("W250x250x101", .i 2640 2570 119 196 130),
  ("W250x250x89", .i 2600 2560 107 173 130),
  ("W250x250x80", .i 2560 2550 94 156 130),
  ("W250x250x73", .i 2530 2540 86 142 130),
  ("W250x200x67", .i 2570 2040 89 157 130),
  ("W250x200x58", .i 2520 2030 80 135 130),
  ("W250x200x49.1", .i 2470 2020 74 110 130),
  ("W250x145x44.8", .i 2660 1480 76 130 80),
  ("W250x145x38.5", .i 2620 1470 66 112 80),
  ("W250x145x32.7", .i 2580 1460 61 91 80),
  ("W250x100x28.4", .i 2600 1020 64 100 80),
  ("W250x100x25.3", .i 2570 1020 61 84 80),
  ("W250x100x22.3", .i 2540 1020 58 69 80),
  ("W250x100x17.9", .i 2510 1010 48 53 80),
  ("W200x200x100", .i 2290 2100 145 237 100),
  ("W200x200x86", .i 2220 2090 130 206 100),
  ("W200x200x71", .i 2160 2060 102 174 100),
  ("W200x200x59", .i 2100 2050 91 142 100),
  ("W200x200x52", .i 2060 2040 79 126 100),
  ("W200x200x46.1", .i 2030 2030 72 110 100),
  ("W200x165x41.7", .i 2050 1660 72 118 100),
  ("W200x165x35.9", .i 2010 1650 62 102 100),
  ("W200x135x31.3", .i 2100 1340 64 102 80),
  ("W200x135x26.6", .i 2070 1330 58 84 80),
  ("W200x100x22.5", .i 2060 1020 62 80 80),
  ("W200x100x19.3", .i 2030 1020 58 65 80),
  ("W200x100x15.0", .i 2000 1000 43 52 80),
  ("W150x150x37.1", .i 1620 1540 81 116 60),
  ("W150x150x29.8", .i 1570 1530 66 93 60),
  ("W150x150x22.5", .i 1520 1520 58 66 60),
  ("W150x100x24.0", .i 1600 1020 66 103 60),
  ("W150x100x18.0", .i 1530 1020 58 71 60),
  ("W150x100x13.5", .i 1500 1000 43 55 60),
  ("W130x130x28.1", .i 1310 1280 69 109 80),
  ("W130x130x23.8", .i 1270 1270 61 91 80),
  ("W100x100x19.3", .i 1060 1030 71 88 60)]

end SC
