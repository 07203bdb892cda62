import Mathlib.Data.Rat.Defs
import Mathlib.Algebra.Order.Field.Rat

/-!
# The published material data, independently of the model

Transcribed mechanically from the data files in `coralign/maskgen/materialdata`, as whole numbers: the wavelength in tenths of a nanometre, and index and
extinction in hundredths.
-/

namespace Coralign.Spec

/-- Titanium, `titanium_data_from_PBJohnsonAndRWChristy1974.txt`. -/
def titaniumData : List (ℕ × ℕ × ℕ) :=
  [(3970, 208, 295), (4130, 214, 298), (4310, 221, 301), (4510, 227, 304), (4710, 230, 310), (4960, 236, 319), (5210, 244, 320), (5490, 254, 343),
   (5820, 260, 358), (6170, 267, 374), (6590, 276, 384), (7040, 286, 396), (7560, 300, 401), (8210, 321, 401), (8920, 329, 396), (9840, 335, 397),
   (10880, 350, 402), (12160, 362, 415)]

/-- Nickel, `nickel_data_from_Palik_via_Bala_wvlNM_n_k.txt`. -/
def nickelData : List (ℕ × ℕ × ℕ) :=
  [(3024, 174, 199), (3100, 173, 198), (3179, 172, 198), (3263, 169, 199), (3351, 166, 202), (3444, 164, 207), (3542, 163, 211), (3647, 162, 217),
   (3757, 161, 223), (3875, 161, 230), (4000, 161, 236), (4133, 161, 244), (4275, 162, 252), (4428, 162, 261), (4592, 164, 271), (4769, 166, 281),
   (4959, 167, 293), (5166, 171, 306), (5391, 175, 319), (5636, 180, 333), (5904, 185, 348), (6199, 193, 365), (6360, 198, 374), (6530, 202, 382),
   (6700, 208, 391), (6890, 214, 400), (7090, 221, 409), (7290, 228, 418), (7510, 236, 425), (7750, 243, 431), (8000, 248, 438), (8270, 253, 447),
   (8550, 259, 455), (8860, 265, 463), (9180, 269, 473), (9540, 274, 485), (9920, 280, 497), (10330, 285, 510), (10780, 291, 524), (11270, 297, 538),
   (11810, 301, 555), (12400, 306, 574), (13050, 311, 598), (13780, 318, 623), (14590, 327, 651), (15500, 338, 682), (16530, 349, 713), (17710, 359, 748),
   (19070, 369, 792), (20660, 384, 835), (22540, 390, 892), (24800, 403, 964), (27550, 420, 1020), (31000, 384, 1140), (32630, 392, 1210), (34440, 400, 1270),
   (36470, 407, 1340), (38750, 412, 1420), (41330, 419, 1500), (44280, 430, 1600), (47690, 429, 1710), (51660, 416, 1840), (56360, 411, 2020), (61990, 412, 2250),
   (65260, 430, 2380), (68880, 445, 2520), (72930, 468, 2680), (77490, 500, 2860), (82660, 545, 3060), (88560, 583, 3280), (95370, 644, 3530), (103300, 711, 3830),
   (112700, 812, 4180), (124000, 954, 4580)]

/-- A row in nanometres and units. -/
def dataRow (r : ℕ × ℕ × ℕ) : ℚ × ℚ × ℚ := ((r.1 : ℚ) / 10, (r.2.1 : ℚ) / 100, (r.2.2 : ℚ) / 100)

/-- Sellmeier coefficients of fused silica, `fused_silica_Sellmeier_coefficients_from_Corning_website.txt`, in units of `10⁻¹¹`: the three strengths, each
with its resonance in square microns. -/
def silicaData : List (ℕ × ℕ) := [(68374049400, 460352869), (42032361300, 1339688560), (58502748000, 6449327320000)]

end Coralign.Spec
