import Verif.Model.ThinFilm

/-!
# Model of the material data of `coralign/maskgen/util/thinfilm.py`

`calc_complex_occulter` reads three data files and evaluates two dispersion formulas for the wavelength it is given.  The tables below are
the numbers in the files, as exact decimals.
-/

namespace Coralign

/-- `np.interp(x, xp, fp)` for increasing `xp`, as used in `thinfilm.py` lines 112-113 and 122-123: the end values outside the table, a straight
line between neighbouring points.  (On an empty table numpy raises; the tables below are not empty, and the model gives 0.) -/
noncomputable def npInterp (x : ℝ) : List (ℝ × ℝ) → ℝ
  | [] => 0
  | [p] => p.2
  | p :: q :: l => if x < p.1 then p.2 else if x < q.1 then (q.2 - p.2) / (q.1 - p.1) * (x - p.1) + p.2 else npInterp x (q :: l)

/-- `materialdata/titanium_data_from_PBJohnsonAndRWChristy1974.txt`, all lines: wavelength in nanometres, index, extinction; read at
`thinfilm.py` lines 106-111. -/
def titaniumTable : List (ℚ × ℚ × ℚ) :=
  [(397, 2.08, 2.95), (413, 2.14, 2.98), (431, 2.21, 3.01), (451, 2.27, 3.04), (471, 2.3, 3.1), (496, 2.36, 3.19), (521, 2.44, 3.2),
   (549, 2.54, 3.43), (582, 2.6, 3.58), (617, 2.67, 3.74), (659, 2.76, 3.84), (704, 2.86, 3.96), (756, 3, 4.01), (821, 3.21, 4.01),
   (892, 3.29, 3.96), (984, 3.35, 3.97), (1088, 3.5, 4.02), (1216, 3.62, 4.15)]

/-- `materialdata/nickel_data_from_Palik_via_Bala_wvlNM_n_k.txt`, all lines: wavelength in nanometres, index, extinction; read at
`thinfilm.py` lines 116-121. -/
def nickelTable : List (ℚ × ℚ × ℚ) :=
  [(302.4, 1.74, 1.99), (310, 1.73, 1.98), (317.9, 1.72, 1.98), (326.3, 1.69, 1.99), (335.1, 1.66, 2.02), (344.4, 1.64, 2.07), (354.2, 1.63, 2.11),
   (364.7, 1.62, 2.17), (375.7, 1.61, 2.23), (387.5, 1.61, 2.3), (400, 1.61, 2.36), (413.3, 1.61, 2.44), (427.5, 1.62, 2.52), (442.8, 1.62, 2.61),
   (459.2, 1.64, 2.71), (476.9, 1.66, 2.81), (495.9, 1.67, 2.93), (516.6, 1.71, 3.06), (539.1, 1.75, 3.19), (563.6, 1.8, 3.33), (590.4, 1.85, 3.48),
   (619.9, 1.93, 3.65), (636, 1.98, 3.74), (653, 2.02, 3.82), (670, 2.08, 3.91), (689, 2.14, 4), (709, 2.21, 4.09), (729, 2.28, 4.18),
   (751, 2.36, 4.25), (775, 2.43, 4.31), (800, 2.48, 4.38), (827, 2.53, 4.47), (855, 2.59, 4.55), (886, 2.65, 4.63), (918, 2.69, 4.73),
   (954, 2.74, 4.85), (992, 2.8, 4.97), (1033, 2.85, 5.1), (1078, 2.91, 5.24), (1127, 2.97, 5.38), (1181, 3.01, 5.55), (1240, 3.06, 5.74),
   (1305, 3.11, 5.98), (1378, 3.18, 6.23), (1459, 3.27, 6.51), (1550, 3.38, 6.82), (1653, 3.49, 7.13), (1771, 3.59, 7.48), (1907, 3.69, 7.92),
   (2066, 3.84, 8.35), (2254, 3.9, 8.92), (2480, 4.03, 9.64), (2755, 4.2, 10.2), (3100, 3.84, 11.4), (3263, 3.92, 12.1), (3444, 4, 12.7),
   (3647, 4.07, 13.4), (3875, 4.12, 14.2), (4133, 4.19, 15), (4428, 4.3, 16), (4769, 4.29, 17.1), (5166, 4.16, 18.4), (5636, 4.11, 20.2),
   (6199, 4.12, 22.5), (6526, 4.3, 23.8), (6888, 4.45, 25.2), (7293, 4.68, 26.8), (7749, 5, 28.6), (8266, 5.45, 30.6), (8856, 5.83, 32.8),
   (9537, 6.44, 35.3), (10330, 7.11, 38.3), (11270, 8.12, 41.8), (12400, 9.54, 45.8)]

/-- One column of a table at a wavelength in nanometres: `np.interp(lam_nm, table[:, 0], table[:, k])`, `thinfilm.py` lines 112-113 and
122-123. -/
noncomputable def tableAt (t : List (ℚ × ℚ × ℚ)) (col : ℚ × ℚ → ℚ) (nm : ℝ) : ℝ :=
  npInterp nm (t.map fun r => ((r.1 : ℝ), (col r.2 : ℝ)))

/-- The Sellmeier formula for fused silica at a wavelength in microns, `thinfilm.py` lines 83-95, with the coefficients of
`materialdata/fused_silica_Sellmeier_coefficients_from_Corning_website.txt`.  (Where the radicand is negative numpy gives NaN and the model 0.) -/
noncomputable def fusedSilica (um : ℝ) : ℝ :=
  Real.sqrt (1 + 0.683740494 * um ^ 2 / (um ^ 2 - 0.00460352869) + 0.420323613 * um ^ 2 / (um ^ 2 - 0.0133968856) +
    0.58502748 * um ^ 2 / (um ^ 2 - 64.4932732))

/-- `npmgi`, `thinfilm.py` line 100. -/
noncomputable def pmgiIndex (um : ℝ) : ℝ := 1.524 + 5.176e-03 / um ^ 2 + 2.105e-4 / um ^ 4

/-- The material data for a wavelength in metres, `thinfilm.py` lines 73-75 and 82-123. -/
noncomputable def materialsAt (lam : ℝ) : Materials where
  nSub := fusedSilica (lam * 1000000)
  nPmgi := pmgiIndex (lam * 1000000)
  nTi := tableAt titaniumTable Prod.fst (lam * 1000000000)
  kTi := tableAt titaniumTable Prod.snd (lam * 1000000000)
  nNi := tableAt nickelTable Prod.fst (lam * 1000000000)
  kNi := tableAt nickelTable Prod.snd (lam * 1000000000)

end Coralign
