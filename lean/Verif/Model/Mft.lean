import Verif.Base.Cis
import Verif.Base.Arr2

/-!
# Model of `coralign/util/mft.py`
-/

namespace Coralign

/-- `_interval(width, npts)`, `coralign/util/mft.py` lines 216-221: coordinates (by index) and spacing. -/
noncomputable def mftInterval (width : ℝ) (npts : ℤ) : Res ((ℕ → ℝ) × ℝ) :=
  if width ≤ 0 then .error .typeError
  else if npts ≤ 0 then .error .typeError
  else
    let dx := width / npts
    .ok (fun k => ((-(npts / 2) + k : ℤ) : ℝ) * dx, dx)

/-- The argument checks of `do_mft` and `do_imft`, `coralign/util/mft.py` lines 36-49, 173-186.  The output shape is a
pair of integers; any other iterable is rejected with the same `TypeError`. -/
noncomputable def mftChecks (o0 o1 : ℤ) (pixperlod pixperpupil : ℝ) : Res Unit :=
  if pixperlod ≤ 0 then .error .typeError
  else if pixperpupil ≤ 0 then .error .typeError
  else if o0 ≤ 0 then .error .typeError
  else if o1 ≤ 0 then .error .typeError
  else .ok ()

/-- `np.dot(np.dot(rowmult, e), colmult)*drow*dcol` with `rowmult = exp(s 2πi outer(rowpp, row))` and
`colmult = exp(s 2πi outer(col, colpp))`; `s = -1` forward (`coralign/util/mft.py` lines 60-63, 141-144), `s = 1`
backward (196-199). -/
noncomputable def mftProduct (s : ℝ) (e : Arr2 ℂ) (o0 o1 : ℕ) (row col rowpp colpp : ℕ → ℝ) (drow dcol : ℝ) : Arr2 ℂ :=
  ⟨o0, o1, fun p q =>
    (∑ j : Fin e.nc, (∑ i : Fin e.nr, cis (s * (rowpp p * row i)) * e.val i j) * cis (s * (col j * colpp q)))
      * (drow : ℂ) * (dcol : ℂ)⟩

/-- `do_mft`, `coralign/util/mft.py` lines 36-64. -/
noncomputable def doMft (e : Arr2 ℂ) (o0 o1 : ℤ) (pixperlod pixperpupil : ℝ) : Res (Arr2 ℂ) := do
  mftChecks o0 o1 pixperlod pixperpupil
  let (row, drow) ← mftInterval (e.nr / pixperpupil) e.nr
  let (col, dcol) ← mftInterval (e.nc / pixperpupil) e.nc
  let (rowpp, _) ← mftInterval (o0 / pixperlod) o0
  let (colpp, _) ← mftInterval (o1 / pixperlod) o1
  .ok (mftProduct (-1) e o0.toNat o1.toNat row col rowpp colpp drow dcol)

/-- Length of `v[lo:lo+n]` for a vector of length `len` and `lo ≥ 0`. -/
def cropLen (len lo n : ℕ) : ℕ := min (lo + n) len - min lo len

/-- `do_offcenter_mft`, `coralign/util/mft.py` lines 97-144.  `ps0, ps1` is `pupilShape` and `y0, x0` is `yxLowerLeft`.
Lines 133-134 crop the coordinate vectors; when the crop is shorter than the field, `np.dot` (line 144) raises
`ValueError`. -/
noncomputable def doOffcenterMft (e : Arr2 ℂ) (o0 o1 : ℤ) (pixperlod pixperpupil : ℝ) (ps0 ps1 y0 x0 : ℤ) :
    Res (Arr2 ℂ) := do
  mftChecks o0 o1 pixperlod pixperpupil
  if ps0 ≤ 0 ∨ ps1 ≤ 0 then .error .typeError else
  if y0 < 0 ∨ x0 < 0 then .error .typeError else do
  let (row, drow) ← mftInterval (ps0 / pixperpupil) ps0
  let (col, dcol) ← mftInterval (ps1 / pixperpupil) ps1
  let (rowpp, _) ← mftInterval (o0 / pixperlod) o0
  let (colpp, _) ← mftInterval (o1 / pixperlod) o1
  if cropLen ps0.toNat y0.toNat e.nr ≠ e.nr ∨ cropLen ps1.toNat x0.toNat e.nc ≠ e.nc then .error .valueError
  else .ok (mftProduct (-1) e o0.toNat o1.toNat (fun i => row (y0.toNat + i)) (fun j => col (x0.toNat + j))
    rowpp colpp drow dcol)

/-- `do_imft`, `coralign/util/mft.py` lines 173-200. -/
noncomputable def doImft (e : Arr2 ℂ) (o0 o1 : ℤ) (pixperlod pixperpupil : ℝ) : Res (Arr2 ℂ) := do
  mftChecks o0 o1 pixperlod pixperpupil
  let (row, drow) ← mftInterval (e.nr / pixperlod) e.nr
  let (col, dcol) ← mftInterval (e.nc / pixperlod) e.nc
  let (rowpp, _) ← mftInterval (o0 / pixperpupil) o0
  let (colpp, _) ← mftInterval (o1 / pixperpupil) o1
  .ok (mftProduct 1 e o0.toNat o1.toNat row col rowpp colpp drow dcol)

end Coralign
