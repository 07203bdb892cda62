import Verif.Model.Mft
import Verif.Base.DoubleDot

/-!
# `coralign/util/mft.py` in double precision

`np.dot` may add in any order and with or without fused multiply-add, and `np.exp` has an error of its own: both are parameters.
-/

namespace Coralign

/-- The numerical routines: real dot products, and `np.exp` of an imaginary number `iθ`. -/
structure MftRoutines where
  dot : List (ℝ × ℝ) → ℝ
  expI : ℝ → ℂ

/-- `_interval(width, npts)`, `coralign/util/mft.py` lines 216-221, every operation rounded. -/
noncomputable def mftIntervalD (width : ℝ) (npts : ℤ) : Res ((ℕ → ℝ) × ℝ) :=
  if width ≤ 0 then .error .typeError
  else if npts ≤ 0 then .error .typeError
  else
    let dx := double (width / npts)
    .ok (fun k => double (((-(npts / 2) + k : ℤ) : ℝ) * dx), dx)

/-- `np.exp(s*2.*np.pi*1j*(x*y))` for one element of `np.outer`, with `s = ±1`: the two products and `np.pi` are rounded. -/
noncomputable def mftFactorD (R : MftRoutines) (s x y : ℝ) : ℂ := R.expI (double (s * (2 * double Real.pi) * double (x * y)))

/-- Multiplication of a complex number by a real one, both parts rounded. -/
noncomputable def scaleD (z : ℂ) (c : ℝ) : ℂ := ⟨double (z.re * c), double (z.im * c)⟩

/-- `np.dot(np.dot(rowmult, e), colmult)*drow*dcol`, `coralign/util/mft.py` lines 60-63, 141-144 (`s = -1`) and 196-199 (`s = 1`), in double precision. -/
noncomputable def mftProductD (R : MftRoutines) (s : ℝ) (e : Arr2 ℂ) (o0 o1 : ℕ) (row col rowpp colpp : ℕ → ℝ) (drow dcol : ℝ) : Arr2 ℂ :=
  ⟨o0, o1, fun p q =>
    let temp : Fin e.nc → ℂ := fun j => complexDot R.dot ((List.finRange e.nr).map fun (i : Fin e.nr) => (mftFactorD R s (rowpp p) (row i), e.val i j))
    let out := complexDot R.dot ((List.finRange e.nc).map fun (j : Fin e.nc) => (temp j, mftFactorD R s (col j) (colpp q)))
    scaleD (scaleD out drow) dcol⟩

/-- `do_mft`, `coralign/util/mft.py` lines 36-64, in double precision. -/
noncomputable def doMftD (R : MftRoutines) (e : Arr2 ℂ) (o0 o1 : ℤ) (pixperlod pixperpupil : ℝ) : Res (Arr2 ℂ) := do
  mftChecks o0 o1 pixperlod pixperpupil
  let (row, drow) ← mftIntervalD (double (e.nr / pixperpupil)) e.nr
  let (col, dcol) ← mftIntervalD (double (e.nc / pixperpupil)) e.nc
  let (rowpp, _) ← mftIntervalD (double (o0 / pixperlod)) o0
  let (colpp, _) ← mftIntervalD (double (o1 / pixperlod)) o1
  .ok (mftProductD R (-1) e o0.toNat o1.toNat row col rowpp colpp drow dcol)

/-- `do_imft`, `coralign/util/mft.py` lines 173-200, in double precision. -/
noncomputable def doImftD (R : MftRoutines) (e : Arr2 ℂ) (o0 o1 : ℤ) (pixperlod pixperpupil : ℝ) : Res (Arr2 ℂ) := do
  mftChecks o0 o1 pixperlod pixperpupil
  let (row, drow) ← mftIntervalD (double (e.nr / pixperlod)) e.nr
  let (col, dcol) ← mftIntervalD (double (e.nc / pixperlod)) e.nc
  let (rowpp, _) ← mftIntervalD (double (o0 / pixperpupil)) o0
  let (colpp, _) ← mftIntervalD (double (o1 / pixperpupil)) o1
  .ok (mftProductD R 1 e o0.toNat o1.toNat row col rowpp colpp drow dcol)

/-- `do_offcenter_mft`, `coralign/util/mft.py` lines 97-144, in double precision. -/
noncomputable def doOffcenterMftD (R : MftRoutines) (e : Arr2 ℂ) (o0 o1 : ℤ) (pixperlod pixperpupil : ℝ) (ps0 ps1 y0 x0 : ℤ) : Res (Arr2 ℂ) := do
  mftChecks o0 o1 pixperlod pixperpupil
  if ps0 ≤ 0 ∨ ps1 ≤ 0 then .error .typeError else
  if y0 < 0 ∨ x0 < 0 then .error .typeError else do
  let (row, drow) ← mftIntervalD (double (ps0 / pixperpupil)) ps0
  let (col, dcol) ← mftIntervalD (double (ps1 / pixperpupil)) ps1
  let (rowpp, _) ← mftIntervalD (double (o0 / pixperlod)) o0
  let (colpp, _) ← mftIntervalD (double (o1 / pixperlod)) o1
  if cropLen ps0.toNat y0.toNat e.nr ≠ e.nr ∨ cropLen ps1.toNat x0.toNat e.nc ≠ e.nc then .error .valueError
  else .ok (mftProductD R (-1) e o0.toNat o1.toNat (fun i => row (y0.toNat + i)) (fun j => col (x0.toNat + j)) rowpp colpp drow dcol)

end Coralign
