import Verif.Model.DrUtil
import Verif.Model.PadCrop
import Verif.Model.PsfFit
import Verif.Model.Unwrap

/-!
# Model of `fit_z_induced_spm_shear` in `coralign/pupil/maskfit.py`
-/

namespace Coralign

/-- numpy's rule for the length of one axis of `a - b`: equal lengths, or one of them 1. -/
def bcastAxis (a b : ℕ) : Option ℕ := if a = b then some a else if a = 1 then some b else if b = 1 then some a else none

/-- The pixel of `a` that is paired with row `i`, column `j` of the broadcast result. -/
def Arr2.bcastPx (a : Arr2 ℝ) (i j : ℕ) : ℝ := a.zext ((if a.nr = 1 then 0 else i : ℕ) : ℤ) ((if a.nc = 1 then 0 else j : ℕ) : ℤ)

/-- `a - b` for two 2-D arrays, with numpy's broadcasting; used at `coralign/pupil/maskfit.py` lines 358 and 362. -/
noncomputable def npSub (a b : Arr2 ℝ) : Res (Arr2 ℝ) :=
  match bcastAxis a.nr b.nr, bcastAxis a.nc b.nc with
  | some n, some m => .ok ⟨n, m, fun i j => a.bcastPx i j - b.bcastPx i j⟩
  | _, _ => .error .valueError

/-- `swMask*phDiff`, line 368, for arrays of the same shape. -/
def maskTimes (mask : Arr2 Bool) (a : Arr2 ℝ) : Arr2 ℝ := ⟨a.nr, a.nc, fun i j => if mask.px (i : ℕ) (j : ℕ) = some true then a.val i j else 0⟩

/-- Lines 358-360 (and 362-364): the unwrapped phase change without piston, tip and tilt, and its mask.  The unwrapper is called with its
defaults: 21 bins, fill value 0, minimum size 64, mask from the amplitude. -/
noncomputable def pokePhase (U : Unwrapper) (R : SmallRemover) (S : Solver) (amp unpoked poked : Arr2 ℝ) : Res (Arr2 ℝ × Arr2 Bool) := do
  let d ← npSub poked unpoked
  let um ← unwrap U R d amp 21 0 64 true none
  let r ← removePistonTipTilt S um.1 um.2
  .ok (r, um.2)

/-- `fit_z_induced_spm_shear(ampUnpoked0, phUnpoked0, phPoked0, ampUnpoked1, phUnpoked1, phPoked1, fnConfig)`,
`coralign/pupil/maskfit.py` lines 327-372, once the configuration of `psffit` has been read.  The answer is `(x, y)`.
Line 348 compares the shape of `phPoked1` with `shape0`, as in the source.  Simplification: only the six shape checks can fail among the
argument checks, because arrays are 2-D and real by type; plotting is left out. -/
noncomputable def fitSpmShear (U : Unwrapper) (R : SmallRemover) (S : Solver) (T : Shift) (cfg : PsfConfig)
    (amp0 unpoked0 poked0 amp1 unpoked1 poked1 : Arr2 ℝ) : Res (ℝ × ℝ) :=
  if unpoked0.nr ≠ amp0.nr ∨ unpoked0.nc ≠ amp0.nc then .error .valueError
  else if poked0.nr ≠ amp0.nr ∨ poked0.nc ≠ amp0.nc then .error .valueError
  else if unpoked1.nr ≠ amp1.nr ∨ unpoked1.nc ≠ amp1.nc then .error .valueError
  else if poked1.nr ≠ amp0.nr ∨ poked1.nc ≠ amp0.nc then .error .valueError
  else do
    let r0 ← pokePhase U R S amp0 unpoked0 poked0
    let r1 ← pokePhase U R S amp1 unpoked1 poked1
    let ph1 ← padCrop r1.1 [(amp0.nr : ℤ), (amp0.nc : ℤ)] 0
    let m1 ← padCrop r1.2 [(amp0.nr : ℤ), (amp0.nc : ℤ)] false
    let s ← psffit T cfg (maskTimes r0.2 r0.1) (maskTimes m1 ph1)
    .ok (s.1.2, s.1.1)

end Coralign
