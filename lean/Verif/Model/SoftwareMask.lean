import Verif.Base.Morph
import Verif.Model.AmpThresh
import Verif.Model.DrUtil

/-!
# Model of `calc_software_mask` in `coralign/dmreg/dmreg.py`
-/

namespace Coralign

/-- `a - b` for arrays of one shape (the shapes are checked before it is used). -/
def Arr2.subPx (a b : Arr2 ℝ) : Arr2 ℝ :=
  ⟨a.nr, a.nc, fun i j => a.val i j - (b.px (i : ℕ) (j : ℕ)).getD 0⟩

/-- `usablePixelMap[np.abs(phDiff) > thresh] = False`, `coralign/dmreg/dmreg.py` line 86. -/
noncomputable def dropLarge (m : Arr2 Bool) (ph : Arr2 ℝ) (thresh : ℝ) : Arr2 Bool :=
  ⟨m.nr, m.nc, fun i j =>
    open Classical in
    if thresh < |(ph.px (i : ℕ) (j : ℕ)).getD 0| then false else m.val i j⟩

/-- `calc_software_mask`, `coralign/dmreg/dmreg.py` lines 61-93.  Lines 65-76: shape and argument checks; 78
phase difference; 81 amplitude threshold with the default 21 bins; 82 piston/tip/tilt removal; 86 phase threshold;
90-91 erosion. -/
noncomputable def calcSoftwareMask (S : Solver) (amp0 ph0 amp1 ph1 : Arr2 ℝ) (whichDM nErode : ℤ)
    (deltaPhaseThresh : ℝ) : Res (Arr2 Bool) :=
  if amp0.nr ≠ ph0.nr ∨ amp0.nc ≠ ph0.nc then .error .valueError
  else if amp0.nr ≠ amp1.nr ∨ amp0.nc ≠ amp1.nc then .error .valueError
  else if ph0.nr ≠ ph1.nr ∨ ph0.nc ≠ ph1.nc then .error .valueError
  else if ¬ (whichDM = 1 ∨ whichDM = 2) then .error .valueError
  else if nErode < 0 then .error .valueError
  else if deltaPhaseThresh ≤ 0 then .error .valueError
  else
    match ampthresh amp0 21 with
    | .error e => .error e
    | .ok t =>
      match removePistonTipTilt S (ph1.subPx ph0) t with
      | .error e => .error e
      | .ok r => .ok (erode (dropLarge t r deltaPhaseThresh) (squareElem nErode.toNat))

end Coralign
