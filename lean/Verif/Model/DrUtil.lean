import Verif.Base.LeastSq
import Verif.Base.Arr2

/-!
# Model of `coralign/dmreg/dr_util.py`
-/

namespace Coralign

/-- `np.arange(-n/2., n/2.)/n`, `coralign/dmreg/dr_util.py` lines 33-34. -/
noncomputable def pttCoord (n : ℕ) (i : Fin n) : ℝ := (-(n : ℝ) / 2 + (i : ℕ)) / n

/-- The pixels selected by a boolean mask given as a function. -/
abbrev Selected {n m : ℕ} (k : Fin n → Fin m → Bool) : Type := {p : Fin n × Fin m // k p.1 p.2 = true}

/-- The least-squares plane coefficients `(a, b, c)` on the masked pixels, lines 36-50. -/
noncomputable def pttCoeffs (S : Solver) {n m : ℕ} (v : Fin n → Fin m → ℝ) (k : Fin n → Fin m → Bool) :
    Fin 3 → ℝ :=
  S.solve (ι := Selected k) (fun q => ![pttCoord m q.1.2, pttCoord n q.1.1, 1]) (fun q => v q.1.1 q.1.2)

/-- `maskBool * (arrayToFit - (a*X + b*Y + c*ONES))`, line 51. -/
noncomputable def pttValues (S : Solver) {n m : ℕ} (v : Fin n → Fin m → ℝ) (k : Fin n → Fin m → Bool)
    (i : Fin n) (j : Fin m) : ℝ :=
  let p := pttCoeffs S v k
  if k i j then v i j - (p 0 * pttCoord m j + p 1 * pttCoord n i + p 2) else 0

/-- `remove_piston_tip_tilt`, `coralign/dmreg/dr_util.py` lines 24-53, for a boolean mask. -/
noncomputable def removePistonTipTilt (S : Solver) (arr : Arr2 ℝ) (mask : Arr2 Bool) : Res (Arr2 ℝ) :=
  if h : arr.nr = mask.nr ∧ arr.nc = mask.nc then
    .ok ⟨arr.nr, arr.nc, pttValues S arr.val fun i j => mask.val (i.cast h.1) (j.cast h.2)⟩
  else .error .valueError

end Coralign
