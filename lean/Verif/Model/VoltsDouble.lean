import Verif.Model.Conjugate
import Verif.Base.DoubleRel

/-!
# `dmh_to_volts`, `volts_to_dmh` and the new commands of `flatten` in double precision

`Verif.Model.DmShapes` and `Verif.Model.Conjugate` read the arithmetic of these lines as arithmetic of real numbers.  Here every operation on floats
is followed by the rounding `double`, in the order in which Python evaluates it, for maps stored as doubles.  Not modelled: overflow, infinities
(a zero gain), NaN and negative zero.
-/

namespace Coralign

/-- One entry of `dmh*lam/(2.0*np.pi)/gainmap`, `dmhtoph.py` line 199. -/
noncomputable def voltsOfD (g h lam : ℝ) : ℝ := double (double (double (h * lam) / double (2 * piD)) / g)

/-- One entry of `volts/lam*(2.0*np.pi)*gainmap`, `dmhtoph.py` line 230. -/
noncomputable def dmhOfD (g v lam : ℝ) : ℝ := double (double (double (v / lam) * double (2 * piD)) * g)

open scoped Classical in
/-- `dmh_to_volts(gainmap, dmh, lam)`, `dmhtoph.py` lines 171-199. -/
noncomputable def dmhToVoltsD (gainmap dmh : Arr2 ℝ) (lam : ℝ) : Res (Arr2 ℝ) :=
  if lam ≤ 0 then .error .typeError
  else if h : dmh.nr = gainmap.nr ∧ dmh.nc = gainmap.nc then
    .ok ⟨dmh.nr, dmh.nc, fun i j => voltsOfD (gainmap.val (i.cast h.1) (j.cast h.2)) (dmh.val i j) lam⟩
  else .error .typeError

open scoped Classical in
/-- `volts_to_dmh(gainmap, volts, lam)`, `dmhtoph.py` lines 202-230. -/
noncomputable def voltsToDmhD (gainmap volts : Arr2 ℝ) (lam : ℝ) : Res (Arr2 ℝ) :=
  if lam ≤ 0 then .error .typeError
  else if h : volts.nr = gainmap.nr ∧ volts.nc = gainmap.nc then
    .ok ⟨volts.nr, volts.nc, fun i j => dmhOfD (gainmap.val (i.cast h.1) (j.cast h.2)) (volts.val i j) lam⟩
  else .error .typeError

/-- `cmdDM1 - deltaCmdDM1`, `conjugate.py` lines 274-275. -/
noncomputable def subCmdD (cmd delta : Arr2 ℝ) : Res (Arr2 ℝ) :=
  if h : cmd.nr = delta.nr ∧ cmd.nc = delta.nc then
    .ok ⟨cmd.nr, cmd.nc, fun i j => double (cmd.val i j - delta.val (i.cast h.1) (j.cast h.2))⟩
  else .error .valueError

open scoped Classical in
/-- `int(round(cmdFCM + zernCoefVec[3]*lam/(2*np.pi)/focusPerStroke/strokePerStep))`, `conjugate.py` lines 278-280. -/
noncomputable def fcmStepD (useFCM : Bool) (cmdFCM : ℤ) (z4 lam : ℝ) (fc : FcmCal) : Res ℤ :=
  if useFCM = true then
    if fc.focusPerStroke = 0 ∨ fc.strokePerStep = 0 then .error (.user 1)
    else .ok (npRound (double (double (cmdFCM : ℝ) +
      double (double (double (double (z4 * lam) / double (2 * piD)) / fc.focusPerStroke) / fc.strokePerStep))))
  else .ok cmdFCM

end Coralign
