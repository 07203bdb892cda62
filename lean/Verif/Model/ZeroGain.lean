import Verif.Model.Conjugate
import Verif.Model.BadPixels

/-!
# Voltages and commands at actuators of gain zero

`Model/DmShapes` and `Model/Conjugate` divide in the real numbers.  Numpy divides by a zero gain without raising and gives NaN
(`0/0`) or an infinity.  Here `dmh_to_volts` and the last steps of `flatten` are modelled with that outcome: `Fl.nan` stands for
every result that is not a finite number.
-/

namespace Coralign

/-- One entry of `dmh*lam/(2.0*np.pi)/gainmap`, `dmhtoph.py` line 199. -/
noncomputable def voltsOfF (g h lam : ℝ) : Fl ℝ := Fl.quot (.num (h * lam / (2 * Real.pi))) (.num g)

open scoped Classical in
/-- `dmh_to_volts(gainmap, dmh, lam)`, `dmhtoph.py` lines 171-199. -/
noncomputable def dmhToVoltsF (gainmap dmh : Arr2 ℝ) (lam : ℝ) : Res (Arr2 (Fl ℝ)) :=
  if lam ≤ 0 then .error .typeError
  else if h : dmh.nr = gainmap.nr ∧ dmh.nc = gainmap.nc then
    .ok ⟨dmh.nr, dmh.nc, fun i j => voltsOfF (gainmap.val (i.cast h.1) (j.cast h.2)) (dmh.val i j) lam⟩
  else .error .typeError

/-- `cmd - delta`, `conjugate.py` lines 274-275; the same simplification as in `subCmd`. -/
noncomputable def subCmdF (cmd : Arr2 ℝ) (delta : Arr2 (Fl ℝ)) : Res (Arr2 (Fl ℝ)) :=
  if h : cmd.nr = delta.nr ∧ cmd.nc = delta.nc then
    .ok ⟨cmd.nr, cmd.nc, fun i j => .num (cmd.val i j) + (delta.val (i.cast h.1) (j.cast h.2)).neg⟩
  else .error .valueError

/-- What `flatten` returns. -/
structure FlattenOutF (N : ℕ) where
  cmd1 : Arr2 (Fl ℝ)
  cmd2 : Arr2 (Fl ℝ)
  fcm : ℤ
  coefs : Fin N → ℝ

open scoped Classical in
/-- `flatten(...)`, `conjugate.py` lines 24-282, as in `Model/Conjugate` but with the divisions of lines 268 and 272 as numpy does
them. -/
noncomputable def flattenF (E : FlattenEnv) (cmd1 cmd2 : Arr2 ℝ) (cmdFCM : ℤ) (useDMs useFCM highZern : Bool) (lam : ℝ)
    (amp ph : Arr2 ℝ) (diam xo yo : ℝ) (dm1 dm2 : DmCal) (fc : FcmCal) (cfg : FlattenCfg) :
    Res (FlattenOutF cfg.maxNoll.toNat) :=
  if cmd1.nr ≠ cmd1.nc ∨ cmd2.nr ≠ cmd2.nc ∨ lam ≤ 0 then .error .valueError
  else do
    let wk ← flattenSurfaces E useDMs useFCM highZern amp ph diam xo yo dm1 dm2 cfg
    let h1 ← convSurfToDmCmd E.spline E.rotate E.spsolve wk.surf1 dm1
    let h2 ← convSurfToDmCmd E.spline E.rotate E.spsolve wk.surf2 dm2
    let hh ← reassign h1 h2 dm1.nact.toNat dm2.nact.toNat dm1.tie dm2.tie
    let d1 ← dmhToVoltsF dm1.gain hh.1 lam
    let d2 ← dmhToVoltsF dm2.gain hh.2 lam
    let o1 ← subCmdF cmd1 d1
    let o2 ← subCmdF cmd2 d2
    let f ← fcmStep useFCM cmdFCM (((List.ofFn wk.coefs)[3]?).getD 0) lam fc
    .ok ⟨o1, o2, f, wk.coefs⟩

end Coralign
