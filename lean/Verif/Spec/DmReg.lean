import Verif.Model.DmReg
import Verif.Spec.Search

/-!
# Specification vocabulary for the DM registration
-/

namespace Coralign.Spec

open Coralign

/-- Sum of the absolute differences over the usable pixels. -/
noncomputable def totalMisfit (usable : Arr2 Bool) (a b : Arr2 ℝ) : ℝ :=
  ∑ p : Fin usable.nr × Fin usable.nc, if usable.val p.1 p.2 = true then |a.zext p.1 p.2 - b.zext p.1 p.2| else 0

/-- The change of phase a data set records: in every pixel the change of the phase, taken within half a turn, and then without piston, tip and tilt
over the usable pixels. -/
def IsMeasured (S : Solver) (d : PhaseData) (meas : Arr2 ℝ) : Prop :=
  ∃ diff : Arr2 ℝ, diff.nr = d.usable.nr ∧ diff.nc = d.usable.nc ∧
    (∀ i j v, diff.px i j = some v → (-Real.pi < v ∧ v ≤ Real.pi) ∧ ∃ k : ℤ, d.ph1.zext i j - d.ph0.zext i j = v + 2 * Real.pi * k) ∧
    removePistonTipTilt S diff d.usable = .ok meas

/-- `F th x y` is the misfit between the measured phase and twice the simulated surface, both without piston, tip and tilt, for the DM
displaced by `(x, y)` and clocked by `th`. -/
def IsOffsetMisfit (Sp : Spline) (R : Rotate) (T : Shift) (S : Solver) (usable : Arr2 Bool) (meas dmrad : Arr2 ℝ) (c : DmReg)
    (F : ℝ → ℝ → ℝ → ℝ) : Prop :=
  ∀ th x y, ∃ surf sim, dmhtoph Sp R T usable.nr usable.nc dmrad c.nact c.inf c.ppactD c.cx c.cy x y th c.flipx = .ok surf ∧
    removePistonTipTilt S (surf.map fun v : ℝ => v * 2) usable = .ok sim ∧ F th x y = totalMisfit usable meas sim

/-- `G x y th` is the misfit between the measured phase and the simulated surface itself. -/
def IsClockMisfit (Sp : Spline) (R : Rotate) (T : Shift) (usable : Arr2 Bool) (meas dmrad : Arr2 ℝ) (c : DmReg)
    (G : ℝ → ℝ → ℝ → ℝ) : Prop :=
  ∀ x y th, ∃ surf, dmhtoph Sp R T usable.nr usable.nc dmrad c.nact c.inf c.ppactD c.cx c.cy x y th c.flipx = .ok surf ∧
    G x y th = totalMisfit usable meas surf

/-- `H sx sy` is the misfit between the measured phase and twice the surface simulated with `sx` and `sy` times the pixels per actuator of
the calibration, for a square image. -/
def IsScaleMisfit (Sp : Spline) (R : Rotate) (T : Shift) (S : Solver) (usable : Arr2 Bool) (meas dmrad : Arr2 ℝ) (c : DmReg)
    (dx dy th : ℝ) (A : ℝ → ℝ → Prop) (H : ℝ → ℝ → ℝ) : Prop :=
  ∀ sx sy, A sx sy → ∃ surf sim, dmhtoph Sp R T usable.nr usable.nc dmrad c.nact c.inf c.ppactD (sx * c.cx) (sy * c.cy) dx dy th false = .ok surf ∧
    removePistonTipTilt S (surf.map fun v : ℝ => v * 2) usable = .ok sim ∧ H sx sy = totalMisfit usable meas sim

/-- Around the scale factors `(sx, sy)`, with relative changes up to `delta`, the misfit is defined (`A`) and is a paraboloid of the relative
changes whose centre corresponds to the scale factors `(X0, Y0)`. -/
structure ScaleGrid (A : ℝ → ℝ → Prop) (H : ℝ → ℝ → ℝ) (n : ℕ) (X0 Y0 sx sy delta : ℝ) : Prop where
  nonzero : sx ≠ 0 ∧ sy ≠ 0
  defined : ∀ u ∈ trials n (2 * delta / (n - 1)) 1, ∀ v ∈ trials n (2 * delta / (n - 1)) 1, A (u * sx) (v * sy)
  quadratic : Paraboloid (fun u v => H (u * sx) (v * sy)) (trials n (2 * delta / (n - 1)) 1) (trials n (2 * delta / (n - 1)) 1) (X0 / sx) (Y0 / sy)

/-- The grids a scale search with `nIter` iterations can meet: around the starting scale, around the best point of that grid, and around the
centre. -/
def ScaleSearch (A : ℝ → ℝ → Prop) (H : ℝ → ℝ → ℝ) (n : ℕ) (s delta : ℝ) (nIter : ℕ) (X0 Y0 : ℝ) : Prop :=
  (nIter = 1 → ScaleGrid A H n X0 Y0 1 1 delta) ∧
  (1 < nIter → ∀ sx ∈ trials n (2 * delta / (n - 1)) 1, ∀ sy ∈ trials n (2 * delta / (n - 1)) 1,
    A sx sy ∧ ScaleGrid A H n X0 Y0 sx sy (s * delta)) ∧
  ∀ k, 2 ≤ k → k < nIter → ScaleGrid A H n X0 Y0 X0 Y0 (s ^ k * delta)

end Coralign.Spec
