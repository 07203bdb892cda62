import Verif.Model.DmReg

/-!
# Specification vocabulary for noise-free registration data
-/

namespace Coralign.Spec
open Coralign

/-- Noise-free measurements of a mirror whose surface changes by `surf`: on every usable pixel the change of the phase is twice the change
of the surface plus some piston, tip and tilt, known up to whole turns, and the change itself is less than half a turn. -/
def NoiseFree (d : PhaseData) (surf : Arr2 ℝ) : Prop :=
  ∃ p q r : ℝ, ∀ i j : ℤ, d.usable.px i j = some true → ∃ k : ℤ,
    d.ph1.zext i j - d.ph0.zext i j = 2 * surf.zext i j + (p + q * i + r * j) + 2 * Real.pi * k ∧
    -Real.pi < 2 * surf.zext i j + (p + q * i + r * j) ∧ 2 * surf.zext i j + (p + q * i + r * j) ≤ Real.pi

/-- Sum of the absolute values over the usable pixels. -/
noncomputable def totalHeight (usable : Arr2 Bool) (a : Arr2 ℝ) : ℝ :=
  ∑ p : Fin usable.nr × Fin usable.nc, if usable.val p.1 p.2 = true then |a.zext p.1 p.2| else 0

/-- Over the usable pixels the map has no piston, tip or tilt. -/
def Flat (usable : Arr2 Bool) (a : Arr2 ℝ) : Prop :=
  ∀ p q r : ℝ, ∑ i : Fin usable.nr, ∑ j : Fin usable.nc,
    (if usable.val i j = true then (p + q * ((i : ℕ) : ℝ) + r * ((j : ℕ) : ℝ)) * a.zext (i : ℕ) (j : ℕ) else 0) = 0

end Coralign.Spec
