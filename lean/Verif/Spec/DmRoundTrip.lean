import Verif.Model.Conjugate
import Verif.Props.FitSurf

/-!
# Specification for C87
-/

namespace Coralign.Spec

open Coralign Coralign.Props

/-- A mirror of `n` by `n` actuators whose influence function, `P` samples per actuator, is odd in size, unchanged by half a turn, and
independent enough for the commands to be determined by the surface at the actuators. -/
structure MirrorOk (S : Spline) (dm : DmCal) (n P : ℕ) : Prop where
  nact : dm.nact = n
  some : 1 ≤ n
  pitch : 0 < dm.pitch
  cx : 0 < dm.ppactCx
  cy : 0 < dm.ppactCy
  samples : dm.ppactD = P
  sampled : 1 ≤ P
  square : dm.inf.nr = dm.inf.nc
  odd : dm.inf.nr % 2 = 1
  enough : P = 1 ∨ 4 ≤ dm.inf.nr
  symmetric : HalfTurnSymmetric dm.inf
  regular : FitRegular S n n dm.inf P

/-- Every actuator is centred on a pixel: actuator `(i, j)` is `row i` pixels above and `col j` pixels right of the centre of the mirror. -/
structure OnPixels (dm : DmCal) (n : ℕ) (row col : ℕ → ℤ) : Prop where
  row : ∀ i, i < n → ((row i : ℤ) : ℝ) / dm.ppactCy = (i : ℝ) - ((n : ℝ) - 1) / 2
  col : ∀ j, j < n → ((col j : ℤ) : ℝ) / dm.ppactCx = (j : ℝ) - ((n : ℝ) - 1) / 2

/-- The registrations for which the reversal, the turn and the translation may be undone in any order: no turn, and no translation across a
reversed axis; or neither reversal nor translation. -/
def Commutes (flipx : Bool) (th : ℝ) (dx dy : ℤ) : Prop := (th = 0 ∧ (flipx = true → dx = 0)) ∨ (flipx = false ∧ dx = 0 ∧ dy = 0)

end Coralign.Spec
