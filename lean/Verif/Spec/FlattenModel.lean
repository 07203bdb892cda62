import Verif.Spec.DmRoundTrip
import Verif.Spec.Registration
import Verif.Spec.Window
import Verif.Model.Dmhtoph
import Verif.Model.DmShapes

/-!
# Specification vocabulary for the deformable mirrors as the rest of the package models them
-/

namespace Coralign.Spec

open Coralign

/-- The surface that the model of the mirror predicts for the commands `cmd`: heights from the commands, then `dmhtoph` on an array of
`nrow` by `ncol` pixels. -/
def ModelSurface (S : Spline) (R : Rotate) (T : Shift) (dm : DmCal) (P : ℕ) (lam : ℝ) (nrow ncol : ℤ) (cmd A : Arr2 ℝ) : Prop :=
  ∃ h, voltsToDmh dm.gain cmd lam = .ok h ∧
    dmhtoph S R T nrow ncol h dm.nact dm.inf P dm.ppactCx dm.ppactCy dm.dx dm.dy dm.thact dm.flipx = .ok A

/-- A mirror every actuator of which is centred on a pixel of the `m` by `m` array, and whose flip, rotation and
offset commute. -/
structure MirrorSeen (S : Spline) (dm : DmCal) (n P : ℕ) (dx dy : ℤ) (row col : ℕ → ℤ) (m : ℤ) : Prop where
  ok : MirrorOk S dm n P
  xoff : dm.dx = dx
  yoff : dm.dy = dy
  commutes : Commutes dm.flipx dm.thact dx dy
  on : OnPixels dm n row col
  inside : ∀ i j, i < n → j < n → Reaches m m (row i + dy) (col j + dx)
  gain : ∀ i j : ℕ, i < n → j < n → dm.gain.zext i j ≠ 0

/-- Pixel `(k, l)` shows actuator `(i, j)` of the mirror, and `dmhtoph` evaluates it inside its working array. -/
structure ShowsActuator (dm : DmCal) (n P : ℕ) (dx dy : ℤ) (row col : ℕ → ℤ) (i j : ℕ) (k l : ℤ) : Prop where
  rows : i < n
  cols : j < n
  appears : AppearsAt dm.flipx dm.thact dx dy (row i) (col j) k l
  nearRow : 2 * |(k : ℝ)| ≤ Real.sqrt 2 * (n + dm.inf.nr / P) * max dm.ppactCx dm.ppactCy
  nearCol : 2 * |(l : ℝ)| ≤ Real.sqrt 2 * (n + dm.inf.nr / P) * max dm.ppactCx dm.ppactCy

end Coralign.Spec
