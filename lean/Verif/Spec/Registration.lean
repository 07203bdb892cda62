import Mathlib.Analysis.SpecialFunctions.Trigonometric.Basic

/-!
# Where a mirror appears on the camera

`dmhtoph.py` lines 43-50 and 71-86 describe the registration of a mirror in words; this is that description.
-/

namespace Coralign.Spec

/-- The point `v` pixels right of and `u` pixels above the centre of the mirror appears `l` pixels right of and `k` pixels above the
centre of the camera: the mirror is reversed left to right if `flipx`, turned counterclockwise by `th` degrees about its centre, and moved
by `dx` to the right and `dy` up. -/
structure AppearsAt (flipx : Bool) (th dx dy u v k l : ℝ) : Prop where
  col : l = dx + (Real.cos (th * Real.pi / 180) * (if flipx = true then -v else v) - Real.sin (th * Real.pi / 180) * u)
  row : k = dy + (Real.sin (th * Real.pi / 180) * (if flipx = true then -v else v) + Real.cos (th * Real.pi / 180) * u)

end Coralign.Spec
