import Verif.Base.Arr2
import Verif.Model.Math
import Mathlib.Analysis.SpecialFunctions.Trigonometric.Basic

/-!
# Model of `coralign/util/shapes.py`

Arrays and scalars are over the reals.  Array sizes and sub-pixel counts are integers, so the scalar type checks of
`check.py` are reduced to their range tests (their full behaviour is the subject of `Model/Check`).
`rect_proper` (lines 369-532) is in Model/RectProper.lean.
-/

namespace Coralign

/-- `np.linspace(a, b, n)[k]`. -/
noncomputable def linspace (a b : ℝ) (n k : ℕ) : ℝ := a + k * ((b - a) / ((n : ℝ) - 1))

/-- Coordinate `k` along an axis of length `n`: lines 113-121 (the same lines appear in every shape: 204-212, 303-311,
593-600). -/
noncomputable def shapeAxis (n : ℕ) (off : ℝ) (k : ℕ) : ℝ :=
  if n % 2 = 0 then linspace (-((n : ℝ) / 2)) ((n : ℝ) / 2 - 1) n k - off
  else linspace (-(((n : ℝ) - 1) / 2)) (((n : ℝ) - 1) / 2) n k - off

/-- Sub-pixel coordinate `s` of `nSub`, for sub-pixel pitch `d`: lines 134-136. -/
noncomputable def subAxis (nSub : ℕ) (d : ℝ) (s : ℕ) : ℝ :=
  linspace (-(((nSub : ℝ) - 1) / 2)) (((nSub : ℝ) - 1) / 2) nSub s * d

open scoped Classical in
/-- The mean of the binary sub-pixels of the pixel centred on `(xc, yc)`: lines 144-155. -/
noncomputable def subMean (nSub : ℕ) (d : ℝ) (P : ℝ → ℝ → Prop) (xc yc : ℝ) : ℝ :=
  (∑ a : Fin nSub, ∑ b : Fin nSub, if P (subAxis nSub d b + xc) (subAxis nSub d a + yc) then (1 : ℝ) else 0) /
    ((nSub : ℝ) * nSub)

open scoped Classical in
/-- The value the rasterisation loop, lines 128-155, gives the pixel centred on `(x, y)`: it starts at `-1`, is set to `1`
where `is1`, then to `0` where `is0`; if still equal to `-1` it gets the mean of its sub-pixels. -/
noncomputable def antialiasVal (is1 is0 P : ℝ → ℝ → Prop) (nSub : ℕ) (d : ℝ) (x y : ℝ) : ℝ :=
  let m0 : ℝ := -1
  let m1 := if is1 x y then 1 else m0
  let m2 := if is0 x y then 0 else m1
  if m2 = -1 then subMean nSub d P x y else m2

/-- The common rasterisation loop over the whole array. -/
noncomputable def antialias (ny nx : ℕ) (xs ys : ℕ → ℝ) (is1 is0 P : ℝ → ℝ → Prop) (nSub : ℕ) (d : ℝ) : Arr2 ℝ :=
  ⟨ny, nx, fun i j => antialiasVal is1 is0 P nSub d (xs j) (ys i)⟩

/-- `if isDark: mask = 1.0 - mask`: lines 157-158, 253-254, 363-364. -/
def darken (isDark : Bool) (a : Arr2 ℝ) : Arr2 ℝ := if isDark then a.map fun v => 1 - v else a

/-- `circle(nx, ny, radius, xOffset, yOffset, nSubpixels, isDark)`, lines 79-160.  `x[1]` raises `IndexError` when
`nx = 1`. -/
noncomputable def circle (nx ny : ℤ) (radius xo yo : ℝ) (nSub : ℤ) (isDark : Bool) : Res (Arr2 ℝ) :=
  if nx ≤ 0 ∨ ny ≤ 0 ∨ radius ≤ 0 ∨ nSub ≤ 0 then .error .typeError
  else if nx = 1 then .error .indexError
  else
    let xs := shapeAxis nx.toNat xo
    let ys := shapeAxis ny.toNat yo
    let dx := xs 1 - xs 0
    let hw := Real.sqrt 2 * dx
    let rho := fun x y : ℝ => Real.sqrt (x * x + y * y)
    .ok (darken isDark (antialias ny.toNat nx.toNat xs ys
      (fun x y => |rho x y| < radius - hw) (fun x y => |rho x y| > radius + hw)
      (fun x y => Real.sqrt (x ^ 2 + y ^ 2) ≤ radius) nSub.toNat (1 / (nSub.toNat : ℝ))))

/-- The elliptical radius of lines 218-221 and 243-247. -/
noncomputable def ellipseRho (rx ry rotRad x y : ℝ) : ℝ :=
  0.5 * Real.sqrt (1 / rx ^ 2 * (Real.cos rotRad * x + Real.sin rotRad * y) ^ 2
    + 1 / ry ^ 2 * (Real.sin rotRad * x - Real.cos rotRad * y) ^ 2)

/-- `halfWindowWidth` of `ellipse`, lines 223-224, from the three pixels at the corner of the array. -/
noncomputable def ellipseWindow (rx ry rotRad : ℝ) (xs ys : ℕ → ℝ) : ℝ :=
  max |ellipseRho rx ry rotRad (xs 0) (ys 1) - ellipseRho rx ry rotRad (xs 0) (ys 0)|
    |ellipseRho rx ry rotRad (xs 1) (ys 0) - ellipseRho rx ry rotRad (xs 0) (ys 0)|

/-- `ellipse(nx, ny, rx, ry, rot, xOffset, yOffset, nSubpixels, isDark)`, lines 163-256.  `x[1]` and `RHO[1, 0]` raise
`IndexError` when `nx = 1` or `ny = 1`. -/
noncomputable def ellipse (nx ny : ℤ) (rx ry rot xo yo : ℝ) (nSub : ℤ) (isDark : Bool) : Res (Arr2 ℝ) :=
  if nx ≤ 0 ∨ ny ≤ 0 ∨ rx ≤ 0 ∨ ry ≤ 0 ∨ nSub ≤ 0 then .error .typeError
  else if nx = 1 ∨ ny = 1 then .error .indexError
  else
    let rotRad := (Real.pi / 180) * rot
    let xs := shapeAxis nx.toNat xo
    let ys := shapeAxis ny.toNat yo
    let dx := xs 1 - xs 0
    let radius : ℝ := 0.5
    let hw := ellipseWindow rx ry rotRad xs ys
    .ok (darken isDark (antialias ny.toNat nx.toNat xs ys
      (fun x y => |ellipseRho rx ry rotRad x y| < radius - hw) (fun x y => |ellipseRho rx ry rotRad x y| > radius + hw)
      (fun x y => ellipseRho rx ry rotRad x y ≤ radius) nSub.toNat (dx / (nSub.toNat : ℝ))))

/-- `RHO*np.cos(THETA-rotRad)` with `[RHO, THETA] = cart2pol(X, Y)`, lines 315, 322-330. -/
noncomputable def rotU (rotRad x y : ℝ) : ℝ := (cart2pol x y).1 * Real.cos ((cart2pol x y).2 - rotRad)

/-- `RHO*np.sin(THETA-rotRad)`. -/
noncomputable def rotV (rotRad x y : ℝ) : ℝ := (cart2pol x y).1 * Real.sin ((cart2pol x y).2 - rotRad)

/-- `rectangle(nx, ny, width, height, xOffset, yOffset, rot, nSubpixels, isDark)`, lines 259-366. -/
noncomputable def rectangle (nx ny : ℤ) (width height xo yo rot : ℝ) (nSub : ℤ) (isDark : Bool) : Res (Arr2 ℝ) :=
  if nx ≤ 0 ∨ ny ≤ 0 ∨ width ≤ 0 ∨ height ≤ 0 ∨ nSub ≤ 0 then .error .typeError
  else if nx = 1 then .error .indexError
  else
    let xs := shapeAxis nx.toNat xo
    let ys := shapeAxis ny.toNat yo
    let dx := xs 1 - xs 0
    let hw := Real.sqrt 2 * dx
    let rotRad := rot * Real.pi / 180
    .ok (darken isDark (antialias ny.toNat nx.toNat xs ys
      (fun x y => ((rotU rotRad x y ≤ width / 2 - hw ∧ rotU rotRad x y ≥ -(width / 2) + hw) ∧
        rotV rotRad x y ≤ height / 2 - hw) ∧ rotV rotRad x y ≥ -(height / 2) + hw)
      (fun x y => ((rotU rotRad x y ≥ width / 2 + hw ∨ rotU rotRad x y ≤ -(width / 2) - hw) ∨
        rotV rotRad x y ≥ height / 2 + hw) ∨ rotV rotRad x y ≤ -(height / 2) - hw)
      (fun x y => ((rotU rotRad x y ≤ width / 2 ∧ rotU rotRad x y ≥ -(width / 2)) ∧
        rotV rotRad x y ≤ height / 2) ∧ rotV rotRad x y ≥ -(height / 2))
      nSub.toNat (1 / (nSub.toNat : ℝ))))

/-- `np.angle(np.exp(1j*t))`, lines 605-606. -/
noncomputable def wrapAngle (t : ℝ) : ℝ := Complex.arg (Complex.exp (t * Complex.I))

/-- `annular_segments(nSeg, rInPix, rOutPix, nx, ny, xOffset, yOffset, angOpen, angRot, nSubpixels, dTheta)`, lines
535-680.  When `angRot >= 360` neither branch assigns `grayInds` and line 652 raises `UnboundLocalError`. -/
noncomputable def annularSegments (nSeg : ℤ) (rIn rOut : ℝ) (nx ny : ℤ) (xo yo angOpen angRot : ℝ) (nSub : ℤ)
    (dTheta : ℝ) : Res (Arr2 ℝ) :=
  if nSeg ≠ 1 ∧ nSeg ≠ 2 then .error .typeError
  else if rIn ≤ 0 ∨ rOut ≤ 0 ∨ nx ≤ 0 ∨ ny ≤ 0 ∨ angOpen < 0 ∨ nSub ≤ 0 ∨ dTheta < 0 then .error .typeError
  else if nx = 1 then .error .indexError
  else if ¬ angRot < 360 then .error .unboundLocalError
  else
    let op := angOpen * Real.pi / 180
    let ro := angRot * Real.pi / 180
    let dt := dTheta * Real.pi / 180
    let xs := shapeAxis nx.toNat xo
    let ys := shapeAxis ny.toNat yo
    let dx := xs 1 - xs 0
    let hw := Real.sqrt 2 * dx
    let rho := fun x y : ℝ => Real.sqrt (x * x + y * y)
    let th := fun x y : ℝ => wrapAngle (arctan2 y x - ro)
    let th180 := fun x y : ℝ => wrapAngle (arctan2 y x - ro - Real.pi)
    let rhoUp := fun x y : ℝ => Real.sqrt (x ^ 2 + y ^ 2)
    if nSeg = 1 then
      .ok (antialias ny.toNat nx.toNat xs ys
        (fun x y => ((rho x y < rOut - hw ∧ rho x y > rIn + hw) ∧ th x y < op / 2 - dt) ∧ th x y > -(op / 2) + dt)
        (fun x y => (rho x y > rOut + hw ∨ rho x y < rIn - hw) ∨ (th x y > op / 2 + dt ∨ th x y < -(op / 2) - dt))
        (fun x y => ((rhoUp x y ≤ rOut ∧ rhoUp x y ≥ rIn) ∧ th x y ≤ op / 2) ∧ th x y ≥ -(op / 2))
        nSub.toNat (1 / (nSub.toNat : ℝ)))
    else
      .ok (antialias ny.toNat nx.toNat xs ys
        (fun x y => (rho x y < rOut - hw ∧ rho x y > rIn + hw) ∧
          ((th x y < op / 2 - dt ∧ th x y > -(op / 2) + dt) ∨ (th180 x y < op / 2 - dt ∧ th180 x y > -(op / 2) + dt)))
        (fun x y => ((rho x y > rOut + hw ∨ rho x y < rIn - hw) ∨
          (th x y > op / 2 + dt ∧ th x y < Real.pi - op / 2 - dt)) ∨
          (th180 x y > op / 2 + dt ∧ th180 x y < Real.pi - op / 2 - dt))
        (fun x y => (rhoUp x y ≤ rOut ∧ rhoUp x y ≥ rIn) ∧
          ((th x y ≤ op / 2 ∧ th x y ≥ -(op / 2)) ∨ (th180 x y ≤ op / 2 ∧ th180 x y ≥ -(op / 2))))
        nSub.toNat (1 / (nSub.toNat : ℝ)))

/-- Elementwise product of two arrays made by the same sizes (`pupil *= …`). -/
noncomputable def Arr2.mulPx (a b : Arr2 ℝ) : Arr2 ℝ :=
  ⟨a.nr, a.nc, fun i j => a.val i j * (b.px (i : ℕ) (j : ℕ)).getD 0⟩

/-- One strut, lines 64-74. -/
noncomputable def pupilStrut (nx ny : ℤ) (xo yo dOuter width : ℝ) (nSub : ℤ) (angle : ℝ) : Res (Arr2 ℝ) :=
  let height := 0.6 * dOuter
  let a := angle * Real.pi / 180
  rectangle nx ny height width (xo + Real.cos a * height / 2) (yo + Real.sin a * height / 2) angle nSub true

/-- `simple_pupil(nx, ny, xOffset, yOffset, diamInner, diamOuter, strutAngles, strutWidth, nSubpixels)`, lines 8-76. -/
noncomputable def simplePupil (nx ny : ℤ) (xo yo dInner dOuter : ℝ) (angles : List ℝ) (width : ℝ) (nSub : ℤ) :
    Res (Arr2 ℝ) := do
  if nx ≤ 0 ∨ ny ≤ 0 ∨ dInner < 0 ∨ dOuter ≤ 0 ∨ width < 0 ∨ nSub ≤ 0 ∨ dInner ≥ dOuter then .error .typeError
  else
    let p0 ← circle nx ny (dOuter / 2) xo yo nSub false
    let p1 ← if dInner > 0 then do
        let d ← circle nx ny (dInner / 2) xo yo nSub true
        .ok (p0.mulPx d)
      else .ok p0
    if 0 < angles.length ∧ width > 0 then
      angles.foldlM (fun p angle => do
        let s ← pupilStrut nx ny xo yo dOuter width nSub angle
        .ok (p.mulPx s)) p1
    else .ok p1

end Coralign
