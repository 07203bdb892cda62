import Verif.Model.Shapes
import Verif.Model.PadCrop

/-!
# Model of `rect_proper`, `coralign/util/shapes.py` lines 369-532

The scan converter: for every sub-row the two polygon edges it meets give the chord, and the chord is shared out among the pixels of the row.
-/

namespace Coralign

/-- The four corners, lines 424-435: `xp0` and `yp0` turned by `angle_rad` and moved to `(xcpix, ycpix)`. -/
structure Corners where
  xp : ℕ → ℝ
  yp : ℕ → ℝ

/-- `xp0`, line 430. -/
noncomputable def cornerX0 (xrad : ℝ) (k : ℕ) : ℝ := if k = 0 ∨ k = 1 then -xrad else xrad

/-- `yp0`, line 431. -/
noncomputable def cornerY0 (yrad : ℝ) (k : ℕ) : ℝ := if k = 1 ∨ k = 2 then yrad else -yrad

/-- Lines 430-435. -/
noncomputable def rectCorners (xrad yrad angle xc yc : ℝ) : Corners where
  xp k := cornerX0 xrad k * Real.cos angle - cornerY0 yrad k * Real.sin angle + xc
  yp k := cornerX0 xrad k * Real.sin angle + cornerY0 yrad k * Real.cos angle + yc

/-- `np.min` of the four values. -/
noncomputable def min4 (v : ℕ → ℝ) : ℝ := min (min (v 0) (v 1)) (min (v 2) (v 3))

/-- `np.max` of the four values. -/
noncomputable def max4 (v : ℕ → ℝ) : ℝ := max (max (v 0) (v 1)) (max (v 2) (v 3))

/-- `leftnext`, lines 443-446 and 475-478. -/
def nextCorner (k : ℕ) : ℕ := if k ≠ 3 then k + 1 else 0

/-- `rightnext`, lines 449-452 and 482-485. -/
def prevCorner (k : ℕ) : ℕ := if k ≠ 0 then k - 1 else 3

open scoped Classical in
/-- `left`, lines 439-441: among the lowest corners the first of those furthest to the left. -/
noncomputable def startCorner (c : Corners) : ℕ :=
  let low := [0, 1, 2, 3].filter fun k => c.yp k = min4 c.yp
  let xmin := low.foldr (fun k m => min (c.xp k) m) (max4 c.xp)
  ((low.filter fun k => c.xp k = xmin).head?).getD 0

/-- What the scan keeps from one sub-row to the next: `left`, `right` and the image (`leftnext` and `rightnext` are always the neighbours of
`left` and `right`). -/
structure ScanState where
  left : ℕ
  right : ℕ
  img : ℤ → ℤ → ℝ

open scoped Classical in
/-- `xleft` and `xright`, lines 487-499: where the edge from corner `k` to corner `k'` has height `y`. -/
noncomputable def edgeX (c : Corners) (k k' : ℕ) (y : ℝ) : ℝ :=
  if c.yp k' - c.yp k ≠ 0 then (c.xp k' - c.xp k) / (c.yp k' - c.yp k) * (y - c.yp k) + c.xp k else c.xp k

/-- What lines 501-525 add to column `col` of the row for the chord from `xleft` to `xright`. -/
noncomputable def chordAdd (ngrid : ℤ) (mag xleft xright : ℝ) (col : ℤ) : ℝ :=
  let l := npRound xleft
  let r := npRound xright
  if l ≠ r then
    (if (l ≥ 0 ∧ l < ngrid) ∧ col = l then mag * ((l + 0.5) - xleft) else 0) +
    (if (r ≥ 0 ∧ r < ngrid) ∧ col = r then mag * (xright - (r - 0.5)) else 0) +
    (if r - l > 1 ∧ l + 1 < ngrid ∧ r > 0 then
      (if (if l + 1 < 0 then 0 else l + 1) ≤ col ∧ col < (if r > ngrid then ngrid else r) then mag else 0) else 0)
  else
    (if (l ≥ 0 ∧ l < ngrid) ∧ col = l then mag * (xright - xleft) else 0)

open scoped Classical in
/-- The loop over the sub-rows of row `ypix`, lines 465-525, from sub-row `ysub` on; `continue` and `break` are the first two branches. -/
noncomputable def scanRow (c : Corners) (ngrid : ℤ) (mag : ℕ) (ypix : ℤ) : List ℕ → ScanState → ScanState
  | [], s => s
  | ysub :: rest, s =>
    let y : ℝ := ypix - 0.5 + (0.5 + ysub) / mag
    if y < c.yp s.left then scanRow c ngrid mag ypix rest s
    else if y > max4 c.yp then s
    else
      let left := if y ≥ c.yp (nextCorner s.left) then nextCorner s.left else s.left
      let right := if y ≥ c.yp (prevCorner s.right) then prevCorner s.right else s.right
      let xleft := edgeX c left (nextCorner left) y
      let xright := edgeX c right (prevCorner right) y
      scanRow c ngrid mag ypix rest
        ⟨left, right, fun i j => if i = ypix then s.img i j + chordAdd ngrid mag xleft xright j else s.img i j⟩

/-- The loop over the rows, line 464. -/
noncomputable def scanRows (c : Corners) (ngrid : ℤ) (mag : ℕ) : List ℤ → ScanState → ScanState
  | [], s => s
  | ypix :: rest, s => scanRows c ngrid mag rest (scanRow c ngrid mag ypix (List.range mag) s)

/-- `range(imin, imax)`, lines 454-464. -/
noncomputable def scanRange (c : Corners) (ngrid : ℤ) : List ℤ :=
  let imin : ℤ := if npRound (min4 c.yp) < 0 then 0 else npRound (min4 c.yp)
  let imax : ℤ := if npRound (max4 c.yp) + 1 ≥ ngrid then ngrid else npRound (max4 c.yp) + 1
  (List.range (imax - imin).toNat).map fun k : ℕ => imin + k

/-- `rect_proper(nx, ny, width, height, xOffset, yOffset, rot, nSubpixels, isDark)`, lines 369-532, on scalars of the right types (the
range tests of lines 405-413 remain). -/
noncomputable def rectProper (nx ny : ℤ) (width height xo yo rot : ℝ) (nSub : ℤ) (isDark : Bool) : Res (Arr2 ℝ) :=
  if nx ≤ 0 ∨ ny ≤ 0 ∨ width ≤ 0 ∨ height ≤ 0 ∨ nSub ≤ 0 then .error .typeError
  else do
    let ngrid : ℤ := max nx ny
    let mag : ℕ := nSub.toNat
    let c := rectCorners (0.5 * width) (0.5 * height) (rot * Real.pi / 180) (xo + (ngrid / 2 : ℤ)) (yo + (ngrid / 2 : ℤ))
    let left := startCorner c
    let s := scanRows c ngrid mag (scanRange c ngrid) ⟨left, left, fun _ _ => 0⟩
    let image : Arr2 ℝ := ⟨ngrid.toNat, ngrid.toNat, fun i j => s.img (i : ℕ) (j : ℕ) / (mag : ℝ) ^ 2⟩
    let image ← padCrop image [ny, nx] 0
    .ok (darken isDark image)

end Coralign
