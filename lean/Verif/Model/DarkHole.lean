import Verif.Model.Shapes

/-!
# Model of `coralign/buildmodel/darkhole.py`

Array sizes are integers and all other parameters real, so the type checks of `check.py` are reduced to their range tests.
The specification file is represented by its contents: the two sizes and, for every entry of `shapes` in file order, the
values of the keys the code looks up (`none` when the key is absent).
-/

namespace Coralign

/-- `gen_coords(arrayShape, xOffset, yOffset)`, lines 33-57: `x` coordinate of column `j` and `y` coordinate of row `i`. -/
noncomputable def dhX (nCols : ℕ) (xOffset : ℝ) (j : ℕ) : ℝ := shapeAxis nCols xOffset j

noncomputable def dhY (nRows : ℕ) (yOffset : ℝ) (i : ℕ) : ℝ := shapeAxis nRows yOffset i

/-- `R`, line 54. -/
noncomputable def dhR (x y : ℝ) : ℝ := Real.sqrt (x * x + y * y)

/-- The checks on `arrayShape`, lines 33-37 and repeated in every generator. -/
def dhShapeOk (nRows nCols : ℤ) : Prop := 0 < nRows ∧ 0 < nCols

open scoped Classical in
/-- A boolean array computed pixel by pixel from the coordinates. -/
noncomputable def dhArray (nRows nCols : ℤ) (xo yo : ℝ) (P : ℝ → ℝ → Prop) : Arr2 Bool :=
  ⟨nRows.toNat, nCols.toNat, fun i j => decide (P (dhX nCols.toNat xo j) (dhY nRows.toNat yo i))⟩

open scoped Classical in
/-- `gen_rectangle`, lines 83-96. -/
noncomputable def genRectangle (nRows nCols : ℤ) (xo yo width height : ℝ) : Res (Arr2 Bool) :=
  if ¬ dhShapeOk nRows nCols then .error .typeError
  else if width ≤ 0 ∨ height ≤ 0 then .error .typeError
  else .ok (dhArray nRows nCols xo yo fun x y => |x| ≤ width / 2 ∧ |y| ≤ height / 2)

open scoped Classical in
/-- `gen_annulus`, lines 122-137. -/
noncomputable def genAnnulus (nRows nCols : ℤ) (xo yo radiusInner radiusOuter : ℝ) : Res (Arr2 Bool) :=
  if ¬ dhShapeOk nRows nCols then .error .typeError
  else if radiusInner < 0 ∨ radiusOuter < 0 then .error .typeError
  else if radiusInner > radiusOuter then .error .valueError
  else .ok (dhArray nRows nCols xo yo fun x y => dhR x y ≥ radiusInner ∧ dhR x y ≤ radiusOuter)

open scoped Classical in
/-- `gen_annular_sector`, lines 169-191.  `np.radians(d)` is `d * π / 180`. -/
noncomputable def genAnnularSector (nRows nCols : ℤ) (xo yo radiusInner radiusOuter openingAngle clocking : ℝ) :
    Res (Arr2 Bool) :=
  if ¬ dhShapeOk nRows nCols then .error .typeError
  else if radiusInner < 0 ∨ radiusOuter < 0 then .error .typeError
  else if radiusInner > radiusOuter then .error .valueError
  else if openingAngle ≤ 0 then .error .typeError
  else
    let thetaRot := fun x y : ℝ => wrapAngle (arctan2 y x - clocking * Real.pi / 180)
    .ok (dhArray nRows nCols xo yo fun x y => ((dhR x y ≥ radiusInner ∧ dhR x y ≤ radiusOuter) ∧
      thetaRot x y ≥ -(openingAngle * Real.pi / 180) / 2) ∧ thetaRot x y ≤ openingAngle * Real.pi / 180 / 2)

/-- `np.logical_or` of boolean arrays of the same shape. -/
def Arr2.orPx (a b : Arr2 Bool) : Arr2 Bool := ⟨a.nr, a.nc, fun i j => a.val i j || (b.px (i : ℕ) (j : ℕ)).getD false⟩

/-- `gen_bowtie`, lines 223-243.  Its own checks are those of `gen_annular_sector`, in the same order. -/
noncomputable def genBowtie (nRows nCols : ℤ) (xo yo radiusInner radiusOuter openingAngle clocking : ℝ) :
    Res (Arr2 Bool) := do
  let a ← genAnnularSector nRows nCols xo yo radiusInner radiusOuter openingAngle clocking
  let b ← genAnnularSector nRows nCols xo yo radiusInner radiusOuter openingAngle (clocking + 180)
  .ok (a.orPx b)

/-- One entry of `shapes` in the specification file; absent keys are `none`. -/
structure ShapeSpec where
  xOffset : Option ℝ
  yOffset : Option ℝ
  shape : Option String
  width : Option ℝ := none
  height : Option ℝ := none
  radiusInner : Option ℝ := none
  radiusOuter : Option ℝ := none
  openingAngle : Option ℝ := none
  clocking : Option ℝ := none

/-- `dict[key]`. -/
def lookupKey {α : Type} (o : Option α) : Res α := match o with
  | some a => .ok a
  | none => .error .keyError

/-- The array for one entry, lines 274-321. -/
noncomputable def shapeMask (nRows nCols : ℤ) (s : ShapeSpec) : Res (Arr2 Bool) := do
  let xo ← lookupKey s.xOffset
  let yo ← lookupKey s.yOffset
  let name ← lookupKey s.shape
  if name = "rectangle" then
    let w ← lookupKey s.width
    let h ← lookupKey s.height
    genRectangle nRows nCols xo yo w h
  else if name = "annulus" then
    let ri ← lookupKey s.radiusInner
    let ro ← lookupKey s.radiusOuter
    genAnnulus nRows nCols xo yo ri ro
  else if name = "annular_sector" then
    let ri ← lookupKey s.radiusInner
    let ro ← lookupKey s.radiusOuter
    let op ← lookupKey s.openingAngle
    let cl ← lookupKey s.clocking
    genAnnularSector nRows nCols xo yo ri ro op cl
  else if name = "bowtie" then
    let ri ← lookupKey s.radiusInner
    let ro ← lookupKey s.radiusOuter
    let op ← lookupKey s.openingAngle
    let cl ← lookupKey s.clocking
    genBowtie nRows nCols xo yo ri ro op cl
  else .error .valueError

/-- A numpy array that is either of float or of boolean type. -/
inductive NpMask where
  | float (a : Arr2 ℝ)
  | bool (a : Arr2 Bool)

open scoped Classical in
/-- `np.logical_or(shape, mask)`: a float counts as true when it is not zero. -/
noncomputable def maskOr (s : Arr2 Bool) : NpMask → NpMask
  | .float m => .bool (s.orPx (m.map fun v => decide (v ≠ 0)))
  | .bool m => .bool (s.orPx m)

/-- `gen_dark_hole_from_yaml(fnSpecs)`, lines 262-323, from the contents of the file: the loop over the shapes, starting from
a float array of zeros. -/
noncomputable def genDarkHole (nRows nCols : ℤ) (shapes : List ShapeSpec) : Res NpMask :=
  if nRows ≤ 0 ∨ nCols ≤ 0 then .error .typeError
  else shapes.foldlM (fun mask s => do
    let a ← shapeMask nRows nCols s
    (.ok (maskOr a mask) : Res NpMask)) (.float (Arr2.full nRows.toNat nCols.toNat 0))

end Coralign
