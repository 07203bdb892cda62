import Verif.Base.Arr2
import Mathlib.Algebra.Order.Field.Basic
import Mathlib.Data.List.Dedup
import Mathlib.Data.List.Sort
import Mathlib.Algebra.Field.Rat
import Mathlib.Algebra.Order.Field.Rat

/-!
# Model of `coralign/gainmap/gm_util.py` and `coralign/gainmap/gainmap.py`

The FITS files are represented by their contents: a data cube and a vector.  Reading them is assumed to succeed and to
give a 3-D and a 1-D array.  All arithmetic is in an arbitrary ordered field.
-/

namespace Coralign

/-- A 3-D numpy array: slices, rows, columns. -/
structure Arr3 (α : Type) where
  ns : ℕ
  nr : ℕ
  nc : ℕ
  val : Fin ns → Fin nr → Fin nc → α

namespace Arr3

variable {α : Type}

/-- `a[:, i, j]`: `IndexError` outside the array. -/
def column (a : Arr3 α) (i j : ℕ) : Res (List α) :=
  if h : i < a.nr ∧ j < a.nc then .ok (List.ofFn fun k => a.val k ⟨i, h.1⟩ ⟨j, h.2⟩) else .error .indexError

/-- `a[k, :, :]`, `none` standing for an `IndexError`. -/
def slice (a : Arr3 α) (k : ℕ) : Option (Arr2 α) :=
  if h : k < a.ns then some ⟨a.nr, a.nc, fun i j => a.val ⟨k, h⟩ i j⟩ else none

end Arr3

section
variable {K : Type} [Field K] [LinearOrder K] [IsStrictOrderedRing K]

/-- `np.isclose(a, b, rtol=1e-5, atol)`: `|a - b| <= atol + rtol*|b|`. -/
def isClose (atol a b : K) : Prop := |a - b| ≤ atol + 1 / 100000 * |b|

instance (atol a b : K) : Decidable (isClose atol a b) := by unfold isClose; infer_instance

/-- `np.sort(v)`. -/
def npSort (v : List K) : List K := v.mergeSort fun a b => decide (a ≤ b)

/-- `verify_vector_has_unique_values`, `gm_util.py` lines 255-266. -/
def verifyUnique (v : List K) : Res Unit :=
  if v.length = v.dedup.length then .ok () else .error .valueError

/-- `verify_vector_is_presorted`, `gm_util.py` lines 269-282; `np.finfo(float).eps` is `2^-52`. -/
def verifyPresorted (v : List K) : Res Unit :=
  if ∀ p ∈ v.zip (npSort v), isClose (1 / 2 ^ 52) p.1 p.2 then .ok () else .error .valueError

/-- `compute_diff_and_mean_of_vector`, `gm_util.py` lines 216-252.  An empty vector reaches `np.zeros(-1)`, a `ValueError`. -/
def diffAndMean (v : List K) : Res (List K × List K) := do
  verifyUnique v
  verifyPresorted v
  if v = [] then .error .valueError
  else
    let nOut := v.length - 1
    .ok ((List.range nOut).map fun ii => v.getD (ii + 1) 0 - v.getD ii 0,
      (List.range nOut).map fun ii => (v.getD (ii + 1) 0 + v.getD ii 0) / 2)

/-- `compute_gain_cube_from_height_cube`, `gm_util.py` lines 174-213. -/
def gainCube (cube : Arr3 K) (v : List K) : Res (Arr3 K) := do
  let dm ← diffAndMean v
  let diffVec := dm.1
  if h : diffVec.length + 1 = cube.ns then
    .ok ⟨cube.ns - 1, cube.nr, cube.nc, fun ii i j =>
      (cube.val ⟨ii + 1, by omega⟩ i j - cube.val ⟨ii, by omega⟩ i j) / diffVec.getD ii 0⟩
  else .error .valueError

/-- The loops `for iCol in range(nCols): for iRow in range(nRows): out[iRow, iCol] = f(iRow, iCol)` over a zero array,
`gm_util.py` lines 98-106 and 161-169, `gainmap.py` lines 110-118. -/
def fillGrid (nRows nCols : ℕ) (f : ℕ → ℕ → Res K) : Res (Arr2 K) := do
  let cells := (List.range nCols).flatMap fun c => (List.range nRows).map fun r => (r, c)
  let out ← cells.foldlM (fun (acc : ℕ → ℕ → K) p => do
    let v ← f p.1 p.2
    (.ok (fun r c => if r = p.1 ∧ c = p.2 then v else acc r c) : Res (ℕ → ℕ → K))) fun _ _ => 0
  .ok (Arr2.ofFn nRows nCols out)

/-- `interp1d(x, y, kind='cubic', bounds_error='true')` applied to one number: an external routine, described by the part
of scipy's contract that the code relies on.  Arguments: nodes, values, query point. -/
structure CubicInterp (K : Type) [Field K] [LinearOrder K] where
  run : List K → List K → K → Res K
  /-- at least four nodes, all different, as many values as nodes; otherwise `ValueError` -/
  bad : ∀ x y q, ¬ (x.length = y.length ∧ 4 ≤ x.length ∧ x.Nodup) → run x y q = .error .valueError
  /-- a query outside the range of the nodes raises `ValueError` -/
  outside : ∀ x y q, ((∀ a ∈ x, q < a) ∨ ∀ a ∈ x, a < q) → run x y q = .error .valueError
  /-- a query within the range of the nodes is answered -/
  inside : ∀ x y q, x.length = y.length → 4 ≤ x.length → x.Nodup → (∃ a ∈ x, a ≤ q) → (∃ b ∈ x, q ≤ b) →
    ∃ v, run x y q = .ok v
  /-- the interpolant passes through the data -/
  node : ∀ x y q v, x.length = y.length → 4 ≤ x.length → x.Nodup → (q, v) ∈ x.zip y → run x y q = .ok v

/-- `compute_commands_for_height_map`, `gm_util.py` lines 56-108. -/
def commandsForHeights (I : CubicInterp K) (heightMap : Arr2 K) (cube : Arr3 K) (v : List K) : Res (Arr2 K) := do
  if heightMap.nr ≠ cube.nc then .error .valueError
  else if heightMap.nc ≠ cube.nr then .error .valueError
  else
    verifyUnique v
    verifyPresorted v
    fillGrid heightMap.nr heightMap.nc fun iRow iCol => do
      let col ← cube.column iRow iCol
      I.run col v ((heightMap.px iRow iCol).getD 0)

/-- `compute_heights_for_command_map`, `gm_util.py` lines 111-171. -/
def heightsForCommands (I : CubicInterp K) (commandMap : Arr2 K) (cube : Arr3 K) (v : List K) : Res (Arr2 K) := do
  if commandMap.nr ≠ cube.nc then .error .valueError
  else if commandMap.nc ≠ cube.nr then .error .valueError
  else
    verifyUnique v
    verifyPresorted v
    fillGrid commandMap.nr commandMap.nc fun iRow iCol => do
      let col ← cube.column iRow iCol
      I.run v col ((commandMap.px iRow iCol).getD 0)

/-- `np.allclose(a.shape, b.shape)`, default tolerances: `|m - n| <= 1e-8 + 1e-5*n` on both axes. -/
def shapesClose (a b : Arr2 K) : Prop :=
  isClose (1 / 100000000) (a.nr : ℚ) (b.nr : ℚ) ∧ isClose (1 / 100000000) (a.nc : ℚ) (b.nc : ℚ)

instance (a b : Arr2 K) : Decidable (shapesClose a b) := by unfold shapesClose; infer_instance

/-- Elementwise `f(a, b)` of two arrays.  Simplification of numpy broadcasting: arrays of different shapes raise
`ValueError`; the callers have already required (nearly) equal shapes, so no axis of length one is ever stretched. -/
def zipPx (f : K → K → K) (a b : Arr2 K) : Res (Arr2 K) :=
  if h : a.nr = b.nr ∧ a.nc = b.nc then
    .ok ⟨a.nr, a.nc, fun i j => f (a.val i j) (b.val (i.cast h.1) (j.cast h.2))⟩
  else .error .valueError

/-- `compute_delta_height_map_from_command_maps`, `gm_util.py` lines 9-53. -/
def deltaHeights (I : CubicInterp K) (before after : Arr2 K) (cube : Arr3 K) (v : List K) : Res (Arr2 K) := do
  if shapesClose before after then
    let hb ← heightsForCommands I before cube v
    let ha ← heightsForCommands I after cube v
    zipPx (fun a b => a - b) ha hb
  else .error .valueError

/-- One actuator of `gainmap.py` lines 56-59: heights below the first slice are raised to it, then heights above the last
slice are lowered to it. -/
def clipHeight (lo hi h : K) : K :=
  let h1 := if h < lo then lo else h
  if h1 > hi then hi else h1

/-- `compute_starting_commands_for_flight`, `gainmap.py` lines 10-65.  The comparisons of lines 56-59 raise `ValueError`
when the heights and the slice have different shapes (simplification: for maps without any actuator numpy may raise `IndexError` instead); `refHeightCube[-1]` raises `IndexError` on an empty cube. -/
def startingCommands (I : CubicInterp K) (flat delta : Arr2 K) (cube : Arr3 K) (v : List K) : Res (Arr2 K) := do
  if shapesClose flat delta then
    let fh ← heightsForCommands I flat cube v
    let start ← zipPx (fun a b => a + b) fh delta
    match cube.slice (cube.ns - 1), cube.slice 0 with
    | some mx, some mn =>
      if start.nr = cube.nr ∧ start.nc = cube.nc then
        let clipped : Arr2 K := ⟨start.nr, start.nc, fun i j =>
          clipHeight ((mn.px (i : ℕ) (j : ℕ)).getD 0) ((mx.px (i : ℕ) (j : ℕ)).getD 0) (start.val i j)⟩
        commandsForHeights I clipped cube v
      else .error .valueError
    | _, _ => .error .indexError
  else .error .valueError

/-- `np.searchsorted(x, q)` on a sorted vector: the number of entries below `q`. -/
def searchSorted (x : List K) (q : K) : ℕ := (x.takeWhile fun a => decide (a < q)).length

/-- `interp1d(x, y, kind='linear', fill_value='extrapolate')` applied to one number (scipy's `_call_linear`): the nodes are
sorted, the bracketing pair is `searchsorted` clipped to `[1, len-1]`, and the line through that pair is evaluated.  A length
mismatch, or fewer than two nodes (the exact behaviour then depends on the scipy version), is a `ValueError` here. -/
def linInterp (x y : List K) (q : K) : Res K :=
  if x.length = y.length ∧ 2 ≤ x.length then
    let s := (x.zip y).mergeSort fun a b => decide (a.1 ≤ b.1)
    let xs := s.map Prod.fst
    let ys := s.map Prod.snd
    let hi := min (max (searchSorted xs q) 1) (xs.length - 1)
    let lo := hi - 1
    let slope := (ys.getD hi 0 - ys.getD lo 0) / (xs.getD hi 0 - xs.getD lo 0)
    .ok (slope * (q - xs.getD lo 0) + ys.getD lo 0)
  else .error .valueError

/-- `compute_gainmap`, `gainmap.py` lines 68-120. -/
def gainMap (commandMap : Arr2 K) (cube : Arr3 K) (v : List K) : Res (Arr2 K) := do
  let dm ← diffAndMean v
  let gc ← gainCube cube v
  if commandMap.nr ≠ gc.nc then .error .valueError
  else if commandMap.nc ≠ gc.nr then .error .valueError
  else
    fillGrid commandMap.nr commandMap.nc fun iRow iCol => do
      let col ← gc.column iRow iCol
      linInterp dm.2 col ((commandMap.px iRow iCol).getD 0)

end

end Coralign
