import Verif.Base.Arr2
import Verif.Model.PadCrop

/-!
# Models of `coralign/util/combine_crop.py` and `coralign/util/get_crop_lower.py`
-/

namespace Coralign

/-- A float that may be NaN. -/
inductive Fl (K : Type) where
  | nan
  | num (x : K)
  deriving DecidableEq, Repr

variable {K : Type}

/-- `check.nonnegative_scalar_integer(v, name, TypeError)` on an `int` (coralign/util/check.py:262-284). -/
def checkNonnegInt (v : Int) : Res Unit := if v < 0 then .error .typeError else .ok ()

/-- `combine(frame, bp)` - coralign/util/combine_crop.py:13-40.
`bp` is already a boolean array (line 34 rejects others with the same `TypeError`). -/
def combine (frame : Arr2 (Fl K)) (bp : Arr2 Bool) : Res (Arr2 (Fl K)) :=
  if h : bp.nr = frame.nr ∧ bp.nc = frame.nc then                          -- line 32
    -- lines 37-38: out = frame.copy(); out[bp] = nan
    .ok ⟨frame.nr, frame.nc, fun i j =>
      if bp.val (i.cast h.1.symm) (j.cast h.2.symm) then .nan else frame.val i j⟩
  else .error .typeError                                                   -- line 33

/-- `crop(frame, lower_row, lower_col, row_width, col_width)` - coralign/util/combine_crop.py:43-82. -/
def crop (frame : Arr2 (Fl K)) (lowerRow lowerCol rowWidth colWidth : Int) : Res (Arr2 (Fl K)) := do
  checkNonnegInt lowerRow                                                  -- line 64
  checkNonnegInt lowerCol                                                  -- line 65
  checkPosInt rowWidth                                                     -- line 66
  checkPosInt colWidth                                                     -- line 67
  if lowerRow ≥ frame.nr then .error .valueError else                      -- lines 68-69
  if lowerCol ≥ frame.nc then .error .valueError else                      -- lines 70-71
  -- lines 73-74
  let excerpt := frame.slice lowerRow (lowerRow + rowWidth) lowerCol (lowerCol + colWidth)
  -- lines 77-82 (`out[:erow, :ecol]` starts at 0)
  (Arr2.full rowWidth.toNat colWidth.toNat Fl.nan).assign 0 excerpt.nr 0 excerpt.nc excerpt

/-- `get_crop_lower(row_center, col_center, row_width, col_width, bound)` -
coralign/util/get_crop_lower.py:8-51. -/
def getCropLower (rowCenter colCenter rowWidth colWidth : Int) (bound : Bool) : Res (Int × Int) := do
  checkNonnegInt rowCenter                                                 -- line 37
  checkNonnegInt colCenter                                                 -- line 38
  checkPosInt rowWidth                                                     -- line 39
  checkPosInt colWidth                                                     -- line 40
  let lowerRow := rowCenter - rowWidth / 2                                 -- line 43
  let lowerCol := colCenter - colWidth / 2                                 -- line 44
  if bound then .ok (max lowerRow 0, max lowerCol 0)                       -- lines 46-49
  else .ok (lowerRow, lowerCol)

end Coralign
