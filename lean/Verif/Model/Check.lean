import Verif.Base.Py
import Mathlib.Algebra.Order.Ring.Rat

/-!
# Model of `coralign/util/check.py`

The validators take arbitrary Python objects, so the model starts from a universe of Python values rich
enough to reach every branch of every validator.
-/

namespace Coralign

/-- IEEE values a Python float can take, with finite values exact. -/
inductive PyFloat where
  | nan
  | posInf
  | negInf
  | num (q : ℚ)
  deriving DecidableEq

/-- Python `x <= 0` on a float: false for NaN. -/
def PyFloat.leZero : PyFloat → Bool
  | .nan => false
  | .posInf => false
  | .negInf => true
  | .num q => decide (q ≤ 0)

/-- Python `x < 0` on a float: false for NaN. -/
def PyFloat.ltZero : PyFloat → Bool
  | .nan => false
  | .posInf => false
  | .negInf => true
  | .num q => decide (q < 0)

/-- The Python objects a caller may pass.  `tag` stands for the element data of containers, which no
validator looks at. -/
inductive PyVal where
  | int (n : Int)                 -- `int`
  | bool (b : Bool)               -- `bool`, a subclass of `int`
  | npInt (n : Int)               -- `np.integer` scalars
  | npBool (b : Bool)             -- `np.bool_`: *not* a `numbers.Number`
  | float (f : PyFloat)           -- `float` and `np.floating` scalars
  | rational (q : ℚ)              -- `fractions.Fraction`, `decimal.Decimal`
  | complex (re im : PyFloat)     -- `complex` and `np.complexfloating` scalars
  | str (s : String)
  | bytes (s : String)
  | none
  | dict (tag : Nat)
  | seq (shape : List Nat) (cplx : Bool) (tag : Nat)   -- regular nested list/tuple: castable to an array
  | ragged (tag : Nat)                                 -- irregular nested list/tuple
  | ndarray (shape : List Nat) (cplx : Bool) (tag : Nat)
  | other (tag : Nat)             -- any other object
  deriving DecidableEq

namespace PyVal

/-- `isinstance(v, numbers.Number)`: Python ints (hence bools), floats, complexes, fractions, and numpy
integer/floating/complexfloating scalars; numpy bools are not registered. -/
def isNumber : PyVal → Bool
  | .int _ | .bool _ | .npInt _ | .float _ | .rational _ | .complex _ _ => true
  | _ => false

/-- `isinstance(v, (int, np.integer))` (check.py:15). -/
def isIntType : PyVal → Bool
  | .int _ | .bool _ | .npInt _ => true
  | _ => false

/-- `isinstance(v, (str, bytes))` (check.py:12). -/
def isStringType : PyVal → Bool
  | .str _ | .bytes _ => true
  | _ => false

/-- `np.isrealobj(v)`: the dtype of `np.asarray(v)` is not complex-floating. -/
def isRealObj : PyVal → Bool
  | .complex _ _ => false
  | .seq _ c _ | .ndarray _ c _ => !c
  | _ => true

/-- `np.iscomplexobj(v)`: numpy defines it as the dtype being complex-floating. -/
def isComplexObj (v : PyVal) : Bool := !v.isRealObj

/-- Python `v <= 0` for the objects that reach that comparison. -/
def leZero : PyVal → Bool
  | .int n | .npInt n => decide (n ≤ 0)
  | .bool b => !b
  | .float f => f.leZero
  | .rational q => decide (q ≤ 0)
  | _ => false

/-- Python `v < 0` for the objects that reach that comparison. -/
def ltZero : PyVal → Bool
  | .int n | .npInt n => decide (n < 0)
  | .bool _ => false
  | .float f => f.ltZero
  | .rational q => decide (q < 0)
  | _ => false

end PyVal

/-- What the caller passes as `vexc`. -/
inductive ExcArg where
  | notAClass                -- fails `isinstance(vexc, type)`
  | classNotException        -- a class that is not an exception
  | exc (e : PyExc)
  deriving DecidableEq

/-- Which numpy is installed.  `requirements.txt` does not pin it, and `np.array(v, copy=False)`
(check.py:81, 105, 129, 153, 180) changed meaning in numpy 2: it raises `ValueError` when a copy cannot be
avoided, i.e. for everything that is not already an ndarray. -/
inductive Numpy where
  | v1
  | v2
  deriving DecidableEq

/-- `_checkname` - check.py:17-24. -/
def checkName (vname : PyVal) : Res Unit :=
  if vname.isStringType then .ok () else .error .checkException

/-- `_checkexc` - check.py:27-37.  On success yields the exception to raise. -/
def checkExc (vexc : ExcArg) : Res PyExc :=
  match vexc with
  | .notAClass => .error .checkException
  | .classNotException => .error .checkException
  | .exc e => .ok e

/-- `raise vexc(vname + ' must be ...')`: with a `bytes` name the concatenation itself raises `TypeError`.
Simplification: the exception class is assumed constructible from one string. -/
def raiseWith {α : Type} (vname : PyVal) (e : PyExc) : Res α :=
  match vname with
  | .str _ => .error e
  | _ => .error .typeError

/-- `np.array(v, copy=False)` - check.py:81, 105, 129, 153, 180. -/
def asArray (np : Numpy) (v : PyVal) : Res PyVal :=
  match v with
  | .ndarray s c t => .ok (.ndarray s c t)
  | .ragged _ => .error .valueError
  | .seq s c t => if np = .v2 then .error .valueError else .ok (.ndarray s c t)
  | .complex _ _ => if np = .v2 then .error .valueError else .ok (.ndarray [] true 0)
  | _ => if np = .v2 then .error .valueError else .ok (.ndarray [] false 0)

/-- `len(v.shape)` of an array. -/
def arrShape : PyVal → List Nat
  | .ndarray s _ _ => s
  | _ => []

/-- `real_positive_scalar` - check.py:40-62. -/
def realPositiveScalar (var vname : PyVal) (vexc : ExcArg) : Res PyVal := do
  checkName vname
  let e ← checkExc vexc
  if !var.isNumber then raiseWith vname e
  else if !var.isRealObj then raiseWith vname e
  else if var.leZero then raiseWith vname e
  else .ok var

/-- `real_scalar` - check.py:189-209. -/
def realScalar (var vname : PyVal) (vexc : ExcArg) : Res PyVal := do
  checkName vname
  let e ← checkExc vexc
  if !var.isNumber then raiseWith vname e
  else if !var.isRealObj then raiseWith vname e
  else .ok var

/-- `real_nonnegative_scalar` - check.py:212-234. -/
def realNonnegativeScalar (var vname : PyVal) (vexc : ExcArg) : Res PyVal := do
  checkName vname
  let e ← checkExc vexc
  if !var.isNumber then raiseWith vname e
  else if !var.isRealObj then raiseWith vname e
  else if var.ltZero then raiseWith vname e
  else .ok var

/-- `positive_scalar_integer` - check.py:237-259. -/
def positiveScalarInteger (var vname : PyVal) (vexc : ExcArg) : Res PyVal := do
  checkName vname
  let e ← checkExc vexc
  if !var.isNumber then raiseWith vname e
  else if !var.isIntType then raiseWith vname e
  else if var.leZero then raiseWith vname e
  else .ok var

/-- `nonnegative_scalar_integer` - check.py:262-284. -/
def nonnegativeScalarInteger (var vname : PyVal) (vexc : ExcArg) : Res PyVal := do
  checkName vname
  let e ← checkExc vexc
  if !var.isNumber then raiseWith vname e
  else if !var.isIntType then raiseWith vname e
  else if var.ltZero then raiseWith vname e
  else .ok var

/-- `scalar_integer` - check.py:287-307. -/
def scalarInteger (var vname : PyVal) (vexc : ExcArg) : Res PyVal := do
  checkName vname
  let e ← checkExc vexc
  if !var.isNumber then raiseWith vname e
  else if !var.isIntType then raiseWith vname e
  else .ok var

/-- `string` - check.py:310-328. -/
def stringCheck (var vname : PyVal) (vexc : ExcArg) : Res PyVal := do
  checkName vname
  let e ← checkExc vexc
  if !var.isStringType then raiseWith vname e else .ok var

/-- `boolean` - check.py:331-349. -/
def booleanCheck (var vname : PyVal) (vexc : ExcArg) : Res PyVal := do
  checkName vname
  let e ← checkExc vexc
  match var with
  | .bool _ => .ok var
  | _ => raiseWith vname e

/-- `dictionary` - check.py:352-370. -/
def dictionaryCheck (var vname : PyVal) (vexc : ExcArg) : Res PyVal := do
  checkName vname
  let e ← checkExc vexc
  match var with
  | .dict _ => .ok var
  | _ => raiseWith vname e

/-- `real_array` - check.py:65-86. -/
def realArray (np : Numpy) (var vname : PyVal) (vexc : ExcArg) : Res PyVal := do
  checkName vname
  let e ← checkExc vexc
  let var ← asArray np var
  if (arrShape var).length = 0 then raiseWith vname e
  else if !var.isRealObj then raiseWith vname e
  else .ok var

/-- Common body of `oneD_array` (check.py:89-110), `twoD_array` (113-134) and `threeD_array` (164-185), which
are the same text up to the required rank. -/
def rankArray (rank : Nat) (np : Numpy) (var vname : PyVal) (vexc : ExcArg) : Res PyVal := do
  checkName vname
  let e ← checkExc vexc
  let var ← asArray np var
  if (arrShape var).length ≠ rank then raiseWith vname e
  else if !var.isRealObj && !var.isComplexObj then raiseWith vname e
  else .ok var

/-- `oneD_array` - check.py:89-110. -/
def oneDArray := rankArray 1
/-- `twoD_array` - check.py:113-134. -/
def twoDArray := rankArray 2
/-- `threeD_array` - check.py:164-185. -/
def threeDArray := rankArray 3

/-- `twoD_square_array` - check.py:137-161. -/
def twoDSquareArray (np : Numpy) (var vname : PyVal) (vexc : ExcArg) : Res PyVal := do
  checkName vname
  let e ← checkExc vexc
  let var ← asArray np var
  match arrShape var with
  | [r, c] =>
    if ¬ r = c then raiseWith vname e
    else if !var.isRealObj && !var.isComplexObj then raiseWith vname e
    else .ok var
  | _ => raiseWith vname e

end Coralign
