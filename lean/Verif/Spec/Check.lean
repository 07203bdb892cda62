import Verif.Model.Check

/-!
# Specification of the input classes documented for `coralign.util.check`

Each class is written down as a plain description of the Python value, independent of the order of tests in
the code.
-/

namespace Coralign.Spec

open Coralign

/-- The real value of a real scalar (Python or numpy); `none` for anything that is not a real scalar. -/
def realValue? : PyVal → Option PyFloat
  | .int n => some (.num n)
  | .npInt n => some (.num n)
  | .bool b => some (.num (if b then 1 else 0))
  | .float f => some f
  | .rational q => some (.num q)
  | _ => none

/-- The value of a scalar integer (Python or numpy); `none` for anything else. -/
def intValue? : PyVal → Option Int
  | .int n => some n
  | .npInt n => some n
  | .bool b => some (if b then 1 else 0)
  | _ => none

/-- Mathematically positive. -/
def Positive : PyFloat → Prop
  | .posInf => True
  | .num q => 0 < q
  | _ => False

/-- Mathematically non-negative. -/
def Nonneg : PyFloat → Prop
  | .posInf => True
  | .num q => 0 ≤ q
  | _ => False

/-- "Accepts exactly the class `P`, and otherwise raises the caller's exception" - for every Python value and
every exception class, when called with name `vname`. -/
def Validates (f : PyVal → PyVal → ExcArg → Res PyVal) (vname : PyVal) (P : PyVal → Prop) : Prop :=
  ∀ (var : PyVal) (e : PyExc),
    (P var → f var vname (.exc e) = .ok var) ∧ (¬ P var → f var vname (.exc e) = .error e)

/-- The documented class of each scalar-like validator. -/
def IsRealScalar (v : PyVal) : Prop := ∃ x, realValue? v = some x
def IsRealPositive (v : PyVal) : Prop := ∃ x, realValue? v = some x ∧ Positive x
def IsRealNonneg (v : PyVal) : Prop := ∃ x, realValue? v = some x ∧ Nonneg x
def IsInteger (v : PyVal) : Prop := ∃ n, intValue? v = some n
def IsPosInteger (v : PyVal) : Prop := ∃ n, intValue? v = some n ∧ 0 < n
def IsNonnegInteger (v : PyVal) : Prop := ∃ n, intValue? v = some n ∧ 0 ≤ n
def IsString (v : PyVal) : Prop := (∃ s, v = .str s) ∨ (∃ s, v = .bytes s)
def IsBool (v : PyVal) : Prop := ∃ b, v = .bool b
def IsDict (v : PyVal) : Prop := ∃ t, v = .dict t
/-- The single special value on which the sign tests of the code and the mathematical sign differ. -/
def IsNaN (v : PyVal) : Prop := v = .float .nan

/-- All fourteen validators of the module, for a given numpy. -/
def allValidators (np : Numpy) : List (PyVal → PyVal → ExcArg → Res PyVal) :=
  [realPositiveScalar, realArray np, oneDArray np, twoDArray np, twoDSquareArray np, threeDArray np,
   realScalar, realNonnegativeScalar, positiveScalarInteger, nonnegativeScalarInteger, scalarInteger,
   stringCheck, booleanCheck, dictionaryCheck]

end Coralign.Spec
