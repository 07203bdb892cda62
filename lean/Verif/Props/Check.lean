import Verif.Spec.Check
import Mathlib.Tactic.NormNum
import Mathlib.Tactic.Linarith

/-!
# Property C07: the input validators
-/

namespace Coralign.Props

open Coralign Coralign.Spec

/-- Unfolds a validator on a concrete constructor. -/
local macro "check_simp" : tactic => `(tactic|
  simp_all [realPositiveScalar, realScalar, realNonnegativeScalar, positiveScalarInteger,
    nonnegativeScalarInteger, scalarInteger, stringCheck, booleanCheck, dictionaryCheck,
    checkName, checkExc, raiseWith, PyVal.isStringType, PyVal.isNumber, PyVal.isRealObj, PyVal.isIntType,
    PyVal.leZero, PyVal.ltZero, PyFloat.leZero, PyFloat.ltZero, bind, Except.bind,
    IsRealScalar, IsRealPositive, IsRealNonneg, IsInteger, IsPosInteger, IsNonnegInteger, IsString, IsBool,
    IsDict, IsNaN, realValue?, intValue?, Positive, Nonneg])

/-- **C07.** `real_scalar` accepts exactly the real scalars. -/
theorem C07_real_scalar (s : String) : Validates realScalar (.str s) IsRealScalar := by
  intro var e
  cases var <;> check_simp

/-- **C07.** `scalar_integer` accepts exactly the integer scalars. -/
theorem C07_scalar_integer (s : String) : Validates scalarInteger (.str s) IsInteger := by
  intro var e
  cases var <;> check_simp

/-- **C07.** `positive_scalar_integer` accepts exactly the positive integer scalars. -/
theorem C07_positive_scalar_integer (s : String) :
    Validates positiveScalarInteger (.str s) IsPosInteger := by
  intro var e
  cases var with
  | bool b => cases b <;> check_simp
  | _ => check_simp

/-- **C07.** `nonnegative_scalar_integer` accepts exactly the non-negative integer scalars. -/
theorem C07_nonnegative_scalar_integer (s : String) :
    Validates nonnegativeScalarInteger (.str s) IsNonnegInteger := by
  intro var e
  cases var with
  | bool b => cases b <;> check_simp
  | _ => check_simp

/-- **C07.** `string` accepts exactly `str` and `bytes`. -/
theorem C07_string (s : String) : Validates stringCheck (.str s) IsString := by
  intro var e
  cases var <;> check_simp

/-- **C07.** `boolean` accepts exactly Python bools (numpy bools are rejected). -/
theorem C07_boolean (s : String) : Validates booleanCheck (.str s) IsBool := by
  intro var e
  cases var <;> check_simp

/-- **C07.** `dictionary` accepts exactly dicts. -/
theorem C07_dictionary (s : String) : Validates dictionaryCheck (.str s) IsDict := by
  intro var e
  cases var <;> check_simp

/-- **C07 (partial).** `real_positive_scalar` accepts exactly the positive real scalars *and NaN*.
Full statement: `Validates realPositiveScalar (.str s) IsRealPositive`; it is false, see
`C07_real_positive_scalar_accepts_nan`. -/
theorem C07_real_positive_scalar_partial (s : String) :
    Validates realPositiveScalar (.str s) (fun v => IsRealPositive v ∨ IsNaN v) := by
  intro var e
  cases var with
  | bool b => cases b <;> check_simp
  | float f => cases f <;> check_simp
  | _ => check_simp

/-- **C07 (partial).** `real_nonnegative_scalar` accepts exactly the non-negative real scalars *and NaN*. -/
theorem C07_real_nonnegative_scalar_partial (s : String) :
    Validates realNonnegativeScalar (.str s) (fun v => IsRealNonneg v ∨ IsNaN v) := by
  intro var e
  cases var with
  | bool b => cases b <;> check_simp
  | float f => cases f <;> check_simp
  | _ => check_simp

/-- **C07 is violated**: NaN passes both sign checks, for every name and exception class. -/
theorem C07_real_positive_scalar_accepts_nan (s : String) (e : PyExc) :
    realPositiveScalar (.float .nan) (.str s) (.exc e) = .ok (.float .nan) ∧
    realNonnegativeScalar (.float .nan) (.str s) (.exc e) = .ok (.float .nan) ∧
    ¬ IsRealPositive (.float .nan) ∧ ¬ IsRealNonneg (.float .nan) := by
  refine ⟨by check_simp, by check_simp, by check_simp, by check_simp⟩

/-! ### Arrays -/

/-- The common body of the three rank checks. -/
theorem rankArray_spec (rank : Nat) (hr : 0 < rank) (s : String) (var : PyVal) (e : PyExc) :
    (∀ sh c t, (var = .ndarray sh c t ∨ var = .seq sh c t) →
      rankArray rank .v1 var (.str s) (.exc e) =
        if sh.length = rank then .ok (.ndarray sh c t) else .error e) ∧
    (∀ t, var = .ragged t → rankArray rank .v1 var (.str s) (.exc e) = .error .valueError) ∧
    ((∀ sh c t, var ≠ .ndarray sh c t ∧ var ≠ .seq sh c t) → (∀ t, var ≠ .ragged t) →
      rankArray rank .v1 var (.str s) (.exc e) = .error e) := by
  refine ⟨?_, ?_, ?_⟩
  · rintro sh c t (rfl | rfl) <;>
    · by_cases hl : sh.length = rank <;> cases c <;>
        simp [rankArray, checkName, checkExc, asArray, arrShape, PyVal.isStringType, PyVal.isRealObj,
          PyVal.isComplexObj, raiseWith, bind, Except.bind, hl]
  · rintro t rfl
    simp [rankArray, checkName, checkExc, asArray, PyVal.isStringType, bind, Except.bind]
  · intro h1 h2
    have hr' : ¬ (0 = rank) := by omega
    cases var <;> first
      | (exfalso; exact (h1 _ _ _).1 rfl)
      | (exfalso; exact (h1 _ _ _).2 rfl)
      | (exfalso; exact h2 _ rfl)
      | simp [rankArray, checkName, checkExc, asArray, arrShape, PyVal.isStringType, PyVal.isRealObj,
          PyVal.isComplexObj, raiseWith, bind, Except.bind, hr']

/-- **C07, arrays (numpy 1).** `oneD_array`, `twoD_array`, `threeD_array` accept exactly the arrays and regular
nested sequences of rank 1, 2 and 3 - whatever the element kind - and return them as arrays.  A ragged sequence
raises `ValueError`, everything else the caller's exception. -/
theorem C07_rank_array (s : String) (var : PyVal) (e : PyExc) :
    ∀ v ∈ [(oneDArray, 1), (twoDArray, 2), (threeDArray, 3)],
      (∀ sh c t, (var = .ndarray sh c t ∨ var = .seq sh c t) →
        v.1 .v1 var (.str s) (.exc e) = if sh.length = v.2 then .ok (.ndarray sh c t) else .error e) ∧
      (∀ t, var = .ragged t → v.1 .v1 var (.str s) (.exc e) = .error .valueError) ∧
      ((∀ sh c t, var ≠ .ndarray sh c t ∧ var ≠ .seq sh c t) → (∀ t, var ≠ .ragged t) →
        v.1 .v1 var (.str s) (.exc e) = .error e) := by
  intro v hv
  simp only [List.mem_cons, List.not_mem_nil, or_false] at hv
  rcases hv with rfl | rfl | rfl
  · exact rankArray_spec 1 (by omega) s var e
  · exact rankArray_spec 2 (by omega) s var e
  · exact rankArray_spec 3 (by omega) s var e

/-- **C07, arrays (numpy 2).** Arrays are treated as under numpy 1. -/
theorem C07_numpy2_arrays (s : String) (e : PyExc) (sh : List Nat) (c : Bool) (t : Nat) :
    (∀ v ∈ [(oneDArray, 1), (twoDArray, 2), (threeDArray, 3)],
      v.1 .v2 (.ndarray sh c t) (.str s) (.exc e) = if sh.length = v.2 then .ok (.ndarray sh c t) else .error e) ∧
    realArray .v2 (.ndarray sh c t) (.str s) (.exc e) = (if sh ≠ [] ∧ c = false then .ok (.ndarray sh c t) else .error e) := by
  constructor
  · intro v hv
    simp only [List.mem_cons, List.not_mem_nil, or_false] at hv
    rcases hv with rfl | rfl | rfl
    · by_cases hl : sh.length = 1 <;> cases c <;>
        simp [oneDArray, rankArray, checkName, checkExc, asArray, arrShape, PyVal.isStringType, PyVal.isRealObj,
          PyVal.isComplexObj, raiseWith, bind, Except.bind, hl]
    · by_cases hl : sh.length = 2 <;> cases c <;>
        simp [twoDArray, rankArray, checkName, checkExc, asArray, arrShape, PyVal.isStringType, PyVal.isRealObj,
          PyVal.isComplexObj, raiseWith, bind, Except.bind, hl]
    · by_cases hl : sh.length = 3 <;> cases c <;>
        simp [threeDArray, rankArray, checkName, checkExc, asArray, arrShape, PyVal.isStringType, PyVal.isRealObj,
          PyVal.isComplexObj, raiseWith, bind, Except.bind, hl]
  · cases sh <;> cases c <;>
      simp [realArray, checkName, checkExc, asArray, arrShape, PyVal.isStringType, PyVal.isRealObj,
          raiseWith, bind, Except.bind]

/-- **C07, arrays (numpy 1).** What is no array: ragged sequences raise `ValueError`, everything else the caller's
exception, in `real_array` and `twoD_square_array` too. -/
theorem C07_not_an_array (s : String) (var : PyVal) (e : PyExc) (h1 : ∀ sh c t, var ≠ .ndarray sh c t ∧ var ≠ .seq sh c t) :
    ∀ f ∈ [realArray, twoDSquareArray],
      (∀ t, var = .ragged t → f .v1 var (.str s) (.exc e) = .error .valueError) ∧
      ((∀ t, var ≠ .ragged t) → f .v1 var (.str s) (.exc e) = .error e) := by
  intro f hf
  simp only [List.mem_cons, List.not_mem_nil, or_false] at hf
  constructor
  · rintro t rfl
    rcases hf with rfl | rfl <;>
      simp [realArray, twoDSquareArray, checkName, checkExc, asArray, PyVal.isStringType, bind, Except.bind]
  · intro h2
    rcases hf with rfl | rfl <;> cases var <;> first
      | (exfalso; exact (h1 _ _ _).1 rfl)
      | (exfalso; exact (h1 _ _ _).2 rfl)
      | (exfalso; exact h2 _ rfl)
      | simp [realArray, twoDSquareArray, checkName, checkExc, asArray, arrShape, PyVal.isStringType, PyVal.isRealObj,
          raiseWith, bind, Except.bind]

/-- **C07, arrays (numpy 1).** `real_array` accepts exactly the real arrays and sequences of rank at least 1. -/
theorem C07_real_array (s : String) (var : PyVal) (e : PyExc) :
    (∀ sh c t, (var = .ndarray sh c t ∨ var = .seq sh c t) →
      realArray .v1 var (.str s) (.exc e) =
        if sh ≠ [] ∧ c = false then .ok (.ndarray sh c t) else .error e) ∧
    ((∀ sh c t, var ≠ .ndarray sh c t ∧ var ≠ .seq sh c t) → (∀ t, var ≠ .ragged t) →
      realArray .v1 var (.str s) (.exc e) = .error e) := by
  refine ⟨?_, ?_⟩
  · rintro sh c t (rfl | rfl) <;> cases sh <;> cases c <;>
      simp [realArray, checkName, checkExc, asArray, arrShape, PyVal.isStringType, PyVal.isRealObj,
          raiseWith, bind, Except.bind]
  · intro h1 h2
    cases var <;> first
      | (exfalso; exact (h1 _ _ _).1 rfl)
      | (exfalso; exact (h1 _ _ _).2 rfl)
      | (exfalso; exact h2 _ rfl)
      | simp [realArray, checkName, checkExc, asArray, arrShape, PyVal.isStringType, PyVal.isRealObj,
          raiseWith, bind, Except.bind]

/-- **C07, arrays (numpy 1).** `twoD_square_array` accepts exactly the square rank-2 arrays and sequences. -/
theorem C07_twoD_square_array (s : String) (var : PyVal) (e : PyExc) (sh : List Nat) (c : Bool) (t : Nat)
    (hv : var = .ndarray sh c t ∨ var = .seq sh c t) :
    ((∃ n, sh = [n, n]) → twoDSquareArray .v1 var (.str s) (.exc e) = .ok (.ndarray sh c t)) ∧
    ((¬ ∃ n, sh = [n, n]) → twoDSquareArray .v1 var (.str s) (.exc e) = .error e) := by
  constructor
  · rintro ⟨n, rfl⟩
    rcases hv with rfl | rfl <;> cases c <;>
      simp [twoDSquareArray, checkName, checkExc, asArray, arrShape, PyVal.isStringType, PyVal.isRealObj,
          PyVal.isComplexObj, bind, Except.bind]
  · intro hn
    have key : twoDSquareArray .v1 (.ndarray sh c t) (.str s) (.exc e) = .error e := by
      match sh, hn with
      | [], _ => simp [twoDSquareArray, checkName, checkExc, asArray, arrShape, PyVal.isStringType, raiseWith,
                  bind, Except.bind]
      | [_], _ => simp [twoDSquareArray, checkName, checkExc, asArray, arrShape, PyVal.isStringType, raiseWith,
                  bind, Except.bind]
      | [r, k], hn =>
        have hrk : ¬ r = k := fun h => hn ⟨r, by rw [h]⟩
        simp [twoDSquareArray, checkName, checkExc, asArray, arrShape, PyVal.isStringType, raiseWith,
                  bind, Except.bind, hrk]
      | _ :: _ :: _ :: _, _ =>
        simp [twoDSquareArray, checkName, checkExc, asArray, arrShape, PyVal.isStringType, raiseWith,
                  bind, Except.bind]
    rcases hv with rfl | rfl
    · exact key
    · exact key

/-- **C07 is violated under numpy 2**: "castable to an array" inputs (lists, tuples) of the right rank are not
accepted, and what is raised is `ValueError` rather than the caller's exception. -/
theorem C07_numpy2_rejects_lists (s : String) (e : PyExc) (sh : List Nat) (c : Bool) (t : Nat) :
    realArray .v2 (.seq sh c t) (.str s) (.exc e) = .error .valueError ∧
    oneDArray .v2 (.seq sh c t) (.str s) (.exc e) = .error .valueError ∧
    twoDArray .v2 (.seq sh c t) (.str s) (.exc e) = .error .valueError ∧
    twoDSquareArray .v2 (.seq sh c t) (.str s) (.exc e) = .error .valueError ∧
    threeDArray .v2 (.seq sh c t) (.str s) (.exc e) = .error .valueError := by
  refine ⟨?_, ?_, ?_, ?_, ?_⟩ <;>
    simp [realArray, oneDArray, twoDArray, threeDArray, twoDSquareArray, rankArray, checkName, checkExc,
      asArray, PyVal.isStringType, bind, Except.bind]

/-! ### The name and exception arguments -/

/-- **C07.** A malformed name is reported with `CheckException` before anything else is looked at - for all
fourteen validators, all values and all exception arguments. -/
theorem C07_bad_name (np : Numpy) (var vname : PyVal) (vexc : ExcArg)
    (hn : ∀ s, vname ≠ .str s ∧ vname ≠ .bytes s) :
    ∀ f ∈ allValidators np, f var vname vexc = .error .checkException := by
  have hc : checkName vname = .error .checkException := by
    cases vname <;> simp_all [checkName, PyVal.isStringType]
  intro f hf
  simp only [allValidators, List.mem_cons, List.not_mem_nil, or_false] at hf
  rcases hf with rfl | rfl | rfl | rfl | rfl | rfl | rfl | rfl | rfl | rfl | rfl | rfl | rfl | rfl <;>
    simp [realPositiveScalar, realScalar, realNonnegativeScalar, positiveScalarInteger,
      nonnegativeScalarInteger, scalarInteger, stringCheck, booleanCheck, dictionaryCheck, realArray,
      oneDArray, twoDArray, threeDArray, twoDSquareArray, rankArray, hc, bind, Except.bind]

/-- **C07.** A malformed exception argument is reported with `CheckException` before the value is looked at. -/
theorem C07_bad_exception (np : Numpy) (var vname : PyVal) (vexc : ExcArg) (hv : ∀ e, vexc ≠ .exc e) :
    ∀ f ∈ allValidators np, f var vname vexc = .error .checkException := by
  have he : checkExc vexc = .error .checkException := by
    cases vexc <;> simp_all [checkExc]
  intro f hf
  by_cases hn : vname.isStringType
  · have hc : checkName vname = .ok () := by simp [checkName, hn]
    simp only [allValidators, List.mem_cons, List.not_mem_nil, or_false] at hf
    rcases hf with rfl | rfl | rfl | rfl | rfl | rfl | rfl | rfl | rfl | rfl | rfl | rfl | rfl | rfl <;>
      simp [realPositiveScalar, realScalar, realNonnegativeScalar, positiveScalarInteger,
        nonnegativeScalarInteger, scalarInteger, stringCheck, booleanCheck, dictionaryCheck, realArray,
        oneDArray, twoDArray, threeDArray, twoDSquareArray, rankArray, hc, he, bind, Except.bind]
  · exact C07_bad_name np var vname vexc
      (fun s => ⟨fun h => hn (by simp [h, PyVal.isStringType]), fun h => hn (by simp [h, PyVal.isStringType])⟩) f hf

/-- **C07 is violated for `bytes` names**: the name check accepts them, but the error message cannot be
built, so a rejected value raises `TypeError` whatever exception the caller asked for. -/
theorem C07_bytes_name_raises_typeError (b : String) (var : PyVal) (e : PyExc) (h : ¬ IsRealScalar var) :
    realScalar var (.bytes b) (.exc e) = .error .typeError := by
  cases var <;> check_simp

example : ¬ IsRealScalar (.str "x") := by check_simp
example : IsRealPositive (.float (.num (1 / 2))) := by check_simp
example : IsPosInteger (.bool true) := by check_simp
example : ∀ s, (PyVal.int 3) ≠ .str s ∧ (PyVal.int 3) ≠ .bytes s := by simp

end Coralign.Props
