/-!
# Python exceptions as values

Shared by every model file.  `raise E` in the source is `Except.error E` here; falling off the end of a
function or `return` is `Except.ok`.
-/

namespace Coralign

/-- The Python exception classes that the modelled code can raise (or lets escape from numpy).
`user n` stands for an exception class supplied by the caller (`vexc` in `coralign/util/check.py`,
`custom_exception` in `coralign/util/loadyaml.py`). -/
inductive PyExc where
  | typeError
  | valueError
  | indexError
  | keyError
  | ioError
  | zeroDivisionError
  | unboundLocalError
  | attributeError
  | checkException
  | quadraticException
  | unicodeDecodeError
  | yamlError
  | runtimeError
  | user (n : Nat)
  deriving DecidableEq, Repr

/-- Result of a Python call: a value or an exception. -/
abbrev Res (α : Type) := Except PyExc α

end Coralign
