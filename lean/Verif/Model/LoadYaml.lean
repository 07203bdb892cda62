import Verif.Base.Py

/-!
# Model of `coralign/util/loadyaml.py`

The file system and `yaml.safe_load` are the environment: each call may return or raise anything.  `E` is the type of
exception objects.
-/

namespace Coralign

/-- What the environment does with one path. -/
structure FileEnv (E H D : Type) where
  /-- `open(path)` -/
  openFile : Except E H
  /-- `yaml.safe_load(f)`: reads, decodes and parses -/
  load : H → Except E D
  /-- `f.__exit__`, which closes the file -/
  close : H → Except E Unit

/-- The three classes named in the `except` clauses.  Python tests them in order with `isinstance`. -/
structure ExcClasses (E : Type) where
  isIOError : E → Bool
  isYAMLError : E → Bool
  isUnicodeDecodeError : E → Bool

/-- What the program does to the file, in order. -/
inductive FileEvent
  | opened
  | loaded
  | closed
  deriving DecidableEq, Repr

/-- The body of the `try` block, `coralign/util/loadyaml.py` lines 27-31.  `with` closes the file whether or not the body raised; an
exception from closing replaces the one from the body. -/
def loadBody {E H D : Type} (env : FileEnv E H D) : List FileEvent × Except E D :=
  match env.openFile with
  | .error e => ([], .error e)
  | .ok h =>
    let r := env.load h
    match env.close h with
    | .error e => ([.opened, .loaded, .closed], .error e)
    | .ok _ => ([.opened, .loaded, .closed], r)

/-- `loadyaml(path, custom_exception)`, `coralign/util/loadyaml.py` lines 8-41.  `custom msg` is the object
`custom_exception(msg)`. -/
def loadyaml {E H D : Type} (cls : ExcClasses E) (custom : String → E) (env : FileEnv E H D) : List FileEvent × Except E D :=
  match loadBody env with
  | (tr, .ok d) => (tr, .ok d)
  | (tr, .error e) =>
    if cls.isIOError e then (tr, .error (custom "Config file does not exist."))
    else if cls.isYAMLError e then (tr, .error (custom "File is not valid YAML."))
    else if cls.isUnicodeDecodeError e then (tr, .error (custom "File is not valid YAML."))
    else (tr, .error e)

end Coralign
