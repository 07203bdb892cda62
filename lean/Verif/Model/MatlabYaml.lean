import Mathlib.Data.List.DropRight

/-!
# Model of `matlab/ReadYaml.m`

The reader of the settings files of the MATLAB port.  A MATLAB error is `none`.  Characters are Lean characters; the null character is taken
to be an ordinary character.  Opening and closing the file (lines 6 and 8) are not modelled.
-/

namespace Coralign.Matlab

/-- MATLAB's `isspace`: space, tab, newline, vertical tab, form feed, carriage return. -/
def isSpace (c : Char) : Bool :=
  c == ' ' || c == '\t' || c == '\n' || c == '\x0b' || c == '\x0c' || c == '\r'

/-- `deblank`: trailing white space removed. -/
def deblank (s : List Char) : List Char := s.rdropWhile isSpace

/-- `strtrim`: white space removed at both ends. -/
def strtrim (s : List Char) : List Char := (s.dropWhile isSpace).rdropWhile isSpace

/-- A field of the result: a number (or whatever else `str2num` makes) or the text itself. -/
inductive Value (N : Type) where
  | num (n : N)
  | text (s : List Char)
  deriving DecidableEq

/-- The parts of MATLAB that the reader calls: `str2num`, with `none` when it reports no success, and which texts can name a field of a
structure.  A field name is made of letters, digits and underscores and is not empty. -/
structure YamlEnv (N : Type) where
  str2num : List Char → Option N
  validName : List Char → Bool
  name_ne : validName [] = false
  name_chars : ∀ k, validName k = true → ∀ c ∈ k, c.isAlphanum = true ∨ c = '_'

/-- `results.(key) = value` on a structure, kept as the list of its fields in the order of their creation. -/
def setField {N : Type} (key : List Char) (v : Value N) : List (List Char × Value N) → List (List Char × Value N)
  | [] => [(key, v)]
  | (k, w) :: rest => if k = key then (k, v) :: rest else (k, w) :: setField key v rest

/-- Lines 28-36: the text before the first colon, the text after it up to the first `#`, both trimmed.  Without a colon
`sepIndex` is empty, and so are both index ranges made from it. -/
def splitLine (line : List Char) : List Char × List Char :=
  if ':' ∈ line then
    (strtrim (line.takeWhile (· ≠ ':')), strtrim (((line.dropWhile (· ≠ ':')).tail).takeWhile (· ≠ '#')))
  else ([], [])

/-- Lines 38-42. -/
def convert {N : Type} (env : YamlEnv N) (value : List Char) : Value N :=
  match env.str2num value with
  | some n => .num n
  | none => .text value

/-- One pass of the loop, lines 20-45. -/
def readLine {N : Type} (env : YamlEnv N) (results : List (List Char × Value N)) (thisLine : List Char) :
    Option (List (List Char × Value N)) :=
  if thisLine.head? = some '#' then some results
  else
    let p := splitLine thisLine
    if env.validName p.1 then some (setField p.1 (convert env p.2) results) else none

/-- `ReadYaml(filePath)`, `matlab/ReadYaml.m` lines 1-46, on the contents of the file. -/
def readYaml {N : Type} (env : YamlEnv N) (contents : List Char) : Option (List (List Char × Value N)) :=
  let data := (contents.splitOn '\n').map deblank
  let data := data.filter (· ≠ [])
  data.foldlM (readLine env) []

end Coralign.Matlab
