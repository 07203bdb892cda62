/-!
# Specification vocabulary for settings files

A settings file is a list of lines; a line is empty, a remark, or gives a value to a key.
-/

namespace Coralign.Spec

/-- White space inside a line. -/
def White (c : Char) : Prop := c = ' ' ∨ c = '\t' ∨ c = '\r' ∨ c = '\x0b' ∨ c = '\x0c'

/-- A line of a settings file.  In `setting a key b c value d remark` the lists `a`, `b`, `c` and `d` are the white space around the key and
around the value, and `remark` is what follows a `#`, if there is one. -/
inductive SettingsLine where
  | empty (s : List Char)
  | remark (t : List Char)
  | setting (a key b c value d : List Char) (remark : Option (List Char))

/-- The text of a line. -/
def SettingsLine.text : SettingsLine → List Char
  | .empty s => s
  | .remark t => '#' :: t
  | .setting a key b c value d none => a ++ (key ++ (b ++ ':' :: (c ++ (value ++ d))))
  | .setting a key b c value d (some t) => a ++ (key ++ (b ++ ':' :: (c ++ (value ++ (d ++ '#' :: t)))))

/-- A line can be written: white space is white, nothing contains a line end, the key is an allowed name, and the value has no white space at
its ends and no `#`. -/
structure SettingsLine.Good (name : List Char → Bool) (l : SettingsLine) : Prop where
  empty : ∀ s, l = .empty s → ∀ x ∈ s, White x
  remark : ∀ t, l = .remark t → '\n' ∉ t
  setting : ∀ a key b c value d r, l = .setting a key b c value d r →
    (∀ x ∈ a, White x) ∧ (∀ x ∈ b, White x) ∧ (∀ x ∈ c, White x) ∧ (∀ x ∈ d, White x) ∧ name key = true ∧
    '\n' ∉ value ∧ '#' ∉ value ∧ (∀ x ∈ value.head?, ¬ White x) ∧ (∀ x ∈ value.getLast?, ¬ White x) ∧ (∀ t ∈ r, '\n' ∉ t)

/-- The text of the file. -/
def fileText (f : List SettingsLine) : List Char := ['\n'].intercalate (f.map SettingsLine.text)

/-- The settings made, in order. -/
def settings : List SettingsLine → List (List Char × List Char)
  | [] => []
  | .setting _ key _ _ value _ _ :: rest => (key, value) :: settings rest
  | _ :: rest => settings rest

/-- The value that a list of settings gives to a key: the last one written. -/
def lastValue (key : List Char) : List (List Char × List Char) → Option (List Char)
  | [] => none
  | (k, v) :: rest => match lastValue key rest with
    | some w => some w
    | none => if k = key then some v else none

end Coralign.Spec
