import Verif.Model.FitShapes
import Verif.Spec.Window

/-!
# Specification vocabulary for the circle and ellipse fits
-/

namespace Coralign.Spec

open Coralign

/-- The places of the plane within `n` pixels of `p`, diagonals counting as one. -/
def Near (n : ℕ) (p q : ℤ × ℤ) : Prop := |q.1 - p.1| ≤ n ∧ |q.2 - p.2| ≤ n

/-- The set with gaps of up to `2 n` pixels closed: the places all of whose neighbours within `n` have a place of the set within `n`. -/
def Closed (n : ℕ) (B : Set (ℤ × ℤ)) : Set (ℤ × ℤ) := {p | ∀ q, Near n p q → ∃ r ∈ B, Near n q r}

/-- The places, counted from the centre pixel as (row, column), at which a mask is True. -/
def places (m : Arr2 Bool) : Set (ℤ × ℤ) := {p | m.centered p.1 p.2 = some true}

/-- Every place of `B` keeps `n` pixels clear of the border of a square array of `N` pixels. -/
def Room (N : ℤ) (n : ℕ) (B : Set (ℤ × ℤ)) : Prop := ∀ p ∈ B, ∀ q, Near n p q → Reaches N N q.1 q.2

/-- An ellipse finder that sees only the shape: the same shape elsewhere, or in an array of another size, gives the same axes and the
centre moved along. -/
def SeesShape (E : EllipseFinder) : Prop :=
  ∀ (M N : Arr2 Bool) (dy dx : ℤ), (∀ p : ℤ × ℤ, p ∈ places M ↔ (p.1 + dy, p.2 + dx) ∈ places N) →
    E N = (E M).map fun e => ((e.1.1 - ((M.nc / 2 : ℕ) : ℝ) + ((N.nc / 2 : ℕ) : ℝ) + dx, e.1.2 - ((M.nr / 2 : ℕ) : ℝ) + ((N.nr / 2 : ℕ) : ℝ) + dy), e.2)

/-- A clean image: the pixels in `B` have the value `v > 0`, all others are 0, and `B` is not empty. -/
def CleanPupil (img : Arr2 ℝ) (v : ℝ) (B : Set (ℤ × ℤ)) : Prop :=
  0 < v ∧ B.Nonempty ∧ (∀ p ∈ B, img.centered p.1 p.2 = some v) ∧ ∀ p w, p ∉ B → img.centered p.1 p.2 = some w → w = 0

end Coralign.Spec
