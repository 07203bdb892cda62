import Verif.Base.ZSum
import Mathlib.Algebra.Field.Basic

/-!
# Specification: energy and moments of an image
-/

namespace Coralign.Spec

open Coralign

variable {K : Type} [Field K]

/-- Specification: total energy, and first moments in row and column, over the pixels of the image. -/
def energy (a : Arr2 K) : K := ∑ i : Fin a.nr, ∑ j : Fin a.nc, a.val i j
def rowMoment (a : Arr2 K) : K := ∑ i : Fin a.nr, ∑ j : Fin a.nc, ((i : ℕ) : K) * a.val i j
def colMoment (a : Arr2 K) : K := ∑ i : Fin a.nr, ∑ j : Fin a.nc, ((j : ℕ) : K) * a.val i j

/-- Specification: `b` shows the content of `a` moved down by `dy` and right by `dx`, nothing lost. -/
def Translated (a b : Arr2 K) (dy dx : ℤ) : Prop := ∀ i j, b.zext (i + dy) (j + dx) = a.zext i j

end Coralign.Spec
