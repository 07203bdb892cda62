import Verif.Base.Arr2

/-!
# Specification vocabulary: centred pixels and windows

The centre pixel of an axis of length `n` is index `n // 2` (FFT convention).
-/

namespace Coralign


variable {α : Type}

/-- The pixel at signed offset `(k, l)` (rows, columns) from the centre pixel, if the array has one there. -/
def Arr2.centered (a : Arr2 α) (k l : Int) : Option α := a.px ((a.nr : Int) / 2 + k) ((a.nc : Int) / 2 + l)

/-- Does an array of the given shape have a pixel at signed offset `(k, l)` from its centre pixel? -/
def Reaches (h w : Int) (k l : Int) : Prop :=
  (0 ≤ h / 2 + k ∧ h / 2 + k < h) ∧ (0 ≤ w / 2 + l ∧ w / 2 + l < w)

instance (h w k l : Int) : Decidable (Reaches h w k l) := by unfold Reaches; infer_instance

end Coralign
