import Verif.Base.Cis
import Verif.Spec.Window
import Mathlib.Data.Int.Interval

/-!
# Specification vocabulary for the lateral offset search
-/

namespace Coralign.Spec

open Coralign

/-- The pixel at signed offset `(p, q)` from the centre pixel, zero outside the array. -/
noncomputable def at0 (a : Arr2 ℝ) (p q : ℤ) : ℝ := (a.centered p q).getD 0

/-- The signed offsets of the pixels of an axis of length `n` from its centre pixel. -/
noncomputable def window (n : ℕ) : Finset ℤ := Finset.Ico (-((n : ℤ) / 2)) ((n : ℤ) - (n : ℤ) / 2)

/-- The focal-plane field at frequency `(u, v)` (rows, columns) of the part of a pupil inside an `n x n` window. -/
noncomputable def fieldAt (n : ℕ) (f : ℤ → ℤ → ℝ) (u v : ℤ) : ℂ :=
  (∑ p ∈ window n, ∑ q ∈ window n, (f p q : ℂ) * Complex.exp (-2 * Real.pi * Complex.I * ((u * p + v * q) / n))) / n

/-- How badly the measured pupil, moved back by the trial displacement `(dx, dy)`, matches the reference, over the `c x c` central
frequencies.  For odd `n` the function's frequencies are half a sample off; `h` is that error (0 or 1/2). -/
noncomputable def mismatch (n c : ℕ) (h : ℝ) (meas ref : ℤ → ℤ → ℝ) (dx dy : ℝ) : ℝ :=
  ∑ u ∈ window c ∩ window n, ∑ v ∈ window c ∩ window n,
    ‖fieldAt n meas u v * Complex.exp (2 * Real.pi * Complex.I * ((dx * (v - h) + dy * (u - h)) / n)) - fieldAt n ref u v‖ ^ 2

/-- The half sample. -/
noncomputable def halfSample (n : ℕ) : ℝ := if n % 2 = 0 then 0 else 1 / 2

/-- Some central frequency at which the reference has light tells the displacement `(dx, dy)` from none: moving the pupil by `(dx, dy)`
changes the field there. -/
def Resolves (n c : ℕ) (h : ℝ) (ref : ℤ → ℤ → ℝ) (dx dy : ℝ) : Prop :=
  ∃ u ∈ window c ∩ window n, ∃ v ∈ window c ∩ window n, fieldAt n ref u v ≠ 0 ∧
    Complex.exp (2 * Real.pi * Complex.I * ((dx * (v - h) + dy * (u - h)) / n)) ≠ 1

end Coralign.Spec
