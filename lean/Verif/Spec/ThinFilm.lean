import Mathlib.Analysis.SpecialFunctions.Complex.Circle
import Mathlib.Analysis.SpecialFunctions.Pow.Complex

/-!
# Specification of plane waves in layered media

Independent of the transfer-matrix code: tangential fields inside a slab are a sum of two plane waves with normal wavenumbers
`q` and `-q`, and are continuous across interfaces.  Time convention as in the code: an absorbing index is `n - i k`.
-/

namespace Coralign.Spec

/-- A transparent material. -/
def Lossless (n : ℂ) : Prop := 0 < n.re ∧ n.im = 0

/-- A material that does not amplify light. -/
def Passive (n : ℂ) : Prop := 0 < n.re ∧ n.im ≤ 0

/-- `q` is a normal wavenumber of index `n` at wavelength `lam` for transverse wavenumber `kx`: `q^2 + kx^2 = (2 pi n/lam)^2`. -/
def NormalWave (kx lam : ℝ) (n q : ℂ) : Prop := q * q + kx * kx = (2 * Real.pi * n / lam) * (2 * Real.pi * n / lam)

/-- Ratio of the two tangential fields of one plane wave: `q` for TE and `q/n^2` for TM. -/
noncomputable def admittance (tm : Bool) (n q : ℂ) : ℂ := if tm then q / (n * n) else q

/-- The tangential fields in front of and behind a slab of thickness `d`. -/
def SlabFields (kx lam : ℝ) (tm : Bool) (n : ℂ) (d : ℝ) (front back : ℂ × ℂ) : Prop :=
  ∃ q a b : ℂ, NormalWave kx lam n q ∧ q ≠ 0 ∧
    back = (a + b, admittance tm n q * (a - b)) ∧
    front = (a * Complex.exp (-Complex.I * (q * d)) + b * Complex.exp (Complex.I * (q * d)),
      admittance tm n q * (a * Complex.exp (-Complex.I * (q * d)) - b * Complex.exp (Complex.I * (q * d))))

/-- The tangential fields in front of and behind a stack of slabs, continuous across every interface. -/
def StackFields (kx lam : ℝ) (tm : Bool) : List (ℂ × ℝ) → ℂ × ℂ → ℂ × ℂ → Prop
  | [], front, back => front = back
  | s :: l, front, back => ∃ mid, SlabFields kx lam tm s.1 s.2 front mid ∧ StackFields kx lam tm l mid back

/-- Incident wave of unit amplitude and reflected amplitude `r` in front, transmitted amplitude `t` behind, with admittances `y0`
and `ys` of the outer media. -/
def Scatters (kx lam : ℝ) (tm : Bool) (y0 : ℂ) (layers : List (ℂ × ℝ)) (ys : ℂ) (r t : ℂ) : Prop :=
  StackFields kx lam tm layers (1 + r, y0 * (1 - r)) (t, ys * t)

end Coralign.Spec
