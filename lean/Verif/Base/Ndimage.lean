import Verif.Base.Arr2
import Mathlib.Data.Real.Basic
import Mathlib.Algebra.Order.Archimedean.Real.Basic
import Mathlib.Algebra.Order.Floor.Ring
import Mathlib.Tactic.Linarith

/-!
# Contracts of the image routines used by the DM code

The routines themselves are not modelled; every theorem holds for anything that meets these contracts.
-/

namespace Coralign

/-- `scipy.ndimage.rotate(a, angle, reshape=False)`: the output has the shape of the input and depends linearly on it.  With
its default boundary mode (`constant`, zero) and spline interpolation it is a linear map of the pixels. -/
structure Rotate where
  run : ℝ → Arr2 ℝ → Arr2 ℝ
  nr : ∀ th a, (run th a).nr = a.nr
  nc : ∀ th a, (run th a).nc = a.nc
  linear : ∀ (th : ℝ) (n m : ℕ) (f g : Fin n → Fin m → ℝ) (a b : ℝ) (i j : ℤ),
    ((run th ⟨n, m, fun i j => a * f i j + b * g i j⟩).px i j).getD 0 =
      a * ((run th ⟨n, m, f⟩).px i j).getD 0 + b * ((run th ⟨n, m, g⟩).px i j).getD 0
  /-- No rotation changes nothing. -/
  zeroAngle : ∀ a, run 0 a = a

/-- The contract can be met. -/
def Rotate.still : Rotate where
  run _ a := a
  nr _ _ := rfl
  nc _ _ := rfl
  linear th n m f g a b i j := by
    by_cases h : (0 ≤ i ∧ i < n) ∧ (0 ≤ j ∧ j < m)
    · rw [Arr2.px_of_inB _ h, Arr2.px_of_inB _ h, Arr2.px_of_inB _ h]; rfl
    · rw [Arr2.px_of_not_inB _ h, Arr2.px_of_not_inB _ h, Arr2.px_of_not_inB _ h]; simp
  zeroAngle _ := rfl

/-- `scipy.ndimage.shift(a, [dy, dx])`: the output has the shape of the input and depends linearly on it.  A shift by whole
pixels moves the pixels, brings in zeros from outside and drops what leaves the array. -/
structure Shift where
  run : ℝ → ℝ → Arr2 ℝ → Arr2 ℝ
  nr : ∀ dy dx a, (run dy dx a).nr = a.nr
  nc : ∀ dy dx a, (run dy dx a).nc = a.nc
  linear : ∀ (dy dx : ℝ) (n m : ℕ) (f g : Fin n → Fin m → ℝ) (a b : ℝ) (i j : ℤ),
    ((run dy dx ⟨n, m, fun i j => a * f i j + b * g i j⟩).px i j).getD 0 =
      a * ((run dy dx ⟨n, m, f⟩).px i j).getD 0 + b * ((run dy dx ⟨n, m, g⟩).px i j).getD 0
  whole : ∀ (dy dx : ℤ) (a : Arr2 ℝ) (i j : ℤ), (0 ≤ i ∧ i < a.nr) ∧ (0 ≤ j ∧ j < a.nc) →
    (run dy dx a).px i j = some ((a.px (i - dy) (j - dx)).getD 0)

open scoped Classical in
/-- The contract can be met: nearest-pixel shift. -/
noncomputable def Shift.nearest : Shift where
  run dy dx a := ⟨a.nr, a.nc, fun i j => (a.px ((i : ℕ) - ⌊dy⌋) ((j : ℕ) - ⌊dx⌋)).getD 0⟩
  nr _ _ _ := rfl
  nc _ _ _ := rfl
  linear dy dx n m f g a b i j := by
    have hp : ∀ i j : ℤ, ((⟨n, m, fun i j => a * f i j + b * g i j⟩ : Arr2 ℝ).px i j).getD 0 =
        a * ((⟨n, m, f⟩ : Arr2 ℝ).px i j).getD 0 + b * ((⟨n, m, g⟩ : Arr2 ℝ).px i j).getD 0 := by
      intro i j
      by_cases h : (0 ≤ i ∧ i < n) ∧ (0 ≤ j ∧ j < m)
      · rw [Arr2.px_of_inB _ h, Arr2.px_of_inB _ h, Arr2.px_of_inB _ h]; rfl
      · rw [Arr2.px_of_not_inB _ h, Arr2.px_of_not_inB _ h, Arr2.px_of_not_inB _ h]; simp
    by_cases h : (0 ≤ i ∧ i < n) ∧ (0 ≤ j ∧ j < m)
    · rw [Arr2.px_of_inB _ h, Arr2.px_of_inB _ h, Arr2.px_of_inB _ h]
      exact hp _ _
    · rw [Arr2.px_of_not_inB _ h, Arr2.px_of_not_inB _ h, Arr2.px_of_not_inB _ h]; simp
  whole dy dx a i j h := by
    refine (Arr2.px_of_inB (⟨a.nr, a.nc, fun i j => (a.px ((i : ℕ) - ⌊(dy : ℝ)⌋) ((j : ℕ) - ⌊(dx : ℝ)⌋)).getD 0⟩ : Arr2 ℝ) h).trans ?_
    simp only [Int.floor_intCast, Int.toNat_of_nonneg h.1.1, Int.toNat_of_nonneg h.2.1]

/-- `astropy.convolution.convolve(a, Box2DKernel(width))`: the output has the shape of the input, a map of zeros stays
zero, and values between bounds on either side of zero stay between them (the kernel has non-negative weights of sum at most one
within the array, and zeros are taken outside). -/
structure BoxSmooth where
  run : ℤ → Arr2 ℝ → Arr2 ℝ
  nr : ∀ w a, (run w a).nr = a.nr
  nc : ∀ w a, (run w a).nc = a.nc
  zero : ∀ w n m, run w (Arr2.full n m 0) = Arr2.full n m 0
  range : ∀ w a lo hi, lo ≤ 0 → 0 ≤ hi → (∀ i j, lo ≤ a.val i j ∧ a.val i j ≤ hi) → ∀ i j, lo ≤ (run w a).val i j ∧ (run w a).val i j ≤ hi

/-- The contract can be met. -/
def BoxSmooth.still : BoxSmooth where
  run _ a := a
  nr _ _ := rfl
  nc _ _ := rfl
  zero _ _ _ := rfl
  range _ _ _ _ _ _ h := h

/-- `scipy.optimize.fminbound(f, lo, hi)`: evaluates `f` inside the interval only and returns a point of the interval.  An
exception raised by `f` is passed on. -/
structure FminBound where
  run : (ℝ → Res ℝ) → ℝ → ℝ → Res ℝ
  inRange : ∀ (f : ℝ → Res ℝ) (lo hi : ℝ), lo ≤ hi → (∀ a, lo ≤ a → a ≤ hi → ∃ v, f a = .ok v) →
    ∃ r, run f lo hi = .ok r ∧ lo ≤ r ∧ r ≤ hi

/-- The contract can be met. -/
noncomputable def FminBound.midpoint : FminBound where
  run _ lo hi := .ok ((lo + hi) / 2)
  inRange _ lo hi h _ := ⟨_, rfl, by linarith, by linarith⟩

end Coralign
