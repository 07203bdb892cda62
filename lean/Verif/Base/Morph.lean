import Verif.Base.Arr2
import Mathlib.Algebra.Order.Group.Abs
import Mathlib.Tactic.Linarith
import Mathlib.Algebra.Order.Ring.Int

/-!
# `scipy.ndimage.binary_erosion`
-/

namespace Coralign

/-- `binary_erosion(m, structure=s)` with scipy's defaults (`border_value=0`, `origin=0`, one iteration): a pixel
survives when every pixel under the structuring element, whose reference point is its element `shape//2`, is True;
pixels outside the array count as False. -/
def erode (m s : Arr2 Bool) : Arr2 Bool :=
  ⟨m.nr, m.nc, fun i j => decide (∀ (a : Fin s.nr) (b : Fin s.nc), s.val a b = true →
    m.px ((i : ℕ) + (a : ℕ) - (s.nr / 2 : ℕ)) ((j : ℕ) + (b : ℕ) - (s.nc / 2 : ℕ)) = some true)⟩

@[simp] theorem erode_nr (m s : Arr2 Bool) : (erode m s).nr = m.nr := rfl
@[simp] theorem erode_nc (m s : Arr2 Bool) : (erode m s).nc = m.nc := rfl

theorem px_erode (m s : Arr2 Bool) (i j : ℤ) (hin : (0 ≤ i ∧ i < m.nr) ∧ (0 ≤ j ∧ j < m.nc)) :
    (erode m s).px i j = some true ↔ ∀ a b : ℤ, s.px a b = some true →
      m.px (i + a - (s.nr / 2 : ℕ)) (j + b - (s.nc / 2 : ℕ)) = some true := by
  rw [Arr2.px_of_inB _ (show (0 ≤ i ∧ i < (erode m s).nr) ∧ (0 ≤ j ∧ j < (erode m s).nc) from hin)]
  simp only [erode, Option.some.injEq, decide_eq_true_eq]
  constructor
  · intro h a b hab
    have hab' := (Arr2.px_isSome s a b).mp (by rw [hab]; rfl)
    rw [Arr2.px_of_inB s hab'] at hab
    have := h ⟨a.toNat, by omega⟩ ⟨b.toNat, by omega⟩ (Option.some.inj hab)
    simp only at this
    convert this using 2 <;> omega
  · intro h a b hab
    have := h (a : ℕ) (b : ℕ) (by rw [Arr2.px_val, hab])
    convert this using 2 <;> omega

/-- The call of `binary_erosion` itself, which refuses a structuring element of size zero with `RuntimeError` ("structure must not be
empty").  An element all of whose entries are False is accepted, and everything survives it. -/
def binaryErosion (m s : Arr2 Bool) : Res (Arr2 Bool) :=
  if s.nr = 0 ∨ s.nc = 0 then .error .runtimeError else .ok (erode m s)

/-- `np.ones((1+2n, 1+2n))` as a structuring element. -/
def squareElem (n : ℕ) : Arr2 Bool := Arr2.full (1 + 2 * n) (1 + 2 * n) true

/-- Erosion by a square: every pixel within Chebyshev distance `n` must lie in the array and be True. -/
theorem px_erode_square (m : Arr2 Bool) (n : ℕ) (i j : ℤ) :
    (erode m (squareElem n)).px i j = some true ↔
      ∀ i' j' : ℤ, |i' - i| ≤ n → |j' - j| ≤ n → m.px i' j' = some true := by
  have hn : (squareElem n).nr / 2 = n ∧ (squareElem n).nc / 2 = n := by
    simp only [squareElem, Arr2.full_nr, Arr2.full_nc]; omega
  by_cases hin : (0 ≤ i ∧ i < m.nr) ∧ (0 ≤ j ∧ j < m.nc)
  · rw [px_erode m _ i j hin, hn.1, hn.2]
    constructor
    · intro h i' j' hi hj
      rw [abs_le] at hi hj
      have := h (i' - i + n) (j' - j + n) (by
        rw [squareElem, Arr2.px_full, if_pos]
        omega)
      convert this using 2 <;> omega
    · intro h a b hab
      rw [squareElem, Arr2.px_full] at hab
      split at hab
      · next hb => apply h <;> rw [abs_le] <;> omega
      · cases hab
  · rw [Arr2.px_of_not_inB _ (show ¬ ((0 ≤ i ∧ i < (erode m (squareElem n)).nr) ∧ (0 ≤ j ∧ j < (erode m (squareElem n)).nc)) from hin)]
    constructor
    · intro h; cases h
    · intro h
      have := h i j (by simp) (by simp)
      rw [Arr2.px_of_not_inB _ hin] at this
      cases this

end Coralign
