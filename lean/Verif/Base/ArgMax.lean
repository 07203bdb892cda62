import Verif.Base.ZSum

/-!
# `np.argmax` on a two-dimensional array

numpy flattens the array in row-major order and returns the first position of the maximum.
-/

namespace Coralign

variable {K : Type} [LinearOrder K]

/-- The first position of the largest of `f 0, ..., f k`. -/
def argmaxUpto (f : ℕ → K) : ℕ → ℕ
  | 0 => 0
  | k + 1 => if f (argmaxUpto f k) < f (k + 1) then k + 1 else argmaxUpto f k

theorem argmaxUpto_spec (f : ℕ → K) (k : ℕ) :
    argmaxUpto f k ≤ k ∧ (∀ i ≤ k, f i ≤ f (argmaxUpto f k)) ∧ ∀ i < argmaxUpto f k, f i < f (argmaxUpto f k) := by
  induction k with
  | zero => exact ⟨le_rfl, fun i hi => by rw [Nat.le_zero.mp hi]; rfl, fun i hi => absurd hi (Nat.not_lt_zero i)⟩
  | succ k ih =>
    obtain ⟨h1, h2, h3⟩ := ih
    unfold argmaxUpto
    split
    · next hlt =>
      refine ⟨le_rfl, fun i hi => ?_, fun i hi => lt_of_le_of_lt (h2 i (by omega)) hlt⟩
      rcases Nat.lt_or_ge i (k + 1) with h | h
      · exact (h2 i (by omega)).trans hlt.le
      · rw [show i = k + 1 by omega]
    · next hge =>
      refine ⟨by omega, fun i hi => ?_, h3⟩
      rcases Nat.lt_or_ge i (k + 1) with h | h
      · exact h2 i (by omega)
      · rw [show i = k + 1 by omega]; exact not_lt.mp hge

/-- `np.unravel_index(np.argmax(a), a.shape)`, for a non-empty array. -/
def argmax2 [Zero K] (a : Arr2 K) : ℕ × ℕ :=
  let p := argmaxUpto (fun p => a.zext ((p / a.nc : ℕ) : ℤ) ((p % a.nc : ℕ) : ℤ)) (a.nr * a.nc - 1)
  (p / a.nc, p % a.nc)

/-- `(i, j)` comes before `(i', j')` in row-major order. -/
def RowMajor (i j i' j' : ℕ) : Prop := i < i' ∨ i = i' ∧ j < j'

/-- Specification: `(i, j)` is the first position of the maximum. -/
structure FirstMax (a : Arr2 K) (i j : ℕ) : Prop where
  row : i < a.nr
  col : j < a.nc
  most : ∀ (p : Fin a.nr) (q : Fin a.nc), a.val p q ≤ a.val ⟨i, row⟩ ⟨j, col⟩
  first : ∀ (p : Fin a.nr) (q : Fin a.nc), RowMajor p q i j → a.val p q < a.val ⟨i, row⟩ ⟨j, col⟩

theorem flat_lt {n m i j : ℕ} (hi : i < n) (hj : j < m) : i * m + j < n * m := by
  have : i * m + m ≤ n * m := by
    have := Nat.mul_le_mul_right m (show i + 1 ≤ n by omega)
    rwa [Nat.add_mul, one_mul] at this
  omega

theorem argmax2_spec [Zero K] (a : Arr2 K) (hr : 0 < a.nr) (hc : 0 < a.nc) : FirstMax a (argmax2 a).1 (argmax2 a).2 := by
  obtain ⟨n, m, f⟩ := a
  simp only at hr hc
  have hpos : 0 < n * m := Nat.mul_pos hr hc
  obtain ⟨h1, h2, h3⟩ := argmaxUpto_spec (fun p => (⟨n, m, f⟩ : Arr2 K).zext ((p / m : ℕ) : ℤ) ((p % m : ℕ) : ℤ)) (n * m - 1)
  have hdef : argmax2 (⟨n, m, f⟩ : Arr2 K) =
      (argmaxUpto (fun p => (⟨n, m, f⟩ : Arr2 K).zext ((p / m : ℕ) : ℤ) ((p % m : ℕ) : ℤ)) (n * m - 1) / m,
       argmaxUpto (fun p => (⟨n, m, f⟩ : Arr2 K).zext ((p / m : ℕ) : ℤ) ((p % m : ℕ) : ℤ)) (n * m - 1) % m) := rfl
  rw [hdef]
  generalize argmaxUpto (fun p => (⟨n, m, f⟩ : Arr2 K).zext ((p / m : ℕ) : ℤ) ((p % m : ℕ) : ℤ)) (n * m - 1) = b at h1 h2 h3
  have hb : b < n * m := by omega
  have hrow : b / m < n := (Nat.div_lt_iff_lt_mul hc).mpr hb
  have hcol : b % m < m := Nat.mod_lt _ hc
  have key : ∀ (i : Fin n) (j : Fin m), (⟨n, m, f⟩ : Arr2 K).zext ((((i : ℕ) * m + j) / m : ℕ) : ℤ) ((((i : ℕ) * m + j) % m : ℕ) : ℤ) =
      f i j := by
    intro i j
    have d1 : ((i : ℕ) * m + j) / m = i := by
      rw [mul_comm, Nat.mul_add_div hc, Nat.div_eq_of_lt j.isLt, add_zero]
    have d2 : ((i : ℕ) * m + j) % m = j := by rw [mul_comm, Nat.mul_add_mod, Nat.mod_eq_of_lt j.isLt]
    rw [d1, d2]
    exact Arr2.zext_val (⟨n, m, f⟩ : Arr2 K) i j
  have hbv : (⟨n, m, f⟩ : Arr2 K).zext ((b / m : ℕ) : ℤ) ((b % m : ℕ) : ℤ) = f ⟨b / m, hrow⟩ ⟨b % m, hcol⟩ :=
    Arr2.zext_val (⟨n, m, f⟩ : Arr2 K) ⟨b / m, hrow⟩ ⟨b % m, hcol⟩
  refine ⟨hrow, hcol, fun p q => ?_, fun p q hpq => ?_⟩
  · have := h2 ((p : ℕ) * m + q) (by have := flat_lt p.isLt q.isLt; simp only at this; omega)
    simp only at this
    rw [key p q, hbv] at this
    exact this
  · have hlt : (p : ℕ) * m + q < b := by
      have hdm := Nat.div_add_mod b m
      have hq : (q : ℕ) < m := q.isLt
      rcases hpq with h | ⟨h, h'⟩
      · have : ((p : ℕ) + 1) * m ≤ b / m * m := Nat.mul_le_mul_right m h
        rw [Nat.add_mul, one_mul] at this
        rw [mul_comm] at hdm
        omega
      · rw [h, mul_comm (b / m) m]
        exact lt_of_lt_of_eq (Nat.add_lt_add_left h' _) hdm
    have := h3 ((p : ℕ) * m + q) hlt
    simp only at this
    rw [key p q, hbv] at this
    exact this

/-- A strict maximum is found. -/
theorem argmax2_unique [Zero K] (a : Arr2 K) (i : Fin a.nr) (j : Fin a.nc)
    (h : ∀ (p : Fin a.nr) (q : Fin a.nc), (p ≠ i ∨ q ≠ j) → a.val p q < a.val i j) : argmax2 a = ((i : ℕ), (j : ℕ)) := by
  have hs := argmax2_spec a (Nat.lt_of_le_of_lt (Nat.zero_le _) i.isLt) (Nat.lt_of_le_of_lt (Nat.zero_le _) j.isLt)
  by_contra hne
  have hle := hs.most i j
  have := h ⟨_, hs.row⟩ ⟨_, hs.col⟩ (by
    by_contra hc
    push Not at hc
    apply hne
    exact Prod.ext (congrArg Fin.val hc.1) (congrArg Fin.val hc.2))
  exact absurd hle (not_le.mpr this)

end Coralign
