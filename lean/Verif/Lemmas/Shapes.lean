import Verif.Model.Shapes
import Verif.Spec.Shapes
import Verif.Spec.Window
import Mathlib.Tactic.FieldSimp
import Mathlib.Tactic.Linarith
import Mathlib.Tactic.Ring
import Mathlib.Tactic.Positivity
import Mathlib.Algebra.Order.Group.Abs
import Mathlib.Algebra.Order.BigOperators.Group.Finset

/-!
# Lemmas on the rasterisation loop of `shapes.py`
-/

namespace Coralign

open Coralign.Spec Finset

theorem shapeAxis_eq (n : ℕ) (off : ℝ) (k : ℕ) (hk : k < n) : shapeAxis n off k = (k : ℝ) - ((n / 2 : ℕ) : ℝ) - off := by
  unfold shapeAxis linspace
  have hs : ∀ a b : ℝ, b - a = (n : ℝ) - 1 → a + k * ((b - a) / ((n : ℝ) - 1)) = a + k := by
    intro a b h
    rw [h]
    rcases eq_or_ne ((n : ℝ) - 1) 0 with h0 | h0
    · have h1 : (n : ℝ) = 1 := by linarith
      have : n = 1 := by exact_mod_cast h1
      have hk0 : k = 0 := by omega
      subst hk0; simp
    · rw [div_self h0, mul_one]
  by_cases hp : n % 2 = 0
  · rw [if_pos hp, hs _ _ (by ring)]
    have : (n : ℝ) = 2 * ((n / 2 : ℕ) : ℝ) := by
      have : n = 2 * (n / 2) := by omega
      exact_mod_cast this
    linarith
  · rw [if_neg hp, hs _ _ (by ring)]
    have : (n : ℝ) = 2 * ((n / 2 : ℕ) : ℝ) + 1 := by
      have : n = 2 * (n / 2) + 1 := by omega
      exact_mod_cast this
    linarith

theorem shapeAxis_dx (n : ℕ) (off : ℝ) (hn : 2 ≤ n) : shapeAxis n off 1 - shapeAxis n off 0 = 1 := by
  rw [shapeAxis_eq n off 1 (by omega), shapeAxis_eq n off 0 (by omega)]
  push_cast; ring

theorem subAxis_eq (N s : ℕ) (hs : s < N) : subAxis N (1 / (N : ℝ)) s = ((s : ℝ) + 1 / 2) / N - 1 / 2 := by
  unfold subAxis linspace
  have hN : (N : ℝ) ≠ 0 := by
    have : 0 < N := by omega
    positivity
  rcases eq_or_ne ((N : ℝ) - 1) 0 with h0 | h0
  · have h1 : (N : ℝ) = 1 := by linarith
    have : N = 1 := by exact_mod_cast h1
    subst this
    have : s = 0 := by omega
    subst this
    norm_num
  · have : (((N : ℝ) - 1) / 2 - -(((N : ℝ) - 1) / 2)) / ((N : ℝ) - 1) = 1 := by
      rw [sub_neg_eq_add, add_halves, div_self h0]
    rw [this]
    field_simp
    ring

theorem sub_bound (N s : ℕ) (hs : s < N) : |((s : ℝ) + 1 / 2) / N - 1 / 2| < 1 / 2 := by
  have hN : (0 : ℝ) < N := by exact_mod_cast (by omega : 0 < N)
  have h2 : (s : ℝ) + 1 ≤ N := by exact_mod_cast hs
  have h0 : (0 : ℝ) ≤ s := by positivity
  rw [abs_lt]
  constructor
  · have : 0 < ((s : ℝ) + 1 / 2) / N := by positivity
    linarith
  · have : ((s : ℝ) + 1 / 2) / N < 1 := by rw [div_lt_one hN]; linarith
    linarith

/-- `u` is the offset of a sub-pixel centre from its pixel's centre, along one axis. -/
def SubOffset (N : ℕ) (u : ℝ) : Prop := ∃ s : ℕ, s < N ∧ u = ((s : ℝ) + 1 / 2) / N - 1 / 2

theorem SubOffset.lt {N : ℕ} {u : ℝ} (h : SubOffset N u) : |u| < 1 / 2 := by
  obtain ⟨s, hs, rfl⟩ := h
  exact sub_bound N s hs

theorem subMean_eq (N : ℕ) (P : ℝ → ℝ → Prop) (x y : ℝ) : subMean N (1 / (N : ℝ)) P x y = areaFraction N P x y := by
  unfold subMean areaFraction
  rw [sq]
  congr 1
  rw [← Finset.sum_product']
  rw [Finset.card_filter]
  push_cast
  rw [Finset.univ_product_univ]
  refine Finset.sum_congr rfl fun s _ => ?_
  rw [subAxis_eq N s.1 s.1.isLt, subAxis_eq N s.2 s.2.isLt, add_comm x, add_comm y]

theorem areaFraction_range (N : ℕ) (P : ℝ → ℝ → Prop) (x y : ℝ) : 0 ≤ areaFraction N P x y ∧ areaFraction N P x y ≤ 1 := by
  classical
  unfold areaFraction
  constructor
  · positivity
  · refine div_le_one_of_le₀ ?_ (by positivity)
    have := Finset.card_filter_le (Finset.univ : Finset (Fin N × Fin N)) (fun s : Fin N × Fin N =>
      P (x + (((s.2 : ℕ) + 1 / 2 : ℝ) / N - 1 / 2)) (y + (((s.1 : ℕ) + 1 / 2 : ℝ) / N - 1 / 2)))
    rw [Finset.card_univ, Fintype.card_prod, Fintype.card_fin] at this
    rw [sq]
    exact_mod_cast this

theorem areaFraction_all (N : ℕ) (hN : 0 < N) (P : ℝ → ℝ → Prop) (x y : ℝ)
    (h : ∀ u v, SubOffset N u → SubOffset N v → P (x + u) (y + v)) : areaFraction N P x y = 1 := by
  classical
  unfold areaFraction
  rw [Finset.filter_true_of_mem fun s _ => h _ _ ⟨s.2, s.2.isLt, rfl⟩ ⟨s.1, s.1.isLt, rfl⟩, Finset.card_univ,
    Fintype.card_prod, Fintype.card_fin, sq]
  have : (N : ℝ) ≠ 0 := by positivity
  push_cast
  field_simp

theorem areaFraction_none (N : ℕ) (P : ℝ → ℝ → Prop) (x y : ℝ)
    (h : ∀ u v, SubOffset N u → SubOffset N v → ¬ P (x + u) (y + v)) : areaFraction N P x y = 0 := by
  classical
  unfold areaFraction
  rw [Finset.filter_false_of_mem fun s _ => h _ _ ⟨s.2, s.2.isLt, rfl⟩ ⟨s.1, s.1.isLt, rfl⟩, Finset.card_empty]
  simp

theorem areaFraction_congr (N : ℕ) (P Q : ℝ → ℝ → Prop) (h : ∀ x y, P x y ↔ Q x y) (x y : ℝ) :
    areaFraction N P x y = areaFraction N Q x y := by
  have : P = Q := by funext x y; exact propext (h x y)
  rw [this]

theorem areaFraction_mono (N : ℕ) (P Q : ℝ → ℝ → Prop) (h : ∀ x y, P x y → Q x y) (x y : ℝ) :
    areaFraction N P x y ≤ areaFraction N Q x y := by
  unfold areaFraction
  gcongr
  intro hP
  exact h _ _ hP

/-- Every value of the loop is in `[0, 1]`, whatever the shortcuts are. -/
theorem antialiasVal_range (is1 is0 P : ℝ → ℝ → Prop) (N : ℕ) (d x y : ℝ) :
    0 ≤ antialiasVal is1 is0 P N d x y ∧ antialiasVal is1 is0 P N d x y ≤ 1 := by
  have hs : 0 ≤ subMean N d P x y ∧ subMean N d P x y ≤ 1 := by
    unfold subMean
    constructor
    · refine div_nonneg (Finset.sum_nonneg fun a _ => Finset.sum_nonneg fun b _ => ?_) (by positivity)
      split_ifs <;> norm_num
    · refine div_le_one_of_le₀ ?_ (by positivity)
      calc _ ≤ ∑ a : Fin N, ∑ b : Fin N, (1 : ℝ) :=
            Finset.sum_le_sum fun a _ => Finset.sum_le_sum fun b _ => by split_ifs <;> norm_num
        _ = (N : ℝ) * N := by simp
  unfold antialiasVal
  by_cases h0 : is0 x y
  · simp only [h0, if_true]; norm_num
  · simp only [h0, if_false]
    by_cases h1 : is1 x y
    · simp only [h1, if_true]; norm_num
    · simp only [h1, if_false, if_true]; exact hs

theorem antialiasVal_zero (is1 is0 P : ℝ → ℝ → Prop) (N : ℕ) (d x y : ℝ) (h : is0 x y) :
    antialiasVal is1 is0 P N d x y = 0 := by
  unfold antialiasVal
  simp only [h, if_true]
  rw [if_neg (by norm_num)]

theorem antialiasVal_one (is1 is0 P : ℝ → ℝ → Prop) (N : ℕ) (d x y : ℝ) (h : is1 x y) (h0 : ¬ is0 x y) :
    antialiasVal is1 is0 P N d x y = 1 := by
  unfold antialiasVal
  simp only [h, h0, if_true, if_false]
  rw [if_neg (by norm_num)]

/-- Sound shortcuts do not change the result. -/
theorem antialiasVal_exact (is1 is0 P : ℝ → ℝ → Prop) (N : ℕ) (hN : 0 < N) (x y : ℝ)
    (h1 : ∀ u v, is1 x y → SubOffset N u → SubOffset N v → P (x + u) (y + v))
    (h0 : ∀ u v, is0 x y → SubOffset N u → SubOffset N v → ¬ P (x + u) (y + v)) :
    antialiasVal is1 is0 P N (1 / (N : ℝ)) x y = areaFraction N P x y := by
  by_cases c0 : is0 x y
  · rw [antialiasVal_zero _ _ _ _ _ _ _ c0, areaFraction_none N P _ _ fun u v => h0 u v c0]
  · by_cases c1 : is1 x y
    · rw [antialiasVal_one _ _ _ _ _ _ _ c1 c0, areaFraction_all N hN P _ _ fun u v => h1 u v c1]
    · unfold antialiasVal
      simp only [c0, c1, if_false, if_true]
      exact subMean_eq N P _ _

theorem antialias_exact (ny nx : ℕ) (xs ys : ℕ → ℝ) (is1 is0 P : ℝ → ℝ → Prop) (N : ℕ) (hN : 0 < N)
    (h1 : ∀ x y u v, is1 x y → SubOffset N u → SubOffset N v → P (x + u) (y + v))
    (h0 : ∀ x y u v, is0 x y → SubOffset N u → SubOffset N v → ¬ P (x + u) (y + v)) :
    antialias ny nx xs ys is1 is0 P N (1 / (N : ℝ)) = ⟨ny, nx, fun i j => areaFraction N P (xs j) (ys i)⟩ := by
  unfold antialias
  congr 1
  funext i j
  exact antialiasVal_exact _ _ _ N hN _ _ (h1 _ _) (h0 _ _)

theorem sqrt_le_iff_disc (r x y : ℝ) (hr : 0 < r) : Real.sqrt (x ^ 2 + y ^ 2) ≤ r ↔ inDisc r x y := by
  unfold inDisc
  rw [Real.sqrt_le_left hr.le]

/-- Triangle inequality for the Euclidean length used by the code. -/
theorem sqrt_add_le (x y u v : ℝ) : Real.sqrt ((x + u) ^ 2 + (y + v) ^ 2) ≤ Real.sqrt (x ^ 2 + y ^ 2) + Real.sqrt (u ^ 2 + v ^ 2) := by
  have h1 := Real.sqrt_nonneg (x ^ 2 + y ^ 2)
  have h2 := Real.sqrt_nonneg (u ^ 2 + v ^ 2)
  refine Real.sqrt_le_iff.mpr ⟨by linarith, ?_⟩
  have e1 := Real.sq_sqrt (show 0 ≤ x ^ 2 + y ^ 2 by positivity)
  have e2 := Real.sq_sqrt (show 0 ≤ u ^ 2 + v ^ 2 by positivity)
  have cs : x * u + y * v ≤ Real.sqrt (x ^ 2 + y ^ 2) * Real.sqrt (u ^ 2 + v ^ 2) := by
    rw [← Real.sqrt_mul (by positivity)]
    refine Real.le_sqrt_of_sq_le ?_
    nlinarith [sq_nonneg (x * v - y * u)]
  nlinarith

theorem sub_length (u v : ℝ) (hu : |u| < 1 / 2) (hv : |v| < 1 / 2) : Real.sqrt (u ^ 2 + v ^ 2) < Real.sqrt 2 := by
  refine Real.sqrt_lt_sqrt (by positivity) ?_
  rw [abs_lt] at hu hv
  nlinarith [hu.1, hu.2, hv.1, hv.2]

theorem rotU_eq (t x y : ℝ) : rotU t x y = x * Real.cos t + y * Real.sin t := by
  unfold rotU cart2pol arctan2
  simp only
  have hn : Real.sqrt (x ^ 2 + y ^ 2) = ‖(⟨x, y⟩ : ℂ)‖ := by
    rw [Complex.norm_def, Complex.normSq_mk]; congr 1; ring
  have hc := Complex.norm_mul_cos_arg (⟨x, y⟩ : ℂ)
  have hs := Complex.norm_mul_sin_arg (⟨x, y⟩ : ℂ)
  simp only at hc hs
  rw [hn, Real.cos_sub, mul_add, ← mul_assoc, ← mul_assoc, hc, hs]

theorem rotV_eq (t x y : ℝ) : rotV t x y = y * Real.cos t - x * Real.sin t := by
  unfold rotV cart2pol arctan2
  simp only
  have hn : Real.sqrt (x ^ 2 + y ^ 2) = ‖(⟨x, y⟩ : ℂ)‖ := by
    rw [Complex.norm_def, Complex.normSq_mk]; congr 1; ring
  have hc := Complex.norm_mul_cos_arg (⟨x, y⟩ : ℂ)
  have hs := Complex.norm_mul_sin_arg (⟨x, y⟩ : ℂ)
  simp only at hc hs
  rw [hn, Real.sin_sub, mul_sub, ← mul_assoc, ← mul_assoc, hc, hs]

/-- A rotated coordinate of a sub-pixel offset is shorter than `√2`. -/
theorem turned_lt (t u v : ℝ) (hu : |u| < 1 / 2) (hv : |v| < 1 / 2) :
    |u * Real.cos t + v * Real.sin t| < Real.sqrt 2 ∧ |v * Real.cos t - u * Real.sin t| < Real.sqrt 2 := by
  have h := Real.sin_sq_add_cos_sq t
  rw [abs_lt] at hu hv
  have hb : u ^ 2 + v ^ 2 < 2 := by nlinarith [hu.1, hu.2, hv.1, hv.2]
  have h2 := Real.sq_sqrt (show (0 : ℝ) ≤ 2 by norm_num)
  have e : (u * Real.cos t + v * Real.sin t) ^ 2 + (v * Real.cos t - u * Real.sin t) ^ 2 = u ^ 2 + v ^ 2 := by
    have : (u * Real.cos t + v * Real.sin t) ^ 2 + (v * Real.cos t - u * Real.sin t) ^ 2 =
      (u ^ 2 + v ^ 2) * (Real.sin t ^ 2 + Real.cos t ^ 2) := by ring
    rw [this, h, mul_one]
  constructor
  · refine abs_lt_of_sq_lt_sq ?_ (Real.sqrt_nonneg 2)
    nlinarith [sq_nonneg (v * Real.cos t - u * Real.sin t)]
  · refine abs_lt_of_sq_lt_sq ?_ (Real.sqrt_nonneg 2)
    nlinarith [sq_nonneg (u * Real.cos t + v * Real.sin t)]

end Coralign
