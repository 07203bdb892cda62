import Verif.Model.ShapesDouble
import Verif.Lemmas.Shapes
import Mathlib.Tactic.Linarith
import Mathlib.Tactic.NormNum
import Mathlib.Tactic.Ring

/-!
# Lemmas on `circle` in double precision
-/

namespace Coralign

open Coralign.Spec Finset

theorem double_half (m : ℤ) (h : |m| < 2 ^ 53) : double ((m : ℝ) / 2) = (m : ℝ) / 2 := by
  have := double_of_bits m (-1) h (by norm_num)
  rw [zpow_neg_one, ← div_eq_mul_inv] at this
  exact this

theorem double_nat (n : ℕ) (h : n ≤ 2 ^ 53) : double (n : ℝ) = n := by
  have := double_int (n : ℤ) (by rw [Nat.abs_cast]; exact_mod_cast h)
  exact_mod_cast this

theorem double_one : double 1 = 1 := by exact_mod_cast double_nat 1 (by norm_num)

/-- Whole steps between half-integers are exact. -/
theorem linspaceD_half (c : ℤ) (n k : ℕ) (hn : n ≤ 2 ^ 50) (hk : k < n) (hc : |c| ≤ 2 ^ 50) (b : ℝ) (hb : b = (c : ℝ) / 2 + ((n : ℝ) - 1)) :
    linspaceD ((c : ℝ) / 2) b n k = (c : ℝ) / 2 + k := by
  unfold linspaceD
  have e1 : double ((n : ℝ) - 1) = (n : ℝ) - 1 := by
    have := double_nat (n - 1) (by omega)
    rw [Nat.cast_sub (by omega)] at this
    simpa using this
  split_ifs with h
  · have hk' : ((k : ℝ)) + 1 = n := by exact_mod_cast h.2
    rw [hb]
    linarith
  · simp only
    rw [show b - (c : ℝ) / 2 = (n : ℝ) - 1 by rw [hb]; ring, e1]
    rcases eq_or_ne n 1 with rfl | h1
    · have : k = 0 := by omega
      subst this
      simp only [Nat.cast_zero, double_zero, zero_mul, zero_add, add_zero]
      exact double_half c (by omega)
    · have h2 : ((n : ℝ) - 1) ≠ 0 := by
        intro h0
        have : (n : ℝ) = 1 := by linarith
        exact h1 (by exact_mod_cast this)
      rw [div_self h2, double_one, mul_one, double_nat k (by omega), double_nat k (by omega)]
      have := double_half (c + 2 * k) (by rw [abs_lt]; rw [abs_le] at hc; constructor <;> omega)
      push_cast at this
      rw [show (k : ℝ) + (c : ℝ) / 2 = ((c : ℝ) + 2 * k) / 2 by ring, this]
      ring

theorem double_negNat (n : ℕ) (h : n ≤ 2 ^ 53) : double (-(n : ℝ)) = -(n : ℝ) := by rw [double_neg, double_nat n h]

theorem shapeAxisD_eq (n : ℕ) (off : ℝ) (k : ℕ) (hk : k < n) (hn : n ≤ 2 ^ 50) :
    shapeAxisD n off k = double ((k : ℝ) - ((n / 2 : ℕ) : ℝ) - off) := by
  unfold shapeAxisD
  have e1 : double ((n : ℝ) - 1) = (n : ℝ) - 1 := by
    have := double_nat (n - 1) (by omega)
    rw [Nat.cast_sub (by omega)] at this
    simpa using this
  split_ifs with hp
  · obtain ⟨m, rfl⟩ : ∃ m, n = 2 * m := ⟨n / 2, by omega⟩
    have h1 : double (double (-((2 * m : ℕ) : ℝ)) / 2) = ((-(2 * m : ℕ) : ℤ) : ℝ) / 2 := by
      rw [double_negNat _ (by omega)]
      have := double_half (-(2 * m : ℕ)) (by rw [abs_neg, Nat.abs_cast]; omega)
      push_cast at this ⊢
      exact this
    have h2 : double (double (double ((2 * m : ℕ) : ℝ) / 2) - 1) = ((-(2 * m : ℕ) : ℤ) : ℝ) / 2 + (((2 * m : ℕ) : ℝ) - 1) := by
      rw [double_nat _ (by omega), show (((2 * m : ℕ) : ℝ)) / 2 = (m : ℝ) by push_cast; ring, double_nat m (by omega)]
      have := double_int ((m : ℤ) - 1) (by rw [abs_le]; constructor <;> omega)
      push_cast at this ⊢
      rw [this]
      ring
    rw [h1, linspaceD_half _ _ k hn hk (by rw [abs_neg, Nat.abs_cast]; omega) _ h2]
    congr 2
    rw [show 2 * m / 2 = m by omega]
    push_cast
    ring
  · obtain ⟨m, rfl⟩ : ∃ m, n = 2 * m + 1 := ⟨n / 2, by omega⟩
    have h1 : double (double (-(((2 * m + 1 : ℕ) : ℝ) - 1)) / 2) = ((-(2 * m : ℕ) : ℤ) : ℝ) / 2 := by
      rw [double_neg, e1]
      have := double_half (-(2 * m : ℕ)) (by rw [abs_neg, Nat.abs_cast]; omega)
      push_cast at this ⊢
      rw [← this]
      congr 1
      ring
    have h2 : double (double (((2 * m + 1 : ℕ) : ℝ) - 1) / 2) = ((-(2 * m : ℕ) : ℤ) : ℝ) / 2 + (((2 * m + 1 : ℕ) : ℝ) - 1) := by
      rw [e1]
      have := double_nat m (by omega)
      push_cast at this ⊢
      rw [show (2 * (m : ℝ) + 1 - 1) / 2 = m by ring, this]
      ring
    rw [h1, linspaceD_half _ _ k hn hk (by rw [abs_neg, Nat.abs_cast]; omega) _ h2]
    congr 2
    rw [show (2 * m + 1) / 2 = m by omega]
    push_cast
    ring

theorem subAxisD_eq (N s : ℕ) (hs : s < N) (hN : N ≤ 2 ^ 50) : subAxisD N s = double (((s : ℝ) - ((N : ℝ) - 1) / 2) * double (1 / (N : ℝ))) := by
  unfold subAxisD
  have e1 : double ((N : ℝ) - 1) = (N : ℝ) - 1 := by
    have := double_nat (N - 1) (by omega)
    rw [Nat.cast_sub (by omega)] at this
    simpa using this
  obtain ⟨m, rfl⟩ : ∃ m, N = m + 1 := ⟨N - 1, by omega⟩
  have e2 : (((m + 1 : ℕ) : ℝ)) - 1 = m := by push_cast; ring
  rw [double_neg, e1, e2]
  have h3 : double ((m : ℝ) / 2) = (m : ℝ) / 2 := by
    have := double_half (m : ℤ) (by rw [Nat.abs_cast]; omega)
    rwa [Int.cast_natCast] at this
  rw [neg_div, double_neg, h3, double_nat (m + 1) (by omega)]
  have := linspaceD_half (-(m : ℤ)) (m + 1) s hN hs (by rw [abs_neg, Nat.abs_cast]; omega) ((m : ℝ) / 2) (by push_cast; ring)
  rw [show -((m : ℝ) / 2) = ((-(m : ℤ) : ℤ) : ℝ) / 2 by push_cast; ring, this]
  congr 1
  push_cast
  ring

theorem roundoff_pos : 0 < roundoff := two_zpow_pos _
theorem underflow_pos : 0 < underflow := two_zpow_pos _

theorem roundoff_le : roundoff ≤ 1 / 2 ^ 53 := by
  unfold roundoff
  rw [show (-53 : ℤ) = -((53 : ℕ) : ℤ) by norm_num, zpow_neg, zpow_natCast, one_div]

/-- A square root of the underflow threshold, from above. -/
noncomputable def rootUnderflow : ℝ := (2 : ℝ) ^ (-537 : ℤ)

theorem rootUnderflow_pos : 0 < rootUnderflow := two_zpow_pos _

theorem underflow_le_sq : underflow ≤ rootUnderflow * rootUnderflow := by
  unfold underflow rootUnderflow
  rw [← two_zpow_add]
  exact two_zpow_mono (by norm_num)

theorem rootUnderflow_le : rootUnderflow ≤ roundoff * roundoff := by
  unfold roundoff rootUnderflow
  rw [← two_zpow_add]
  exact two_zpow_mono (by norm_num)

theorem underflow_le : (2 : ℝ) ^ 50 * underflow ≤ roundoff * roundoff := by
  unfold roundoff underflow
  rw [← two_zpow_add, ← zpow_natCast (2 : ℝ) 50, ← two_zpow_add]
  exact two_zpow_mono (by norm_num)

theorem underflow_le' : underflow ≤ roundoff * roundoff := by
  refine le_trans ?_ underflow_le
  have := underflow_pos
  nlinarith

/-- The rounded sum of two rounded numbers. -/
theorem sum_core {u η A B a b s : ℝ} (hu : 0 < u) (hu2 : u ≤ 1 / 100) (hη : 0 < η) (hA : 0 ≤ A) (hB : 0 ≤ B)
    (a1 : |a - A| ≤ u * A + η) (a2 : |b - B| ≤ u * B + η) (a3 : |s - (a + b)| ≤ u * (a + b) + η) :
    s ≤ (A + B) * (1 + 3 * u) + 4 * η ∧ (A + B) * (1 - 3 * u) ≤ s + 4 * η := by
  rw [abs_le] at a1 a2 a3
  obtain ⟨Q, hQ⟩ : ∃ Q, Q = A + B := ⟨_, rfl⟩
  rw [← hQ]
  have hQ0 : 0 ≤ Q := by rw [hQ]; positivity
  have hab : a + b ≤ Q + u * Q + 2 * η := by rw [hQ]; linarith [a1.2, a2.2]
  have hab' : Q - u * Q - 2 * η ≤ a + b := by rw [hQ]; linarith [a1.1, a2.1]
  have huab : u * (a + b) ≤ u * (Q + u * Q + 2 * η) := mul_le_mul_of_nonneg_left hab hu.le
  have huη : u * η ≤ 1 / 100 * η := mul_le_mul_of_nonneg_right hu2 hη.le
  have uQ : 0 ≤ u * Q := mul_nonneg hu.le hQ0
  have huuQ : u * (u * Q) ≤ 1 / 100 * (u * Q) := mul_le_mul_of_nonneg_right hu2 uQ
  constructor <;> linarith [a3.1, a3.2]

/-- Square roots of nearly equal numbers. -/
theorem sqrt_core {u η τ Q s r t : ℝ} (hu : 0 < u) (hu2 : u ≤ 1 / 100) (hτ : 0 < τ) (hητ : η ≤ τ * τ) (hr : 0 ≤ r) (ht : 0 ≤ t)
    (eQ : r * r = Q) (es : t * t = s) (hs1 : s ≤ Q * (1 + 3 * u) + 4 * η) (hs0 : Q * (1 - 3 * u) ≤ s + 4 * η) :
    t ≤ r * (1 + 3 * u) + 2 * τ ∧ r * (1 - 3 * u) ≤ t + 2 * τ := by
  have hQ0 : 0 ≤ Q := by rw [← eQ]; exact mul_self_nonneg r
  have uQ : 0 ≤ u * Q := mul_nonneg hu.le hQ0
  have huuQ : u * (u * Q) ≤ 1 / 100 * (u * Q) := mul_le_mul_of_nonneg_right hu2 uQ
  have huuQ0 : 0 ≤ u * (u * Q) := mul_nonneg hu.le uQ
  constructor
  · refine abs_le_of_sq_le_sq' ?_ (by positivity) |>.2
    have et : t ^ 2 = s := by rw [← es]; ring
    have h1 : 0 ≤ r * τ * (1 + 3 * u) := by positivity
    have h2 : (r * (1 + 3 * u) + 2 * τ) ^ 2 = Q + 6 * (u * Q) + 9 * (u * (u * Q)) + 4 * (τ * τ) + 4 * (r * τ * (1 + 3 * u)) := by rw [← eQ]; ring
    rw [et, h2]
    linarith
  · refine abs_le_of_sq_le_sq' ?_ (by positivity) |>.2
    have h1 : (r * (1 - 3 * u)) ^ 2 = Q - 6 * (u * Q) + 9 * (u * (u * Q)) := by rw [← eQ]; ring
    have h2 : (t + 2 * τ) ^ 2 = s + 4 * (τ * τ) + 4 * (t * τ) := by rw [← es]; ring
    rw [h1, h2]
    have h3 : 0 ≤ t * τ := by positivity
    linarith

/-- The distance is computed to a few units in the last place. -/
theorem rhoD_error (x y : ℝ) : |rhoD x y - Real.sqrt (x ^ 2 + y ^ 2)| ≤ 5 * roundoff * Real.sqrt (x ^ 2 + y ^ 2) + 4 * rootUnderflow := by
  unfold rhoD
  have hu := roundoff_pos
  have hu2 : roundoff ≤ 1 / 100 := roundoff_le.trans (by norm_num)
  have hτ := rootUnderflow_pos
  have hητ := underflow_le_sq
  have hτu := rootUnderflow_le
  have a1 := double_error (x * x)
  have a2 := double_error (y * y)
  rw [abs_of_nonneg (mul_self_nonneg x)] at a1
  rw [abs_of_nonneg (mul_self_nonneg y)] at a2
  have p1 := double_nonneg (mul_self_nonneg x)
  have p2 := double_nonneg (mul_self_nonneg y)
  have a3 := double_error (double (x * x) + double (y * y))
  rw [abs_of_nonneg (add_nonneg p1 p2)] at a3
  have p3 := double_nonneg (add_nonneg p1 p2)
  obtain ⟨hs1, hs0⟩ := sum_core hu hu2 underflow_pos (mul_self_nonneg x) (mul_self_nonneg y) a1 a2 a3
  rw [show x * x + y * y = x ^ 2 + y ^ 2 by ring] at hs1 hs0
  generalize double (double (x * x) + double (y * y)) = s at *
  have hrs := Real.sqrt_nonneg s
  have hr := Real.sqrt_nonneg (x ^ 2 + y ^ 2)
  obtain ⟨b1, b0⟩ := sqrt_core hu hu2 hτ hητ hr hrs
    (Real.mul_self_sqrt (by positivity)) (Real.mul_self_sqrt p3) hs1 hs0
  have a4 := double_error (Real.sqrt s)
  rw [abs_of_nonneg hrs] at a4
  clear a1 a2 a3 p1 p2 hs1 hs0
  generalize Real.sqrt s = t at *
  generalize Real.sqrt (x ^ 2 + y ^ 2) = r at *
  generalize double t = d at *
  generalize roundoff = u at *
  generalize underflow = η at *
  generalize rootUnderflow = τ at *
  rw [abs_le] at a4
  have ur : 0 ≤ u * r := by positivity
  have ut : u * t ≤ u * (r * (1 + 3 * u) + 2 * τ) := mul_le_mul_of_nonneg_left b1 hu.le
  have uur : u * (u * r) ≤ 1 / 100 * (u * r) := mul_le_mul_of_nonneg_right hu2 ur
  have uτ : u * τ ≤ 1 / 100 * τ := mul_le_mul_of_nonneg_right hu2 hτ.le
  have uu : u * u ≤ 1 / 100 * u := mul_le_mul_of_nonneg_right hu2 hu.le
  have hτ1 : τ ≤ 1 / 100 := by linarith
  have ττ : τ * τ ≤ 1 / 100 * τ := mul_le_mul_of_nonneg_right hτ1 hτ.le
  rw [abs_le]
  constructor <;> linarith [a4.1, a4.2]

theorem sub_exact (N s : ℕ) (hs : s < N) : ((s : ℝ) - ((N : ℝ) - 1) / 2) * (1 / (N : ℝ)) = ((s : ℝ) + 1 / 2) / N - 1 / 2 := by
  have : (N : ℝ) ≠ 0 := by
    have : 0 < N := by omega
    positivity
  field_simp
  ring

theorem sub_range (N s : ℕ) (hs : s < N) : |((s : ℝ) + 1 / 2) / N - 1 / 2| ≤ 1 / 2 := by
  have hN : (0 : ℝ) < N := by exact_mod_cast (by omega : 0 < N)
  have h1 : (s : ℝ) + 1 ≤ N := by exact_mod_cast hs
  have h0 : (0 : ℝ) ≤ s := by positivity
  have h2 : ((s : ℝ) + 1 / 2) / N ≤ 1 := by rw [div_le_one hN]; linarith
  have h3 : 0 ≤ ((s : ℝ) + 1 / 2) / N := by positivity
  rw [abs_le]
  constructor <;> linarith

theorem subAxisD_error (N s : ℕ) (hs : s < N) (hN : N ≤ 2 ^ 50) : |subAxisD N s - (((s : ℝ) + 1 / 2) / N - 1 / 2)| ≤ 2 * roundoff := by
  rw [subAxisD_eq N s hs hN, ← sub_exact N s hs]
  have hw := sub_range N s hs
  rw [← sub_exact N s hs] at hw
  have hu := roundoff_pos
  have hu1 := roundoff_le
  have hη := underflow_pos
  have hηu := underflow_le
  have hηu' := underflow_le'
  have hN0 : (0 : ℝ) < N := by exact_mod_cast (by omega : 0 < N)
  have hN1 : (N : ℝ) ≤ 2 ^ 50 := by exact_mod_cast hN
  have ht : |(s : ℝ) - ((N : ℝ) - 1) / 2| ≤ N / 2 := by
    have h1 : (s : ℝ) + 1 ≤ N := by exact_mod_cast hs
    have h0 : (0 : ℝ) ≤ s := by positivity
    rw [abs_le]
    constructor <;> linarith
  have a1 := double_error (1 / (N : ℝ))
  generalize (s : ℝ) - ((N : ℝ) - 1) / 2 = t at *
  rw [abs_of_pos (by positivity : (0 : ℝ) < 1 / N)] at a1
  generalize double (1 / (N : ℝ)) = h at *
  have a2 : |t * h - t * (1 / (N : ℝ))| ≤ roundoff / 2 + roundoff * roundoff := by
    rw [← mul_sub, abs_mul]
    calc _ ≤ (N : ℝ) / 2 * (roundoff * (1 / N) + underflow) := mul_le_mul ht a1 (abs_nonneg _) (by positivity)
      _ = roundoff / 2 + N * underflow / 2 := by field_simp
      _ ≤ _ := by
        have : (N : ℝ) * underflow ≤ 2 ^ 50 * underflow := mul_le_mul_of_nonneg_right hN1 hη.le
        linarith
  have a3 := double_error (t * h)
  have a4 : |t * h| ≤ 1 / 2 + (roundoff / 2 + roundoff * roundoff) := by
    have := abs_sub_abs_le_abs_sub (t * h) (t * (1 / (N : ℝ)))
    linarith
  have a5 : roundoff * |t * h| ≤ roundoff * (1 / 2 + (roundoff / 2 + roundoff * roundoff)) := mul_le_mul_of_nonneg_left a4 hu.le
  have hu2 : roundoff ≤ 1 / 100 := hu1.trans (by norm_num)
  have uu : roundoff * roundoff ≤ 1 / 100 * roundoff := mul_le_mul_of_nonneg_right hu2 hu.le
  have uuu : roundoff * (roundoff * roundoff) ≤ 1 / 100 * (roundoff * roundoff) := mul_le_mul_of_nonneg_right hu2 (by positivity)
  calc _ ≤ |double (t * h) - t * h| + |t * h - t * (1 / (N : ℝ))| := abs_sub_le _ _ _
    _ ≤ _ := by nlinarith

/-- The coordinate of a sub-pixel. -/
theorem coord_error (N s : ℕ) (hs : s < N) (hN : N ≤ 2 ^ 50) (x : ℝ) :
    |double (subAxisD N s + double x) - (x + (((s : ℝ) + 1 / 2) / N - 1 / 2))| ≤ 3 * roundoff * (1 + |x|) := by
  have h1 := subAxisD_error N s hs hN
  have hw := sub_range N s hs
  generalize ((s : ℝ) + 1 / 2) / N - 1 / 2 = w at *
  have h2 := double_error x
  have h3 := double_error (subAxisD N s + double x)
  have hu := roundoff_pos
  have hu2 : roundoff ≤ 1 / 100 := roundoff_le.trans (by norm_num)
  have hη := underflow_pos
  have hηu := underflow_le'
  have hx := abs_nonneg x
  have e1 : |subAxisD N s + double x - (x + w)| ≤ 2 * roundoff + (roundoff * |x| + underflow) := by
    calc _ = |(subAxisD N s - w) + (double x - x)| := by congr 1; ring
      _ ≤ |subAxisD N s - w| + |double x - x| := abs_add_le _ _
      _ ≤ _ := by linarith
  have e2 : |subAxisD N s + double x| ≤ |x| + 1 / 2 + (2 * roundoff + (roundoff * |x| + underflow)) := by
    have a := abs_sub_abs_le_abs_sub (subAxisD N s + double x) (x + w)
    have b := abs_add_le x w
    linarith
  have e3 := mul_le_mul_of_nonneg_left e2 hu.le
  have uu : roundoff * roundoff ≤ 1 / 100 * roundoff := mul_le_mul_of_nonneg_right hu2 hu.le
  have uux : roundoff * (roundoff * |x|) ≤ 1 / 100 * (roundoff * |x|) := mul_le_mul_of_nonneg_right hu2 (by positivity)
  have uη : roundoff * underflow ≤ 1 / 100 * underflow := mul_le_mul_of_nonneg_right hu2 hη.le
  have ux : 0 ≤ roundoff * |x| := by positivity
  calc _ ≤ |double (subAxisD N s + double x) - (subAxisD N s + double x)| + |subAxisD N s + double x - (x + w)| := abs_sub_le _ _ _
    _ ≤ _ := by nlinarith

theorem sqrt_le_abs_add (x y : ℝ) : Real.sqrt (x ^ 2 + y ^ 2) ≤ |x| + |y| := by
  refine Real.sqrt_le_iff.mpr ⟨by positivity, ?_⟩
  have := mul_nonneg (abs_nonneg x) (abs_nonneg y)
  nlinarith [sq_abs x, sq_abs y]

theorem sqrt_sub_sqrt_le (x y x' y' : ℝ) : |Real.sqrt (x' ^ 2 + y' ^ 2) - Real.sqrt (x ^ 2 + y ^ 2)| ≤ |x' - x| + |y' - y| := by
  have h1 := sqrt_add_le x y (x' - x) (y' - y)
  have h2 := sqrt_add_le x' y' (x - x') (y - y')
  have h3 := sqrt_le_abs_add (x' - x) (y' - y)
  have h4 := sqrt_le_abs_add (x - x') (y - y')
  rw [abs_sub_comm x x', abs_sub_comm y y'] at h4
  simp only [add_sub_cancel] at h1 h2
  rw [abs_le]
  constructor <;> linarith

/-- The distance of a sub-pixel centre, as computed. -/
theorem dist_error (N s t : ℕ) (hs : s < N) (ht : t < N) (hN : N ≤ 2 ^ 50) (x y : ℝ) (hb : |x| + |y| ≤ 2 ^ 40) :
    |rhoD (double (subAxisD N s + double x)) (double (subAxisD N t + double y)) -
      Real.sqrt ((x + (((s : ℝ) + 1 / 2) / N - 1 / 2)) ^ 2 + (y + (((t : ℝ) + 1 / 2) / N - 1 / 2)) ^ 2)| ≤
      roundoff * (8 * (|x| + |y|) + 12) := by
  have c1 := coord_error N s hs hN x
  have c2 := coord_error N t ht hN y
  have w1 := sub_range N s hs
  have w2 := sub_range N t ht
  generalize ((s : ℝ) + 1 / 2) / N - 1 / 2 = w at *
  generalize ((t : ℝ) + 1 / 2) / N - 1 / 2 = v at *
  generalize double (subAxisD N s + double x) = X at *
  generalize double (subAxisD N t + double y) = Y at *
  have d1 := rhoD_error X Y
  have d2 := sqrt_sub_sqrt_le (x + w) (y + v) X Y
  have d3 := sqrt_le_abs_add (x + w) (y + v)
  have hu := roundoff_pos
  have hu1 := roundoff_le
  have hτu := rootUnderflow_le
  have hτ := rootUnderflow_pos
  have bx := abs_nonneg x
  have by' := abs_nonneg y
  have hD : Real.sqrt ((x + w) ^ 2 + (y + v) ^ 2) ≤ |x| + |y| + 1 := by
    have := abs_add_le x w
    have := abs_add_le y v
    linarith
  generalize Real.sqrt ((x + w) ^ 2 + (y + v) ^ 2) = D at *
  generalize Real.sqrt (X ^ 2 + Y ^ 2) = D' at *
  have hb0 : 0 ≤ |x| + |y| := by positivity
  have e12 : |D' - D| ≤ 3 * roundoff * (2 + (|x| + |y|)) := by linarith
  generalize |x| + |y| = b at *
  rw [abs_le] at e12
  have hD' : D' ≤ b + 1 + 3 * roundoff * (2 + b) := by linarith [e12.2]
  have uD := mul_le_mul_of_nonneg_left hD' hu.le
  have ub : roundoff * b ≤ 1 / 2 ^ 13 := by
    calc roundoff * b ≤ 1 / 2 ^ 53 * 2 ^ 40 := mul_le_mul hu1 hb hb0 (by norm_num)
      _ = _ := by norm_num
  have uub : roundoff * (roundoff * b) ≤ roundoff * (1 / 2 ^ 13) := mul_le_mul_of_nonneg_left ub hu.le
  have uu : roundoff * roundoff ≤ 1 / 2 ^ 53 * roundoff := mul_le_mul_of_nonneg_right hu1 hu.le
  rw [abs_le] at d1 ⊢
  constructor <;> nlinarith [d1.1, d1.2, e12.1, e12.2]

theorem rhoD_nonneg (x y : ℝ) : 0 ≤ rhoD x y := double_nonneg (Real.sqrt_nonneg _)

theorem roundoff_mul_le {b : ℝ} (hb0 : 0 ≤ b) (hb : b ≤ 2 ^ 40) : roundoff * b ≤ 1 / 2 ^ 13 := by
  calc roundoff * b ≤ 1 / 2 ^ 53 * 2 ^ 40 := mul_le_mul roundoff_le hb hb0 (by norm_num)
    _ = _ := by norm_num

/-- The distance of a pixel centre, as computed. -/
theorem centre_error (x y : ℝ) (hb : |x| + |y| ≤ 2 ^ 40) :
    |rhoD (double x) (double y) - Real.sqrt (x ^ 2 + y ^ 2)| ≤ roundoff * (7 * (|x| + |y|) + 1) := by
  have d1 := rhoD_error (double x) (double y)
  have d2 := sqrt_sub_sqrt_le x y (double x) (double y)
  have d3 := sqrt_le_abs_add x y
  have c1 := double_error x
  have c2 := double_error y
  have hu := roundoff_pos
  have hu1 : roundoff ≤ 1 / 2 ^ 53 := roundoff_le
  have hτu := rootUnderflow_le
  have hτ := rootUnderflow_pos
  have hη := underflow_le'
  have hη0 := underflow_pos
  have hb0 : 0 ≤ |x| + |y| := by positivity
  have ub := roundoff_mul_le hb0 hb
  have e12 : |Real.sqrt (double x ^ 2 + double y ^ 2) - Real.sqrt (x ^ 2 + y ^ 2)| ≤ roundoff * (|x| + |y|) + 2 * underflow := by linarith
  generalize Real.sqrt (x ^ 2 + y ^ 2) = D at *
  generalize Real.sqrt (double x ^ 2 + double y ^ 2) = D' at *
  generalize |x| + |y| = b at *
  rw [abs_le] at e12
  have hD' : D' ≤ b + roundoff * b + 2 * underflow := by linarith [e12.2]
  have uD := mul_le_mul_of_nonneg_left hD' hu.le
  have uub : roundoff * (roundoff * b) ≤ roundoff * (1 / 2 ^ 13) := mul_le_mul_of_nonneg_left ub hu.le
  have uu : roundoff * roundoff ≤ 1 / 2 ^ 53 * roundoff := mul_le_mul_of_nonneg_right hu1 hu.le
  have uη : roundoff * underflow ≤ 1 / 2 ^ 53 * underflow := mul_le_mul_of_nonneg_right hu1 hη0.le
  rw [abs_le] at d1 ⊢
  constructor <;> linarith [d1.1, d1.2, e12.1, e12.2]

theorem shift_le (x y w v : ℝ) (hw : |w| ≤ 1 / 2) (hv : |v| ≤ 1 / 2) :
    |Real.sqrt ((x + w) ^ 2 + (y + v) ^ 2) - Real.sqrt (x ^ 2 + y ^ 2)| ≤ 1 := by
  have := sqrt_sub_sqrt_le x y (x + w) (y + v)
  simp only [add_sub_cancel_left] at this
  linarith

/-- A pixel called bright before looking at its sub-pixels is inside. -/
theorem pre_inside {x y w v hw radius : ℝ} (hb : |x| + |y| ≤ 2 ^ 40) (hw' : |w| ≤ 1 / 2) (hv : |v| ≤ 1 / 2) (hh : 5 / 4 ≤ hw) (hh' : hw ≤ 3 / 2)
    (hr : 0 < radius) (h : |rhoD (double x) (double y)| < double (radius - hw)) : Real.sqrt ((x + w) ^ 2 + (y + v) ^ 2) + 1 / 8 ≤ radius := by
  have c := centre_error x y hb
  have d := shift_le x y w v hw' hv
  rw [abs_of_nonneg (rhoD_nonneg _ _)] at h
  have e := double_error (radius - hw)
  have hD := sqrt_le_abs_add x y
  have hb0 : 0 ≤ |x| + |y| := by positivity
  have ub := roundoff_mul_le hb0 hb
  have hu := roundoff_pos
  have hu1 : roundoff ≤ 1 / 2 ^ 53 := roundoff_le
  have hη := underflow_le'
  have uu : roundoff * roundoff ≤ 1 / 2 ^ 53 * roundoff := mul_le_mul_of_nonneg_right hu1 hu.le
  generalize |x| + |y| = b at *
  rw [abs_le] at c d e
  by_cases hbig : 4 * (b + 1) ≤ radius
  · linarith [d.2]
  · have h1 : |radius - hw| ≤ 4 * (b + 1) := by rw [abs_le]; constructor <;> linarith
    have h2 := mul_le_mul_of_nonneg_left h1 hu.le
    linarith [c.1, d.2, e.2]

/-- A pixel called dark before looking at its sub-pixels is outside. -/
theorem pre_outside {x y w v hw radius : ℝ} (hb : |x| + |y| ≤ 2 ^ 40) (hw' : |w| ≤ 1 / 2) (hv : |v| ≤ 1 / 2) (hh : 5 / 4 ≤ hw) (hh' : hw ≤ 3 / 2)
    (hr : 0 < radius) (h : |rhoD (double x) (double y)| > double (radius + hw)) : radius + 1 / 8 < Real.sqrt ((x + w) ^ 2 + (y + v) ^ 2) := by
  have c := centre_error x y hb
  have d := shift_le x y w v hw' hv
  rw [abs_of_nonneg (rhoD_nonneg _ _)] at h
  have e := double_error (radius + hw)
  rw [abs_of_pos (show 0 < radius + hw by linarith)] at e
  have hD := sqrt_le_abs_add x y
  have hb0 : 0 ≤ |x| + |y| := by positivity
  have ub := roundoff_mul_le hb0 hb
  have hu := roundoff_pos
  have hu1 : roundoff ≤ 1 / 2 ^ 53 := roundoff_le
  have hη := underflow_le'
  have uu : roundoff * roundoff ≤ 1 / 2 ^ 53 * roundoff := mul_le_mul_of_nonneg_right hu1 hu.le
  generalize |x| + |y| = b at *
  rw [abs_le] at c d e
  by_cases hbig : 4 * (b + 1) ≤ radius
  · exfalso
    have h2 := mul_le_mul_of_nonneg_right hu1 (show 0 ≤ radius + hw by linarith)
    linarith [c.2, e.1]
  · have h1 : radius + hw ≤ 4 * (b + 2) := by linarith
    have h2 := mul_le_mul_of_nonneg_left h1 hu.le
    linarith [c.2, d.1, e.1]

/-- The half width of the window of grey pixels. -/
theorem window_range (x : ℝ) (hb : |x| ≤ 2 ^ 40) :
    5 / 4 ≤ double (double (Real.sqrt 2) * double (double (x + 1) - double x)) ∧
    double (double (Real.sqrt 2) * double (double (x + 1) - double x)) ≤ 3 / 2 := by
  have hu := roundoff_pos
  have hu1 : roundoff ≤ 1 / 2 ^ 53 := roundoff_le
  have hη := underflow_le'
  have uu : roundoff * roundoff ≤ 1 / 2 ^ 53 * roundoff := mul_le_mul_of_nonneg_right hu1 hu.le
  have ub := roundoff_mul_le (abs_nonneg x) hb
  have a1 := double_error (x + 1)
  have a0 := double_error x
  have t1 : |x + 1| ≤ |x| + 1 := by
    have := abs_add_le x 1
    rwa [abs_one] at this
  have t2 := mul_le_mul_of_nonneg_left t1 hu.le
  have a2 := double_error (double (x + 1) - double x)
  generalize double (x + 1) = p at *
  generalize double x = q at *
  have t3 : |p - q - 1| ≤ 1 / 2 ^ 11 := by
    rw [abs_le] at a1 a0 ⊢
    constructor <;> linarith [a1.1, a1.2, a0.1, a0.2]
  have t4 : |p - q| ≤ 2 := by
    rw [abs_le] at t3 ⊢
    constructor <;> linarith [t3.1, t3.2]
  have t5 := mul_le_mul_of_nonneg_left t4 hu.le
  have t6 : |double (p - q) - 1| ≤ 1 / 2 ^ 10 := by
    rw [abs_le] at a2 t3 ⊢
    constructor <;> linarith [a2.1, a2.2, t3.1, t3.2]
  generalize double (p - q) = d at *
  have s1 : (7 / 5 : ℝ) ≤ Real.sqrt 2 := Real.le_sqrt_of_sq_le (by norm_num)
  have s2 : Real.sqrt 2 ≤ 71 / 50 := Real.sqrt_le_iff.mpr ⟨by norm_num, by norm_num⟩
  have a3 := double_error (Real.sqrt 2)
  rw [abs_of_nonneg (Real.sqrt_nonneg 2)] at a3
  have t7 := mul_le_mul_of_nonneg_left s2 hu.le
  have t8 : |double (Real.sqrt 2) - Real.sqrt 2| ≤ 1 / 2 ^ 10 := by linarith
  generalize double (Real.sqrt 2) = g at *
  generalize Real.sqrt 2 = r at *
  rw [abs_le] at t6 t8
  have g0 : 139 / 100 ≤ g := by linarith [t8.1]
  have g1 : g ≤ 143 / 100 := by linarith [t8.2]
  have d0 : 99 / 100 ≤ d := by linarith [t6.1]
  have d1 : d ≤ 101 / 100 := by linarith [t6.2]
  have m0 : 139 / 100 * (99 / 100) ≤ g * d := mul_le_mul g0 d0 (by norm_num) (by linarith)
  have m1 : g * d ≤ 143 / 100 * (101 / 100) := mul_le_mul g1 d1 (by linarith) (by norm_num)
  have a4 := double_error (g * d)
  rw [abs_of_nonneg (show 0 ≤ g * d by linarith)] at a4
  have t9 := mul_le_mul_of_nonneg_left m1 hu.le
  rw [abs_le] at a4
  constructor <;> linarith [a4.1, a4.2]

open scoped Classical in
theorem subCountD_card (N : ℕ) (radius xc yc : ℝ) : subCountD N radius xc yc =
    (univ.filter fun s : Fin N × Fin N => rhoD (double (subAxisD N s.2 + xc)) (double (subAxisD N s.1 + yc)) ≤ radius).card := by
  unfold subCountD
  rw [← Finset.sum_product', Finset.card_filter]
  rfl

theorem subCountD_le (N : ℕ) (radius xc yc : ℝ) : subCountD N radius xc yc ≤ N * N := by
  classical
  rw [subCountD_card]
  refine (card_filter_le _ _).trans ?_
  simp

/-- The shortcut for pixels away from the edge agrees with the count of their sub-pixels. -/
theorem circleValD_eq {x y hw radius : ℝ} {N : ℕ} (hb : |x| + |y| ≤ 2 ^ 40) (hh : 5 / 4 ≤ hw) (hh' : hw ≤ 3 / 2) (hr : 0 < radius) (hN : 1 ≤ N)
    (hNN : N * N ≤ 2 ^ 53) : circleValD hw radius N (double x) (double y) = double ((subCountD N radius (double x) (double y) : ℝ) / ((N : ℝ) ^ 2)) := by
  have hN50 : N ≤ 2 ^ 50 := by
    by_contra h
    have : 2 ^ 50 * 2 ^ 50 ≤ N * N := Nat.mul_le_mul (by omega) (by omega)
    omega
  have hN0 : (0 : ℝ) < (N : ℝ) ^ 2 := by
    have : (0 : ℝ) < N := by exact_mod_cast hN
    positivity
  have hb0 : 0 ≤ |x| + |y| := by positivity
  have ub := roundoff_mul_le hb0 hb
  have hu1 : roundoff ≤ 1 / 2 ^ 53 := roundoff_le
  have near : ∀ s t : ℕ, s < N → t < N → |rhoD (double (subAxisD N s + double x)) (double (subAxisD N t + double y)) -
      Real.sqrt ((x + (((s : ℝ) + 1 / 2) / N - 1 / 2)) ^ 2 + (y + (((t : ℝ) + 1 / 2) / N - 1 / 2)) ^ 2)| ≤ 1 / 8 := by
    intro s t hs ht
    have := dist_error N s t hs ht hN50 x y hb
    linarith
  unfold circleValD
  simp only
  by_cases h0 : |rhoD (double x) (double y)| > double (radius + hw)
  · have hc : subCountD N radius (double x) (double y) = 0 := by
      classical
      rw [subCountD_card, card_eq_zero, filter_eq_empty_iff]
      rintro ⟨t, s⟩ _
      have h1 := pre_outside hb (sub_range N s s.2) (sub_range N t t.2) hh hh' hr h0
      have h2 := abs_le.mp (near s t s.2 t.2)
      rw [not_le]
      linarith [h2.1]
    rw [if_pos h0, if_neg (by norm_num), hc, Nat.cast_zero, zero_div, double_zero]
  · rw [if_neg h0]
    by_cases h1 : |rhoD (double x) (double y)| < double (radius - hw)
    · have hc : subCountD N radius (double x) (double y) = N * N := by
        classical
        rw [subCountD_card, filter_true_of_mem]
        · simp
        · rintro ⟨t, s⟩ _
          have h1 := pre_inside hb (sub_range N s s.2) (sub_range N t t.2) hh hh' hr h1
          have h2 := abs_le.mp (near s t s.2 t.2)
          linarith [h2.2]
      rw [if_pos h1, if_neg (by norm_num), hc]
      push_cast
      rw [← pow_two, div_self hN0.ne', double_one]
    · rw [if_neg h1, if_pos rfl, double_nat _ ((subCountD_le N _ _ _).trans hNN)]
      have := double_nat (N * N) hNN
      push_cast at this
      rw [this, pow_two]

theorem abs_axis_le (n k : ℕ) (o : ℝ) (hk : k < n) : |(k : ℝ) - ((n / 2 : ℕ) : ℝ) - o| ≤ (n : ℝ) / 2 + |o| := by
  have h1 : (n : ℝ) / 2 - 1 / 2 ≤ ((n / 2 : ℕ) : ℝ) := by
    have : n ≤ 2 * (n / 2) + 1 := by omega
    have : (n : ℝ) ≤ 2 * ((n / 2 : ℕ) : ℝ) + 1 := by exact_mod_cast this
    linarith
  have h2 : ((n / 2 : ℕ) : ℝ) ≤ (n : ℝ) / 2 := by
    have : 2 * (n / 2) ≤ n := by omega
    have : 2 * ((n / 2 : ℕ) : ℝ) ≤ (n : ℝ) := by exact_mod_cast this
    linarith
  have h3 : (k : ℝ) + 1 ≤ n := by exact_mod_cast hk
  have h4 : (0 : ℝ) ≤ k := by positivity
  have h5 := abs_sub ((k : ℝ) - ((n / 2 : ℕ) : ℝ)) o
  have h6 : |(k : ℝ) - ((n / 2 : ℕ) : ℝ)| ≤ (n : ℝ) / 2 := by rw [abs_le]; constructor <;> linarith
  linarith

/-- `isDark` in double precision. -/
noncomputable def toneD (isDark : Bool) (v : ℝ) : ℝ := if isDark then double (1 - v) else v

theorem circleD_eq (nx ny N : ℕ) (hx : 2 ≤ nx) (hy : 1 ≤ ny) (hN : 1 ≤ N) (hNN : N * N ≤ 2 ^ 53) (radius xo yo : ℝ) (hr : 0 < radius)
    (hB : (nx : ℝ) + ny + |xo| + |yo| ≤ 2 ^ 40) (isDark : Bool) :
    circleD nx ny radius xo yo N isDark = .ok ⟨ny, nx, fun i j => toneD isDark (double ((subCountD N radius
      (double ((j : ℕ) - ((nx / 2 : ℕ) : ℝ) - xo)) (double ((i : ℕ) - ((ny / 2 : ℕ) : ℝ) - yo)) : ℝ) / (N : ℝ) ^ 2))⟩ := by
  have hxo := abs_nonneg xo
  have hyo := abs_nonneg yo
  have nx0 : (0 : ℝ) ≤ nx := by positivity
  have ny0 : (0 : ℝ) ≤ ny := by positivity
  have hx50 : nx ≤ 2 ^ 50 := by
    have : (nx : ℝ) ≤ ((2 ^ 40 : ℕ) : ℝ) := by push_cast; linarith
    have : nx ≤ 2 ^ 40 := by exact_mod_cast this
    omega
  have hy50 : ny ≤ 2 ^ 50 := by
    have : (ny : ℝ) ≤ ((2 ^ 40 : ℕ) : ℝ) := by push_cast; linarith
    have : ny ≤ 2 ^ 40 := by exact_mod_cast this
    omega
  unfold circleD
  rw [if_neg (by rintro (h | h | h | h) <;> first | omega | linarith), if_neg (by omega)]
  simp only [Int.toNat_natCast]
  obtain ⟨hw, hhw⟩ : ∃ hw, hw = double (double (Real.sqrt 2) * double (shapeAxisD nx xo 1 - shapeAxisD nx xo 0)) := ⟨_, rfl⟩
  have hwr : 5 / 4 ≤ hw ∧ hw ≤ 3 / 2 := by
    rw [hhw, shapeAxisD_eq nx xo 1 (by omega) hx50, shapeAxisD_eq nx xo 0 (by omega) hx50]
    have e : ((1 : ℕ) : ℝ) - ((nx / 2 : ℕ) : ℝ) - xo = ((0 : ℕ) : ℝ) - ((nx / 2 : ℕ) : ℝ) - xo + 1 := by push_cast; ring
    rw [e]
    refine window_range _ ?_
    have := abs_axis_le nx 0 xo (by omega)
    linarith
  rw [← hhw]
  have key : ∀ (i : Fin ny) (j : Fin nx), circleValD hw radius N (shapeAxisD nx xo j) (shapeAxisD ny yo i) =
      double ((subCountD N radius (double ((j : ℕ) - ((nx / 2 : ℕ) : ℝ) - xo)) (double ((i : ℕ) - ((ny / 2 : ℕ) : ℝ) - yo)) : ℝ) / (N : ℝ) ^ 2) := by
    intro i j
    rw [shapeAxisD_eq nx xo j j.2 hx50, shapeAxisD_eq ny yo i i.2 hy50]
    refine circleValD_eq ?_ hwr.1 hwr.2 hr hN hNN
    have a := abs_axis_le nx j xo j.2
    have b := abs_axis_le ny i yo i.2
    linarith
  simp only [key]
  cases isDark <;> rfl

end Coralign
