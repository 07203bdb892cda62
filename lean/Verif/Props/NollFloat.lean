import Verif.Model.ZernikeFloat
import Verif.Base.Double
import Verif.Props.Zernike
import Mathlib.Analysis.SpecialFunctions.Sqrt

/-!
# C21 in floating point

The radial order is the only integer of the package that is computed from an irrational number.  The code does it in double precision;
here every operation is rounded.
-/

namespace Coralign.Props
open Coralign Coralign.Spec

theorem noll_float (R : Rounding) (j : ℕ) (hj : 1 ≤ j) (hb : j ≤ 2 ^ 47) : nollNp1Float R j = nollNp1 j := by
  obtain ⟨n, h1, h2⟩ := exists_tri j hj
  have hd := even_mul_succ_div n
  have hp : nollNp1 (j : ℤ) = (n : ℤ) + 1 := by
    apply nollNp1_eq
    · omega
    · have : (n : ℤ) * (n + 1) < 2 * j := by exact_mod_cast h1
      linarith
    · have : 2 * (j : ℤ) ≤ ((n : ℤ) + 1) * (n + 2) := by exact_mod_cast h2
      linarith
  have hn : n < 2 ^ 24 := by
    by_contra hc
    have : 2 ^ 24 * 2 ^ 24 ≤ n * (n + 1) := Nat.mul_le_mul (by omega) (by omega)
    omega
  have hlo : (n : ℝ) * (n + 1) + 2 ≤ 2 * j := by
    have : n * (n + 1) + 2 ≤ 2 * j := by omega
    exact_mod_cast this
  have hhi : 2 * (j : ℝ) ≤ (n + 1) * (n + 2) := by exact_mod_cast h2
  have hnR : (n : ℝ) < 2 ^ 24 := by exact_mod_cast hn
  have hn0 : (0 : ℝ) ≤ n := Nat.cast_nonneg n
  have hjZ : (j : ℤ) ≤ 2 ^ 47 := by exact_mod_cast hb
  -- the first two operations are exact
  have e1 : R.fl (8 * ((j : ℤ) : ℝ)) = 8 * (j : ℝ) := by
    have := R.int (8 * j) (by rw [abs_of_nonneg (by positivity)]; omega)
    push_cast at this ⊢
    exact this
  have e2 : R.fl (1 + 8 * (j : ℝ)) = 1 + 8 * (j : ℝ) := by
    have := R.int (1 + 8 * j) (by rw [abs_of_nonneg (by positivity)]; omega)
    push_cast at this
    exact this
  have e3 : R.fl ((((n : ℤ) + 1 : ℤ) : ℝ) + 1 / 2) = (n : ℝ) + 1 + 1 / 2 := by
    have := R.exact (2 * n + 3) (by rw [abs_of_nonneg (by positivity)]; omega)
    push_cast at this ⊢
    rw [show (n : ℝ) + 1 + 1 / 2 = (2 * n + 3) / 2 by ring]
    exact this
  rw [hp]
  unfold nollNp1Float
  rw [e1, e2]
  set s := Real.sqrt (1 + 8 * (j : ℝ)) with hs
  -- upper bounds
  have us : s ≤ 2 * n + 3 := by
    rw [hs]
    apply Real.sqrt_le_iff.mpr
    constructor
    · positivity
    · nlinarith
  have ufs : R.fl s ≤ 2 * n + 3 := by
    have := R.mono us
    have e := R.int (2 * n + 3) (by rw [abs_of_nonneg (by positivity)]; omega)
    push_cast at e
    rwa [e] at this
  have uft : R.fl (R.fl s - 1) ≤ 2 * n + 2 := by
    have := R.mono (show R.fl s - 1 ≤ 2 * n + 2 by linarith)
    have e := R.int (2 * n + 2) (by rw [abs_of_nonneg (by positivity)]; omega)
    push_cast at e
    rwa [e] at this
  have ufu : R.fl (R.fl (R.fl s - 1) / 2) ≤ n + 1 := by
    have := R.mono (show R.fl (R.fl s - 1) / 2 ≤ n + 1 by linarith)
    have e := R.int (n + 1) (by rw [abs_of_nonneg (by positivity)]; omega)
    push_cast at e
    rwa [e] at this
  -- the lower bound
  have lfu : (n : ℝ) < R.fl (R.fl (R.fl s - 1) / 2) := by
    rcases Nat.eq_zero_or_pos n with h0 | hpos
    · -- only index 1
      have hj1 : j = 1 := by subst h0; omega
      have s3 : s = 3 := by
        rw [hs, hj1]
        rw [show (1 + 8 * ((1 : ℕ) : ℝ)) = 3 ^ 2 by norm_num]
        exact Real.sqrt_sq (by norm_num)
      have a1 := R.int 3 (by norm_num)
      have a2 := R.int 2 (by norm_num)
      have a3 := R.int 1 (by norm_num)
      push_cast at a1 a2 a3
      rw [s3, a1, show (3 : ℝ) - 1 = 2 by norm_num, a2, show (2 : ℝ) / 2 = 1 by norm_num, a3, h0]
      norm_num
    · have hn1 : (1 : ℝ) ≤ n := by exact_mod_cast hpos
      -- `s ≥ m + 2/m` with `m = 2 n + 1`
      set d : ℝ := 2 / (2 * n + 1) with hdd
      have hd0 : 0 < d := by positivity
      have hdm : d * (2 * n + 1) = 2 := by rw [hdd]; field_simp
      have hd1 : d ≤ 2 / 3 := by
        rw [hdd]
        exact div_le_div_of_nonneg_left (by norm_num) (by norm_num) (by linarith)
      have ls : 2 * (n : ℝ) + 1 + d ≤ s := by
        rw [hs]
        apply Real.le_sqrt_of_sq_le
        nlinarith
      have hsmall : (2 * (n : ℝ) + 3) / 2 ^ 53 ≤ d / 8 := by
        rw [div_le_div_iff₀ (by positivity) (by norm_num)]
        have : (2 * (n : ℝ) + 3) * 8 * (2 * n + 1) ≤ 2 ^ 54 := by nlinarith
        have h3 : (2 * (n : ℝ) + 3) * 8 * (2 * n + 1) ≤ d * 2 ^ 53 * (2 * n + 1) := by
          have : d * 2 ^ 53 * (2 * n + 1) = 2 ^ 54 := by rw [mul_right_comm, hdm]; norm_num
          linarith
        exact le_of_mul_le_mul_right h3 (by positivity)
      have c1 := (abs_le.mp (R.close s (by linarith))).1
      have c1' : s / 2 ^ 53 ≤ d / 8 := (div_le_div_of_nonneg_right us (by positivity)).trans hsmall
      have lfs : 2 * (n : ℝ) + 1 + d - d / 8 ≤ R.fl s := by linarith
      have c2 := (abs_le.mp (R.close (R.fl s - 1) (by linarith))).1
      have c2' : (R.fl s - 1) / 2 ^ 53 ≤ d / 8 :=
        (div_le_div_of_nonneg_right (by linarith : R.fl s - 1 ≤ 2 * n + 3) (by positivity)).trans hsmall
      have lft : 2 * (n : ℝ) + d - d / 4 ≤ R.fl (R.fl s - 1) := by linarith
      have c3 := (abs_le.mp (R.close (R.fl (R.fl s - 1) / 2) (by linarith))).1
      have c3' : R.fl (R.fl s - 1) / 2 / 2 ^ 53 ≤ d / 8 :=
        (div_le_div_of_nonneg_right (by linarith : R.fl (R.fl s - 1) / 2 ≤ 2 * n + 3) (by positivity)).trans hsmall
      linarith
  have hc : ⌈R.fl (R.fl (R.fl s - 1) / 2)⌉ = (n : ℤ) + 1 := by
    rw [Int.ceil_eq_iff]
    push_cast
    constructor <;> linarith
  rw [hc, e3, Int.floor_eq_iff]
  push_cast
  constructor <;> linarith

/-- **C21.** Rounding never changes the radial order found for an index: in double precision the answer (one more than the order) is that of
Noll's table for every index up to `2^47`. -/
theorem C21_float (R : Rounding) (j : ℕ) (hj : 1 ≤ j) (hb : j ≤ 2 ^ 47) : nollNp1Float R j = nollRow j + 1 := by
  rw [noll_float R j hj hb, ← (C21_table j hj).1]
  unfold nollN
  ring

/-- The rounding may well be inexact: `Rounding.fixed` changes a third. -/
example : nollNp1Float Rounding.fixed 2 = nollRow 2 + 1 ∧ Rounding.fixed.fl (1 / 3) ≠ 1 / 3 := by
  refine ⟨C21_float Rounding.fixed 2 (by norm_num) (by norm_num), ?_⟩
  intro h
  have h' : ((⌊(1 / 3 : ℝ) * 2 ^ 53⌋ : ℤ) : ℝ) / 2 ^ 53 = 1 / 3 := h
  rw [div_eq_div_iff (by positivity) (by norm_num)] at h'
  have : ⌊(1 / 3 : ℝ) * 2 ^ 53⌋ * 3 = 1 * 2 ^ 53 := by exact_mod_cast h'
  omega

/-- And the rounding of binary64 numbers itself. -/
example : nollNp1Float Rounding.binary64 1000 = nollRow 1000 + 1 := C21_float Rounding.binary64 1000 (by norm_num) (by norm_num)

end Coralign.Props
