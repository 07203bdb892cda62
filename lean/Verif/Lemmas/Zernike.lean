import Verif.Model.Zernike
import Verif.Spec.Zernike
import Mathlib.Algebra.Group.ForwardDiff
import Mathlib.Tactic.Linarith
import Mathlib.Tactic.Positivity
import Mathlib.Tactic.FieldSimp
import Mathlib.Tactic.LinearCombination

/-!
# Closed forms for the Zernike model
-/

namespace Coralign

open Spec Finset

/-! ### Noll indexing -/

/-- `np1` inverts triangular numbers: it is the only `p` with `p(p-1)/2 < j ≤ p(p+1)/2`. -/
theorem nollNp1_eq (j p : ℤ) (hp : 1 ≤ p) (h1 : p * (p - 1) < 2 * j) (h2 : 2 * j ≤ p * (p + 1)) : nollNp1 j = p := by
  have hp' : (1 : ℝ) ≤ p := by exact_mod_cast hp
  have h1' : (p : ℝ) * (p - 1) < 2 * j := by exact_mod_cast h1
  have h2' : (2 : ℝ) * j ≤ p * (p + 1) := by exact_mod_cast h2
  have hc : ⌈(Real.sqrt (1 + 8 * j) - 1) / 2⌉ = p := by
    rw [Int.ceil_eq_iff]
    constructor
    · have : 2 * (p : ℝ) - 1 < Real.sqrt (1 + 8 * j) := by
        apply Real.lt_sqrt_of_sq_lt
        nlinarith
      linarith
    · have : Real.sqrt (1 + 8 * j) ≤ 2 * p + 1 := by
        apply Real.sqrt_le_iff.mpr
        constructor
        · linarith
        · nlinarith
      linarith
  unfold nollNp1
  rw [hc, Int.floor_eq_iff]
  constructor <;> linarith

/-- Every positive integer lies between consecutive triangular numbers. -/
theorem exists_tri (j : ℕ) (hj : 1 ≤ j) : ∃ n : ℕ, n * (n + 1) < 2 * j ∧ 2 * j ≤ (n + 1) * (n + 2) := by
  induction j with
  | zero => omega
  | succ k ih =>
    rcases Nat.eq_zero_or_pos k with rfl | hk
    · exact ⟨0, by norm_num, by norm_num⟩
    · obtain ⟨n, h1, h2⟩ := ih hk
      by_cases h : 2 * (k + 1) ≤ (n + 1) * (n + 2)
      · exact ⟨n, by omega, h⟩
      · refine ⟨n + 1, ?_, ?_⟩
        · have : (n + 1) * (n + 2) = (n + 1) * (n + 1 + 1) := rfl
          omega
        · nlinarith

theorem even_mul_succ_div (n : ℕ) : 2 * (n * (n + 1) / 2) = n * (n + 1) :=
  Nat.mul_div_cancel' (Nat.even_mul_succ_self n).two_dvd

/-- The model's `(n, m)` in terms of the position `t` of `j` inside its radial order. -/
theorem noll_eq (n t : ℕ) (h1 : 1 ≤ t) (h2 : t ≤ n + 1) :
    nollN ((n * (n + 1) / 2 + t : ℕ) : ℤ) = n ∧
      nollM ((n * (n + 1) / 2 + t : ℕ) : ℤ) = ((t : ℤ) - n % 2) / 2 * 2 + n % 2 := by
  have hd := even_mul_succ_div n
  set T := n * (n + 1) / 2
  have hz : (2 * T : ℤ) = n * (n + 1) := by exact_mod_cast hd
  have hp : nollNp1 ((T + t : ℕ) : ℤ) = n + 1 := by
    apply nollNp1_eq
    · omega
    · push_cast; nlinarith
    · push_cast; nlinarith
  constructor
  · unfold nollN; rw [hp]; omega
  · unfold nollM nollTerms
    rw [hp]
    have : ((n : ℤ) + 1) * (n + 1 - 1) / 2 = T := by
      have : ((n : ℤ) + 1) * (n + 1 - 1) = 2 * T := by linarith
      omega
    rw [this]
    push_cast
    omega

/-! ### Radial polynomial -/

theorem rpow_eq (r : ℝ) (i : ℕ) : rpow r i = r ^ i := by
  induction i with
  | zero => rfl
  | succ i ih => rw [rpow, ih, pow_succ]

theorem gamma_sub (a k : ℕ) (h : k ≤ a) : Real.Gamma ((a : ℝ) - k + 1) = (a - k).factorial := by
  rw [← Nat.cast_sub h]; exact Real.Gamma_nat_eq_factorial (a - k)

/-- Invariant of the recurrence after `t` passes. -/
structure ZernInv (n m t : ℕ) (w : ZernWork) : Prop where
  num : ∀ k, (n - m) / 2 - t ≤ k → k ≤ (n - m) / 2 → w.rnum k = (-1) ^ k * (n - k).factorial
  d0 : ∀ k, k ≤ t → w.d0 k = k.factorial
  d1 : ∀ k, (n - m) / 2 - t ≤ k → k ≤ (n - m) / 2 → w.d1 k = ((n + m) / 2 - k).factorial
  d2 : ∀ k, (n - m) / 2 - t ≤ k → k ≤ (n - m) / 2 → w.d2 k = ((n - m) / 2 - k).factorial

theorem fact_step (a k : ℕ) (h : k < a) : ((a - (k + 1)).factorial : ℝ) * ((a : ℝ) - k) = (a - k).factorial := by
  obtain ⟨b, rfl⟩ : ∃ b, a = k + 1 + b := ⟨a - (k + 1), by omega⟩
  rw [show k + 1 + b - (k + 1) = b by omega, show k + 1 + b - k = b + 1 by omega, Nat.factorial_succ]
  push_cast
  ring

theorem zernInit_inv (n m : ℕ) (h : ValidMode n m) : ZernInv n m 0 (zernInit n m) := by
  obtain ⟨hmn, he⟩ := h
  unfold zernInit
  constructor
  · intro k h1 h2
    have : k = (n - m) / 2 := by omega
    subst this
    simp only [Function.update_self]
    rw [gamma_sub _ _ (by omega)]
    ring
  · intro k hk
    have : k = 0 := by omega
    subst this
    simp
  · intro k h1 h2
    have : k = (n - m) / 2 := by omega
    subst this
    simp only [Function.update_self]
    rw [gamma_sub _ _ (by omega)]
  · intro k h1 h2
    have : k = (n - m) / 2 := by omega
    subst this
    simp only [Function.update_self]
    rw [gamma_sub _ _ (by omega)]

theorem zernStep_inv (n m t : ℕ) (h : ValidMode n m) (ht : t < (n - m) / 2) (w : ZernWork) (hw : ZernInv n m t w) :
    ZernInv n m (t + 1) (zernStep n m w (t + 1)) := by
  obtain ⟨hmn, he⟩ := h
  unfold zernStep
  have hk : (n - m) / 2 - (t + 1) + 1 = (n - m) / 2 - t := by omega
  constructor
  · intro k h1 h2
    simp only
    by_cases hkk : k = (n - m) / 2 - (t + 1)
    · subst hkk
      rw [Function.update_self, hw.num _ (by omega) (by omega)]
      rw [pow_succ, ← fact_step n ((n - m) / 2 - (t + 1)) (by omega)]
      ring
    · rw [Function.update_of_ne hkk]
      exact hw.num k (by omega) h2
  · intro k h1
    simp only
    by_cases hkk : k = t + 1
    · subst hkk
      rw [Function.update_self, Nat.add_sub_cancel, hw.d0 t le_rfl, Nat.factorial_succ]
      push_cast; ring
    · rw [Function.update_of_ne hkk]
      exact hw.d0 k (by omega)
  · intro k h1 h2
    simp only
    by_cases hkk : k = (n - m) / 2 - (t + 1)
    · subst hkk
      rw [Function.update_self, hw.d1 _ (by omega) (by omega)]
      exact fact_step _ _ (by omega)
    · rw [Function.update_of_ne hkk]
      exact hw.d1 k (by omega) h2
  · intro k h1 h2
    simp only
    by_cases hkk : k = (n - m) / 2 - (t + 1)
    · subst hkk
      rw [Function.update_self, hw.d2 _ (by omega) (by omega)]
      exact fact_step _ _ (by omega)
    · rw [Function.update_of_ne hkk]
      exact hw.d2 k (by omega) h2

theorem zernWork_inv (n m : ℕ) (h : ValidMode n m) : ZernInv n m ((n - m) / 2) (zernWork n m) := by
  unfold zernWork
  suffices H : ∀ t, t ≤ (n - m) / 2 → ZernInv n m t ((List.range' 1 t).foldl (zernStep n m) (zernInit n m)) from H _ le_rfl
  intro t
  induction t with
  | zero => intro _; exact zernInit_inv n m h
  | succ t ih =>
    intro ht
    rw [List.range'_concat, List.foldl_append]
    simp only [List.foldl_cons, List.foldl_nil, mul_one, one_mul]
    rw [Nat.add_comm 1 t]
    exact zernStep_inv n m t h (by omega) _ (ih (by omega))

theorem foldl_add_eq_sum (f : ℕ → ℝ) (N : ℕ) : (List.range N).foldl (fun a k => a + f k) 0 = ∑ k ∈ range N, f k := by
  induction N with
  | zero => rfl
  | succ N ih => rw [List.range_succ, List.foldl_append, ih, Finset.sum_range_succ]; rfl

/-- The recurrence computes Noll's coefficients. -/
theorem zernWork_coef (n m k : ℕ) (h : ValidMode n m) (hk : k ≤ (n - m) / 2) :
    (zernWork n m).rnum k / ((zernWork n m).d0 k * (zernWork n m).d1 k * (zernWork n m).d2 k) = radialCoef n m k := by
  have hw := zernWork_inv n m h
  rw [hw.num k (by omega) hk, hw.d0 k hk, hw.d1 k (by omega) hk, hw.d2 k (by omega) hk]
  rfl

theorem zernRp_eq (n m : ℕ) (h : ValidMode n m) (r : ℝ) : zernRp n m r = radial n m r := by
  unfold zernRp radial
  rw [foldl_add_eq_sum (fun k => (zernWork n m).rnum k / ((zernWork n m).d0 k * (zernWork n m).d1 k * (zernWork n m).d2 k) *
      rpow r (n - 2 * k))]
  refine Finset.sum_congr rfl fun k hk => ?_
  rw [mem_range] at hk
  rw [zernWork_coef n m k h (by omega), rpow_eq]

/-- `Σ_k (-1)^k C(b,k) C(a+b-k, b) = 1`. -/
theorem alt_choose_sum (a b : ℕ) :
    ∑ k ∈ range (b + 1), (-1 : ℤ) ^ k * b.choose k * (a + b - k).choose b = 1 := by
  have h := congrFun (fwdDiff_iter_choose 0 b) a
  rw [fwdDiff_iter_eq_sum_shift] at h
  simp only [Nat.choose_zero_right, Nat.cast_one, add_zero] at h
  refine Eq.trans ?_ h
  rw [← Finset.sum_range_reflect]
  refine Finset.sum_congr rfl fun k hk => ?_
  rw [mem_range] at hk
  have e1 : b + 1 - 1 - k = b - k := by omega
  have e2 : a + b - (b - k) = a + k := by omega
  rw [e1, e2, Nat.choose_symm (by omega)]
  simp [smul_eq_mul]

theorem radialCoef_choose (a b k : ℕ) (hk : k ≤ b) (hab : b ≤ a) :
    radialCoef (a + b) (a - b) k = (((-1 : ℤ) ^ k * b.choose k * (a + b - k).choose b : ℤ) : ℝ) := by
  unfold radialCoef
  rw [show (a + b + (a - b)) / 2 = a by omega, show (a + b - (a - b)) / 2 = b by omega]
  push_cast
  rw [Nat.cast_choose ℝ hk, Nat.cast_choose ℝ (by omega : b ≤ a + b - k)]
  rw [show a + b - k - b = a - k by omega]
  have h1 := Nat.factorial_ne_zero k
  have h2 := Nat.factorial_ne_zero (a - k)
  have h3 := Nat.factorial_ne_zero (b - k)
  have h4 := Nat.factorial_ne_zero b
  field_simp

/-- The radial polynomial is one at the edge of the unit disc. -/
theorem radial_one (n m : ℕ) (h : ValidMode n m) : radial n m 1 = 1 := by
  obtain ⟨hmn, c, hc⟩ := h
  obtain ⟨a, b, hab, rfl, rfl⟩ : ∃ a b, b ≤ a ∧ n = a + b ∧ m = a - b := ⟨m + c, c, by omega, by omega, by omega⟩
  unfold radial
  simp only [one_pow, mul_one]
  rw [show (a + b - (a - b)) / 2 = b by omega]
  have := alt_choose_sum a b
  have h2 := congrArg (fun z : ℤ => (z : ℝ)) this
  simp only [Int.cast_one] at h2
  rw [← h2, Int.cast_sum]
  refine Finset.sum_congr rfl fun k hk => ?_
  rw [mem_range] at hk
  exact radialCoef_choose a b k (by omega) hab

end Coralign
