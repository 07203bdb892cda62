import Verif.Model.FindOpt
import Mathlib.Tactic.LinearCombination
import Mathlib.Tactic.FieldSimp
import Mathlib.Data.Fin.VecNotation
import Mathlib.Algebra.BigOperators.Fin

/-!
# Properties C13 and C14: quadratic optimum finding
-/

namespace Coralign.Props

open Coralign

/-- A quadratic with three distinct zeros is zero. -/
theorem quadratic_three_zeros (a b c x y z : ℝ) (hxy : x ≠ y) (hxz : x ≠ z) (hyz : y ≠ z)
    (h1 : a * x ^ 2 + b * x + c = 0) (h2 : a * y ^ 2 + b * y + c = 0) (h3 : a * z ^ 2 + b * z + c = 0) :
    a = 0 ∧ b = 0 ∧ c = 0 := by
  have e1 : (x - y) * (a * (x + y) + b) = 0 := by linear_combination h1 - h2
  have e2 : (x - z) * (a * (x + z) + b) = 0 := by linear_combination h1 - h3
  have f1 : a * (x + y) + b = 0 := (mul_eq_zero.mp e1).resolve_left (sub_ne_zero.mpr hxy)
  have f2 : a * (x + z) + b = 0 := (mul_eq_zero.mp e2).resolve_left (sub_ne_zero.mpr hxz)
  have g : a * (y - z) = 0 := by linear_combination f1 - f2
  have ha : a = 0 := (mul_eq_zero.mp g).resolve_right (sub_ne_zero.mpr hyz)
  subst ha
  have hb : b = 0 := by linarith
  subst hb
  exact ⟨rfl, rfl, by linarith⟩

theorem fitted_vander2 {n : ℕ} (xs : Fin n → ℝ) (p : Fin 3 → ℝ) (i : Fin n) :
    fitted (vander2 xs) p i = p 0 * xs i ^ 2 + p 1 * xs i + p 2 := by
  simp [fitted, vander2, Fin.sum_univ_three]; ring

/-- The coefficients found by any least-squares routine on exact samples of a parabola are its coefficients. -/
theorem polyfit_exact (S : Solver) {n : ℕ} (xs ys : Fin n → ℝ) (a b c : ℝ)
    (hy : ∀ i, ys i = a * xs i ^ 2 + b * xs i + c) (i j k : Fin n)
    (hij : xs i ≠ xs j) (hik : xs i ≠ xs k) (hjk : xs j ≠ xs k) :
    S.solve (vander2 xs) ys 0 = a ∧ S.solve (vander2 xs) ys 1 = b ∧ S.solve (vander2 xs) ys 2 = c := by
  have hls := S.isLeastSq (vander2 xs) ys
  have hex := hls.exact (x₀ := ![a, b, c]) (by intro i; rw [fitted_vander2, hy i]; simp)
  generalize S.solve (vander2 xs) ys = p at *
  have key : ∀ i, (p 0 - a) * xs i ^ 2 + (p 1 - b) * xs i + (p 2 - c) = 0 := by
    intro i
    have := hex i
    rw [fitted_vander2, hy i] at this
    linear_combination this
  obtain ⟨h1, h2, h3⟩ := quadratic_three_zeros _ _ _ _ _ _ hij hik hjk (key i) (key j) (key k)
  exact ⟨by linarith, by linarith, by linarith⟩

/-- **C13.** For samples of a parabola `a x^2 + b x + c` at abscissae of which at least three are distinct,
`find_optimum_1d` returns the vertex `-b/(2a)` when the curvature is at least machine epsilon, and raises
`QuadraticException` when it is below - whatever least-squares routine is used underneath. -/
theorem C13_parabola_vertex (S : Solver) (xs ys : List ℝ) (a b c : ℝ)
    (hys : ys = xs.map fun x => a * x ^ 2 + b * x + c)
    (h3 : ∃ x ∈ xs, ∃ y ∈ xs, ∃ z ∈ xs, x ≠ y ∧ x ≠ z ∧ y ≠ z) :
    (1 / 2 ^ 52 ≤ |a| → findOptimum1d S xs ys = .ok (-b / (2 * a))) ∧
    (|a| < 1 / 2 ^ 52 → findOptimum1d S xs ys = .error .quadraticException) := by
  rw [show ((1 : ℝ) / 2 ^ 52) = macheps from rfl]
  obtain ⟨x, hx, y, hy, z, hz, hxy, hxz, hyz⟩ := h3
  obtain ⟨i, rfl⟩ := List.mem_iff_get.mp hx
  obtain ⟨j, rfl⟩ := List.mem_iff_get.mp hy
  obtain ⟨k, rfl⟩ := List.mem_iff_get.mp hz
  have hlen : xs.length = ys.length := by rw [hys]; simp
  have hne : xs.length ≠ 0 := by have := i.isLt; omega
  have hp := polyfit_exact S (fun i : Fin xs.length => xs.get i)
    (fun i => ys.get (i.cast hlen)) a b c (by intro i; subst hys; simp) i j k hxy hxz hyz
  unfold findOptimum1d
  rw [dif_neg (by simp [hlen]), if_neg hne]
  simp only [hp.1, hp.2.1]
  constructor
  · intro h; rw [if_neg (not_lt.mpr h)]
  · intro h; rw [if_pos h]

/-- **C13, meaning of the vertex.** The returned point is the minimum of the parabola for `a > 0` and its maximum
for `a < 0`. -/
theorem C13_vertex_is_optimum (a b c : ℝ) (ha : a ≠ 0) (x : ℝ) :
    (0 < a → a * (-b / (2 * a)) ^ 2 + b * (-b / (2 * a)) + c ≤ a * x ^ 2 + b * x + c) ∧
    (a < 0 → a * x ^ 2 + b * x + c ≤ a * (-b / (2 * a)) ^ 2 + b * (-b / (2 * a)) + c) := by
  have e : a * x ^ 2 + b * x + c - (a * (-b / (2 * a)) ^ 2 + b * (-b / (2 * a)) + c)
      = a * (x + b / (2 * a)) ^ 2 := by field_simp; ring
  constructor
  · intro h; nlinarith [mul_nonneg h.le (sq_nonneg (x + b / (2 * a)))]
  · intro h; nlinarith [mul_nonneg (neg_nonneg.mpr h.le) (sq_nonneg (x + b / (2 * a)))]

/-- **C13.** Arrays of different lengths are rejected. -/
theorem C13_length_mismatch (S : Solver) (xs ys : List ℝ) (h : xs.length ≠ ys.length) :
    findOptimum1d S xs ys = .error .valueError := by
  unfold findOptimum1d; rw [dif_pos h]

example : ∃ S : Solver, findOptimum1d S [0, 1, 2, 4] [3, 0, 1, 15] = .ok (5 / 4) := by
  obtain ⟨S⟩ := Solver.nonempty
  refine ⟨S, ?_⟩
  have h := (C13_parabola_vertex S [0, 1, 2, 4] [3, 0, 1, 15] 2 (-5) 3 (by norm_num)
    ⟨0, by simp, 1, by simp, 2, by simp, by norm_num, by norm_num, by norm_num⟩).1
    (by norm_num [abs_of_pos])
  rw [h]; norm_num

theorem fitted_quadRow {ι : Type} [Fintype ι] (X Y : ι → ℝ) (p : Fin 6 → ℝ) (i : ι) :
    fitted (fun q => quadRow (X q) (Y q)) p i =
      p 0 * X i ^ 2 + p 1 * (X i * Y i) + p 2 * Y i ^ 2 + p 3 * X i + p 4 * Y i + p 5 := by
  simp [fitted, quadRow, Fin.sum_univ_six]; ring

/-- Specification: the points selected by the mask determine a quadratic surface, i.e. the only quadratic
polynomial in `(x, y)` vanishing on all of them is zero. -/
def DeterminesQuadratic (xs ys : List ℝ) (mask : Arr2 Bool) : Prop :=
  ∀ a b c d e f : ℝ,
    (∀ (i j : ℕ) (x y : ℝ), mask.px i j = some true → xs[j]? = some x → ys[i]? = some y →
      a * x ^ 2 + b * (x * y) + c * y ^ 2 + d * x + e * y + f = 0) →
    a = 0 ∧ b = 0 ∧ c = 0 ∧ d = 0 ∧ e = 0 ∧ f = 0

/-- Specification: the array holds samples of the quadratic surface on the masked pixels. -/
def SamplesQuadratic (xs ys : List ℝ) (arr : Arr2 ℝ) (mask : Arr2 Bool) (a b c d e f : ℝ) : Prop :=
  ∀ (i j : ℕ) (x y : ℝ), mask.px i j = some true → xs[j]? = some x → ys[i]? = some y →
    arr.px i j = some (a * x ^ 2 + b * (x * y) + c * y ^ 2 + d * x + e * y + f)

/-- **C14.** For samples of a quadratic surface on any mask whose points determine a quadratic,
`find_optimum_2d` returns the stationary point of the surface (both partial derivatives vanish there) when the
denominators pass the code's tests, and raises `QuadraticException` otherwise. -/
theorem C14_stationary_point (S : Solver) (xs ys : List ℝ) (arr : Arr2 ℝ) (mask : Arr2 Bool)
    (hr : arr.nr = mask.nr) (hc : arr.nc = mask.nc) (hy : arr.nr = ys.length) (hx : arr.nc = xs.length)
    (a b c d e f : ℝ) (hs : SamplesQuadratic xs ys arr mask a b c d e f)
    (hd : DeterminesQuadratic xs ys mask) :
    (4 * (1 / 10 ^ 15) ≤ |b * b - 4 * a * c| → 2 * (1 / 10 ^ 15) ≤ |2 * c| →
      ∃ x y, findOptimum2d S xs ys arr mask = .ok (x, y) ∧
        2 * a * x + b * y + d = 0 ∧ b * x + 2 * c * y + e = 0) ∧
    (|b * b - 4 * a * c| < 4 * (1 / 10 ^ 15) ∨ |2 * c| < 2 * (1 / 10 ^ 15) →
      findOptimum2d S xs ys arr mask = .error .quadraticException) := by
  rw [show ((1 : ℝ) / 10 ^ 15) = fresolution from rfl]
  let X : Masked mask → ℝ := fun q => xs.get (q.1.2.cast (by omega))
  let Y : Masked mask → ℝ := fun q => ys.get (q.1.1.cast (by omega))
  let B : Masked mask → ℝ := fun q => arr.val (q.1.1.cast (by omega)) (q.1.2.cast (by omega))
  have hpx : ∀ q : Masked mask, mask.px (q.1.1 : ℕ) (q.1.2 : ℕ) = some true := by
    intro q; rw [Arr2.px_val, q.2]
  have hX : ∀ q : Masked mask, xs[(q.1.2 : ℕ)]? = some (X q) := by
    intro q
    have : (q.1.2 : ℕ) < xs.length := by have := q.1.2.isLt; omega
    rw [List.getElem?_eq_getElem this]; rfl
  have hY : ∀ q : Masked mask, ys[(q.1.1 : ℕ)]? = some (Y q) := by
    intro q
    have : (q.1.1 : ℕ) < ys.length := by have := q.1.1.isLt; omega
    rw [List.getElem?_eq_getElem this]; rfl
  have hB : ∀ q : Masked mask,
      B q = a * X q ^ 2 + b * (X q * Y q) + c * Y q ^ 2 + d * X q + e * Y q + f := by
    intro q
    have h1 := hs _ _ _ _ (hpx q) (hX q) (hY q)
    have h2 := Arr2.px_val arr (q.1.1.cast (by omega)) (q.1.2.cast (by omega))
    simp only [Fin.val_cast] at h2
    rw [h1] at h2
    exact (Option.some.inj h2).symm
  have hls := S.isLeastSq (fun q => quadRow (X q) (Y q)) B
  have hex := hls.exact (x₀ := ![a, b, c, d, e, f]) (by
    intro q; rw [fitted_quadRow, hB q]; rfl)
  have hp : S.solve (fun q => quadRow (X q) (Y q)) B 0 = a ∧ S.solve (fun q => quadRow (X q) (Y q)) B 1 = b ∧
      S.solve (fun q => quadRow (X q) (Y q)) B 2 = c ∧ S.solve (fun q => quadRow (X q) (Y q)) B 3 = d ∧
      S.solve (fun q => quadRow (X q) (Y q)) B 4 = e := by
    generalize S.solve (fun q => quadRow (X q) (Y q)) B = p at *
    have := hd (p 0 - a) (p 1 - b) (p 2 - c) (p 3 - d) (p 4 - e) (p 5 - f) (by
      intro i j x y hm hxx hyy
      have hin := (Arr2.px_isSome mask i j).mp (by rw [hm]; rfl)
      have hi : i < mask.nr := by omega
      have hj : j < mask.nc := by omega
      have hm' : mask.val ⟨i, hi⟩ ⟨j, hj⟩ = true := by
        have := Arr2.px_val mask ⟨i, hi⟩ ⟨j, hj⟩
        simp only at this
        rw [hm] at this
        exact (Option.some.inj this).symm
      let q : Masked mask := ⟨(⟨i, hi⟩, ⟨j, hj⟩), hm'⟩
      have e1 : X q = x := by have := hX q; simp only [q] at this; rw [hxx] at this; exact (Option.some.inj this).symm
      have e2 : Y q = y := by have := hY q; simp only [q] at this; rw [hyy] at this; exact (Option.some.inj this).symm
      have h1 := hex q
      rw [fitted_quadRow, hB q, e1, e2] at h1
      linear_combination h1)
    exact ⟨by linarith [this.1], by linarith [this.2.1], by linarith [this.2.2.1], by linarith [this.2.2.2.1],
      by linarith [this.2.2.2.2.1]⟩
  obtain ⟨p0, p1, p2, p3, p4⟩ := hp
  have hfun : findOptimum2d S xs ys arr mask =
      if |b * b - 4 * a * c| < 4 * fresolution ∨ |2 * c| < 2 * fresolution then .error .quadraticException
      else .ok ((2 * c * d - e * b) / (b * b - 4 * a * c),
        -(b * ((2 * c * d - e * b) / (b * b - 4 * a * c)) + e) / (2 * c)) := by
    unfold findOptimum2d
    rw [dif_neg (by omega), dif_neg (by omega), dif_neg (by omega)]
    simp only
    rw [← p0, ← p1, ← p2, ← p3, ← p4]
  rw [hfun]
  constructor
  · intro h1 h2
    rw [if_neg (by push Not; exact ⟨h1, h2⟩)]
    have hres : 0 < fresolution := by norm_num [fresolution]
    have hdx : b * b - 4 * a * c ≠ 0 := by
      intro h0; rw [h0, abs_zero] at h1; linarith
    have hcc : c ≠ 0 := by
      intro h0; rw [h0, mul_zero, abs_zero] at h2; linarith
    have hX1 : (2 * c * d - e * b) / (b * b - 4 * a * c) * (b * b - 4 * a * c) = 2 * c * d - e * b :=
      div_mul_cancel₀ _ hdx
    generalize (2 * c * d - e * b) / (b * b - 4 * a * c) = x at *
    have hY1 : -(b * x + e) / (2 * c) * (2 * c) = -(b * x + e) :=
      div_mul_cancel₀ _ (mul_ne_zero two_ne_zero hcc)
    generalize -(b * x + e) / (2 * c) = y at *
    refine ⟨x, y, rfl, ?_, by linear_combination hY1⟩
    have : (2 * c) * (2 * a * x + b * y + d) = 0 := by linear_combination b * hY1 - hX1
    exact (mul_eq_zero.mp this).resolve_left (mul_ne_zero two_ne_zero hcc)
  · intro h
    rw [if_pos h]

/-- **C14.** Arrays of inconsistent shape are rejected. -/
theorem C14_shape_mismatch (S : Solver) (xs ys : List ℝ) (arr : Arr2 ℝ) (mask : Arr2 Bool)
    (h : ¬ (arr.nr = mask.nr ∧ arr.nc = mask.nc ∧ arr.nr = ys.length ∧ arr.nc = xs.length)) :
    findOptimum2d S xs ys arr mask = .error .valueError := by
  unfold findOptimum2d
  by_cases h1 : arr.nr ≠ mask.nr ∨ arr.nc ≠ mask.nc
  · rw [dif_pos h1]
  · rw [dif_neg h1]
    by_cases h2 : arr.nr ≠ ys.length
    · rw [dif_pos h2]
    · rw [dif_neg h2, dif_pos (by omega)]

/-- The 3 x 3 grid on {0,1,2}^2 determines a quadratic, so the hypotheses of `C14_stationary_point` are met. -/
example : DeterminesQuadratic [0, 1, 2] [0, 1, 2] (Arr2.full 3 3 true) := by
  intro a b c d e f h
  have m : ∀ i j : ℕ, i < 3 → j < 3 → (Arr2.full 3 3 true).px i j = some true := by
    intro i j hi hj; rw [Arr2.px_full_in]; omega
  have h00 := h 0 0 0 0 (m _ _ (by omega) (by omega)) rfl rfl
  have h01 := h 0 1 1 0 (m _ _ (by omega) (by omega)) rfl rfl
  have h02 := h 0 2 2 0 (m _ _ (by omega) (by omega)) rfl rfl
  have h10 := h 1 0 0 1 (m _ _ (by omega) (by omega)) rfl rfl
  have h20 := h 2 0 0 2 (m _ _ (by omega) (by omega)) rfl rfl
  have h11 := h 1 1 1 1 (m _ _ (by omega) (by omega)) rfl rfl
  norm_num at *
  refine ⟨by linarith, by linarith, by linarith, by linarith, by linarith, by linarith⟩

end Coralign.Props
