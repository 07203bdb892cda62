import Verif.Props.NoiseGain

/-!
# C112: the vertex of a disturbed quadratic surface
-/

namespace Coralign.Props

open Coralign Coralign.Spec Finset

/-- What is left of the misfit after the best fit is the squared norm, at the selected points, of the change of surface. -/
theorem surface_moved {xs ys : List ℝ} {n m : ℕ} {F : Fin n → Fin m → ℝ} {g : Fin n → Fin m → Bool} (hy : n = ys.length) (hx : m = xs.length)
    {a' b' c' d' e' f' : ℝ} (hb : BestSurface xs ys ⟨n, m, F⟩ ⟨n, m, g⟩ a' b' c' d' e' f') (a b c d e f : ℝ) :
    surfaceMisfit xs ys (Arr2.full n m 0) ⟨n, m, g⟩ (a' - a) (b' - b) (c' - c) (d' - d) (e' - e) (f' - f) ≤ surfaceMisfit xs ys ⟨n, m, F⟩ ⟨n, m, g⟩ a b c d e f := by
  let A : Masked ⟨n, m, g⟩ → Fin 6 → ℝ := fun q => quadRow (xs.get (q.1.2.cast hx)) (ys.get (q.1.1.cast hy))
  let B : Masked ⟨n, m, g⟩ → ℝ := fun q => F q.1.1 q.1.2
  have hls : IsLeastSq A B ![a', b', c', d', e', f'] := by
    intro y
    rw [← surfaceMisfit_eq xs ys n m F g hy hx, ← surfaceMisfit_eq xs ys n m F g hy hx]
    exact hb _ _ _ _ _ _
  have h0 : IsLeastSq A (fun i => fitted A ![a, b, c, d, e, f] i) ![a, b, c, d, e, f] := by
    refine isLeastSq_of_orthogonal fun y => ?_
    simp
  have key := (IsLeastSq.nonexpansive h0 hls).1
  have e1 := surfaceMisfit_eq xs ys n m F g hy hx ![a, b, c, d, e, f]
  have e2 := surfaceMisfit_eq xs ys n m (fun _ _ => 0) g hy hx ![a' - a, b' - b, c' - c, d' - d, e' - e, f' - f]
  simp only [Matrix.cons_val_zero, Matrix.cons_val_one, Matrix.cons_val] at e1 e2
  rw [show (Arr2.full n m (0 : ℝ)) = ⟨n, m, fun _ _ => 0⟩ from rfl, e1, e2]
  refine le_trans (le_of_eq ?_) (key.trans (le_of_eq ?_))
  · unfold sqResidual
    refine Finset.sum_congr rfl fun q _ => ?_
    have : ∀ k, (![a' - a, b' - b, c' - c, d' - d, e' - e, f' - f] : Fin 6 → ℝ) k = (![a', b', c', d', e', f'] : Fin 6 → ℝ) k - (![a, b, c, d, e, f] : Fin 6 → ℝ) k := by
      intro k; fin_cases k <;> rfl
    rw [show (![a' - a, b' - b, c' - c, d' - d, e' - e, f' - f] : Fin 6 → ℝ) = fun k => (![a', b', c', d', e', f'] : Fin 6 → ℝ) k - (![a, b, c, d, e, f] : Fin 6 → ℝ) k from funext this, fitted_sub]
    ring
  · unfold sqResidual
    exact Finset.sum_congr rfl fun q _ => by rw [← neg_sub, neg_sq]

/-- Points at which every quadratic surface has a positive norm determine a quadratic surface. -/
theorem determines_of_gain {xs ys : List ℝ} {n m : ℕ} {g : Fin n → Fin m → Bool} (hy : n = ys.length) (hx : m = xs.length) (σ : ℝ) (hσ : 0 < σ)
    (hcond : ∀ a b c d e f : ℝ, σ ^ 2 * (a ^ 2 + b ^ 2 + c ^ 2 + d ^ 2 + e ^ 2 + f ^ 2) ≤ surfaceMisfit xs ys (Arr2.full n m 0) ⟨n, m, g⟩ a b c d e f) :
    DeterminesQuadratic xs ys ⟨n, m, g⟩ := by
  intro a b c d e f h
  have h0 : surfaceMisfit xs ys (Arr2.full n m 0) ⟨n, m, g⟩ a b c d e f = 0 := by
    unfold surfaceMisfit
    refine Finset.sum_eq_zero fun i _ => Finset.sum_eq_zero fun j _ => ?_
    split
    · rename_i hm
      have hi : (i : ℕ) < ys.length := by have : (i : ℕ) < n := i.isLt; omega
      have hj : (j : ℕ) < xs.length := by have : (j : ℕ) < m := j.isLt; omega
      have := h i j (xs.getD j 0) (ys.getD i 0) hm (by rw [List.getD_eq_getElem _ _ hj, List.getElem?_eq_getElem hj]) (by rw [List.getD_eq_getElem _ _ hi, List.getElem?_eq_getElem hi])
      simp only [Arr2.full]
      rw [this]
      ring
    · rfl
  have := hcond a b c d e f
  rw [h0] at this
  have hs : 0 < σ ^ 2 := by positivity
  have h1 : a ^ 2 + b ^ 2 + c ^ 2 + d ^ 2 + e ^ 2 + f ^ 2 ≤ 0 := by
    by_contra hh
    have := mul_pos hs (not_le.mp hh)
    linarith
  have key : ∀ t : ℝ, t ^ 2 ≤ 0 → t = 0 := fun t ht => pow_eq_zero_iff (two_ne_zero) |>.mp (le_antisymm ht (sq_nonneg t))
  refine ⟨key a ?_, key b ?_, key c ?_, key d ?_, key e ?_, key f ?_⟩ <;>
    linarith [sq_nonneg a, sq_nonneg b, sq_nonneg c, sq_nonneg d, sq_nonneg e, sq_nonneg f]

/-- A form with least value `μ` on the unit circle has determinant at least `μ²`. -/
theorem form_det {a b c μ : ℝ} (hμ : 0 ≤ μ) (h : ∀ u v : ℝ, μ * (u ^ 2 + v ^ 2) ≤ a * u ^ 2 + b * (u * v) + c * v ^ 2) :
    4 * μ ^ 2 ≤ 4 * a * c - b * b ∧ μ ≤ c := by
  have ha : μ ≤ a := by have := h 1 0; norm_num at this; linarith
  have hc : μ ≤ c := by have := h 0 1; norm_num at this; linarith
  have hd := discrim_le_zero (a := a - μ) (b := b) (c := c - μ) (fun x => by have := h x 1; nlinarith)
  unfold discrim at hd
  exact ⟨by nlinarith, hc⟩

/-- Cauchy-Schwarz for five numbers. -/
theorem cauchy5 (p q r s t a b c d e : ℝ) :
    (p * a + q * b + r * c + s * d + t * e) ^ 2 ≤ (p ^ 2 + q ^ 2 + r ^ 2 + s ^ 2 + t ^ 2) * (a ^ 2 + b ^ 2 + c ^ 2 + d ^ 2 + e ^ 2) := by
  have := Finset.sum_mul_sq_le_sq_mul_sq univ (![p, q, r, s, t] : Fin 5 → ℝ) ![a, b, c, d, e]
  simpa [Fin.sum_univ_five] using this

theorem gradient_norm (x y p q : ℝ) :
    (2 * x * p) ^ 2 + (y * p + x * q) ^ 2 + (2 * y * q) ^ 2 + p ^ 2 + q ^ 2 ≤ (1 + 4 * (x ^ 2 + y ^ 2)) * (p ^ 2 + q ^ 2) := by
  have : (1 + 4 * (x ^ 2 + y ^ 2)) * (p ^ 2 + q ^ 2) - ((2 * x * p) ^ 2 + (y * p + x * q) ^ 2 + (2 * y * q) ^ 2 + p ^ 2 + q ^ 2) =
      (y * p - x * q) ^ 2 + 2 * (y * p) ^ 2 + 2 * (x * q) ^ 2 := by ring
  have h2 : 0 ≤ (y * p - x * q) ^ 2 + 2 * (y * p) ^ 2 + 2 * (x * q) ^ 2 := by positivity
  linarith

set_option maxHeartbeats 1000000 in
/-- **C112.** `find_optimum_2d` on a disturbed quadratic surface with its extremum at `(x, y)`.  Let the surface curve up (`s = 1`) or down (`s = -1`) by at
least `lam` in every direction, the disturbance have norm at most `ε` on the selected points, and every quadratic surface have, at those points, at least `σ`
times the norm of its coefficients.  If `lam - ε/σ` is at least what the code demands, the answer is within `(ε/σ) (1 + 2 r) / (2 (lam - ε/σ))` of the true
extremum, `r` being the distance of that from the origin. -/
theorem C112_vertex_2d (S : Solver) (xs ys : List ℝ) (arr : Arr2 ℝ) (mask : Arr2 Bool)
    (hr : arr.nr = mask.nr) (hc : arr.nc = mask.nc) (hy : arr.nr = ys.length) (hx : arr.nc = xs.length)
    (a b c d e f x y σ ε lam s : ℝ) (hσ : 0 < σ) (hε : 0 ≤ ε) (hs : s = 1 ∨ s = -1)
    (hx0 : 2 * a * x + b * y + d = 0) (hy0 : b * x + 2 * c * y + e = 0)
    (hcond : ∀ a b c d e f : ℝ, σ ^ 2 * (a ^ 2 + b ^ 2 + c ^ 2 + d ^ 2 + e ^ 2 + f ^ 2) ≤
      surfaceMisfit xs ys (Arr2.full arr.nr arr.nc 0) mask a b c d e f)
    (hnoise : surfaceMisfit xs ys arr mask a b c d e f ≤ ε ^ 2)
    (hcurv : ∀ u v : ℝ, lam * (u ^ 2 + v ^ 2) ≤ s * (a * u ^ 2 + b * (u * v) + c * v ^ 2))
    (hlam : ε / σ < lam) (hlim : 1 / 10 ^ 15 ≤ (lam - ε / σ) ^ 2) :
    ∃ x' y', findOptimum2d S xs ys arr mask = .ok (x', y') ∧
      Real.sqrt ((x' - x) ^ 2 + (y' - y) ^ 2) ≤ ε / σ * (1 + 2 * Real.sqrt (x ^ 2 + y ^ 2)) / (2 * (lam - ε / σ)) := by
  obtain ⟨a', b', c', d', e', f', hbest⟩ := C14_best_exists xs ys arr mask hr hc hy hx
  obtain ⟨n, m, F⟩ := arr
  obtain ⟨n', m', g⟩ := mask
  simp only at hr hc hy hx hcond
  subst hr hc
  have hdet := determines_of_gain hy hx σ hσ hcond
  have h3 := (hcond (a' - a) (b' - b) (c' - c) (d' - d) (e' - e) (f' - f)).trans ((surface_moved hy hx hbest a b c d e f).trans hnoise)
  set η := ε / σ with hη
  have hη0 : 0 ≤ η := div_nonneg hε hσ.le
  have h4 : (a' - a) ^ 2 + (b' - b) ^ 2 + (c' - c) ^ 2 + (d' - d) ^ 2 + (e' - e) ^ 2 + (f' - f) ^ 2 ≤ η ^ 2 := by
    rw [hη, div_pow, le_div_iff₀ (by positivity)]
    linarith
  have hss : s * s = 1 := by rcases hs with rfl | rfl <;> norm_num
  have hsa : ∀ t : ℝ, |s * t| = |t| := by rcases hs with rfl | rfl <;> intro t <;> simp
  set μ := lam - η with hμ
  have hμ0 : 0 < μ := by linarith
  -- what the disturbance can do to the curvature
  have hform : ∀ u v : ℝ, μ * (u ^ 2 + v ^ 2) ≤ (s * a') * u ^ 2 + (s * b') * (u * v) + (s * c') * v ^ 2 := by
    intro u v
    have h5 := cauchy5 (a' - a) (b' - b) (c' - c) 0 0 (u ^ 2) (u * v) (v ^ 2) 0 0
    have h6 : |s * ((a' - a) * u ^ 2 + (b' - b) * (u * v) + (c' - c) * v ^ 2)| ≤ η * (u ^ 2 + v ^ 2) := by
      rw [hsa]
      refine abs_le_of_sq_le_sq ?_ (by positivity)
      calc ((a' - a) * u ^ 2 + (b' - b) * (u * v) + (c' - c) * v ^ 2) ^ 2
          ≤ ((a' - a) ^ 2 + (b' - b) ^ 2 + (c' - c) ^ 2) * ((u ^ 2) ^ 2 + (u * v) ^ 2 + (v ^ 2) ^ 2) := by simpa using h5
        _ ≤ η ^ 2 * (u ^ 2 + v ^ 2) ^ 2 := by
          refine mul_le_mul ?_ ?_ (by positivity) (by positivity)
          · linarith [sq_nonneg (d' - d), sq_nonneg (e' - e), sq_nonneg (f' - f)]
          · nlinarith [sq_nonneg (u * v)]
        _ = (η * (u ^ 2 + v ^ 2)) ^ 2 := by ring
    have h7 := hcurv u v
    have h8 := (abs_le.mp h6).1
    have h15 : (s * a') * u ^ 2 + (s * b') * (u * v) + (s * c') * v ^ 2 =
        s * (a * u ^ 2 + b * (u * v) + c * v ^ 2) + s * ((a' - a) * u ^ 2 + (b' - b) * (u * v) + (c' - c) * v ^ 2) := by ring
    rw [h15, hμ, sub_mul]
    linarith
  obtain ⟨hD, hC⟩ := form_det hμ0.le hform
  have hD' : 4 * μ ^ 2 ≤ 4 * a' * c' - b' * b' := by
    have : 4 * (s * a') * (s * c') - s * b' * (s * b') = (s * s) * (4 * a' * c' - b' * b') := by ring
    rw [this, hss, one_mul] at hD
    exact hD
  have hC' : μ ≤ |c'| := by rw [← hsa]; exact hC.trans (le_abs_self _)
  have hlim1 : (1 : ℝ) / 10 ^ 15 ≤ μ := by
    by_contra hh
    push Not at hh
    have : μ ^ 2 < 1 / 10 ^ 15 := by
      have h1 : μ < 1 := hh.trans (by norm_num)
      nlinarith
    linarith
  obtain ⟨x', y', hok, g1, g2⟩ := (C14_best_fit S xs ys ⟨n, m, F⟩ ⟨n, m, g⟩ rfl rfl hy hx a' b' c' d' e' f' hbest hdet).1
    (by rw [abs_sub_comm]; exact le_trans (by linarith) ((hD'.trans (le_abs_self _))))
    (by rw [abs_mul, abs_of_pos (by norm_num : (0:ℝ) < 2)]; linarith)
  refine ⟨x', y', hok, ?_⟩
  generalize hp : x' - x = p at *
  generalize hq : y' - y = q at *
  have hxx : x' = x + p := by linarith
  have hyy : y' = y + q := by linarith
  -- the new gradient at the old extremum
  have h9 : 2 * (a' * p ^ 2 + b' * (p * q) + c' * q ^ 2) =
      -((a' - a) * (2 * x * p) + (b' - b) * (y * p + x * q) + (c' - c) * (2 * y * q) + (d' - d) * p + (e' - e) * q) := by
    subst hxx hyy
    linear_combination p * g1 + q * g2 - p * hx0 - q * hy0
  have h10 := cauchy5 (a' - a) (b' - b) (c' - c) (d' - d) (e' - e) (2 * x * p) (y * p + x * q) (2 * y * q) p q
  have h11 := hform p q
  have h12 : (2 * x * p) ^ 2 + (y * p + x * q) ^ 2 + (2 * y * q) ^ 2 + p ^ 2 + q ^ 2 ≤ (1 + 4 * (x ^ 2 + y ^ 2)) * (p ^ 2 + q ^ 2) := by
    exact gradient_norm x y p q
  have hR : 0 ≤ x ^ 2 + y ^ 2 := by positivity
  have hW : 0 ≤ p ^ 2 + q ^ 2 := by positivity
  set R := Real.sqrt (x ^ 2 + y ^ 2) with hRd
  set W := Real.sqrt (p ^ 2 + q ^ 2) with hWd
  have hR2 : R ^ 2 = x ^ 2 + y ^ 2 := Real.sq_sqrt hR
  have hW2 : W ^ 2 = p ^ 2 + q ^ 2 := Real.sq_sqrt hW
  have hR0 : 0 ≤ R := Real.sqrt_nonneg _
  have hW0 : 0 ≤ W := Real.sqrt_nonneg _
  have h13 : |2 * (a' * p ^ 2 + b' * (p * q) + c' * q ^ 2)| ≤ η * (1 + 2 * R) * W := by
    rw [h9, abs_neg]
    refine abs_le_of_sq_le_sq ?_ (by positivity)
    calc _ ≤ _ := h10
      _ ≤ η ^ 2 * ((1 + 4 * R ^ 2) * W ^ 2) := by
        rw [hR2, hW2]
        refine mul_le_mul ?_ h12 (by positivity) (by positivity)
        linarith [sq_nonneg (f' - f)]
      _ ≤ η ^ 2 * ((1 + 2 * R) ^ 2 * W ^ 2) := by
        refine mul_le_mul_of_nonneg_left (mul_le_mul_of_nonneg_right ?_ (by positivity)) (by positivity)
        have : (1 + 2 * R) ^ 2 = 1 + 4 * R ^ 2 + 4 * R := by ring
        linarith
      _ = (η * (1 + 2 * R) * W) ^ 2 := by ring
  have h14 : 2 * μ * W ^ 2 ≤ η * (1 + 2 * R) * W := by
    refine le_trans ?_ h13
    rw [← hsa, hW2]
    refine le_trans ?_ (le_abs_self _)
    have h16 : s * (2 * (a' * p ^ 2 + b' * (p * q) + c' * q ^ 2)) = 2 * (s * a' * p ^ 2 + s * b' * (p * q) + s * c' * q ^ 2) := by ring
    rw [h16]
    linarith
  rw [le_div_iff₀ (by linarith)]
  rcases hW0.eq_or_lt with h0 | h0
  · rw [← h0, zero_mul]; positivity
  · by_contra hh
    push Not at hh
    have h17 := mul_lt_mul_of_pos_right hh h0
    have h18 : W * (2 * μ) * W = 2 * μ * W ^ 2 := by ring
    linarith

/-- Samples of `x² + y²` on the nine points of a 3 by 3 grid, the corner too bright by 1/100: the extremum is found within 1/50. -/
example (S : Solver) : ∃ x y, findOptimum2d S [-1, 0, 1] [-1, 0, 1]
      ⟨3, 3, fun i j => ((i : ℕ) - 1 : ℝ) ^ 2 + ((j : ℕ) - 1 : ℝ) ^ 2 + if (i : ℕ) = 0 ∧ (j : ℕ) = 0 then 1 / 100 else 0⟩ (Arr2.full 3 3 true) = .ok (x, y) ∧
    Real.sqrt (x ^ 2 + y ^ 2) ≤ 1 / 50 := by
  have hpx : ∀ i j : Fin 3, (Arr2.full 3 3 true).px (i : ℕ) (j : ℕ) = some true := fun i j => Arr2.px_val (Arr2.full 3 3 true) i j
  have hm : ∀ (F : Fin 3 → Fin 3 → ℝ) (a b c d e f : ℝ), surfaceMisfit [-1, 0, 1] [-1, 0, 1] ⟨3, 3, F⟩ (Arr2.full 3 3 true) a b c d e f =
      ∑ i : Fin 3, ∑ j : Fin 3, (a * (![-1, 0, 1] : Fin 3 → ℝ) j ^ 2 + b * ((![-1, 0, 1] : Fin 3 → ℝ) j * (![-1, 0, 1] : Fin 3 → ℝ) i)
        + c * (![-1, 0, 1] : Fin 3 → ℝ) i ^ 2 + d * (![-1, 0, 1] : Fin 3 → ℝ) j + e * (![-1, 0, 1] : Fin 3 → ℝ) i + f - F i j) ^ 2 := by
    intro F a b c d e f
    unfold surfaceMisfit
    refine Finset.sum_congr rfl fun i _ => Finset.sum_congr rfl fun j _ => ?_
    rw [if_pos (hpx i j)]
    fin_cases i <;> fin_cases j <;> rfl
  obtain ⟨x, y, h1, h2⟩ := C112_vertex_2d S [-1, 0, 1] [-1, 0, 1]
    ⟨3, 3, fun i j => ((i : ℕ) - 1 : ℝ) ^ 2 + ((j : ℕ) - 1 : ℝ) ^ 2 + if (i : ℕ) = 0 ∧ (j : ℕ) = 0 then 1 / 100 else 0⟩ (Arr2.full 3 3 true)
    rfl rfl rfl rfl 1 0 1 0 0 0 0 0 1 (1 / 100) 1 1 one_pos (by norm_num) (Or.inl rfl) (by ring) (by ring)
    (by
      intro a b c d e f
      rw [show (Arr2.full 3 3 (0 : ℝ)) = ⟨3, 3, fun _ _ => 0⟩ from rfl, hm]
      simp [Fin.sum_univ_three]
      nlinarith [sq_nonneg (a - c), sq_nonneg (3 * a + 3 * c + 4 * f), sq_nonneg b, sq_nonneg d, sq_nonneg e])
    (by
      rw [hm]
      simp [Fin.sum_univ_three]
      norm_num)
    (by intro u v; nlinarith)
    (by norm_num) (by norm_num)
  refine ⟨x, y, h1, ?_⟩
  norm_num at h2
  linarith

end Coralign.Props
