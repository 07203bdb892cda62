import Verif.Props.GridSearch
import Verif.Spec.BestFit

/-!
# C13, C14 on arbitrary data: the answer is the vertex of the least-squares fit, in any units
-/

namespace Coralign.Props

open Coralign Coralign.Spec

theorem IsLeastSq_smul {ι κ : Type} [Fintype ι] [Fintype κ] {A : ι → κ → ℝ} {b : ι → ℝ} {x : κ → ℝ} (h : IsLeastSq A b x) (c : ℝ) :
    IsLeastSq A (fun i => c * b i) (fun k => c * x k) := by
  refine isLeastSq_of_orthogonal fun y => ?_
  have := h.orthogonal y
  have e : ∀ i, (fitted A (fun k => c * x k) i - c * b i) * fitted A y i = c * ((fitted A x i - b i) * fitted A y i) := by
    intro i
    rw [fitted_smul]
    ring
  simp only [e, ← Finset.mul_sum, this, mul_zero]

/-! ### One dimension -/

theorem parabolaMisfit_eq (xs ys : List ℝ) (h : xs.length = ys.length) (p : Fin 3 → ℝ) :
    parabolaMisfit (xs.zip ys) (p 0) (p 1) (p 2) =
      sqResidual (vander2 fun i : Fin xs.length => xs.get i) (fun i => ys.get (i.cast h)) p := by
  unfold parabolaMisfit sqResidual
  rw [← List.sum_ofFn]
  congr 1
  refine List.ext_getElem (by simp [h]) fun k h1 h2 => ?_
  simp only [List.getElem_map, List.getElem_zip, List.getElem_ofFn, fitted_vander2, List.get_eq_getElem, Fin.val_cast]

theorem solve_parabola (S : Solver) (xs ys : List ℝ) (h : xs.length = ys.length) (h3 : ThreeValues xs) (a b c : ℝ)
    (hb : BestParabola (xs.zip ys) a b c) :
    S.solve (vander2 fun i : Fin xs.length => xs.get i) (fun i => ys.get (i.cast h)) = ![a, b, c] := by
  have hls := S.isLeastSq (vander2 fun i : Fin xs.length => xs.get i) (fun i => ys.get (i.cast h))
  have hls' : IsLeastSq (vander2 fun i : Fin xs.length => xs.get i) (fun i => ys.get (i.cast h)) ![a, b, c] := by
    intro y
    rw [← parabolaMisfit_eq xs ys h, ← parabolaMisfit_eq xs ys h]
    exact hb _ _ _
  have hu := hls.fitted_unique hls'
  generalize S.solve (vander2 fun i : Fin xs.length => xs.get i) (fun i => ys.get (i.cast h)) = p at hu
  have key : ∀ x ∈ xs, (p 0 - a) * x ^ 2 + (p 1 - b) * x + (p 2 - c) = 0 := by
    intro x hx
    obtain ⟨i, rfl⟩ := List.mem_iff_get.mp hx
    have := hu i
    rw [fitted_vander2, fitted_vander2] at this
    simp only [Matrix.cons_val_zero, Matrix.cons_val_one, Matrix.cons_val] at this
    linear_combination this
  obtain ⟨x, hx, y, hy, z, hz, hxy, hxz, hyz⟩ := h3
  obtain ⟨h1, h2, h3⟩ := quadratic_three_zeros _ _ _ _ _ _ hxy hxz hyz (key x hx) (key y hy) (key z hz)
  funext k
  fin_cases k
  · exact sub_eq_zero.mp h1
  · exact sub_eq_zero.mp h2
  · exact sub_eq_zero.mp h3

/-- **C13, any data.** For samples at abscissae of which three are distinct, `find_optimum_1d` returns the vertex of the parabola that fits
the samples best in the least-squares sense, or raises `QuadraticException` when the curvature of that parabola is below machine epsilon. -/
theorem C13_best_fit (S : Solver) (xs ys : List ℝ) (hl : xs.length = ys.length) (h3 : ThreeValues xs) (a b c : ℝ)
    (hb : BestParabola (xs.zip ys) a b c) :
    (1 / 2 ^ 52 ≤ |a| → findOptimum1d S xs ys = .ok (-b / (2 * a))) ∧
    (|a| < 1 / 2 ^ 52 → findOptimum1d S xs ys = .error .quadraticException) := by
  rw [show ((1 : ℝ) / 2 ^ 52) = macheps from rfl]
  have hp := solve_parabola S xs ys hl h3 a b c hb
  have hne : xs.length ≠ 0 := by
    obtain ⟨x, hx, -⟩ := h3
    exact (List.length_pos_of_mem hx).ne'
  unfold findOptimum1d
  rw [dif_neg (by simp [hl]), if_neg hne]
  simp only [hp]
  constructor
  · intro h; rw [if_neg (by exact not_lt.mpr h)]; rfl
  · intro h; rw [if_pos (by exact h)]

/-- There is always such a parabola. -/
theorem C13_best_exists (xs ys : List ℝ) (hl : xs.length = ys.length) : ∃ a b c, BestParabola (xs.zip ys) a b c := by
  obtain ⟨p, hp⟩ := exists_isLeastSq (vander2 fun i : Fin xs.length => xs.get i) (fun i => ys.get (i.cast hl))
  refine ⟨p 0, p 1, p 2, fun a b c => ?_⟩
  have := hp ![a, b, c]
  rw [← parabolaMisfit_eq xs ys hl, ← parabolaMisfit_eq xs ys hl] at this
  exact this

theorem BestParabola_smul {xs ys : List ℝ} {a b c : ℝ} (h : BestParabola (xs.zip ys) a b c) (k : ℝ) :
    BestParabola (xs.zip (ys.map fun v : ℝ => k * v)) (k * a) (k * b) (k * c) := by
  have e : ∀ a b c : ℝ, parabolaMisfit (xs.zip (ys.map fun v : ℝ => k * v)) (k * a) (k * b) (k * c) =
      k ^ 2 * parabolaMisfit (xs.zip ys) a b c := by
    intro a b c
    unfold parabolaMisfit
    rw [List.zip_map_right, List.map_map, ← List.sum_map_mul_left]
    congr 1
    refine List.map_congr_left fun s _ => ?_
    simp only [Function.comp, Prod.map_fst, Prod.map_snd, id]
    ring
  by_cases hk : k = 0
  · subst hk
    intro a' b' c'
    have : parabolaMisfit (xs.zip (ys.map fun v : ℝ => 0 * v)) (0 * a) (0 * b) (0 * c) = 0 := by rw [e]; ring
    rw [this]
    unfold parabolaMisfit
    exact List.sum_nonneg (by
      intro v hv
      obtain ⟨s, -, rfl⟩ := List.mem_map.mp hv
      exact sq_nonneg _)
  · intro a' b' c'
    have h1 := h (a' / k) (b' / k) (c' / k)
    have h2 := e (a' / k) (b' / k) (c' / k)
    rw [mul_div_cancel₀ _ hk, mul_div_cancel₀ _ hk, mul_div_cancel₀ _ hk] at h2
    rw [h2, e]
    exact mul_le_mul_of_nonneg_left h1 (sq_nonneg _)

/-- **C13, units.** Expressing the fitted values in smaller units (multiplying them by a factor of magnitude at least one) does not change an
answer. -/
theorem C13_units (S : Solver) (xs ys : List ℝ) (h3 : ThreeValues xs) (k : ℝ) (hk : 1 ≤ |k|) (v : ℝ)
    (h : findOptimum1d S xs ys = .ok v) : findOptimum1d S xs (ys.map fun v : ℝ => k * v) = .ok v := by
  have hl : xs.length = ys.length := by
    by_contra hne
    rw [C13_length_mismatch S xs ys hne] at h
    cases h
  obtain ⟨a, b, c, hb⟩ := C13_best_exists xs ys hl
  have h1 := C13_best_fit S xs ys hl h3 a b c hb
  have h2 := C13_best_fit S xs (ys.map fun v : ℝ => k * v) (by rw [List.length_map]; exact hl) h3 _ _ _ (BestParabola_smul hb k)
  by_cases ha : macheps ≤ |a|
  · rw [h1.1 ha] at h
    have hm : 0 < macheps := by unfold macheps; positivity
    have ha0 : a ≠ 0 := by rintro rfl; rw [abs_zero] at ha; linarith
    have hk0 : k ≠ 0 := by rintro rfl; rw [abs_zero] at hk; linarith
    have hka : macheps ≤ |k * a| := by
      rw [abs_mul]
      nlinarith [abs_nonneg a]
    rw [h2.1 hka, ← Except.ok.inj h]
    congr 1
    field_simp
  · rw [h1.2 (not_le.mp ha)] at h
    cases h

/-- The hypotheses are met by noisy samples: the parabola through `(0,0), (1,1), (2,0)` has its vertex at 1. -/
example (S : Solver) : findOptimum1d S [0, 1, 2] [0, 1, 0] = .ok 1 ∧ findOptimum1d S [0, 1, 2] ([0, 1, 0].map fun v : ℝ => 7 * v) = .ok 1 := by
  have h3 : ThreeValues [0, 1, 2] := ⟨0, by simp, 1, by simp, 2, by simp, by norm_num⟩
  have h : findOptimum1d S [0, 1, 2] [0, 1, 0] = .ok 1 := by
    have := (C13_best_fit S [0, 1, 2] [0, 1, 0] rfl h3 (-1) 2 0 (by
      intro a b c
      refine le_trans (le_of_eq ?_) (b := 0) ?_
      · simp [parabolaMisfit]; norm_num
      · unfold parabolaMisfit
        exact List.sum_nonneg (by
          intro v hv
          obtain ⟨s, -, rfl⟩ := List.mem_map.mp hv
          exact sq_nonneg _))).1 (by norm_num [macheps])
    rw [this]
    norm_num
  exact ⟨h, C13_units S _ _ h3 7 (by norm_num) 1 h⟩

/-! ### Two dimensions -/

/-- The samples inside the mask as the least-squares routine sees them. -/
theorem surfaceMisfit_eq (xs ys : List ℝ) (n m : ℕ) (f : Fin n → Fin m → ℝ) (g : Fin n → Fin m → Bool) (hy : n = ys.length) (hx : m = xs.length)
    (p : Fin 6 → ℝ) :
    surfaceMisfit xs ys ⟨n, m, f⟩ ⟨n, m, g⟩ (p 0) (p 1) (p 2) (p 3) (p 4) (p 5) =
      sqResidual (ι := Masked ⟨n, m, g⟩) (fun q => quadRow (xs.get (q.1.2.cast hx)) (ys.get (q.1.1.cast hy)))
        (fun q => f q.1.1 q.1.2) p := by
  classical
  unfold surfaceMisfit sqResidual
  simp only
  rw [← Finset.sum_product', Finset.univ_product_univ, ← Finset.sum_filter]
  have hfil : ∀ q : Fin n × Fin m, ((⟨n, m, g⟩ : Arr2 Bool).px (q.1 : ℕ) (q.2 : ℕ) = some true) ↔ g q.1 q.2 = true := by
    intro q
    rw [Arr2.px_val (a := ⟨n, m, g⟩) q.1 q.2]
    simp
  simp only [hfil]
  rw [Finset.sum_subtype (Finset.univ.filter fun q : Fin n × Fin m => g q.1 q.2 = true) (p := fun q => g q.1 q.2 = true) (by simp)]
  refine Finset.sum_congr rfl fun q _ => ?_
  rw [fitted_quadRow (fun q : Masked ⟨n, m, g⟩ => xs.get (q.1.2.cast hx)) (fun q => ys.get (q.1.1.cast hy))]
  have e1 : xs.getD (q.1.2 : ℕ) 0 = xs.get (q.1.2.cast hx) := by
    rw [List.getD_eq_getElem _ _ (by have := q.1.2.isLt; omega)]; rfl
  have e2 : ys.getD (q.1.1 : ℕ) 0 = ys.get (q.1.1.cast hy) := by
    rw [List.getD_eq_getElem _ _ (by have := q.1.1.isLt; omega)]; rfl
  rw [e1, e2]

/-- **C14, any data.** On a mask whose points determine a quadratic, `find_optimum_2d` returns the stationary point of the quadratic surface
that fits the array best in the least-squares sense, or raises `QuadraticException` when that surface is too flat. -/
theorem C14_best_fit (S : Solver) (xs ys : List ℝ) (arr : Arr2 ℝ) (mask : Arr2 Bool)
    (hr : arr.nr = mask.nr) (hc : arr.nc = mask.nc) (hy : arr.nr = ys.length) (hx : arr.nc = xs.length)
    (a b c d e f : ℝ) (hb : BestSurface xs ys arr mask a b c d e f) (hd : DeterminesQuadratic xs ys mask) :
    (4 * (1 / 10 ^ 15) ≤ |b * b - 4 * a * c| → 2 * (1 / 10 ^ 15) ≤ |2 * c| →
      ∃ x y, findOptimum2d S xs ys arr mask = .ok (x, y) ∧ 2 * a * x + b * y + d = 0 ∧ b * x + 2 * c * y + e = 0) ∧
    (|b * b - 4 * a * c| < 4 * (1 / 10 ^ 15) ∨ |2 * c| < 2 * (1 / 10 ^ 15) →
      findOptimum2d S xs ys arr mask = .error .quadraticException) := by
  rw [show ((1 : ℝ) / 10 ^ 15) = fresolution from rfl]
  obtain ⟨n, m, F⟩ := arr
  obtain ⟨n', m', g⟩ := mask
  simp only at hr hc hy hx
  subst hr hc
  let A : Masked ⟨n, m, g⟩ → Fin 6 → ℝ := fun q => quadRow (xs.get (q.1.2.cast hx)) (ys.get (q.1.1.cast hy))
  let B : Masked ⟨n, m, g⟩ → ℝ := fun q => F q.1.1 q.1.2
  have hls := S.isLeastSq A B
  have hls' : IsLeastSq A B ![a, b, c, d, e, f] := by
    intro y
    rw [← surfaceMisfit_eq xs ys n m F g hy hx, ← surfaceMisfit_eq xs ys n m F g hy hx]
    exact hb _ _ _ _ _ _
  have hu := hls.fitted_unique hls'
  have hp : S.solve A B = ![a, b, c, d, e, f] := by
    generalize S.solve A B = p at hu
    have := hd (p 0 - a) (p 1 - b) (p 2 - c) (p 3 - d) (p 4 - e) (p 5 - f) (by
      intro i j x y hm hxx hyy
      have hin := (Arr2.px_isSome (⟨n, m, g⟩ : Arr2 Bool) i j).mp (by rw [hm]; rfl)
      have hi : i < n := by have := hin.1; simp only at this; omega
      have hj : j < m := by have := hin.2; simp only at this; omega
      have hm' : g ⟨i, hi⟩ ⟨j, hj⟩ = true := by
        have := Arr2.px_val (⟨n, m, g⟩ : Arr2 Bool) ⟨i, hi⟩ ⟨j, hj⟩
        simp only at this
        rw [hm] at this
        exact (Option.some.inj this).symm
      have h1 := hu ⟨(⟨i, hi⟩, ⟨j, hj⟩), hm'⟩
      rw [fitted_quadRow (fun q : Masked ⟨n, m, g⟩ => xs.get (q.1.2.cast hx)) (fun q => ys.get (q.1.1.cast hy)),
        fitted_quadRow (fun q : Masked ⟨n, m, g⟩ => xs.get (q.1.2.cast hx)) (fun q => ys.get (q.1.1.cast hy))] at h1
      have e1 : xs.get ((⟨j, hj⟩ : Fin m).cast hx) = x := by
        rw [List.getElem?_eq_getElem (by omega)] at hxx
        exact Option.some.inj hxx
      have e2 : ys.get ((⟨i, hi⟩ : Fin n).cast hy) = y := by
        rw [List.getElem?_eq_getElem (by omega)] at hyy
        exact Option.some.inj hyy
      simp only [e1, e2, Matrix.cons_val_zero, Matrix.cons_val_one, Matrix.cons_val] at h1
      linear_combination h1)
    obtain ⟨q0, q1, q2, q3, q4, q5⟩ := this
    funext k
    fin_cases k
    · exact sub_eq_zero.mp q0
    · exact sub_eq_zero.mp q1
    · exact sub_eq_zero.mp q2
    · exact sub_eq_zero.mp q3
    · exact sub_eq_zero.mp q4
    · exact sub_eq_zero.mp q5
  have hfun : findOptimum2d S xs ys ⟨n, m, F⟩ ⟨n, m, g⟩ =
      if |b * b - 4 * a * c| < 4 * fresolution ∨ |2 * c| < 2 * fresolution then .error .quadraticException
      else .ok ((2 * c * d - e * b) / (b * b - 4 * a * c),
        -(b * ((2 * c * d - e * b) / (b * b - 4 * a * c)) + e) / (2 * c)) := by
    unfold findOptimum2d
    rw [dif_neg (by simp), dif_neg (by simp [hy]), dif_neg (by simp [hx])]
    have hp' : S.solve (ι := Masked ⟨n, m, g⟩) (fun q => quadRow (xs.get (q.1.2.cast hx)) (ys.get (q.1.1.cast hy)))
      (fun q => F q.1.1 q.1.2) = ![a, b, c, d, e, f] := hp
    have e0 := congrFun hp' 0
    have e1 := congrFun hp' 1
    have e2 := congrFun hp' 2
    have e3 := congrFun hp' 3
    have e4 := congrFun hp' 4
    simp only [Matrix.cons_val_zero, Matrix.cons_val_one, Matrix.cons_val] at e0 e1 e2 e3 e4
    rw [← e0, ← e1, ← e2, ← e3, ← e4]
    rfl
  rw [hfun]
  constructor
  · intro h1 h2
    rw [if_neg (by push Not; exact ⟨h1, h2⟩)]
    have hres : 0 < fresolution := by norm_num [fresolution]
    have hdx : b * b - 4 * a * c ≠ 0 := by
      intro h0; rw [h0, abs_zero] at h1; linarith
    have hcc : c ≠ 0 := by
      intro h0; rw [h0, mul_zero, abs_zero] at h2; linarith
    have hX1 : (2 * c * d - e * b) / (b * b - 4 * a * c) * (b * b - 4 * a * c) = 2 * c * d - e * b :=
      div_mul_cancel₀ _ hdx
    generalize (2 * c * d - e * b) / (b * b - 4 * a * c) = x at *
    have hY1 : -(b * x + e) / (2 * c) * (2 * c) = -(b * x + e) :=
      div_mul_cancel₀ _ (mul_ne_zero two_ne_zero hcc)
    generalize -(b * x + e) / (2 * c) = y at *
    refine ⟨x, y, rfl, ?_, by linear_combination hY1⟩
    have : (2 * c) * (2 * a * x + b * y + d) = 0 := by linear_combination b * hY1 - hX1
    exact (mul_eq_zero.mp this).resolve_left (mul_ne_zero two_ne_zero hcc)
  · intro h
    rw [if_pos h]

/-- There is always such a surface. -/
theorem C14_best_exists (xs ys : List ℝ) (arr : Arr2 ℝ) (mask : Arr2 Bool)
    (hr : arr.nr = mask.nr) (hc : arr.nc = mask.nc) (hy : arr.nr = ys.length) (hx : arr.nc = xs.length) :
    ∃ a b c d e f, BestSurface xs ys arr mask a b c d e f := by
  obtain ⟨n, m, F⟩ := arr
  obtain ⟨n', m', g⟩ := mask
  simp only at hr hc hy hx
  subst hr hc
  obtain ⟨p, hp⟩ := exists_isLeastSq (ι := Masked ⟨n, m, g⟩) (fun q => quadRow (xs.get (q.1.2.cast hx)) (ys.get (q.1.1.cast hy)))
    (fun q => F q.1.1 q.1.2)
  refine ⟨p 0, p 1, p 2, p 3, p 4, p 5, fun a b c d e f => ?_⟩
  have := hp ![a, b, c, d, e, f]
  rw [← surfaceMisfit_eq xs ys n m F g hy hx, ← surfaceMisfit_eq xs ys n m F g hy hx] at this
  exact this

theorem BestSurface_smul {xs ys : List ℝ} {arr : Arr2 ℝ} {mask : Arr2 Bool} {a b c d e f : ℝ} (h : BestSurface xs ys arr mask a b c d e f) (k : ℝ) :
    BestSurface xs ys (arr.map fun v : ℝ => k * v) mask (k * a) (k * b) (k * c) (k * d) (k * e) (k * f) := by
  classical
  have hs : ∀ a b c d e f : ℝ, surfaceMisfit xs ys (arr.map fun v : ℝ => k * v) mask (k * a) (k * b) (k * c) (k * d) (k * e) (k * f) =
      k ^ 2 * surfaceMisfit xs ys arr mask a b c d e f := by
    intro a b c d e f
    unfold surfaceMisfit
    rw [Finset.mul_sum]
    refine Finset.sum_congr rfl fun i _ => ?_
    rw [Finset.mul_sum]
    refine Finset.sum_congr rfl fun j _ => ?_
    by_cases hm : mask.px (i : ℕ) (j : ℕ) = some true
    · rw [if_pos hm, if_pos hm]
      simp only [Arr2.map]
      ring
    · rw [if_neg hm, if_neg hm, mul_zero]
  have hnn : ∀ a b c d e f : ℝ, 0 ≤ surfaceMisfit xs ys (arr.map fun v : ℝ => k * v) mask a b c d e f := by
    intro a b c d e f
    unfold surfaceMisfit
    refine Finset.sum_nonneg fun i _ => Finset.sum_nonneg fun j _ => ?_
    split_ifs
    · exact sq_nonneg _
    · exact le_rfl
  intro a' b' c' d' e' f'
  by_cases hk : k = 0
  · refine le_trans (le_of_eq ?_) (hnn _ _ _ _ _ _)
    rw [hs, hk]
    ring
  · have h1 := h (a' / k) (b' / k) (c' / k) (d' / k) (e' / k) (f' / k)
    have h2 := hs (a' / k) (b' / k) (c' / k) (d' / k) (e' / k) (f' / k)
    rw [mul_div_cancel₀ _ hk, mul_div_cancel₀ _ hk, mul_div_cancel₀ _ hk, mul_div_cancel₀ _ hk, mul_div_cancel₀ _ hk, mul_div_cancel₀ _ hk] at h2
    rw [h2, hs]
    exact mul_le_mul_of_nonneg_left h1 (sq_nonneg _)

/-- **C14, units.** Expressing the array in smaller units does not change an answer. -/
theorem C14_units (S : Solver) (xs ys : List ℝ) (arr : Arr2 ℝ) (mask : Arr2 Bool) (hd : DeterminesQuadratic xs ys mask) (k : ℝ) (hk : 1 ≤ |k|)
    (v : ℝ × ℝ) (h : findOptimum2d S xs ys arr mask = .ok v) : findOptimum2d S xs ys (arr.map fun v : ℝ => k * v) mask = .ok v := by
  by_cases hsh : arr.nr = mask.nr ∧ arr.nc = mask.nc ∧ arr.nr = ys.length ∧ arr.nc = xs.length
  · obtain ⟨hr, hc, hy, hx⟩ := hsh
    obtain ⟨a, b, c, d, e, f, hb⟩ := C14_best_exists xs ys arr mask hr hc hy hx
    have h1 := C14_best_fit S xs ys arr mask hr hc hy hx a b c d e f hb hd
    have h2 := C14_best_fit S xs ys (arr.map fun v : ℝ => k * v) mask hr hc hy hx _ _ _ _ _ _ (BestSurface_smul hb k) hd
    have hk0 : k ≠ 0 := by rintro rfl; rw [abs_zero] at hk; linarith
    by_cases hbad : |b * b - 4 * a * c| < 4 * fresolution ∨ |2 * c| < 2 * fresolution
    · rw [h1.2 hbad] at h
      cases h
    · push Not at hbad
      obtain ⟨x, y, e1, g1, g2⟩ := h1.1 hbad.1 hbad.2
      have ha1 : 4 * fresolution ≤ |k * b * (k * b) - 4 * (k * a) * (k * c)| := by
        rw [show k * b * (k * b) - 4 * (k * a) * (k * c) = k ^ 2 * (b * b - 4 * a * c) by ring, abs_mul, abs_pow]
        have : 1 ≤ |k| ^ 2 := one_le_pow₀ hk
        nlinarith [abs_nonneg (b * b - 4 * a * c), hbad.1]
      have ha2 : 2 * fresolution ≤ |2 * (k * c)| := by
        rw [show 2 * (k * c) = k * (2 * c) by ring, abs_mul]
        nlinarith [abs_nonneg (2 * c), hbad.2]
      obtain ⟨x', y', e2, g3, g4⟩ := h2.1 ha1 ha2
      have hres : 0 < fresolution := by norm_num [fresolution]
      have hdx : b * b - 4 * a * c ≠ 0 := by
        intro h0
        have := hbad.1
        rw [h0, abs_zero] at this
        linarith
      have hcc : c ≠ 0 := by
        intro h0
        have := hbad.2
        rw [h0, mul_zero, abs_zero] at this
        linarith
      have g3' : 2 * a * x' + b * y' + d = 0 := (mul_eq_zero.mp (show k * (2 * a * x' + b * y' + d) = 0 by linear_combination g3)).resolve_left hk0
      have g4' : b * x' + 2 * c * y' + e = 0 := (mul_eq_zero.mp (show k * (b * x' + 2 * c * y' + e) = 0 by linear_combination g4)).resolve_left hk0
      have hxx : x' = x := by
        have : (b * b - 4 * a * c) * (x' - x) = 0 := by linear_combination b * (g4' - g2) - 2 * c * (g3' - g1)
        exact sub_eq_zero.mp ((mul_eq_zero.mp this).resolve_left hdx)
      have hyy : y' = y := by
        have : 2 * c * (y' - y) = 0 := by rw [hxx] at g4'; linear_combination g4' - g2
        exact sub_eq_zero.mp ((mul_eq_zero.mp this).resolve_left (mul_ne_zero two_ne_zero hcc))
      rw [e2, hxx, hyy, ← e1, h]
  · rw [C14_shape_mismatch S xs ys arr mask hsh] at h
    cases h

end Coralign.Props
