import Verif.Props.ShapeIndep

/-!
# Property C38 for displaced ellipses, and its failure for turned ones
-/

namespace Coralign.Props

open Coralign Coralign.Spec

theorem sqrt_step_anti (a b c c' : ℝ) (hb : 0 ≤ b) (hab : b ≤ a) (hc : 0 ≤ c) (hcc : c ≤ c') :
    Real.sqrt (a + c') - Real.sqrt (b + c') ≤ Real.sqrt (a + c) - Real.sqrt (b + c) := by
  have h1 : 0 ≤ a + c' := by linarith
  have h2 : 0 ≤ b + c := by linarith
  have h3 : 0 ≤ a + c := by linarith
  have h4 : 0 ≤ b + c' := by linarith
  suffices h : Real.sqrt (a + c') + Real.sqrt (b + c) ≤ Real.sqrt (a + c) + Real.sqrt (b + c') by linarith
  refine abs_le_of_sq_le_sq' ?_ (by positivity) |>.2
  have k : Real.sqrt (a + c') * Real.sqrt (b + c) ≤ Real.sqrt (a + c) * Real.sqrt (b + c') := by
    rw [← Real.sqrt_mul h1, ← Real.sqrt_mul h3]
    refine Real.sqrt_le_sqrt ?_
    nlinarith [mul_nonneg (sub_nonneg.mpr hab) (sub_nonneg.mpr hcc)]
  nlinarith [Real.sq_sqrt h1, Real.sq_sqrt h2, Real.sq_sqrt h3, Real.sq_sqrt h4]

/-- The elliptic radius without rotation. -/
theorem ellipticRadius_upright (rx ry x y : ℝ) : ellipticRadius rx ry 0 x y = Real.sqrt (1 / rx ^ 2 * x ^ 2 + 1 / ry ^ 2 * y ^ 2) := by
  unfold ellipticRadius turnedX turnedY
  simp only [zero_mul, zero_div, Real.cos_zero, Real.sin_zero]
  congr 1
  rw [div_pow, div_pow]
  ring

theorem corner_step_displaced (p q X Y : ℝ) (N : ℕ) (hN : 1 ≤ N) (hp : 0 ≤ p) (hpq : p ≤ q) (hXY : |X| ≤ Y) (hbig : (N : ℝ) ≤ 2 * Y) (hY : 1 ≤ Y)
    (u v : ℝ) (hu : SubOffset N u) (hv : SubOffset N v) :
    Real.sqrt (p * u ^ 2 + q * v ^ 2) ≤ Real.sqrt (p * X ^ 2 + q * Y ^ 2) - Real.sqrt (p * X ^ 2 + q * (Y - 1) ^ 2) := by
  have hNr : (0 : ℝ) < N := by exact_mod_cast hN
  set m : ℝ := (1 - 1 / (N : ℝ)) / 2 with hm
  have hN1 : 1 / (N : ℝ) ≤ 1 := by
    rw [div_le_one hNr]; exact_mod_cast hN
  have hinv : 0 < 1 / (N : ℝ) := by positivity
  have h4 : 4 * Y * m ≤ 2 * Y - 1 := by
    have : 1 ≤ 2 * Y * (1 / (N : ℝ)) := by
      rw [mul_one_div, le_div_iff₀ hNr]; linarith
    rw [hm]; linarith
  have k := corner_step p q Y m u v hp hpq (by linarith) (by linarith) h4 (subOffset_le hN hu) (subOffset_le hN hv)
  have hX : X ^ 2 ≤ Y ^ 2 := sq_le_sq.mpr (hXY.trans (le_abs_self _))
  have s := sqrt_step_anti (q * Y ^ 2) (q * (Y - 1) ^ 2) (p * X ^ 2) (p * Y ^ 2) (mul_nonneg (hp.trans hpq) (sq_nonneg _))
    (mul_le_mul_of_nonneg_left (by nlinarith) (hp.trans hpq)) (mul_nonneg hp (sq_nonneg _)) (mul_le_mul_of_nonneg_left hX hp)
  rw [add_comm (q * Y ^ 2), add_comm (q * (Y - 1) ^ 2), add_comm (q * Y ^ 2), add_comm (q * (Y - 1) ^ 2)] at s
  linarith

theorem upright_edges (nx ny N : ℕ) (hN : 1 ≤ N) (rx ry xo yo : ℝ) (h1 : 0 < rx) (h2 : 0 < ry)
    (h : (ry ≤ rx ∧ |((nx / 2 : ℕ) : ℝ) + xo| ≤ ((ny / 2 : ℕ) : ℝ) + yo ∧ max 1 ((N : ℝ) / 2) ≤ ((ny / 2 : ℕ) : ℝ) + yo) ∨
      (rx ≤ ry ∧ |((ny / 2 : ℕ) : ℝ) + yo| ≤ ((nx / 2 : ℕ) : ℝ) + xo ∧ max 1 ((N : ℝ) / 2) ≤ ((nx / 2 : ℕ) : ℝ) + xo))
    (u v : ℝ) (hu : SubOffset N u) (hv : SubOffset N v) : ellipticRadius rx ry 0 u v ≤ cornerStep nx ny rx ry 0 xo yo := by
  unfold cornerStep
  simp only [ellipticRadius_upright]
  set X : ℝ := ((nx / 2 : ℕ) : ℝ) + xo with hX
  set Y : ℝ := ((ny / 2 : ℕ) : ℝ) + yo with hY
  rw [show -((nx / 2 : ℕ) : ℝ) - xo = -X by rw [hX]; ring, show -((ny / 2 : ℕ) : ℝ) - yo = -Y by rw [hY]; ring, neg_sq, neg_sq,
    show (-X + 1) ^ 2 = (X - 1) ^ 2 by ring, show (-Y + 1) ^ 2 = (Y - 1) ^ 2 by ring]
  rcases h with ⟨hr, hXY, hb⟩ | ⟨hr, hXY, hb⟩
  · refine le_trans ?_ (le_max_right _ _)
    rw [abs_sub_comm]
    refine le_trans ?_ (le_abs_self _)
    exact corner_step_displaced _ _ X Y N hN (by positivity) (one_div_le_one_div_of_le (by positivity) (pow_le_pow_left₀ h2.le hr 2)) hXY
      (by linarith [(le_max_right 1 ((N : ℝ) / 2)).trans hb]) ((le_max_left _ _).trans hb) u v hu hv
  · refine le_trans ?_ (le_max_left _ _)
    rw [abs_sub_comm]
    refine le_trans ?_ (le_abs_self _)
    have := corner_step_displaced _ _ Y X N hN (by positivity) (one_div_le_one_div_of_le (by positivity) (pow_le_pow_left₀ h1.le hr 2)) hXY
      (by linarith [(le_max_right 1 ((N : ℝ) / 2)).trans hb]) ((le_max_left _ _).trans hb) v u hv hu
    rw [add_comm (1 / ry ^ 2 * v ^ 2), add_comm (1 / ry ^ 2 * Y ^ 2), add_comm (1 / ry ^ 2 * Y ^ 2)] at this
    exact this

/-- **C38 (partial).** `ellipse` is exact for every unrotated ellipse, however displaced and in arrays of any shape, whose centre is at least half as many
pixels from the first row, along its shorter axis, as there are sub-pixels a side, and no further from the first column than that; and likewise with
the axes exchanged.  Missing: the other ellipses, for which it is false in general (`C38_ellipse_not_exact`, `C38_turned_not_exact`). -/
theorem C38_displaced_partial (nx ny N : ℕ) (hx : 2 ≤ nx) (hy : 2 ≤ ny) (hN : 1 ≤ N) (rx ry xo yo : ℝ) (h1 : 0 < rx) (h2 : 0 < ry) (isDark : Bool)
    (h : (ry ≤ rx ∧ |((nx / 2 : ℕ) : ℝ) + xo| ≤ ((ny / 2 : ℕ) : ℝ) + yo ∧ max 1 ((N : ℝ) / 2) ≤ ((ny / 2 : ℕ) : ℝ) + yo) ∨
      (rx ≤ ry ∧ |((ny / 2 : ℕ) : ℝ) + yo| ≤ ((nx / 2 : ℕ) : ℝ) + xo ∧ max 1 ((N : ℝ) / 2) ≤ ((nx / 2 : ℕ) : ℝ) + xo)) :
    IsImage (ellipse nx ny rx ry 0 xo yo N isDark) nx ny xo yo (fun x y => tone isDark (areaFraction N (inEllipse rx ry 0) x y)) :=
  C38_ellipse_exact_partial nx ny N hx hy hN rx ry 0 xo yo h1 h2 isDark (upright_edges nx ny N hN rx ry xo yo h1 h2 h)

/-- An ellipse of semi-axes 30.5 and 20 at `(-3.2, 4.1)` in an array of 120 columns and 128 rows, with the default of 100 sub-pixels. -/
example : IsImage (ellipse (120 : ℕ) (128 : ℕ) 30.5 20 0 (-3.2) 4.1 (100 : ℕ) false) (120 : ℕ) (128 : ℕ) (-3.2) 4.1
    (fun x y => tone false (areaFraction 100 (inEllipse 30.5 20 0) x y)) :=
  C38_displaced_partial 120 128 100 (by norm_num) (by norm_num) (by norm_num) 30.5 20 (-3.2) 4.1 (by norm_num) (by norm_num) false
    (Or.inl ⟨by norm_num, by norm_num [abs_le], by norm_num⟩)

theorem ellipticRadius_diagonal (rx ry x y : ℝ) :
    ellipticRadius rx ry 45 x y = Real.sqrt (((x + y) / rx) ^ 2 / 2 + ((y - x) / ry) ^ 2 / 2) := by
  unfold ellipticRadius turnedX turnedY
  rw [show (45 : ℝ) * Real.pi / 180 = Real.pi / 4 by ring, Real.cos_pi_div_four, Real.sin_pi_div_four]
  have h2 := Real.sq_sqrt (show (0 : ℝ) ≤ 2 by norm_num)
  congr 1
  have e1 : (x * (Real.sqrt 2 / 2) + y * (Real.sqrt 2 / 2)) / rx = Real.sqrt 2 * ((x + y) / rx / 2) := by ring
  have e2 : (y * (Real.sqrt 2 / 2) - x * (Real.sqrt 2 / 2)) / ry = Real.sqrt 2 * ((y - x) / ry / 2) := by ring
  rw [e1, e2, mul_pow, mul_pow, h2]
  ring

/-- At the corner of the array a step across the long diagonal ellipse changes the radius by less than an eighth. -/
theorem diagonal_cornerStep (h : ℝ) (hh : 16 ≤ h) :
    max |ellipticRadius (h / 2) (5 / 4) 45 (-h + 1) (-h) - ellipticRadius (h / 2) (5 / 4) 45 (-h) (-h)|
      |ellipticRadius (h / 2) (5 / 4) 45 (-h) (-h + 1) - ellipticRadius (h / 2) (5 / 4) 45 (-h) (-h)| ≤ 1 / 10 := by
  have hpos : 0 < h := by linarith
  have e0 : ((-h + -h) / (h / 2)) ^ 2 / 2 + ((-h - -h) / (5 / 4)) ^ 2 / 2 = 8 := by
    field_simp
    ring
  have e1 : ((-h + 1 + -h) / (h / 2)) ^ 2 / 2 + ((-h - (-h + 1)) / (5 / 4)) ^ 2 / 2 = 8 - 8 * (1 / h) + 2 * (1 / h) ^ 2 + 8 / 25 := by
    field_simp
    ring
  have e2 : ((-h + (-h + 1)) / (h / 2)) ^ 2 / 2 + ((-h + 1 - -h) / (5 / 4)) ^ 2 / 2 = 8 - 8 * (1 / h) + 2 * (1 / h) ^ 2 + 8 / 25 := by
    field_simp
    ring
  simp only [ellipticRadius_diagonal, e0, e1, e2, max_self]
  have i0 : 0 < 1 / h := by positivity
  have i1 : 1 / h ≤ 1 / 16 := one_div_le_one_div_of_le (by norm_num) hh
  have a1 : Real.sqrt 8 ≤ 2.829 := Real.sqrt_le_iff.mpr ⟨by norm_num, by norm_num⟩
  have a2 : 2.828 ≤ Real.sqrt 8 := Real.le_sqrt_of_sq_le (by norm_num)
  have b1 : Real.sqrt (8 - 8 * (1 / h) + 2 * (1 / h) ^ 2 + 8 / 25) ≤ 2.89 := Real.sqrt_le_iff.mpr ⟨by norm_num, by nlinarith⟩
  have b2 : 2.75 ≤ Real.sqrt (8 - 8 * (1 / h) + 2 * (1 / h) ^ 2 + 8 / 25) := Real.le_sqrt_of_sq_le (by nlinarith)
  rw [abs_le]
  constructor <;> linarith

/-- **C38.** Nor does the property hold for turned ellipses that are centred in large arrays.  In every array of at least 32 pixels a side and with any
number of sub-pixels from three, the ellipse of semi-axes a quarter of the array and `5/4`, turned by 45 degrees, leaves a pixel empty
next to its centre although part of the sub-pixels are inside. -/
theorem C38_turned_not_exact (n N : ℕ) (hn : 32 ≤ n) (hN : 3 ≤ N) :
    ∃ o, ellipse n n (((n / 2 : ℕ) : ℝ) / 2) (5 / 4) 45 0 0 N false = .ok o ∧ o.centered (-1) 1 = some 0 ∧
      0 < areaFraction N (inEllipse (((n / 2 : ℕ) : ℝ) / 2) (5 / 4) 45) 1 (-1) := by
  set h : ℝ := ((n / 2 : ℕ) : ℝ) with hh
  have hh16 : 16 ≤ h := by
    have : 16 ≤ n / 2 := by omega
    rw [hh]; exact_mod_cast this
  have hpos : 0 < h := by linarith
  refine ⟨_, ellipse_core n n N (by omega) (by omega) (by omega) (h / 2) (5 / 4) 45 0 0 (by linarith) (by norm_num) false, ?_, ?_⟩
  · refine (raster_centered n n 0 0 _ (-1) 1 (by unfold Reaches; omega)).trans ?_
    congr 1
    refine antialiasVal_zero _ _ _ _ _ _ _ ?_
    rw [ellipseWindow_eq n n (by omega) (by omega), abs_of_nonneg (ellipseRho_nonneg _ _ _ _ _), ellipseRho_eq]
    have k := diagonal_cornerStep h hh16
    have k' : cornerStep n n (h / 2) (5 / 4) 45 0 0 ≤ 1 / 10 := by
      unfold cornerStep
      rw [← hh, sub_zero]
      exact k
    have r : (1.13 : ℝ) ≤ ellipticRadius (h / 2) (5 / 4) 45 (((1 : ℤ) : ℝ) - 0) (((-1 : ℤ) : ℝ) - 0) := by
      rw [ellipticRadius_diagonal]
      push_cast
      refine Real.le_sqrt_of_sq_le ?_
      norm_num
    show (0.5 : ℝ) * _ > _
    linarith
  · classical
    unfold areaFraction
    have hNr : (3 : ℝ) ≤ N := by exact_mod_cast hN
    refine div_pos ?_ (by positivity)
    rw [Nat.cast_pos, Finset.card_pos]
    refine ⟨(⟨N - 1, by omega⟩, ⟨0, by omega⟩), ?_⟩
    rw [Finset.mem_filter]
    refine ⟨Finset.mem_univ _, ?_⟩
    rw [← ellipseRho_le_iff, ellipseRho_eq, ellipticRadius_diagonal]
    have hi0 : (0 : ℝ) < 1 / N := by positivity
    have hi1 : (1 : ℝ) / N ≤ 1 / 3 := one_div_le_one_div_of_le (by norm_num) hNr
    have c1 : ((((0 : ℕ) : ℝ) + 1 / 2) / N - 1 / 2) = 1 / N / 2 - 1 / 2 := by push_cast; ring
    have c2 : ((((N - 1 : ℕ) : ℝ) + 1 / 2) / N - 1 / 2) = 1 / 2 - 1 / N / 2 := by
      have : ((N - 1 : ℕ) : ℝ) = N - 1 := by rw [Nat.cast_sub (by omega)]; norm_num
      rw [this]
      field_simp
      ring
    show 0.5 * Real.sqrt (((1 + ((((0 : ℕ) : ℝ) + 1 / 2) / N - 1 / 2) + (-1 + ((((N - 1 : ℕ) : ℝ) + 1 / 2) / N - 1 / 2))) / (h / 2)) ^ 2 / 2 +
      ((-1 + ((((N - 1 : ℕ) : ℝ) + 1 / 2) / N - 1 / 2) - (1 + ((((0 : ℕ) : ℝ) + 1 / 2) / N - 1 / 2))) / (5 / 4)) ^ 2 / 2) ≤ 0.5
    rw [c1, c2]
    have z : 1 + (1 / (N : ℝ) / 2 - 1 / 2) + (-1 + (1 / 2 - 1 / (N : ℝ) / 2)) = 0 := by ring
    rw [z]
    have : Real.sqrt ((0 / (h / 2)) ^ 2 / 2 + ((-1 + (1 / 2 - 1 / (N : ℝ) / 2) - (1 + (1 / (N : ℝ) / 2 - 1 / 2))) / (5 / 4)) ^ 2 / 2) ≤ 1 := by
      rw [Real.sqrt_le_one]
      have e : ((-1 + (1 / 2 - 1 / (N : ℝ) / 2) - (1 + (1 / (N : ℝ) / 2 - 1 / 2))) / (5 / 4)) = -(4 / 5) * (1 + 1 / N) := by ring
      rw [e, zero_div]
      nlinarith
    linarith

/-- The default of 100 sub-pixels in a `300 × 300` array. -/
example : ∃ o, ellipse (300 : ℕ) (300 : ℕ) 75 (5 / 4) 45 0 0 (100 : ℕ) false = .ok o ∧ o.centered (-1) 1 = some 0 := by
  obtain ⟨o, ho, hv, -⟩ := C38_turned_not_exact 300 100 (by norm_num) (by norm_num)
  norm_num at ho
  exact ⟨o, by norm_num [ho], hv⟩

/-- A circle drawn by `ellipse` is the same figure at every angle. -/
theorem ellipticRadius_round (r deg x y : ℝ) : ellipticRadius r r deg x y = ellipticRadius r r 0 x y := by
  rw [ellipticRadius_upright]
  unfold ellipticRadius turnedX turnedY
  congr 1
  have h := Real.sin_sq_add_cos_sq (deg * Real.pi / 180)
  rw [div_pow, div_pow]
  linear_combination (x ^ 2 + y ^ 2) / r ^ 2 * h

/-- **C38 (partial).** The condition of `C38_displaced_partial` also suffices for a circle drawn by `ellipse` with equal radii, at every rotation. -/
theorem C38_round_partial (nx ny N : ℕ) (hx : 2 ≤ nx) (hy : 2 ≤ ny) (hN : 1 ≤ N) (r rot xo yo : ℝ) (hr : 0 < r) (isDark : Bool)
    (h : (|((nx / 2 : ℕ) : ℝ) + xo| ≤ ((ny / 2 : ℕ) : ℝ) + yo ∧ max 1 ((N : ℝ) / 2) ≤ ((ny / 2 : ℕ) : ℝ) + yo) ∨
      (|((ny / 2 : ℕ) : ℝ) + yo| ≤ ((nx / 2 : ℕ) : ℝ) + xo ∧ max 1 ((N : ℝ) / 2) ≤ ((nx / 2 : ℕ) : ℝ) + xo)) :
    IsImage (ellipse nx ny r r rot xo yo N isDark) nx ny xo yo (fun x y => tone isDark (areaFraction N (inDisc r) x y)) := by
  have e : inEllipse r r rot = inDisc r := by
    funext x y
    unfold inEllipse inDisc turnedX turnedY
    have h := Real.sin_sq_add_cos_sq (rot * Real.pi / 180)
    rw [div_pow, div_pow, ← add_div, div_le_one (by positivity), eq_iff_iff]
    have : (x * Real.cos (rot * Real.pi / 180) + y * Real.sin (rot * Real.pi / 180)) ^ 2 +
        (y * Real.cos (rot * Real.pi / 180) - x * Real.sin (rot * Real.pi / 180)) ^ 2 = x ^ 2 + y ^ 2 := by
      linear_combination (x ^ 2 + y ^ 2) * h
    rw [this]
  rw [← e]
  refine C38_ellipse_exact_partial nx ny N hx hy hN r r rot xo yo hr hr isDark fun u v hu hv => ?_
  unfold cornerStep
  simp only [ellipticRadius_round r rot]
  exact upright_edges nx ny N hN r r xo yo hr hr (h.imp (fun h => ⟨le_rfl, h⟩) fun h => ⟨le_rfl, h⟩) u v hu hv

/-- A disc of radius 20.3 at 33 degrees. -/
example : IsImage (ellipse (128 : ℕ) (128 : ℕ) 20.3 20.3 33 0 4.1 (100 : ℕ) false) (128 : ℕ) (128 : ℕ) 0 4.1
    (fun x y => tone false (areaFraction 100 (inDisc 20.3) x y)) :=
  C38_round_partial 128 128 100 (by norm_num) (by norm_num) (by norm_num) 20.3 33 0 4.1 (by norm_num) false
    (Or.inl ⟨by norm_num, by norm_num⟩)

/-- **C96 (partial).** `ellipse` at any rotation and offset: two arrays in both of which no sub-pixel is further from the centre of its pixel, in the elliptic
radius, than one step at the first corner show the same picture, and one is a crop of the other.  `C38_displaced_partial` and `C38_round_partial` say which
arrays these are.  Missing: other arrays, for which it is false in general (`C96_ellipse_depends_on_array`). -/
theorem C96_ellipse_steps_partial (nx ny nx' ny' N : ℕ) (hx : 2 ≤ nx) (hy : 2 ≤ ny) (hx' : 2 ≤ nx') (hy' : 2 ≤ ny') (hN : 1 ≤ N) (rx ry rot xo yo ev : ℝ)
    (h1 : 0 < rx) (h2 : 0 < ry) (isDark : Bool) (a b : ℤ)
    (hw : ∀ u v, SubOffset N u → SubOffset N v → ellipticRadius rx ry rot u v ≤ cornerStep nx ny rx ry rot xo yo)
    (hw' : ∀ u v, SubOffset N u → SubOffset N v → ellipticRadius rx ry rot u v ≤ cornerStep nx' ny' rx ry rot (xo + a) (yo + b)) :
    ∃ o o', ellipse nx ny rx ry rot xo yo N isDark = .ok o ∧ ellipse nx' ny' rx ry rot (xo + a) (yo + b) N isDark = .ok o' ∧
      (∀ k l : ℤ, Reaches ny nx k l → Reaches ny' nx' (k + b) (l + a) → o'.centered (k + b) (l + a) = o.centered k l) ∧
      (a = 0 → b = 0 → nx' ≤ nx → ny' ≤ ny → padCrop o [(ny' : ℤ), (nx' : ℤ)] ev = .ok o') := by
  obtain ⟨o, ho, e1, e2, hv⟩ := C38_ellipse_exact_partial nx ny N hx hy hN rx ry rot xo yo h1 h2 isDark hw
  obtain ⟨o', ho', e1', e2', hv'⟩ := C38_ellipse_exact_partial nx' ny' N hx' hy' hN rx ry rot (xo + a) (yo + b) h1 h2 isDark hw'
  have hsame : ∀ k l : ℤ, Reaches ny nx k l → Reaches ny' nx' (k + b) (l + a) → o'.centered (k + b) (l + a) = o.centered k l := by
    intro k l hr hr'
    rw [hv k l hr, hv' _ _ hr']
    push_cast
    rw [show (l : ℝ) + a - (xo + a) = l - xo by ring, show (k : ℝ) + b - (yo + b) = k - yo by ring]
  refine ⟨o, o', ho, ho', hsame, ?_⟩
  rintro rfl rfl hle hle'
  obtain ⟨c, hc, c1, c2, hcv⟩ := C01_pad_crop_registered o ny' nx' ev (by omega) (by omega)
  rw [hc]
  have hv2 : IsImage (padCrop o [(ny' : ℤ), (nx' : ℤ)] ev) nx' ny' xo yo
      (fun x y => tone isDark (areaFraction N (inEllipse rx ry rot) x y)) := by
    refine ⟨c, hc, c1, c2, fun k l hr => ?_⟩
    have hr' : Reaches ny nx k l := by
      unfold Reaches at hr ⊢
      omega
    rw [hcv k l hr, hv k l hr']
  have hv3 : IsImage (.ok o' : Res (Arr2 ℝ)) nx' ny' xo yo (fun x y => tone isDark (areaFraction N (inEllipse rx ry rot) x y)) := by
    refine ⟨o', rfl, e1', e2', fun k l hr => ?_⟩
    rw [hv' k l hr]
    push_cast
    rw [add_zero, add_zero]
  rw [← hc]
  exact IsImage.eq hv2 hv3 fun _ _ => rfl

/-- A displaced ellipse in arrays of `120 × 128` and `110 × 116` pixels. -/
example (ev : ℝ) : ∃ o o', ellipse (120 : ℕ) (128 : ℕ) 30.5 20 0 (-3.2) 4.1 (100 : ℕ) false = .ok o ∧
    ellipse (110 : ℕ) (116 : ℕ) 30.5 20 0 (-3.2 + (0 : ℤ)) (4.1 + (0 : ℤ)) (100 : ℕ) false = .ok o' ∧ padCrop o [((116 : ℕ) : ℤ), ((110 : ℕ) : ℤ)] ev = .ok o' := by
  obtain ⟨o, o', ho, ho', -, h⟩ := C96_ellipse_steps_partial 120 128 110 116 100 (by norm_num) (by norm_num) (by norm_num) (by norm_num) (by norm_num)
    30.5 20 0 (-3.2) 4.1 ev (by norm_num) (by norm_num) false 0 0
    (upright_edges 120 128 100 (by norm_num) _ _ _ _ (by norm_num) (by norm_num) (Or.inl ⟨by norm_num, by norm_num [abs_le], by norm_num⟩))
    (upright_edges 110 116 100 (by norm_num) _ _ _ _ (by norm_num) (by norm_num) (Or.inl ⟨by norm_num, by norm_num [abs_le], by norm_num⟩))
  exact ⟨o, o', ho, ho', h rfl rfl (by norm_num) (by norm_num)⟩

end Coralign.Props
