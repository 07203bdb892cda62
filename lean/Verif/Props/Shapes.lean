import Verif.Lemmas.Shapes

/-!
# Properties C36 - C40 and C66: geometric shapes with antialiased edges
-/

namespace Coralign.Props

open Coralign Coralign.Spec Finset

/-- Reading a rasterised function through centred coordinates. -/
theorem raster_centered (ny nx : ℕ) (xo yo : ℝ) (f : ℝ → ℝ → ℝ) (k l : ℤ) (hr : Reaches ny nx k l) :
    (⟨ny, nx, fun i j => f (shapeAxis nx xo j) (shapeAxis ny yo i)⟩ : Arr2 ℝ).centered k l = some (f (l - xo) (k - yo)) := by
  unfold Reaches at hr
  unfold Arr2.centered
  rw [Arr2.px_of_inB _ hr]
  simp only at hr ⊢
  have e : ∀ (n : ℕ) (o : ℝ) (z : ℤ), 0 ≤ (n : ℤ) / 2 + z → (n : ℤ) / 2 + z < n →
      shapeAxis n o ((n : ℤ) / 2 + z).toNat = z - o := by
    intro n o z h1 h2
    rw [shapeAxis_eq _ _ _ (by omega)]
    have h1 : ((((n : ℤ) / 2 + z).toNat : ℕ) : ℤ) = ((n / 2 : ℕ) : ℤ) + z := by omega
    have h2 := congrArg (fun t : ℤ => (t : ℝ)) h1
    simp only [Int.cast_natCast, Int.cast_add] at h2
    rw [h2]; ring
  rw [e nx xo l hr.2.1 hr.2.2, e ny yo k hr.1.1 hr.1.2]

/-- The values `v`, or `1 - v` for a dark shape. -/
def tone (isDark : Bool) (v : ℝ) : ℝ := if isDark then 1 - v else v

theorem darken_eq (isDark : Bool) (n m : ℕ) (f : Fin n → Fin m → ℝ) :
    darken isDark ⟨n, m, f⟩ = ⟨n, m, fun i j => tone isDark (f i j)⟩ := by
  unfold darken tone
  cases isDark <;> rfl

/-! ### C36 -/

/-- Specification of what the shape functions return: an `ny × nx` array whose pixel at signed offset `(k, l)` from the
centre pixel is `v (l - xo) (k - yo)`. -/
def IsImage (r : Res (Arr2 ℝ)) (nx ny : ℤ) (xo yo : ℝ) (v : ℝ → ℝ → ℝ) : Prop :=
  ∃ o, r = .ok o ∧ (o.nr : ℤ) = ny ∧ (o.nc : ℤ) = nx ∧
    ∀ k l : ℤ, Reaches ny nx k l → o.centered k l = some (v (l - xo) (k - yo))

theorem isImage_of (r : Res (Arr2 ℝ)) (nx ny : ℕ) (xo yo : ℝ) (v : ℝ → ℝ → ℝ)
    (h : r = .ok ⟨ny, nx, fun i j => v (shapeAxis nx xo j) (shapeAxis ny yo i)⟩) : IsImage r nx ny xo yo v :=
  ⟨_, h, rfl, rfl, fun k l hr => raster_centered ny nx xo yo v k l hr⟩

theorem circle_eq (nx ny N : ℕ) (hx : 2 ≤ nx) (hy : 1 ≤ ny) (hN : 1 ≤ N) (radius xo yo : ℝ) (hr : 0 < radius) (isDark : Bool) :
    circle nx ny radius xo yo N isDark = .ok ⟨ny, nx, fun i j =>
      tone isDark (areaFraction N (inDisc radius) (shapeAxis nx xo j) (shapeAxis ny yo i))⟩ := by
  unfold circle
  rw [if_neg (by rintro (h | h | h | h) <;> first | omega | linarith), if_neg (by omega)]
  simp only [Int.toNat_natCast]
  rw [shapeAxis_dx nx xo hx, mul_one, antialias_exact _ _ _ _ _ _ _ _ (by omega), darken_eq]
  · congr 2
    funext i j
    congr 1
    exact areaFraction_congr N _ _ (fun x y => sqrt_le_iff_disc radius x y hr) _ _
  · intro x y u v h hu hv
    have h1 := sqrt_add_le x y u v
    have h2 := sub_length u v hu.lt hv.lt
    rw [abs_of_nonneg (Real.sqrt_nonneg _), ← sq, ← sq] at h
    linarith
  · intro x y u v h hu hv hle
    have h1 := sqrt_add_le (x + u) (y + v) (-u) (-v)
    have h2 := sub_length u v hu.lt hv.lt
    rw [neg_sq, neg_sq, add_neg_cancel_right, add_neg_cancel_right] at h1
    rw [abs_of_nonneg (Real.sqrt_nonneg _), ← sq, ← sq] at h
    linarith

/-- **C36.** Every pixel of `circle` is exactly the fraction of its sub-pixel centres within the radius (its complement
when `isDark`), for every size, radius, offset and sub-pixel count. -/
theorem C36_circle_exact (nx ny N : ℕ) (hx : 2 ≤ nx) (hy : 1 ≤ ny) (hN : 1 ≤ N) (radius xo yo : ℝ) (hr : 0 < radius)
    (isDark : Bool) :
    IsImage (circle nx ny radius xo yo N isDark) nx ny xo yo
      (fun x y => tone isDark (areaFraction N (inDisc radius) x y)) :=
  isImage_of _ _ _ _ _ _ (circle_eq nx ny N hx hy hN radius xo yo hr isDark)

/-- **C36.** Everything else is refused: `TypeError` for sizes, radii or sub-pixel counts that are not positive;
`IndexError` for a one-column array. -/
theorem C36_circle_rejects (nx ny N : ℤ) (radius xo yo : ℝ) (isDark : Bool) :
    ((nx ≤ 0 ∨ ny ≤ 0 ∨ radius ≤ 0 ∨ N ≤ 0) → circle nx ny radius xo yo N isDark = .error .typeError) ∧
    ((0 < ny ∧ 0 < radius ∧ 0 < N) → circle 1 ny radius xo yo N isDark = .error .indexError) := by
  constructor
  · intro h
    unfold circle
    rw [if_pos h]
  · rintro ⟨h1, h2, h3⟩
    unfold circle
    rw [if_neg (by rintro (h | h | h | h) <;> first | omega | linarith), if_pos rfl]

/-- **C36.** Every pixel is in `[0, 1]`. -/
theorem C36_circle_range (nx ny N : ℕ) (hx : 2 ≤ nx) (hy : 1 ≤ ny) (hN : 1 ≤ N) (radius xo yo : ℝ) (hr : 0 < radius)
    (isDark : Bool) :
    ∃ f : Fin ny → Fin nx → ℝ, circle nx ny radius xo yo N isDark = .ok ⟨ny, nx, f⟩ ∧ ∀ i j, 0 ≤ f i j ∧ f i j ≤ 1 := by
  refine ⟨_, circle_eq nx ny N hx hy hN radius xo yo hr isDark, fun i j => ?_⟩
  have hr := areaFraction_range N (inDisc radius) (shapeAxis nx xo j) (shapeAxis ny yo i)
  unfold tone
  split_ifs <;> constructor <;> linarith [hr.1, hr.2]

example : (2 : ℕ) ≤ 64 ∧ (1 : ℕ) ≤ 64 ∧ (1 : ℕ) ≤ 100 ∧ (0 : ℝ) < 20.5 := by norm_num

/-! ### C37 -/

theorem rectangle_eq (nx ny N : ℕ) (hx : 2 ≤ nx) (hy : 1 ≤ ny) (hN : 1 ≤ N) (w h xo yo rot : ℝ) (hw : 0 < w) (hh : 0 < h)
    (isDark : Bool) :
    rectangle nx ny w h xo yo rot N isDark = .ok ⟨ny, nx, fun i j =>
      tone isDark (areaFraction N (inRect w h rot) (shapeAxis nx xo j) (shapeAxis ny yo i))⟩ := by
  unfold rectangle
  rw [if_neg (by rintro (h | h | h | h | h) <;> first | omega | linarith), if_neg (by omega)]
  simp only [Int.toNat_natCast, rotU_eq, rotV_eq]
  rw [shapeAxis_dx nx xo hx, mul_one, antialias_exact _ _ _ _ _ _ _ _ (by omega), darken_eq]
  · congr 2
    funext i j
    congr 1
    refine areaFraction_congr N _ _ (fun x y => ?_) _ _
    unfold inRect turnedX turnedY
    rw [abs_le, abs_le]
    tauto
  · rintro x y u v ⟨⟨⟨h1, h2⟩, h3⟩, h4⟩ hu hv
    obtain ⟨a, b⟩ := turned_lt (rot * Real.pi / 180) u v hu.lt hv.lt
    rw [abs_lt] at a b
    refine ⟨⟨⟨?_, ?_⟩, ?_⟩, ?_⟩ <;> simp only [add_mul] <;> linarith [a.1, a.2, b.1, b.2]
  · rintro x y u v h0 hu hv ⟨⟨⟨h1, h2⟩, h3⟩, h4⟩
    obtain ⟨a, b⟩ := turned_lt (rot * Real.pi / 180) u v hu.lt hv.lt
    rw [abs_lt] at a b
    simp only [add_mul] at h1 h2 h3 h4
    rcases h0 with ((h0 | h0) | h0) | h0 <;> linarith [a.1, a.2, b.1, b.2]

/-- **C37.** Every pixel of `rectangle` is exactly the fraction of its sub-pixel centres inside the rectangle turned
counter-clockwise by `rot` degrees about its centre; `isDark` gives the complement. -/
theorem C37_rectangle_exact (nx ny N : ℕ) (hx : 2 ≤ nx) (hy : 1 ≤ ny) (hN : 1 ≤ N) (w h xo yo rot : ℝ) (hw : 0 < w)
    (hh : 0 < h) (isDark : Bool) :
    IsImage (rectangle nx ny w h xo yo rot N isDark) nx ny xo yo
      (fun x y => tone isDark (areaFraction N (inRect w h rot) x y)) :=
  isImage_of _ _ _ _ _ _ (rectangle_eq nx ny N hx hy hN w h xo yo rot hw hh isDark)

/-- **C37.** Everything else is refused. -/
theorem C37_rectangle_rejects (nx ny N : ℤ) (w h xo yo rot : ℝ) (isDark : Bool) :
    ((nx ≤ 0 ∨ ny ≤ 0 ∨ w ≤ 0 ∨ h ≤ 0 ∨ N ≤ 0) → rectangle nx ny w h xo yo rot N isDark = .error .typeError) ∧
    ((0 < ny ∧ 0 < w ∧ 0 < h ∧ 0 < N) → rectangle 1 ny w h xo yo rot N isDark = .error .indexError) := by
  constructor
  · intro h
    unfold rectangle
    rw [if_pos h]
  · rintro ⟨h1, h2, h3, h4⟩
    unfold rectangle
    rw [if_neg (by rintro (h | h | h | h | h) <;> first | omega | linarith), if_pos rfl]

/-! ### C38 -/

theorem ellipse_core (nx ny N : ℕ) (hx : 2 ≤ nx) (hy : 2 ≤ ny) (hN : 1 ≤ N) (rx ry rot xo yo : ℝ) (h1 : 0 < rx) (h2 : 0 < ry)
    (isDark : Bool) :
    ellipse nx ny rx ry rot xo yo N isDark = .ok (darken isDark (antialias ny nx (shapeAxis nx xo) (shapeAxis ny yo)
      (fun x y => |ellipseRho rx ry ((Real.pi / 180) * rot) x y| <
        0.5 - ellipseWindow rx ry ((Real.pi / 180) * rot) (shapeAxis nx xo) (shapeAxis ny yo))
      (fun x y => |ellipseRho rx ry ((Real.pi / 180) * rot) x y| >
        0.5 + ellipseWindow rx ry ((Real.pi / 180) * rot) (shapeAxis nx xo) (shapeAxis ny yo))
      (fun x y => ellipseRho rx ry ((Real.pi / 180) * rot) x y ≤ 0.5) N (1 / (N : ℝ)))) := by
  unfold ellipse
  rw [if_neg (by rintro (h | h | h | h | h) <;> first | omega | linarith), if_neg (by omega)]
  simp only [Int.toNat_natCast]
  rw [shapeAxis_dx nx xo hx]

/-- **C38.** Every pixel of `ellipse` is in `[0, 1]`, and the dark ellipse is the complement of the bright one. -/
theorem C38_ellipse_range (nx ny N : ℕ) (hx : 2 ≤ nx) (hy : 2 ≤ ny) (hN : 1 ≤ N) (rx ry rot xo yo : ℝ) (h1 : 0 < rx)
    (h2 : 0 < ry) :
    ∃ f : Fin ny → Fin nx → ℝ, ellipse nx ny rx ry rot xo yo N false = .ok ⟨ny, nx, f⟩ ∧
      ellipse nx ny rx ry rot xo yo N true = .ok ⟨ny, nx, fun i j => 1 - f i j⟩ ∧ ∀ i j, 0 ≤ f i j ∧ f i j ≤ 1 := by
  rw [ellipse_core nx ny N hx hy hN rx ry rot xo yo h1 h2, ellipse_core nx ny N hx hy hN rx ry rot xo yo h1 h2]
  exact ⟨_, rfl, rfl, fun i j => antialiasVal_range _ _ _ _ _ _ _⟩

theorem ellipseRho_nonneg (rx ry t x y : ℝ) : 0 ≤ ellipseRho rx ry t x y := by
  unfold ellipseRho
  have := Real.sqrt_nonneg (1 / rx ^ 2 * (Real.cos t * x + Real.sin t * y) ^ 2
    + 1 / ry ^ 2 * (Real.sin t * x - Real.cos t * y) ^ 2)
  linarith

theorem ellipseRho_add (rx ry t x y u v : ℝ) :
    ellipseRho rx ry t (x + u) (y + v) ≤ ellipseRho rx ry t x y + ellipseRho rx ry t u v := by
  have e : ∀ x y : ℝ, ellipseRho rx ry t x y = 0.5 * Real.sqrt (((Real.cos t * x + Real.sin t * y) / rx) ^ 2 +
      ((Real.sin t * x - Real.cos t * y) / ry) ^ 2) := by
    intro x y
    unfold ellipseRho
    congr 2
    rw [div_pow, div_pow]; ring
  rw [e, e, e]
  have := sqrt_add_le ((Real.cos t * x + Real.sin t * y) / rx) ((Real.sin t * x - Real.cos t * y) / ry)
    ((Real.cos t * u + Real.sin t * v) / rx) ((Real.sin t * u - Real.cos t * v) / ry)
  have e2 : (Real.cos t * (x + u) + Real.sin t * (y + v)) / rx =
    (Real.cos t * x + Real.sin t * y) / rx + (Real.cos t * u + Real.sin t * v) / rx := by ring
  have e3 : (Real.sin t * (x + u) - Real.cos t * (y + v)) / ry =
    (Real.sin t * x - Real.cos t * y) / ry + (Real.sin t * u - Real.cos t * v) / ry := by ring
  rw [e2, e3]
  linarith

theorem ellipseRho_neg (rx ry t u v : ℝ) : ellipseRho rx ry t (-u) (-v) = ellipseRho rx ry t u v := by
  unfold ellipseRho
  congr 2
  ring

theorem ellipseRho_le_iff (rx ry rot x y : ℝ) :
    ellipseRho rx ry ((Real.pi / 180) * rot) x y ≤ 0.5 ↔ inEllipse rx ry rot x y := by
  unfold ellipseRho inEllipse turnedX turnedY
  have ht : (Real.pi / 180) * rot = rot * Real.pi / 180 := by ring
  rw [ht]
  set c := Real.cos (rot * Real.pi / 180)
  set s := Real.sin (rot * Real.pi / 180)
  have e : 1 / rx ^ 2 * (c * x + s * y) ^ 2 + 1 / ry ^ 2 * (s * x - c * y) ^ 2 =
      ((x * c + y * s) / rx) ^ 2 + ((y * c - x * s) / ry) ^ 2 := by
    rw [div_pow, div_pow]; ring
  rw [e]
  constructor
  · intro h
    have h1 : Real.sqrt (((x * c + y * s) / rx) ^ 2 + ((y * c - x * s) / ry) ^ 2) ≤ 1 := by linarith
    rw [Real.sqrt_le_one] at h1
    exact h1
  · intro h
    have := Real.sqrt_le_one.mpr h
    linarith

/-- `ellipse` is exact when the code's window is wide enough. -/
theorem ellipse_exact_of_window (nx ny N : ℕ) (hx : 2 ≤ nx) (hy : 2 ≤ ny) (hN : 1 ≤ N) (rx ry rot xo yo : ℝ) (h1 : 0 < rx)
    (h2 : 0 < ry) (isDark : Bool)
    (hwin : ∀ u v, SubOffset N u → SubOffset N v → ellipseRho rx ry ((Real.pi / 180) * rot) u v ≤
      ellipseWindow rx ry ((Real.pi / 180) * rot) (shapeAxis nx xo) (shapeAxis ny yo)) :
    IsImage (ellipse nx ny rx ry rot xo yo N isDark) nx ny xo yo
      (fun x y => tone isDark (areaFraction N (inEllipse rx ry rot) x y)) := by
  refine isImage_of _ _ _ _ _ _ ?_
  rw [ellipse_core nx ny N hx hy hN rx ry rot xo yo h1 h2, antialias_exact _ _ _ _ _ _ _ _ (by omega), darken_eq]
  · congr 2
    funext i j
    congr 1
    exact areaFraction_congr N _ _ (fun x y => ellipseRho_le_iff rx ry rot x y) _ _
  · intro x y u v h hu hv
    have a := ellipseRho_add rx ry ((Real.pi / 180) * rot) x y u v
    have b := hwin u v hu hv
    rw [abs_of_nonneg (ellipseRho_nonneg _ _ _ _ _)] at h
    linarith
  · intro x y u v h hu hv hle
    have a := ellipseRho_add rx ry ((Real.pi / 180) * rot) (x + u) (y + v) (-u) (-v)
    have b := hwin u v hu hv
    rw [ellipseRho_neg, add_neg_cancel_right, add_neg_cancel_right] at a
    rw [abs_of_nonneg (ellipseRho_nonneg _ _ _ _ _)] at h
    linarith

theorem ellipseRho_eq (rx ry rot x y : ℝ) : ellipseRho rx ry ((Real.pi / 180) * rot) x y = 0.5 * ellipticRadius rx ry rot x y := by
  unfold ellipseRho ellipticRadius turnedX turnedY
  rw [show (Real.pi / 180) * rot = rot * Real.pi / 180 by ring]
  congr 2
  rw [div_pow, div_pow]
  ring

theorem ellipseWindow_eq (nx ny : ℕ) (hx : 2 ≤ nx) (hy : 2 ≤ ny) (rx ry rot xo yo : ℝ) :
    ellipseWindow rx ry ((Real.pi / 180) * rot) (shapeAxis nx xo) (shapeAxis ny yo) = 0.5 * cornerStep nx ny rx ry rot xo yo := by
  unfold ellipseWindow cornerStep
  simp only [ellipseRho_eq]
  rw [shapeAxis_eq nx xo 0 (by omega), shapeAxis_eq nx xo 1 (by omega), shapeAxis_eq ny yo 0 (by omega), shapeAxis_eq ny yo 1 (by omega)]
  rw [← mul_sub, ← mul_sub, abs_mul, abs_mul, abs_of_nonneg (show (0 : ℝ) ≤ 0.5 by norm_num), ← mul_max_of_nonneg _ _ (by norm_num), max_comm]
  have e (m : ℕ) (o : ℝ) : ((0 : ℕ) : ℝ) - ((m / 2 : ℕ) : ℝ) - o = -((m / 2 : ℕ) : ℝ) - o := by push_cast; ring
  have e' (m : ℕ) (o : ℝ) : ((1 : ℕ) : ℝ) - ((m / 2 : ℕ) : ℝ) - o = -((m / 2 : ℕ) : ℝ) - o + 1 := by push_cast; ring
  rw [e, e, e', e']

/-- **C38 (partial).** `ellipse` is exactly the sub-pixel area fraction whenever no sub-pixel of the pixel at the centre of the ellipse has a larger
elliptic radius than the radius changes by over one step at the corner of the array.  Missing: the remaining inputs, for which the property is false
(`C38_ellipse_not_exact`, `C38_turned_not_exact`). -/
theorem C38_ellipse_exact_partial (nx ny N : ℕ) (hx : 2 ≤ nx) (hy : 2 ≤ ny) (hN : 1 ≤ N) (rx ry rot xo yo : ℝ) (h1 : 0 < rx)
    (h2 : 0 < ry) (isDark : Bool)
    (hwin : ∀ u v, SubOffset N u → SubOffset N v → ellipticRadius rx ry rot u v ≤ cornerStep nx ny rx ry rot xo yo) :
    IsImage (ellipse nx ny rx ry rot xo yo N isDark) nx ny xo yo
      (fun x y => tone isDark (areaFraction N (inEllipse rx ry rot) x y)) := by
  refine ellipse_exact_of_window nx ny N hx hy hN rx ry rot xo yo h1 h2 isDark fun u v hu hv => ?_
  rw [ellipseRho_eq, ellipseWindow_eq nx ny hx hy]
  exact mul_le_mul_of_nonneg_left (hwin u v hu hv) (by norm_num)

/-- The window hypothesis is met in a concrete case: a circle of radius 2 on a 4 x 4 array with 2 sub-pixels a side. -/
example : ∀ u v, SubOffset 2 u → SubOffset 2 v → ellipticRadius 2 2 0 u v ≤ cornerStep 4 4 2 2 0 0 0 := by
  have hs : ∀ u, SubOffset 2 u → u ^ 2 = 1 / 16 := by
    rintro u ⟨s, hs, rfl⟩
    have : s = 0 ∨ s = 1 := by omega
    rcases this with rfl | rfl <;> norm_num
  intro u v hu hv
  suffices key : ellipseRho 2 2 ((Real.pi / 180) * 0) u v ≤ ellipseWindow 2 2 ((Real.pi / 180) * 0) (shapeAxis 4 0) (shapeAxis 4 0) by
    rw [ellipseRho_eq, ellipseWindow_eq 4 4 (by norm_num) (by norm_num)] at key
    linarith
  unfold ellipseWindow
  refine le_trans ?_ (le_max_left _ _)
  rw [shapeAxis_eq 4 0 0 (by norm_num), shapeAxis_eq 4 0 1 (by norm_num)]
  unfold ellipseRho
  simp only [mul_zero, Real.cos_zero, Real.sin_zero]
  have e1 : (1 / (2 : ℝ) ^ 2 * (1 * u + 0 * v) ^ 2 + 1 / 2 ^ 2 * (0 * u - 1 * v) ^ 2) = 1 / 32 := by
    rw [show (1 / (2 : ℝ) ^ 2 * (1 * u + 0 * v) ^ 2 + 1 / 2 ^ 2 * (0 * u - 1 * v) ^ 2) = (u ^ 2 + v ^ 2) / 4 by ring, hs u hu, hs v hv]
    norm_num
  rw [e1]
  norm_num
  have h4 : Real.sqrt 4 = 2 := by rw [show (4 : ℝ) = 2 ^ 2 by norm_num]; exact Real.sqrt_sq (by norm_num)
  have a1 : Real.sqrt 5 ≤ 2.24 := Real.sqrt_le_iff.mpr ⟨by norm_num, by norm_num⟩
  have a2 : 1.41 ≤ Real.sqrt 2 := Real.le_sqrt_of_sq_le (by norm_num)
  have a3 : 5 ≤ Real.sqrt 32 := Real.le_sqrt_of_sq_le (by norm_num)
  have a4 : (Real.sqrt 32)⁻¹ ≤ 5⁻¹ := inv_anti₀ (by norm_num) a3
  rw [h4, abs_of_nonpos (by linarith)]
  linarith

/-- A unit circle centred between the four pixels of a 2 x 2 array makes the window zero, and its pixels are rendered fully inside. -/
theorem unit_ellipse_one : ∃ o, ellipse (2 : ℕ) (2 : ℕ) 1 1 0 (-(1 / 2)) (-(1 / 2)) (2 : ℕ) false = .ok o ∧ o.centered 0 0 = some 1 := by
  refine ⟨_, ellipse_core 2 2 2 le_rfl le_rfl (by norm_num) 1 1 0 _ _ one_pos one_pos false, ?_⟩
  have hw : ellipseWindow 1 1 ((Real.pi / 180) * 0) (shapeAxis 2 (-(1 / 2))) (shapeAxis 2 (-(1 / 2))) = 0 := by
    unfold ellipseWindow ellipseRho
    rw [shapeAxis_eq 2 _ 0 (by norm_num), shapeAxis_eq 2 _ 1 (by norm_num)]
    simp only [mul_zero, Real.cos_zero, Real.sin_zero]
    norm_num
  have hrho : ellipseRho 1 1 ((Real.pi / 180) * 0) (1 / 2) (1 / 2) < 0.5 := by
    unfold ellipseRho
    simp only [mul_zero, Real.cos_zero, Real.sin_zero]
    have : Real.sqrt (1 / 1 ^ 2 * (1 * (1 / 2) + 0 * (1 / 2)) ^ 2 + 1 / 1 ^ 2 * (0 * (1 / 2) - 1 * (1 / 2)) ^ 2) < 1 := by
      rw [Real.sqrt_lt' one_pos]; norm_num
    linarith
  rw [hw]
  have := raster_centered 2 2 (-(1 / 2)) (-(1 / 2)) (antialiasVal
    (fun x y => |ellipseRho 1 1 ((Real.pi / 180) * 0) x y| < 0.5 - 0)
    (fun x y => |ellipseRho 1 1 ((Real.pi / 180) * 0) x y| > 0.5 + 0)
    (fun x y => ellipseRho 1 1 ((Real.pi / 180) * 0) x y ≤ 0.5) 2 (1 / ((2 : ℕ) : ℝ))) 0 0 (by unfold Reaches; norm_num)
  refine Eq.trans this ?_
  rw [show ((0 : ℤ) : ℝ) - -(1 / 2) = 1 / 2 by norm_num, antialiasVal_one]
  · rw [abs_of_nonneg (ellipseRho_nonneg _ _ _ _ _)]; linarith
  · rw [abs_of_nonneg (ellipseRho_nonneg _ _ _ _ _)]; linarith

/-- A quarter of the sub-pixels of those pixels are outside. -/
theorem unit_ellipse_fraction : areaFraction 2 (inEllipse 1 1 0) (((0 : ℤ) : ℝ) - -(1 / 2)) (((0 : ℤ) : ℝ) - -(1 / 2)) < 1 := by
  classical
  unfold areaFraction
  have hcard : (Finset.univ.filter fun s : Fin 2 × Fin 2 => inEllipse 1 1 0
      (((0 : ℤ) : ℝ) - -(1 / 2) + (((s.2 : ℕ) + 1 / 2 : ℝ) / (2 : ℕ) - 1 / 2))
      (((0 : ℤ) : ℝ) - -(1 / 2) + (((s.1 : ℕ) + 1 / 2 : ℝ) / (2 : ℕ) - 1 / 2))).card < 4 := by
    have : (Finset.univ : Finset (Fin 2 × Fin 2)).card = 4 := by simp
    rw [← this]
    refine Finset.card_lt_card ?_
    rw [Finset.filter_ssubset]
    refine ⟨(1, 1), Finset.mem_univ _, ?_⟩
    unfold inEllipse turnedX turnedY
    simp only [zero_mul, zero_div, Real.cos_zero, Real.sin_zero]
    norm_num
  rw [div_lt_one (by norm_num)]
  have : ((2 : ℕ) : ℝ) ^ 2 = ((4 : ℕ) : ℝ) := by norm_num
  rw [this]
  exact_mod_cast hcard

/-- **C38.** The full property is false: a unit circle centred between the four pixels of a 2 x 2 array makes the window
zero, and all four pixels are rendered fully inside, although a quarter of the sub-pixels of each are outside. -/
theorem C38_ellipse_not_exact : ¬ ∀ (nx ny N : ℕ) (rx ry rot xo yo : ℝ), 2 ≤ nx → 2 ≤ ny → 1 ≤ N → 0 < rx → 0 < ry →
    IsImage (ellipse nx ny rx ry rot xo yo N false) nx ny xo yo
      (fun x y => tone false (areaFraction N (inEllipse rx ry rot) x y)) := by
  intro H
  obtain ⟨o, ho, -, -, hpx⟩ := H 2 2 2 1 1 0 (-(1 / 2)) (-(1 / 2)) le_rfl le_rfl (by norm_num) one_pos one_pos
  have hv := hpx 0 0 (by unfold Reaches; norm_num)
  obtain ⟨o', ho', hone⟩ := unit_ellipse_one
  rw [ho'] at ho
  obtain rfl := Except.ok.inj ho
  rw [hone] at hv
  have hv' := Option.some.inj hv
  unfold tone at hv'
  simp only [Bool.false_eq_true, if_false] at hv'
  linarith [unit_ellipse_fraction]

end Coralign.Props
