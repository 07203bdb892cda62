import Verif.Props.ZernikeFit
import Mathlib.Analysis.SpecialFunctions.Complex.Arg
import Mathlib.Analysis.SpecialFunctions.Trigonometric.Angle

/-!
# Property C119: mirrored, turned and rescaled Zernike maps and fits
-/

namespace Coralign.Props

open Coralign Coralign.Spec

/-! ### Specification -/

/-- The sign of mode `j` under reflection of the rows (`y` to `-y`): the sine modes change sign. -/
def flipSign (j : ℕ) : ℝ := if nollFreq j ≠ 0 ∧ j % 2 = 1 then -1 else 1

/-- The sign of mode `j` under half a turn: the modes of odd radial order change sign. -/
def turnSign (j : ℕ) : ℝ := (-1) ^ nollRow j

/-- The modes with their coefficients, the sign of each changed according to `σ`. -/
def signed (σ : ℕ → ℝ) (terms : List (ℤ × ℝ)) : List (ℤ × ℝ) := terms.map fun p => (p.1, σ p.1.toNat * p.2)

/-- The two maps of usable pixels, and the two wavefronts on them, are mirror images of each other about the centre pixel, rows with `e0 = -1`, columns with
`e1 = -1`. -/
structure MirrorImages {ny nx : ℕ} (e0 e1 : ℤ) (w w' : Fin ny → Fin nx → ℝ) (u u' : Fin ny → Fin nx → Bool) : Prop where
  usable : ∀ k l : ℤ, (⟨ny, nx, u'⟩ : Arr2 Bool).centered (e0 * k) (e1 * l) = some true ↔ (⟨ny, nx, u⟩ : Arr2 Bool).centered k l = some true
  value : ∀ k l : ℤ, (⟨ny, nx, u⟩ : Arr2 Bool).centered k l = some true →
    (⟨ny, nx, w'⟩ : Arr2 ℝ).centered (e0 * k) (e1 * l) = (⟨ny, nx, w⟩ : Arr2 ℝ).centered k l

/-! ### The polynomials -/

theorem mode_valid (j : ℕ) (hj : 1 ≤ j) : ValidMode (nollRow j) (nollFreq j) := by
  obtain ⟨n, m, hn, hm, hv, -, -⟩ := C21_valid j hj
  obtain ⟨h1, h2⟩ := C21_table j hj
  have e1 : n = nollRow j := by exact_mod_cast hn.symm.trans h1
  have e2 : m = nollFreq j := by exact_mod_cast hm.symm.trans h2
  rwa [← e1, ← e2]

theorem cos_angle (m : ℕ) (a b : ℝ) (h : (a : Real.Angle) = (b : Real.Angle)) : Real.cos (m * a) = Real.cos (m * b) ∧ Real.sin (m * a) = Real.sin (m * b) := by
  have e : ((m * a : ℝ) : Real.Angle) = ((m * b : ℝ) : Real.Angle) := by
    rw [← nsmul_eq_mul, ← nsmul_eq_mul, Real.Angle.coe_nsmul, Real.Angle.coe_nsmul, h]
  constructor
  · rw [← Real.Angle.cos_coe, e, Real.Angle.cos_coe]
  · rw [← Real.Angle.sin_coe, e, Real.Angle.sin_coe]

theorem radial_zero (n m : ℕ) (h : m ≤ n) (hm : 1 ≤ m) : radial n m 0 = 0 := by
  unfold radial
  refine Finset.sum_eq_zero fun k hk => ?_
  rw [Finset.mem_range] at hk
  rw [zero_pow (by omega), mul_zero]

/-- Reflection of the rows. -/
theorem mode_flip (j : ℕ) (prad x y : ℝ) : mode j prad x (-y) = flipSign j * mode j prad x y := by
  unfold mode zernike flipSign
  rw [neg_sq]
  have ha : (Complex.arg ⟨x, -y⟩ : Real.Angle) = ((-Complex.arg ⟨x, y⟩ : ℝ) : Real.Angle) := by
    rw [Real.Angle.coe_neg, ← Complex.arg_conj_coe_angle]
    rfl
  by_cases h0 : nollFreq j = 0
  · rw [if_pos h0, if_pos h0, if_neg (by simp [h0]), one_mul]
  · rw [if_neg h0, if_neg h0]
    obtain ⟨c, s⟩ := cos_angle (nollFreq j) _ _ ha
    rw [c, s, mul_neg, Real.cos_neg, Real.sin_neg]
    by_cases h1 : j % 2 = 1
    · have e : (if nollFreq j ≠ 0 ∧ j % 2 = 1 then (-1 : ℝ) else 1) = -1 := if_pos ⟨h0, h1⟩
      rw [e]
      simp [h1]
    · have e : (if nollFreq j ≠ 0 ∧ j % 2 = 1 then (-1 : ℝ) else 1) = 1 := if_neg fun h => h1 h.2
      rw [e]
      simp [h1]

/-- Half a turn. -/
theorem mode_turn (j : ℕ) (hj : 1 ≤ j) (prad x y : ℝ) : mode j prad (-x) (-y) = turnSign j * mode j prad x y := by
  obtain ⟨hle, heven⟩ := mode_valid j hj
  unfold mode zernike turnSign
  rw [neg_sq, neg_sq]
  have hpar : ((-1 : ℝ)) ^ nollRow j = (-1) ^ nollFreq j := by
    obtain ⟨c, hc⟩ := heven
    rw [show nollRow j = nollFreq j + 2 * c by omega, pow_add, pow_mul]
    simp
  rw [hpar]
  by_cases h0 : nollFreq j = 0
  · rw [if_pos h0, if_pos h0, h0, pow_zero, one_mul]
  rw [if_neg h0, if_neg h0]
  by_cases hz : x = 0 ∧ y = 0
  · obtain ⟨rfl, rfl⟩ := hz
    simp only [ne_eq, OfNat.ofNat_ne_zero, not_false_eq_true, zero_pow, add_zero, Real.sqrt_zero, zero_div]
    rw [radial_zero _ _ hle (by omega)]
    ring
  · have hz' : (⟨x, y⟩ : ℂ) ≠ 0 := by
      intro h
      exact hz ⟨congrArg Complex.re h, congrArg Complex.im h⟩
    have ha : (Complex.arg ⟨-x, -y⟩ : Real.Angle) = ((Complex.arg ⟨x, y⟩ + Real.pi : ℝ) : Real.Angle) := by
      rw [Real.Angle.coe_add, ← Complex.arg_neg_coe_angle hz']
      rfl
    obtain ⟨c, s⟩ := cos_angle (nollFreq j) _ _ ha
    rw [c, s, mul_add (nollFreq j : ℝ), Real.cos_add_nat_mul_pi, Real.sin_add_nat_mul_pi]
    split <;> ring

theorem mode_left_right (j : ℕ) (hj : 1 ≤ j) (prad x y : ℝ) : mode j prad (-x) y = turnSign j * flipSign j * mode j prad x y := by
  have := mode_flip j prad (-x) (-y)
  rw [neg_neg, mode_turn j hj] at this
  rw [this]
  ring

/-- The same point of a larger disc. -/
theorem mode_zoom (j : ℕ) (prad x y c : ℝ) (hc : 0 < c) : mode j (c * prad) (c * x) (c * y) = mode j prad x y := by
  unfold mode
  have h1 : Real.sqrt ((c * x) ^ 2 + (c * y) ^ 2) / (c * prad) = Real.sqrt (x ^ 2 + y ^ 2) / prad := by
    rw [show (c * x) ^ 2 + (c * y) ^ 2 = c ^ 2 * (x ^ 2 + y ^ 2) by ring, Real.sqrt_mul (sq_nonneg c), Real.sqrt_sq hc.le, mul_div_mul_left _ _ hc.ne']
  have h2 : Complex.arg ⟨c * x, c * y⟩ = Complex.arg ⟨x, y⟩ := by
    rw [← Complex.arg_real_mul ⟨x, y⟩ hc]
    congr 1
    apply Complex.ext <;> simp
  rw [h1, h2]

/-- Rotation by any angle. -/
theorem mode_rotated (j j' : ℕ) (hj : 1 ≤ j) (hrow : nollRow j' = nollRow j) (hfreq : nollFreq j' = nollFreq j) (h0 : nollFreq j ≠ 0) (hc : j % 2 = 0) (hs : j' % 2 = 1)
    (prad x y φ : ℝ) :
    mode j prad (x * Real.cos φ - y * Real.sin φ) (x * Real.sin φ + y * Real.cos φ) =
        Real.cos (nollFreq j * φ) * mode j prad x y - Real.sin (nollFreq j * φ) * mode j' prad x y ∧
      mode j' prad (x * Real.cos φ - y * Real.sin φ) (x * Real.sin φ + y * Real.cos φ) =
        Real.sin (nollFreq j * φ) * mode j prad x y + Real.cos (nollFreq j * φ) * mode j' prad x y := by
  obtain ⟨hle, -⟩ := mode_valid j hj
  unfold mode zernike
  rw [hrow, hfreq, if_neg h0, if_neg h0, if_neg h0, if_neg h0]
  have hr : (x * Real.cos φ - y * Real.sin φ) ^ 2 + (x * Real.sin φ + y * Real.cos φ) ^ 2 = x ^ 2 + y ^ 2 := by
    have := Real.sin_sq_add_cos_sq φ
    linear_combination (x ^ 2 + y ^ 2) * this
  rw [hr]
  simp only [hc, hs, decide_true, if_true, zero_ne_one, decide_false, Bool.false_eq_true, if_false]
  by_cases hz : x = 0 ∧ y = 0
  · obtain ⟨rfl, rfl⟩ := hz
    simp only [ne_eq, OfNat.ofNat_ne_zero, not_false_eq_true, zero_pow, add_zero, Real.sqrt_zero, zero_div]
    rw [radial_zero _ _ hle (by omega)]
    constructor <;> ring
  · have hz' : (⟨x, y⟩ : ℂ) ≠ 0 := by
      intro h
      exact hz ⟨congrArg Complex.re h, congrArg Complex.im h⟩
    have hm : (⟨x * Real.cos φ - y * Real.sin φ, x * Real.sin φ + y * Real.cos φ⟩ : ℂ) = ⟨x, y⟩ * Complex.exp (φ * Complex.I) := by
      apply Complex.ext
      · rw [Complex.mul_re, Complex.exp_ofReal_mul_I_re, Complex.exp_ofReal_mul_I_im]
      · rw [Complex.mul_im, Complex.exp_ofReal_mul_I_re, Complex.exp_ofReal_mul_I_im]
    have ha : (Complex.arg ⟨x * Real.cos φ - y * Real.sin φ, x * Real.sin φ + y * Real.cos φ⟩ : Real.Angle) = ((Complex.arg ⟨x, y⟩ + φ : ℝ) : Real.Angle) := by
      rw [hm, Complex.arg_mul_coe_angle hz' (Complex.exp_ne_zero _), Real.Angle.coe_add]
      congr 1
      have := Complex.arg_cos_add_sin_mul_I_coe_angle (φ : Real.Angle)
      rw [Real.Angle.cos_coe, Real.Angle.sin_coe, Complex.ofReal_cos, Complex.ofReal_sin] at this
      rw [Complex.exp_mul_I]
      exact this
    obtain ⟨c, s⟩ := cos_angle (nollFreq j) _ _ ha
    rw [c, s, mul_add (nollFreq j : ℝ), Real.cos_add, Real.sin_add]
    constructor <;> ring

/-! ### Maps -/

/-- **C119.** `xyzern` on rotated coordinates: the cosine and the sine mode of the same order turn into each other like the coordinates of a vector turned by
`m` times the angle; modes without azimuthal frequency do not change. -/
theorem C119_rotated (n m : ℕ) (x y : Fin n → Fin m → ℝ) (prad φ : ℝ) (hp : 0 < prad) (j j' : ℕ) (hj : 1 ≤ j) (hj' : 1 ≤ j') (hrow : nollRow j' = nollRow j)
    (hfreq : nollFreq j' = nollFreq j) (h0 : nollFreq j ≠ 0) (hc : j % 2 = 0) (hs : j' % 2 = 1) :
    ∃ zc zs wc ws : Fin n → Fin m → ℝ, xyzern ⟨n, m, x⟩ ⟨n, m, y⟩ prad [(j : ℤ), (j' : ℤ)] = .ok [⟨n, m, zc⟩, ⟨n, m, zs⟩] ∧
      xyzern ⟨n, m, fun i k => x i k * Real.cos φ - y i k * Real.sin φ⟩ ⟨n, m, fun i k => x i k * Real.sin φ + y i k * Real.cos φ⟩ prad [(j : ℤ), (j' : ℤ)] =
        .ok [⟨n, m, wc⟩, ⟨n, m, ws⟩] ∧
      ∀ i k, wc i k = Real.cos (nollFreq j * φ) * zc i k - Real.sin (nollFreq j * φ) * zs i k ∧
        ws i k = Real.sin (nollFreq j * φ) * zc i k + Real.cos (nollFreq j * φ) * zs i k := by
  have ho : ∀ q ∈ [j, j'], 1 ≤ q := by
    intro q hq
    simp only [List.mem_cons, List.not_mem_nil, or_false] at hq
    rcases hq with rfl | rfl <;> assumption
  refine ⟨_, _, _, _, C22_xyzern n m x y prad [j, j'] hp (by simp) ho, C22_xyzern n m _ _ prad [j, j'] hp (by simp) ho, fun i k => ?_⟩
  exact mode_rotated j j' hj hrow hfreq h0 hc hs prad (x i k) (y i k) φ

/-- **C119.** `xyzern` only sees coordinates relative to the radius: all coordinates and the radius multiplied by a positive factor give the same maps. -/
theorem C119_zoom (n m : ℕ) (x y : Fin n → Fin m → ℝ) (prad c : ℝ) (hp : 0 < prad) (hc : 0 < c) (orders : List ℕ) (hne : orders ≠ []) (ho : ∀ j ∈ orders, 1 ≤ j) :
    xyzern ⟨n, m, fun i k => c * x i k⟩ ⟨n, m, fun i k => c * y i k⟩ (c * prad) (orders.map fun j : ℕ => (j : ℤ)) =
      xyzern ⟨n, m, x⟩ ⟨n, m, y⟩ prad (orders.map fun j : ℕ => (j : ℤ)) := by
  rw [C22_xyzern n m _ _ _ orders (mul_pos hc hp) hne ho, C22_xyzern n m x y prad orders hp hne ho]
  simp only [mode_zoom _ _ _ _ c hc]

theorem gen_signed (e0 e1 : ℤ) (he0 : e0 = 1 ∨ e0 = -1) (he1 : e1 = 1 ∨ e1 = -1) (σ : ℕ → ℝ) (hσ : ∀ j, σ j * σ j = 1)
    (hm : ∀ (j : ℕ), 1 ≤ j → ∀ prad x y : ℝ, mode j prad (e1 * x) (e0 * y) = σ j * mode j prad x y)
    (terms : List (ℤ × ℝ)) (xo yo nBeam : ℝ) (nArray : ℤ) (h : GenArgs terms nBeam nArray) :
    ∃ o o', genZernikes (terms.map Prod.fst) (terms.map Prod.snd) xo yo nBeam nArray = .ok o ∧
      genZernikes ((signed σ terms).map Prod.fst) ((signed σ terms).map Prod.snd) (e1 * xo) (e0 * yo) nBeam nArray = .ok o' ∧ o'.nr = o.nr ∧ o'.nc = o.nc ∧
      ∀ k l : ℤ, Reaches o.nr o.nc k l → Reaches o.nr o.nc (e0 * k) (e1 * l) → o'.centered (e0 * k) (e1 * l) = o.centered k l := by
  have h' : GenArgs (signed σ terms) nBeam nArray := by
    refine ⟨by simpa [signed] using h.nonempty, ?_, h.beam, h.size⟩
    intro p hp
    obtain ⟨q, hq, rfl⟩ := List.mem_map.mp hp
    exact h.pos q hq
  obtain ⟨o, ho, hr, hcr, hv⟩ := C23_centred terms xo yo nBeam nArray h
  obtain ⟨o', ho', hr', hcr', hv'⟩ := C23_centred (signed σ terms) (e1 * xo) (e0 * yo) nBeam nArray h'
  have habs : ∀ (e : ℤ) (z : ℝ), e = 1 ∨ e = -1 → |(e : ℝ) * z| = |z| := by
    rintro e z (rfl | rfl)
    · simp
    · simp
  have hsize : o'.nr = o.nr := by
    rw [habs e1 xo he1, habs e0 yo he0] at hr'
    exact_mod_cast hr'.trans hr.symm
  refine ⟨o, o', ho, ho', hsize, by rw [hcr, hcr', hsize], fun k l h1 h2 => ?_⟩
  rw [hv k l h1, hv' (e0 * k) (e1 * l) (by rw [hcr', hsize]; rwa [hcr] at h2)]
  congr 2
  unfold signed
  rw [List.map_map]
  refine List.map_congr_left fun p hp => ?_
  have := hm p.1.toNat (by have := h.pos p hp; omega) (nBeam / 2) (l - xo) (k - yo)
  simp only [Function.comp]
  rw [show ((e1 * l : ℤ) : ℝ) - e1 * xo = e1 * (l - xo) by push_cast; ring, show ((e0 * k : ℤ) : ℝ) - e0 * yo = e0 * (k - yo) by push_cast; ring, this]
  linear_combination p.2 * mode p.1.toNat (nBeam / 2) (l - xo) (k - yo) * hσ p.1.toNat

theorem flipSign_sq (j : ℕ) : flipSign j * flipSign j = 1 := by
  unfold flipSign
  split <;> norm_num

theorem turnSign_sq (j : ℕ) : turnSign j * turnSign j = 1 := by
  unfold turnSign
  rw [← mul_pow]
  norm_num

/-- **C119.** Changing the sign of the coefficients of the sine modes, and of the row offset, turns a generated map upside down about its centre pixel. -/
theorem C119_upside_down (terms : List (ℤ × ℝ)) (xo yo nBeam : ℝ) (nArray : ℤ) (h : GenArgs terms nBeam nArray) :
    ∃ o o', genZernikes (terms.map Prod.fst) (terms.map Prod.snd) xo yo nBeam nArray = .ok o ∧
      genZernikes ((signed flipSign terms).map Prod.fst) ((signed flipSign terms).map Prod.snd) xo (-yo) nBeam nArray = .ok o' ∧ o'.nr = o.nr ∧ o'.nc = o.nc ∧
      ∀ k l : ℤ, Reaches o.nr o.nc k l → Reaches o.nr o.nc (-k) l → o'.centered (-k) l = o.centered k l := by
  have := gen_signed (-1) 1 (Or.inr rfl) (Or.inl rfl) flipSign flipSign_sq (fun j hj prad x y => by
    have := mode_flip j prad x y
    simpa using this) terms xo yo nBeam nArray h
  simpa using this

/-- **C119.** Changing the sign of the coefficients of the modes of odd radial order, and of both offsets, turns a generated map by half a turn about its centre
pixel. -/
theorem C119_half_turned (terms : List (ℤ × ℝ)) (xo yo nBeam : ℝ) (nArray : ℤ) (h : GenArgs terms nBeam nArray) :
    ∃ o o', genZernikes (terms.map Prod.fst) (terms.map Prod.snd) xo yo nBeam nArray = .ok o ∧
      genZernikes ((signed turnSign terms).map Prod.fst) ((signed turnSign terms).map Prod.snd) (-xo) (-yo) nBeam nArray = .ok o' ∧ o'.nr = o.nr ∧ o'.nc = o.nc ∧
      ∀ k l : ℤ, Reaches o.nr o.nc k l → Reaches o.nr o.nc (-k) (-l) → o'.centered (-k) (-l) = o.centered k l := by
  have := gen_signed (-1) (-1) (Or.inr rfl) (Or.inr rfl) turnSign turnSign_sq (fun j hj prad x y => by
    have := mode_turn j hj prad x y
    simpa using this) terms xo yo nBeam nArray h
  simpa using this

/-- **C119.** Changing both signs, and that of the column offset, mirrors a generated map left to right about its centre pixel. -/
theorem C119_left_right (terms : List (ℤ × ℝ)) (xo yo nBeam : ℝ) (nArray : ℤ) (h : GenArgs terms nBeam nArray) :
    ∃ o o', genZernikes (terms.map Prod.fst) (terms.map Prod.snd) xo yo nBeam nArray = .ok o ∧
      genZernikes ((signed (fun j => turnSign j * flipSign j) terms).map Prod.fst) ((signed (fun j => turnSign j * flipSign j) terms).map Prod.snd) (-xo) yo nBeam nArray = .ok o' ∧
      o'.nr = o.nr ∧ o'.nc = o.nc ∧ ∀ k l : ℤ, Reaches o.nr o.nc k l → Reaches o.nr o.nc k (-l) → o'.centered k (-l) = o.centered k l := by
  have := gen_signed 1 (-1) (Or.inl rfl) (Or.inr rfl) (fun j => turnSign j * flipSign j) (fun j => by
    have h1 := turnSign_sq j
    have h2 := flipSign_sq j
    linear_combination flipSign j * flipSign j * h1 + h2) (fun j hj prad x y => by
    have := mode_left_right j hj prad x y
    simpa using this) terms xo yo nBeam nArray h
  simpa using this

/-! ### Fits -/

/-- The usable pixel at an offset from the centre pixel. -/
theorem selected_at {ny nx : ℕ} (u : Fin ny → Fin nx → Bool) (k l : ℤ) (h : (⟨ny, nx, u⟩ : Arr2 Bool).centered k l = some true) :
    ∃ q : Selected u, ((q.1.1 : ℕ) : ℤ) = (ny : ℤ) / 2 + k ∧ ((q.1.2 : ℕ) : ℤ) = (nx : ℤ) / 2 + l := by
  unfold Arr2.centered at h
  by_cases hb : (0 ≤ (ny : ℤ) / 2 + k ∧ (ny : ℤ) / 2 + k < ny) ∧ 0 ≤ (nx : ℤ) / 2 + l ∧ (nx : ℤ) / 2 + l < nx
  · rw [Arr2.px_of_inB _ hb] at h
    exact ⟨⟨(_, _), Option.some.inj h⟩, Int.toNat_of_nonneg hb.1.1, Int.toNat_of_nonneg hb.2.1⟩
  · rw [Arr2.px_of_not_inB _ hb] at h
    cases h

theorem centered_at {α : Type} {ny nx : ℕ} (w : Fin ny → Fin nx → α) (i : Fin ny) (j : Fin nx) (k l : ℤ) (hk : ((i : ℕ) : ℤ) = (ny : ℤ) / 2 + k) (hl : ((j : ℕ) : ℤ) = (nx : ℤ) / 2 + l) :
    (⟨ny, nx, w⟩ : Arr2 α).centered k l = some (w i j) := by
  unfold Arr2.centered
  show (⟨ny, nx, w⟩ : Arr2 α).px ((ny : ℤ) / 2 + k) ((nx : ℤ) / 2 + l) = _
  rw [← hk, ← hl]
  exact Arr2.px_val (⟨ny, nx, w⟩ : Arr2 α) i j

theorem fit_signed (S : Solver) (e0 e1 : ℤ) (he0 : e0 * e0 = 1) (he1 : e1 * e1 = 1) (σ : ℕ → ℝ) (hσ : ∀ j, σ j * σ j = 1)
    (hm : ∀ (j : ℕ), 1 ≤ j → ∀ prad x y : ℝ, mode j prad (e1 * x) (e0 * y) = σ j * mode j prad x y)
    (ny nx : ℕ) (w w' : Fin ny → Fin nx → ℝ) (u u' : Fin ny → Fin nx → Bool) (hmir : MirrorImages e0 e1 w w' u u') (N d : ℕ) (hN : 0 < N)
    (hd : N ≤ (d + 1) * (d + 2) / 2) (nBeam dx dy : ℝ) (hb : 0 < nBeam) (rows : Finset (Fin ny)) (cols : Finset (Fin nx)) (hr : d < rows.card)
    (hc : d < cols.card) (hu : ∀ i ∈ rows, ∀ k ∈ cols, u i k = true) (c : Fin N → ℝ) (h : fitZernikes S ⟨ny, nx, w⟩ ⟨ny, nx, u⟩ N nBeam dx dy = .ok c) :
    fitZernikes S ⟨ny, nx, w'⟩ ⟨ny, nx, u'⟩ N nBeam (e1 * dx) (e0 * dy) = .ok fun s => σ (s + 1) * c s := by
  rw [fit_eq S ny nx w u N hN nBeam dx dy hb] at h
  rw [fit_eq S ny nx w' u' N hN nBeam _ _ hb]
  congr 1
  have hx := S.isLeastSq (fun (q : Selected u) (s : Fin N) => fitBasis ny nx nBeam dx dy s q.1.1 q.1.2) (fun q => w q.1.1 q.1.2)
  have h0 := Except.ok.inj h
  have h1 : S.solve (ι := Selected u) (fun q (s : Fin N) => fitBasis ny nx nBeam dx dy s q.1.1 q.1.2) (fun q => w q.1.1 q.1.2) = c := h0
  rw [h1] at hx
  have hx' := S.isLeastSq (fun (q : Selected u') (s : Fin N) => fitBasis ny nx nBeam (e1 * dx) (e0 * dy) s q.1.1 q.1.2) (fun q => w' q.1.1 q.1.2)
  generalize S.solve (ι := Selected u') (fun q (s : Fin N) => fitBasis ny nx nBeam (e1 * dx) (e0 * dy) s q.1.1 q.1.2) (fun q => w' q.1.1 q.1.2) = x' at hx'
  -- the mirrored pixel
  have mir : ∀ q : Selected u, ∃ q' : Selected u', ((q'.1.1 : ℕ) : ℤ) = (ny : ℤ) / 2 + e0 * (((q.1.1 : ℕ) : ℤ) - (ny : ℤ) / 2) ∧
      ((q'.1.2 : ℕ) : ℤ) = (nx : ℤ) / 2 + e1 * (((q.1.2 : ℕ) : ℤ) - (nx : ℤ) / 2) ∧ w' q'.1.1 q'.1.2 = w q.1.1 q.1.2 := by
    intro q
    have c0 : (⟨ny, nx, u⟩ : Arr2 Bool).centered (((q.1.1 : ℕ) : ℤ) - (ny : ℤ) / 2) (((q.1.2 : ℕ) : ℤ) - (nx : ℤ) / 2) = some true := by
      rw [centered_at u q.1.1 q.1.2 _ _ (by ring) (by ring), q.2]
    obtain ⟨q', h1, h2⟩ := selected_at u' _ _ ((hmir.usable _ _).mpr c0)
    refine ⟨q', h1, h2, ?_⟩
    have := hmir.value _ _ c0
    rw [centered_at w' q'.1.1 q'.1.2 _ _ h1 h2, centered_at w q.1.1 q.1.2 _ _ (by ring) (by ring)] at this
    exact Option.some.inj this
  choose μ hμ0 hμ1 hμw using mir
  have hbij : Function.Bijective μ := by
    constructor
    · intro q r hqr
      have a1 := hμ0 q
      have a2 := hμ0 r
      have b1 := hμ1 q
      have b2 := hμ1 r
      rw [hqr] at a1 b1
      have g0 : e0 * (((q.1.1 : ℕ) : ℤ) - (ny : ℤ) / 2) = e0 * (((r.1.1 : ℕ) : ℤ) - (ny : ℤ) / 2) := by linarith
      have g1 : e1 * (((q.1.2 : ℕ) : ℤ) - (nx : ℤ) / 2) = e1 * (((r.1.2 : ℕ) : ℤ) - (nx : ℤ) / 2) := by linarith
      have g0' : ((q.1.1 : ℕ) : ℤ) = ((r.1.1 : ℕ) : ℤ) := by linear_combination e0 * g0 - ((((q.1.1 : ℕ) : ℤ) - (ny : ℤ) / 2) - (((r.1.1 : ℕ) : ℤ) - (ny : ℤ) / 2)) * he0
      have g1' : ((q.1.2 : ℕ) : ℤ) = ((r.1.2 : ℕ) : ℤ) := by linear_combination e1 * g1 - ((((q.1.2 : ℕ) : ℤ) - (nx : ℤ) / 2) - (((r.1.2 : ℕ) : ℤ) - (nx : ℤ) / 2)) * he1
      exact Subtype.ext (Prod.ext (Fin.ext (by exact_mod_cast g0')) (Fin.ext (by exact_mod_cast g1')))
    · intro q'
      have c0 : (⟨ny, nx, u'⟩ : Arr2 Bool).centered (e0 * (e0 * (((q'.1.1 : ℕ) : ℤ) - (ny : ℤ) / 2))) (e1 * (e1 * (((q'.1.2 : ℕ) : ℤ) - (nx : ℤ) / 2))) = some true := by
        rw [← mul_assoc, ← mul_assoc, he0, he1, one_mul, one_mul, centered_at u' q'.1.1 q'.1.2 _ _ (by ring) (by ring), q'.2]
      obtain ⟨q, h1, h2⟩ := selected_at u _ _ ((hmir.usable _ _).mp c0)
      refine ⟨q, Subtype.ext (Prod.ext (Fin.ext ?_) (Fin.ext ?_))⟩
      · have := hμ0 q
        rw [h1] at this
        have e : ((((μ q).1.1 : ℕ)) : ℤ) = ((q'.1.1 : ℕ) : ℤ) := by linear_combination this + (((q'.1.1 : ℕ) : ℤ) - (ny : ℤ) / 2) * he0
        exact_mod_cast e
      · have := hμ1 q
        rw [h2] at this
        have e : ((((μ q).1.2 : ℕ)) : ℤ) = ((q'.1.2 : ℕ) : ℤ) := by linear_combination this + (((q'.1.2 : ℕ) : ℤ) - (nx : ℤ) / 2) * he1
        exact_mod_cast e
  have hbas : ∀ (q : Selected u) (s : Fin N), fitBasis ny nx nBeam (e1 * dx) (e0 * dy) s (μ q).1.1 (μ q).1.2 = σ (s + 1) * fitBasis ny nx nBeam dx dy s q.1.1 q.1.2 := by
    intro q s
    unfold fitBasis
    rw [← hm (s + 1) (by omega)]
    have r0 : (((μ q).1.1 : ℕ) : ℝ) = ((ny / 2 : ℕ) : ℝ) + e0 * (((q.1.1 : ℕ) : ℝ) - ((ny / 2 : ℕ) : ℝ)) := by
      have h := hμ0 q
      have e : ((ny : ℤ) / 2) = ((ny / 2 : ℕ) : ℤ) := by omega
      rw [e] at h
      have h2 := congrArg (fun z : ℤ => (z : ℝ)) h
      push_cast at h2 ⊢
      exact h2
    have r1 : (((μ q).1.2 : ℕ) : ℝ) = ((nx / 2 : ℕ) : ℝ) + e1 * (((q.1.2 : ℕ) : ℝ) - ((nx / 2 : ℕ) : ℝ)) := by
      have h := hμ1 q
      have e : ((nx : ℤ) / 2) = ((nx / 2 : ℕ) : ℤ) := by omega
      rw [e] at h
      have h2 := congrArg (fun z : ℤ => (z : ℝ)) h
      push_cast at h2 ⊢
      exact h2
    rw [r0, r1]
    congr 1 <;> ring
  have hres : ∀ y : Fin N → ℝ, sqResidual (fun (q : Selected u') (s : Fin N) => fitBasis ny nx nBeam (e1 * dx) (e0 * dy) s q.1.1 q.1.2) (fun q => w' q.1.1 q.1.2) y =
      sqResidual (fun (q : Selected u) (s : Fin N) => fitBasis ny nx nBeam dx dy s q.1.1 q.1.2) (fun q => w q.1.1 q.1.2) (fun s => σ (s + 1) * y s) := by
    intro y
    unfold sqResidual
    rw [← hbij.sum_comp]
    refine Finset.sum_congr rfl fun q _ => ?_
    unfold fitted
    simp only [hbas, hμw]
    congr 3
    funext s
    ring
  have hz : IsLeastSq (fun (q : Selected u) (s : Fin N) => fitBasis ny nx nBeam dx dy s q.1.1 q.1.2) (fun q => w q.1.1 q.1.2) (fun s => σ (s + 1) * x' s) := by
    intro y
    rw [← hres]
    refine (hx' (fun s => σ (s + 1) * y s)).trans (le_of_eq ?_)
    rw [hres]
    congr 1
    funext s
    rw [← mul_assoc, hσ, one_mul]
  have hfit := hz.fitted_unique hx
  have hzero := basis_independent ny nx N d hd nBeam dx dy hb u rows cols hr hc hu (fun s => σ (s + 1) * x' s - c s) (by
    intro i k hik
    have := hfit ⟨(i, k), hik⟩
    unfold fitted at this
    simp only [mul_sub, Finset.sum_sub_distrib]
    rw [sub_eq_zero]
    exact this)
  funext s
  have h3 := congrFun hzero s
  simp only [Pi.zero_apply] at h3
  linear_combination σ (s + 1) * h3 - x' s * hσ (s + 1)

/-- **C119.** Fitting a wavefront turned upside down about the centre pixel, with the sign of the row offset changed, gives the same coefficients with the signs of
the sine modes changed, when the usable pixels determine the fit. -/
theorem C119_fit_upside_down (S : Solver) (ny nx : ℕ) (w w' : Fin ny → Fin nx → ℝ) (u u' : Fin ny → Fin nx → Bool) (hmir : MirrorImages (-1) 1 w w' u u') (N d : ℕ) (hN : 0 < N)
    (hd : N ≤ (d + 1) * (d + 2) / 2) (nBeam dx dy : ℝ) (hb : 0 < nBeam) (rows : Finset (Fin ny)) (cols : Finset (Fin nx)) (hr : d < rows.card)
    (hc : d < cols.card) (hu : ∀ i ∈ rows, ∀ k ∈ cols, u i k = true) (c : Fin N → ℝ) (h : fitZernikes S ⟨ny, nx, w⟩ ⟨ny, nx, u⟩ N nBeam dx dy = .ok c) :
    fitZernikes S ⟨ny, nx, w'⟩ ⟨ny, nx, u'⟩ N nBeam dx (-dy) = .ok fun s => flipSign (s + 1) * c s := by
  have := fit_signed S (-1) 1 (by norm_num) (by norm_num) flipSign flipSign_sq (fun j hj prad x y => by
    have := mode_flip j prad x y
    simpa using this) ny nx w w' u u' hmir N d hN hd nBeam dx dy hb rows cols hr hc hu c h
  simpa using this

/-- **C119.** Fitting a wavefront turned by half a turn about the centre pixel, with the signs of both offsets changed, gives the same coefficients with the signs of
the modes of odd radial order changed, when the usable pixels determine the fit. -/
theorem C119_fit_half_turned (S : Solver) (ny nx : ℕ) (w w' : Fin ny → Fin nx → ℝ) (u u' : Fin ny → Fin nx → Bool) (hmir : MirrorImages (-1) (-1) w w' u u') (N d : ℕ) (hN : 0 < N)
    (hd : N ≤ (d + 1) * (d + 2) / 2) (nBeam dx dy : ℝ) (hb : 0 < nBeam) (rows : Finset (Fin ny)) (cols : Finset (Fin nx)) (hr : d < rows.card)
    (hc : d < cols.card) (hu : ∀ i ∈ rows, ∀ k ∈ cols, u i k = true) (c : Fin N → ℝ) (h : fitZernikes S ⟨ny, nx, w⟩ ⟨ny, nx, u⟩ N nBeam dx dy = .ok c) :
    fitZernikes S ⟨ny, nx, w'⟩ ⟨ny, nx, u'⟩ N nBeam (-dx) (-dy) = .ok fun s => turnSign (s + 1) * c s := by
  have := fit_signed S (-1) (-1) (by norm_num) (by norm_num) turnSign turnSign_sq (fun j hj prad x y => by
    have := mode_turn j hj prad x y
    simpa using this) ny nx w w' u u' hmir N d hN hd nBeam dx dy hb rows cols hr hc hu c h
  simpa using this

/-! ### The hypotheses can be met -/

/-- The familiar modes: tilts, defocus, astigmatism, coma, trefoil, spherical. -/
example : (List.range 11).map (fun k => (turnSign (k + 1), flipSign (k + 1))) =
    [(1, 1), (-1, 1), (-1, -1), (1, 1), (1, -1), (1, 1), (-1, -1), (-1, 1), (-1, -1), (-1, 1), (1, 1)] := by
  have h : ∀ k, k < 11 → turnSign (k + 1) = ([1, -1, -1, 1, 1, 1, -1, -1, -1, -1, 1] : List ℝ)[k]?.getD 0 ∧
      flipSign (k + 1) = ([1, 1, -1, 1, -1, 1, -1, 1, -1, 1, 1] : List ℝ)[k]?.getD 0 := by
    intro k hk
    have h1 : (List.range 11).map (fun k => nollRow (k + 1)) = [0, 1, 1, 2, 2, 2, 3, 3, 3, 3, 4] := by decide
    have h2 : (List.range 11).map (fun k => nollFreq (k + 1)) = [0, 1, 1, 0, 2, 2, 1, 1, 3, 3, 0] := by decide
    have g1 : nollRow (k + 1) = [0, 1, 1, 2, 2, 2, 3, 3, 3, 3, 4][k]?.getD 0 := by
      rw [← h1, List.getElem?_map, List.getElem?_range hk]; rfl
    have g2 : nollFreq (k + 1) = [0, 1, 1, 0, 2, 2, 1, 1, 3, 3, 0][k]?.getD 0 := by
      rw [← h2, List.getElem?_map, List.getElem?_range hk]; rfl
    unfold turnSign flipSign
    rw [g1, g2]
    interval_cases k <;> norm_num
  simp only [List.range_succ, List.range_zero, List.nil_append, List.cons_append, List.map_cons, List.map_nil]
  rw [(h 0 (by norm_num)).1, (h 0 (by norm_num)).2, (h 1 (by norm_num)).1, (h 1 (by norm_num)).2, (h 2 (by norm_num)).1, (h 2 (by norm_num)).2,
    (h 3 (by norm_num)).1, (h 3 (by norm_num)).2, (h 4 (by norm_num)).1, (h 4 (by norm_num)).2, (h 5 (by norm_num)).1, (h 5 (by norm_num)).2,
    (h 6 (by norm_num)).1, (h 6 (by norm_num)).2, (h 7 (by norm_num)).1, (h 7 (by norm_num)).2, (h 8 (by norm_num)).1, (h 8 (by norm_num)).2,
    (h 9 (by norm_num)).1, (h 9 (by norm_num)).2, (h 10 (by norm_num)).1, (h 10 (by norm_num)).2]
  norm_num

/-- Two astigmatisms rotate into each other. -/
example (x y : Fin 5 → Fin 5 → ℝ) (φ : ℝ) := C119_rotated 5 5 x y 2 φ (by norm_num) 6 5 (by norm_num) (by norm_num) (by decide) (by decide) (by decide) (by norm_num) (by norm_num)

example : GenArgs [(2, 1.5), (7, -0.25)] 10 12 := ⟨by simp, by simp, by norm_num, by norm_num⟩

/-- A map on five by five pixels, all usable, and its mirror image. -/
example (w : Fin 5 → Fin 5 → ℝ) : MirrorImages (-1) 1 w (fun i k => w i.rev k) (fun _ _ => true) (fun _ _ => true) := by
  have key : ∀ (α : Type) (g : Fin 5 → Fin 5 → α) (k l : ℤ), (⟨5, 5, fun i k => g i.rev k⟩ : Arr2 α).centered (-1 * k) (1 * l) = (⟨5, 5, g⟩ : Arr2 α).centered k l := by
    intro α g k l
    unfold Arr2.centered
    simp only
    by_cases hb : (0 ≤ (5 : ℤ) / 2 + k ∧ (5 : ℤ) / 2 + k < 5) ∧ 0 ≤ (5 : ℤ) / 2 + l ∧ (5 : ℤ) / 2 + l < 5
    · have hb' : (0 ≤ (5 : ℤ) / 2 + -1 * k ∧ (5 : ℤ) / 2 + -1 * k < 5) ∧ 0 ≤ (5 : ℤ) / 2 + 1 * l ∧ (5 : ℤ) / 2 + 1 * l < 5 := by omega
      have h1 := Arr2.px_of_inB (⟨5, 5, fun i k => g i.rev k⟩ : Arr2 α) hb'
      have h2 := Arr2.px_of_inB (⟨5, 5, g⟩ : Arr2 α) hb
      refine h1.trans (Eq.trans ?_ h2.symm)
      congr 1
      show g _ _ = g _ _
      congr 1
      · apply Fin.ext
        simp only [Fin.val_rev]
        omega
      · apply Fin.ext
        simp only
        omega
    · have hb' : ¬ ((0 ≤ (5 : ℤ) / 2 + -1 * k ∧ (5 : ℤ) / 2 + -1 * k < 5) ∧ 0 ≤ (5 : ℤ) / 2 + 1 * l ∧ (5 : ℤ) / 2 + 1 * l < 5) := by omega
      exact (Arr2.px_of_not_inB (⟨5, 5, fun i k => g i.rev k⟩ : Arr2 α) hb').trans (Arr2.px_of_not_inB (⟨5, 5, g⟩ : Arr2 α) hb).symm
  refine ⟨fun k l => ?_, fun k l _ => key ℝ w k l⟩
  have := key Bool (fun _ _ => true) k l
  rw [this]

end Coralign.Props
