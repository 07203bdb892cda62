import Verif.Lemmas.ZernikeOrtho

/-!
# Property C88: the Zernike polynomials are orthonormal over the pupil
-/

namespace Coralign.Props

open Coralign Coralign.Spec MeasureTheory

/-- `Z j x y` is the value `xyzern` returns for Noll order `j` at the point `(x, y)` of a pupil of radius `prad`. -/
def ReturnsModes (prad : ℝ) (Z : ℕ → ℝ → ℝ → ℝ) : Prop :=
  ∀ j : ℕ, 1 ≤ j → ∀ x y : ℝ, xyzern (Arr2.full 1 1 x) (Arr2.full 1 1 y) prad [(j : ℤ)] = .ok [Arr2.full 1 1 (Z j x y)]

theorem returns_zernike (prad : ℝ) (hp : 0 < prad) : ReturnsModes prad fun j x y =>
    zernike (nollN j).toNat (nollM j).toNat (j % 2 = 1) (Real.sqrt (x ^ 2 + y ^ 2) / prad) (Complex.arg ⟨x, y⟩) := by
  intro j hj x y
  have := C22_xyzern 1 1 (fun _ _ => x) (fun _ _ => y) prad [j] hp (by simp) (by simpa using hj)
  simp only [List.map_cons, List.map_nil] at this
  beta_reduce
  rw [← zernSample_eq j hj, zernSample_mode j hj]
  exact this

theorem returns_unique (prad : ℝ) (Z Z' : ℕ → ℝ → ℝ → ℝ) (h : ReturnsModes prad Z) (h' : ReturnsModes prad Z') (j : ℕ) (hj : 1 ≤ j) (x y : ℝ) :
    Z j x y = Z' j x y := by
  have e := (h j hj x y).symm.trans (h' j hj x y)
  simp only [Except.ok.injEq, List.cons.injEq, and_true] at e
  have := congrArg (fun a => a.px 0 0) e
  simpa [Arr2.full, Arr2.px] using this

theorem modes_eq (prad : ℝ) (hp : 0 < prad) (Z : ℕ → ℝ → ℝ → ℝ) (h : ReturnsModes prad Z) (j : ℕ) (hj : 1 ≤ j) : Z j = fun x y =>
    zernike (nollN j).toNat (nollM j).toNat (j % 2 = 1) (Real.sqrt (x ^ 2 + y ^ 2) / prad) (Complex.arg ⟨x, y⟩) := by
  funext x y
  exact returns_unique prad Z _ h (returns_zernike prad hp) j hj x y

/-- **C88.** The polynomials are orthonormal: the mean over the pupil of the product of two of them is one for equal orders and zero for different
ones. -/
theorem C88_orthonormal (prad : ℝ) (hp : 0 < prad) (Z : ℕ → ℝ → ℝ → ℝ) (hZ : ReturnsModes prad Z) (j k : ℕ) (hj : 1 ≤ j) (hk : 1 ≤ k) :
    pupilMean prad (fun x y => Z j x y * Z k x y) = if j = k then 1 else 0 := by
  obtain ⟨n, m, hn, hm, hv, _, _⟩ := C21_valid j hj
  obtain ⟨n', m', hn', hm', hv', _, _⟩ := C21_valid k hk
  rw [modes_eq prad hp Z hZ j hj, modes_eq prad hp Z hZ k hk]
  have h := zernike_ortho n m n' m' (decide (j % 2 = 1)) (decide (k % 2 = 1)) hv hv' prad hp
  simp only [hn, hm, hn', hm', Int.toNat_natCast]
  rw [h]
  refine if_congr ⟨fun ⟨a, b, c⟩ => ?_, fun e => ?_⟩ rfl rfl
  · refine C21_injective j k hj hk (by rw [hn, hn', a]) (by rw [hm, hm', b]) fun h0 => ?_
    rcases c with c | c
    · exact absurd (by rw [hm, c]; rfl) h0
    · have := decide_eq_decide.mp c
      omega
  · subst e
    rw [hn] at hn'
    rw [hm] at hm'
    exact ⟨by exact_mod_cast hn', by exact_mod_cast hm', Or.inr rfl⟩

/-- In Cartesian coordinates a mode is a polynomial in `x^2 + y^2` times the real or imaginary part of `(x + i y)^m`. -/
theorem zernike_cartesian (m K : ℕ) (s : Bool) (prad : ℝ) : ∀ p : ℝ × ℝ, zernike (m + 2 * K) m s (Real.sqrt (p.1 ^ 2 + p.2 ^ 2) / prad) (Complex.arg ⟨p.1, p.2⟩) =
      nollFactor (m + 2 * K) m * (∑ t ∈ Finset.range (K + 1), radialW m K t * ((p.1 ^ 2 + p.2 ^ 2) / prad ^ 2) ^ t) *
        (if m = 0 then 1 else if s then (((p.1 : ℂ) + p.2 * Complex.I) ^ m).im / prad ^ m else (((p.1 : ℂ) + p.2 * Complex.I) ^ m).re / prad ^ m) := by
  intro p
  set r := Real.sqrt (p.1 ^ 2 + p.2 ^ 2) with hr
  set θ := Complex.arg ⟨p.1, p.2⟩ with hθ
  have hr2 : r ^ 2 = p.1 ^ 2 + p.2 ^ 2 := Real.sq_sqrt (by positivity)
  have hpol : ((p.1 : ℂ) + p.2 * Complex.I) ^ m = (r : ℂ) ^ m * (Complex.cos (m * θ) + Complex.sin (m * θ) * Complex.I) := by
    have e1 := Complex.norm_mul_cos_add_sin_mul_I (⟨p.1, p.2⟩ : ℂ)
    have e2 : ‖(⟨p.1, p.2⟩ : ℂ)‖ = r := by rw [Complex.norm_def, Complex.normSq_mk, hr, sq, sq]
    rw [e2, ← hθ] at e1
    have e3 : (⟨p.1, p.2⟩ : ℂ) = (p.1 : ℂ) + p.2 * Complex.I := by apply Complex.ext <;> simp
    rw [← e3, ← e1, mul_pow, Complex.cos_add_sin_mul_I_pow]
  have hre : (((p.1 : ℂ) + p.2 * Complex.I) ^ m).re = r ^ m * Real.cos (m * θ) := by
    rw [hpol]
    have : ((r : ℂ) ^ m * (Complex.cos (m * θ) + Complex.sin (m * θ) * Complex.I)) =
        ((r ^ m * Real.cos (m * θ) : ℝ) : ℂ) + ((r ^ m * Real.sin (m * θ) : ℝ) : ℂ) * Complex.I := by push_cast; ring
    rw [this, Complex.add_re, Complex.ofReal_re, Complex.re_ofReal_mul]; simp
  have him : (((p.1 : ℂ) + p.2 * Complex.I) ^ m).im = r ^ m * Real.sin (m * θ) := by
    rw [hpol]
    have : ((r : ℂ) ^ m * (Complex.cos (m * θ) + Complex.sin (m * θ) * Complex.I)) =
        ((r ^ m * Real.cos (m * θ) : ℝ) : ℂ) + ((r ^ m * Real.sin (m * θ) : ℝ) : ℂ) * Complex.I := by push_cast; ring
    rw [this, Complex.add_im, Complex.ofReal_im, Complex.im_ofReal_mul]; simp
  have hrad : radial (m + 2 * K) m (r / prad) =
      (r / prad) ^ m * ∑ t ∈ Finset.range (K + 1), radialW m K t * ((p.1 ^ 2 + p.2 ^ 2) / prad ^ 2) ^ t := by
    rw [radial_low, Finset.mul_sum]
    refine Finset.sum_congr rfl fun t _ => ?_
    rw [pow_add, pow_mul, div_pow r prad 2, hr2]; ring
  rw [hre, him]
  unfold zernike nollFactor
  rw [hrad]
  split_ifs with h0 hs
  · subst h0; rw [hrad]; simp
  · rw [div_pow]; ring
  · rw [div_pow]; ring

/-- The modes are polynomials in the coordinates, so they are continuous. -/
theorem zernike_continuous (n m : ℕ) (h : ValidMode n m) (s : Bool) (prad : ℝ) :
    Continuous fun p : ℝ × ℝ => zernike n m s (Real.sqrt (p.1 ^ 2 + p.2 ^ 2) / prad) (Complex.arg ⟨p.1, p.2⟩) := by
  obtain ⟨h1, K, hK⟩ := h
  obtain rfl : n = m + 2 * K := by omega
  simp only [zernike_cartesian]
  refine Continuous.mul (Continuous.mul continuous_const ?_) ?_
  · fun_prop
  · split_ifs
    · exact continuous_const
    · exact (Complex.continuous_im.comp (by fun_prop)).div_const _
    · exact (Complex.continuous_re.comp (by fun_prop)).div_const _

theorem mode_continuous (prad : ℝ) (hp : 0 < prad) (Z : ℕ → ℝ → ℝ → ℝ) (hZ : ReturnsModes prad Z) (j : ℕ) (hj : 1 ≤ j) :
    Continuous fun p : ℝ × ℝ => Z j p.1 p.2 := by
  obtain ⟨n, m, hn, hm, hv, _, _⟩ := C21_valid j hj
  rw [modes_eq prad hp Z hZ j hj]
  simp only [hn, hm, Int.toNat_natCast]
  exact zernike_continuous n m hv _ prad

theorem disc_compact (prad : ℝ) : IsCompact {p : ℝ × ℝ | p.1 ^ 2 + p.2 ^ 2 ≤ prad ^ 2} := by
  refine Metric.isCompact_of_isClosed_isBounded (isClosed_le (by fun_prop) (by fun_prop)) ?_
  refine (Metric.isBounded_closedBall (x := (0 : ℝ × ℝ)) (r := |prad|)).subset fun p hp => ?_
  rw [Set.mem_ofPred_eq] at hp
  rw [mem_closedBall_zero_iff, Prod.norm_def, max_le_iff, Real.norm_eq_abs, Real.norm_eq_abs]
  exact ⟨sq_le_sq.mp (by nlinarith [sq_nonneg p.2]), sq_le_sq.mp (by nlinarith [sq_nonneg p.1])⟩

theorem pupilMean_sum {ι : Type} (J : Finset ι) (prad : ℝ) (f : ι → ℝ → ℝ → ℝ) (hf : ∀ j ∈ J, Continuous fun p : ℝ × ℝ => f j p.1 p.2) :
    pupilMean prad (fun x y => ∑ j ∈ J, f j x y) = ∑ j ∈ J, pupilMean prad (f j) := by
  unfold pupilMean
  rw [integral_finsetSum _ fun j hj => (hf j hj).continuousOn.integrableOn_compact (disc_compact prad), Finset.sum_div]

theorem pupilMean_smul (prad a : ℝ) (f : ℝ → ℝ → ℝ) : pupilMean prad (fun x y => a * f x y) = a * pupilMean prad f := by
  unfold pupilMean
  rw [integral_const_mul, mul_div_assoc]

/-- **C88.** A coefficient is the mean over the pupil of the wavefront times its mode. -/
theorem C88_coefficient (prad : ℝ) (hp : 0 < prad) (Z : ℕ → ℝ → ℝ → ℝ) (hZ : ReturnsModes prad Z) (J : Finset ℕ) (hJ : ∀ j ∈ J, 1 ≤ j)
    (c : ℕ → ℝ) (k : ℕ) (hk : 1 ≤ k) :
    pupilMean prad (fun x y => (∑ j ∈ J, c j * Z j x y) * Z k x y) = if k ∈ J then c k else 0 := by
  have e : (fun x y => (∑ j ∈ J, c j * Z j x y) * Z k x y) = fun x y => ∑ j ∈ J, c j * (Z j x y * Z k x y) := by
    funext x y
    rw [Finset.sum_mul]
    exact Finset.sum_congr rfl fun j _ => by ring
  rw [e, pupilMean_sum J prad (fun j x y => c j * (Z j x y * Z k x y)) fun j hj =>
    continuous_const.mul ((mode_continuous prad hp Z hZ j (hJ j hj)).mul (mode_continuous prad hp Z hZ k hk))]
  rw [Finset.sum_congr rfl fun j hj => by rw [pupilMean_smul, C88_orthonormal prad hp Z hZ j k (hJ j hj) hk]]
  simp

/-- **C88.** Coefficients are RMS amplitudes: the mean over the pupil of the square of a wavefront is the sum of the squares of its
coefficients. -/
theorem C88_rms (prad : ℝ) (hp : 0 < prad) (Z : ℕ → ℝ → ℝ → ℝ) (hZ : ReturnsModes prad Z) (J : Finset ℕ) (hJ : ∀ j ∈ J, 1 ≤ j) (c : ℕ → ℝ) :
    pupilMean prad (fun x y => (∑ j ∈ J, c j * Z j x y) ^ 2) = ∑ j ∈ J, c j ^ 2 := by
  have e : (fun x y => (∑ j ∈ J, c j * Z j x y) ^ 2) = fun x y => ∑ k ∈ J, c k * ((∑ j ∈ J, c j * Z j x y) * Z k x y) := by
    funext x y
    rw [sq, Finset.mul_sum]
    exact Finset.sum_congr rfl fun j _ => by ring
  have hs : Continuous fun p : ℝ × ℝ => ∑ j ∈ J, c j * Z j p.1 p.2 :=
    continuous_finsetSum _ fun j hj => continuous_const.mul (mode_continuous prad hp Z hZ j (hJ j hj))
  rw [e, pupilMean_sum J prad (fun k x y => c k * ((∑ j ∈ J, c j * Z j x y) * Z k x y)) fun k hk =>
    continuous_const.mul (hs.mul (mode_continuous prad hp Z hZ k (hJ k hk)))]
  refine Finset.sum_congr rfl fun k hk => ?_
  rw [pupilMean_smul, C88_coefficient prad hp Z hZ J hJ c k (hJ k hk), if_pos hk, sq]

/-- **C88.** Every mode but piston averages to zero over the pupil. -/
theorem C88_zero_mean (prad : ℝ) (hp : 0 < prad) (Z : ℕ → ℝ → ℝ → ℝ) (hZ : ReturnsModes prad Z) (j : ℕ) (hj : 2 ≤ j) : pupilMean prad (Z j) = 0 := by
  have h := C88_orthonormal prad hp Z hZ j 1 (by omega) le_rfl
  rw [if_neg (by omega)] at h
  have h1 : ∀ x y, Z 1 x y = 1 := by
    intro x y
    rw [modes_eq prad hp Z hZ 1 le_rfl]
    have := zernSample_eq 1 le_rfl prad x y
    rw [show (((1 : ℕ)) : ℤ) = 1 from rfl] at this ⊢
    exact this.symm.trans ((zernSample_mode 1 le_rfl prad x y).trans (mode_piston prad x y))
  simpa only [h1, mul_one] using h

/-- Such values exist. -/
example : ∃ Z, ReturnsModes 2.5 Z ∧ pupilMean 2.5 (fun x y => (∑ j ∈ ({4, 7, 22} : Finset ℕ), (j : ℝ) * Z j x y) ^ 2) = 549 := by
  refine ⟨_, returns_zernike 2.5 (by norm_num), ?_⟩
  rw [C88_rms 2.5 (by norm_num) _ (returns_zernike 2.5 (by norm_num)) {4, 7, 22} (by decide) fun j => j]
  norm_num

end Coralign.Props
