import Verif.Props.Fresnel

/-!
# Property C104: what the Fresnel propagation does to each plane wave
-/

namespace Coralign.Props

open Coralign

/-- Specification: the paraxial phase factor of a plane wave of `fy` and `fx` cycles per metre after `z` metres. -/
noncomputable def paraxial (lam z fy fx : ℝ) : ℂ := Complex.exp (-Complex.I * ((Real.pi * lam * z * (fy ^ 2 + fx ^ 2) : ℝ) : ℂ))

/-- Specification: the plane wave with `k` periods down and `l` periods across an `n` by `n` array, real and positive at the centre pixel `n//2`. -/
noncomputable def planeVal (n : ℕ) (k l : ℤ) (i j : Fin n) : ℂ :=
  Complex.exp (2 * Real.pi * Complex.I * ((k * (((i : ℕ) : ℂ) - ((n / 2 : ℕ) : ℂ)) + l * (((j : ℕ) : ℂ) - ((n / 2 : ℕ) : ℂ))) / n))

/-- Specification: that plane wave as an array. -/
noncomputable def planeWave (n : ℕ) (k l : ℤ) : Arr2 ℂ := ⟨n, n, planeVal n k l⟩

theorem fresnelPhaseVal_eq (lam z ppm : ℝ) (n : ℕ) (i j : Fin n) : fresnelPhaseVal lam z n ppm i j =
    paraxial lam z ((((i : ℕ) : ℝ) - ((n / 2 : ℕ) : ℝ)) * ppm / n) ((((j : ℕ) : ℝ) - ((n / 2 : ℕ) : ℝ)) * ppm / n) := by
  unfold fresnelPhaseVal paraxial
  simp only
  congr 1
  have hs : ∀ x y : ℝ, (Real.sqrt (x ^ 2 + y ^ 2) * (ppm / n)) ^ 2 = (y * ppm / n) ^ 2 + (x * ppm / n) ^ 2 := by
    intro x y
    rw [mul_pow, Real.sq_sqrt (by positivity)]
    ring
  rw [← Complex.ofReal_pow, hs]
  push_cast
  ring

theorem centered_val {α : Type} {n : ℕ} (v : Fin n → Fin n → α) {k l : ℤ} (h : Reaches n n k l) :
    ∃ i j : Fin n, ((i : ℕ) : ℤ) = (n : ℤ) / 2 + k ∧ ((j : ℕ) : ℤ) = (n : ℤ) / 2 + l ∧ (⟨n, n, v⟩ : Arr2 α).centered k l = some (v i j) := by
  unfold Reaches at h
  refine ⟨⟨((n : ℤ) / 2 + k).toNat, by omega⟩, ⟨((n : ℤ) / 2 + l).toNat, by omega⟩, by simp only; omega, by simp only; omega, ?_⟩
  unfold Arr2.centered
  rw [Arr2.px_of_inB _ (by simpa using h)]

theorem ctr_cast {n : ℕ} {i : Fin n} {k : ℤ} (h : ((i : ℕ) : ℤ) = (n : ℤ) / 2 + k) : ((i : ℕ) : ℝ) - ((n / 2 : ℕ) : ℝ) = k := by
  have : ((i : ℕ) : ℤ) - ((n / 2 : ℕ) : ℤ) = k := by omega
  exact_mod_cast this

/-- Specification: the spectrum of `f` is that of `e` with the component of `k` periods down and `l` across multiplied by `g k l`. -/
def SpectrumTimes (e f : Arr2 ℂ) (n : ℕ) (g : ℤ → ℤ → ℂ) : Prop :=
  ∀ k l : ℤ, Reaches n n k l → ∃ s : ℂ, (doFft e).centered k l = some s ∧ (doFft f).centered k l = some (s * g k l)

theorem angMat_spectrum {n : ℕ} (hn : 0 < n) (fp v : Fin n → Fin n → ℂ) (g : ℤ → ℤ → ℂ)
    (hg : ∀ (i j : Fin n) (k l : ℤ), ((i : ℕ) : ℤ) = (n : ℤ) / 2 + k → ((j : ℕ) : ℤ) = (n : ℤ) / 2 + l → fp i j = g k l) :
    SpectrumTimes ⟨n, n, v⟩ ⟨n, n, angMat fp v⟩ n g := by
  intro k l h
  have e1 : doFft ⟨n, n, v⟩ = ⟨n, n, fun i j => (fmat n * Matrix.of v * fmat n) i j⟩ := doFft_eq _
  have e2 : doFft ⟨n, n, angMat fp v⟩ = ⟨n, n, fun i j => (fmat n * Matrix.of (angMat fp v) * fmat n) i j⟩ := doFft_eq _
  rw [fft_angMat hn] at e2
  obtain ⟨i, j, hi, hj, hv⟩ := centered_val (fun i j => (fmat n * Matrix.of v * fmat n) i j) h
  obtain ⟨i', j', hi', hj', hw⟩ := centered_val (fun i j => (Matrix.of fun i j => (fmat n * Matrix.of v * fmat n) i j * fp i j) i j) h
  have hii : i' = i := Fin.ext (by omega)
  have hjj : j' = j := Fin.ext (by omega)
  subst hii; subst hjj
  refine ⟨_, by rw [e1]; exact hv, ?_⟩
  rw [e2, hw, Matrix.of_apply, hg _ _ k l hi hj]

/-- Paraxial factors of an `n` by `n` grid of `ppm` pixels per metre: `k` periods across the grid are `k * ppm / n` cycles per metre. -/
noncomputable def gridFactor (lam z ppm : ℝ) (n : ℕ) (k l : ℤ) : ℂ := paraxial lam z (k * ppm / n) (l * ppm / n)

theorem fresnelPhase_grid (lam z ppm : ℝ) (n : ℕ) (i j : Fin n) (k l : ℤ) (hi : ((i : ℕ) : ℤ) = (n : ℤ) / 2 + k)
    (hj : ((j : ℕ) : ℤ) = (n : ℤ) / 2 + l) : fresnelPhaseVal lam z n ppm i j = gridFactor lam z ppm n k l := by
  rw [fresnelPhaseVal_eq, ctr_cast hi, ctr_cast hj]
  rfl

/-- **C104, spectrum.**  Propagation on the array's own grid multiplies every plane wave component by its paraxial factor. -/
theorem C104_spectrum (n : ℕ) (v : Fin n → Fin n → ℂ) (lam z ppm : ℝ) (f : Arr2 ℂ) (h : fresnelprop ⟨n, n, v⟩ lam z n ppm = .ok f) :
    f.nr = n ∧ f.nc = n ∧ SpectrumTimes ⟨n, n, v⟩ f n (gridFactor lam z ppm n) := by
  have ha : FresnelArgs lam n ppm := by
    by_contra hb
    unfold fresnelprop at h
    rw [fresnelChecks_err hb] at h
    simp [bind, Except.bind] at h
  have hs : z = 0 ∨ Sampled n lam z ppm := by
    by_contra hb
    push Not at hb
    obtain ⟨hz, hb⟩ := hb
    have hlt : (min n n : ℤ) < nSamplesMin lam z ppm := by
      rw [min_self]
      by_contra hc
      exact hb ((nSamplesMin_le n lam z ppm).mp (not_lt.mp hc))
    unfold fresnelprop at h
    rw [fresnelChecks_ok ha] at h
    simp only [bind, Except.bind] at h
    rw [if_neg hz, if_pos hlt] at h
    exact absurd h (by simp)
  have hn : 0 < n := by exact_mod_cast ha.nx
  rw [fresnel_full n v lam z ppm ha hs] at h
  obtain rfl := Except.ok.inj h
  exact ⟨rfl, rfl, angMat_spectrum hn _ _ _ fun i j k l => fresnelPhase_grid lam z ppm n i j k l⟩

theorem planeWave_mat {n : ℕ} {a b : Fin n} {k l : ℤ} (ha : ((a : ℕ) : ℤ) = (n : ℤ) / 2 + k) (hb : ((b : ℕ) : ℤ) = (n : ℤ) / 2 + l) :
    Matrix.of (planeVal n k l) = (fmat n).conjTranspose * Matrix.single a b (1 : ℂ) * (fmat n).conjTranspose := by
  ext i j
  rw [mul3_apply, Finset.sum_eq_single a, Finset.sum_eq_single b]
  · simp only [Matrix.conjTranspose_apply, Matrix.single_apply_same, mul_one, fmat, RCLike.star_def, conj_cis, neg_neg, ← cis_add]
    unfold planeVal cis ctr
    rw [ctr_cast ha, ctr_cast hb, Matrix.of_apply]
    congr 1
    push_cast
    ring
  · intro q _ hq
    simp [Matrix.single, Ne.symm hq]
  · simp
  · intro p _ hp
    apply Finset.sum_eq_zero
    intro q _
    simp [Matrix.single, Ne.symm hp]
  · simp

theorem angMat_planeWave {n : ℕ} (hn : 0 < n) (fp : Fin n → Fin n → ℂ) {a b : Fin n} {k l : ℤ} (ha : ((a : ℕ) : ℤ) = (n : ℤ) / 2 + k)
    (hb : ((b : ℕ) : ℤ) = (n : ℤ) / 2 + l) : angMat fp (planeVal n k l) = fun i j => (planeVal n k l) i j * fp a b := by
  have hn' : (n : ℂ) ≠ 0 := Nat.cast_ne_zero.mpr hn.ne'
  have hw := planeWave_mat ha hb
  have hF : fmat n * Matrix.of (planeVal n k l) * fmat n = ((n : ℂ) * n) • Matrix.single a b (1 : ℂ) := by
    rw [← fft_ifft_mat n n hn hn (((n : ℂ) * n) • Matrix.single a b (1 : ℂ)), hw]
    congr 2
    rw [Matrix.mul_smul, Matrix.smul_mul, smul_smul, one_div, inv_mul_cancel₀ (mul_ne_zero hn' hn'), one_smul]
  have hE : (Matrix.of fun i j => (fmat n * Matrix.of (planeVal n k l) * fmat n) i j * fp i j) =
      (((n : ℂ) * n) * fp a b) • Matrix.single a b (1 : ℂ) := by
    rw [hF]
    ext i j
    simp only [Matrix.of_apply, Matrix.smul_apply, smul_eq_mul, Matrix.single]
    by_cases hc : a = i ∧ b = j
    · obtain ⟨rfl, rfl⟩ := hc
      simp
    · simp [hc]
  unfold angMat
  show (1 / ((n : ℂ) * n)) • ((fmat n).conjTranspose * (Matrix.of fun i j => (fmat n * Matrix.of (planeVal n k l) * fmat n) i j * fp i j) *
    (fmat n).conjTranspose) = _
  rw [hE, Matrix.mul_smul, Matrix.smul_mul, smul_smul, ← hw]
  funext i j
  rw [Matrix.smul_apply, Matrix.of_apply, smul_eq_mul]
  field_simp

/-- **C104, plane waves.**  A plane wave of the grid propagates to itself times its paraxial factor, and is refused only for lack of samples. -/
theorem C104_plane_wave (n : ℕ) (k l : ℤ) (lam z ppm : ℝ) (h : FresnelArgs lam n ppm) (hs : Sampled n lam z ppm) (hr : Reaches n n k l) :
    fresnelprop (planeWave n k l) lam z n ppm =
      .ok ((planeWave n k l).map fun w => w * paraxial lam z (k * ppm / n) (l * ppm / n)) := by
  have hn : 0 < n := by exact_mod_cast h.nx
  obtain ⟨a, b, ha, hb, -⟩ := centered_val (planeVal n k l) hr
  have e := fresnel_full n (planeVal n k l) lam z ppm h (Or.inr hs)
  rw [angMat_planeWave hn _ ha hb, fresnelPhase_grid lam z ppm n a b k l ha hb] at e
  exact e

/-- **C104, the precomputed factor.**  `get_fp` returns the paraxial factor of every frequency of the grid, zero frequency at the centre pixel. -/
theorem C104_get_fp (lam z ppm : ℝ) (nx : ℤ) (fp : Arr2 ℂ) (h : getFp lam z nx ppm = .ok fp) :
    fp.nr = nx.toNat ∧ fp.nc = nx.toNat ∧
      ∀ k l : ℤ, Reaches nx.toNat nx.toNat k l → fp.centered k l = some (paraxial lam z (k * ppm / nx) (l * ppm / nx)) := by
  have ha : FresnelArgs lam nx ppm := by
    by_contra hb
    unfold getFp at h
    rw [fresnelChecks_err hb] at h
    simp [bind, Except.bind] at h
  unfold getFp at h
  rw [fresnelChecks_ok ha] at h
  simp only [bind, Except.bind] at h
  split_ifs at h
  obtain rfl := Except.ok.inj h
  refine ⟨rfl, rfl, fun k l hr => ?_⟩
  obtain ⟨i, j, hi, hj, hv⟩ := centered_val (fresnelPhaseVal lam z nx.toNat ppm) hr
  have hx : ((nx.toNat : ℕ) : ℝ) = (nx : ℝ) := by
    have := ha.nx
    exact_mod_cast Int.toNat_of_nonneg this.le
  rw [show fresnelPhase lam z nx.toNat ppm = ⟨nx.toNat, nx.toNat, fresnelPhaseVal lam z nx.toNat ppm⟩ from rfl, hv,
    fresnelPhase_grid lam z ppm _ i j k l hi hj]
  unfold gridFactor
  rw [hx]

/-- **C104, any supplied factor.**  `fresnelprop_fp` centres the field in a zero array of the requested size, multiplies its spectrum by the supplied
array, and cuts the field's own window out of the result (zero where the grid is smaller). -/
theorem C104_supplied_factor (e : Arr2 ℂ) (z : ℝ) (n : ℕ) (hn : 0 < n) (fp f : Arr2 ℂ) (hr : 0 < e.nr) (hc : 0 < e.nc) (hz : z ≠ 0)
    (hfr : fp.nr = n) (hfc : fp.nc = n) (h : fresnelpropFp e z n fp = .ok f) :
    ∃ P F : Arr2 ℂ, P.nr = n ∧ P.nc = n ∧ (∀ k l, Reaches n n k l → P.centered k l = some ((e.centered k l).getD 0)) ∧
      F.nr = n ∧ F.nc = n ∧ SpectrumTimes P F n (fun k l => (fp.centered k l).getD 0) ∧
      f.nr = e.nr ∧ f.nc = e.nc ∧ ∀ k l, Reaches e.nr e.nc k l → f.centered k l = some ((F.centered k l).getD 0) := by
  obtain ⟨fr, fc, fv⟩ := fp
  simp only at hfr hfc
  subst hfr; subst hfc
  unfold fresnelpropFp at h
  rw [if_neg (by omega), if_neg hz, angularSpectrum_eq e _ hn hr hc] at h
  obtain rfl := Except.ok.inj h
  refine ⟨embed e _ _ 0, ⟨_, _, angMat fv (embV e _ _ 0)⟩, rfl, rfl, fun k l hk => embed_centered _ _ _ _ hk, rfl, rfl, ?_, rfl, rfl,
    fun k l hk => embed_centered _ _ _ _ hk⟩
  refine angMat_spectrum (v := embV e _ _ 0) hn fv _ fun i j k l hi hj => ?_
  unfold Arr2.centered
  have := Arr2.px_val (⟨_, _, fv⟩ : Arr2 ℂ) i j
  simp only at this ⊢
  rw [← hi, ← hj, this]
  rfl

/-- **C104, padded.**  The same of `fresnelprop` on any grid, with the paraxial factors of that grid. -/
theorem C104_padded (e : Arr2 ℂ) (lam z ppm : ℝ) (n : ℕ) (f : Arr2 ℂ) (hr : 0 < e.nr) (hc : 0 < e.nc) (hz : z ≠ 0)
    (h : fresnelprop e lam z n ppm = .ok f) :
    ∃ P F : Arr2 ℂ, P.nr = n ∧ P.nc = n ∧ (∀ k l, Reaches n n k l → P.centered k l = some ((e.centered k l).getD 0)) ∧
      F.nr = n ∧ F.nc = n ∧ SpectrumTimes P F n (fun k l => paraxial lam z (k * ppm / n) (l * ppm / n)) ∧
      f.nr = e.nr ∧ f.nc = e.nc ∧ ∀ k l, Reaches e.nr e.nc k l → f.centered k l = some ((F.centered k l).getD 0) := by
  have ha : FresnelArgs lam n ppm := by
    by_contra hb
    unfold fresnelprop at h
    rw [fresnelChecks_err hb] at h
    simp [bind, Except.bind] at h
  have hn : 0 < n := by exact_mod_cast ha.nx
  unfold fresnelprop at h
  rw [fresnelChecks_ok ha] at h
  simp only [bind, Except.bind, if_neg hz] at h
  split_ifs at h
  rw [Int.toNat_natCast, show fresnelPhase lam z n ppm = ⟨n, n, fresnelPhaseVal lam z n ppm⟩ from rfl, angularSpectrum_eq e _ hn hr hc] at h
  obtain rfl := Except.ok.inj h
  exact ⟨embed e _ _ 0, ⟨_, _, angMat (fresnelPhaseVal lam z n ppm) (embV e _ _ 0)⟩, rfl, rfl, fun k l hk => embed_centered _ _ _ _ hk, rfl, rfl,
    angMat_spectrum (v := embV e _ _ 0) hn _ _ fun i j k l => fresnelPhase_grid lam z ppm n i j k l, rfl, rfl,
    fun k l hk => embed_centered _ _ _ _ hk⟩

theorem paraxial_half : paraxial (1 / 2) 1 1 1 = -1 := by
  unfold paraxial
  rw [show -Complex.I * ((Real.pi * (1 / 2) * 1 * (1 ^ 2 + 1 ^ 2) : ℝ) : ℂ) = -(Real.pi * Complex.I) by push_cast; ring, Complex.exp_neg, Complex.exp_pi_mul_I]
  norm_num

/-- Half a unit of wavelength over a unit distance, eight pixels at four pixels per unit: the wave of two periods each way has one cycle per unit
each way and comes out inverted. -/
example : fresnelprop (planeWave 8 2 2) (1 / 2) 1 8 4 = .ok ((planeWave 8 2 2).map fun w => w * -1) := by
  have h := C104_plane_wave 8 2 2 (1 / 2) 1 4 ⟨by norm_num, by norm_num, by norm_num⟩ (by unfold Sampled; norm_num) (by unfold Reaches; norm_num)
  rw [show paraxial (1 / 2) 1 (((2 : ℤ) : ℝ) * 4 / ((8 : ℕ) : ℝ)) (((2 : ℤ) : ℝ) * 4 / ((8 : ℕ) : ℝ)) = -1 by
    rw [show ((2 : ℤ) : ℝ) * 4 / ((8 : ℕ) : ℝ) = 1 by norm_num]; exact paraxial_half] at h
  exact_mod_cast h

/-- The hypotheses of the padded statement are met: a 9 by 8 field on a grid of 16. -/
example (v : Fin 9 → Fin 8 → ℂ) : ∃ f, fresnelprop ⟨9, 8, v⟩ (1 / 2) 1 16 4 = .ok f := by
  have hlt : ¬ (min (9 : ℕ) (8 : ℕ) : ℤ) < nSamplesMin (1 / 2) 1 4 := by
    unfold nSamplesMin
    norm_num
  unfold fresnelprop
  rw [fresnelChecks_ok ⟨by norm_num, by norm_num, by norm_num⟩]
  simp only [bind, Except.bind, if_neg one_ne_zero]
  rw [if_neg hlt]
  exact ⟨_, angularSpectrum_eq ⟨9, 8, v⟩ 16 (by norm_num) (by norm_num) (by norm_num) _⟩

/-- The hypotheses of the statement on the precomputed factor are met, and a non-trivial entry of it is `-1`. -/
example : ∃ fp, getFp (1 / 2) 1 8 4 = .ok fp ∧ fp.centered 2 2 = some (-1) := by
  have hlt : ¬ (8 : ℤ) < nSamplesMin (1 / 2) 1 4 := by
    unfold nSamplesMin
    norm_num
  have h : getFp (1 / 2) 1 8 4 = .ok (fresnelPhase (1 / 2) 1 8 4) := by
    unfold getFp
    rw [fresnelChecks_ok ⟨by norm_num, by norm_num, by norm_num⟩]
    simp only [bind, Except.bind]
    rw [if_neg hlt]
    rfl
  refine ⟨_, h, ?_⟩
  rw [(C104_get_fp _ _ _ _ _ h).2.2 2 2 (by unfold Reaches; norm_num)]
  norm_num [paraxial_half]

/-- The hypotheses of the statement on supplied factors are met: an all-ones factor on a 9 by 8 field. -/
example (v : Fin 9 → Fin 8 → ℂ) : ∃ f, fresnelpropFp ⟨9, 8, v⟩ 1 16 ⟨16, 16, fun _ _ => 1⟩ = .ok f := by
  unfold fresnelpropFp
  rw [if_neg (by norm_num), if_neg one_ne_zero]
  exact ⟨_, angularSpectrum_eq ⟨9, 8, v⟩ 16 (by norm_num) (by norm_num) (by norm_num) _⟩

end Coralign.Props
