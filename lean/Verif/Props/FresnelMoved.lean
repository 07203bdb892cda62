import Verif.Props.FresnelWaves

/-!
# Property C117: rolled, mirrored, transposed and conjugated fields through the centred FFT and the Fresnel propagator
-/

namespace Coralign.Props

open Coralign

/-- Specification: where `np.roll` by `k` takes pixel `i` of an axis from. -/
def rollPos {n : ℕ} (k : ℤ) (i : Fin n) : Fin n :=
  ⟨((((i : ℕ) : ℤ) - k) % n).toNat, by
    have hn : 0 < n := Nat.lt_of_le_of_lt (Nat.zero_le _) i.isLt
    have := Int.emod_lt_of_pos (((i : ℕ) : ℤ) - k) (by exact_mod_cast hn : (0 : ℤ) < n)
    have := Int.emod_nonneg (((i : ℕ) : ℤ) - k) (by omega : (n : ℤ) ≠ 0)
    omega⟩

/-- Specification: the pixel as far on the other side of the centre pixel `n//2`, wrapping around (only the first pixel of an even axis needs to, and stays). -/
def mirrorPos {n : ℕ} (i : Fin n) : Fin n :=
  ⟨((2 * ((n : ℤ) / 2) - ((i : ℕ) : ℤ)) % n).toNat, by
    have hn : 0 < n := Nat.lt_of_le_of_lt (Nat.zero_le _) i.isLt
    have := Int.emod_lt_of_pos (2 * ((n : ℤ) / 2) - ((i : ℕ) : ℤ)) (by exact_mod_cast hn : (0 : ℤ) < n)
    have := Int.emod_nonneg (2 * ((n : ℤ) / 2) - ((i : ℕ) : ℤ)) (by omega : (n : ℤ) ≠ 0)
    omega⟩

/-- Specification: `np.roll(e, (k, l), axis=(0, 1))`. -/
def rolled (k l : ℤ) (e : Arr2 ℂ) : Arr2 ℂ := ⟨e.nr, e.nc, fun i j => e.val (rollPos k i) (rollPos l j)⟩

/-- Specification: `e` upside down about its centre row. -/
def flippedRows (e : Arr2 ℂ) : Arr2 ℂ := ⟨e.nr, e.nc, fun i j => e.val (mirrorPos i) j⟩

/-- Specification: `e` mirrored about its centre column. -/
def flippedCols (e : Arr2 ℂ) : Arr2 ℂ := ⟨e.nr, e.nc, fun i j => e.val i (mirrorPos j)⟩

/-- Specification: the transposed array. -/
def transposed (e : Arr2 ℂ) : Arr2 ℂ := ⟨e.nc, e.nr, fun i j => e.val j i⟩

/-- Specification: the complex conjugate array. -/
noncomputable def conjugated (e : Arr2 ℂ) : Arr2 ℂ := e.map (starRingEnd ℂ)

theorem rollPos_mod {n : ℕ} (k : ℤ) (i : Fin n) : ∃ t : ℤ, ((rollPos k i : ℕ) : ℤ) = ((i : ℕ) : ℤ) - k + n * t := by
  have hn : 0 < n := Nat.lt_of_le_of_lt (Nat.zero_le _) i.isLt
  have h0 := Int.emod_nonneg (((i : ℕ) : ℤ) - k) (by omega : (n : ℤ) ≠ 0)
  have h1 := Int.emod_add_mul_ediv (((i : ℕ) : ℤ) - k) n
  refine ⟨-((((i : ℕ) : ℤ) - k) / n), ?_⟩
  show (((((i : ℕ) : ℤ) - k) % n).toNat : ℤ) = _
  rw [Int.toNat_of_nonneg h0]
  linarith

theorem mirrorPos_mod {n : ℕ} (i : Fin n) : ∃ t : ℤ, ((mirrorPos i : ℕ) : ℤ) = 2 * ((n : ℤ) / 2) - ((i : ℕ) : ℤ) + n * t := by
  have hn : 0 < n := Nat.lt_of_le_of_lt (Nat.zero_le _) i.isLt
  have h0 := Int.emod_nonneg (2 * ((n : ℤ) / 2) - ((i : ℕ) : ℤ)) (by omega : (n : ℤ) ≠ 0)
  have h1 := Int.emod_add_mul_ediv (2 * ((n : ℤ) / 2) - ((i : ℕ) : ℤ)) n
  refine ⟨-((2 * ((n : ℤ) / 2) - ((i : ℕ) : ℤ)) / n), ?_⟩
  show (((2 * ((n : ℤ) / 2) - ((i : ℕ) : ℤ)) % n).toNat : ℤ) = _
  rw [Int.toNat_of_nonneg h0]
  linarith

theorem fin_of_mod {n : ℕ} (i j : Fin n) (t : ℤ) (h : ((i : ℕ) : ℤ) - ((j : ℕ) : ℤ) = n * t) : i = j := by
  have hi := i.isLt
  have hj := j.isLt
  have h1 : t = 0 := by
    by_contra ht
    rcases lt_or_gt_of_ne ht with h' | h'
    · nlinarith [show t ≤ -1 by omega]
    · nlinarith [show 1 ≤ t by omega]
  subst h1
  exact Fin.ext (by omega)

theorem rollPos_inj {n : ℕ} (k : ℤ) : Function.Injective (rollPos k : Fin n → Fin n) := by
  intro i j h
  obtain ⟨t, ht⟩ := rollPos_mod k i
  obtain ⟨u, hu⟩ := rollPos_mod k j
  rw [h] at ht
  exact fin_of_mod i j (u - t) (by linarith)

theorem mirrorPos_inj {n : ℕ} : Function.Injective (mirrorPos : Fin n → Fin n) := by
  intro i j h
  obtain ⟨t, ht⟩ := mirrorPos_mod i
  obtain ⟨u, hu⟩ := mirrorPos_mod j
  rw [h] at ht
  exact fin_of_mod i j (t - u) (by linarith)

theorem sum_inj {n : ℕ} {ρ : Fin n → Fin n} (h : Function.Injective ρ) (g : Fin n → ℂ) : ∑ i, g (ρ i) = ∑ i, g i :=
  (Finite.injective_iff_bijective.mp h).sum_comp g

theorem ctr_int {n : ℕ} (p : Fin n) : ctr n p = (((p : ℕ) : ℤ) - ((n / 2 : ℕ) : ℤ) : ℤ) := by unfold ctr; push_cast; rfl

/-! ### The centred FFT -/

theorem fmat_shift {n : ℕ} (p i i' : Fin n) (k : ℤ) (t : ℤ) (h : ((i' : ℕ) : ℤ) = ((i : ℕ) : ℤ) - k + n * t) :
    fmat n p i = fmat n p i' * cis (-(ctr n p * k / n)) := by
  have hn : 0 < n := Nat.lt_of_le_of_lt (Nat.zero_le _) i.isLt
  have hn' : (n : ℝ) ≠ 0 := by positivity
  unfold fmat
  rw [← cis_add, ← cis_add_int _ (-((((p : ℕ) : ℤ) - ((n / 2 : ℕ) : ℤ)) * t))]
  rw [← cis_add_int (-(ctr n p * ctr n i' / n) + -(ctr n p * k / n)) 0]
  congr 1
  have hi : ctr n i = ctr n i' + k - n * t := by
    unfold ctr
    have : (((i' : ℕ) : ℤ) : ℝ) = ((((i : ℕ) : ℤ) - k + n * t : ℤ) : ℝ) := by rw [h]
    push_cast at this
    rw [this]; ring
  rw [hi, ctr_int p]
  push_cast
  field_simp
  ring

/-- **C117, rolled field through the FFT.**  Rolling a field changes only the phases of `do_fft`: sample `(p, q)` turns by its cycles per array times the roll. -/
theorem C117_fft_rolled (e : Arr2 ℂ) (k l : ℤ) : doFft (rolled k l e) =
    ⟨e.nr, e.nc, fun p q => (doFft e).val p q * Complex.exp (-2 * Real.pi * Complex.I *
      ((((p : ℕ) : ℝ) - ((e.nr / 2 : ℕ) : ℝ)) * k / e.nr + (((q : ℕ) : ℝ) - ((e.nc / 2 : ℕ) : ℝ)) * l / e.nc : ℝ))⟩ := by
  obtain ⟨n, m, v⟩ := e
  have e1 : doFft ⟨n, m, v⟩ = ⟨n, m, fun i j => (fmat n * Matrix.of v * fmat m) i j⟩ := doFft_eq _
  have e2 : doFft (rolled k l ⟨n, m, v⟩) = ⟨n, m, fun i j => (fmat n * Matrix.of (fun i j => v (rollPos k i) (rollPos l j)) * fmat m) i j⟩ := doFft_eq _
  have e3 : ∀ (p : Fin n) (q : Fin m), (doFft ⟨n, m, v⟩).val p q = (fmat n * Matrix.of v * fmat m) p q := by
    have : ∀ (a : Arr2 ℂ) (V : Fin n → Fin m → ℂ) (hr : a.nr = n) (hc : a.nc = m), a = ⟨n, m, V⟩ →
        ∀ p q, a.val (p.cast hr.symm) (q.cast hc.symm) = V p q := by
      rintro _ V _ _ rfl p q
      rfl
    exact this _ _ rfl rfl e1
  rw [e2]
  refine congrArg (Arr2.mk n m) (funext fun p => funext fun q => ?_)
  refine Eq.trans ?_ (congrArg (· * _) (e3 p q).symm)
  simp only
  rw [mul3_apply, mul3_apply]
  simp only [Matrix.of_apply]
  have hc : Complex.exp (-2 * Real.pi * Complex.I * ((((p : ℕ) : ℝ) - ((n / 2 : ℕ) : ℝ)) * k / n + (((q : ℕ) : ℝ) - ((m / 2 : ℕ) : ℝ)) * l / m : ℝ)) =
      cis (-(ctr n p * k / n)) * cis (-(ctr m q * l / m)) := by
    rw [← cis_add]
    unfold cis ctr
    congr 1
    push_cast
    ring
  rw [hc, ← sum_inj (rollPos_inj k) (fun i => ∑ j, fmat n p i * v i j * fmat m j q), Finset.sum_mul]
  refine Finset.sum_congr rfl fun i _ => ?_
  rw [← sum_inj (rollPos_inj l) (fun j => fmat n p (rollPos k i) * v (rollPos k i) j * fmat m j q), Finset.sum_mul]
  refine Finset.sum_congr rfl fun j _ => ?_
  obtain ⟨t, ht⟩ := rollPos_mod k i
  obtain ⟨u, hu⟩ := rollPos_mod l j
  rw [fmat_shift p i _ k t ht]
  have hq : fmat m j q = fmat m (rollPos l j) q * cis (-(ctr m q * l / m)) := by
    have := fmat_shift q j _ l u hu
    have s : ∀ a b : Fin m, fmat m a b = fmat m b a := fun a b => congrFun (congrFun (fmat_symm m) b) a
    rw [s j q, s (rollPos l j) q]
    exact this
  rw [hq]
  ring

/-- **C117, tilted field through the FFT.**  A tilt of `k` waves down and `l` across the whole array rolls `do_fft` by `k` by `l` pixels. -/
theorem C117_fft_tilted (n m : ℕ) (v : Fin n → Fin m → ℂ) (k l : ℤ) :
    doFft ⟨n, m, fun i j => v i j * Complex.exp (2 * Real.pi * Complex.I *
      (k * (((i : ℕ) : ℝ) - ((n / 2 : ℕ) : ℝ)) / n + l * (((j : ℕ) : ℝ) - ((m / 2 : ℕ) : ℝ)) / m : ℝ))⟩ = rolled k l (doFft ⟨n, m, v⟩) := by
  have e1 : doFft ⟨n, m, v⟩ = ⟨n, m, fun i j => (fmat n * Matrix.of v * fmat m) i j⟩ := doFft_eq _
  rw [e1, doFft_eq]
  unfold rolled
  refine congrArg (Arr2.mk n m) (funext fun p => funext fun q => ?_)
  simp only
  rw [mul3_apply, mul3_apply]
  refine Finset.sum_congr rfl fun i _ => Finset.sum_congr rfl fun j _ => ?_
  simp only [Matrix.of_apply]
  obtain ⟨t, ht⟩ := rollPos_mod k p
  obtain ⟨u, hu⟩ := rollPos_mod l q
  have s : ∀ (N : ℕ) (a b : Fin N), fmat N a b = fmat N b a := fun N a b => congrFun (congrFun (fmat_symm N) b) a
  have hp := fmat_shift i p _ k t ht
  have hq := fmat_shift j q _ l u hu
  rw [s n p i, hp, hq, s n (rollPos k p) i]
  have hc : Complex.exp (2 * Real.pi * Complex.I * (k * (((i : ℕ) : ℝ) - ((n / 2 : ℕ) : ℝ)) / n + l * (((j : ℕ) : ℝ) - ((m / 2 : ℕ) : ℝ)) / m : ℝ)) =
      cis (ctr n i * k / n) * cis (ctr m j * l / m) := by
    rw [← cis_add]
    unfold cis ctr
    congr 1
    push_cast
    ring
  rw [hc]
  have c1 : cis (-(ctr n i * k / n)) * cis (ctr n i * k / n) = 1 := by rw [← cis_add]; simp
  have c2 : cis (-(ctr m j * l / m)) * cis (ctr m j * l / m) = 1 := by rw [← cis_add]; simp
  linear_combination (fmat n i (rollPos k p) * v i j * fmat m j (rollPos l q)) *
    (cis (-(ctr m j * l / m)) * cis (ctr m j * l / m) * c1 + c2)

/-! ### The propagator as a convolution -/

/-- Response of the angular-spectrum operator at offset `(d, e)` from a point source. -/
noncomputable def angKernel {n : ℕ} (fp : Fin n → Fin n → ℂ) (d e : ℤ) : ℂ :=
  (1 / ((n : ℂ) * n)) * ∑ p, ∑ q, fp p q * (cis (ctr n p * d / n) * cis (ctr n q * e / n))

theorem angMat_kernel {n : ℕ} (fp v : Fin n → Fin n → ℂ) (i j : Fin n) :
    angMat fp v i j = ∑ a : Fin n, ∑ b : Fin n, v a b * angKernel fp (((i : ℕ) : ℤ) - ((a : ℕ) : ℤ)) (((j : ℕ) : ℤ) - ((b : ℕ) : ℤ)) := by
  unfold angMat angKernel
  show ((1 / ((n : ℂ) * n)) • ((fmat n).conjTranspose * (Matrix.of fun i j => (fmat n * Matrix.of v * fmat n) i j * fp i j) *
    (fmat n).conjTranspose)) i j = _
  rw [Matrix.smul_apply, mul3_apply, smul_eq_mul]
  simp only [Matrix.of_apply, mul3_apply, Matrix.conjTranspose_apply, RCLike.star_def]
  simp only [Finset.mul_sum, Finset.sum_mul]
  have swap : ∀ G : Fin n → Fin n → Fin n → Fin n → ℂ, ∑ p, ∑ q, ∑ a, ∑ b, G p q a b = ∑ a, ∑ b, ∑ p, ∑ q, G p q a b := by
    intro G
    calc ∑ p, ∑ q, ∑ a, ∑ b, G p q a b = ∑ p, ∑ a, ∑ q, ∑ b, G p q a b := Finset.sum_congr rfl fun p _ => Finset.sum_comm
      _ = ∑ a, ∑ p, ∑ q, ∑ b, G p q a b := Finset.sum_comm
      _ = ∑ a, ∑ p, ∑ b, ∑ q, G p q a b := Finset.sum_congr rfl fun i _ => Finset.sum_congr rfl fun p _ => Finset.sum_comm
      _ = ∑ a, ∑ b, ∑ p, ∑ q, G p q a b := Finset.sum_congr rfl fun i _ => Finset.sum_comm
  rw [swap]
  refine Finset.sum_congr rfl fun a _ => Finset.sum_congr rfl fun b _ => Finset.sum_congr rfl fun p _ => Finset.sum_congr rfl fun q _ => ?_
  have h1 : (starRingEnd ℂ) (fmat n p i) * fmat n p a = cis (ctr n p * ((((i : ℕ) : ℤ) - ((a : ℕ) : ℤ) : ℤ) : ℝ) / n) := by
    unfold fmat
    rw [conj_cis, ← cis_add]
    congr 1
    unfold ctr
    push_cast
    ring
  have h2 : (starRingEnd ℂ) (fmat n j q) * fmat n b q = cis (ctr n q * ((((j : ℕ) : ℤ) - ((b : ℕ) : ℤ) : ℤ) : ℝ) / n) := by
    unfold fmat
    rw [conj_cis, ← cis_add]
    congr 1
    unfold ctr
    push_cast
    ring
  rw [← h1, ← h2]
  ring

theorem cis_ctr_mod {n : ℕ} (p : Fin n) (d t : ℤ) : cis (ctr n p * ((d + n * t : ℤ) : ℝ) / n) = cis (ctr n p * (d : ℝ) / n) := by
  have hn : 0 < n := Nat.lt_of_le_of_lt (Nat.zero_le _) p.isLt
  have hn' : (n : ℝ) ≠ 0 := by positivity
  rw [← cis_add_int (ctr n p * (d : ℝ) / n) ((((p : ℕ) : ℤ) - ((n / 2 : ℕ) : ℤ)) * t)]
  congr 1
  rw [ctr_int p]
  push_cast
  field_simp

theorem angKernel_mod {n : ℕ} (fp : Fin n → Fin n → ℂ) (d e t u : ℤ) : angKernel fp (d + n * t) (e + n * u) = angKernel fp d e := by
  unfold angKernel
  simp only [cis_ctr_mod]

theorem ctr_mirror {n : ℕ} (p : Fin n) : ∃ t : ℤ, ctr n (mirrorPos p) = -ctr n p + n * t := by
  obtain ⟨t, ht⟩ := mirrorPos_mod p
  refine ⟨t, ?_⟩
  unfold ctr
  have : (((mirrorPos p : ℕ) : ℤ) : ℝ) = ((2 * ((n : ℤ) / 2) - ((p : ℕ) : ℤ) + n * t : ℤ) : ℝ) := by rw [ht]
  rw [show ((n : ℤ) / 2) = ((n / 2 : ℕ) : ℤ) by omega] at this
  generalize n / 2 = c at this ⊢
  push_cast at this ⊢
  rw [this]; ring

theorem mirrorPos_cases {n : ℕ} (p : Fin n) : mirrorPos p = p ∨ ctr n (mirrorPos p) = -ctr n p := by
  obtain ⟨t, ht⟩ := mirrorPos_mod p
  have h1 := p.isLt
  have h2 := (mirrorPos p).isLt
  have ht' : t = 0 ∨ t = -1 ∨ t ≤ -2 ∨ 1 ≤ t := by omega
  rcases ht' with rfl | rfl | h | h
  · right
    unfold ctr
    have : ((mirrorPos p : ℕ) : ℤ) = 2 * ((n / 2 : ℕ) : ℤ) - ((p : ℕ) : ℤ) := by omega
    have := congrArg (Int.cast : ℤ → ℝ) this
    generalize n / 2 = c at this ⊢
    push_cast at this ⊢
    rw [this]; ring
  · left
    exact Fin.ext (by omega)
  · have h3 : (n : ℤ) * t ≤ n * (-2) := mul_le_mul_of_nonneg_left h (by omega)
    generalize (n : ℤ) * t = s at ht h3
    omega
  · have h3 : (n : ℤ) * 1 ≤ n * t := mul_le_mul_of_nonneg_left h (by omega)
    generalize (n : ℤ) * t = s at ht h3
    omega

theorem cis_mirror {n : ℕ} (p : Fin n) (d : ℤ) : cis (ctr n (mirrorPos p) * (d : ℝ) / n) = cis (ctr n p * ((-d : ℤ) : ℝ) / n) := by
  have hn : 0 < n := Nat.lt_of_le_of_lt (Nat.zero_le _) p.isLt
  have hn' : (n : ℝ) ≠ 0 := by positivity
  obtain ⟨t, ht⟩ := ctr_mirror p
  rw [ht, ← cis_add_int (ctr n p * ((-d : ℤ) : ℝ) / n) (t * d)]
  congr 1
  push_cast
  field_simp

theorem angKernel_mirror {n : ℕ} (fp : Fin n → Fin n → ℂ) (hf : ∀ p q, fp (mirrorPos p) q = fp p q) (d e : ℤ) : angKernel fp (-d) e = angKernel fp d e := by
  unfold angKernel
  congr 1
  rw [← sum_inj mirrorPos_inj (fun p => ∑ q, fp p q * (cis (ctr n p * ((-d : ℤ) : ℝ) / n) * cis (ctr n q * e / n)))]
  refine Finset.sum_congr rfl fun p _ => Finset.sum_congr rfl fun q _ => ?_
  rw [hf, cis_mirror, neg_neg]

theorem angMat_moved {n : ℕ} (fp v : Fin n → Fin n → ℂ) (ρ σ : Fin n → Fin n) (hρ : Function.Injective ρ) (hσ : Function.Injective σ)
    (hK : ∀ i a j b : Fin n, angKernel fp (((ρ i : ℕ) : ℤ) - ((ρ a : ℕ) : ℤ)) (((σ j : ℕ) : ℤ) - ((σ b : ℕ) : ℤ)) =
      angKernel fp (((i : ℕ) : ℤ) - ((a : ℕ) : ℤ)) (((j : ℕ) : ℤ) - ((b : ℕ) : ℤ))) :
    angMat fp (fun i j => v (ρ i) (σ j)) = fun i j => angMat fp v (ρ i) (σ j) := by
  funext i j
  rw [angMat_kernel, angMat_kernel]
  rw [← sum_inj hρ (fun a => ∑ b, v a b * angKernel fp (((ρ i : ℕ) : ℤ) - ((a : ℕ) : ℤ)) (((σ j : ℕ) : ℤ) - ((b : ℕ) : ℤ)))]
  refine Finset.sum_congr rfl fun a _ => ?_
  rw [← sum_inj hσ (fun b => v (ρ a) b * angKernel fp (((ρ i : ℕ) : ℤ) - ((ρ a : ℕ) : ℤ)) (((σ j : ℕ) : ℤ) - ((b : ℕ) : ℤ)))]
  refine Finset.sum_congr rfl fun b _ => ?_
  rw [hK]

theorem angMat_rolled {n : ℕ} (fp v : Fin n → Fin n → ℂ) (k l : ℤ) :
    angMat fp (fun i j => v (rollPos k i) (rollPos l j)) = fun i j => angMat fp v (rollPos k i) (rollPos l j) := by
  refine angMat_moved fp v _ _ (rollPos_inj k) (rollPos_inj l) fun i a j b => ?_
  obtain ⟨t1, h1⟩ := rollPos_mod k i
  obtain ⟨t2, h2⟩ := rollPos_mod k a
  obtain ⟨t3, h3⟩ := rollPos_mod l j
  obtain ⟨t4, h4⟩ := rollPos_mod l b
  rw [h1, h2, h3, h4, ← angKernel_mod fp (((i : ℕ) : ℤ) - ((a : ℕ) : ℤ)) (((j : ℕ) : ℤ) - ((b : ℕ) : ℤ)) (t1 - t2) (t3 - t4)]
  congr 1 <;> ring

theorem angMat_flipped {n : ℕ} (fp v : Fin n → Fin n → ℂ) (hf : ∀ p q, fp (mirrorPos p) q = fp p q) :
    angMat fp (fun i j => v (mirrorPos i) j) = fun i j => angMat fp v (mirrorPos i) j := by
  refine angMat_moved fp v _ id mirrorPos_inj Function.injective_id fun i a j b => ?_
  obtain ⟨t1, h1⟩ := mirrorPos_mod i
  obtain ⟨t2, h2⟩ := mirrorPos_mod a
  simp only [id]
  rw [h1, h2, ← angKernel_mirror fp hf (((i : ℕ) : ℤ) - ((a : ℕ) : ℤ)),
    ← angKernel_mod fp (-(((i : ℕ) : ℤ) - ((a : ℕ) : ℤ))) (((j : ℕ) : ℤ) - ((b : ℕ) : ℤ)) (t1 - t2) 0]
  congr 1 <;> ring

theorem angMat_transposed {n : ℕ} (fp v : Fin n → Fin n → ℂ) (hf : ∀ p q, fp p q = fp q p) :
    angMat fp (fun i j => v j i) = fun i j => angMat fp v j i := by
  funext i j
  rw [angMat_kernel, angMat_kernel, Finset.sum_comm]
  refine Finset.sum_congr rfl fun a _ => Finset.sum_congr rfl fun b _ => ?_
  congr 1
  unfold angKernel
  congr 1
  rw [Finset.sum_comm]
  refine Finset.sum_congr rfl fun p _ => Finset.sum_congr rfl fun q _ => ?_
  rw [hf q p, mul_comm (cis _) (cis _)]

theorem angMat_conj {n : ℕ} (fp gp v : Fin n → Fin n → ℂ) (hg : ∀ p q, gp p q = (starRingEnd ℂ) (fp p q)) (hf : ∀ p q, fp (mirrorPos p) q = fp p q)
    (hs : ∀ p q, fp p q = fp q p) : angMat gp (fun i j => (starRingEnd ℂ) (v i j)) = fun i j => (starRingEnd ℂ) (angMat fp v i j) := by
  have hK : ∀ d e : ℤ, (starRingEnd ℂ) (angKernel fp d e) = angKernel gp d e := by
    intro d e
    have hmg : ∀ p q, gp (mirrorPos p) q = gp p q := fun p q => by rw [hg, hg, hf]
    have hmg' : ∀ p q, gp p (mirrorPos q) = gp p q := fun p q => by rw [hg, hg, hs p, hf, hs]
    unfold angKernel
    simp only [map_mul, map_sum, map_div₀, map_one, map_natCast, conj_cis, ← hg]
    congr 1
    rw [← sum_inj mirrorPos_inj (fun p => ∑ q, gp p q * (cis (ctr n p * (d : ℝ) / n) * cis (ctr n q * e / n)))]
    refine Finset.sum_congr rfl fun p _ => ?_
    rw [← sum_inj mirrorPos_inj (fun q => gp (mirrorPos p) q * (cis (ctr n (mirrorPos p) * (d : ℝ) / n) * cis (ctr n q * e / n)))]
    refine Finset.sum_congr rfl fun q _ => ?_
    rw [hmg, hmg', cis_mirror, cis_mirror]
    congr 3
    · push_cast; ring
    · push_cast; ring
  funext i j
  rw [angMat_kernel, angMat_kernel]
  simp only [map_sum, map_mul, hK]

theorem phase_mirror (lam z ppm : ℝ) (n : ℕ) (p q : Fin n) : fresnelPhaseVal lam z n ppm (mirrorPos p) q = fresnelPhaseVal lam z n ppm p q := by
  rcases mirrorPos_cases p with h | h
  · rw [h]
  · rw [fresnelPhaseVal_eq, fresnelPhaseVal_eq]
    have h' : ((mirrorPos p : ℕ) : ℝ) - ((n / 2 : ℕ) : ℝ) = -(((p : ℕ) : ℝ) - ((n / 2 : ℕ) : ℝ)) := h
    rw [h']
    unfold paraxial
    congr 3
    ring

theorem phase_symm (lam z ppm : ℝ) (n : ℕ) (p q : Fin n) : fresnelPhaseVal lam z n ppm p q = fresnelPhaseVal lam z n ppm q p := by
  rw [fresnelPhaseVal_eq, fresnelPhaseVal_eq]
  unfold paraxial
  congr 3
  ring

theorem phase_conj (lam z ppm : ℝ) (n : ℕ) (p q : Fin n) : fresnelPhaseVal lam (-z) n ppm p q = (starRingEnd ℂ) (fresnelPhaseVal lam z n ppm p q) := by
  rw [fresnelPhaseVal_eq, fresnelPhaseVal_eq]
  unfold paraxial
  rw [← Complex.exp_conj]
  congr 1
  rw [map_mul, map_neg, Complex.conj_I, Complex.conj_ofReal]
  push_cast
  ring

/-- One transformation of arrays that keeps the smaller side and commutes with the operator commutes with the propagator, refusals included. -/
theorem fresnel_commutes (T : Arr2 ℂ → Arr2 ℂ) (e : Arr2 ℂ) (lam z z' ppm : ℝ) (nx : ℤ) (hz : z' = 0 ↔ z = 0) (habs : |z'| = |z|)
    (hm : min (T e).nr (T e).nc = min e.nr e.nc) (hpos : 0 < e.nr ∧ 0 < e.nc)
    (hT : ∀ n : ℕ, 0 < n → nx = n → embed ⟨n, n, angMat (fresnelPhaseVal lam z' n ppm) (embV (T e) n n 0)⟩ (T e).nr (T e).nc 0 =
      T (embed ⟨n, n, angMat (fresnelPhaseVal lam z n ppm) (embV e n n 0)⟩ e.nr e.nc 0)) :
    fresnelprop (T e) lam z' nx ppm = (fresnelprop e lam z nx ppm).map T := by
  by_cases ha : FresnelArgs lam nx ppm
  · have hp : 0 < (T e).nr ∧ 0 < (T e).nc := by omega
    obtain ⟨n, rfl⟩ : ∃ n : ℕ, nx = n := ⟨nx.toNat, by have := ha.nx; omega⟩
    have hn : 0 < n := by exact_mod_cast ha.nx
    unfold fresnelprop
    rw [fresnelChecks_ok ha]
    simp only [bind, Except.bind]
    by_cases h0 : z = 0
    · rw [if_pos h0, if_pos (hz.mpr h0)]
      rfl
    · rw [if_neg h0, if_neg (fun h => h0 (hz.mp h))]
      have hs : nSamplesMin lam z' ppm = nSamplesMin lam z ppm := by unfold nSamplesMin; rw [habs]
      have hm' : (min ((T e).nr : ℤ) (T e).nc) = min (e.nr : ℤ) e.nc := by exact_mod_cast hm
      rw [hs, hm']
      split_ifs with hlt
      · rfl
      · rw [Int.toNat_natCast]
        show angularSpectrum (T e) n ⟨n, n, fresnelPhaseVal lam z' n ppm⟩ = (angularSpectrum e n ⟨n, n, fresnelPhaseVal lam z n ppm⟩).map T
        rw [angularSpectrum_eq _ n hn hp.1 hp.2, angularSpectrum_eq _ n hn hpos.1 hpos.2, hT n hn rfl]
        rfl
  · unfold fresnelprop
    rw [fresnelChecks_err ha]
    rfl

/-- **C117, rolled field.**  On the array's own grid, propagating a rolled field gives the propagated field rolled, refusals included. -/
theorem C117_rolled (n : ℕ) (v : Fin n → Fin n → ℂ) (k l : ℤ) (lam z ppm : ℝ) :
    fresnelprop (rolled k l ⟨n, n, v⟩) lam z n ppm = (fresnelprop ⟨n, n, v⟩ lam z n ppm).map (rolled k l) := by
  by_cases hn : 0 < n
  · refine fresnel_commutes (rolled k l) ⟨n, n, v⟩ lam z z ppm n Iff.rfl rfl rfl ⟨hn, hn⟩ fun n' _ h => ?_
    have h' : n = n' := by exact_mod_cast h
    subst h'
    show embed ⟨n, n, angMat _ (embV ⟨n, n, fun i j => v (rollPos k i) (rollPos l j)⟩ n n 0)⟩ n n 0 = rolled k l (embed ⟨n, n, angMat _ (embV ⟨n, n, v⟩ n n 0)⟩ n n 0)
    rw [embV_self, embV_self, embed_self, embed_self, angMat_rolled]
    rfl
  · have : ¬ FresnelArgs lam (n : ℤ) ppm := fun h => hn (by exact_mod_cast h.nx)
    unfold fresnelprop
    rw [fresnelChecks_err this]
    rfl

theorem mirrorPos_val {n : ℕ} (i : Fin n) :
    ((mirrorPos i : ℕ) : ℤ) = if 2 * ((n : ℤ) / 2) - ((i : ℕ) : ℤ) < n then 2 * ((n : ℤ) / 2) - ((i : ℕ) : ℤ) else ((i : ℕ) : ℤ) := by
  obtain ⟨t, ht⟩ := mirrorPos_mod i
  have h1 := i.isLt
  have h2 := (mirrorPos i).isLt
  have ht' : t = 0 ∨ t = -1 ∨ t ≤ -2 ∨ 1 ≤ t := by omega
  rcases ht' with rfl | rfl | h | h
  · split_ifs <;> omega
  · split_ifs <;> omega
  · have h3 : (n : ℤ) * t ≤ n * (-2) := mul_le_mul_of_nonneg_left h (by omega)
    generalize (n : ℤ) * t = s at ht h3
    omega
  · have h3 : (n : ℤ) * 1 ≤ n * t := mul_le_mul_of_nonneg_left h (by omega)
    generalize (n : ℤ) * t = s at ht h3
    omega

theorem px_flipped (a : Arr2 ℂ) (i j : ℤ) (h : 0 ≤ i ∧ i < a.nr) :
    (flippedRows a).px i j = a.px (if 2 * ((a.nr : ℤ) / 2) - i < a.nr then 2 * ((a.nr : ℤ) / 2) - i else i) j := by
  by_cases hj : 0 ≤ j ∧ j < a.nc
  · have e1 : (flippedRows a).px i j = some (a.val (mirrorPos ⟨i.toNat, by omega⟩) ⟨j.toNat, by omega⟩) := by
      rw [Arr2.px_of_inB _ (by exact ⟨h, hj⟩)]
      rfl
    rw [e1, ← Arr2.px_val a, mirrorPos_val]
    simp only
    rw [Int.toNat_of_nonneg h.1, Int.toNat_of_nonneg hj.1]
  · rw [Arr2.px_of_not_inB (flippedRows a) (fun hb => hj hb.2), Arr2.px_of_not_inB a (fun hb => hj hb.2)]

theorem px_transposed (a : Arr2 ℂ) (i j : ℤ) : (transposed a).px i j = a.px j i := by
  by_cases h : (0 ≤ j ∧ j < a.nr) ∧ (0 ≤ i ∧ i < a.nc)
  · rw [Arr2.px_of_inB a h, Arr2.px_of_inB (transposed a) (by exact ⟨h.2, h.1⟩)]
    rfl
  · rw [Arr2.px_of_not_inB a h, Arr2.px_of_not_inB (transposed a) (fun hb => h ⟨hb.2, hb.1⟩)]

theorem embed_transposed (a : Arr2 ℂ) (h w : ℕ) : embed (transposed a) w h 0 = transposed (embed a h w 0) := by
  unfold embed Arr2.ofFn
  show (⟨w, h, _⟩ : Arr2 ℂ) = ⟨w, h, _⟩
  refine congrArg (Arr2.mk w h) (funext fun i => funext fun j => ?_)
  simp only [px_transposed]
  rfl

theorem embed_conjugated (a : Arr2 ℂ) (h w : ℕ) : embed (conjugated a) h w 0 = conjugated (embed a h w 0) := by
  unfold embed Arr2.ofFn
  show (⟨h, w, _⟩ : Arr2 ℂ) = ⟨h, w, _⟩
  refine congrArg (Arr2.mk h w) (funext fun i => funext fun j => ?_)
  show ((a.map (starRingEnd ℂ)).px (((i : ℕ) : ℤ) - (h : ℤ) / 2 + (a.nr : ℤ) / 2) (((j : ℕ) : ℤ) - (w : ℤ) / 2 + (a.nc : ℤ) / 2)).getD 0 =
    (starRingEnd ℂ) ((a.px (((i : ℕ) : ℤ) - (h : ℤ) / 2 + (a.nr : ℤ) / 2) (((j : ℕ) : ℤ) - (w : ℤ) / 2 + (a.nc : ℤ) / 2)).getD 0)
  rw [Arr2.px_map]
  cases a.px (((i : ℕ) : ℤ) - (h : ℤ) / 2 + (a.nr : ℤ) / 2) (((j : ℕ) : ℤ) - (w : ℤ) / 2 + (a.nc : ℤ) / 2) <;> simp

/-- An axis of `m` pixels and one of `n` whose centred mirror images fit each other. -/
def MirrorFits (m n : ℕ) : Prop := m = n ∨ (m % 2 = 1 ∧ m ≤ n) ∨ (n % 2 = 1 ∧ n ≤ m)

theorem embed_flipped (a : Arr2 ℂ) (h w : ℕ) (hf : MirrorFits a.nr h) : embed (flippedRows a) h w 0 = flippedRows (embed a h w 0) := by
  unfold embed Arr2.ofFn
  show (⟨h, w, _⟩ : Arr2 ℂ) = ⟨h, w, _⟩
  refine congrArg (Arr2.mk h w) (funext fun i => funext fun j => ?_)
  show ((flippedRows a).px (((i : ℕ) : ℤ) - (h : ℤ) / 2 + (a.nr : ℤ) / 2) (((j : ℕ) : ℤ) - (w : ℤ) / 2 + (a.nc : ℤ) / 2)).getD 0 =
    (a.px (((mirrorPos i : ℕ) : ℤ) - (h : ℤ) / 2 + (a.nr : ℤ) / 2) (((j : ℕ) : ℤ) - (w : ℤ) / 2 + (a.nc : ℤ) / 2)).getD 0
  have hv := mirrorPos_val i
  have hi := i.isLt
  unfold MirrorFits at hf
  by_cases hin : 0 ≤ ((i : ℕ) : ℤ) - (h : ℤ) / 2 + (a.nr : ℤ) / 2 ∧ ((i : ℕ) : ℤ) - (h : ℤ) / 2 + (a.nr : ℤ) / 2 < a.nr
  · rw [px_flipped a _ _ hin]
    congr 2
    rw [hv]
    split_ifs <;> omega
  · rw [Arr2.px_of_not_inB (flippedRows a) (fun hb => hin hb.1), Arr2.px_of_not_inB a (fun hb => by
      have := hb.1
      rw [hv] at this
      split_ifs at this <;> omega)]

/-- **C117, mirrored field.**  Propagating a field turned upside down about its centre row gives the propagated field upside down, on the array's own grid for
every size and, for an odd number of rows, on every larger grid. -/
theorem C117_upside_down (e : Arr2 ℂ) (lam z ppm : ℝ) (nx : ℤ) (hpos : 0 < e.nr ∧ 0 < e.nc) (hf : (e.nr : ℤ) = nx ∨ (e.nr % 2 = 1 ∧ (e.nr : ℤ) ≤ nx)) :
    fresnelprop (flippedRows e) lam z nx ppm = (fresnelprop e lam z nx ppm).map flippedRows := by
  refine fresnel_commutes flippedRows e lam z z ppm nx Iff.rfl rfl rfl hpos fun n hn h => ?_
  have h1 : embV (flippedRows e) n n 0 = fun i j => embV e n n 0 (mirrorPos i) j := by
    have t := embed_flipped e n n (by unfold MirrorFits; omega)
    have t' : (⟨n, n, embV (flippedRows e) n n 0⟩ : Arr2 ℂ) = ⟨n, n, fun i j => embV e n n 0 (mirrorPos i) j⟩ := t
    injection t' with _ _ t3
  rw [h1, angMat_flipped _ _ (phase_mirror lam z ppm n)]
  exact embed_flipped ⟨n, n, angMat (fresnelPhaseVal lam z n ppm) (embV e n n 0)⟩ e.nr e.nc (by
    show n = e.nr ∨ (n % 2 = 1 ∧ n ≤ e.nr) ∨ (e.nr % 2 = 1 ∧ e.nr ≤ n)
    omega)

/-- **C117, transposed field.**  Propagating the transposed field gives the propagated field transposed, for every shape and grid. -/
theorem C117_transposed (e : Arr2 ℂ) (lam z ppm : ℝ) (nx : ℤ) (hpos : 0 < e.nr ∧ 0 < e.nc) :
    fresnelprop (transposed e) lam z nx ppm = (fresnelprop e lam z nx ppm).map transposed := by
  refine fresnel_commutes transposed e lam z z ppm nx Iff.rfl rfl (min_comm _ _) hpos fun n hn h => ?_
  have h1 : embV (transposed e) n n 0 = fun i j => embV e n n 0 j i := by
    have t' : (⟨n, n, embV (transposed e) n n 0⟩ : Arr2 ℂ) = ⟨n, n, fun i j => embV e n n 0 j i⟩ := embed_transposed e n n
    injection t' with _ _ t3
  rw [h1, angMat_transposed _ _ (phase_symm lam z ppm n)]
  exact embed_transposed ⟨n, n, angMat (fresnelPhaseVal lam z n ppm) (embV e n n 0)⟩ e.nr e.nc

theorem flippedCols_eq (e : Arr2 ℂ) : flippedCols e = transposed (flippedRows (transposed e)) := rfl

/-- **C117, mirrored field.**  The same left to right. -/
theorem C117_left_right (e : Arr2 ℂ) (lam z ppm : ℝ) (nx : ℤ) (hpos : 0 < e.nr ∧ 0 < e.nc) (hf : (e.nc : ℤ) = nx ∨ (e.nc % 2 = 1 ∧ (e.nc : ℤ) ≤ nx)) :
    fresnelprop (flippedCols e) lam z nx ppm = (fresnelprop e lam z nx ppm).map flippedCols := by
  rw [flippedCols_eq, C117_transposed (flippedRows (transposed e)) lam z ppm nx ⟨hpos.2, hpos.1⟩,
    C117_upside_down (transposed e) lam z ppm nx ⟨hpos.2, hpos.1⟩ hf, C117_transposed e lam z ppm nx hpos]
  cases fresnelprop e lam z nx ppm <;> rfl

/-- **C117, conjugated field.**  Propagating the conjugated field the other way gives the conjugated propagated field, for every shape and grid. -/
theorem C117_conjugated (e : Arr2 ℂ) (lam z ppm : ℝ) (nx : ℤ) (hpos : 0 < e.nr ∧ 0 < e.nc) :
    fresnelprop (conjugated e) lam (-z) nx ppm = (fresnelprop e lam z nx ppm).map conjugated := by
  refine fresnel_commutes conjugated e lam z (-z) ppm nx neg_eq_zero (abs_neg z) rfl hpos fun n hn h => ?_
  have h1 : embV (conjugated e) n n 0 = fun i j => (starRingEnd ℂ) (embV e n n 0 i j) := by
    have t' : (⟨n, n, embV (conjugated e) n n 0⟩ : Arr2 ℂ) = ⟨n, n, fun i j => (starRingEnd ℂ) (embV e n n 0 i j)⟩ := embed_conjugated e n n
    injection t' with _ _ t3
  rw [h1, angMat_conj _ _ _ (phase_conj lam z ppm n) (phase_mirror lam z ppm n) (phase_symm lam z ppm n)]
  exact embed_conjugated ⟨n, n, angMat (fresnelPhaseVal lam z n ppm) (embV e n n 0)⟩ e.nr e.nc

/-! ### What the operations do to a 4 by 4 and a 3 by 3 array, and fields that do propagate -/

example : (List.finRange 4).map (rollPos 1) = [(3 : Fin 4), 0, 1, 2] ∧ (List.finRange 4).map mirrorPos = [(0 : Fin 4), 3, 2, 1] ∧
    (List.finRange 3).map mirrorPos = [(2 : Fin 3), 1, 0] := by decide

/-- A wave of two periods down and none across 8 pixels, rolled by one row, propagates: the hypothesis-free statements are about more than refusals. -/
example : ∃ f, fresnelprop (rolled 1 0 (planeWave 8 2 0)) (1 / 2) 1 8 4 = .ok f := by
  have h := C104_plane_wave 8 2 0 (1 / 2) 1 4 ⟨by norm_num, by norm_num, by norm_num⟩ (by unfold Sampled; norm_num) (by unfold Reaches; norm_num)
  have h' : fresnelprop ⟨8, 8, planeVal 8 2 0⟩ (1 / 2) 1 (8 : ℕ) 4 = _ := h
  have t := C117_rolled 8 (planeVal 8 2 0) 1 0 (1 / 2) 1 4
  rw [h'] at t
  exact ⟨_, t⟩

/-- An odd array on a larger grid. -/
example : ((9 : ℕ) : ℤ) = 16 ∨ (9 % 2 = 1 ∧ ((9 : ℕ) : ℤ) ≤ 16) := by norm_num

end Coralign.Props
