import Verif.Spec.HlcOcculter
import Verif.Props.Lateral
import Verif.Props.Conjugate

/-!
# Fourier resampling in closed form (used for C85)
-/

namespace Coralign.Props

open Coralign Coralign.Spec

/-- Zero-extended complex pixels. -/
noncomputable def atC (a : Arr2 ℂ) (p q : ℤ) : ℂ := (a.centered p q).getD 0

theorem atC_out {a : Arr2 ℂ} {p q : ℤ} (h : ¬ Reaches a.nr a.nc p q) : atC a p q = 0 := by
  unfold atC Arr2.centered
  rw [Arr2.px_of_not_inB a h]
  rfl

theorem atC_val (e : Arr2 ℂ) (i : Fin e.nr) (j : Fin e.nc) : e.val i j = atC e ((i : ℕ) - (e.nr : ℤ) / 2) ((j : ℕ) - (e.nc : ℤ) / 2) := by
  unfold atC Arr2.centered
  rw [show (e.nr : ℤ) / 2 + ((i : ℕ) - (e.nr : ℤ) / 2) = ((i : ℕ) : ℤ) by omega,
    show (e.nc : ℤ) / 2 + ((j : ℕ) - (e.nc : ℤ) / 2) = ((j : ℕ) : ℤ) by omega, Arr2.px_val]
  rfl

theorem reaches_window {n m : ℕ} {k l : ℤ} : Reaches n m k l ↔ k ∈ window n ∧ l ∈ window m := by
  rw [mem_window, mem_window]
  rfl

theorem some_atC {a : Arr2 ℂ} {k l : ℤ} (h : Reaches a.nr a.nc k l) : a.centered k l = some (atC a k l) := by
  unfold atC Arr2.centered
  rw [Arr2.px_of_inB a h]
  rfl

/-- The signed offset of an index. -/
theorem ctr_eq (n : ℕ) (i : Fin n) : ctr n i = ((((i : ℕ) : ℤ) - (n : ℤ) / 2 : ℤ) : ℝ) := by
  unfold ctr
  have : ((i : ℕ) : ℤ) - (n : ℤ) / 2 = ((i : ℕ) : ℤ) - ((n / 2 : ℕ) : ℤ) := by omega
  rw [this]
  push_cast
  rfl

theorem ctr_mk (n : ℕ) (k : ℤ) (h : k ∈ window n) (hk : ((n : ℤ) / 2 + k).toNat < n) : ctr n ⟨((n : ℤ) / 2 + k).toNat, hk⟩ = k := by
  rw [mem_window] at h
  rw [ctr_eq]
  congr 1
  show ((((n : ℤ) / 2 + k).toNat : ℕ) : ℤ) - (n : ℤ) / 2 = k
  omega

theorem fft_at (e : Arr2 ℂ) (k l : ℤ) (hk : k ∈ window e.nr) (hl : l ∈ window e.nc) :
    atC (doFft e) k l = ∑ i ∈ window e.nr, ∑ j ∈ window e.nc, atC e i j * (cis (-(k * i / e.nr)) * cis (-(l * j / e.nc))) := by
  have hR := reaches_window.mpr ⟨hk, hl⟩
  rw [doFft_eq]
  have e1 := Arr2.px_of_inB (⟨e.nr, e.nc, fmat e.nr * Matrix.of e.val * fmat e.nc⟩ : Arr2 ℂ) (i := (e.nr : ℤ) / 2 + k) (j := (e.nc : ℤ) / 2 + l) hR
  have e2 : atC (⟨e.nr, e.nc, fmat e.nr * Matrix.of e.val * fmat e.nc⟩ : Arr2 ℂ) k l = _ := congrArg (fun o => Option.getD o 0) e1
  rw [e2, Option.getD_some]
  refine Eq.trans (mul3_apply _ _ _ _ _) ?_
  rw [← sum_spec_window e.nr]
  refine Finset.sum_congr rfl fun i _ => ?_
  rw [← sum_spec_window e.nc]
  refine Finset.sum_congr rfl fun j _ => ?_
  rw [Matrix.of_apply, atC_val e i j]
  simp only [fmat, ctr_mk _ _ hk, ctr_mk _ _ hl]
  rw [ctr_eq, ctr_eq, mul_comm (((((j : ℕ) : ℤ) - (e.nc : ℤ) / 2 : ℤ)) : ℝ) (l : ℝ)]
  ring

theorem ifft_at (e : Arr2 ℂ) (k l : ℤ) (hk : k ∈ window e.nr) (hl : l ∈ window e.nc) :
    atC (doIfft e) k l = (∑ i ∈ window e.nr, ∑ j ∈ window e.nc, atC e i j * (cis (k * i / e.nr) * cis (l * j / e.nc))) / (e.nr * e.nc : ℂ) := by
  have hR := reaches_window.mpr ⟨hk, hl⟩
  rw [doIfft_eq]
  have e1 := Arr2.px_of_inB (⟨e.nr, e.nc, (1 / ((e.nr : ℂ) * e.nc)) • ((fmat e.nr).conjTranspose * Matrix.of e.val * (fmat e.nc).conjTranspose)⟩ : Arr2 ℂ)
    (i := (e.nr : ℤ) / 2 + k) (j := (e.nc : ℤ) / 2 + l) hR
  have e2 : atC (⟨e.nr, e.nc, (1 / ((e.nr : ℂ) * e.nc)) • ((fmat e.nr).conjTranspose * Matrix.of e.val * (fmat e.nc).conjTranspose)⟩ : Arr2 ℂ) k l = _ :=
    congrArg (fun o => Option.getD o 0) e1
  rw [e2, Option.getD_some]
  refine Eq.trans (Matrix.smul_apply _ _ _ _) ?_
  rw [smul_eq_mul, one_div, inv_mul_eq_div]
  congr 1
  refine Eq.trans (mul3_apply _ _ _ _ _) ?_
  rw [← sum_spec_window e.nr]
  refine Finset.sum_congr rfl fun i _ => ?_
  rw [← sum_spec_window e.nc]
  refine Finset.sum_congr rfl fun j _ => ?_
  rw [Matrix.of_apply, atC_val e i j]
  simp only [fmat, Matrix.conjTranspose_apply, RCLike.star_def, conj_cis, neg_neg, ctr_mk _ _ hk, ctr_mk _ _ hl]
  rw [ctr_eq, ctr_eq, mul_comm (((((i : ℕ) : ℤ) - (e.nr : ℤ) / 2 : ℤ)) : ℝ) (k : ℝ)]
  ring

theorem window_min (M E : ℕ) (u : ℤ) : u ∈ window (min M E) ↔ u ∈ window M ∧ u ∈ window E := by
  rw [mem_window, mem_window, mem_window]
  rcases le_total M E with h | h
  · rw [min_eq_left h]; omega
  · rw [min_eq_right h]; omega

theorem bandKernel_cis (n M : ℕ) (x : ℝ) : bandKernel n M x = ∑ u ∈ window n, cis (u * x / M) := by
  unfold bandKernel cis
  refine Finset.sum_congr rfl fun u _ => ?_
  congr 1
  push_cast
  ring

/-- Inverse transform, centred crop or zero pad of the spectrum, forward transform. -/
theorem resample_at (e : Arr2 ℂ) (M E : ℕ) (hM : e.nr = M ∧ e.nc = M) (hM0 : 0 < M) (hE0 : 0 < E) (ft : Arr2 ℂ)
    (h : padCrop (doIfft e) [(E : ℤ), E] 0 = .ok ft) (a b : ℤ) (ha : a ∈ window E) (hb : b ∈ window E) :
    atC (doFft ft) a b = bandSample (atC e) M E a b := by
  obtain ⟨h1, h2, h3⟩ := crop_at h
  have f1 : ft.nr = E := by exact_mod_cast h1
  have f2 : ft.nc = E := by exact_mod_cast h2
  obtain ⟨m1, m2⟩ := hM
  have hMR : (M : ℝ) ≠ 0 := by positivity
  have hMC : (M : ℂ) ≠ 0 := by exact_mod_cast hM0.ne'
  have hER : (E : ℝ) ≠ 0 := by positivity
  rw [fft_at ft a b (by rwa [f1]) (by rwa [f2]), f1, f2]
  have hin : ∀ u ∈ window E, ∀ v ∈ window E, atC ft u v = atC (doIfft e) u v := by
    intro u hu v hv
    have := h3 u v (reaches_window.mpr ⟨hu, hv⟩)
    unfold atC
    rw [this]
    rfl
  have step : (∑ i ∈ window E, ∑ j ∈ window E, atC ft i j * (cis (-(a * i / E)) * cis (-(b * j / E)))) =
      ∑ i ∈ window (min M E), ∑ j ∈ window (min M E), atC (doIfft e) i j * (cis (-(a * i / E)) * cis (-(b * j / E))) := by
    have hsub : window (min M E) ⊆ window E := fun u hu => ((window_min M E u).mp hu).2
    have hz : ∀ u v, u ∉ window M ∨ v ∉ window M → atC (doIfft e) u v = 0 := by
      intro u v huv
      apply atC_out
      rw [doIfft_nr, doIfft_nc, m1, m2, reaches_window]
      tauto
    symm
    refine (Finset.sum_subset hsub ?_).trans ?_
    · intro u hu hu'
      refine Finset.sum_eq_zero fun v hv => ?_
      rw [hz u v (Or.inl fun hm => hu' ((window_min M E u).mpr ⟨hm, hu⟩)), zero_mul]
    · refine Finset.sum_congr rfl fun u hu => ?_
      refine (Finset.sum_subset hsub ?_).trans ?_
      · intro v hv hv'
        rw [hz u v (Or.inr fun hm => hv' ((window_min M E v).mpr ⟨hm, hv⟩)), zero_mul]
      · refine Finset.sum_congr rfl fun v hv => ?_
        rw [hin u hu v hv]
  rw [step]
  unfold bandSample
  have st2 : ∀ u ∈ window (min M E), ∀ v ∈ window (min M E),
      atC (doIfft e) u v * (cis (-(a * u / E)) * cis (-(b * v / E))) =
        ∑ i ∈ window M, ∑ j ∈ window M, (atC e i j / (M : ℂ) ^ 2) * (cis (u * (i - a * M / E) / M) * cis (v * (j - b * M / E) / M)) := by
    intro u hu v hv
    rw [ifft_at e u v (by rw [m1]; exact ((window_min M E u).mp hu).1) (by rw [m2]; exact ((window_min M E v).mp hv).1), m1, m2,
      div_mul_eq_mul_div, Finset.sum_mul, Finset.sum_div]
    refine Finset.sum_congr rfl fun i _ => ?_
    rw [Finset.sum_mul, Finset.sum_div]
    refine Finset.sum_congr rfl fun j _ => ?_
    rw [show (u * (i - a * M / E) / M : ℝ) = u * i / M + -(a * u / E) by field_simp; ring,
      show (v * (j - b * M / E) / M : ℝ) = v * j / M + -(b * v / E) by field_simp; ring, cis_add, cis_add]
    field_simp
  rw [Finset.sum_congr rfl fun u hu => Finset.sum_congr rfl fun v hv => st2 u hu v hv, Finset.sum_div]
  simp_rw [Finset.sum_div]
  -- exchange the sums
  calc (∑ u ∈ window (min M E), ∑ v ∈ window (min M E), ∑ i ∈ window M, ∑ j ∈ window M,
          (atC e i j / (M : ℂ) ^ 2) * (cis (u * (i - a * M / E) / M) * cis (v * (j - b * M / E) / M)))
      = ∑ i ∈ window M, ∑ j ∈ window M, ∑ u ∈ window (min M E), ∑ v ∈ window (min M E),
          (atC e i j / (M : ℂ) ^ 2) * (cis (u * (i - a * M / E) / M) * cis (v * (j - b * M / E) / M)) := by
        rw [Finset.sum_congr rfl fun u _ => Finset.sum_comm, Finset.sum_comm]
        refine Finset.sum_congr rfl fun i _ => ?_
        rw [Finset.sum_congr rfl fun u _ => Finset.sum_comm, Finset.sum_comm]
    _ = _ := by
        refine Finset.sum_congr rfl fun i _ => Finset.sum_congr rfl fun j _ => ?_
        rw [bandKernel_cis, bandKernel_cis, Finset.sum_mul_sum, Finset.mul_sum, Finset.sum_div]
        refine Finset.sum_congr rfl fun u _ => ?_
        rw [Finset.mul_sum, Finset.sum_div]
        refine Finset.sum_congr rfl fun v _ => ?_
        ring

/-- Orthogonality over a centred window. -/
theorem sum_window_cis (n : ℕ) (hn : 0 < n) (d : ℤ) : ∑ i ∈ window n, cis ((d : ℝ) * i / n) = if (n : ℤ) ∣ d then (n : ℂ) else 0 := by
  rw [← sum_spec_window n (fun i => cis ((d : ℝ) * i / n))]
  have : ∀ i : Fin n, cis ((d : ℝ) * ((((i : ℕ) : ℤ) - (n : ℤ) / 2 : ℤ) : ℝ) / n) = cis ((i : ℕ) * (d / n : ℝ)) * cis (-((d : ℝ) * ((n : ℤ) / 2 : ℤ) / n)) := by
    intro i
    rw [← cis_add]
    congr 1
    push_cast
    ring
  rw [Finset.sum_congr rfl fun i _ => this i, ← Finset.sum_mul, sum_cis n hn d]
  split
  · next h =>
    obtain ⟨c, rfl⟩ := h
    have hn' : (n : ℝ) ≠ 0 := by positivity
    have : -((((n : ℤ) * c : ℤ) : ℝ) * (((n : ℤ) / 2 : ℤ) : ℝ) / n) = ((-(c * ((n : ℤ) / 2)) : ℤ) : ℝ) := by
      push_cast
      field_simp
    rw [this, cis_int, mul_one]
  · rw [zero_mul]

theorem window_dvd {n : ℕ} {u : ℤ} (h : u ∈ window n) : (n : ℤ) ∣ u ↔ u = 0 := by
  rw [mem_window] at h
  constructor
  · intro hd
    apply Int.eq_zero_of_abs_lt_dvd hd
    rw [abs_lt]
    omega
  · rintro rfl; exact dvd_zero _

theorem zero_window {n : ℕ} (hn : 0 < n) : (0 : ℤ) ∈ window n := by
  rw [mem_window]; omega

/-- The kernels of all input samples add up to `M`. -/
theorem bandKernel_input (M E : ℕ) (hM : 0 < M) (hE : 0 < E) (a : ℝ) : ∑ i ∈ window M, bandKernel (min M E) M (i - a) = M := by
  simp_rw [bandKernel_cis]
  rw [Finset.sum_comm]
  have : ∀ u ∈ window (min M E), ∑ i ∈ window M, cis (u * ((i : ℝ) - a) / M) = if u = 0 then (M : ℂ) else 0 := by
    intro u hu
    have e : ∀ i : ℤ, cis (u * ((i : ℝ) - a) / M) = cis ((u : ℝ) * i / M) * cis (-(u * a / M)) := by
      intro i; rw [← cis_add]; congr 1; ring
    rw [Finset.sum_congr rfl fun i _ => e i, ← Finset.sum_mul, sum_window_cis M hM u]
    simp only [window_dvd ((window_min M E u).mp hu).1]
    split
    · next h => rw [h]; simp
    · rw [zero_mul]
  rw [Finset.sum_congr rfl this, Finset.sum_ite_eq', if_pos (zero_window (lt_min hM hE))]

/-- The kernels of one input sample over all output samples add up to `E`. -/
theorem bandKernel_output (M E : ℕ) (hM : 0 < M) (hE : 0 < E) (x : ℝ) : ∑ a ∈ window E, bandKernel (min M E) M (x - a * M / E) = E := by
  simp_rw [bandKernel_cis]
  rw [Finset.sum_comm]
  have hMR : (M : ℝ) ≠ 0 := by positivity
  have hER : (E : ℝ) ≠ 0 := by positivity
  have : ∀ u ∈ window (min M E), ∑ a ∈ window E, cis (u * (x - a * M / E) / M) = if u = 0 then (E : ℂ) else 0 := by
    intro u hu
    have e : ∀ i : ℤ, cis (u * (x - i * M / E) / M) = cis (((-u : ℤ) : ℝ) * i / E) * cis (u * x / M) := by
      intro i; rw [← cis_add]; congr 1; push_cast; field_simp; ring
    rw [Finset.sum_congr rfl fun i _ => e i, ← Finset.sum_mul, sum_window_cis E hE (-u)]
    simp only [dvd_neg, window_dvd ((window_min M E u).mp hu).2]
    split
    · next h => rw [h]; simp
    · rw [zero_mul]
  rw [Finset.sum_congr rfl this, Finset.sum_ite_eq', if_pos (zero_window (lt_min hM hE))]

/-- With the same number of samples the kernel is the identity. -/
theorem bandKernel_same (M : ℕ) (hM : 0 < M) (d : ℤ) (hd : (M : ℤ) ∣ d ↔ d = 0) : bandKernel M M d = if d = 0 then (M : ℂ) else 0 := by
  rw [bandKernel_cis]
  have : ∀ u : ℤ, cis (u * (d : ℝ) / M) = cis ((d : ℝ) * u / M) := fun u => by rw [mul_comm]
  rw [Finset.sum_congr rfl fun u _ => this u, sum_window_cis M hM d]
  simp only [hd]

theorem bandSample_add (f g : ℤ → ℤ → ℂ) (M E : ℕ) (a b : ℤ) :
    bandSample (fun i j => f i j + g i j) M E a b = bandSample f M E a b + bandSample g M E a b := by
  unfold bandSample
  rw [← add_div, ← Finset.sum_add_distrib]
  congr 1
  refine Finset.sum_congr rfl fun i _ => ?_
  rw [← Finset.sum_add_distrib]
  refine Finset.sum_congr rfl fun j _ => ?_
  ring

theorem bandSample_congr {f g : ℤ → ℤ → ℂ} (M E : ℕ) (h : ∀ i ∈ window M, ∀ j ∈ window M, f i j = g i j) (a b : ℤ) :
    bandSample f M E a b = bandSample g M E a b := by
  unfold bandSample
  congr 1
  exact Finset.sum_congr rfl fun i hi => Finset.sum_congr rfl fun j hj => by rw [h i hi j hj]

/-- A constant field is resampled to itself. -/
theorem bandSample_const (c : ℂ) (M E : ℕ) (hM : 0 < M) (hE : 0 < E) (a b : ℤ) : bandSample (fun _ _ => c) M E a b = c := by
  unfold bandSample
  have hMC : (M : ℂ) ≠ 0 := by exact_mod_cast hM.ne'
  have : ∀ i ∈ window M, ∑ j ∈ window M, c * (bandKernel (min M E) M (i - a * M / E) * bandKernel (min M E) M (j - b * M / E)) =
      c * bandKernel (min M E) M (i - a * M / E) * M := by
    intro i _
    rw [← Finset.mul_sum, ← Finset.mul_sum, bandKernel_input M E hM hE]
    ring
  rw [Finset.sum_congr rfl this, ← Finset.sum_mul, ← Finset.mul_sum, bandKernel_input M E hM hE]
  field_simp

/-- The mean over the output grid is the mean over the input grid. -/
theorem bandSample_mean (g : ℤ → ℤ → ℂ) (M E : ℕ) (hM : 0 < M) (hE : 0 < E) :
    (∑ a ∈ window E, ∑ b ∈ window E, bandSample g M E a b) / (E : ℂ) ^ 2 = (∑ i ∈ window M, ∑ j ∈ window M, g i j) / (M : ℂ) ^ 2 := by
  have hMC : (M : ℂ) ≠ 0 := by exact_mod_cast hM.ne'
  have hEC : (E : ℂ) ≠ 0 := by exact_mod_cast hE.ne'
  unfold bandSample
  have : (∑ a ∈ window E, ∑ b ∈ window E,
      (∑ i ∈ window M, ∑ j ∈ window M, g i j * (bandKernel (min M E) M (i - a * M / E) * bandKernel (min M E) M (j - b * M / E))) / (M : ℂ) ^ 2) =
      (∑ i ∈ window M, ∑ j ∈ window M, g i j * ((E : ℂ) * E)) / (M : ℂ) ^ 2 := by
    simp_rw [← Finset.sum_div]
    congr 1
    rw [Finset.sum_congr rfl fun a _ => Finset.sum_comm, Finset.sum_comm]
    refine Finset.sum_congr rfl fun i _ => ?_
    rw [Finset.sum_congr rfl fun a _ => Finset.sum_comm, Finset.sum_comm]
    refine Finset.sum_congr rfl fun j _ => ?_
    simp_rw [← Finset.mul_sum]
    rw [← Finset.sum_mul, bandKernel_output M E hM hE, bandKernel_output M E hM hE]
  rw [this]
  simp_rw [← Finset.sum_mul]
  field_simp

/-- Same number of samples: the resampling does nothing. -/
theorem bandSample_same (g : ℤ → ℤ → ℂ) (M : ℕ) (hM : 0 < M) (a b : ℤ) (ha : a ∈ window M) (hb : b ∈ window M) : bandSample g M M a b = g a b := by
  unfold bandSample
  have hMR : (M : ℝ) ≠ 0 := by positivity
  have hMC : (M : ℂ) ≠ 0 := by exact_mod_cast hM.ne'
  have key : ∀ i ∈ window M, ∀ a ∈ window M, bandKernel (min M M) M ((i : ℝ) - a * M / M) = if i = a then (M : ℂ) else 0 := by
    intro i hi a ha
    rw [min_self, mul_div_cancel_right₀ _ hMR, show (i : ℝ) - a = ((i - a : ℤ) : ℝ) by push_cast; ring, bandKernel_same M hM]
    · simp only [sub_eq_zero]
    · rw [mem_window] at hi ha
      constructor
      · intro hd
        apply Int.eq_zero_of_abs_lt_dvd hd
        rw [abs_lt]
        omega
      · intro h; rw [h]; exact dvd_zero _
  rw [Finset.sum_congr rfl fun i hi => Finset.sum_congr rfl fun j hj => by rw [key i hi a ha, key j hj b hb]]
  simp only [ite_mul, zero_mul, mul_ite, mul_zero]
  rw [Finset.sum_eq_single a]
  · simp only [if_true]
    rw [Finset.sum_ite_eq', if_pos hb]
    field_simp
  · intro i _ hi
    simp [hi]
  · intro h; exact absurd ha h

end Coralign.Props
