import Verif.Model.Fresnel
import Verif.Lemmas.PadCrop
import Verif.Lemmas.Fft
import Mathlib.Tactic.Linarith
import Mathlib.Tactic.Positivity

/-!
# Property C20: angular-spectrum (Fresnel) propagation
-/

namespace Coralign.Props

open Coralign

/-- Specification: scalar arguments a propagation accepts. -/
structure FresnelArgs (lam : ℝ) (nx : ℤ) (ppm : ℝ) : Prop where
  lam : 0 < lam
  nx : 0 < nx
  ppm : 0 < ppm

/-- Specification: an `n`-sample grid resolves the propagation by `z`. -/
def Sampled (n : ℕ) (lam z ppm : ℝ) : Prop := lam * |z| * ppm ^ 2 ≤ n

theorem nSamplesMin_le (n : ℕ) (lam z ppm : ℝ) : nSamplesMin lam z ppm ≤ n ↔ Sampled n lam z ppm := by
  unfold nSamplesMin Sampled
  rw [Int.ceil_le]
  simp

theorem fresnelChecks_ok {lam : ℝ} {nx : ℤ} {ppm : ℝ} (h : FresnelArgs lam nx ppm) : fresnelChecks lam nx ppm = .ok () := by
  unfold fresnelChecks
  rw [if_neg (not_le.mpr h.lam), if_neg (not_le.mpr h.nx), if_neg (not_le.mpr h.ppm)]

theorem fresnelChecks_err {lam : ℝ} {nx : ℤ} {ppm : ℝ} (h : ¬ FresnelArgs lam nx ppm) :
    fresnelChecks lam nx ppm = .error .typeError := by
  unfold fresnelChecks
  split; · rfl
  split; · rfl
  split; · rfl
  next h1 h2 h3 => exact absurd ⟨not_le.mp h1, not_le.mp h2, not_le.mp h3⟩ h

/-- The linear operator applied by the tail of both propagators, on `n×m` matrices. -/
noncomputable def angMat {n : ℕ} (fp v : Fin n → Fin n → ℂ) : Fin n → Fin n → ℂ :=
  (1 / ((n : ℂ) * n)) • ((fmat n).conjTranspose * Matrix.of (fun i j => (fmat n * Matrix.of v * fmat n) i j * fp i j) *
    (fmat n).conjTranspose)

theorem fft_angMat {n : ℕ} (hn : 0 < n) (fp v : Fin n → Fin n → ℂ) :
    fmat n * Matrix.of (angMat fp v) * fmat n = Matrix.of fun i j => (fmat n * Matrix.of v * fmat n) i j * fp i j :=
  fft_ifft_mat n n hn hn _

theorem angMat_comp {n : ℕ} (hn : 0 < n) (fp gp v : Fin n → Fin n → ℂ) :
    angMat gp (angMat fp v) = angMat (fun i j => fp i j * gp i j) v := by
  have h := fft_angMat hn fp v
  show (1 / ((n : ℂ) * n)) • ((fmat n).conjTranspose * Matrix.of (fun i j => (fmat n * Matrix.of (angMat fp v) * fmat n) i j * gp i j) *
    (fmat n).conjTranspose) = _
  rw [h]
  unfold angMat
  simp only [Matrix.of_apply, mul_assoc]

theorem angMat_one {n : ℕ} (hn : 0 < n) (v : Fin n → Fin n → ℂ) : angMat (fun _ _ => 1) v = v := by
  unfold angMat
  simp only [mul_one]
  exact ifft_fft_mat n n hn hn (Matrix.of v)

theorem angMat_linear {n : ℕ} (fp f g : Fin n → Fin n → ℂ) (c : ℂ) :
    angMat fp (fun i j => c * f i j + g i j) = fun i j => c * angMat fp f i j + angMat fp g i j := by
  have h1 : (Matrix.of fun i j => c * f i j + g i j) = c • Matrix.of f + Matrix.of g := rfl
  funext i j
  unfold angMat
  rw [h1, Matrix.mul_add, Matrix.add_mul, Matrix.mul_smul, Matrix.smul_mul]
  have h2 : (Matrix.of fun i j => (c • (fmat n * Matrix.of f * fmat n) + fmat n * Matrix.of g * fmat n) i j * fp i j) =
      c • (Matrix.of fun i j => (fmat n * Matrix.of f * fmat n) i j * fp i j) +
        Matrix.of fun i j => (fmat n * Matrix.of g * fmat n) i j * fp i j := by
    ext i j
    simp only [Matrix.add_apply, Matrix.smul_apply, Matrix.of_apply, smul_eq_mul]
    ring
  rw [h2, Matrix.mul_add, Matrix.add_mul, Matrix.mul_smul, Matrix.smul_mul]
  simp only [Matrix.add_apply, Matrix.smul_apply, smul_eq_mul]
  ring

theorem angMat_energy {n : ℕ} (hn : 0 < n) (fp v : Fin n → Fin n → ℂ) (hfp : ∀ i j, ‖fp i j‖ = 1) :
    ∑ i, ∑ j, ‖angMat fp v i j‖ ^ 2 = ∑ i, ∑ j, ‖v i j‖ ^ 2 := by
  have hF : (fmat n).conjTranspose * fmat n = ((n : ℝ) : ℂ) • (1 : Matrix (Fin n) (Fin n) ℂ) := by
    exact_mod_cast fmat_conj_mul n
  have h1 := energy_sandwich (fmat n) (fmat n) n n hF (by rw [fmat_symm]; exact hF) (Matrix.of (angMat fp v))
  have h2 := energy_sandwich (fmat n) (fmat n) n n hF (by rw [fmat_symm]; exact hF) (Matrix.of v)
  rw [fft_angMat hn] at h1
  have h3 : ∀ i j, ‖(Matrix.of fun i j => (fmat n * Matrix.of v * fmat n) i j * fp i j) i j‖ ^ 2 =
      ‖(fmat n * Matrix.of v * fmat n) i j‖ ^ 2 := by
    intro i j
    rw [Matrix.of_apply, norm_mul, hfp, mul_one]
  simp only [h3] at h1
  rw [h2] at h1
  have hn' : (0 : ℝ) < n := by exact_mod_cast hn
  have := mul_left_cancel₀ (by positivity : ((n : ℝ) * n) ≠ 0) h1
  exact this.symm

/-- `embed` as a plain function. -/
def embV {α : Type} (a : Arr2 α) (h w : ℕ) (ev : α) : Fin h → Fin w → α := (embed a h w ev).val

theorem embV_self {α : Type} (n m : ℕ) (v : Fin n → Fin m → α) (ev : α) : embV ⟨n, m, v⟩ n m ev = v := by
  funext i j
  unfold embV embed Arr2.ofFn
  simp only [sub_add_cancel]
  have := Arr2.px_val (⟨n, m, v⟩ : Arr2 α) i j
  simp only at this
  rw [this]
  rfl

theorem embed_self {α : Type} (n m : ℕ) (v : Fin n → Fin m → α) (ev : α) : embed ⟨n, m, v⟩ n m ev = ⟨n, m, v⟩ := by
  refine Arr2.ext_px rfl rfl ?_
  intro i j h1 h2 h3 h4
  have := embed_px (⟨n, m, v⟩ : Arr2 α) n m ev ⟨⟨h1, h2⟩, h3, h4⟩
  rw [this]
  simp only [sub_add_cancel]
  rw [Arr2.px_of_inB ⟨n, m, v⟩ ⟨⟨h1, h2⟩, h3, h4⟩]
  rfl

theorem imul_same {n : ℕ} (f g : Fin n → Fin n → ℂ) : imul ⟨n, n, f⟩ ⟨n, n, g⟩ = .ok ⟨n, n, fun i j => f i j * g i j⟩ := by
  unfold imul
  rw [dif_pos (by simp)]
  simp

/-- The tail of both propagators, in closed form. -/
theorem angularSpectrum_eq (e : Arr2 ℂ) (n : ℕ) (hn : 0 < n) (hr : 0 < e.nr) (hc : 0 < e.nc) (fp : Fin n → Fin n → ℂ) :
    angularSpectrum e n ⟨n, n, fp⟩ = .ok (embed ⟨n, n, angMat fp (embV e n n 0)⟩ e.nr e.nc 0) := by
  have h1 : doFft (embed e n n 0) = ⟨n, n, fun i j => (fmat n * Matrix.of (embV e n n 0) * fmat n) i j⟩ := doFft_eq _
  have h2 : ∀ v : Fin n → Fin n → ℂ, doIfft ⟨n, n, v⟩ =
    ⟨n, n, (1 / ((n : ℂ) * n)) • ((fmat n).conjTranspose * Matrix.of v * (fmat n).conjTranspose)⟩ := fun v => doIfft_eq _
  unfold angularSpectrum
  rw [padCrop_eq _ _ _ _ (by exact_mod_cast hn) (by exact_mod_cast hn)]
  simp only [bind, Except.bind, Int.toNat_natCast]
  rw [h1, imul_same]
  simp only
  rw [h2, padCrop_eq _ _ _ _ (by exact_mod_cast hr) (by exact_mod_cast hc)]
  rfl

theorem fresnelPhase_add (lam z1 z2 : ℝ) (n : ℕ) (ppm : ℝ) (i j : Fin n) :
    fresnelPhaseVal lam z1 n ppm i j * fresnelPhaseVal lam z2 n ppm i j = fresnelPhaseVal lam (z1 + z2) n ppm i j := by
  unfold fresnelPhaseVal
  simp only
  rw [← Complex.exp_add]
  congr 1
  push_cast
  ring

theorem fresnelPhase_zero (lam : ℝ) (n : ℕ) (ppm : ℝ) (i j : Fin n) : fresnelPhaseVal lam 0 n ppm i j = 1 := by
  unfold fresnelPhaseVal
  simp

theorem fresnelPhase_norm (lam z : ℝ) (n : ℕ) (ppm : ℝ) (i j : Fin n) : ‖fresnelPhaseVal lam z n ppm i j‖ = 1 := by
  unfold fresnelPhaseVal
  simp only
  rw [Complex.norm_exp]
  have : ∀ a b c : ℝ, (-1 * Complex.I * (a : ℂ) * (b : ℂ) * (c : ℂ) * ((0:ℝ) : ℂ)) = 0 := by simp
  set x := _ * (ppm / (n : ℝ)) with hx
  have h : (-1 * Complex.I * (Real.pi : ℂ) * (lam : ℂ) * (z : ℂ) * (x : ℂ) ^ 2) = ((-(Real.pi * lam * z * x ^ 2) : ℝ) : ℂ) * Complex.I := by
    push_cast; ring
  rw [h, Complex.re_ofReal_mul]
  simp

/-- On an `n×n` field with an `n`-sample grid the propagator is the angular-spectrum operator. -/
theorem fresnel_full (n : ℕ) (v : Fin n → Fin n → ℂ) (lam z ppm : ℝ) (h : FresnelArgs lam n ppm)
    (hs : z = 0 ∨ Sampled n lam z ppm) :
    fresnelprop ⟨n, n, v⟩ lam z n ppm = .ok ⟨n, n, angMat (fresnelPhaseVal lam z n ppm) v⟩ := by
  have hn : 0 < n := by exact_mod_cast h.nx
  unfold fresnelprop
  rw [fresnelChecks_ok h]
  simp only [bind, Except.bind]
  by_cases hz : z = 0
  · rw [if_pos hz]
    subst hz
    congr 2
    have : (fresnelPhaseVal lam 0 n ppm) = fun _ _ => 1 := by
      funext i j; exact fresnelPhase_zero lam n ppm i j
    rw [this, angMat_one hn]
  · rw [if_neg hz]
    have hs' := hs.resolve_left hz
    rw [if_neg (by rw [min_self, not_lt]; exact (nSamplesMin_le n lam z ppm).mpr hs')]
    rw [Int.toNat_natCast]
    have := angularSpectrum_eq ⟨n, n, v⟩ n hn hn hn (fresnelPhaseVal lam z n ppm)
    rw [embV_self, embed_self] at this
    exact this

/-- **C20.** Zero distance is the identity, on every field and grid. -/
theorem C20_zero_distance (e : Arr2 ℂ) (lam : ℝ) (nx : ℤ) (ppm : ℝ) (h : FresnelArgs lam nx ppm) :
    fresnelprop e lam 0 nx ppm = .ok e := by
  unfold fresnelprop
  rw [fresnelChecks_ok h]
  simp [bind, Except.bind]

/-- **C20.** Group law on a full-size grid: propagating by `z1` then `z2` is propagating by `z1 + z2` (whenever each
single distance is adequately sampled, as the code demands). -/
theorem C20_composition (n : ℕ) (v : Fin n → Fin n → ℂ) (lam z1 z2 ppm : ℝ) (h : FresnelArgs lam n ppm)
    (h1 : Sampled n lam z1 ppm) (h2 : Sampled n lam z2 ppm) (h12 : Sampled n lam (z1 + z2) ppm) :
    (fresnelprop ⟨n, n, v⟩ lam z1 n ppm).bind (fun f => fresnelprop f lam z2 n ppm) =
      fresnelprop ⟨n, n, v⟩ lam (z1 + z2) n ppm ∧
    ∃ f, fresnelprop ⟨n, n, v⟩ lam (z1 + z2) n ppm = .ok f ∧ f.nr = n ∧ f.nc = n := by
  have hn : 0 < n := by exact_mod_cast h.nx
  constructor
  · rw [fresnel_full n v lam z1 ppm h (.inr h1), fresnel_full n v lam (z1 + z2) ppm h (.inr h12)]
    simp only [Except.bind]
    rw [fresnel_full n _ lam z2 ppm h (.inr h2)]
    have hp : (fun i j => fresnelPhaseVal lam z1 n ppm i j * fresnelPhaseVal lam z2 n ppm i j) =
        fresnelPhaseVal lam (z1 + z2) n ppm := by
      funext i j
      exact fresnelPhase_add lam z1 z2 n ppm i j
    rw [angMat_comp hn, hp]
  · exact ⟨_, fresnel_full n v lam (z1 + z2) ppm h (.inr h12), rfl, rfl⟩

/-- **C20.** Propagating by `z` and back by `-z` restores the field. -/
theorem C20_reversible (n : ℕ) (v : Fin n → Fin n → ℂ) (lam z ppm : ℝ) (h : FresnelArgs lam n ppm)
    (hs : Sampled n lam z ppm) :
    (fresnelprop ⟨n, n, v⟩ lam z n ppm).bind (fun f => fresnelprop f lam (-z) n ppm) = .ok ⟨n, n, v⟩ := by
  have hm : Sampled n lam (-z) ppm := by unfold Sampled; rw [abs_neg]; exact hs
  have h0 : Sampled n lam (z + -z) ppm := by
    unfold Sampled; simp
  rw [(C20_composition n v lam z (-z) ppm h hs hm h0).1, add_neg_cancel]
  exact C20_zero_distance _ _ _ _ h

/-- **C20.** On a full-size grid the total energy is conserved. -/
theorem C20_energy_conserved (n : ℕ) (v : Fin n → Fin n → ℂ) (lam z ppm : ℝ) (f : Arr2 ℂ)
    (hf : fresnelprop ⟨n, n, v⟩ lam z n ppm = .ok f) :
    ∑ i, ∑ j, ‖f.val i j‖ ^ 2 = ∑ i, ∑ j, ‖v i j‖ ^ 2 := by
  by_cases h : FresnelArgs lam n ppm
  · have hn : 0 < n := by exact_mod_cast h.nx
    by_cases hs : z = 0 ∨ Sampled n lam z ppm
    · rw [fresnel_full n v lam z ppm h hs] at hf
      obtain rfl := Except.ok.inj hf
      exact angMat_energy hn _ _ (fresnelPhase_norm lam z n ppm)
    · push Not at hs
      unfold fresnelprop at hf
      rw [fresnelChecks_ok h] at hf
      simp only [bind, Except.bind] at hf
      rw [if_neg hs.1, if_pos (by
        rw [min_self, ← not_le]
        intro hle
        exact hs.2 ((nSamplesMin_le n lam z ppm).mp hle))] at hf
      exact absurd hf (by simp)
  · unfold fresnelprop at hf
    rw [fresnelChecks_err h] at hf
    exact absurd hf (by simp [bind, Except.bind])

/-- Padding or cropping never adds energy. -/
theorem energy_embed_le (a : Arr2 ℂ) (h w : ℕ) :
    ∑ i, ∑ j, ‖(embed a h w 0).val i j‖ ^ 2 ≤ ∑ i, ∑ j, ‖a.val i j‖ ^ 2 := by
  classical
  set dy : ℤ := -((h : ℤ) / 2) + (a.nr : ℤ) / 2
  set dx : ℤ := -((w : ℤ) / 2) + (a.nc : ℤ) / 2
  let e1 : Fin h × Fin w ↪ ℤ × ℤ := ⟨fun p => (((p.1 : ℕ) : ℤ) + dy, ((p.2 : ℕ) : ℤ) + dx), by
    rintro ⟨i, j⟩ ⟨i', j'⟩ hh
    simp only [Prod.mk.injEq, add_left_inj, Nat.cast_inj] at hh
    exact Prod.ext (Fin.ext hh.1) (Fin.ext hh.2)⟩
  let e2 : Fin a.nr × Fin a.nc ↪ ℤ × ℤ := ⟨fun p => (((p.1 : ℕ) : ℤ), ((p.2 : ℕ) : ℤ)), by
    rintro ⟨i, j⟩ ⟨i', j'⟩ hh
    simp only [Prod.mk.injEq, Nat.cast_inj] at hh
    exact Prod.ext (Fin.ext hh.1) (Fin.ext hh.2)⟩
  let f : ℤ × ℤ → ℝ := fun p => ‖(a.px p.1 p.2).getD 0‖ ^ 2
  have l1 : ∑ i : Fin h, ∑ j : Fin w, ‖(embed a h w 0).val i j‖ ^ 2 = ∑ p ∈ Finset.univ.map e1, f p := by
    rw [Finset.sum_map, ← Finset.univ_product_univ, Finset.sum_product]
    refine Finset.sum_congr rfl fun i _ => Finset.sum_congr rfl fun j _ => ?_
    show ‖(a.px (((i : ℕ) : ℤ) - (h : ℤ) / 2 + (a.nr : ℤ) / 2) (((j : ℕ) : ℤ) - (w : ℤ) / 2 + (a.nc : ℤ) / 2)).getD 0‖ ^ 2 =
      ‖(a.px (((i : ℕ) : ℤ) + dy) (((j : ℕ) : ℤ) + dx)).getD 0‖ ^ 2
    rw [show ((i : ℕ) : ℤ) - (h : ℤ) / 2 + (a.nr : ℤ) / 2 = ((i : ℕ) : ℤ) + dy by omega,
      show ((j : ℕ) : ℤ) - (w : ℤ) / 2 + (a.nc : ℤ) / 2 = ((j : ℕ) : ℤ) + dx by omega]
  have l2 : ∑ i : Fin a.nr, ∑ j : Fin a.nc, ‖a.val i j‖ ^ 2 = ∑ p ∈ Finset.univ.map e2, f p := by
    rw [Finset.sum_map, ← Finset.univ_product_univ, Finset.sum_product]
    refine Finset.sum_congr rfl fun i _ => Finset.sum_congr rfl fun j _ => ?_
    show ‖a.val i j‖ ^ 2 = ‖(a.px ((i : ℕ) : ℤ) ((j : ℕ) : ℤ)).getD 0‖ ^ 2
    rw [Arr2.px_val]; rfl
  have hf0 : ∀ p, p ∉ Finset.univ.map e2 → f p = 0 := by
    rintro ⟨i, j⟩ hp
    simp only [f]
    rw [Arr2.px_of_not_inB a]
    · simp
    · intro hb
      apply hp
      rw [Finset.mem_map]
      refine ⟨(⟨i.toNat, by omega⟩, ⟨j.toNat, by omega⟩), Finset.mem_univ _, ?_⟩
      show (((i.toNat : ℕ) : ℤ), ((j.toNat : ℕ) : ℤ)) = (i, j)
      rw [Int.toNat_of_nonneg hb.1.1, Int.toNat_of_nonneg hb.2.1]
  refine le_trans (le_of_eq l1) (le_trans ?_ (le_of_eq l2.symm))
  rw [← Finset.sum_filter_add_sum_filter_not (Finset.univ.map e1) (fun p => p ∈ Finset.univ.map e2)]
  rw [Finset.sum_eq_zero (s := (Finset.univ.map e1).filter fun p => ¬ p ∈ Finset.univ.map e2)
    (fun p hp => hf0 p (Finset.mem_filter.mp hp).2), add_zero]
  refine Finset.sum_le_sum_of_subset_of_nonneg (fun p hp => (Finset.mem_filter.mp hp).2) fun p _ _ => ?_
  positivity

/-- **C20.** On any grid (padded or not) propagation never adds energy, and keeps the field's shape. -/
theorem C20_energy_never_grows (e : Arr2 ℂ) (lam z : ℝ) (nx : ℤ) (ppm : ℝ) (f : Arr2 ℂ)
    (hf : fresnelprop e lam z nx ppm = .ok f) :
    f.nr = e.nr ∧ f.nc = e.nc ∧ ∑ i, ∑ j, ‖f.val i j‖ ^ 2 ≤ ∑ i, ∑ j, ‖e.val i j‖ ^ 2 := by
  by_cases h : FresnelArgs lam nx ppm
  · unfold fresnelprop at hf
    rw [fresnelChecks_ok h] at hf
    simp only [bind, Except.bind] at hf
    by_cases hz : z = 0
    · rw [if_pos hz] at hf
      obtain rfl := Except.ok.inj hf
      exact ⟨rfl, rfl, le_refl _⟩
    · rw [if_neg hz] at hf
      split at hf
      · exact absurd hf (by simp)
      next hs =>
      have hpos : 0 < nSamplesMin lam z ppm := by
        unfold nSamplesMin
        rw [Int.ceil_pos]
        have := h.lam
        have := h.ppm
        have := abs_pos.mpr hz
        positivity
      obtain ⟨n, rfl⟩ : ∃ n : ℕ, nx = n := ⟨nx.toNat, by have := h.nx; omega⟩
      have hn : 0 < n := by exact_mod_cast h.nx
      rw [Int.toNat_natCast] at hf
      have hf' := hf
      rw [fresnelPhase,
        angularSpectrum_eq e n hn (by omega) (by omega)] at hf'
      obtain rfl := Except.ok.inj hf'
      refine ⟨rfl, rfl, ?_⟩
      refine le_trans (energy_embed_le _ _ _) ?_
      refine le_trans (le_of_eq (angMat_energy hn _ _ (fresnelPhase_norm lam z n ppm))) ?_
      exact energy_embed_le e n n
  · unfold fresnelprop at hf
    rw [fresnelChecks_err h] at hf
    exact absurd hf (by simp [bind, Except.bind])

/-- **C20.** Exactly when `fresnelprop` refuses, and with which exception: bad scalars raise `TypeError`, an
under-sampled field raises `ValueError`, everything else returns. -/
theorem C20_error_contract (e : Arr2 ℂ) (lam z : ℝ) (nx : ℤ) (ppm : ℝ) :
    (¬ FresnelArgs lam nx ppm → fresnelprop e lam z nx ppm = .error .typeError) ∧
    (FresnelArgs lam nx ppm → z ≠ 0 → ¬ (Sampled e.nr lam z ppm ∧ Sampled e.nc lam z ppm) →
      fresnelprop e lam z nx ppm = .error .valueError) ∧
    (FresnelArgs lam nx ppm → Sampled e.nr lam z ppm → Sampled e.nc lam z ppm →
      ∃ f, fresnelprop e lam z nx ppm = .ok f) := by
  refine ⟨?_, ?_, ?_⟩
  · intro h
    unfold fresnelprop
    rw [fresnelChecks_err h]; rfl
  · intro h hz hs
    unfold fresnelprop
    rw [fresnelChecks_ok h]
    simp only [bind, Except.bind]
    rw [if_neg hz, if_pos]
    by_contra hc
    rw [not_lt, le_min_iff, nSamplesMin_le, nSamplesMin_le] at hc
    exact hs hc
  · intro h h1 h2
    by_cases hz : z = 0
    · subst hz; exact ⟨e, C20_zero_distance e lam nx ppm h⟩
    · have hpos : 0 < nSamplesMin lam z ppm := by
        unfold nSamplesMin
        rw [Int.ceil_pos]
        have := h.lam
        have := h.ppm
        have := abs_pos.mpr hz
        positivity
      have k1 := (nSamplesMin_le e.nr lam z ppm).mpr h1
      have k2 := (nSamplesMin_le e.nc lam z ppm).mpr h2
      obtain ⟨n, rfl⟩ : ∃ n : ℕ, nx = n := ⟨nx.toNat, by have := h.nx; omega⟩
      have hn : 0 < n := by exact_mod_cast h.nx
      refine ⟨embed ⟨n, n, angMat (fresnelPhaseVal lam z n ppm) (embV e n n 0)⟩ e.nr e.nc 0, ?_⟩
      unfold fresnelprop
      rw [fresnelChecks_ok h]
      simp only [bind, Except.bind]
      rw [if_neg hz, if_neg (by rw [not_lt, le_min_iff]; exact ⟨k1, k2⟩), Int.toNat_natCast]
      exact angularSpectrum_eq e n hn (by omega) (by omega) (fresnelPhaseVal lam z n ppm)

/-- **C20.** The precomputed-phase path returns the same field: whenever `fresnelprop` and `get_fp` both return,
`fresnelprop_fp` with that phase returns what `fresnelprop` does. -/
theorem C20_two_step_path (e : Arr2 ℂ) (lam z : ℝ) (nx : ℤ) (ppm : ℝ) (f fp : Arr2 ℂ)
    (hf : fresnelprop e lam z nx ppm = .ok f) (hfp : getFp lam z nx ppm = .ok fp) :
    fresnelpropFp e z nx fp = .ok f := by
  by_cases h : FresnelArgs lam nx ppm
  · unfold fresnelprop at hf
    unfold getFp at hfp
    rw [fresnelChecks_ok h] at hf hfp
    simp only [bind, Except.bind] at hf hfp
    unfold fresnelpropFp
    rw [if_neg (not_le.mpr h.nx)]
    split at hfp
    · exact absurd hfp (by simp)
    · obtain rfl := Except.ok.inj hfp
      split at hf
      · rw [if_pos ‹_›]; exact hf
      · rw [if_neg ‹_›]
        split at hf
        · exact absurd hf (by simp)
        · exact hf
  · unfold fresnelprop at hf
    rw [fresnelChecks_err h] at hf
    exact absurd hf (by simp [bind, Except.bind])

/-- **C20.** If the propagation grid is at least as large as the field, `get_fp` accepts whatever `fresnelprop` accepts. -/
theorem C20_get_fp_accepts (e : Arr2 ℂ) (lam z : ℝ) (nx : ℤ) (ppm : ℝ) (h : FresnelArgs lam nx ppm)
    (hs : Sampled (min e.nr e.nc) lam z ppm) (hn : (min e.nr e.nc : ℕ) ≤ nx) : ∃ fp, getFp lam z nx ppm = .ok fp := by
  unfold getFp
  rw [fresnelChecks_ok h]
  simp only [bind, Except.bind]
  have := (nSamplesMin_le _ lam z ppm).mpr hs
  rw [if_neg (by omega)]
  exact ⟨_, rfl⟩

/-- **C20.** Propagation is linear on every grid: when it returns for one field it returns for all fields of that shape,
and superposes. -/
theorem C20_linear (n m : ℕ) (u v : Fin n → Fin m → ℂ) (c : ℂ) (lam z : ℝ) (nx : ℤ) (ppm : ℝ) (f : Arr2 ℂ)
    (hf : fresnelprop ⟨n, m, u⟩ lam z nx ppm = .ok f) :
    ∃ U V : Fin n → Fin m → ℂ, f = ⟨n, m, U⟩ ∧ fresnelprop ⟨n, m, v⟩ lam z nx ppm = .ok ⟨n, m, V⟩ ∧
      fresnelprop ⟨n, m, fun i j => c * u i j + v i j⟩ lam z nx ppm = .ok ⟨n, m, fun i j => c * U i j + V i j⟩ := by
  by_cases h : FresnelArgs lam nx ppm
  · unfold fresnelprop at hf ⊢
    rw [fresnelChecks_ok h] at hf ⊢
    simp only [bind, Except.bind] at hf ⊢
    by_cases hz : z = 0
    · simp only [if_pos hz] at hf ⊢
      exact ⟨u, v, (Except.ok.inj hf).symm, rfl, rfl⟩
    · simp only [if_neg hz] at hf ⊢
      by_cases hs : (min (n : ℤ) m) < nSamplesMin lam z ppm
      · rw [if_pos hs] at hf; exact absurd hf (by simp)
      · simp only [if_neg hs] at hf ⊢
        have hpos : 0 < nSamplesMin lam z ppm := by
          unfold nSamplesMin
          rw [Int.ceil_pos]
          have := h.lam
          have := h.ppm
          have := abs_pos.mpr hz
          positivity
        obtain ⟨N, rfl⟩ : ∃ N : ℕ, nx = N := ⟨nx.toNat, by have := h.nx; omega⟩
        have hn : 0 < N := by exact_mod_cast h.nx
        rw [Int.toNat_natCast] at hf ⊢
        unfold fresnelPhase at hf ⊢
        rw [angularSpectrum_eq _ N hn (by simp only; omega) (by simp only; omega)] at hf
        rw [angularSpectrum_eq _ N hn (by simp only; omega) (by simp only; omega),
          angularSpectrum_eq _ N hn (by simp only; omega) (by simp only; omega)]
        refine ⟨_, _, (Except.ok.inj hf).symm, rfl, ?_⟩
        congr 1
        have lin : ∀ (a b : ℕ) (f g : Fin a → Fin b → ℂ) (H W : ℕ),
            (embed ⟨a, b, fun i j => c * f i j + g i j⟩ H W 0 : Arr2 ℂ) =
              ⟨H, W, fun i j => c * (embed ⟨a, b, f⟩ H W 0).val i j + (embed ⟨a, b, g⟩ H W 0).val i j⟩ := by
          intro a b f g H W
          unfold embed Arr2.ofFn
          congr 1
          funext i j
          simp only
          by_cases hb : (0 ≤ ((i : ℕ) : ℤ) - (H : ℤ) / 2 + (a : ℤ) / 2 ∧ ((i : ℕ) : ℤ) - (H : ℤ) / 2 + (a : ℤ) / 2 < a) ∧
              (0 ≤ ((j : ℕ) : ℤ) - (W : ℤ) / 2 + (b : ℤ) / 2 ∧ ((j : ℕ) : ℤ) - (W : ℤ) / 2 + (b : ℤ) / 2 < b)
          · rw [Arr2.px_of_inB ⟨a, b, _⟩ hb, Arr2.px_of_inB ⟨a, b, f⟩ hb, Arr2.px_of_inB ⟨a, b, g⟩ hb]
            rfl
          · rw [Arr2.px_of_not_inB ⟨a, b, _⟩ hb, Arr2.px_of_not_inB ⟨a, b, f⟩ hb, Arr2.px_of_not_inB ⟨a, b, g⟩ hb]
            simp
        have lin2 : embV (⟨n, m, fun i j => c * u i j + v i j⟩ : Arr2 ℂ) N N 0 =
            fun i j => c * embV (⟨n, m, u⟩ : Arr2 ℂ) N N 0 i j + embV (⟨n, m, v⟩ : Arr2 ℂ) N N 0 i j := by
          have := lin n m u v N N
          unfold embed Arr2.ofFn at this
          exact eq_of_heq (Arr2.mk.inj this).2.2
        rw [lin2, angMat_linear, lin N N]
        rfl
  · unfold fresnelprop at hf
    rw [fresnelChecks_err h] at hf
    exact absurd hf (by simp [bind, Except.bind])

/-- **C20.** The documented requirement `nxfresnel ≥ e.shape` is not enforced: with a grid of one pixel a 3×3 field with
light only in a corner propagates "successfully" to the zero field. -/
theorem C20_small_grid_silently_crops :
    ∃ e f : Arr2 ℂ, ∃ lam z ppm : ℝ, fresnelprop e lam z 1 ppm = .ok f ∧ (∃ i j, e.val i j = 1) ∧ ∀ i j, f.val i j = 0 := by
  refine ⟨⟨3, 3, fun i j => if i = 0 ∧ j = 0 then 1 else 0⟩, ?_⟩
  refine ⟨embed ⟨1, 1, angMat (fresnelPhaseVal 1 1 1 1) (embV (⟨3, 3, fun i j => if i = 0 ∧ j = 0 then 1 else 0⟩ : Arr2 ℂ) 1 1 0)⟩ 3 3 0,
    1, 1, 1, ?_, ⟨0, 0, by simp⟩, ?_⟩
  · unfold fresnelprop
    rw [fresnelChecks_ok ⟨one_pos, one_pos, one_pos⟩]
    simp only [bind, Except.bind]
    rw [if_neg one_ne_zero, if_neg (by simp [nSamplesMin])]
    exact angularSpectrum_eq _ 1 one_pos (by simp) (by simp) _
  · have h0 : embV (⟨3, 3, fun i j => if i = 0 ∧ j = 0 then 1 else 0⟩ : Arr2 ℂ) 1 1 0 = fun _ _ => 0 := by
      funext i j
      have hi : i = (0 : Fin 1) := Subsingleton.elim _ _
      have hj : j = (0 : Fin 1) := Subsingleton.elim _ _
      subst hi; subst hj
      simp only [embV, embed, Arr2.ofFn]
      rw [Arr2.px_of_inB _ (by simp)]
      simp
    have h1 : angMat (fresnelPhaseVal 1 1 1 1) (fun (_ : Fin 1) (_ : Fin 1) => (0 : ℂ)) = fun _ _ => 0 := by
      have := angMat_linear (n := 1) (fresnelPhaseVal 1 1 1 1) (fun _ _ => 0) (fun _ _ => 0) (-1)
      simp only [mul_zero, add_zero] at this
      funext i j
      have h3 := congrFun (congrFun this i) j
      linear_combination h3
    intro i j
    have h2 : angMat (fresnelPhaseVal 1 1 1 1) (embV (⟨3, 3, fun i j => if i = 0 ∧ j = 0 then 1 else 0⟩ : Arr2 ℂ) 1 1 0) =
        fun _ _ => 0 := by rw [h0, h1]
    simp only [embed, Arr2.ofFn]
    by_cases hb : (0 ≤ ((i : ℕ) : ℤ) - ((3 : ℕ) : ℤ) / 2 + ((1 : ℕ) : ℤ) / 2 ∧ ((i : ℕ) : ℤ) - ((3 : ℕ) : ℤ) / 2 + ((1 : ℕ) : ℤ) / 2 < (1 : ℕ)) ∧
              (0 ≤ ((j : ℕ) : ℤ) - ((3 : ℕ) : ℤ) / 2 + ((1 : ℕ) : ℤ) / 2 ∧ ((j : ℕ) : ℤ) - ((3 : ℕ) : ℤ) / 2 + ((1 : ℕ) : ℤ) / 2 < (1 : ℕ))
    · rw [Arr2.px_of_inB ⟨1, 1, _⟩ hb]
      exact congrFun (congrFun h2 _) _
    · rw [Arr2.px_of_not_inB ⟨1, 1, _⟩ hb]
      rfl

/-- The hypotheses are met by a realistic grid: 512 samples, 500 nm, half a metre, 10 samples per millimetre. -/
example : FresnelArgs 5e-7 (512 : ℕ) 10000 ∧ Sampled 512 5e-7 0.5 10000 ∧ Sampled 512 5e-7 (0.5 + 0.5) 10000 := by
  refine ⟨⟨by norm_num, by norm_num, by norm_num⟩, ?_, ?_⟩ <;>
  · unfold Sampled
    rw [abs_of_pos (by norm_num)]
    norm_num

end Coralign.Props
