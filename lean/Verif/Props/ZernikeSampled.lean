import Verif.Props.ZernikeFit
import Mathlib.Analysis.BoxIntegral.UnitPartition
import Mathlib.Analysis.Convex.Measure

/-!
# C88: sampled maps have the documented RMS in the limit of fine sampling
-/

namespace Coralign.Props

open Coralign Coralign.Spec MeasureTheory Filter Pointwise

/-- The pixels within `n` pixels of the centre pixel, as row and column offsets. -/
noncomputable def beamPixels (n : ℕ) : Finset (ℤ × ℤ) :=
  (Finset.Icc (-(n : ℤ)) n ×ˢ Finset.Icc (-(n : ℤ)) n).filter fun p => p.1 ^ 2 + p.2 ^ 2 ≤ (n : ℤ) ^ 2

theorem mem_beamPixels (n : ℕ) (p : ℤ × ℤ) : p ∈ beamPixels n ↔ p.1 ^ 2 + p.2 ^ 2 ≤ (n : ℤ) ^ 2 := by
  unfold beamPixels
  rw [Finset.mem_filter, Finset.mem_product, Finset.mem_Icc, Finset.mem_Icc]
  refine ⟨fun h => h.2, fun h => ⟨⟨?_, ?_⟩, h⟩⟩
  · exact abs_le.mp (abs_le_of_sq_le_sq (by nlinarith [sq_nonneg p.2]) (by omega))
  · exact abs_le.mp (abs_le_of_sq_le_sq (by nlinarith [sq_nonneg p.1]) (by omega))

/-- Riemann sums over the disc. -/
theorem disc_riemann (f : ℝ × ℝ → ℝ) (hf : Continuous f) :
    Tendsto (fun n : ℕ => (∑ p ∈ beamPixels n, f ((p.2 : ℝ) / n, (p.1 : ℝ) / n)) / (n : ℝ) ^ 2) atTop
      (nhds (∫ p in {p : ℝ × ℝ | p.1 ^ 2 + p.2 ^ 2 ≤ 1 ^ 2}, f p)) := by
  classical
  set s : Set (Fin 2 → ℝ) := {x | x 0 ^ 2 + x 1 ^ 2 ≤ 1 ^ 2} with hs
  have hclosed : IsClosed s := isClosed_le (by fun_prop) (by fun_prop)
  have hconv : Convex ℝ s := by
    intro x hx y hy a b ha hb hab
    simp only [hs, Set.mem_ofPred_eq, Pi.add_apply, Pi.smul_apply, smul_eq_mul] at hx hy ⊢
    obtain rfl : b = 1 - a := by linarith
    nlinarith [sq_nonneg (x 0 - y 0), sq_nonneg (x 1 - y 1), mul_nonneg ha hb]
  have hbd : Bornology.IsBounded s := by
    refine (Metric.isBounded_closedBall (x := (0 : Fin 2 → ℝ)) (r := 1)).subset fun x hx => ?_
    rw [mem_closedBall_zero_iff, pi_norm_le_iff_of_nonneg zero_le_one]
    simp only [hs, Set.mem_ofPred_eq] at hx
    intro i
    rw [Real.norm_eq_abs]
    fin_cases i
    · show |x 0| ≤ 1
      exact abs_le_of_sq_le_sq (by nlinarith [sq_nonneg (x 1)]) zero_le_one
    · show |x 1| ≤ 1
      exact abs_le_of_sq_le_sq (by nlinarith [sq_nonneg (x 0)]) zero_le_one
  have hF : Continuous fun x : Fin 2 → ℝ => f (x 0, x 1) := hf.comp (by fun_prop)
  have h := tendsto_tsum_div_pow_atTop_integral s (fun x => f (x 0, x 1)) hF hbd hclosed.measurableSet (hconv.addHaar_frontier volume)
  have hint : ∫ x in s, f (x 0, x 1) = ∫ p in {p : ℝ × ℝ | p.1 ^ 2 + p.2 ^ 2 ≤ 1 ^ 2}, f p := by
    have := (volume_preserving_finTwoArrow ℝ).setIntegral_preimage_emb (MeasurableEquiv.finTwoArrow (α := ℝ)).measurableEmbedding f
      {p : ℝ × ℝ | p.1 ^ 2 + p.2 ^ 2 ≤ 1 ^ 2}
    exact this
  rw [hint] at h
  refine h.congr' ?_
  filter_upwards [eventually_ge_atTop 1] with n hn
  have hnR : (0 : ℝ) < n := by exact_mod_cast hn
  rw [Fintype.card_fin]
  congr 1
  set g : ℤ × ℤ → (Fin 2 → ℝ) := fun p => ![(p.2 : ℝ) / n, (p.1 : ℝ) / n] with hg
  have hset : s ∩ ((n : ℝ)⁻¹ • (Submodule.span ℤ (Set.range (Pi.basisFun ℝ (Fin 2))) : Set (Fin 2 → ℝ))) = ((beamPixels n).image g : Set (Fin 2 → ℝ)) := by
    ext x
    rw [Set.mem_inter_iff, Set.mem_inv_smul_set_iff₀ hnR.ne', SetLike.mem_coe, Module.Basis.mem_span_iff_repr_mem, Finset.coe_image, Set.mem_image]
    simp only [Pi.basisFun_repr, Pi.smul_apply, smul_eq_mul, Set.mem_range, algebraMap_int_eq, eq_intCast, Finset.mem_coe, mem_beamPixels]
    constructor
    · rintro ⟨hx, hz⟩
      obtain ⟨a, ha⟩ := hz 0
      obtain ⟨b, hb⟩ := hz 1
      simp only [hs, Set.mem_ofPred_eq] at hx
      refine ⟨(b, a), ?_, ?_⟩
      · have : ((b : ℝ)) ^ 2 + (a : ℝ) ^ 2 ≤ (n : ℝ) ^ 2 := by
          rw [ha, hb]
          nlinarith [sq_nonneg (n : ℝ)]
        exact_mod_cast this
      · funext i
        fin_cases i
        · simp only [hg, ha]; simp; field_simp
        · simp only [hg, hb]; simp; field_simp
    · rintro ⟨p, hp, rfl⟩
      constructor
      · simp only [hs, hg, Set.mem_ofPred_eq]
        have : ((p.1 : ℝ)) ^ 2 + (p.2 : ℝ) ^ 2 ≤ (n : ℝ) ^ 2 := by exact_mod_cast hp
        simp only [Matrix.cons_val_zero, Matrix.cons_val_one]
        rw [div_pow, div_pow, ← add_div, one_pow, div_le_one (by positivity)]
        linarith
      · intro i
        fin_cases i
        · exact ⟨p.2, by simp only [hg]; simp; field_simp⟩
        · exact ⟨p.1, by simp only [hg]; simp; field_simp⟩
  rw [hset, Finset.tsum_subtype' ((beamPixels n).image g) fun x : Fin 2 → ℝ => f (x 0, x 1), Finset.sum_image]
  · rfl
  · intro p _ q _ e
    have e0 := congrFun e 0
    have e1 := congrFun e 1
    simp only [hg, Matrix.cons_val_zero, Matrix.cons_val_one] at e0 e1
    rw [div_left_inj' hnR.ne', Int.cast_inj] at e0 e1
    exact Prod.ext e1 e0

/-- The mean over the pixels of the beam tends to the mean over the pupil. -/
theorem beam_mean (f : ℝ × ℝ → ℝ) (hf : Continuous f) :
    Tendsto (fun n : ℕ => (∑ p ∈ beamPixels n, f ((p.2 : ℝ) / n, (p.1 : ℝ) / n)) / ((beamPixels n).card : ℝ)) atTop
      (nhds (pupilMean 1 fun x y => f (x, y))) := by
  have h1 := disc_riemann f hf
  have h2 := disc_riemann (fun _ => 1) continuous_const
  have hv : ∫ p in {p : ℝ × ℝ | p.1 ^ 2 + p.2 ^ 2 ≤ 1 ^ 2}, (1 : ℝ) = Real.pi := by
    have := C88_orthonormal 1 one_pos _ (returns_sample 1 one_pos) 1 1 le_rfl le_rfl
    have h0 : ∀ x y : ℝ, zernSample ((1 : ℕ) : ℤ) 1 x y = 1 := fun x y => (zernSample_mode 1 le_rfl 1 x y).trans (mode_piston 1 x y)
    simp only [h0, mul_one, if_true] at this
    unfold pupilMean at this
    rw [one_pow, mul_one, div_eq_one_iff_eq Real.pi_pos.ne'] at this
    rw [one_pow]
    exact this
  rw [hv] at h2
  have h3 := h1.div h2 Real.pi_pos.ne'
  unfold pupilMean
  rw [one_pow, mul_one]
  rw [one_pow] at h3
  refine h3.congr' ?_
  filter_upwards [eventually_ge_atTop 1] with n hn
  have hnR : (0 : ℝ) < n := by exact_mod_cast hn
  simp only [Pi.div_apply, Finset.sum_const, nsmul_eq_mul, mul_one]
  rw [div_div_div_cancel_right₀ (by positivity)]

/-- Scaling the pupil scales the coordinates. -/
theorem sample_scale (j : ℕ) (hj : 1 ≤ j) (prad x y : ℝ) (hp : 0 < prad) : zernSample j prad x y = zernSample j 1 (x / prad) (y / prad) := by
  rw [zernSample_eq j hj, zernSample_eq j hj]
  have e1 : Real.sqrt ((x / prad) ^ 2 + (y / prad) ^ 2) = Real.sqrt (x ^ 2 + y ^ 2) / prad := by
    rw [div_pow, div_pow, ← add_div, Real.sqrt_div' _ (by positivity), Real.sqrt_sq hp.le]
  have e2 : Complex.arg ⟨x / prad, y / prad⟩ = Complex.arg ⟨x, y⟩ := by
    have : (⟨x / prad, y / prad⟩ : ℂ) = ((prad⁻¹ : ℝ) : ℂ) * ⟨x, y⟩ := by apply Complex.ext <;> simp <;> ring
    rw [this, Complex.arg_real_mul _ (by positivity)]
  rw [e1, e2, div_one]

/-- **C88.** As the beam is sampled more finely, the mean square of the map returned by `gen_zernikes` over the pixels of the beam tends to the sum of
the squares of the coefficients: each coefficient is the RMS of its mode. -/
theorem C88_sampled (terms : List (ℕ × ℝ)) (hne : terms ≠ []) (hpos : ∀ t ∈ terms, 1 ≤ t.1) (hnd : (terms.map Prod.fst).Nodup) (o : ℕ → Arr2 ℝ)
    (ho : ∀ n : ℕ, 1 ≤ n → genZernikes (terms.map fun t => (t.1 : ℤ)) (terms.map Prod.snd) 0 0 (2 * n) = .ok (o n)) :
    Tendsto (fun n : ℕ => (∑ p ∈ beamPixels n, ((o n).centered p.1 p.2).getD 0 ^ 2) / ((beamPixels n).card : ℝ)) atTop
      (nhds (terms.map fun t => t.2 ^ 2).sum) := by
  classical
  -- the coefficients as a function of the index
  have hlook : ∀ t ∈ terms, ∀ t' ∈ terms, t.1 = t'.1 → t = t' := fun t ht t' ht' e => List.inj_on_of_nodup_map hnd ht ht' e
  set c : ℕ → ℝ := fun j => (terms.map fun t => if t.1 = j then t.2 else 0).sum with hc
  set J : Finset ℕ := (terms.map Prod.fst).toFinset with hJ
  have hsum : ∀ g : ℕ → ℝ → ℝ, (terms.map fun t => g t.1 t.2).sum = ∑ j ∈ J, g j (c j) := by
    intro g
    rw [hJ, List.sum_toFinset _ hnd, List.map_map]
    congr 1
    refine List.map_congr_left fun t ht => ?_
    have : c t.1 = t.2 := by
      simp only [hc]
      have hn' : terms.Nodup := List.Nodup.of_map _ hnd
      have : (terms.map fun t' => if t'.1 = t.1 then t'.2 else 0) = terms.map fun t' => if t' = t then t.2 else 0 := by
        refine List.map_congr_left fun t' ht' => ?_
        by_cases e : t'.1 = t.1
        · rw [if_pos e, if_pos (hlook t' ht' t ht e), hlook t' ht' t ht e]
        · rw [if_neg e, if_neg (fun h => e (by rw [h]))]
      rw [this, ← List.sum_toFinset _ hn', Finset.sum_ite_eq' _ t, if_pos (by simpa using ht)]
    simp only [Function.comp, this]
  have hJ1 : ∀ j ∈ J, 1 ≤ j := by
    intro j hj
    rw [hJ, List.mem_toFinset, List.mem_map] at hj
    obtain ⟨t, ht, rfl⟩ := hj
    exact hpos t ht
  have hZ := returns_sample 1 one_pos
  have hlim := beam_mean (fun p => (∑ j ∈ J, c j * zernSample j 1 p.1 p.2) ^ 2)
    ((continuous_finsetSum _ fun j hj => continuous_const.mul (mode_continuous 1 one_pos _ hZ j (hJ1 j hj))).pow 2)
  rw [C88_rms 1 one_pos _ hZ J hJ1 c] at hlim
  rw [hsum fun _ v => v ^ 2]
  refine hlim.congr' ?_
  filter_upwards [eventually_ge_atTop 1] with n hn
  have hnR : (0 : ℝ) < n := by exact_mod_cast hn
  congr 1
  refine Finset.sum_congr rfl fun p hp => ?_
  rw [mem_beamPixels] at hp
  obtain ⟨a, ha, hr, hc', hpx⟩ := C23_centred (terms.map fun t => ((t.1 : ℤ), t.2)) 0 0 (2 * n) 1000000
    ⟨by simpa using hne, by
      intro q hq
      obtain ⟨t, ht, rfl⟩ := List.mem_map.mp hq
      have := hpos t ht
      simp only
      omega, by positivity, by norm_num⟩
  simp only [List.map_map, Function.comp_def] at ha
  have hoa : o n = a := Except.ok.inj ((ho n hn).symm.trans ha)
  have hreach : Reaches a.nr a.nc p.1 p.2 := by
    rw [← genSize_eq 0 0 (2 * n) 1000000 (by positivity) (by norm_num)] at hr
    rw [hc', hr]
    refine default_contains 0 0 (2 * n) (by positivity) (by simp) (by simp) p.1 p.2 ?_
    have : ((p.1 : ℝ)) ^ 2 + (p.2 : ℝ) ^ 2 ≤ (n : ℝ) ^ 2 := by exact_mod_cast hp
    rw [sub_zero, sub_zero, mul_div_cancel_left₀ _ (two_ne_zero)]
    linarith
  rw [hoa, hpx p.1 p.2 hreach, Option.getD_some, List.map_map]
  congr 1
  rw [← hsum fun j v => v * zernSample j 1 ((p.2 : ℝ) / n) ((p.1 : ℝ) / n)]
  congr 1
  refine List.map_congr_left fun t ht => ?_
  simp only [Function.comp, sub_zero]
  rw [mul_div_cancel_left₀ _ (two_ne_zero), Int.toNat_natCast, ← zernSample_mode t.1 (hpos t ht), sample_scale t.1 (hpos t ht) n _ _ hnR]

/-- Such maps exist, for example focus and coma of different amplitudes. -/
example : ∃ o : ℕ → Arr2 ℝ, (∀ n : ℕ, 1 ≤ n → genZernikes ([(4, 0.3), (8, -0.4)].map fun t : ℕ × ℝ => (t.1 : ℤ)) ([(4, 0.3), (8, -0.4)].map Prod.snd) 0 0 (2 * n) = .ok (o n)) ∧
    Tendsto (fun n : ℕ => (∑ p ∈ beamPixels n, ((o n).centered p.1 p.2).getD 0 ^ 2) / ((beamPixels n).card : ℝ)) atTop (nhds 0.25) := by
  have h : ∀ n : ℕ, ∃ a, 1 ≤ n → genZernikes ([(4, 0.3), (8, -0.4)].map fun t : ℕ × ℝ => (t.1 : ℤ)) ([(4, 0.3), (8, -0.4)].map Prod.snd) 0 0 (2 * n) = .ok a := by
    intro n
    by_cases hn : 1 ≤ n
    · obtain ⟨a, ha, -⟩ := C23_centred [(4, 0.3), (8, -0.4)] 0 0 (2 * n) 1000000 ⟨by simp, by simp, by positivity, by norm_num⟩
      exact ⟨a, fun _ => ha⟩
    · exact ⟨Arr2.full 0 0 0, fun h => absurd h hn⟩
  choose o ho using h
  refine ⟨o, ho, ?_⟩
  have := C88_sampled [(4, 0.3), (8, -0.4)] (by simp) (by simp) (by simp) o ho
  norm_num at this ⊢
  exact this

end Coralign.Props
