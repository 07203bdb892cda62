import Verif.Props.PsfFitMean
import Verif.Props.UpDftBetween

/-!
# Property C54 for arbitrary images: the answer is the peak of the cross-correlation
-/

namespace Coralign.Props

open Coralign Coralign.Spec

/-! ### Specification -/

/-- The cross-correlation of the target with the source moved by `(y, x)` pixels, for fractional moves too: the product of the two transforms,
summed over the signed frequencies of the image. -/
noncomputable def crossAt {n m : ℕ} (f t : Fin n → Fin m → ℝ) (y x : ℝ) : ℂ :=
  ∑ p ∈ window n, ∑ q ∈ window m,
    dftAt (Arr2.toC ⟨n, m, f⟩) p q * (starRingEnd ℂ) (dftAt (Arr2.toC ⟨n, m, t⟩) p q) *
      Complex.exp (-2 * Real.pi * Complex.I * (y * p / n + x * q / m))

/-- `k` fine samples are within the refined region, which is `ceil(kappa * pad)` samples wide. -/
def Near (kappa : ℕ) (pad : ℝ) (k : ℤ) : Prop := -⌈(kappa : ℝ) * pad⌉ < 2 * k ∧ 2 * k ≤ ⌈(kappa : ℝ) * pad⌉

/-! ### Lemmas -/

theorem spec_freq {n m : ℕ} (f : Fin n → Fin m → ℝ) (i : Fin n) (j : Fin m) :
    dftAt (Arr2.toC ⟨n, m, f⟩) (fftfreqNum n i : ℤ) (fftfreqNum m j : ℤ) = spec f i j := by
  rw [spec_eq]
  unfold dftAt
  refine Finset.sum_congr rfl fun r _ => Finset.sum_congr rfl fun s _ => ?_
  have hn : (n : ℝ) ≠ 0 := by have := i.isLt; have : 0 < n := by omega
                              positivity
  have hm : (m : ℝ) ≠ 0 := by have := j.isLt; have : 0 < m := by omega
                              positivity
  obtain ⟨z, hz⟩ := fftfreqNum_mod n i
  obtain ⟨w, hw⟩ := fftfreqNum_mod m j
  show ((f r s : ℝ) : ℂ) * _ = _
  congr 1
  rw [← cis_add_int _ (-(z * ((r : ℕ) : ℤ) + w * ((s : ℕ) : ℤ)))]
  unfold cis
  congr 1
  rw [hz, hw]
  have hn' : (n : ℂ) ≠ 0 := by exact_mod_cast hn
  have hm' : (m : ℂ) ≠ 0 := by exact_mod_cast hm
  show -2 * (Real.pi : ℂ) * Complex.I * ((((((i : ℕ) : ℤ) + n * z : ℤ) : ℝ) : ℂ) * (((r : ℕ) : ℝ) : ℂ) / (n : ℂ) +
    (((((j : ℕ) : ℤ) + m * w : ℤ) : ℝ) : ℂ) * (((s : ℕ) : ℝ) : ℂ) / (m : ℂ)) = _
  push_cast
  field_simp
  ring

theorem crossAt_fin {n m : ℕ} (f t : Fin n → Fin m → ℝ) (y x : ℝ) :
    crossAt f t y x = ∑ i : Fin n, ∑ j : Fin m, spec f i j * (starRingEnd ℂ) (spec t i j) *
      cis (-(y * fftfreqNum n i / n + x * fftfreqNum m j / m)) := by
  unfold crossAt
  rw [← fftfreq_window n (fun p => ∑ q ∈ window m,
    dftAt (Arr2.toC ⟨n, m, f⟩) p q * (starRingEnd ℂ) (dftAt (Arr2.toC ⟨n, m, t⟩) p q) *
      Complex.exp (-2 * Real.pi * Complex.I * (y * p / n + x * q / m)))]
  refine Finset.sum_congr rfl fun i _ => ?_
  rw [← fftfreq_window m (fun q =>
    dftAt (Arr2.toC ⟨n, m, f⟩) (fftfreqNum n i : ℤ) q * (starRingEnd ℂ) (dftAt (Arr2.toC ⟨n, m, t⟩) (fftfreqNum n i : ℤ) q) *
      Complex.exp (-2 * Real.pi * Complex.I * (y * (fftfreqNum n i : ℤ) / n + x * q / m)))]
  refine Finset.sum_congr rfl fun j _ => ?_
  rw [spec_freq, spec_freq]
  congr 1
  unfold cis
  congr 1
  push_cast
  ring

theorem crossAt_periodic {n m : ℕ} (f t : Fin n → Fin m → ℝ) (y x : ℝ) (k l : ℤ) :
    crossAt f t (y + n * k) (x + m * l) = crossAt f t y x := by
  rw [crossAt_fin, crossAt_fin]
  refine Finset.sum_congr rfl fun p _ => Finset.sum_congr rfl fun q _ => ?_
  congr 1
  have hn : (n : ℝ) ≠ 0 := by have := p.isLt; have : 0 < n := by omega
                              positivity
  have hm : (m : ℝ) ≠ 0 := by have := q.isLt; have : 0 < m := by omega
                              positivity
  rw [← cis_add_int (-(y * fftfreqNum n p / n + x * fftfreqNum m q / m)) (-(k * fftfreqNum n p + l * fftfreqNum m q))]
  congr 1
  push_cast
  field_simp
  ring

theorem product_spec {n m : ℕ} (f t : Fin n → Fin m → ℝ) (p : Fin n) (q : Fin m) :
    (imageProduct ⟨n, m, f⟩ ⟨n, m, t⟩).val p q = spec f p q * (starRingEnd ℂ) (spec t p q) := by
  unfold imageProduct
  simp only
  have := Arr2.px_val (npFft2 (Arr2.toC ⟨n, m, t⟩)) p q
  rw [this]
  rfl

theorem coarse_cross {n m : ℕ} (f t : Fin n → Fin m → ℝ) (r : Fin n) (s : Fin m) :
    (npIfft2 (imageProduct ⟨n, m, f⟩ ⟨n, m, t⟩)).val r s =
      1 / ((n : ℂ) * m) * crossAt f t ((-((r : ℕ) : ℤ) : ℤ) : ℝ) ((-((s : ℕ) : ℤ) : ℤ) : ℝ) := by
  rw [crossAt_fin]
  unfold npIfft2
  simp only
  congr 1
  refine Finset.sum_congr rfl fun p _ => Finset.sum_congr rfl fun q _ => ?_
  have hps := product_spec f t p q
  rw [hps]
  congr 1
  have c1 := cis_fftfreq_pos n p (Nat.lt_of_le_of_lt (Nat.zero_le _) p.isLt) ((r : ℕ) : ℤ)
  have c2 := cis_fftfreq_pos m q (Nat.lt_of_le_of_lt (Nat.zero_le _) q.isLt) ((s : ℕ) : ℤ)
  have e : -(((-((r : ℕ) : ℤ) : ℤ) : ℝ) * fftfreqNum n p / n + ((-((s : ℕ) : ℤ) : ℤ) : ℝ) * fftfreqNum m q / m) =
      (((r : ℕ) : ℤ) : ℝ) * fftfreqNum n p / n + (((s : ℕ) : ℤ) : ℝ) * fftfreqNum m q / m := by
    push_cast; ring
  have c3 : cis ((((r : ℕ) : ℤ) : ℝ) * fftfreqNum n p / n + (((s : ℕ) : ℤ) : ℝ) * fftfreqNum m q / m) =
      cis (((r : ℕ) : ℝ) * ((p : ℕ) : ℝ) / n + ((s : ℕ) : ℝ) * ((q : ℕ) : ℝ) / m) := by
    rw [cis_add, c1, c2, ← cis_add]
    push_cast
    rfl
  rw [e]
  exact c3.symm

/-- The peak of the whole-pixel correlation, as a signed shift. -/
theorem coarse_peak {n m : ℕ} (hn : 0 < n) (hm : 0 < m) (f t : Fin n → Fin m → ℝ) (mx : ℕ × ℕ)
    (hmx : argmax2 ((npIfft2 (imageProduct ⟨n, m, f⟩ ⟨n, m, t⟩)).map fun z => ‖z‖) = mx) (a b : ℤ) :
    ‖crossAt f t a b‖ ≤ ‖crossAt f t (((-unwrapShift n mx.1 : ℤ)) : ℝ) (((-unwrapShift m mx.2 : ℤ)) : ℝ)‖ := by
  have hs := argmax2_spec ((npIfft2 (imageProduct ⟨n, m, f⟩ ⟨n, m, t⟩)).map fun z => ‖z‖) hn hm
  rw [hmx] at hs
  have hpos : 0 < ‖(1 / ((n : ℂ) * m))‖ := by
    rw [norm_pos_iff]
    have h1 : (n : ℂ) ≠ 0 := by exact_mod_cast hn.ne'
    have h2 : (m : ℂ) ≠ 0 := by exact_mod_cast hm.ne'
    exact one_div_ne_zero (mul_ne_zero h1 h2)
  have hr : mx.1 < n := hs.row
  have hc : mx.2 < m := hs.col
  have hmost : ∀ (r : Fin n) (s : Fin m), ‖(npIfft2 (imageProduct ⟨n, m, f⟩ ⟨n, m, t⟩)).val r s‖ ≤
      ‖(npIfft2 (imageProduct ⟨n, m, f⟩ ⟨n, m, t⟩)).val ⟨mx.1, hr⟩ ⟨mx.2, hc⟩‖ := fun r s => hs.most r s
  have hle : ∀ (r : Fin n) (s : Fin m), ‖crossAt f t ((-((r : ℕ) : ℤ) : ℤ) : ℝ) ((-((s : ℕ) : ℤ) : ℤ) : ℝ)‖ ≤
      ‖crossAt f t ((-((mx.1 : ℕ) : ℤ) : ℤ) : ℝ) ((-((mx.2 : ℕ) : ℤ) : ℤ) : ℝ)‖ := by
    intro r s
    have := hmost r s
    have c1 := congrArg (fun z => ‖z‖) (coarse_cross f t r s)
    have c2 := congrArg (fun z => ‖z‖) (coarse_cross f t ⟨mx.1, hr⟩ ⟨mx.2, hc⟩)
    simp only [norm_mul] at c1 c2
    have := (c1.symm.le.trans this).trans c2.le
    exact le_of_mul_le_mul_left this hpos
  have a1 := Int.emod_nonneg (-a) (show (n : ℤ) ≠ 0 by omega)
  have a2 := Int.emod_lt_of_pos (-a) (show (0 : ℤ) < n by omega)
  have a3 := Int.emod_add_mul_ediv (-a) n
  have b1 := Int.emod_nonneg (-b) (show (m : ℤ) ≠ 0 by omega)
  have b2 := Int.emod_lt_of_pos (-b) (show (0 : ℤ) < m by omega)
  have b3 := Int.emod_add_mul_ediv (-b) m
  have h1 := hle ⟨((-a) % n).toNat, by omega⟩ ⟨((-b) % m).toNat, by omega⟩
  simp only [Int.toNat_of_nonneg a1, Int.toNat_of_nonneg b1] at h1
  have e1 : crossAt f t a b = crossAt f t ((-((-a) % n) : ℤ) : ℝ) ((-((-b) % m) : ℤ) : ℝ) := by
    rw [← crossAt_periodic f t ((-((-a) % n) : ℤ) : ℝ) _ (-(-a / n)) (-(-b / m))]
    congr 1
    · have : a = -((-a) % n) + n * (-(-a / n)) := by linarith
      exact_mod_cast this
    · have : b = -((-b) % m) + m * (-(-b / m)) := by linarith
      exact_mod_cast this
  rw [e1]
  refine h1.trans (le_of_eq ?_)
  have un : ∀ k r : ℕ, ∃ c : ℤ, -unwrapShift k r = -(r : ℤ) + k * c := by
    intro k r
    unfold unwrapShift
    split
    · exact ⟨1, by ring⟩
    · exact ⟨0, by ring⟩
  obtain ⟨c, hc'⟩ := un n mx.1
  obtain ⟨d, hd'⟩ := un m mx.2
  rw [hc', hd']
  have := crossAt_periodic f t ((-((mx.1 : ℕ) : ℤ) : ℤ) : ℝ) ((-((mx.2 : ℕ) : ℤ) : ℤ) : ℝ) c d
  rw [← this]
  push_cast
  rfl

/-- The upsampled correlation. -/
theorem refine_cross {n m : ℕ} (f t : Fin n → Fin m → ℝ) (s0 s1 d : ℤ) (region : ℤ) (kappa : ℝ) (up : Arr2 ℂ)
    (hup : computeUpsampledDft ((imageProduct ⟨n, m, f⟩ ⟨n, m, t⟩).map (starRingEnd ℂ)) [region, region] kappa
      [(d : ℝ) - s0 * kappa, (d : ℝ) - s1 * kappa] = .ok up) (v u : ℤ) (hv : 0 ≤ v ∧ v < region) (hu : 0 ≤ u ∧ u < region) :
    (up.px v u).map (starRingEnd ℂ) = some (crossAt f t (((-s0 : ℤ) : ℝ) + ((d : ℝ) - v) / kappa) (((-s1 : ℤ) : ℝ) + ((d : ℝ) - u) / kappa)) := by
  obtain ⟨hk, -, -, hval⟩ := upsampled_val _ _ _ _ _ _ _ hup
  rw [hval v u hv.1 hv.2 hu.1 hu.2, Option.map_some]
  congr 1
  rw [crossAt_fin, map_sum]
  refine Finset.sum_congr rfl fun p _ => ?_
  rw [map_sum]
  refine Finset.sum_congr rfl fun q _ => ?_
  rw [map_mul, conj_cis, neg_neg]
  have e1 : (starRingEnd ℂ) (((imageProduct ⟨n, m, f⟩ ⟨n, m, t⟩).map (starRingEnd ℂ)).val p q) =
      spec f p q * (starRingEnd ℂ) (spec t p q) := by
    have hps := product_spec f t p q
    rw [← hps]
    show (starRingEnd ℂ) ((starRingEnd ℂ) _) = _
    rw [Complex.conj_conj]
  rw [e1]
  congr 1
  show cis (((v : ℝ) - (d - s0 * kappa)) / kappa * fftfreqNum n p / n + ((u : ℝ) - (d - s1 * kappa)) / kappa * fftfreqNum m q / m) = _
  congr 1
  push_cast
  field_simp
  ring

/-- The refined estimate is the peak of the fine grid. -/
theorem refine_peak {n m : ℕ} (f t : Fin n → Fin m → ℝ) (s0 s1 : ℤ) (kappa : ℕ) (hk : 1 ≤ kappa) (pad y x : ℝ)
    (h : refineShift (imageProduct ⟨n, m, f⟩ ⟨n, m, t⟩) kappa pad s0 s1 = .ok (y, x)) :
    ∃ k0 k1 : ℤ, -y = ((-s0 : ℤ) : ℝ) + k0 / kappa ∧ -x = ((-s1 : ℤ) : ℝ) + k1 / kappa ∧ Near kappa pad k0 ∧ Near kappa pad k1 ∧
      ∀ a b : ℤ, Near kappa pad a → Near kappa pad b →
        ‖crossAt f t (((-s0 : ℤ) : ℝ) + a / kappa) (((-s1 : ℤ) : ℝ) + b / kappa)‖ ≤ ‖crossAt f t (-y) (-x)‖ := by
  have hk' : (1 : ℝ) ≤ kappa := by exact_mod_cast hk
  have hk0 : (kappa : ℝ) ≠ 0 := by positivity
  have hround : ∀ s : ℤ, ((npRound ((s : ℝ) * kappa) : ℤ) : ℝ) / kappa = s := by
    intro s
    have : (s : ℝ) * kappa = ((s * kappa : ℤ) : ℝ) := by push_cast; ring
    rw [this, npRound_intCast]
    push_cast
    field_simp
  unfold refineShift at h
  simp only [hround] at h
  unfold Near
  generalize ⌈(kappa : ℝ) * pad⌉ = R at h ⊢
  by_cases hR : R ≤ 0
  · rw [if_pos hR] at h; cases h
  rw [if_neg hR] at h
  cases hup : computeUpsampledDft ((imageProduct ⟨n, m, f⟩ ⟨n, m, t⟩).map (starRingEnd ℂ)) [R, R] (kappa : ℝ)
      [((R / 2 : ℤ) : ℝ) - s0 * kappa, ((R / 2 : ℤ) : ℝ) - s1 * kappa] with
  | error e => rw [hup] at h; cases h
  | ok up =>
  rw [hup] at h
  simp only [res_ok_bind] at h
  obtain ⟨-, hnr, hnc, -⟩ := upsampled_val _ _ _ _ _ _ _ hup
  have hz : (n : ℕ) ≠ 0 ∧ m ≠ 0 := by
    unfold computeUpsampledDft at hup
    simp only at hup
    split at hup
    · cases hup
    · next c =>
      push Not at c
      exact ⟨c.2.1, c.2.2⟩
  have hval := refine_cross f t s0 s1 (R / 2) R kappa up hup
  obtain ⟨un, um, uf⟩ := up
  simp only at hnr hnc
  have hnorm : ∀ (v : Fin un) (u : Fin um), ‖(starRingEnd ℂ) (uf v u)‖ =
      ‖crossAt f t (((-s0 : ℤ) : ℝ) + (((R / 2 : ℤ) : ℝ) - ((v : ℕ) : ℝ)) / kappa) (((-s1 : ℤ) : ℝ) + (((R / 2 : ℤ) : ℝ) - ((u : ℕ) : ℝ)) / kappa)‖ := by
    intro v u
    have hv := v.isLt
    have hu := u.isLt
    have := hval (v : ℕ) (u : ℕ) ⟨by omega, by omega⟩ ⟨by omega, by omega⟩
    have hpx := Arr2.px_val (⟨un, um, uf⟩ : Arr2 ℂ) v u
    rw [hpx, Option.map_some] at this
    have e := Option.some.inj this
    rw [Int.cast_natCast, Int.cast_natCast] at e
    exact congrArg (fun z => ‖z‖) e
  have hs := argmax2_spec (((⟨un, um, uf⟩ : Arr2 ℂ).map fun z => (starRingEnd ℂ) z /
      ((((imageProduct ⟨n, m, f⟩ ⟨n, m, t⟩).nr : ℂ) * (imageProduct ⟨n, m, f⟩ ⟨n, m, t⟩).nc) * (((kappa : ℝ) : ℝ) : ℂ) ^ 2)).map
      fun z => ‖z‖) (show 0 < un by omega) (show 0 < um by omega)
  generalize argmax2 (((⟨un, um, uf⟩ : Arr2 ℂ).map fun z => (starRingEnd ℂ) z /
      ((((imageProduct ⟨n, m, f⟩ ⟨n, m, t⟩).nr : ℂ) * (imageProduct ⟨n, m, f⟩ ⟨n, m, t⟩).nc) * (((kappa : ℝ) : ℝ) : ℂ) ^ 2)).map
      fun z => ‖z‖) = mx at h hs
  have hr : mx.1 < un := hs.row
  have hc : mx.2 < um := hs.col
  have hden : 0 < ‖((((imageProduct ⟨n, m, f⟩ ⟨n, m, t⟩).nr : ℂ) * (imageProduct ⟨n, m, f⟩ ⟨n, m, t⟩).nc) *
      (((kappa : ℝ) : ℝ) : ℂ) ^ 2)‖ := by
    rw [norm_pos_iff]
    refine mul_ne_zero (mul_ne_zero ?_ ?_) (pow_ne_zero _ ?_)
    · show (n : ℂ) ≠ 0
      exact_mod_cast hz.1
    · show (m : ℂ) ≠ 0
      exact_mod_cast hz.2
    · exact_mod_cast hk0
  have hmost : ∀ (v : Fin un) (u : Fin um), ‖(starRingEnd ℂ) (uf v u)‖ ≤ ‖(starRingEnd ℂ) (uf ⟨mx.1, hr⟩ ⟨mx.2, hc⟩)‖ := by
    intro v u
    have h1 : ‖(starRingEnd ℂ) (uf v u) / _‖ ≤ ‖(starRingEnd ℂ) (uf ⟨mx.1, hr⟩ ⟨mx.2, hc⟩) / _‖ := hs.most v u
    rw [norm_div, norm_div] at h1
    exact (div_le_div_iff_of_pos_right hden).mp h1
  have hyx := Except.ok.inj h
  have hy : (s0 : ℝ) + (((mx.1 : ℕ) : ℝ) - ((R / 2 : ℤ) : ℝ)) / kappa = y := congrArg Prod.fst hyx
  have hx : (s1 : ℝ) + (((mx.2 : ℕ) : ℝ) - ((R / 2 : ℤ) : ℝ)) / kappa = x := congrArg Prod.snd hyx
  have ey : -y = ((-s0 : ℤ) : ℝ) + ((R / 2 - (mx.1 : ℤ) : ℤ) : ℝ) / kappa := by rw [← hy]; push_cast; ring
  have ex : -x = ((-s1 : ℤ) : ℝ) + ((R / 2 - (mx.2 : ℤ) : ℤ) : ℝ) / kappa := by rw [← hx]; push_cast; ring
  refine ⟨R / 2 - mx.1, R / 2 - mx.2, ey, ex, by omega, by omega, fun a b ha hb => ?_⟩
  have h1 := hmost ⟨(R / 2 - a).toNat, by omega⟩ ⟨(R / 2 - b).toNat, by omega⟩
  rw [hnorm, hnorm] at h1
  have c1 : ((((R / 2 - a).toNat : ℕ)) : ℝ) = ((R / 2 - a : ℤ) : ℝ) := by
    exact_mod_cast Int.toNat_of_nonneg (show 0 ≤ R / 2 - a by omega)
  have c2 : ((((R / 2 - b).toNat : ℕ)) : ℝ) = ((R / 2 - b : ℤ) : ℝ) := by
    exact_mod_cast Int.toNat_of_nonneg (show 0 ≤ R / 2 - b by omega)
  simp only [c1, c2] at h1
  rw [ey, ex]
  push_cast at h1 ⊢
  simpa using h1

/-- **C54.** For any two images: the answer is found in two steps.  A whole-pixel shift, at most half the image, at which the modulus of the
cross-correlation is largest among all whole-pixel shifts; then, with a whole upsampling factor other than 1, the largest on the grid of
`1 / kappa` pixels in a region `ceil(kappa * pad)` samples wide about that shift, along both axes together. -/
theorem C54_peak (T : Shift) (cfg : PsfConfig) (kappa : ℕ) (hk : 1 ≤ kappa) (hcfg : cfg.upsample = kappa) {n m : ℕ}
    (f t : Fin n → Fin m → ℝ) (y x amp : ℝ) (h : psffit T cfg ⟨n, m, f⟩ ⟨n, m, t⟩ = .ok ((y, x), amp)) :
    ∃ s0 s1 : ℤ, (s0 ∈ window n ∧ s1 ∈ window m) ∧ (∀ a b : ℤ, ‖crossAt f t a b‖ ≤ ‖crossAt f t s0 s1‖) ∧
      (kappa = 1 → y = s0 ∧ x = s1) ∧
      (kappa ≠ 1 → ∃ k0 k1 : ℤ, y = s0 + k0 / kappa ∧ x = s1 + k1 / kappa ∧ Near kappa cfg.pad k0 ∧ Near kappa cfg.pad k1 ∧
        ∀ a b : ℤ, Near kappa cfg.pad a → Near kappa cfg.pad b →
          ‖crossAt f t (s0 + a / kappa) (s1 + b / kappa)‖ ≤ ‖crossAt f t y x‖) := by
  unfold psffit at h
  by_cases hz : n = 0 ∨ m = 0
  · rw [if_neg (by push Not; exact ⟨rfl, rfl⟩), if_pos hz] at h
    cases h
  rw [if_neg (by push Not; exact ⟨rfl, rfl⟩), if_neg hz] at h
  push Not at hz
  simp only at h
  have hp := coarse_peak (by omega) (by omega) f t _ rfl
  have hs := argmax2_spec ((npIfft2 (imageProduct ⟨n, m, f⟩ ⟨n, m, t⟩)).map fun z => ‖z‖) (show 0 < n by omega) (show 0 < m by omega)
  generalize argmax2 ((npIfft2 (imageProduct ⟨n, m, f⟩ ⟨n, m, t⟩)).map fun z => ‖z‖) = mx at h hp hs
  have hr : mx.1 < n := hs.row
  have hc : mx.2 < m := hs.col
  have hw : ∀ k r : ℕ, r < k → -unwrapShift k r ∈ window k := by
    intro k r hr
    rw [mem_window]
    unfold unwrapShift
    split <;> omega
  refine ⟨-unwrapShift n mx.1, -unwrapShift m mx.2, ⟨hw _ _ hr, hw _ _ hc⟩, hp, ?_, ?_⟩
  · intro h1
    rw [if_neg (by rw [hcfg, h1]; simp)] at h
    simp only [res_ok_bind] at h
    have := Except.ok.inj h
    have e1 := congrArg (fun z => z.1.1) this
    have e2 := congrArg (fun z => z.1.2) this
    simp only at e1 e2
    push_cast
    exact ⟨e1.symm, e2.symm⟩
  · intro h1
    rw [if_pos (by rw [hcfg]; exact_mod_cast h1), hcfg] at h
    cases hre : refineShift (imageProduct ⟨n, m, f⟩ ⟨n, m, t⟩) kappa cfg.pad (unwrapShift n mx.1) (unwrapShift m mx.2) with
    | error e => rw [hre] at h; cases h
    | ok s =>
    rw [hre] at h
    simp only [res_ok_bind] at h
    have := Except.ok.inj h
    have e1 : -s.1 = y := congrArg (fun z => z.1.1) this
    have e2 : -s.2 = x := congrArg (fun z => z.1.2) this
    have := refine_peak f t _ _ kappa hk cfg.pad s.1 s.2 hre
    rw [e1, e2] at this
    exact this

end Coralign.Props
