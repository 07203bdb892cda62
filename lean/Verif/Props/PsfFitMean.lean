import Verif.Props.PsfFit

/-!
# Property C54 for images of any mean

The phase maps registered by `fit_z_induced_spm_shear` have zero mean, so the versions of C54 that need a nonzero total do not cover them.
-/

namespace Coralign.Props

open Coralign Finset

/-- No cyclic translation other than the trivial ones maps the image to itself or to its negative. -/
def SignAsymmetric {n m : ℕ} (f : Fin n → Fin m → ℝ) : Prop :=
  ∀ y x : ℕ, ((∀ i j, f (rollIdx n y i) (rollIdx m x j) = f i j) ∨ (∀ i j, f (rollIdx n y i) (rollIdx m x j) = -f i j)) → n ∣ y ∧ m ∣ x

theorem spec_conj {n m : ℕ} (hn : 0 < n) (hm : 0 < m) (f : Fin n → Fin m → ℝ) (p : Fin n) (q : Fin m) :
    spec f (negIdx n p hn) (negIdx m q hm) = (starRingEnd ℂ) (spec f p q) := by
  obtain ⟨k, hk⟩ := (negIdx_dvd n p hn _).mpr rfl
  obtain ⟨l, hl⟩ := (negIdx_dvd m q hm _).mpr rfl
  have hk' : ((negIdx n p hn : ℕ) : ℝ) = n * k - (p : ℕ) := by
    have := congrArg (fun z : ℤ => (z : ℝ)) hk
    push_cast at this
    linarith
  have hl' : ((negIdx m q hm : ℕ) : ℝ) = m * l - (q : ℕ) := by
    have := congrArg (fun z : ℤ => (z : ℝ)) hl
    push_cast at this
    linarith
  have hn0 : (n : ℝ) ≠ 0 := by positivity
  have hm0 : (m : ℝ) ≠ 0 := by positivity
  rw [spec_eq, spec_eq, map_sum]
  refine Finset.sum_congr rfl fun i _ => ?_
  rw [map_sum]
  refine Finset.sum_congr rfl fun j _ => ?_
  rw [map_mul, conj_cis, Complex.conj_ofReal, hk', hl', ← cis_add_int (-_) (k * ((i : ℕ) : ℤ) + l * ((j : ℕ) : ℤ))]
  congr 2
  push_cast
  field_simp
  ring

theorem signAsymmetric_lt {n m : ℕ} (hn : 0 < n) (hm : 0 < m) (f : Fin n → Fin m → ℝ) (A : ℝ) (hA : 0 < A)
    (hasym : SignAsymmetric f) (hf : ∃ i j, f i j ≠ 0) (a b : ℤ) (hab : ¬ ((n : ℤ) ∣ a ∧ (m : ℤ) ∣ b)) :
    ‖phases (weight f A) (a : ℝ) (b : ℝ)‖ < ‖phases (weight f A) 0 0‖ := by
  have key : ∀ y x : ℕ, ¬ (n ∣ y ∧ m ∣ x) → ‖phases (weight f A) (((y : ℕ) : ℤ) : ℝ) (((x : ℕ) : ℤ) : ℝ)‖ < ‖phases (weight f A) 0 0‖ := by
    intro y x hyx
    set ph : Fin n → Fin m → ℂ := fun p q => cis ((y : ℝ) * ((p : ℕ) : ℝ) / n + (x : ℝ) * ((q : ℕ) : ℝ) / m) with hph
    obtain ⟨p0, q0, h0⟩ : ∃ p q, spec f p q ≠ 0 := by
      by_contra hno
      push Not at hno
      have : f = fun _ _ => 0 := by
        apply spec_injective
        intro p q
        rw [hno p q, spec_eq]
        simp
      obtain ⟨i, j, hij⟩ := hf
      exact hij (by rw [this])
    obtain ⟨p, q, hpq, hne⟩ : ∃ p q, spec f p q ≠ 0 ∧ ph p q ≠ ph p0 q0 := by
      by_contra hno
      push Not at hno
      have hconj : ∀ (p : Fin n) (q : Fin m), ph (negIdx n p hn) (negIdx m q hm) = (starRingEnd ℂ) (ph p q) := by
        intro p q
        obtain ⟨k, hk⟩ := (negIdx_dvd n p hn _).mpr rfl
        obtain ⟨l, hl⟩ := (negIdx_dvd m q hm _).mpr rfl
        have hk' : ((negIdx n p hn : ℕ) : ℝ) = n * k - (p : ℕ) := by
          have := congrArg (fun z : ℤ => (z : ℝ)) hk
          push_cast at this
          linarith
        have hl' : ((negIdx m q hm : ℕ) : ℝ) = m * l - (q : ℕ) := by
          have := congrArg (fun z : ℤ => (z : ℝ)) hl
          push_cast at this
          linarith
        have hn0 : (n : ℝ) ≠ 0 := by positivity
        have hm0 : (m : ℝ) ≠ 0 := by positivity
        simp only [hph]
        rw [conj_cis, hk', hl', ← cis_add_int (-_) ((y : ℤ) * k + (x : ℤ) * l)]
        congr 1
        push_cast
        field_simp
        ring
      have hreal : (starRingEnd ℂ) (ph p0 q0) = ph p0 q0 := by
        rw [← hconj]
        apply hno
        rw [spec_conj]
        intro h
        apply h0
        have := congrArg (starRingEnd ℂ) h
        rwa [Complex.conj_conj, map_zero] at this
      have hnorm : ‖ph p0 q0‖ = 1 := norm_cis _
      obtain ⟨r, hr⟩ := Complex.conj_eq_iff_real.mp hreal
      have hr1 : r = 1 ∨ r = -1 := by
        rw [hr, Complex.norm_real, Real.norm_eq_abs] at hnorm
        exact eq_or_eq_neg_of_abs_eq hnorm
      have hrr : r * r = 1 := by rcases hr1 with rfl | rfl <;> norm_num
      apply hyx
      apply hasym
      have htr : Translated (fun i j => f (rollIdx n y i) (rollIdx m x j)) f 1 y x := fun i j => (one_mul _).symm
      have hfun : (fun i j => f (rollIdx n y i) (rollIdx m x j)) = fun i j => r * f i j := by
        apply spec_injective
        intro p q
        have e := spec_translated _ f 1 y x htr p q
        have hs : spec (fun i j => r * f i j) p q = r * spec f p q := by
          rw [spec_eq, spec_eq, Finset.mul_sum]
          refine Finset.sum_congr rfl fun i _ => ?_
          rw [Finset.mul_sum]
          refine Finset.sum_congr rfl fun j _ => ?_
          push_cast
          ring
        rw [hs]
        by_cases hz : spec f p q = 0
        · rw [hz] at e ⊢
          have hc : cis (-((y : ℝ) * ((p : ℕ) : ℝ) / n + (x : ℝ) * ((q : ℕ) : ℝ) / m)) ≠ 0 := by
            rw [← norm_pos_iff, norm_cis]; exact one_pos
          have := (mul_eq_zero.mp e.symm).resolve_right hc
          simpa using this
        · have h1 : cis ((y : ℝ) * ((p : ℕ) : ℝ) / n + (x : ℝ) * ((q : ℕ) : ℝ) / m) = r := (hno p q hz).trans hr
          have h2 : cis (-((y : ℝ) * ((p : ℕ) : ℝ) / n + (x : ℝ) * ((q : ℕ) : ℝ) / m)) = r := by
            rw [← conj_cis, h1, Complex.conj_ofReal]
          rw [h2] at e
          have hrr' : (r : ℂ) * r = 1 := by exact_mod_cast hrr
          rw [e]
          push_cast
          rw [one_mul, mul_comm (r : ℂ), mul_assoc, hrr', mul_one]
      rcases hr1 with rfl | rfl
      · left
        intro i j
        have := congrFun (congrFun hfun i) j
        simpa using this
      · right
        intro i j
        have := congrFun (congrFun hfun i) j
        simpa using this
    refine phases_lt (weight f A) (weight_nonneg f A hA) p0 q0 p q (weight_pos f A hA _ _ h0) (weight_pos f A hA _ _ hpq) _ _ ?_
    rw [cis_add, cis_add, cis_fftfreq_pos n p hn, cis_fftfreq_pos m q hm, cis_fftfreq_pos n p0 hn, cis_fftfreq_pos m q0 hm, ← cis_add, ← cis_add]
    intro h
    apply hne
    push_cast at h
    exact h.symm
  have ha := Int.emod_add_mul_ediv a n
  have hb := Int.emod_add_mul_ediv b m
  have ha0 := Int.emod_nonneg a (show (n : ℤ) ≠ 0 by omega)
  have hb0 := Int.emod_nonneg b (show (m : ℤ) ≠ 0 by omega)
  have hper := phases_periodic (weight f A) (((a % n).toNat : ℤ) : ℝ) (((b % m).toNat : ℤ) : ℝ) (a / n) (b / m)
  rw [Int.toNat_of_nonneg ha0, Int.toNat_of_nonneg hb0] at hper
  have ea : ((a % n : ℤ) : ℝ) + n * ((a / n : ℤ) : ℝ) = a := by exact_mod_cast ha
  have eb : ((b % m : ℤ) : ℝ) + m * ((b / m : ℤ) : ℝ) = b := by exact_mod_cast hb
  rw [ea, eb] at hper
  rw [hper]
  have := key (a % n).toNat (b % m).toNat ?_
  · rwa [Int.toNat_of_nonneg ha0, Int.toNat_of_nonneg hb0] at this
  · rintro ⟨h1, h2⟩
    apply hab
    have h1' : (n : ℤ) ∣ ((a % n).toNat : ℤ) := by exact_mod_cast h1
    have h2' : (m : ℤ) ∣ ((b % m).toNat : ℤ) := by exact_mod_cast h2
    rw [Int.toNat_of_nonneg ha0] at h1'
    rw [Int.toNat_of_nonneg hb0] at h2'
    exact ⟨(Int.dvd_iff_emod_eq_zero ..).mpr (by
        have := Int.emod_emod_of_dvd a (dvd_refl (n : ℤ)); rw [← this]; exact Int.emod_eq_zero_of_dvd h1'),
      (Int.dvd_iff_emod_eq_zero ..).mpr (by
        have := Int.emod_emod_of_dvd b (dvd_refl (m : ℤ)); rw [← this]; exact Int.emod_eq_zero_of_dvd h2')⟩

/-- **C54.** Without upsampling, for a source of any mean: a target that is a positive multiple of the source, translated cyclically by whole
pixels, is found at exactly that translation, for every nonzero source that no translation maps to itself or to its negative. -/
theorem C54_pixel_any_mean (T : Shift) (cfg : PsfConfig) (hcfg : cfg.upsample = 1) {n m : ℕ}
    (f t : Fin n → Fin m → ℝ) (A : ℝ) (hA : 0 < A) (y x : ℕ) (h : Translated f t A y x) (hf : ∃ i j, f i j ≠ 0) (hasym : SignAsymmetric f) :
    ∃ s0 s1 : ℤ, SignedShift n y s0 ∧ SignedShift m x s1 ∧
      ∃ amp, psffit T cfg ⟨n, m, f⟩ ⟨n, m, t⟩ = .ok (((s0 : ℝ), (s1 : ℝ)), amp) := by
  obtain ⟨i, j, hij⟩ := hf
  have hn : 0 < n := Nat.lt_of_le_of_lt (Nat.zero_le _) i.isLt
  have hm : 0 < m := Nat.lt_of_le_of_lt (Nat.zero_le _) j.isLt
  obtain ⟨s0, s1, h0, h1, hp⟩ := psffit_found T cfg hn hm f t A y x h (signAsymmetric_lt hn hm f A hA hasym ⟨i, j, hij⟩)
    (fun hne => absurd hcfg hne)
  exact ⟨s0, s1, h0, h1, _, hp⟩

/-- `C54_pixel_any_mean` covers everything `C54_pixel` does. -/
theorem signAsymmetric_of_sum {n m : ℕ} (f : Fin n → Fin m → ℝ) (hsum : ∑ i, ∑ j, f i j ≠ 0) (h : Asymmetric f) : SignAsymmetric f := by
  intro y x hyx
  rcases hyx with hyx | hyx
  · exact h y x hyx
  · exfalso
    apply hsum
    have e : ∑ i, ∑ j, f i j = ∑ i, ∑ j, f (rollIdx n y i) (rollIdx m x j) := by
      rw [← sum_rollIdx n y]
      exact Finset.sum_congr rfl fun i _ => (sum_rollIdx m x _).symm
    have e2 : ∑ i, ∑ j, f (rollIdx n y i) (rollIdx m x j) = -∑ i, ∑ j, f i j := by
      simp only [hyx, Finset.sum_neg_distrib]
    linarith

theorem neighbours_lt {n m : ℕ} (f : Fin n → Fin m → ℝ) (A : ℝ) (hA : 0 < A) (p q : ℕ) (hp : 2 * (p + 1) < n) (hq : 2 * (q + 1) < m)
    (h00 : spec f ⟨p, by omega⟩ ⟨q, by omega⟩ ≠ 0) (h10 : spec f ⟨p + 1, by omega⟩ ⟨q, by omega⟩ ≠ 0)
    (h01 : spec f ⟨p, by omega⟩ ⟨q + 1, by omega⟩ ≠ 0) (x y : ℝ) (hx : |x| < n) (hy : |y| < m) (hne : ¬ (x = 0 ∧ y = 0)) :
    ‖phases (weight f A) x y‖ < ‖phases (weight f A) 0 0‖ := by
  have freq : ∀ N k : ℕ, 2 * k < N → ((fftfreqNum N k : ℤ) : ℝ) = k := by
    intro N k hk
    unfold fftfreqNum
    rw [if_pos (by omega)]
    norm_cast
  have one : ∀ N : ℕ, 2 < N → ((fftfreqNum N 1 : ℤ) : ℝ) = 1 := fun N hN => by rw [freq N 1 (by omega)]; norm_num
  have cancel : ∀ a b c : ℝ, cis a = cis b → b - a = c → cis c = 1 := by
    intro a b c h e
    have h2 : cis b * cis (-a) = 1 := by rw [← h, ← cis_add, add_neg_cancel, cis_zero]
    rw [← e, sub_eq_add_neg, cis_add]
    exact h2
  by_cases h0 : x = 0
  · refine phases_lt (weight f A) (weight_nonneg f A hA) ⟨p, by omega⟩ ⟨q, by omega⟩ ⟨p, by omega⟩ ⟨q + 1, by omega⟩
      (weight_pos f A hA _ _ h00) (weight_pos f A hA _ _ h01) _ _ ?_
    intro h
    refine hne ⟨h0, cis_fraction m (by omega) y hy ?_⟩
    refine cancel _ _ _ h ?_
    simp only
    rw [freq m q (by omega), freq m (q + 1) (by omega), one m (by omega)]
    push_cast
    ring
  · refine phases_lt (weight f A) (weight_nonneg f A hA) ⟨p, by omega⟩ ⟨q, by omega⟩ ⟨p + 1, by omega⟩ ⟨q, by omega⟩
      (weight_pos f A hA _ _ h00) (weight_pos f A hA _ _ h10) _ _ ?_
    intro h
    refine h0 (cis_fraction n (by omega) x hx ?_)
    refine cancel _ _ _ h ?_
    simp only
    rw [freq n p (by omega), freq n (p + 1) (by omega), one n (by omega)]
    push_cast
    ring

/-- **C54.** With upsampling by any whole factor, over a region no wider than the image, for a source of any mean: the translation is found
whenever the transform of the source does not vanish at some frequency below the middle and at its neighbour along either axis. -/
theorem C54_subpixel_any_mean (T : Shift) (cfg : PsfConfig) (kappa : ℕ) (hk : 1 ≤ kappa) (hcfg : cfg.upsample = kappa) {n m : ℕ}
    (hp : 0 < cfg.pad) (hpn : cfg.pad ≤ n) (hpm : cfg.pad ≤ m)
    (f t : Fin n → Fin m → ℝ) (A : ℝ) (hA : 0 < A) (y x : ℕ) (h : Translated f t A y x) (p q : ℕ) (hpn' : 2 * (p + 1) < n) (hqm : 2 * (q + 1) < m)
    (h00 : dftAt (Arr2.toC ⟨n, m, f⟩) p q ≠ 0) (h10 : dftAt (Arr2.toC ⟨n, m, f⟩) (p + 1) q ≠ 0) (h01 : dftAt (Arr2.toC ⟨n, m, f⟩) p (q + 1) ≠ 0) :
    ∃ s0 s1 : ℤ, SignedShift n y s0 ∧ SignedShift m x s1 ∧
      ∃ amp, psffit T cfg ⟨n, m, f⟩ ⟨n, m, t⟩ = .ok (((s0 : ℝ), (s1 : ℝ)), amp) := by
  have g00 : spec f ⟨p, by omega⟩ ⟨q, by omega⟩ ≠ 0 := by rw [spec_dftAt]; simpa using h00
  have g10 : spec f ⟨p + 1, by omega⟩ ⟨q, by omega⟩ ≠ 0 := by rw [spec_dftAt]; simpa using h10
  have g01 : spec f ⟨p, by omega⟩ ⟨q + 1, by omega⟩ ≠ 0 := by rw [spec_dftAt]; simpa using h01
  have hlt := neighbours_lt f A hA p q hpn' hqm g00 g10 g01
  have hint : ∀ a b : ℤ, ¬ ((n : ℤ) ∣ a ∧ (m : ℤ) ∣ b) → ‖phases (weight f A) (a : ℝ) (b : ℝ)‖ < ‖phases (weight f A) 0 0‖ := by
    intro a b hab
    have ha := Int.emod_add_mul_ediv a n
    have hb := Int.emod_add_mul_ediv b m
    have ha0 := Int.emod_nonneg a (show (n : ℤ) ≠ 0 by omega)
    have hb0 := Int.emod_nonneg b (show (m : ℤ) ≠ 0 by omega)
    have ha1 := Int.emod_lt_of_pos a (show (0 : ℤ) < n by omega)
    have hb1 := Int.emod_lt_of_pos b (show (0 : ℤ) < m by omega)
    have hper := phases_periodic (weight f A) ((a % n : ℤ) : ℝ) ((b % m : ℤ) : ℝ) (a / n) (b / m)
    have ea : ((a % n : ℤ) : ℝ) + n * ((a / n : ℤ) : ℝ) = a := by exact_mod_cast ha
    have eb : ((b % m : ℤ) : ℝ) + m * ((b / m : ℤ) : ℝ) = b := by exact_mod_cast hb
    rw [ea, eb] at hper
    rw [hper]
    refine hlt _ _ ?_ ?_ ?_
    · rw [abs_of_nonneg (by exact_mod_cast ha0)]; exact_mod_cast ha1
    · rw [abs_of_nonneg (by exact_mod_cast hb0)]; exact_mod_cast hb1
    · rintro ⟨h1, h2⟩
      apply hab
      exact ⟨Int.dvd_of_emod_eq_zero (by exact_mod_cast h1), Int.dvd_of_emod_eq_zero (by exact_mod_cast h2)⟩
  obtain ⟨s0, s1, e0, e1, hps⟩ := psffit_found T cfg (by omega) (by omega) f t A y x h hint
    (fun _ s0 s1 d0 d1 => by
      rw [hcfg]
      exact refine_found (by omega) (by omega) f t A y x h s0 s1 d0 d1 kappa hk cfg.pad hp hpn hpm hlt)
  exact ⟨s0, s1, e0, e1, _, hps⟩

/-! ### The hypotheses can be met -/

/-- A bright pixel next to a dark one: the total is zero. -/
noncomputable def dipole (n m a b : ℕ) (i : Fin n) (j : Fin m) : ℝ := dot n m a b 1 i j - dot n m a (b + 1) 1 i j

theorem dipole_translated : Translated (dipole 3 5 0 0) (dipole 3 5 1 2) 1 1 2 := by
  intro i j
  unfold dipole dot rollIdx
  fin_cases i <;> fin_cases j <;> norm_num

theorem dipole_signAsymmetric : SignAsymmetric (dipole 3 5 0 0) := by
  intro y x h
  have a00 : dipole 3 5 0 0 0 0 = 1 := by unfold dipole dot; norm_num
  have a01 : dipole 3 5 0 0 0 1 = -1 := by unfold dipole dot; norm_num
  have one : ∀ i j, dipole 3 5 0 0 i j = 1 → (i : ℕ) = 0 ∧ (j : ℕ) = 0 := by
    intro i j h
    unfold dipole dot at h
    by_contra hc
    rw [if_neg hc] at h
    split at h <;> norm_num at h
  have neg : ∀ i j, dipole 3 5 0 0 i j = -1 → (i : ℕ) = 0 ∧ (j : ℕ) = 1 := by
    intro i j h
    unfold dipole dot at h
    by_contra hc
    have hc' : ¬ ((i : ℕ) = 0 ∧ (j : ℕ) = 0 + 1) := hc
    rw [if_neg hc'] at h
    split at h <;> norm_num at h
  rcases h with h | h
  · have h1 := one _ _ ((h 0 0).trans a00)
    have h1' : (0 + y) % 3 = 0 ∧ (0 + x) % 5 = 0 := h1
    omega
  · exfalso
    have h1 := neg _ _ ((h 0 0).trans (by rw [a00]))
    have h2 := one _ _ ((h 0 1).trans (by rw [a01, neg_neg]))
    have h1' : (0 + y) % 3 = 0 ∧ (0 + x) % 5 = 1 := h1
    have h2' : (0 + y) % 3 = 0 ∧ (1 + x) % 5 = 0 := h2
    omega

theorem dipole_dft (p : ℕ) (q : ℕ) (hq : 0 < q ∧ q < 5) : dftAt (Arr2.toC ⟨3, 5, dipole 3 5 0 0⟩) p q ≠ 0 := by
  have : dftAt (Arr2.toC ⟨3, 5, dipole 3 5 0 0⟩) p q = 1 - cis (-((q : ℝ) / 5)) := by
    unfold dftAt Arr2.toC Arr2.map dipole dot cis
    simp only [Fin.sum_univ_succ, Fin.sum_univ_zero]
    norm_num [Fin.val_succ]
    rw [sub_eq_add_neg]
  rw [this]
  intro h
  obtain ⟨z, hz⟩ := (cis_eq_one_iff _).mp (sub_eq_zero.mp h).symm
  have h5 : (-(q : ℤ) : ℤ) = 5 * z := by
    have : -(q : ℝ) = 5 * z := by linarith
    exact_mod_cast this
  omega

/-- `C54_pixel_any_mean` and `C54_subpixel_any_mean`: a dipole moved by one row and two columns. -/
example : ∃ s0 s1 : ℤ, SignedShift 3 1 s0 ∧ SignedShift 5 2 s1 ∧ ∃ amp,
    psffit Shift.nearest ⟨1, 1.5, 0.2⟩ ⟨3, 5, dipole 3 5 0 0⟩ ⟨3, 5, dipole 3 5 1 2⟩ = .ok (((s0 : ℝ), (s1 : ℝ)), amp) :=
  C54_pixel_any_mean Shift.nearest ⟨1, 1.5, 0.2⟩ rfl _ _ 1 one_pos 1 2 dipole_translated ⟨0, 0, by unfold dipole dot; norm_num⟩ dipole_signAsymmetric

example : ∃ s0 s1 : ℤ, SignedShift 3 1 s0 ∧ SignedShift 5 2 s1 ∧ ∃ amp,
    psffit Shift.nearest ⟨200, 1.5, 0.2⟩ ⟨3, 5, dipole 3 5 0 0⟩ ⟨3, 5, dipole 3 5 1 2⟩ = .ok (((s0 : ℝ), (s1 : ℝ)), amp) :=
  C54_subpixel_any_mean Shift.nearest ⟨200, 1.5, 0.2⟩ 200 (by omega) (by norm_num) (by norm_num) (by norm_num) (by norm_num) _ _ 1 one_pos 1 2
    dipole_translated 0 1 (by norm_num) (by norm_num) (by simpa using dipole_dft 0 1 (by omega)) (by simpa using dipole_dft 1 1 (by omega))
    (by have := dipole_dft 0 2 (by omega); norm_num at this ⊢; exact this)

/-- Without `SignAsymmetric` the shift is ambiguous: this image changes sign when moved by one column of two. -/
example : ¬ SignAsymmetric (fun (_ : Fin 1) (j : Fin 2) => if (j : ℕ) = 0 then (1 : ℝ) else -1) := by
  intro h
  have := h 0 1 (Or.inr (by intro i j; unfold rollIdx; fin_cases j <;> norm_num))
  omega

end Coralign.Props
