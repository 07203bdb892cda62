import Verif.Model.FresnelDouble
import Verif.Props.Fresnel
import Verif.Props.HlcDouble

/-!
# Property C103: which arrays the angular-spectrum propagation accepts in double precision
-/

namespace Coralign.Props

open Coralign

variable {e : Arr2 ℂ} {lam z z' ppm : ℝ} {nx : ℤ}

/-- The number of samples needed: `lam |z| ppm ^ 2`. -/
noncomputable def samplesNeeded (lam z ppm : ℝ) : ℝ := lam * |z| * ppm ^ 2

/-- Wavelength, distance and pixels per metre all between `2 ^ -40` and `2 ^ 40`, in either direction. -/
structure FairFresnel (lam z ppm : ℝ) : Prop where
  lam : Fair lam
  z : Fair |z|
  ppm : Fair ppm

theorem FairFresnel.ne (h : FairFresnel lam z ppm) : z ≠ 0 := by
  rintro rfl
  have := h.z.1
  rw [abs_zero] at this
  exact absurd this (not_le.mpr (two_zpow_pos _))

theorem FairFresnel.args (h : FairFresnel lam z ppm) (hn : 0 < nx) : FresnelArgs lam nx ppm :=
  ⟨(two_zpow_pos _).trans_le h.lam.1, hn, (two_zpow_pos _).trans_le h.ppm.1⟩

/-- The number the code rounds up. -/
noncomputable def neededD (lam z ppm : ℝ) : ℝ := double (double (lam * |z|) * double (ppm ^ 2))

theorem needed_appr (h : FairFresnel lam z ppm) : Appr 3 160 (neededD lam z ppm) (samplesNeeded lam z ppm) := by
  have hp : Appr 0 80 (ppm ^ 2) (ppm ^ 2) := by rw [sq]; exact h.ppm.appr.mul h.ppm.appr
  exact (((h.lam.appr.mul h.z.appr).double (by norm_num) (by norm_num)).mul (hp.double (by norm_num) (by norm_num))).double (by norm_num) (by norm_num)

theorem nSamplesMinD_le (n : ℕ) : nSamplesMinD lam z ppm ≤ n ↔ neededD lam z ppm ≤ n := by
  unfold nSamplesMinD neededD
  rw [Int.ceil_le]
  simp

theorem fresnelpropD_eq (h : FresnelArgs lam nx ppm) (hz : z ≠ 0) : fresnelpropD e lam z nx ppm =
    if neededD lam z ppm ≤ (min e.nr e.nc : ℕ) then angularSpectrum e nx (fresnelPhase lam z nx.toNat ppm) else .error .valueError := by
  unfold fresnelpropD
  rw [fresnelChecks_ok h]
  simp only [bind, Except.bind]
  rw [if_neg hz]
  by_cases hc : neededD lam z ppm ≤ (min e.nr e.nc : ℕ)
  · rw [if_pos hc, if_neg]
    have := (nSamplesMinD_le _).mpr hc
    omega
  · rw [if_neg hc, if_pos]
    have := mt (nSamplesMinD_le _).mp hc
    omega

theorem fresnelprop_eq (h : FresnelArgs lam nx ppm) (hz : z ≠ 0) : fresnelprop e lam z nx ppm =
    if samplesNeeded lam z ppm ≤ (min e.nr e.nc : ℕ) then angularSpectrum e nx (fresnelPhase lam z nx.toNat ppm) else .error .valueError := by
  unfold fresnelprop
  rw [fresnelChecks_ok h]
  simp only [bind, Except.bind]
  rw [if_neg hz]
  by_cases hc : samplesNeeded lam z ppm ≤ (min e.nr e.nc : ℕ)
  · rw [if_pos hc, if_neg]
    have := (nSamplesMin_le _ lam z ppm).mpr hc
    omega
  · rw [if_neg hc, if_pos]
    have := mt (nSamplesMin_le _ lam z ppm).mp hc
    omega

theorem getFpD_eq (h : FresnelArgs lam nx ppm) : getFpD lam z nx ppm =
    if neededD lam z ppm ≤ nx then .ok (fresnelPhase lam z nx.toNat ppm) else .error .valueError := by
  obtain ⟨n, rfl⟩ : ∃ n : ℕ, nx = n := ⟨nx.toNat, by have := h.nx; omega⟩
  unfold getFpD
  rw [fresnelChecks_ok h]
  simp only [bind, Except.bind]
  have := nSamplesMinD_le (lam := lam) (z := z) (ppm := ppm) n
  have hcast : ((n : ℤ) : ℝ) = (n : ℝ) := by push_cast; rfl
  rw [hcast]
  by_cases hc : neededD lam z ppm ≤ n
  · have hlt : ¬ (n : ℤ) < nSamplesMinD lam z ppm := by rw [not_lt]; exact this.mpr hc
    rw [if_neg hlt, if_pos hc]
  · have hlt : (n : ℤ) < nSamplesMinD lam z ppm := by rw [← not_le]; exact mt this.mp hc
    rw [if_pos hlt, if_neg hc]

theorem getFp_eq (h : FresnelArgs lam nx ppm) : getFp lam z nx ppm =
    if samplesNeeded lam z ppm ≤ nx then .ok (fresnelPhase lam z nx.toNat ppm) else .error .valueError := by
  obtain ⟨n, rfl⟩ : ∃ n : ℕ, nx = n := ⟨nx.toNat, by have := h.nx; omega⟩
  unfold getFp
  rw [fresnelChecks_ok h]
  simp only [bind, Except.bind]
  have := nSamplesMin_le n lam z ppm
  have hcast : ((n : ℤ) : ℝ) = (n : ℝ) := by push_cast; rfl
  rw [hcast]
  by_cases hc : samplesNeeded lam z ppm ≤ n
  · have hlt : ¬ (n : ℤ) < nSamplesMin lam z ppm := by rw [not_lt]; exact this.mpr hc
    rw [if_neg hlt, if_pos hc]
  · have hlt : (n : ℤ) < nSamplesMin lam z ppm := by rw [← not_le]; exact mt this.mp hc
    rw [if_pos hlt, if_neg hc]

/-- `n` samples are not within one part in `2 ^ 50` of the number needed. -/
def Decisive (n : ℝ) (lam z ppm : ℝ) : Prop := samplesNeeded lam z ppm / 2 ^ 50 < |samplesNeeded lam z ppm - n|

theorem decisive_iff {n : ℝ} (h : FairFresnel lam z ppm) (hd : Decisive n lam z ppm) : neededD lam z ppm ≤ n ↔ samplesNeeded lam z ppm ≤ n := by
  have hc := (needed_appr h).close (by norm_num)
  unfold Decisive at hd
  rw [abs_le] at hc
  rcases lt_abs.mp hd with h1 | h1
  · constructor <;> intro h2 <;> linarith [hc.1, hc.2, (needed_appr h).pos, div_pos (needed_appr h).pos (show (0 : ℝ) < 2 ^ 50 by norm_num)]
  · constructor <;> intro h2 <;> linarith [hc.1, hc.2, (needed_appr h).pos, div_pos (needed_appr h).pos (show (0 : ℝ) < 2 ^ 50 by norm_num)]

/-- **C103, partial.** Unless the array is within one part in `2 ^ 50` of the least size allowed, rounding does not change what `fresnelprop`
does: the same arrays are accepted and the same are refused.  Missing: arrays of just the least size (see `C103_sufficient_array_refused`). -/
theorem C103_same_outcome_partial (h : FairFresnel lam z ppm) (hd : Decisive (min e.nr e.nc : ℕ) lam z ppm) :
    fresnelpropD e lam z nx ppm = fresnelprop e lam z nx ppm := by
  by_cases hn : 0 < nx
  · rw [fresnelpropD_eq (h.args hn) h.ne, fresnelprop_eq (h.args hn) h.ne]
    simp only [decisive_iff h hd]
  · unfold fresnelpropD fresnelprop
    rw [fresnelChecks_err (fun hh => hn hh.nx)]
    rfl

/-- **C103, partial.** The same for `get_fp` and its grid. -/
theorem C103_get_fp_partial (h : FairFresnel lam z ppm) (hd : Decisive nx lam z ppm) : getFpD lam z nx ppm = getFp lam z nx ppm := by
  by_cases hn : 0 < nx
  · rw [getFpD_eq (h.args hn), getFp_eq (h.args hn)]
    simp only [decisive_iff h hd]
  · unfold getFpD getFp
    rw [fresnelChecks_err (fun hh => hn hh.nx)]
    rfl

/-- **C103.** Whatever `fresnelprop` accepts meets the sampling criterion to one part in `2 ^ 50`, on both axes. -/
theorem C103_accepted_is_sampled (h : FairFresnel lam z ppm) {o : Arr2 ℂ} (ho : fresnelpropD e lam z nx ppm = .ok o) :
    lam * |z| * ppm ^ 2 * (1 - 1 / 2 ^ 50) ≤ e.nr ∧ lam * |z| * ppm ^ 2 * (1 - 1 / 2 ^ 50) ≤ e.nc := by
  by_cases hn : 0 < nx
  · rw [fresnelpropD_eq (h.args hn) h.ne] at ho
    by_cases hc : neededD lam z ppm ≤ (min e.nr e.nc : ℕ)
    · have hcl := (needed_appr h).close (by norm_num)
      rw [abs_le] at hcl
      have h1 : ((min e.nr e.nc : ℕ) : ℝ) ≤ e.nr := by exact_mod_cast min_le_left _ _
      have h2 : ((min e.nr e.nc : ℕ) : ℝ) ≤ e.nc := by exact_mod_cast min_le_right _ _
      have e1 : lam * |z| * ppm ^ 2 * (1 - 1 / 2 ^ 50) = samplesNeeded lam z ppm - samplesNeeded lam z ppm / 2 ^ 50 := by
        unfold samplesNeeded; ring
      rw [e1]
      constructor <;> linarith [hcl.1]
    · rw [if_neg hc] at ho
      exact absurd ho (by simp)
  · unfold fresnelpropD at ho
    rw [fresnelChecks_err (fun hh => hn hh.nx)] at ho
    exact absurd ho (by simp [bind, Except.bind])

/-- **C103.** When `lam |z|` and `ppm ^ 2` are themselves doubles, no array that meets the criterion is refused. -/
theorem C103_exact_products_accept (h : FresnelArgs lam nx ppm) (h1 : IsDouble (lam * |z|)) (h2 : IsDouble (ppm ^ 2)) (hb : min e.nr e.nc ≤ 2 ^ 53)
    (hs : lam * |z| * ppm ^ 2 ≤ e.nr) (hs' : lam * |z| * ppm ^ 2 ≤ e.nc) : fresnelpropD e lam z nx ppm = fresnelprop e lam z nx ppm := by
  by_cases hz : z = 0
  · unfold fresnelpropD fresnelprop
    rw [fresnelChecks_ok h]
    simp only [bind, Except.bind]
    rw [if_pos hz, if_pos hz]
  · have hmin : samplesNeeded lam z ppm ≤ (min e.nr e.nc : ℕ) := by
      rcases min_choice e.nr e.nc with hm | hm <;> rw [hm] <;> assumption
    rw [fresnelpropD_eq h hz, fresnelprop_eq h hz, if_pos hmin, if_pos]
    unfold neededD
    rw [show double (lam * |z|) = lam * |z| from h1, show double (ppm ^ 2) = ppm ^ 2 from h2]
    have := double_mono hmin
    have hd := double_int ((min e.nr e.nc : ℕ) : ℤ) (by rw [abs_of_nonneg (by positivity)]; exact_mod_cast hb)
    rw [show (((min e.nr e.nc : ℕ) : ℤ) : ℝ) = ((min e.nr e.nc : ℕ) : ℝ) by push_cast; rfl] at hd
    rw [hd] at this
    exact this

/-- What `fresnelprop` accepts at a distance other than zero. -/
theorem accepted_iff (h : FresnelArgs lam nx ppm) (hz : z ≠ 0) :
    (∃ o, fresnelpropD e lam z nx ppm = .ok o) ↔ neededD lam z ppm ≤ (min e.nr e.nc : ℕ) ∧ 0 < e.nr ∧ 0 < e.nc := by
  obtain ⟨n, rfl⟩ : ∃ n : ℕ, nx = n := ⟨nx.toNat, by have := h.nx; omega⟩
  have hn : 0 < n := by exact_mod_cast h.nx
  rw [fresnelpropD_eq h hz]
  by_cases hc : neededD lam z ppm ≤ (min e.nr e.nc : ℕ)
  · rw [if_pos hc]
    by_cases hp : 0 < e.nr ∧ 0 < e.nc
    · refine ⟨fun _ => ⟨hc, hp⟩, fun _ => ?_⟩
      rw [Int.toNat_natCast]
      exact ⟨_, angularSpectrum_eq e n hn hp.1 hp.2 (fresnelPhaseVal lam z n ppm)⟩
    · refine ⟨?_, fun hh => absurd hh.2 hp⟩
      rintro ⟨o, ho⟩
      unfold angularSpectrum at ho
      rw [padCrop_eq _ _ _ _ (by exact_mod_cast hn) (by exact_mod_cast hn), res_ok_bind] at ho
      obtain ⟨f, -, ho⟩ := res_bind_ok ho
      have := padCrop_pos ho
      omega
  · rw [if_neg hc]
    exact ⟨fun ⟨o, ho⟩ => absurd ho (by simp), fun hh => absurd hh.1 hc⟩

theorem neededD_mono (hl : 0 ≤ lam) (hz : |z| ≤ |z'|) : neededD lam z ppm ≤ neededD lam z' ppm :=
  double_mono (mul_le_mul_of_nonneg_right (double_mono (mul_le_mul_of_nonneg_left hz hl)) (double_nonneg (sq_nonneg _)))

/-- **C103.** An array accepted for a distance is accepted for every shorter one, in either direction. -/
theorem C103_shorter_accepted (h : FresnelArgs lam nx ppm) (hz : |z| ≤ |z'|) (ho : ∃ o, fresnelpropD e lam z' nx ppm = .ok o) :
    ∃ o, fresnelpropD e lam z nx ppm = .ok o := by
  by_cases h0 : z = 0
  · subst h0
    unfold fresnelpropD
    rw [fresnelChecks_ok h]
    exact ⟨e, by simp [bind, Except.bind]⟩
  · have h0' : z' ≠ 0 := by
      rintro rfl
      rw [abs_zero, abs_nonpos_iff] at hz
      exact h0 hz
    rw [accepted_iff h h0'] at ho
    rw [accepted_iff h h0]
    exact ⟨(neededD_mono h.lam.le hz).trans ho.1, ho.2⟩

/-- **C103.** Turning the propagation round never changes whether an array is accepted. -/
theorem C103_reversible (h : FresnelArgs lam nx ppm) :
    (∃ o, fresnelpropD e lam z nx ppm = .ok o) ↔ ∃ o, fresnelpropD e lam (-z) nx ppm = .ok o :=
  ⟨C103_shorter_accepted h (by rw [abs_neg]), C103_shorter_accepted h (by rw [abs_neg])⟩

/-- **C103.** A larger array is accepted whenever a smaller one is. -/
theorem C103_larger_accepted (h : FresnelArgs lam nx ppm) {e' : Arr2 ℂ} (hr : e.nr ≤ e'.nr) (hc : e.nc ≤ e'.nc)
    (ho : ∃ o, fresnelpropD e lam z nx ppm = .ok o) : ∃ o, fresnelpropD e' lam z nx ppm = .ok o := by
  by_cases h0 : z = 0
  · subst h0
    unfold fresnelpropD
    rw [fresnelChecks_ok h]
    exact ⟨e', by simp [bind, Except.bind]⟩
  · rw [accepted_iff h h0] at ho ⊢
    refine ⟨ho.1.trans ?_, by omega, by omega⟩
    exact_mod_cast min_le_min hr hc

/-- **C103.** On a grid at least as large as the shorter side of the field, a field that `fresnelprop` accepts can also be propagated with the phase
of `get_fp`, which is then accepted too, with the same result. -/
theorem C103_two_step (h : FresnelArgs lam nx ppm) (hz : z ≠ 0) (hn : ((min e.nr e.nc : ℕ) : ℤ) ≤ nx) {o : Arr2 ℂ}
    (ho : fresnelpropD e lam z nx ppm = .ok o) : ∃ fp, getFpD lam z nx ppm = .ok fp ∧ fresnelpropFp e z nx fp = .ok o := by
  rw [fresnelpropD_eq h hz] at ho
  by_cases hc : neededD lam z ppm ≤ (min e.nr e.nc : ℕ)
  · rw [if_pos hc] at ho
    refine ⟨fresnelPhase lam z nx.toNat ppm, ?_, ?_⟩
    · have : neededD lam z ppm ≤ (nx : ℝ) := hc.trans (by exact_mod_cast hn)
      rw [getFpD_eq h, if_pos this]
    · unfold fresnelpropFp
      rw [if_neg (not_le.mpr h.nx), if_neg hz]
      exact ho
  · rw [if_neg hc] at ho
    exact absurd ho (by simp)

/-! ### The missing part -/

/-- The double written `6.5e-7`: 650 nm. -/
noncomputable def lam650 : ℝ := 6139076427730539 / 2 ^ 73

theorem lam650_eq : double (65 / 10 ^ 8) = lam650 := by
  rw [double_eq_of_near 6139076427730539 (-73) (by norm_num) (by norm_num) (by norm_num) (by norm_num [abs_lt])]
  norm_num [lam650]

/-- The double written `0.3`: 30 cm. -/
noncomputable def z30 : ℝ := 5404319552844595 / 2 ^ 54

theorem z30_eq : double (3 / 10) = z30 := by
  rw [double_eq_of_near 5404319552844595 (-54) (by norm_num) (by norm_num) (by norm_num) (by norm_num [abs_lt])]
  norm_num [z30]

theorem z30_abs : |z30| = z30 := abs_of_pos (by norm_num [z30])

theorem ppm_sq : double (10000 ^ 2) = 10 ^ 8 := by
  have := double_int (10 ^ 8) (by norm_num)
  push_cast at this
  norm_num at this ⊢
  exact this

theorem ppm_sq' : double (100000 ^ 2) = 10 ^ 10 := by
  have := double_int (10 ^ 10) (by norm_num)
  push_cast at this
  norm_num at this ⊢
  exact this

theorem needed650 : neededD lam650 z30 100000 = 8576190696652801 / 2 ^ 42 := by
  unfold neededD
  have h1 : double (lam650 * |z30|) = 7366891713276647 / 2 ^ 75 := by
    rw [z30_abs, double_eq_of_near 7366891713276647 (-75) (by norm_num) (by norm_num) (by norm_num) (by norm_num [abs_lt, lam650, z30])]
    norm_num
  rw [h1, ppm_sq', double_eq_of_near 8576190696652801 (-42) (by norm_num) (by norm_num) (by norm_num) (by norm_num [abs_lt])]
  norm_num

/-- **C103.** The full property fails: at 650 nm, 30 cm and 100000 pixels per metre a field needs just under 1950 samples.  Fields of 1950 by 1950
samples meet the criterion and are accepted in exact arithmetic, but are refused in double precision; 1951 samples are demanded. -/
theorem C103_sufficient_array_refused (v : Fin 1950 → Fin 1950 → ℂ) (hn : 0 < nx) :
    double (65 / 10 ^ 8) = lam650 ∧ double (3 / 10) = z30 ∧ FairFresnel lam650 z30 100000 ∧ lam650 * |z30| * 100000 ^ 2 < 1950 ∧
    (∃ o, fresnelprop ⟨1950, 1950, v⟩ lam650 z30 nx 100000 = .ok o) ∧
    fresnelpropD ⟨1950, 1950, v⟩ lam650 z30 nx 100000 = .error .valueError := by
  have hF : FairFresnel lam650 z30 100000 := by
    refine ⟨⟨?_, ?_⟩, ⟨?_, ?_⟩, ⟨?_, ?_⟩⟩ <;> norm_num [lam650, z30_abs] <;> norm_num [z30]
  have hs : lam650 * |z30| * 100000 ^ 2 < 1950 := by rw [z30_abs]; norm_num [lam650, z30]
  refine ⟨lam650_eq, z30_eq, hF, hs, ?_, ?_⟩
  · exact (C20_error_contract _ _ _ _ _).2.2 (hF.args hn) (by unfold Sampled; push_cast; exact hs.le) (by unfold Sampled; push_cast; exact hs.le)
  · rw [fresnelpropD_eq (hF.args hn) hF.ne, if_neg]
    rw [needed650]
    norm_num

/-- The double written `6.6e-7`: 660 nm. -/
noncomputable def lam660 : ℝ := 6233523757387932 / 2 ^ 73

theorem lam660_eq : double (66 / 10 ^ 8) = lam660 := by
  rw [double_eq_of_near 6233523757387932 (-73) (by norm_num) (by norm_num) (by norm_num) (by norm_num [abs_lt])]
  norm_num [lam660]

theorem needed660 : neededD lam660 (1 / 2) 10000 = 33 := by
  unfold neededD
  have h1 : double (lam660 * |1 / 2|) = lam660 / 2 := by
    rw [double_eq_of_near 6233523757387932 (-74) (by norm_num) (by norm_num) (by norm_num) (by norm_num [abs_lt, lam660])]
    norm_num [lam660]
  rw [h1, ppm_sq, double_eq_of_near 4644337115725824 (-47) (by norm_num) (by norm_num) (by norm_num) (by norm_num [abs_lt, lam660])]
  norm_num

/-- **C103.** Nor is every refusal kept: at 660 nm, half a metre and 10000 pixels per metre slightly more than 33 samples are needed, exact
arithmetic refuses fields of 33 by 33 samples, and double precision accepts them. -/
theorem C103_insufficient_array_accepted (v : Fin 33 → Fin 33 → ℂ) (hn : 0 < nx) :
    double (66 / 10 ^ 8) = lam660 ∧ FairFresnel lam660 (1 / 2) 10000 ∧ 33 < lam660 * |1 / 2| * 10000 ^ 2 ∧
    fresnelprop ⟨33, 33, v⟩ lam660 (1 / 2) nx 10000 = .error .valueError ∧
    ∃ o, fresnelpropD ⟨33, 33, v⟩ lam660 (1 / 2) nx 10000 = .ok o := by
  have hF : FairFresnel lam660 (1 / 2) 10000 := by
    refine ⟨⟨?_, ?_⟩, ⟨?_, ?_⟩, ⟨?_, ?_⟩⟩ <;> norm_num [lam660]
  have hs : 33 < lam660 * |1 / 2| * 10000 ^ 2 := by norm_num [lam660]
  refine ⟨lam660_eq, hF, hs, ?_, ?_⟩
  · refine (C20_error_contract _ _ _ _ _).2.1 (hF.args hn) (by norm_num) (fun hh => ?_)
    have := hh.1
    unfold Sampled at this
    push_cast at this
    linarith
  · rw [accepted_iff (hF.args hn) (by norm_num), needed660]
    norm_num

/-- A case: the hypotheses of `C103_same_outcome_partial` at 650 nm and 30 cm with a field of 2000 by 2048 samples, which is accepted. -/
example : FairFresnel lam650 z30 100000 ∧ Decisive ((min 2000 2048 : ℕ) : ℝ) lam650 z30 100000 ∧
    (∃ o, fresnelpropD (Arr2.full 2000 2048 1) lam650 z30 4096 100000 = .ok o) := by
  have hF := (C103_sufficient_array_refused (nx := 1) (fun _ _ => 0) one_pos).2.2.1
  refine ⟨hF, ?_, ?_⟩
  · unfold Decisive samplesNeeded
    rw [lt_abs, z30_abs]
    right
    norm_num [lam650, z30]
  · rw [accepted_iff (hF.args (by norm_num)) hF.ne, needed650]
    norm_num [Arr2.full, Arr2.ofFn]

/-- A case: exact products, with a wavelength of `2 ^ -20` metres, 4 metres and 1024 pixels per metre; 4 samples are needed and 4 suffice. -/
example : IsDouble ((2 : ℝ) ^ (-20 : ℤ) * |4|) ∧ IsDouble ((1024 : ℝ) ^ 2) ∧ ((2 : ℝ) ^ (-20 : ℤ) * |4| * 1024 ^ 2 = 4) := by
  refine ⟨?_, ?_, by norm_num⟩
  · have := double_two_zpow (-18) (by norm_num)
    unfold IsDouble
    rw [show (2 : ℝ) ^ (-20 : ℤ) * |4| = (2 : ℝ) ^ (-18 : ℤ) by norm_num]
    exact this
  · have := double_two_zpow 20 (by norm_num)
    unfold IsDouble
    rw [show (1024 : ℝ) ^ 2 = (2 : ℝ) ^ (20 : ℤ) by norm_num]
    exact this

end Coralign.Props
