import Verif.Props.PsfPeak
import Verif.Props.PlateSolv

/-!
# Property C54 for fractional shifts of a band-limited scene
-/

namespace Coralign.Props

open Coralign Coralign.Spec

/-! ### Specification -/

/-- A band-limited scene at any position, whole or fractional: a trigonometric polynomial with the frequencies of an `n × m` image. -/
noncomputable def scene (n m : ℕ) (c : ℤ → ℤ → ℂ) (y x : ℝ) : ℂ :=
  ∑ p ∈ window n, ∑ q ∈ window m, c p q * Complex.exp (2 * Real.pi * Complex.I * (p * y / n + q * x / m))

/-! ### Lemmas -/

theorem scene_cis (n m : ℕ) (c : ℤ → ℤ → ℂ) (y x : ℝ) :
    scene n m c y x = ∑ p ∈ window n, ∑ q ∈ window m, c p q * cis (p * y / n + q * x / m) := by
  unfold scene cis
  refine Finset.sum_congr rfl fun p _ => Finset.sum_congr rfl fun q _ => ?_
  congr 2
  push_cast
  ring

theorem window_cong {n : ℕ} (i : Fin n) {p : ℤ} (hp : p ∈ window n) : (n : ℤ) ∣ p - (i : ℕ) ↔ p = fftfreqNum n i := by
  have hi := i.isLt
  obtain ⟨z, hz⟩ := fftfreqNum_mod n i
  have hf : fftfreqNum n i ∈ window n := by
    rw [mem_window]
    unfold fftfreqNum
    split <;> omega
  rw [mem_window] at hp hf
  constructor
  · rintro ⟨w, hw⟩
    have hd : (n : ℤ) ∣ p - fftfreqNum n i := ⟨w - z, by rw [hz, mul_sub, ← hw]; ring⟩
    have := Int.eq_zero_of_abs_lt_dvd hd (by rw [abs_lt]; omega)
    omega
  · rintro rfl
    exact ⟨z, by rw [hz]; ring⟩

theorem spec_scene {n m : ℕ} (f : Fin n → Fin m → ℝ) (c : ℤ → ℤ → ℂ) (hf : ∀ i j, (f i j : ℂ) = scene n m c (i : ℕ) (j : ℕ))
    (i : Fin n) (j : Fin m) : spec f i j = (n : ℂ) * m * c (fftfreqNum n i) (fftfreqNum m j) := by
  have hn : 0 < n := Nat.lt_of_le_of_lt (Nat.zero_le _) i.isLt
  have hm : 0 < m := Nat.lt_of_le_of_lt (Nat.zero_le _) j.isLt
  have hfw : ∀ (k : ℕ) (i : Fin k), fftfreqNum k i ∈ window k := by
    intro k i
    have := i.isLt
    rw [mem_window]
    unfold fftfreqNum
    split <;> omega
  have step : spec f i j = ∑ p ∈ window n, ∑ q ∈ window m, c p q *
      ((∑ r : Fin n, cis ((r : ℕ) * (((p - (i : ℕ) : ℤ) : ℝ) / n))) * (∑ s : Fin m, cis ((s : ℕ) * (((q - (j : ℕ) : ℤ) : ℝ) / m)))) := by
    rw [spec_eq]
    simp only [hf, scene_cis, Finset.sum_mul, Finset.mul_sum]
    have swap : ∀ g : Fin n → Fin m → ℤ → ℤ → ℂ, ∑ r, ∑ s, ∑ p ∈ window n, ∑ q ∈ window m, g r s p q =
        ∑ p ∈ window n, ∑ q ∈ window m, ∑ r, ∑ s, g r s p q := by
      intro g
      calc ∑ r, ∑ s, ∑ p ∈ window n, ∑ q ∈ window m, g r s p q
          = ∑ r, ∑ p ∈ window n, ∑ s, ∑ q ∈ window m, g r s p q := Finset.sum_congr rfl fun r _ => Finset.sum_comm
        _ = ∑ p ∈ window n, ∑ r, ∑ s, ∑ q ∈ window m, g r s p q := Finset.sum_comm
        _ = ∑ p ∈ window n, ∑ r, ∑ q ∈ window m, ∑ s, g r s p q :=
            Finset.sum_congr rfl fun p _ => Finset.sum_congr rfl fun r _ => Finset.sum_comm
        _ = _ := Finset.sum_congr rfl fun p _ => Finset.sum_comm
    rw [swap]
    refine Finset.sum_congr rfl fun p _ => Finset.sum_congr rfl fun q _ => ?_
    conv_rhs => rw [Finset.sum_comm]
    refine Finset.sum_congr rfl fun r _ => Finset.sum_congr rfl fun s _ => ?_
    rw [mul_assoc, ← cis_add, ← cis_add]
    congr 2
    push_cast
    ring
  rw [step, Finset.sum_eq_single (fftfreqNum n i), Finset.sum_eq_single (fftfreqNum m j)]
  · rw [sum_cis n hn, sum_cis m hm, if_pos ((window_cong i (hfw n i)).mpr rfl), if_pos ((window_cong j (hfw m j)).mpr rfl)]
    ring
  · intro q hq hne
    rw [sum_cis m hm, if_neg (fun h => hne ((window_cong j hq).mp h)), mul_zero, mul_zero]
  · intro h; exact absurd (hfw m j) h
  · intro p hp hne
    refine Finset.sum_eq_zero fun q _ => ?_
    rw [sum_cis n hn, if_neg (fun h => hne ((window_cong i hp).mp h)), zero_mul, mul_zero]
  · intro h; exact absurd (hfw n i) h

theorem cross_scene {n m : ℕ} (f t : Fin n → Fin m → ℝ) (c : ℤ → ℤ → ℂ) (A y0 x0 : ℝ)
    (hf : ∀ i j, (f i j : ℂ) = scene n m c (i : ℕ) (j : ℕ))
    (ht : ∀ i j, (t i j : ℂ) = A * scene n m c ((i : ℕ) - y0) ((j : ℕ) - x0)) (y x : ℝ) :
    crossAt f t y x = phases (weight f A) (y0 - y) (x0 - x) := by
  have ht' : ∀ i j, (t i j : ℂ) = scene n m (fun p q => A * c p q * cis (-(p * y0 / n + q * x0 / m))) (i : ℕ) (j : ℕ) := by
    intro i j
    rw [ht, scene_cis, scene_cis, Finset.mul_sum]
    refine Finset.sum_congr rfl fun p _ => ?_
    rw [Finset.mul_sum]
    refine Finset.sum_congr rfl fun q _ => ?_
    rw [mul_assoc, mul_assoc, ← cis_add]
    congr 3
    ring
  rw [crossAt_fin]
  unfold phases
  refine Finset.sum_congr rfl fun i _ => Finset.sum_congr rfl fun j _ => ?_
  have e : spec t i j = A * spec f i j * cis (-(fftfreqNum n i * y0 / n + fftfreqNum m j * x0 / m)) := by
    rw [spec_scene t _ ht', spec_scene f c hf]
    ring
  rw [e, map_mul, map_mul, conj_cis, neg_neg, Complex.conj_ofReal]
  unfold weight
  push_cast
  rw [← Complex.mul_conj']
  have : cis ((y0 - y) * fftfreqNum n i / n + (x0 - x) * fftfreqNum m j / m) =
      cis (fftfreqNum n i * y0 / n + fftfreqNum m j * x0 / m) * cis (-(y * fftfreqNum n i / n + x * fftfreqNum m j / m)) := by
    rw [← cis_add]
    congr 1
    ring
  rw [this]
  ring

/-- Only whole periods reach the full height of the correlation. -/
theorem phases_full {n m : ℕ} (hn : 2 ≤ n) (hm : 2 ≤ m) (f : Fin n → Fin m → ℝ) (A : ℝ) (hA : 0 < A)
    (h00 : spec f ⟨0, by omega⟩ ⟨0, by omega⟩ ≠ 0) (h10 : spec f ⟨1, by omega⟩ ⟨0, by omega⟩ ≠ 0)
    (h01 : spec f ⟨0, by omega⟩ ⟨1, by omega⟩ ≠ 0) (a b : ℝ) (h : ‖phases (weight f A) 0 0‖ ≤ ‖phases (weight f A) a b‖) :
    (∃ k : ℤ, a = n * k) ∧ ∃ l : ℤ, b = m * l := by
  have red : ∀ (k : ℕ) (_ : 2 ≤ k) (z : ℝ), |z - k * ⌊z / k⌋| < k := by
    intro k hk z
    have hk' : (0 : ℝ) < k := by have : 0 < k := by omega
                                 exact_mod_cast this
    have e : z - k * ⌊z / k⌋ = k * Int.fract (z / k) := by
      unfold Int.fract
      field_simp
    rw [e, abs_of_nonneg (mul_nonneg hk'.le (Int.fract_nonneg _))]
    have := Int.fract_lt_one (z / k)
    nlinarith
  have hper := phases_periodic (weight f A) (a - n * ⌊a / n⌋) (b - m * ⌊b / m⌋) ⌊a / n⌋ ⌊b / m⌋
  rw [sub_add_cancel, sub_add_cancel] at hper
  rw [hper] at h
  by_contra hc
  refine absurd h (not_le.mpr (fraction_lt hn hm f A hA h00 h10 h01 _ _ (red n hn a) (red m hm b) ?_))
  rintro ⟨z1, z2⟩
  exact hc ⟨⟨⌊a / n⌋, by linarith⟩, ⟨⌊b / m⌋, by linarith⟩⟩

/-! ### Theorems -/

/-- **C54.** A fit is returned for every pair of non-empty images of the same size, as long as the refined region is not empty. -/
theorem C54_accepts (T : Shift) (cfg : PsfConfig) (src tgt : Arr2 ℝ) (hr : src.nr = tgt.nr) (hc : src.nc = tgt.nc) (hn : 0 < src.nr)
    (hm : 0 < src.nc) (hu : 0 < cfg.upsample) (hp : 0 < cfg.pad) : ∃ out, psffit T cfg src tgt = .ok out := by
  unfold psffit
  rw [if_neg (by push Not; exact ⟨hr, hc⟩), if_neg (by push Not; exact ⟨by omega, by omega⟩)]
  simp only
  split
  · unfold refineShift
    simp only
    rw [if_neg (by have := Int.ceil_pos.mpr (mul_pos hu hp); omega)]
    have : ∀ o0 o1 : ℝ, ∃ up, computeUpsampledDft ((imageProduct src tgt).map (starRingEnd ℂ))
        [⌈cfg.upsample * cfg.pad⌉, ⌈cfg.upsample * cfg.pad⌉] cfg.upsample [o0, o1] = .ok up := by
      intro o0 o1
      unfold computeUpsampledDft
      simp only
      rw [if_neg (by
        push Not
        refine ⟨hu.ne', ?_, ?_⟩
        · show src.nr ≠ 0; omega
        · show src.nc ≠ 0; omega)]
      exact ⟨_, rfl⟩
    obtain ⟨up, hup⟩ := this (((⌈cfg.upsample * cfg.pad⌉ / 2 : ℤ) : ℝ) - npRound ((unwrapShift src.nr
        (argmax2 (Arr2.map (fun z => ‖z‖) (npIfft2 (imageProduct src tgt)))).1 : ℝ) * cfg.upsample) / cfg.upsample * cfg.upsample)
      (((⌈cfg.upsample * cfg.pad⌉ / 2 : ℤ) : ℝ) - npRound ((unwrapShift src.nc
        (argmax2 (Arr2.map (fun z => ‖z‖) (npIfft2 (imageProduct src tgt)))).2 : ℝ) * cfg.upsample) / cfg.upsample * cfg.upsample)
    rw [hup]
    exact ⟨_, rfl⟩
  · exact ⟨_, rfl⟩

/-- **C54.** Fractional shifts: the source samples a band-limited scene, the target a positive multiple of the same scene moved by `(y0, x0)`
pixels.  Whenever that move, up to whole turns of the image, is on the fine grid about the best whole-pixel shift, it is what is returned, up to
whole turns. -/
theorem C54_fractional (T : Shift) (cfg : PsfConfig) (kappa : ℕ) (hk : 2 ≤ kappa) (hcfg : cfg.upsample = kappa) {n m : ℕ} (hn : 2 ≤ n)
    (hm : 2 ≤ m) (f t : Fin n → Fin m → ℝ) (c : ℤ → ℤ → ℂ) (A y0 x0 : ℝ) (hA : 0 < A)
    (hf : ∀ i j, (f i j : ℂ) = scene n m c (i : ℕ) (j : ℕ))
    (ht : ∀ i j, (t i j : ℂ) = A * scene n m c ((i : ℕ) - y0) ((j : ℕ) - x0))
    (h00 : c 0 0 ≠ 0) (h10 : c (-1) 0 ≠ 0) (h01 : c 0 (-1) ≠ 0)
    (hnear : ∀ s0 s1 : ℤ, (s0 ∈ window n ∧ s1 ∈ window m) → (∀ a b : ℤ, ‖crossAt f t a b‖ ≤ ‖crossAt f t s0 s1‖) →
      ∃ a b k l : ℤ, Near kappa cfg.pad a ∧ Near kappa cfg.pad b ∧ (s0 : ℝ) + a / kappa = y0 + n * k ∧ (s1 : ℝ) + b / kappa = x0 + m * l)
    (y x amp : ℝ) (h : psffit T cfg ⟨n, m, f⟩ ⟨n, m, t⟩ = .ok ((y, x), amp)) :
    ∃ k l : ℤ, y = y0 + n * k ∧ x = x0 + m * l := by
  obtain ⟨s0, s1, hs, hbest, -, h2⟩ := C54_peak T cfg kappa (by omega) hcfg f t y x amp h
  obtain ⟨k0, k1, -, -, -, -, hmost⟩ := h2 (by omega)
  obtain ⟨a, b, k, l, ha, hb, ea, eb⟩ := hnear s0 s1 hs hbest
  have hle := hmost a b ha hb
  rw [ea, eb, crossAt_periodic, cross_scene f t c A y0 x0 hf ht, cross_scene f t c A y0 x0 hf ht, sub_self, sub_self] at hle
  have hconj : ∀ p q : ℤ, -p ∈ window n → p ∈ window n → -q ∈ window m → q ∈ window m → c (-p) (-q) ≠ 0 → c p q ≠ 0 := by
    intro p q hp hp' hq hq' hne h0
    apply hne
    have idx : ∀ (N : ℕ) (r : ℤ), r ∈ window N → ∃ i : Fin N, fftfreqNum N i = r := by
      intro N r hr
      rw [mem_window] at hr
      rcases le_or_gt 0 r with h | h
      · refine ⟨⟨r.toNat, by omega⟩, ?_⟩
        unfold fftfreqNum
        simp only
        split <;> omega
      · refine ⟨⟨(r + N).toNat, by omega⟩, ?_⟩
        unfold fftfreqNum
        simp only
        split <;> omega
    obtain ⟨i, hi⟩ := idx n p hp'
    obtain ⟨j, hj⟩ := idx m q hq'
    have hz : spec f i j = 0 := by rw [spec_scene f c hf, hi, hj, h0, mul_zero]
    have hcj := spec_conj (show 0 < n by omega) (show 0 < m by omega) f i j
    rw [hz, map_zero, spec_scene f c hf] at hcj
    have neg : ∀ (N : ℕ) (hN : 0 < N) (i : Fin N) (r : ℤ), fftfreqNum N i = r → -r ∈ window N → fftfreqNum N (negIdx N i hN) = -r := by
      intro N hN i r hir hr
      have hd := (negIdx_dvd N i hN (negIdx N i hN)).mpr rfl
      symm
      rw [← window_cong (negIdx N i hN) hr]
      obtain ⟨z, hz⟩ := fftfreqNum_mod N i
      obtain ⟨w, hw⟩ := hd
      rw [hir] at hz
      exact ⟨-z - w, by rw [hz, mul_sub, ← hw]; ring⟩
    rw [neg n _ i p hi hp, neg m _ j q hj hq] at hcj
    have hn0 : (n : ℂ) ≠ 0 := by exact_mod_cast (show n ≠ 0 by omega)
    have hm0 : (m : ℂ) ≠ 0 := by exact_mod_cast (show m ≠ 0 by omega)
    exact (mul_eq_zero.mp hcj).resolve_left (mul_ne_zero hn0 hm0)
  have hn0 : (n : ℂ) ≠ 0 := by exact_mod_cast (show n ≠ 0 by omega)
  have hm0 : (m : ℂ) ≠ 0 := by exact_mod_cast (show m ≠ 0 by omega)
  have low : ∀ N : ℕ, 2 ≤ N → fftfreqNum N 1 = -1 ∨ (fftfreqNum N 1 = 1 ∧ (1 : ℤ) ∈ window N) := by
    intro N hN
    rw [mem_window]
    unfold fftfreqNum
    split
    · right; omega
    · left; omega
  have w0 : ∀ N : ℕ, 2 ≤ N → (0 : ℤ) ∈ window N ∧ (-1 : ℤ) ∈ window N := by
    intro N hN
    rw [mem_window, mem_window]
    omega
  have g00 : spec f ⟨0, by omega⟩ ⟨0, by omega⟩ ≠ 0 := by
    rw [spec_scene f c hf]
    simp only [fftfreqNum_zero]
    exact mul_ne_zero (mul_ne_zero hn0 hm0) h00
  have g10 : spec f ⟨1, by omega⟩ ⟨0, by omega⟩ ≠ 0 := by
    rw [spec_scene f c hf]
    simp only [fftfreqNum_zero]
    refine mul_ne_zero (mul_ne_zero hn0 hm0) ?_
    rcases low n hn with h | ⟨h, hw⟩
    · rw [h]; exact h10
    · rw [h]; exact hconj 1 0 (w0 n hn).2 hw (by simpa using (w0 m hm).1) (w0 m hm).1 (by simpa using h10)
  have g01 : spec f ⟨0, by omega⟩ ⟨1, by omega⟩ ≠ 0 := by
    rw [spec_scene f c hf]
    simp only [fftfreqNum_zero]
    refine mul_ne_zero (mul_ne_zero hn0 hm0) ?_
    rcases low m hm with h | ⟨h, hw⟩
    · rw [h]; exact h01
    · rw [h]; exact hconj 0 1 (by simpa using (w0 n hn).1) (w0 n hn).1 (w0 m hm).2 hw (by simpa using h01)
  obtain ⟨⟨u, hu⟩, v, hv⟩ := phases_full hn hm f A hA g00 g10 g01 _ _ hle
  exact ⟨-u, -v, by push_cast; linarith, by push_cast; linarith⟩

/-- **C54.** When the refined region is as wide as the image, every move on the fine grid is found, up to whole turns of the image. -/
theorem C54_fractional_wide (T : Shift) (cfg : PsfConfig) (kappa : ℕ) (hk : 2 ≤ kappa) (hcfg : cfg.upsample = kappa) {n m : ℕ} (hn : 2 ≤ n)
    (hm : 2 ≤ m) (hpn : n ≤ cfg.pad) (hpm : m ≤ cfg.pad) (f t : Fin n → Fin m → ℝ) (c : ℤ → ℤ → ℂ) (A : ℝ) (hA : 0 < A) (k0 k1 : ℤ)
    (hf : ∀ i j, (f i j : ℂ) = scene n m c (i : ℕ) (j : ℕ))
    (ht : ∀ i j, (t i j : ℂ) = A * scene n m c ((i : ℕ) - k0 / kappa) ((j : ℕ) - k1 / kappa))
    (h00 : c 0 0 ≠ 0) (h10 : c (-1) 0 ≠ 0) (h01 : c 0 (-1) ≠ 0) :
    ∃ k l : ℤ, ∃ amp, psffit T cfg ⟨n, m, f⟩ ⟨n, m, t⟩ = .ok (((k0 / kappa + n * k : ℝ), (k1 / kappa + m * l : ℝ)), amp) := by
  have hk' : (2 : ℝ) ≤ kappa := by exact_mod_cast hk
  have hk0 : (kappa : ℝ) ≠ 0 := by positivity
  have hn' : (2 : ℝ) ≤ n := by exact_mod_cast hn
  obtain ⟨⟨⟨y, x⟩, amp⟩, h⟩ := C54_accepts T cfg ⟨n, m, f⟩ ⟨n, m, t⟩ rfl rfl (show 0 < n by omega) (show 0 < m by omega)
    (by rw [hcfg]; positivity) (by linarith)
  obtain ⟨k, l, hy, hx⟩ := C54_fractional T cfg kappa hk hcfg hn hm f t c A (k0 / kappa) (k1 / kappa) hA hf ht h00 h10 h01 (by
    intro s0 s1 _ _
    have rep : ∀ (N : ℕ), 2 ≤ N → (N : ℝ) ≤ cfg.pad → ∀ K s : ℤ, ∃ a k : ℤ, Near kappa cfg.pad a ∧ (s : ℝ) + a / kappa = K / kappa + N * k := by
      intro N hN hpad K s
      have hR : ((kappa * N : ℕ) : ℤ) ≤ ⌈(kappa : ℝ) * cfg.pad⌉ := by
        have h1 : (((kappa * N : ℕ) : ℤ) : ℝ) ≤ (kappa : ℝ) * cfg.pad := by
          push_cast
          nlinarith
        exact_mod_cast h1.trans (Int.le_ceil _)
      have hP : 0 < ((kappa * N : ℕ) : ℤ) := by
        have := Nat.mul_pos (show 0 < kappa by omega) (show 0 < N by omega)
        exact_mod_cast this
      unfold Near
      generalize ⌈(kappa : ℝ) * cfg.pad⌉ = R at hR
      -- the representative of `K - kappa s` in a period centred on zero
      set P : ℤ := ((kappa * N : ℕ) : ℤ) with hPdef
      set D : ℤ := K - kappa * s with hD
      have e0 := Int.emod_nonneg (D + (P - 1) / 2) hP.ne'
      have e1 := Int.emod_lt_of_pos (D + (P - 1) / 2) hP
      have e2 := Int.emod_add_mul_ediv (D + (P - 1) / 2) P
      refine ⟨(D + (P - 1) / 2) % P - (P - 1) / 2, -((D + (P - 1) / 2) / P), ⟨by omega, by omega⟩, ?_⟩
      have e3 : (D + (P - 1) / 2) % P - (P - 1) / 2 = K - kappa * s + (kappa * N) * (-((D + (P - 1) / 2) / P)) := by
        have : P * ((D + (P - 1) / 2) / P) = (kappa * N) * ((D + (P - 1) / 2) / P) := by rw [hPdef]; push_cast; ring
        rw [hD] at *
        linarith
      rw [e3]
      push_cast
      field_simp
      ring
    obtain ⟨a, k, ha, ea⟩ := rep n hn hpn k0 s0
    obtain ⟨b, l, hb, eb⟩ := rep m hm hpm k1 s1
    exact ⟨a, b, k, l, ha, hb, ea, eb⟩) y x amp h
  exact ⟨k, l, amp, by rw [h, hy, hx]⟩

/-! ### The hypotheses can be met -/

/-- The coefficients of `3 + cos(2πy/3) + cos(2πx/3)`. -/
noncomputable def ripple (p q : ℤ) : ℂ := if p = 0 ∧ q = 0 then 3 else if p = 0 ∨ q = 0 then 1 / 2 else 0

theorem scene_ripple (y x : ℝ) : scene 3 3 ripple y x = ((3 + Real.cos (2 * Real.pi * (y / 3)) + Real.cos (2 * Real.pi * (x / 3)) : ℝ) : ℂ) := by
  have hw : window 3 = {-1, 0, 1} := by decide
  have pair : ∀ z : ℝ, cis (-z) + cis z = ((2 * Real.cos (2 * Real.pi * z) : ℝ) : ℂ) := by
    intro z
    rw [← conj_cis, add_comm, Complex.add_conj, re_cis]
  rw [scene_cis, hw]
  have p1 := pair (y / 3)
  have p2 := pair (x / 3)
  simp only [Finset.sum_insert (show (-1 : ℤ) ∉ ({0, 1} : Finset ℤ) by decide), Finset.sum_insert (show (0 : ℤ) ∉ ({1} : Finset ℤ) by decide),
    Finset.sum_singleton]
  norm_num [ripple]
  push_cast at p1 p2
  have e1 : (-y / 3 : ℝ) = -(y / 3) := by ring
  have e2 : (-x / 3 : ℝ) = -(x / 3) := by ring
  rw [e1, e2]
  linear_combination (1 / 2 : ℂ) * p1 + (1 / 2 : ℂ) * p2

/-- `C54_fractional_wide`: the ripple moved by half a pixel and by three halves. -/
example : ∃ k l : ℤ, ∃ amp, psffit Shift.nearest ⟨2, 3, 0.2⟩
    ⟨3, 3, fun i j => 3 + Real.cos (2 * Real.pi * (((i : ℕ) : ℝ) / 3)) + Real.cos (2 * Real.pi * (((j : ℕ) : ℝ) / 3))⟩
    ⟨3, 3, fun i j => 5 * (3 + Real.cos (2 * Real.pi * ((((i : ℕ) : ℝ) - (1 : ℤ) / (2 : ℕ)) / 3)) +
      Real.cos (2 * Real.pi * ((((j : ℕ) : ℝ) - (3 : ℤ) / (2 : ℕ)) / 3)))⟩ =
    .ok ((((1 : ℤ) / (2 : ℕ) + (3 : ℕ) * k : ℝ), ((3 : ℤ) / (2 : ℕ) + (3 : ℕ) * l : ℝ)), amp) := by
  refine C54_fractional_wide Shift.nearest ⟨2, 3, 0.2⟩ 2 le_rfl (by norm_num) (by omega) (by omega) (by norm_num) (by norm_num) _ _ ripple 5
    (by norm_num) 1 3 (fun i j => ?_) (fun i j => ?_) ?_ ?_ ?_
  · rw [scene_ripple]
  · rw [scene_ripple]
    push_cast
    ring
  · norm_num [ripple]
  · norm_num [ripple]
  · norm_num [ripple]

/-- A narrow region is enough when the best whole-pixel shift is close: three samples at half-pixel steps are one half pixel to either side. -/
example : Near 2 1.5 (-1) ∧ Near 2 1.5 0 ∧ Near 2 1.5 1 ∧ ¬ Near 2 1.5 2 := by
  have : ⌈((2 : ℕ) : ℝ) * 1.5⌉ = 3 := by norm_num
  unfold Near
  rw [this]
  omega

end Coralign.Props
