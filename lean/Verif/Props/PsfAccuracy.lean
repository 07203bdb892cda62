import Verif.Props.PsfFraction
import Mathlib.Analysis.SpecialFunctions.Trigonometric.Bounds

/-!
# Property C105: how closely `psffit` registers images of a scene that moved by any amount

The configuration file promises that images are registered to within `1 / upsample_factor` of a pixel.  Here the source samples a band-limited
scene and the target the same scene, at another exposure, moved by any number of pixels, on the fine grid or not.
-/

namespace Coralign.Props

open Coralign Coralign.Spec

/-! ### Specification -/

/-- The correlation of a scene with itself moved by `(u, v)` pixels. -/
noncomputable def sceneCorr (n m : ℕ) (c : ℤ → ℤ → ℂ) (u v : ℝ) : ℂ :=
  ∑ p ∈ window n, ∑ q ∈ window m, (‖c p q‖ ^ 2 : ℝ) * Complex.exp (2 * Real.pi * Complex.I * (p * u / n + q * v / m))

/-- The correlation of the scene with itself is the weaker the further it is moved along either axis, up to half the image, whatever the move along the
other axis. -/
def FallsOff (n m : ℕ) (c : ℤ → ℤ → ℂ) : Prop :=
  (∀ u u' v : ℝ, |u| < |u'| → |u'| ≤ (n : ℝ) / 2 → ‖sceneCorr n m c u' v‖ < ‖sceneCorr n m c u v‖) ∧
  ∀ u v v' : ℝ, |v| < |v'| → |v'| ≤ (m : ℝ) / 2 → ‖sceneCorr n m c u v'‖ < ‖sceneCorr n m c u v‖

/-- The shift found along an axis of `n` pixels is within `tol` of the true one, up to whole turns of the image. -/
def FoundWithin (n : ℕ) (tol found true : ℝ) : Prop := ∃ k : ℤ, |found - (true + n * k)| ≤ tol

/-! ### Lemmas -/

theorem sceneCorr_cis (n m : ℕ) (c : ℤ → ℤ → ℂ) (u v : ℝ) :
    sceneCorr n m c u v = ∑ p ∈ window n, ∑ q ∈ window m, ((‖c p q‖ ^ 2 : ℝ) : ℂ) * cis (p * u / n + q * v / m) := by
  unfold sceneCorr cis
  refine Finset.sum_congr rfl fun p _ => Finset.sum_congr rfl fun q _ => ?_
  congr 2
  push_cast
  ring

theorem cross_sceneCorr {n m : ℕ} (f t : Fin n → Fin m → ℝ) (c : ℤ → ℤ → ℂ) (A y0 x0 : ℝ)
    (hf : ∀ i j, (f i j : ℂ) = scene n m c (i : ℕ) (j : ℕ))
    (ht : ∀ i j, (t i j : ℂ) = A * scene n m c ((i : ℕ) - y0) ((j : ℕ) - x0)) (y x : ℝ) :
    crossAt f t y x = ((A * ((n : ℝ) * m) ^ 2 : ℝ) : ℂ) * sceneCorr n m c (y0 - y) (x0 - x) := by
  rw [cross_scene f t c A y0 x0 hf ht, sceneCorr_cis]
  unfold phases weight
  rw [← fftfreq_window n (fun p => ∑ q ∈ window m, ((‖c p q‖ ^ 2 : ℝ) : ℂ) * cis (p * (y0 - y) / n + q * (x0 - x) / m)), Finset.mul_sum]
  refine Finset.sum_congr rfl fun i _ => ?_
  rw [← fftfreq_window m (fun q => ((‖c (fftfreqNum n i) q‖ ^ 2 : ℝ) : ℂ) * cis ((fftfreqNum n i : ℤ) * (y0 - y) / n + q * (x0 - x) / m)),
    Finset.mul_sum]
  refine Finset.sum_congr rfl fun j _ => ?_
  rw [spec_scene f c hf, norm_mul, norm_mul, Complex.norm_natCast, Complex.norm_natCast, ← mul_assoc]
  congr 1
  · push_cast; ring
  · congr 1; ring

/-- One axis: the best whole pixel is the nearest, and the best fine sample about it is the nearest. -/
theorem axis_found (n kappa : ℕ) (hk : 1 ≤ kappa) (pad : ℝ) (hp : 1 < pad) (G1 G2 : ℝ → ℝ) (hper1 : ∀ (u : ℝ) (k : ℤ), G1 (u + n * k) = G1 u)
    (hper2 : ∀ (u : ℝ) (k : ℤ), G2 (u + n * k) = G2 u) (hn : 0 < n)
    (hf1 : ∀ u u' : ℝ, |u| < |u'| → |u'| ≤ (n : ℝ) / 2 → G1 u' < G1 u) (hf2 : ∀ u u' : ℝ, |u| < |u'| → |u'| ≤ (n : ℝ) / 2 → G2 u' < G2 u)
    (y0 : ℝ) (s0 k0 : ℤ) (h1 : ∀ a : ℤ, G1 (y0 - a) ≤ G1 (y0 - s0))
    (h2 : ∀ a : ℤ, Near kappa pad a → G2 (y0 - (s0 + a / kappa)) ≤ G2 (y0 - (s0 + k0 / kappa))) :
    FoundWithin n (1 / (2 * kappa)) (s0 + k0 / kappa) y0 := by
  have hn' : (0 : ℝ) < n := by exact_mod_cast hn
  have hk' : (0 : ℝ) < kappa := by exact_mod_cast hk
  have red : ∀ z : ℝ, ∃ k : ℤ, |z + n * k| ≤ (n : ℝ) / 2 := by
    intro z
    refine ⟨-round (z / n), ?_⟩
    have h := abs_sub_round (z / n)
    have e : z + n * ((-round (z / n) : ℤ) : ℝ) = n * (z / n - round (z / n)) := by
      push_cast
      field_simp
      ring
    rw [e, abs_mul, abs_of_pos hn']
    nlinarith
  -- the whole-pixel shift
  obtain ⟨k, hk1⟩ := red (y0 - s0)
  have hd : |y0 - s0 + n * k| ≤ 1 / 2 := by
    by_contra hc
    push Not at hc
    have h := h1 (round y0)
    have h' := hf1 (y0 - round y0) (y0 - s0 + n * k) (lt_of_le_of_lt (abs_sub_round y0) hc) hk1
    rw [hper1] at h'
    linarith
  -- the fine sample next to the true shift
  obtain ⟨r, hr1, hr2⟩ : ∃ r : ℤ, |kappa * (y0 - s0 + n * k) - r| ≤ 1 / 2 ∧ Near kappa pad r := by
    have hceil : (kappa : ℤ) < ⌈(kappa : ℝ) * pad⌉ := by
      rw [Int.lt_ceil]
      push_cast
      nlinarith
    set d := y0 - s0 + n * k with hdd
    unfold Near
    have hb : (kappa : ℝ) * |d| ≤ kappa / 2 := by nlinarith
    rcases le_or_gt 0 d with h0 | h0
    · rw [abs_of_nonneg h0] at hb
      have l1 := Int.le_ceil ((kappa : ℝ) * d - 1 / 2)
      have l2 := Int.ceil_lt_add_one ((kappa : ℝ) * d - 1 / 2)
      have h3 : (-1 : ℝ) < ⌈(kappa : ℝ) * d - 1 / 2⌉ := by nlinarith [mul_nonneg hk'.le h0]
      have h4 : (2 * ⌈(kappa : ℝ) * d - 1 / 2⌉ : ℝ) < kappa + 1 := by linarith
      have h3' : (-1 : ℤ) < ⌈(kappa : ℝ) * d - 1 / 2⌉ := by exact_mod_cast h3
      have h4' : 2 * ⌈(kappa : ℝ) * d - 1 / 2⌉ < (kappa : ℤ) + 1 := by exact_mod_cast h4
      refine ⟨⌈(kappa : ℝ) * d - 1 / 2⌉, ?_, by omega, by omega⟩
      rw [abs_le]
      constructor <;> linarith
    · rw [abs_of_neg h0] at hb
      have l1 := Int.floor_le ((kappa : ℝ) * d + 1 / 2)
      have l2 := Int.lt_floor_add_one ((kappa : ℝ) * d + 1 / 2)
      have h3 : (⌊(kappa : ℝ) * d + 1 / 2⌋ : ℝ) < 1 := by nlinarith [mul_pos hk' (neg_pos.mpr h0)]
      have h4 : (-(kappa : ℝ) - 1) < 2 * ⌊(kappa : ℝ) * d + 1 / 2⌋ := by linarith
      have h3' : ⌊(kappa : ℝ) * d + 1 / 2⌋ < (1 : ℤ) := by exact_mod_cast h3
      have h4' : -(kappa : ℤ) - 1 < 2 * ⌊(kappa : ℝ) * d + 1 / 2⌋ := by exact_mod_cast h4
      refine ⟨⌊(kappa : ℝ) * d + 1 / 2⌋, ?_, by omega, by omega⟩
      rw [abs_le]
      constructor <;> linarith
  -- the fine sample returned
  obtain ⟨l, hl⟩ := red (y0 - (s0 + k0 / kappa))
  refine ⟨l, ?_⟩
  rw [abs_sub_comm, show y0 + n * l - (s0 + k0 / kappa : ℝ) = y0 - (s0 + k0 / kappa) + n * l by ring]
  by_contra hc
  push Not at hc
  have hnear : |y0 - (s0 + r / kappa) + n * k| ≤ 1 / (2 * kappa) := by
    have e : y0 - (s0 + r / kappa) + n * k = (kappa * (y0 - s0 + n * k) - r) / kappa := by field_simp; ring
    rw [e, abs_div, abs_of_pos hk', div_le_div_iff₀ hk' (by positivity)]
    nlinarith
  have h := h2 r hr2
  have h' := hf2 _ _ (lt_of_le_of_lt hnear hc) hl
  rw [hper2, hper2] at h'
  linarith

/-! ### A scene of diagonal waves -/

/-- A bright background, waves along one diagonal direction, and faint waves along each axis. -/
noncomputable def tilted (p q : ℤ) : ℂ :=
  if p = 0 ∧ q = 0 then 3 else if (p = 5 ∧ q = 3) ∨ (p = -5 ∧ q = -3) then 1 else if |p| + |q| = 1 then 1 / 4000 else 0

theorem sum_tilted (g : ℤ → ℤ → ℂ) (h : ∀ p q, tilted p q = 0 → g p q = 0) :
    ∑ p ∈ window 16, ∑ q ∈ window 16, g p q =
      g 0 0 + (g 5 3 + g (-5) (-3)) + (g 1 0 + g (-1) 0) + (g 0 1 + g 0 (-1)) := by
  rw [← Finset.sum_product']
  rw [← Finset.sum_subset (s₁ := {((0 : ℤ), (0 : ℤ)), (5, 3), (-5, -3), (1, 0), (-1, 0), (0, 1), (0, -1)})]
  · rw [Finset.sum_insert (by decide), Finset.sum_insert (by decide), Finset.sum_insert (by decide), Finset.sum_insert (by decide),
      Finset.sum_insert (by decide), Finset.sum_insert (by decide), Finset.sum_singleton]
    ring
  · intro z hz
    rw [Finset.mem_product, mem_window, mem_window]
    simp only [Finset.mem_insert, Finset.mem_singleton] at hz
    rcases hz with rfl | rfl | rfl | rfl | rfl | rfl | rfl <;> norm_num
  · rintro ⟨p, q⟩ - hz
    apply h
    simp only [Finset.mem_insert, Finset.mem_singleton, Prod.mk.injEq, not_or] at hz
    unfold tilted
    have h3 : ¬ (|p| + |q| = 1) := by
      intro h1
      rcases abs_cases p with ⟨e1, _⟩ | ⟨e1, _⟩ <;> rcases abs_cases q with ⟨e2, _⟩ | ⟨e2, _⟩ <;> rw [e1, e2] at h1 <;> omega
    rw [if_neg hz.1, if_neg (by tauto), if_neg h3]

theorem cis_pair (z : ℝ) : cis z + cis (-z) = ((2 * Real.cos (2 * Real.pi * z) : ℝ) : ℂ) := by
  rw [← conj_cis, Complex.add_conj, re_cis]

theorem scene_tilted (y x : ℝ) : scene 16 16 tilted y x =
    ((3 + 2 * Real.cos (2 * Real.pi * ((5 * y + 3 * x) / 16)) +
      (Real.cos (2 * Real.pi * (y / 16)) + Real.cos (2 * Real.pi * (x / 16))) / 2000 : ℝ) : ℂ) := by
  rw [scene_cis, sum_tilted _ (fun p q h => by rw [h, zero_mul])]
  have p1 := cis_pair ((5 * y + 3 * x) / 16)
  have p2 := cis_pair (y / 16)
  have p3 := cis_pair (x / 16)
  have e : ∀ (p q : ℤ) (z : ℝ), (p * y + q * x) / 16 = z → cis (p * y / (16 : ℕ) + q * x / (16 : ℕ)) = cis z := by
    intro p q z h
    rw [← h]
    congr 1
    push_cast
    ring
  rw [e 0 0 0 (by push_cast; ring), e 5 3 ((5 * y + 3 * x) / 16) (by push_cast; ring), e (-5) (-3) (-((5 * y + 3 * x) / 16)) (by push_cast; ring),
    e 1 0 (y / 16) (by push_cast; ring), e (-1) 0 (-(y / 16)) (by push_cast; ring), e 0 1 (x / 16) (by push_cast; ring),
    e 0 (-1) (-(x / 16)) (by push_cast; ring), cis_zero]
  norm_num [tilted]
  push_cast at p1 p2 p3
  linear_combination p1 + (1 / 4000 : ℂ) * p2 + (1 / 4000 : ℂ) * p3

theorem sceneCorr_tilted (u v : ℝ) : sceneCorr 16 16 tilted u v =
    ((9 + 2 * Real.cos (2 * Real.pi * ((5 * u + 3 * v) / 16)) +
      (Real.cos (2 * Real.pi * (u / 16)) + Real.cos (2 * Real.pi * (v / 16))) / 8000000 : ℝ) : ℂ) := by
  rw [sceneCorr_cis, sum_tilted _ (fun p q h => by rw [h]; simp)]
  have p1 := cis_pair ((5 * u + 3 * v) / 16)
  have p2 := cis_pair (u / 16)
  have p3 := cis_pair (v / 16)
  have e : ∀ (p q : ℤ) (z : ℝ), (p * u + q * v) / 16 = z → cis (p * u / (16 : ℕ) + q * v / (16 : ℕ)) = cis z := by
    intro p q z h
    rw [← h]
    congr 1
    push_cast
    ring
  rw [e 0 0 0 (by push_cast; ring), e 5 3 ((5 * u + 3 * v) / 16) (by push_cast; ring), e (-5) (-3) (-((5 * u + 3 * v) / 16)) (by push_cast; ring),
    e 1 0 (u / 16) (by push_cast; ring), e (-1) 0 (-(u / 16)) (by push_cast; ring), e 0 1 (v / 16) (by push_cast; ring),
    e 0 (-1) (-(v / 16)) (by push_cast; ring), cis_zero]
  norm_num [tilted]
  push_cast at p1 p2 p3
  linear_combination p1 + (1 / 16000000 : ℂ) * p2 + (1 / 16000000 : ℂ) * p3

theorem norm_tilted (u v : ℝ) : ‖sceneCorr 16 16 tilted u v‖ =
    9 + 2 * Real.cos (2 * Real.pi * ((5 * u + 3 * v) / 16)) +
      (Real.cos (2 * Real.pi * (u / 16)) + Real.cos (2 * Real.pi * (v / 16))) / 8000000 := by
  rw [sceneCorr_tilted, Complex.norm_real, Real.norm_of_nonneg]
  have h1 := Real.neg_one_le_cos (2 * Real.pi * ((5 * u + 3 * v) / 16))
  have h2 := Real.neg_one_le_cos (2 * Real.pi * (u / 16))
  have h3 := Real.neg_one_le_cos (2 * Real.pi * (v / 16))
  linarith

/-- The correlation of the diagonal scene when the waves are `j` thirty-two-hundredths of a turn apart. -/
theorem tilted_cos (u v : ℝ) (j z : ℤ) (h : 200 * (5 * u + 3 * v) = j + 3200 * z) :
    Real.cos (2 * Real.pi * ((5 * u + 3 * v) / 16)) = Real.cos (2 * Real.pi * (j / 3200)) := by
  rw [show 2 * Real.pi * ((5 * u + 3 * v) / 16) = 2 * Real.pi * (j / 3200) + z * (2 * Real.pi) by
    rw [show 5 * u + 3 * v = (j + 3200 * z) / 200 by rw [← h]; ring]; ring, Real.cos_add_int_mul_two_pi]

theorem tilted_le (u v : ℝ) (j z : ℤ) (h : 200 * (5 * u + 3 * v) = j + 3200 * z) (hj : |j| ≤ 1600) :
    ‖sceneCorr 16 16 tilted u v‖ ≤ 11 - 16 * (j : ℝ) ^ 2 / 3200 ^ 2 + 1 / 4000000 := by
  rw [norm_tilted, tilted_cos u v j z h]
  have h2 := Real.cos_le_one (2 * Real.pi * (u / 16))
  have h3 := Real.cos_le_one (2 * Real.pi * (v / 16))
  have hj' : |(j : ℝ)| ≤ 1600 := by exact_mod_cast hj
  have hpi := Real.pi_pos
  have h1 := Real.cos_le_one_sub_mul_cos_sq (x := 2 * Real.pi * (j / 3200)) (by
    rw [abs_mul, abs_div, abs_of_pos (by positivity : (0 : ℝ) < 2 * Real.pi), abs_of_pos (by norm_num : (0 : ℝ) < 3200)]
    nlinarith)
  have e : 2 / Real.pi ^ 2 * (2 * Real.pi * ((j : ℝ) / 3200)) ^ 2 = 8 * (j : ℝ) ^ 2 / 3200 ^ 2 := by
    field_simp
    ring
  rw [e] at h1
  linarith

theorem tilted_ge (u v : ℝ) (j z : ℤ) (h : 200 * (5 * u + 3 * v) = j + 3200 * z) :
    11 - 40 * (j : ℝ) ^ 2 / 3200 ^ 2 - 1 / 4000000 ≤ ‖sceneCorr 16 16 tilted u v‖ := by
  rw [norm_tilted, tilted_cos u v j z h]
  have h2 := Real.neg_one_le_cos (2 * Real.pi * (u / 16))
  have h3 := Real.neg_one_le_cos (2 * Real.pi * (v / 16))
  have h1 := Real.one_sub_sq_div_two_le_cos (x := 2 * Real.pi * (j / 3200))
  have hpi : Real.pi ^ 2 ≤ 10 := by nlinarith [Real.pi_lt_d2, Real.pi_pos]
  have e : (2 * Real.pi * ((j : ℝ) / 3200)) ^ 2 / 2 = Real.pi ^ 2 * (2 * (j : ℝ) ^ 2 / 3200 ^ 2) := by ring
  have hsq : (0 : ℝ) ≤ 2 * (j : ℝ) ^ 2 / 3200 ^ 2 := by positivity
  rw [e] at h1
  nlinarith

/-! ### Theorems -/

/-- **C105 (partial).** A scene whose correlation with itself falls off along both axes, moved by any amount, is registered to half a fine sample along
both axes, up to whole turns of the image, for every whole upsampling factor and every padding factor above 1.  Missing: other scenes, for which the
promised accuracy is not reached (`C105_tilted_fails`). -/
theorem C105_accuracy_partial (T : Shift) (cfg : PsfConfig) (kappa : ℕ) (hk : 2 ≤ kappa) (hcfg : cfg.upsample = kappa) (hpad : 1 < cfg.pad) {n m : ℕ}
    (hn : 0 < n) (hm : 0 < m) (f t : Fin n → Fin m → ℝ) (c : ℤ → ℤ → ℂ) (A y0 x0 : ℝ) (hA : 0 < A)
    (hf : ∀ i j, (f i j : ℂ) = scene n m c (i : ℕ) (j : ℕ))
    (ht : ∀ i j, (t i j : ℂ) = A * scene n m c ((i : ℕ) - y0) ((j : ℕ) - x0)) (hfall : FallsOff n m c) :
    ∃ y x amp, psffit T cfg ⟨n, m, f⟩ ⟨n, m, t⟩ = .ok ((y, x), amp) ∧
      FoundWithin n (1 / (2 * kappa)) y y0 ∧ FoundWithin m (1 / (2 * kappa)) x x0 := by
  have hk' : (2 : ℝ) ≤ kappa := by exact_mod_cast hk
  obtain ⟨⟨⟨y, x⟩, amp⟩, h⟩ := C54_accepts T cfg ⟨n, m, f⟩ ⟨n, m, t⟩ rfl rfl hn hm (by rw [hcfg]; linarith) (by linarith)
  refine ⟨y, x, amp, h, ?_⟩
  obtain ⟨s0, s1, -, hbest, -, h2⟩ := C54_peak T cfg kappa (by omega) hcfg f t y x amp h
  obtain ⟨k0, k1, hy, hx, n0, n1, hmost⟩ := h2 (by omega)
  have hn' : (0 : ℝ) < n := by exact_mod_cast hn
  have hm' : (0 : ℝ) < m := by exact_mod_cast hm
  have hC : 0 < A * ((n : ℝ) * m) ^ 2 := by positivity
  have hcross : ∀ y x : ℝ, ‖crossAt f t y x‖ = A * ((n : ℝ) * m) ^ 2 * ‖sceneCorr n m c (y0 - y) (x0 - x)‖ := by
    intro y x
    rw [cross_sceneCorr f t c A y0 x0 hf ht, norm_mul, Complex.norm_real, Real.norm_of_nonneg hC.le]
  have hle : ∀ y x y' x' : ℝ, ‖crossAt f t y x‖ ≤ ‖crossAt f t y' x'‖ →
      ‖sceneCorr n m c (y0 - y) (x0 - x)‖ ≤ ‖sceneCorr n m c (y0 - y') (x0 - x')‖ := by
    intro y x y' x' h
    rw [hcross, hcross] at h
    exact le_of_mul_le_mul_left h hC
  have hper : ∀ (u v : ℝ) (k l : ℤ), ‖sceneCorr n m c (u + n * k) (v + m * l)‖ = ‖sceneCorr n m c u v‖ := by
    intro u v k l
    have e1 := hcross (y0 - u) (x0 - v)
    have e2 := hcross (y0 - u + n * (-k : ℤ)) (x0 - v + m * (-l : ℤ))
    rw [crossAt_periodic, e1, sub_sub_cancel, sub_sub_cancel,
      show y0 - (y0 - u + n * ((-k : ℤ) : ℝ)) = u + n * k by push_cast; ring,
      show x0 - (x0 - v + m * ((-l : ℤ) : ℝ)) = v + m * l by push_cast; ring] at e2
    exact (mul_left_cancel₀ hC.ne' e2).symm
  have hperu : ∀ (u v : ℝ) (k : ℤ), ‖sceneCorr n m c (u + n * k) v‖ = ‖sceneCorr n m c u v‖ := fun u v k => by
    have := hper u v k 0
    rwa [Int.cast_zero, mul_zero, add_zero] at this
  have hperv : ∀ (u v : ℝ) (l : ℤ), ‖sceneCorr n m c u (v + m * l)‖ = ‖sceneCorr n m c u v‖ := fun u v l => by
    have := hper u v 0 l
    rwa [Int.cast_zero, mul_zero, add_zero] at this
  subst hy hx
  constructor
  · exact axis_found n kappa (by omega) cfg.pad hpad (fun u => ‖sceneCorr n m c u (x0 - s1)‖)
      (fun u => ‖sceneCorr n m c u (x0 - (s1 + k1 / kappa))‖) (fun u k => hperu u _ k) (fun u k => hperu u _ k) hn
      (fun u u' => hfall.1 u u' _) (fun u u' => hfall.1 u u' _) y0 s0 k0 (fun a => hle _ _ _ _ (hbest a s1)) (fun a ha => hle _ _ _ _ (hmost a k1 ha n1))
  · exact axis_found m kappa (by omega) cfg.pad hpad (fun v => ‖sceneCorr n m c (y0 - s0) v‖)
      (fun v => ‖sceneCorr n m c (y0 - (s0 + k0 / kappa)) v‖) (fun v l => hperv _ v l) (fun v l => hperv _ v l) hm
      (fun v v' => hfall.2 _ v v') (fun v v' => hfall.2 _ v v') x0 s1 k1 (fun b => hle _ _ _ _ (hbest s0 b)) (fun b hb => hle _ _ _ _ (hmost k0 b n0 hb))

/-- **C105 fails.** With the default configuration (upsampling by 200), for the scene of diagonal waves moved by `1/400` of a pixel along both axes,
every image of it is positive, `psffit` returns, and the shift it returns is off by more than *twice* the promised `1/200` of a pixel along one of
the axes: the fine grid is searched for the strongest correlation, and along the diagonal the waves barely change. -/
theorem C105_tilted_fails (T : Shift) : ∃ (f t : Fin 16 → Fin 16 → ℝ),
    (∀ i j, 0 < f i j ∧ 0 < t i j) ∧ (∀ i j, (f i j : ℂ) = scene 16 16 tilted (i : ℕ) (j : ℕ)) ∧
    (∀ i j, (t i j : ℂ) = (1 : ℝ) * scene 16 16 tilted ((i : ℕ) - 1 / 400) ((j : ℕ) - 1 / 400)) ∧
    ∃ y x amp, psffit T ⟨200, 1.5, 0.2⟩ ⟨16, 16, f⟩ ⟨16, 16, t⟩ = .ok ((y, x), amp) ∧
      ¬ (FoundWithin 16 (2 / 200) y (1 / 400) ∧ FoundWithin 16 (2 / 200) x (1 / 400)) := by
  set val : ℝ → ℝ → ℝ := fun y x => 3 + 2 * Real.cos (2 * Real.pi * ((5 * y + 3 * x) / 16)) +
      (Real.cos (2 * Real.pi * (y / 16)) + Real.cos (2 * Real.pi * (x / 16))) / 2000 with hval
  have hpos : ∀ y x, 0 < val y x := by
    intro y x
    have h1 := Real.neg_one_le_cos (2 * Real.pi * ((5 * y + 3 * x) / 16))
    have h2 := Real.neg_one_le_cos (2 * Real.pi * (y / 16))
    have h3 := Real.neg_one_le_cos (2 * Real.pi * (x / 16))
    simp only [hval]
    linarith
  set f : Fin 16 → Fin 16 → ℝ := fun i j => val (i : ℕ) (j : ℕ) with hf0
  set t : Fin 16 → Fin 16 → ℝ := fun i j => val ((i : ℕ) - 1 / 400) ((j : ℕ) - 1 / 400) with ht0
  have hf : ∀ i j, (f i j : ℂ) = scene 16 16 tilted (i : ℕ) (j : ℕ) := fun i j => by rw [scene_tilted]
  have ht : ∀ i j, (t i j : ℂ) = (1 : ℝ) * scene 16 16 tilted ((i : ℕ) - 1 / 400) ((j : ℕ) - 1 / 400) := fun i j => by
    rw [scene_tilted, Complex.ofReal_one, one_mul]
  refine ⟨f, t, fun i j => ⟨hpos _ _, hpos _ _⟩, hf, ht, ?_⟩
  obtain ⟨⟨⟨y, x⟩, amp⟩, h⟩ := C54_accepts T ⟨200, 1.5, 0.2⟩ ⟨16, 16, f⟩ ⟨16, 16, t⟩ rfl rfl (by norm_num) (by norm_num) (by norm_num) (by norm_num)
  refine ⟨y, x, amp, h, ?_⟩
  obtain ⟨s0, s1, -, hbest, -, h2⟩ := C54_peak T ⟨200, 1.5, 0.2⟩ 200 (by omega) (by norm_num) f t y x amp h
  obtain ⟨k0, k1, rfl, rfl, n0, n1, hmost⟩ := h2 (by omega)
  have hcross : ∀ y x : ℝ, ‖crossAt f t y x‖ = 65536 * ‖sceneCorr 16 16 tilted (1 / 400 - y) (1 / 400 - x)‖ := by
    intro y x
    rw [cross_sceneCorr f t tilted 1 (1 / 400) (1 / 400) hf ht, norm_mul, Complex.norm_real, Real.norm_of_nonneg (by positivity)]
    norm_num
  -- the whole-pixel shift lies on a crest of the waves
  have hcrest : ∃ z : ℤ, 5 * s0 + 3 * s1 = 16 * z := by
    have hb := hbest 0 0
    rw [hcross, hcross] at hb
    have lo := tilted_ge (1 / 400 - (0 : ℤ)) (1 / 400 - (0 : ℤ)) 4 0 (by push_cast; norm_num)
    by_contra hc
    push Not at hc
    -- the remainder of the phase, between one and fifteen sixteenths of a turn
    obtain ⟨j, z, hj1, hj2, hj3⟩ : ∃ j z : ℤ, |j| ≤ 1600 ∧ 196 ≤ |j| ∧ 4 - 200 * (5 * s0 + 3 * s1) = j + 3200 * z := by
      have h16 : (5 * s0 + 3 * s1) % 16 ≠ 0 := fun h0 => hc ((5 * s0 + 3 * s1) / 16) (by omega)
      by_cases hlow : (5 * s0 + 3 * s1) % 16 ≤ 8
      · by_cases h8 : (5 * s0 + 3 * s1) % 16 = 8
        · exact ⟨-1596, -((5 * s0 + 3 * s1) / 16), by norm_num, by norm_num, by omega⟩
        · refine ⟨4 - 200 * ((5 * s0 + 3 * s1) % 16), -((5 * s0 + 3 * s1) / 16), ?_, ?_, by omega⟩
          · rw [abs_le]; omega
          · rw [le_abs]; omega
      · refine ⟨4 - 200 * ((5 * s0 + 3 * s1) % 16) + 3200, -((5 * s0 + 3 * s1) / 16) - 1, ?_, ?_, by omega⟩
        · rw [abs_le]; omega
        · rw [le_abs]; omega
    have up := tilted_le (1 / 400 - s0) (1 / 400 - s1) j z (by
      have : ((4 - 200 * (5 * s0 + 3 * s1) : ℤ) : ℝ) = ((j + 3200 * z : ℤ) : ℝ) := by rw [hj3]
      push_cast at this
      linarith) hj1
    have hsq : (196 : ℝ) ^ 2 ≤ (j : ℝ) ^ 2 := by
      rw [← sq_abs (j : ℝ)]
      have : (196 : ℝ) ≤ |(j : ℝ)| := by exact_mod_cast hj2
      nlinarith
    push_cast at lo hb
    nlinarith
  obtain ⟨z0, hz0⟩ := hcrest
  -- a fine sample of the region lies on the crest
  have hfine := hmost 2 (-2) (by unfold Near; norm_num) (by unfold Near; norm_num)
  rw [hcross, hcross] at hfine
  have lo := tilted_ge (1 / 400 - (s0 + (2 : ℤ) / (200 : ℕ))) (1 / 400 - (s1 + (-2 : ℤ) / (200 : ℕ))) 0 (-z0) (by
    have : ((5 * s0 + 3 * s1 : ℤ) : ℝ) = ((16 * z0 : ℤ) : ℝ) := by rw [hz0]
    push_cast at this ⊢
    linarith)
  -- none within two fine samples of the true shift does
  rintro ⟨⟨k, hk⟩, ⟨l, hl⟩⟩
  have hk2 : ∃ a : ℤ, 200 * s0 + k0 = a + 3200 * k ∧ -1 ≤ a ∧ a ≤ 2 := by
    refine ⟨200 * s0 + k0 - 3200 * k, by ring, ?_, ?_⟩ <;> rw [abs_le] at hk <;> push_cast at hk
    · have : (-2 : ℝ) < ((200 * s0 + k0 - 3200 * k : ℤ) : ℝ) := by push_cast; linarith
      have : (-2 : ℤ) < 200 * s0 + k0 - 3200 * k := by exact_mod_cast this
      omega
    · have : ((200 * s0 + k0 - 3200 * k : ℤ) : ℝ) < (3 : ℝ) := by push_cast; linarith
      have : 200 * s0 + k0 - 3200 * k < (3 : ℤ) := by exact_mod_cast this
      omega
  have hl2 : ∃ b : ℤ, 200 * s1 + k1 = b + 3200 * l ∧ -1 ≤ b ∧ b ≤ 2 := by
    refine ⟨200 * s1 + k1 - 3200 * l, by ring, ?_, ?_⟩ <;> rw [abs_le] at hl <;> push_cast at hl
    · have : (-2 : ℝ) < ((200 * s1 + k1 - 3200 * l : ℤ) : ℝ) := by push_cast; linarith
      have : (-2 : ℤ) < 200 * s1 + k1 - 3200 * l := by exact_mod_cast this
      omega
    · have : ((200 * s1 + k1 - 3200 * l : ℤ) : ℝ) < (3 : ℝ) := by push_cast; linarith
      have : 200 * s1 + k1 - 3200 * l < (3 : ℤ) := by exact_mod_cast this
      omega
  obtain ⟨a, ha, ha1, ha2⟩ := hk2
  obtain ⟨b, hb, hb1, hb2⟩ := hl2
  have up := tilted_le (1 / 400 - (s0 + k0 / (200 : ℕ))) (1 / 400 - (s1 + k1 / (200 : ℕ))) (4 - 5 * a - 3 * b) (-5 * k - 3 * l) (by
    have e1 : ((200 * s0 + k0 : ℤ) : ℝ) = ((a + 3200 * k : ℤ) : ℝ) := by rw [ha]
    have e2 : ((200 * s1 + k1 : ℤ) : ℝ) = ((b + 3200 * l : ℤ) : ℝ) := by rw [hb]
    push_cast at e1 e2 ⊢
    linarith) (by rw [abs_le]; omega)
  have hne : (1 : ℤ) ≤ (4 - 5 * a - 3 * b) ^ 2 := by
    have : 4 - 5 * a - 3 * b ≠ 0 := by omega
    have := sq_pos_of_ne_zero this
    omega
  have hne' : (1 : ℝ) ≤ ((4 - 5 * a - 3 * b : ℤ) : ℝ) ^ 2 := by exact_mod_cast hne
  norm_num at lo
  push_cast at lo hfine up hne'
  have : ‖sceneCorr 16 16 tilted (1 / 400 - (s0 + 2 / 200)) (1 / 400 - (s1 + -2 / 200))‖ ≤
    ‖sceneCorr 16 16 tilted (1 / 400 - (s0 + k0 / 200)) (1 / 400 - (s1 + k1 / 200))‖ := by linarith
  norm_num at lo this up
  linarith

/-! ### A concrete case -/

/-- The coefficients of a bump `(2 + 2 cos)(2 + 2 cos)`. -/
noncomputable def bumpCoef (p : ℤ) : ℂ := if p = 0 then 2 else if |p| = 1 then 1 else 0

theorem sum_bump (g : ℤ → ℂ) (h : ∀ p, bumpCoef p = 0 → g p = 0) : ∑ p ∈ window 8, g p = g 0 + (g 1 + g (-1)) := by
  rw [← Finset.sum_subset (s₁ := {(0 : ℤ), 1, -1})]
  · rw [Finset.sum_insert (by decide), Finset.sum_insert (by decide), Finset.sum_singleton]
  · intro z hz
    rw [mem_window]
    simp only [Finset.mem_insert, Finset.mem_singleton] at hz
    rcases hz with rfl | rfl | rfl <;> norm_num
  · intro p _ hz
    apply h
    simp only [Finset.mem_insert, Finset.mem_singleton, not_or] at hz
    have h3 : ¬ |p| = 1 := by
      intro h1
      rcases abs_cases p with ⟨e1, _⟩ | ⟨e1, _⟩ <;> omega
    unfold bumpCoef
    rw [if_neg hz.1, if_neg h3]

theorem scene_bump (y x : ℝ) : scene 8 8 (fun p q => bumpCoef p * bumpCoef q) y x =
    (((2 + 2 * Real.cos (2 * Real.pi * (y / 8))) * (2 + 2 * Real.cos (2 * Real.pi * (x / 8))) : ℝ) : ℂ) := by
  have one : ∀ z : ℝ, ∑ p ∈ window 8, bumpCoef p * cis (p * z / (8 : ℕ)) = ((2 + 2 * Real.cos (2 * Real.pi * (z / 8)) : ℝ) : ℂ) := by
    intro z
    rw [sum_bump _ (fun p h => by rw [h, zero_mul])]
    have p1 := cis_pair (z / 8)
    rw [show (((0 : ℤ) : ℝ) * z / (8 : ℕ)) = 0 by push_cast; ring, show (((1 : ℤ) : ℝ) * z / (8 : ℕ)) = z / 8 by push_cast; ring,
      show (((-1 : ℤ) : ℝ) * z / (8 : ℕ)) = -(z / 8) by push_cast; ring, cis_zero]
    norm_num [bumpCoef]
    push_cast at p1
    linear_combination p1
  rw [scene_cis, Complex.ofReal_mul, ← one y, ← one x, Finset.sum_mul_sum]
  refine Finset.sum_congr rfl fun p _ => Finset.sum_congr rfl fun q _ => ?_
  rw [cis_add]
  ring

theorem sceneCorr_bump (u v : ℝ) : ‖sceneCorr 8 8 (fun p q => bumpCoef p * bumpCoef q) u v‖ =
    (4 + 2 * Real.cos (2 * Real.pi * (u / 8))) * (4 + 2 * Real.cos (2 * Real.pi * (v / 8))) := by
  have one : ∀ z : ℝ, ∑ p ∈ window 8, ((‖bumpCoef p‖ ^ 2 : ℝ) : ℂ) * cis (p * z / (8 : ℕ)) = ((4 + 2 * Real.cos (2 * Real.pi * (z / 8)) : ℝ) : ℂ) := by
    intro z
    rw [sum_bump _ (fun p h => by rw [h]; simp)]
    have p1 := cis_pair (z / 8)
    rw [show (((0 : ℤ) : ℝ) * z / (8 : ℕ)) = 0 by push_cast; ring, show (((1 : ℤ) : ℝ) * z / (8 : ℕ)) = z / 8 by push_cast; ring,
      show (((-1 : ℤ) : ℝ) * z / (8 : ℕ)) = -(z / 8) by push_cast; ring, cis_zero]
    norm_num [bumpCoef]
    push_cast at p1
    linear_combination p1
  have e : sceneCorr 8 8 (fun p q => bumpCoef p * bumpCoef q) u v =
      (((4 + 2 * Real.cos (2 * Real.pi * (u / 8))) * (4 + 2 * Real.cos (2 * Real.pi * (v / 8))) : ℝ) : ℂ) := by
    rw [sceneCorr_cis, Complex.ofReal_mul, ← one u, ← one v, Finset.sum_mul_sum]
    refine Finset.sum_congr rfl fun p _ => Finset.sum_congr rfl fun q _ => ?_
    rw [cis_add, norm_mul]
    push_cast
    ring
  rw [e, Complex.norm_real, Real.norm_of_nonneg]
  have h1 := Real.neg_one_le_cos (2 * Real.pi * (u / 8))
  have h2 := Real.neg_one_le_cos (2 * Real.pi * (v / 8))
  exact mul_nonneg (by linarith) (by linarith)

theorem bump_fallsOff : FallsOff 8 8 fun p q => bumpCoef p * bumpCoef q := by
  have hcos : ∀ u u' : ℝ, |u| < |u'| → |u'| ≤ ((8 : ℕ) : ℝ) / 2 → Real.cos (2 * Real.pi * (u' / 8)) < Real.cos (2 * Real.pi * (u / 8)) := by
    intro u u' h h'
    have hpi := Real.pi_pos
    push_cast at h'
    have e : ∀ z : ℝ, Real.cos (2 * Real.pi * (z / 8)) = Real.cos (2 * Real.pi * (|z| / 8)) := by
      intro z
      rw [← Real.cos_abs, abs_mul, abs_div, abs_of_pos (by positivity : (0 : ℝ) < 2 * Real.pi), abs_of_pos (by norm_num : (0 : ℝ) < 8)]
    rw [e u, e u']
    refine Real.cos_lt_cos_of_nonneg_of_le_pi (by positivity) ?_ ?_
    · nlinarith
    · have : |u| / 8 < |u'| / 8 := by linarith
      nlinarith
  constructor
  · intro u u' v h h'
    rw [sceneCorr_bump, sceneCorr_bump]
    have h1 := hcos u u' h h'
    have h2 := Real.neg_one_le_cos (2 * Real.pi * (v / 8))
    nlinarith
  · intro u v v' h h'
    rw [sceneCorr_bump, sceneCorr_bump]
    have h1 := hcos v v' h h'
    have h2 := Real.neg_one_le_cos (2 * Real.pi * (u / 8))
    nlinarith

/-- `C105_accuracy_partial`: a bump moved by a third of a pixel down and `√2` pixels back, with the default configuration. -/
example : ∃ y x amp, psffit Shift.nearest ⟨200, 1.5, 0.2⟩
    ⟨8, 8, fun i j => (2 + 2 * Real.cos (2 * Real.pi * (((i : ℕ) : ℝ) / 8))) * (2 + 2 * Real.cos (2 * Real.pi * (((j : ℕ) : ℝ) / 8)))⟩
    ⟨8, 8, fun i j => 7 * ((2 + 2 * Real.cos (2 * Real.pi * ((((i : ℕ) : ℝ) - 1 / 3) / 8))) *
      (2 + 2 * Real.cos (2 * Real.pi * ((((j : ℕ) : ℝ) - (-√2)) / 8))))⟩ = .ok ((y, x), amp) ∧
    FoundWithin 8 (1 / (2 * (200 : ℕ))) y (1 / 3) ∧ FoundWithin 8 (1 / (2 * (200 : ℕ))) x (-√2) := by
  refine C105_accuracy_partial Shift.nearest ⟨200, 1.5, 0.2⟩ 200 (by norm_num) (by norm_num) (by norm_num) (by norm_num) (by norm_num) _ _
    (fun p q => bumpCoef p * bumpCoef q) 7 (1 / 3) (-√2) (by norm_num) (fun i j => ?_) (fun i j => ?_) bump_fallsOff
  · rw [scene_bump]
  · rw [scene_bump]
    push_cast
    ring

end Coralign.Props
