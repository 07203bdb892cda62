import Verif.Props.PsfFraction

/-!
# C111: psffit with noise
-/

namespace Coralign.Props

open Coralign Coralign.Spec

/-! ### Specification -/

/-- The overlap of the source with the target moved back by `(a, b)` pixels, around the edges. -/
noncomputable def overlap {n m : ℕ} (f t : Fin n → Fin m → ℝ) (a b : ℕ) : ℝ := ∑ i, ∑ j, f i j * t (rollIdx n a i) (rollIdx m b j)

/-- Root of the sum of squares of an image. -/
noncomputable def imageNorm {n m : ℕ} (f : Fin n → Fin m → ℝ) : ℝ := Real.sqrt (∑ i, ∑ j, f i j ^ 2)

/-! ### The correlation is the overlap -/

theorem phase_orthogonal (n : ℕ) (i k : Fin n) :
    ∑ p : Fin n, cis (-(((p : ℕ) : ℝ) * ((i : ℕ) : ℝ) / n)) * cis (((p : ℕ) : ℝ) * ((k : ℕ) : ℝ) / n) = if i = k then (n : ℂ) else 0 := by
  have hn : 0 < n := Nat.lt_of_le_of_lt (Nat.zero_le _) i.isLt
  have h := sum_cis n hn ((k : ℕ) - (i : ℕ))
  have e : ∀ p : Fin n, cis (-(((p : ℕ) : ℝ) * ((i : ℕ) : ℝ) / n)) * cis (((p : ℕ) : ℝ) * ((k : ℕ) : ℝ) / n) = cis (((p : ℕ) : ℝ) * (((((k : ℕ) : ℤ) - ((i : ℕ) : ℤ) : ℤ) : ℝ) / n)) := by
    intro p
    rw [← cis_add]
    congr 1
    push_cast
    ring
  simp only [e]
  rw [h]
  by_cases hik : i = k
  · rw [if_pos hik, hik, sub_self, if_pos (dvd_zero _)]
  · rw [if_neg hik, if_neg]
    intro hd
    have h1 := i.isLt
    have h2 := k.isLt
    have := Int.eq_zero_of_abs_lt_dvd hd (by rw [abs_lt]; omega)
    exact hik (Fin.ext (by omega))

theorem spec_inner {n m : ℕ} (f g : Fin n → Fin m → ℝ) :
    ∑ p, ∑ q, spec f p q * (starRingEnd ℂ) (spec g p q) = ((n * m * ∑ i, ∑ j, f i j * g i j : ℝ) : ℂ) := by
  have e : ∀ (h : Fin n → Fin m → ℝ) (P : Fin n × Fin m), spec h P.1 P.2 = ∑ I : Fin n × Fin m, (h I.1 I.2 : ℂ) *
      (cis (-(((P.1 : ℕ) : ℝ) * ((I.1 : ℕ) : ℝ) / n)) * cis (-(((P.2 : ℕ) : ℝ) * ((I.2 : ℕ) : ℝ) / m))) := by
    intro h P
    rw [spec_eq, Fintype.sum_prod_type]
    refine Finset.sum_congr rfl fun i _ => Finset.sum_congr rfl fun j _ => ?_
    rw [neg_add, cis_add]
  rw [← Fintype.sum_prod_type (f := fun P : Fin n × Fin m => spec f P.1 P.2 * (starRingEnd ℂ) (spec g P.1 P.2))]
  simp only [e]
  simp only [map_sum, map_mul, Complex.conj_ofReal, conj_cis, neg_neg, Finset.sum_mul_sum]
  rw [Finset.sum_comm]
  have step : ∀ I : Fin n × Fin m, (∑ P : Fin n × Fin m, ∑ K : Fin n × Fin m, (f I.1 I.2 : ℂ) *
      (cis (-(((P.1 : ℕ) : ℝ) * ((I.1 : ℕ) : ℝ) / n)) * cis (-(((P.2 : ℕ) : ℝ) * ((I.2 : ℕ) : ℝ) / m))) *
      ((g K.1 K.2 : ℂ) * (cis (((P.1 : ℕ) : ℝ) * ((K.1 : ℕ) : ℝ) / n) * cis (((P.2 : ℕ) : ℝ) * ((K.2 : ℕ) : ℝ) / m)))) =
      (n : ℂ) * m * ((f I.1 I.2 : ℂ) * g I.1 I.2) := by
    intro I
    rw [Finset.sum_comm, Finset.sum_eq_single I]
    · rw [Fintype.sum_prod_type]
      have : ∀ p : Fin n, ∀ q : Fin m, (f I.1 I.2 : ℂ) * (cis (-(((p : ℕ) : ℝ) * ((I.1 : ℕ) : ℝ) / n)) * cis (-(((q : ℕ) : ℝ) * ((I.2 : ℕ) : ℝ) / m))) *
          ((g I.1 I.2 : ℂ) * (cis (((p : ℕ) : ℝ) * ((I.1 : ℕ) : ℝ) / n) * cis (((q : ℕ) : ℝ) * ((I.2 : ℕ) : ℝ) / m))) = (f I.1 I.2 : ℂ) * g I.1 I.2 := by
        intro p q
        rw [cis_neg, cis_neg]
        field_simp [cis_ne_zero]
      simp only [this]
      rw [Finset.sum_const, Finset.sum_const, Finset.card_univ, Finset.card_univ, Fintype.card_fin, Fintype.card_fin, nsmul_eq_mul, nsmul_eq_mul]
      ring
    · intro K _ hK
      rw [Fintype.sum_prod_type]
      have : ∀ p : Fin n, ∀ q : Fin m, (f I.1 I.2 : ℂ) * (cis (-(((p : ℕ) : ℝ) * ((I.1 : ℕ) : ℝ) / n)) * cis (-(((q : ℕ) : ℝ) * ((I.2 : ℕ) : ℝ) / m))) *
          ((g K.1 K.2 : ℂ) * (cis (((p : ℕ) : ℝ) * ((K.1 : ℕ) : ℝ) / n) * cis (((q : ℕ) : ℝ) * ((K.2 : ℕ) : ℝ) / m))) = ((f I.1 I.2 : ℂ) * g K.1 K.2) *
          ((cis (-(((p : ℕ) : ℝ) * ((I.1 : ℕ) : ℝ) / n)) * cis (((p : ℕ) : ℝ) * ((K.1 : ℕ) : ℝ) / n)) *
           (cis (-(((q : ℕ) : ℝ) * ((I.2 : ℕ) : ℝ) / m)) * cis (((q : ℕ) : ℝ) * ((K.2 : ℕ) : ℝ) / m))) := by
        intro p q; ring
      simp only [this, ← Finset.mul_sum, phase_orthogonal, ← Finset.sum_mul]
      by_cases h1 : I.1 = K.1
      · rw [if_neg (c := I.2 = K.2) (fun h2 => hK (Prod.ext h1.symm h2.symm))]
        ring
      · rw [if_neg h1]
        ring
    · exact fun h => absurd (Finset.mem_univ _) h
  rw [Finset.sum_congr rfl fun I _ => step I, ← Finset.mul_sum, Fintype.sum_prod_type]
  push_cast
  rfl

theorem cross_overlap {n m : ℕ} (f t : Fin n → Fin m → ℝ) (a b : ℕ) : crossAt f t a b = ((n * m * overlap f t a b : ℝ) : ℂ) := by
  unfold overlap
  rw [← spec_inner f fun i j => t (rollIdx n a i) (rollIdx m b j), crossAt_fin]
  refine Finset.sum_congr rfl fun p _ => Finset.sum_congr rfl fun q _ => ?_
  have h : Translated (fun i j => t (rollIdx n a i) (rollIdx m b j)) t 1 a b := fun i j => (one_mul _).symm
  rw [spec_translated _ t 1 a b h p q]
  have c1 := cis_fftfreq_pos n p (Nat.lt_of_le_of_lt (Nat.zero_le _) p.isLt) (-(a : ℤ))
  have c2 := cis_fftfreq_pos m q (Nat.lt_of_le_of_lt (Nat.zero_le _) q.isLt) (-(b : ℤ))
  have c : cis (-((a : ℝ) * fftfreqNum n p / n + (b : ℝ) * fftfreqNum m q / m)) = cis (-((a : ℝ) * ((p : ℕ) : ℝ) / n + (b : ℝ) * ((q : ℕ) : ℝ) / m)) := by
    push_cast at c1 c2
    rw [show -((a : ℝ) * fftfreqNum n p / n + (b : ℝ) * fftfreqNum m q / m) = -(a : ℝ) * fftfreqNum n p / n + -(b : ℝ) * fftfreqNum m q / m by ring, cis_add, c1, c2, ← cis_add]
    congr 1
    ring
  rw [c, map_mul, map_mul, conj_cis, neg_neg, Complex.conj_ofReal, cis_neg]
  have := cis_ne_zero ((a : ℝ) * ((p : ℕ) : ℝ) / n + (b : ℝ) * ((q : ℕ) : ℝ) / m)
  push_cast
  field_simp

theorem spec_norm {n m : ℕ} (f : Fin n → Fin m → ℝ) : ∑ P : Fin n × Fin m, ‖spec f P.1 P.2‖ ^ 2 = n * m * imageNorm f ^ 2 := by
  have h := spec_inner f f
  rw [← Fintype.sum_prod_type (f := fun P : Fin n × Fin m => spec f P.1 P.2 * (starRingEnd ℂ) (spec f P.1 P.2))] at h
  have e : ∀ P : Fin n × Fin m, spec f P.1 P.2 * (starRingEnd ℂ) (spec f P.1 P.2) = ((‖spec f P.1 P.2‖ ^ 2 : ℝ) : ℂ) := fun P => by
    rw [Complex.mul_conj, Complex.normSq_eq_norm_sq]
  simp only [e] at h
  have h2 : (((∑ P : Fin n × Fin m, ‖spec f P.1 P.2‖ ^ 2 : ℝ)) : ℂ) = ((n * m * ∑ i, ∑ j, f i j * f i j : ℝ) : ℂ) := by
    rw [← h]; push_cast; rfl
  have h3 := Complex.ofReal_injective h2
  rw [h3]
  unfold imageNorm
  rw [Real.sq_sqrt (Finset.sum_nonneg fun i _ => Finset.sum_nonneg fun j _ => sq_nonneg _)]
  simp only [sq]

/-- Schwarz's inequality for the correlation, at whole and fractional shifts. -/
theorem cross_bound {n m : ℕ} (f w : Fin n → Fin m → ℝ) (y x : ℝ) : ‖crossAt f w y x‖ ≤ n * m * (imageNorm f * imageNorm w) := by
  rw [crossAt_fin, ← Fintype.sum_prod_type (f := fun P : Fin n × Fin m => spec f P.1 P.2 * (starRingEnd ℂ) (spec w P.1 P.2) *
    cis (-(y * fftfreqNum n P.1 / n + x * fftfreqNum m P.2 / m)))]
  refine (norm_sum_le _ _).trans ?_
  have e : ∀ P : Fin n × Fin m, ‖spec f P.1 P.2 * (starRingEnd ℂ) (spec w P.1 P.2) * cis (-(y * fftfreqNum n P.1 / n + x * fftfreqNum m P.2 / m))‖ =
      ‖spec f P.1 P.2‖ * ‖spec w P.1 P.2‖ := fun P => by
    rw [norm_mul, norm_mul, norm_cis, mul_one, RCLike.norm_conj]
  simp only [e]
  refine (Real.sum_mul_le_sqrt_mul_sqrt _ _ _).trans ?_
  rw [spec_norm, spec_norm, ← Real.sqrt_mul (by positivity)]
  refine le_of_eq ?_
  have f0 : 0 ≤ imageNorm f := Real.sqrt_nonneg _
  have w0 : 0 ≤ imageNorm w := Real.sqrt_nonneg _
  rw [show (n : ℝ) * m * imageNorm f ^ 2 * (n * m * imageNorm w ^ 2) = (n * m * (imageNorm f * imageNorm w)) ^ 2 by ring, Real.sqrt_sq (by positivity)]

theorem spec_add {n m : ℕ} (t w : Fin n → Fin m → ℝ) (p : Fin n) (q : Fin m) : spec (fun i j => t i j + w i j) p q = spec t p q + spec w p q := by
  rw [spec_eq, spec_eq, spec_eq, ← Finset.sum_add_distrib]
  refine Finset.sum_congr rfl fun i _ => ?_
  rw [← Finset.sum_add_distrib]
  refine Finset.sum_congr rfl fun j _ => ?_
  push_cast
  ring

theorem cross_add {n m : ℕ} (f t w : Fin n → Fin m → ℝ) (y x : ℝ) : crossAt f (fun i j => t i j + w i j) y x = crossAt f t y x + crossAt f w y x := by
  rw [crossAt_fin, crossAt_fin, crossAt_fin, ← Finset.sum_add_distrib]
  refine Finset.sum_congr rfl fun i _ => ?_
  rw [← Finset.sum_add_distrib]
  refine Finset.sum_congr rfl fun j _ => ?_
  rw [spec_add, map_add]
  ring

theorem cross_noise {n m : ℕ} (f t w : Fin n → Fin m → ℝ) (y x : ℝ) :
    |‖crossAt f (fun i j => t i j + w i j) y x‖ - ‖crossAt f t y x‖| ≤ n * m * (imageNorm f * imageNorm w) := by
  refine (abs_norm_sub_norm_le _ _).trans ?_
  rw [cross_add, add_sub_cancel_left]
  exact cross_bound f w y x

theorem cross_translated {n m : ℕ} (f t : Fin n → Fin m → ℝ) (A : ℝ) (y x : ℕ) (h : Translated f t A y x) (u v : ℝ) : ‖crossAt f t (y + u) (x + v)‖ = |A| * ‖crossAt f f u v‖ := by
  have e : crossAt f t (y + u) (x + v) = A * crossAt f f u v := by
    rw [crossAt_fin, crossAt_fin, Finset.mul_sum]
    refine Finset.sum_congr rfl fun p _ => ?_
    rw [Finset.mul_sum]
    refine Finset.sum_congr rfl fun q _ => ?_
    rw [spec_translated f t A y x h p q]
    have c1 := cis_fftfreq_pos n p (Nat.lt_of_le_of_lt (Nat.zero_le _) p.isLt) y
    have c2 := cis_fftfreq_pos m q (Nat.lt_of_le_of_lt (Nat.zero_le _) q.isLt) x
    have c : cis (-((y + u) * fftfreqNum n p / n + (x + v) * fftfreqNum m q / m)) = (cis ((y : ℝ) * ((p : ℕ) : ℝ) / n))⁻¹ * (cis ((x : ℝ) * ((q : ℕ) : ℝ) / m))⁻¹ *
        cis (-(u * fftfreqNum n p / n + v * fftfreqNum m q / m)) := by
      rw [Int.cast_natCast] at c1 c2
      rw [← c1, ← c2, ← cis_neg, ← cis_neg, ← cis_add, ← cis_add]
      congr 1
      ring
    rw [map_mul, map_mul, conj_cis, neg_neg, Complex.conj_ofReal, c, cis_add ((y : ℝ) * ((p : ℕ) : ℝ) / n)]
    have := cis_ne_zero ((y : ℝ) * ((p : ℕ) : ℝ) / n)
    have := cis_ne_zero ((x : ℝ) * ((q : ℕ) : ℝ) / m)
    field_simp
  rw [e, norm_mul, Complex.norm_real, Real.norm_eq_abs]

theorem overlap_self {n m : ℕ} (hn : 0 < n) (hm : 0 < m) (f : Fin n → Fin m → ℝ) (a b : ℤ) :
    ‖crossAt f f a b‖ = n * m * |overlap f f (a % n).toNat (b % m).toNat| := by
  have ha0 := Int.emod_nonneg a (show (n : ℤ) ≠ 0 by omega)
  have hb0 := Int.emod_nonneg b (show (m : ℤ) ≠ 0 by omega)
  have ea : ((((a % n).toNat : ℕ) : ℝ)) + n * ((a / n : ℤ) : ℝ) = a := by
    have h1 : (((a % n).toNat : ℕ) : ℤ) = a % n := Int.toNat_of_nonneg ha0
    have h2 := Int.emod_add_mul_ediv a n
    rw [← h1] at h2
    exact_mod_cast h2
  have eb : ((((b % m).toNat : ℕ) : ℝ)) + m * ((b / m : ℤ) : ℝ) = b := by
    have h1 : (((b % m).toNat : ℕ) : ℤ) = b % m := Int.toNat_of_nonneg hb0
    have h2 := Int.emod_add_mul_ediv b m
    rw [← h1] at h2
    exact_mod_cast h2
  rw [← ea, ← eb, crossAt_periodic, cross_overlap, Complex.norm_real, Real.norm_eq_abs, abs_mul, abs_of_nonneg (by positivity)]

/-! ### Noise -/

/-- **C111.** For any images: with noise `w` added to the target, the shift found correlates with the clean target within `2 ‖source‖ ‖noise‖` of the best, among whole pixels
for the first estimate and among the fine samples about it for the result. -/
theorem C111_near_peak (T : Shift) (cfg : PsfConfig) (kappa : ℕ) (hk : 1 ≤ kappa) (hcfg : cfg.upsample = kappa) {n m : ℕ} (f t w : Fin n → Fin m → ℝ) (y x amp : ℝ)
    (h : psffit T cfg ⟨n, m, f⟩ ⟨n, m, fun i j => t i j + w i j⟩ = .ok ((y, x), amp)) :
    ∃ s0 s1 : ℤ, (s0 ∈ window n ∧ s1 ∈ window m) ∧ (∀ a b : ℤ, ‖crossAt f t a b‖ ≤ ‖crossAt f t s0 s1‖ + n * m * (2 * imageNorm f * imageNorm w)) ∧
      (kappa = 1 → y = s0 ∧ x = s1) ∧
      (kappa ≠ 1 → ∃ k0 k1 : ℤ, y = s0 + k0 / kappa ∧ x = s1 + k1 / kappa ∧ Near kappa cfg.pad k0 ∧ Near kappa cfg.pad k1 ∧
        ∀ a b : ℤ, Near kappa cfg.pad a → Near kappa cfg.pad b →
          ‖crossAt f t (s0 + a / kappa) (s1 + b / kappa)‖ ≤ ‖crossAt f t y x‖ + n * m * (2 * imageNorm f * imageNorm w)) := by
  have both : ∀ u v u' v' : ℝ, ‖crossAt f (fun i j => t i j + w i j) u v‖ ≤ ‖crossAt f (fun i j => t i j + w i j) u' v'‖ →
      ‖crossAt f t u v‖ ≤ ‖crossAt f t u' v'‖ + n * m * (2 * imageNorm f * imageNorm w) := by
    intro u v u' v' hle
    have h1 := abs_le.mp (cross_noise f t w u v)
    have h2 := abs_le.mp (cross_noise f t w u' v')
    linarith
  obtain ⟨s0, s1, hs, hbest, h1, h2⟩ := C54_peak T cfg kappa hk hcfg f _ y x amp h
  refine ⟨s0, s1, hs, fun a b => both _ _ _ _ (hbest a b), h1, fun hne => ?_⟩
  obtain ⟨k0, k1, hy, hx, n0, n1, hmost⟩ := h2 hne
  exact ⟨k0, k1, hy, hx, n0, n1, fun a b ha hb => both _ _ _ _ (hmost a b ha hb)⟩

/-- The overlap of the source with itself falls, for every whole-pixel shift, far enough below its value without shift. -/
def Distinct {n m : ℕ} (f : Fin n → Fin m → ℝ) (A margin : ℝ) : Prop :=
  ∀ a b : ℕ, ¬ (n ∣ a ∧ m ∣ b) → A * |overlap f f a b| + margin < A * imageNorm f ^ 2

theorem cross_zero {n m : ℕ} (hn : 0 < n) (hm : 0 < m) (f : Fin n → Fin m → ℝ) : ‖crossAt f f 0 0‖ = n * m * imageNorm f ^ 2 := by
  have h := overlap_self hn hm f 0 0
  rw [Int.cast_zero] at h
  rw [h]
  have e : overlap f f ((0 : ℤ) % n).toNat ((0 : ℤ) % m).toNat = imageNorm f ^ 2 := by
    unfold overlap imageNorm
    rw [Real.sq_sqrt (Finset.sum_nonneg fun i _ => Finset.sum_nonneg fun j _ => sq_nonneg _)]
    refine Finset.sum_congr rfl fun i _ => Finset.sum_congr rfl fun j _ => ?_
    have r : ∀ (k : ℕ) (i : Fin k), rollIdx k ((0 : ℤ) % k).toNat i = i := by
      intro k i
      apply Fin.ext
      simp [rollIdx, Nat.mod_eq_of_lt i.isLt]
    rw [r, r, sq]
  rw [e, abs_of_nonneg (sq_nonneg _)]

/-- The first estimate is right when the noise is small. -/
theorem coarse_right {n m : ℕ} (hn : 0 < n) (hm : 0 < m) (f t w : Fin n → Fin m → ℝ) (A : ℝ) (hA : 0 < A) (y x : ℕ) (h : Translated f t A y x)
    (hd : Distinct f A (2 * imageNorm f * imageNorm w)) (s0 s1 : ℤ)
    (hbest : ∀ a b : ℤ, ‖crossAt f t a b‖ ≤ ‖crossAt f t s0 s1‖ + n * m * (2 * imageNorm f * imageNorm w)) : (n : ℤ) ∣ s0 - y ∧ (m : ℤ) ∣ s1 - x := by
  by_contra hne
  have nm : (0 : ℝ) < n * m := by positivity
  have h0 := hbest y x
  have e0 := cross_translated f t A y x h 0 0
  rw [add_zero, add_zero, cross_zero hn hm, abs_of_pos hA] at e0
  have e1 := cross_translated f t A y x h ((s0 - y : ℤ) : ℝ) ((s1 - x : ℤ) : ℝ)
  rw [overlap_self hn hm, abs_of_pos hA] at e1
  push_cast at h0 e1
  rw [add_sub_cancel, add_sub_cancel] at e1
  rw [e0, e1] at h0
  have ha0 := Int.emod_nonneg (s0 - y) (show (n : ℤ) ≠ 0 by omega)
  have hb0 := Int.emod_nonneg (s1 - x) (show (m : ℤ) ≠ 0 by omega)
  have := hd ((s0 - y) % n).toNat ((s1 - x) % m).toNat (by
    rintro ⟨h1, h2⟩
    apply hne
    have h1' : (n : ℤ) ∣ (((s0 - y) % n).toNat : ℤ) := by exact_mod_cast h1
    have h2' : (m : ℤ) ∣ (((s1 - x) % m).toNat : ℤ) := by exact_mod_cast h2
    rw [Int.toNat_of_nonneg ha0] at h1'
    rw [Int.toNat_of_nonneg hb0] at h2'
    constructor
    · refine Int.dvd_of_emod_eq_zero ?_
      rw [← Int.emod_emod_of_dvd _ (dvd_refl (n : ℤ))]
      exact Int.emod_eq_zero_of_dvd h1'
    · refine Int.dvd_of_emod_eq_zero ?_
      rw [← Int.emod_emod_of_dvd _ (dvd_refl (m : ℤ))]
      exact Int.emod_eq_zero_of_dvd h2')
  have := mul_lt_mul_of_pos_left this nm
  linarith

theorem signed_of_window {n y : ℕ} {s : ℤ} (h : s ∈ window n) (hd : (n : ℤ) ∣ s - y) : SignedShift n y s := by
  unfold window at h
  rw [Finset.mem_Ico] at h
  refine ⟨hd, ?_, ?_⟩ <;> omega

/-- **C111.** Without upsampling: a target that is a positive multiple of the source translated by whole pixels, plus any noise, is found at exactly that translation, as long as
the overlap of the source with itself drops by more than `2 ‖source‖ ‖noise‖` (over the brightness) at every other whole-pixel shift. -/
theorem C111_pixel (T : Shift) (cfg : PsfConfig) (hcfg : cfg.upsample = 1) (hp : 0 < cfg.pad) {n m : ℕ} (hn : 0 < n) (hm : 0 < m) (f t w : Fin n → Fin m → ℝ) (A : ℝ)
    (hA : 0 < A) (y x : ℕ) (h : Translated f t A y x) (hd : Distinct f A (2 * imageNorm f * imageNorm w)) :
    ∃ s0 s1 : ℤ, SignedShift n y s0 ∧ SignedShift m x s1 ∧ ∃ amp, psffit T cfg ⟨n, m, f⟩ ⟨n, m, fun i j => t i j + w i j⟩ = .ok (((s0 : ℝ), (s1 : ℝ)), amp) := by
  obtain ⟨⟨⟨y', x'⟩, amp⟩, ho⟩ := C54_accepts T cfg ⟨n, m, f⟩ ⟨n, m, fun i j => t i j + w i j⟩ rfl rfl hn hm (by rw [hcfg]; norm_num) hp
  obtain ⟨s0, s1, hs, hbest, h1, -⟩ := C111_near_peak T cfg 1 le_rfl (by rw [hcfg]; norm_num) f t w y' x' amp ho
  obtain ⟨rfl, rfl⟩ := h1 rfl
  obtain ⟨d0, d1⟩ := coarse_right hn hm f t w A hA y x h hd s0 s1 hbest
  exact ⟨s0, s1, signed_of_window hs.1 d0, signed_of_window hs.2 d1, amp, ho⟩

/-- **C111.** With upsampling, under the same condition on whole-pixel shifts: the answer is within half the refined region of the true translation; and it is exactly the
translation when the correlation of the source with itself drops by as much at every other fine sample of the region. -/
theorem C111_subpixel (T : Shift) (cfg : PsfConfig) (kappa : ℕ) (hk : 2 ≤ kappa) (hcfg : cfg.upsample = kappa) (hp : 0 < cfg.pad) {n m : ℕ} (hn : 0 < n) (hm : 0 < m)
    (f t w : Fin n → Fin m → ℝ) (A : ℝ) (hA : 0 < A) (y x : ℕ) (h : Translated f t A y x) (hd : Distinct f A (2 * imageNorm f * imageNorm w)) :
    ∃ (s0 s1 : ℤ) (y' x' amp : ℝ), SignedShift n y s0 ∧ SignedShift m x s1 ∧ psffit T cfg ⟨n, m, f⟩ ⟨n, m, fun i j => t i j + w i j⟩ = .ok ((y', x'), amp) ∧
      |y' - s0| ≤ ⌈(kappa : ℝ) * cfg.pad⌉ / (2 * kappa) ∧ |x' - s1| ≤ ⌈(kappa : ℝ) * cfg.pad⌉ / (2 * kappa) ∧
      ((∀ a b : ℤ, Near kappa cfg.pad a → Near kappa cfg.pad b → ¬ (a = 0 ∧ b = 0) →
        A * ‖crossAt f f (a / kappa) (b / kappa)‖ + n * m * (2 * imageNorm f * imageNorm w) < A * ‖crossAt f f 0 0‖) → y' = s0 ∧ x' = s1) := by
  have hk' : (2 : ℝ) ≤ kappa := by exact_mod_cast hk
  obtain ⟨⟨⟨y', x'⟩, amp⟩, ho⟩ := C54_accepts T cfg ⟨n, m, f⟩ ⟨n, m, fun i j => t i j + w i j⟩ rfl rfl hn hm (by rw [hcfg]; linarith) hp
  obtain ⟨s0, s1, hs, hbest, -, h2⟩ := C111_near_peak T cfg kappa (by omega) hcfg f t w y' x' amp ho
  obtain ⟨k0, k1, rfl, rfl, n0, n1, hmost⟩ := h2 (by omega)
  obtain ⟨d0, d1⟩ := coarse_right hn hm f t w A hA y x h hd s0 s1 hbest
  have kpos : (0 : ℝ) < kappa := by linarith
  have size : ∀ (s k : ℤ), Near kappa cfg.pad k → |(s : ℝ) + k / kappa - s| ≤ ⌈(kappa : ℝ) * cfg.pad⌉ / (2 * kappa) := by
    intro s k hkk
    rw [add_sub_cancel_left, abs_div, abs_of_pos kpos, div_le_div_iff₀ kpos (by linarith)]
    have h1 : |(2 * k : ℤ)| ≤ ⌈(kappa : ℝ) * cfg.pad⌉ := abs_le.mpr ⟨by have := hkk.1; omega, hkk.2⟩
    have h2 : |((2 * k : ℤ) : ℝ)| ≤ (⌈(kappa : ℝ) * cfg.pad⌉ : ℝ) := by exact_mod_cast h1
    rw [Int.cast_mul, abs_mul, Int.cast_ofNat, abs_of_pos (by norm_num : (0 : ℝ) < 2)] at h2
    nlinarith
  refine ⟨s0, s1, _, _, amp, signed_of_window hs.1 d0, signed_of_window hs.2 d1, ho, size s0 k0 n0, size s1 k1 n1, fun hfine => ?_⟩
  have z : Near kappa cfg.pad 0 := by
    have := Int.ceil_pos.mpr (mul_pos kpos hp)
    unfold Near
    omega
  have key : k0 = 0 ∧ k1 = 0 := by
    by_contra hne
    have h3 := hmost 0 0 z z
    have h4 := hfine k0 k1 n0 n1 hne
    obtain ⟨c0, e0⟩ := d0
    obtain ⟨c1, e1⟩ := d1
    have r0 : (s0 : ℝ) = y + n * c0 := by
      have : s0 = y + n * c0 := by linarith
      exact_mod_cast this
    have r1 : (s1 : ℝ) = x + m * c1 := by
      have : s1 = x + m * c1 := by linarith
      exact_mod_cast this
    have t0 : ∀ u v : ℝ, ‖crossAt f t (s0 + u) (s1 + v)‖ = A * ‖crossAt f f u v‖ := by
      intro u v
      rw [r0, r1, show (y : ℝ) + n * c0 + u = y + u + n * c0 by ring, show (x : ℝ) + m * c1 + v = x + v + m * c1 by ring, crossAt_periodic,
        cross_translated f t A y x h, abs_of_pos hA]
    rw [t0, t0] at h3
    simp only [Int.cast_zero, zero_div] at h3
    linarith
  rw [key.1, key.2]
  simp

/-! ### The hypotheses can be met -/

theorem norm_dot (n m a b : ℕ) (v : ℝ) (ha : a < n) (hb : b < m) (hv : 0 ≤ v) : imageNorm (dot n m a b v) = v := by
  unfold imageNorm dot
  rw [Finset.sum_eq_single (⟨a, ha⟩ : Fin n), Finset.sum_eq_single (⟨b, hb⟩ : Fin m)]
  · rw [if_pos ⟨rfl, rfl⟩, Real.sqrt_sq hv]
  · intro j _ hj
    rw [if_neg (fun h => hj (Fin.ext h.2))]
    norm_num
  · exact fun h => absurd (Finset.mem_univ _) h
  · intro i _ hi
    refine Finset.sum_eq_zero fun j _ => ?_
    rw [if_neg (fun h => hi (Fin.ext h.1))]
    norm_num
  · exact fun h => absurd (Finset.mem_univ _) h

/-- A bright pixel, with a second pixel half as bright as noise. -/
theorem dot_distinct : Distinct (dot 4 5 1 2 1) 2 (2 * imageNorm (dot 4 5 1 2 1) * imageNorm (dot 4 5 0 0 (1 / 2))) := by
  intro a b hab
  rw [norm_dot 4 5 1 2 1 (by norm_num) (by norm_num) (by norm_num), norm_dot 4 5 0 0 (1 / 2) (by norm_num) (by norm_num) (by norm_num)]
  have e : overlap (dot 4 5 1 2 1) (dot 4 5 1 2 1) a b = 0 := by
    refine Finset.sum_eq_zero fun i _ => Finset.sum_eq_zero fun j _ => ?_
    by_cases h1 : (i : ℕ) = 1 ∧ (j : ℕ) = 2
    · have h2 : ¬ (((rollIdx 4 a i : Fin 4) : ℕ) = 1 ∧ ((rollIdx 5 b j : Fin 5) : ℕ) = 2) := by
        rintro ⟨h2, h3⟩
        apply hab
        simp only [rollIdx] at h2 h3
        rw [h1.1] at h2
        rw [h1.2] at h3
        exact ⟨by omega, by omega⟩
      unfold dot
      rw [if_neg h2, mul_zero]
    · unfold dot
      rw [if_neg h1, zero_mul]
  rw [e]
  norm_num

example (T : Shift) : ∃ s0 s1 : ℤ, SignedShift 4 2 s0 ∧ SignedShift 5 4 s1 ∧
    ∃ amp, psffit T ⟨1, 1.5, 0.2⟩ ⟨4, 5, dot 4 5 1 2 1⟩ ⟨4, 5, fun i j => dot 4 5 3 1 2 i j + dot 4 5 0 0 (1 / 2) i j⟩ = .ok (((s0 : ℝ), (s1 : ℝ)), amp) :=
  C111_pixel T ⟨1, 1.5, 0.2⟩ rfl (by norm_num) (by norm_num) (by norm_num) _ _ _ 2 (by norm_num) 2 4 dot_translated dot_distinct

example (T : Shift) : ∃ (s0 s1 : ℤ) (y' x' amp : ℝ), SignedShift 4 2 s0 ∧ SignedShift 5 4 s1 ∧
    psffit T ⟨(10 : ℕ), 1.5, 0.2⟩ ⟨4, 5, dot 4 5 1 2 1⟩ ⟨4, 5, fun i j => dot 4 5 3 1 2 i j + dot 4 5 0 0 (1 / 2) i j⟩ = .ok ((y', x'), amp) ∧ |y' - s0| ≤ 3 / 4 := by
  obtain ⟨s0, s1, y', x', amp, h0, h1, h, hy, -, -⟩ := C111_subpixel T ⟨(10 : ℕ), 1.5, 0.2⟩ 10 (by norm_num) rfl (by norm_num) (by norm_num) (by norm_num) _ _ _ 2 (by norm_num) 2 4
    dot_translated dot_distinct
  refine ⟨s0, s1, y', x', amp, h0, h1, h, hy.trans (le_of_eq ?_)⟩
  have : ⌈((10 : ℕ) : ℝ) * 1.5⌉ = 15 := by rw [Int.ceil_eq_iff]; norm_num
  simp only [this]
  norm_num

end Coralign.Props
