import Verif.Props.PsfNoise

/-!
# Property C118: symmetries of the PSF registration
-/

namespace Coralign.Props

open Coralign Coralign.Spec

/-! ### Specification -/

/-- Two shifts of an axis of `n` pixels which differ by whole turns of the image. -/
def SamePlace (n : ℕ) (u v : ℝ) : Prop := ∃ k : ℤ, u = v + n * k

/-- The image with the order of its rows reversed. -/
def rowsReversed {n m : ℕ} (f : Fin n → Fin m → ℝ) : Fin n → Fin m → ℝ := fun i j => f i.rev j

/-- The image turned by half a turn. -/
def halfTurned {n m : ℕ} (f : Fin n → Fin m → ℝ) : Fin n → Fin m → ℝ := fun i j => f i.rev j.rev

/-- The image with rows and columns exchanged. -/
def rowsForCols {n m : ℕ} (f : Fin n → Fin m → ℝ) : Fin m → Fin n → ℝ := fun j i => f i j

/-- The registration of the two images has one clear answer: the whole-pixel shift `(s0, s1)` has a larger correlation than every other
whole-pixel shift of the image, and, with an upsampling factor other than 1, the sample `(k0, k1)` steps of `1 / kappa` pixels from there, which
is not on the edge of the refined region, a larger correlation than every other sample of the region (edges included). -/
structure ClearBest (kappa : ℕ) (pad : ℝ) {n m : ℕ} (f t : Fin n → Fin m → ℝ) (s0 s1 k0 k1 : ℤ) : Prop where
  whole : ∀ a b : ℤ, ¬ ((n : ℤ) ∣ a - s0 ∧ (m : ℤ) ∣ b - s1) → ‖crossAt f t a b‖ < ‖crossAt f t s0 s1‖
  none : kappa = 1 → k0 = 0 ∧ k1 = 0
  inside : kappa ≠ 1 → 2 * |k0| < ⌈(kappa : ℝ) * pad⌉ ∧ 2 * |k1| < ⌈(kappa : ℝ) * pad⌉
  fine : kappa ≠ 1 → ∀ a b : ℤ, 2 * |a| ≤ ⌈(kappa : ℝ) * pad⌉ → 2 * |b| ≤ ⌈(kappa : ℝ) * pad⌉ → ¬ (a = k0 ∧ b = k1) →
    ‖crossAt f t (s0 + a / kappa) (s1 + b / kappa)‖ < ‖crossAt f t (s0 + k0 / kappa) (s1 + k1 / kappa)‖

/-! ### The correlation of changed images -/

theorem cross_exchanged {n m : ℕ} (f t : Fin n → Fin m → ℝ) (y x : ℝ) : ‖crossAt t f (-y) (-x)‖ = ‖crossAt f t y x‖ := by
  have e : crossAt t f (-y) (-x) = (starRingEnd ℂ) (crossAt f t y x) := by
    rw [crossAt_fin, crossAt_fin, map_sum]
    refine Finset.sum_congr rfl fun p _ => ?_
    rw [map_sum]
    refine Finset.sum_congr rfl fun q _ => ?_
    rw [map_mul, map_mul, Complex.conj_conj, conj_cis, mul_comm (spec t p q)]
    congr 2
    ring
  rw [e, RCLike.norm_conj]

theorem cross_moved {n m : ℕ} (f t f' t' : Fin n → Fin m → ℝ) (a b : ℝ) (k l k' l' : ℕ) (hf : Translated f f' a k l) (ht : Translated t t' b k' l')
    (y x : ℝ) : crossAt f' t' (y + ((k' : ℝ) - k)) (x + ((l' : ℝ) - l)) = ((a * b : ℝ) : ℂ) * crossAt f t y x := by
  rw [crossAt_fin, crossAt_fin, Finset.mul_sum]
  refine Finset.sum_congr rfl fun p _ => ?_
  rw [Finset.mul_sum]
  refine Finset.sum_congr rfl fun q _ => ?_
  rw [spec_translated f f' a k l hf p q, spec_translated t t' b k' l' ht p q, map_mul, map_mul, conj_cis, neg_neg, Complex.conj_ofReal]
  have hp := Nat.lt_of_le_of_lt (Nat.zero_le _) p.isLt
  have hq := Nat.lt_of_le_of_lt (Nat.zero_le _) q.isLt
  have c1 := cis_fftfreq_pos n p hp (k : ℤ)
  have c2 := cis_fftfreq_pos m q hq (l : ℤ)
  have c3 := cis_fftfreq_pos n p hp (k' : ℤ)
  have c4 := cis_fftfreq_pos m q hq (l' : ℤ)
  rw [Int.cast_natCast] at c1 c2 c3 c4
  rw [neg_add, cis_add, cis_neg, cis_neg, cis_add ((k' : ℝ) * _ / _), ← c1, ← c2, ← c3, ← c4]
  have e : cis (-((y + ((k' : ℝ) - k)) * fftfreqNum n p / n + (x + ((l' : ℝ) - l)) * fftfreqNum m q / m)) =
      cis (-(y * fftfreqNum n p / n + x * fftfreqNum m q / m)) * (cis ((k : ℝ) * fftfreqNum n p / n) * cis ((l : ℝ) * fftfreqNum m q / m)) *
        ((cis ((k' : ℝ) * fftfreqNum n p / n))⁻¹ * (cis ((l' : ℝ) * fftfreqNum m q / m))⁻¹) := by
    rw [← cis_neg, ← cis_neg, ← cis_add, ← cis_add, ← cis_add, ← cis_add]
    congr 1
    ring
  rw [e]
  have h1 := cis_ne_zero ((k : ℝ) * fftfreqNum n p / n)
  have h2 := cis_ne_zero ((l : ℝ) * fftfreqNum m q / m)
  have h3 := cis_ne_zero ((k' : ℝ) * fftfreqNum n p / n)
  have h4 := cis_ne_zero ((l' : ℝ) * fftfreqNum m q / m)
  generalize cis ((k : ℝ) * fftfreqNum n p / n) = z1 at h1 ⊢
  generalize cis ((l : ℝ) * fftfreqNum m q / m) = z2 at h2 ⊢
  generalize cis ((k' : ℝ) * fftfreqNum n p / n) = z3 at h3 ⊢
  generalize cis ((l' : ℝ) * fftfreqNum m q / m) = z4 at h4 ⊢
  generalize cis (-(y * fftfreqNum n p / n + x * fftfreqNum m q / m)) = z5
  push_cast
  field_simp

theorem spec_halfTurned {n m : ℕ} (f : Fin n → Fin m → ℝ) (p : Fin n) (q : Fin m) :
    spec (halfTurned f) p q = (starRingEnd ℂ) (spec f p q) * cis (((p : ℕ) : ℝ) / n + ((q : ℕ) : ℝ) / m) := by
  have hn : (n : ℝ) ≠ 0 := by have := p.isLt; have : 0 < n := by omega
                              positivity
  have hm : (m : ℝ) ≠ 0 := by have := q.isLt; have : 0 < m := by omega
                              positivity
  rw [spec_eq, spec_eq, map_sum, Finset.sum_mul, ← Equiv.sum_comp Fin.revPerm]
  refine Finset.sum_congr rfl fun i _ => ?_
  rw [map_sum, Finset.sum_mul, ← Equiv.sum_comp Fin.revPerm]
  refine Finset.sum_congr rfl fun j _ => ?_
  unfold halfTurned
  simp only [Fin.revPerm_apply, Fin.rev_rev]
  rw [map_mul, Complex.conj_ofReal, conj_cis, mul_assoc, ← cis_add]
  congr 1
  have ei : ((i.rev : ℕ) : ℝ) = n - 1 - (i : ℕ) := by
    have := i.isLt
    rw [Fin.val_rev, Nat.cast_sub (by omega)]
    push_cast
    ring
  have ej : ((j.rev : ℕ) : ℝ) = m - 1 - (j : ℕ) := by
    have := j.isLt
    rw [Fin.val_rev, Nat.cast_sub (by omega)]
    push_cast
    ring
  rw [ei, ej, ← cis_add_int _ (((p : ℕ) : ℤ) + ((q : ℕ) : ℤ))]
  congr 1
  push_cast
  field_simp
  ring

theorem cross_halfTurned {n m : ℕ} (f t : Fin n → Fin m → ℝ) (y x : ℝ) : ‖crossAt (halfTurned f) (halfTurned t) (-y) (-x)‖ = ‖crossAt f t y x‖ := by
  rw [← cross_exchanged f t]
  congr 1
  rw [crossAt_fin, crossAt_fin]
  refine Finset.sum_congr rfl fun p _ => Finset.sum_congr rfl fun q _ => ?_
  congr 1
  rw [spec_halfTurned, spec_halfTurned, map_mul, Complex.conj_conj, conj_cis, cis_neg]
  have := cis_ne_zero (((p : ℕ) : ℝ) / n + ((q : ℕ) : ℝ) / m)
  field_simp

theorem window_neg (n : ℕ) (F : ℤ → ℂ) (h : Odd n ∨ ∀ p, F (p + n) = F p) : ∑ p ∈ window n, F (-p) = ∑ p ∈ window n, F p := by
  have key : ∀ p ∈ window n, F (-p) = F (if -p ∈ window n then -p else p) := by
    intro p hp
    split
    · rfl
    · next hn =>
      rw [mem_window] at hp hn
      rcases h with ⟨c, hc⟩ | h
      · omega
      · rw [show -p = p + n by omega, h]
  rw [Finset.sum_congr rfl key]
  refine Finset.sum_bij (fun p _ => if -p ∈ window n then -p else p) ?_ ?_ ?_ fun _ _ => rfl
  · intro p hp
    split
    · next h => exact h
    · exact hp
  · intro p hp q hq hpq
    simp only [mem_window] at hp hq hpq
    split at hpq <;> split at hpq <;> omega
  · intro p hp
    by_cases hn : -p ∈ window n
    · exact ⟨-p, hn, by rw [neg_neg, if_pos hp]⟩
    · exact ⟨p, hp, by rw [if_neg hn]⟩

theorem dft_rowsReversed {n m : ℕ} (hn : 0 < n) (f : Fin n → Fin m → ℝ) (p : ℤ) (q : ℝ) :
    dftAt (Arr2.toC ⟨n, m, rowsReversed f⟩) p q = dftAt (Arr2.toC ⟨n, m, f⟩) (-p : ℤ) q * cis (p / n) := by
  have hn' : (n : ℝ) ≠ 0 := by positivity
  have hnc : (n : ℂ) ≠ 0 := by exact_mod_cast hn.ne'
  unfold dftAt
  show ∑ i : Fin n, ∑ j : Fin m, ((rowsReversed f i j : ℝ) : ℂ) * Complex.exp (-2 * Real.pi * Complex.I * ((p : ℝ) * ((i : ℕ) : ℝ) / n + q * ((j : ℕ) : ℝ) / m)) =
    (∑ i : Fin n, ∑ j : Fin m, ((f i j : ℝ) : ℂ) * Complex.exp (-2 * Real.pi * Complex.I * (((-p : ℤ) : ℝ) * ((i : ℕ) : ℝ) / n + q * ((j : ℕ) : ℝ) / m))) * cis (p / n)
  rw [Finset.sum_mul, ← Equiv.sum_comp Fin.revPerm]
  refine Finset.sum_congr rfl fun i _ => ?_
  rw [Finset.sum_mul]
  refine Finset.sum_congr rfl fun j _ => ?_
  unfold rowsReversed
  simp only [Fin.revPerm_apply, Fin.rev_rev]
  rw [mul_assoc ((f i j : ℝ) : ℂ)]
  congr 1
  have ei : ((i.rev : ℕ) : ℝ) = n - 1 - (i : ℕ) := by
    have := i.isLt
    rw [Fin.val_rev, Nat.cast_sub (by omega)]
    push_cast
    ring
  have hcis : ∀ u : ℝ, Complex.exp (-2 * Real.pi * Complex.I * (u : ℂ)) = cis (-u) := by
    intro u
    unfold cis
    congr 1
    push_cast
    ring
  have h1 := hcis ((p : ℝ) * ((i.rev : ℕ) : ℝ) / n + q * ((j : ℕ) : ℝ) / m)
  have h2 := hcis (((-p : ℤ) : ℝ) * ((i : ℕ) : ℝ) / n + q * ((j : ℕ) : ℝ) / m)
  push_cast at h1 h2 ⊢
  rw [h1, h2, ← cis_add, ei, ← cis_add_int _ p]
  congr 1
  field_simp
  ring

theorem cross_rowsReversed {n m : ℕ} (hn : 0 < n) (f t : Fin n → Fin m → ℝ) (y x : ℝ) (h : Odd n ∨ ∃ z : ℤ, y = z) :
    crossAt (rowsReversed f) (rowsReversed t) (-y) x = crossAt f t y x := by
  have hnc : (n : ℂ) ≠ 0 := by exact_mod_cast hn.ne'
  unfold crossAt
  rw [Finset.sum_comm, Finset.sum_comm (s := window n)]
  refine Finset.sum_congr rfl fun q _ => ?_
  symm
  rw [← window_neg n]
  · refine Finset.sum_congr rfl fun p _ => ?_
    symm
    rw [dft_rowsReversed hn, dft_rowsReversed hn, map_mul, conj_cis, cis_neg]
    have := cis_ne_zero ((p : ℝ) / n)
    have e : Complex.exp (-2 * ↑Real.pi * Complex.I * (((-y : ℝ) : ℂ) * ((p : ℤ) : ℂ) / ↑n + ↑x * ↑q / ↑m)) =
        Complex.exp (-2 * ↑Real.pi * Complex.I * (↑y * (((-p : ℤ)) : ℂ) / ↑n + ↑x * ↑q / ↑m)) := by
      congr 1
      push_cast
      ring
    rw [e]
    field_simp
  · rcases h with h | ⟨z, rfl⟩
    · exact Or.inl h
    · refine Or.inr fun p => ?_
      have per : ∀ g : Fin n → Fin m → ℝ, dftAt (Arr2.toC ⟨n, m, g⟩) ((p + n : ℤ) : ℝ) q = dftAt (Arr2.toC ⟨n, m, g⟩) (p : ℝ) q := by
        intro g
        unfold dftAt
        refine Finset.sum_congr rfl fun i _ => Finset.sum_congr rfl fun j _ => ?_
        congr 1
        rw [Complex.exp_eq_exp_iff_exists_int]
        refine ⟨-((i : ℕ) : ℤ), ?_⟩
        show -2 * (Real.pi : ℂ) * Complex.I * (((((p + n : ℤ)) : ℝ) : ℂ) * (((i : ℕ) : ℝ) : ℂ) / (n : ℂ) + ((q : ℝ) : ℂ) * (((j : ℕ) : ℝ) : ℂ) / (m : ℂ)) =
          -2 * (Real.pi : ℂ) * Complex.I * ((((p : ℤ) : ℝ) : ℂ) * (((i : ℕ) : ℝ) : ℂ) / (n : ℂ) + ((q : ℝ) : ℂ) * (((j : ℕ) : ℝ) : ℂ) / (m : ℂ)) + _
        push_cast
        field_simp
        ring
      rw [per, per]
      congr 1
      rw [Complex.exp_eq_exp_iff_exists_int]
      refine ⟨-z, ?_⟩
      push_cast
      field_simp
      ring

theorem cross_rowsForCols {n m : ℕ} (f t : Fin n → Fin m → ℝ) (y x : ℝ) : crossAt (rowsForCols f) (rowsForCols t) x y = crossAt f t y x := by
  have sp : ∀ (g : Fin n → Fin m → ℝ) (p : Fin n) (q : Fin m), spec (rowsForCols g) q p = spec g p q := by
    intro g p q
    rw [spec_eq, spec_eq, Finset.sum_comm]
    refine Finset.sum_congr rfl fun i _ => Finset.sum_congr rfl fun j _ => ?_
    unfold rowsForCols
    congr 2
    ring
  rw [crossAt_fin, crossAt_fin, Finset.sum_comm]
  refine Finset.sum_congr rfl fun p _ => Finset.sum_congr rfl fun q _ => ?_
  rw [sp, sp, add_comm (x * _ / _)]

/-! ### Clear answers -/

theorem ClearBest.carry {kappa : ℕ} (hk : 1 ≤ kappa) {pad : ℝ} {n m : ℕ} {f t f' t' : Fin n → Fin m → ℝ} {s0 s1 k0 k1 : ℤ} (hc : ClearBest kappa pad f t s0 s1 k0 k1)
    (e0 e1 u0 u1 : ℤ) (he0 : e0 = 1 ∨ e0 = -1) (he1 : e1 = 1 ∨ e1 = -1) (c : ℝ) (hcp : 0 < c)
    (h : ∀ a b : ℤ, ‖crossAt f' t' (e0 * (a / kappa) + u0) (e1 * (b / kappa) + u1)‖ = c * ‖crossAt f t (a / kappa) (b / kappa)‖) :
    ClearBest kappa pad f' t' (e0 * s0 + u0) (e1 * s1 + u1) (e0 * k0) (e1 * k1) := by
  have hk' : (kappa : ℝ) ≠ 0 := by positivity
  have sq : ∀ e : ℤ, e = 1 ∨ e = -1 → e * e = 1 := by
    rintro e (rfl | rfl) <;> rfl
  have hab : ∀ e : ℤ, e = 1 ∨ e = -1 → ∀ k : ℤ, |e * k| = |k| := by
    rintro e (rfl | rfl) k
    · rw [one_mul]
    · rw [neg_one_mul, abs_neg]
  have hw : ∀ a b : ℤ, ‖crossAt f' t' ((e0 * a + u0 : ℤ) : ℝ) ((e1 * b + u1 : ℤ) : ℝ)‖ = c * ‖crossAt f t a b‖ := by
    intro a b
    have := h (a * kappa) (b * kappa)
    push_cast at this ⊢
    rwa [mul_div_cancel_right₀ _ hk', mul_div_cancel_right₀ _ hk'] at this
  have hf : ∀ a b : ℤ, ‖crossAt f' t' (((e0 * s0 + u0 : ℤ) : ℝ) + ((e0 * a : ℤ) : ℝ) / kappa) (((e1 * s1 + u1 : ℤ) : ℝ) + ((e1 * b : ℤ) : ℝ) / kappa)‖ =
      c * ‖crossAt f t (s0 + a / kappa) (s1 + b / kappa)‖ := by
    intro a b
    have := h (s0 * kappa + a) (s1 * kappa + b)
    push_cast at this ⊢
    rw [add_div, add_div, mul_div_cancel_right₀ _ hk', mul_div_cancel_right₀ _ hk'] at this
    rw [← this]
    congr 2 <;> ring
  refine ⟨fun a b hab' => ?_, fun h1 => ?_, fun h1 => ?_, fun h1 a b ha hb hne => ?_⟩
  · have r0 : e0 * (e0 * (a - u0)) + u0 = a := by rw [← mul_assoc, sq e0 he0]; ring
    have r1 : e1 * (e1 * (b - u1)) + u1 = b := by rw [← mul_assoc, sq e1 he1]; ring
    have h2 := hw (e0 * (a - u0)) (e1 * (b - u1))
    rw [r0, r1] at h2
    rw [h2, hw]
    refine mul_lt_mul_of_pos_left (hc.whole _ _ ?_) hcp
    rintro ⟨d0, d1⟩
    refine hab' ⟨?_, ?_⟩
    · have := d0.mul_left e0
      rwa [show e0 * (e0 * (a - u0) - s0) = e0 * e0 * (a - u0) - e0 * s0 by ring, sq e0 he0, show 1 * (a - u0) - e0 * s0 = a - (e0 * s0 + u0) by ring] at this
    · have := d1.mul_left e1
      rwa [show e1 * (e1 * (b - u1) - s1) = e1 * e1 * (b - u1) - e1 * s1 by ring, sq e1 he1, show 1 * (b - u1) - e1 * s1 = b - (e1 * s1 + u1) by ring] at this
  · obtain ⟨z0, z1⟩ := hc.none h1
    rw [z0, z1, mul_zero, mul_zero]
    exact ⟨rfl, rfl⟩
  · rw [hab e0 he0, hab e1 he1]
    exact hc.inside h1
  · have r0 : e0 * (e0 * a) = a := by rw [← mul_assoc, sq e0 he0, one_mul]
    have r1 : e1 * (e1 * b) = b := by rw [← mul_assoc, sq e1 he1, one_mul]
    have h2 := hf (e0 * a) (e1 * b)
    rw [r0, r1] at h2
    rw [h2, hf]
    refine mul_lt_mul_of_pos_left (hc.fine h1 _ _ (by rwa [hab e0 he0]) (by rwa [hab e1 he1]) ?_) hcp
    rintro ⟨rfl, rfl⟩
    exact hne ⟨r0.symm, r1.symm⟩

/-- **C118.** Images whose registration has one clear answer: that answer is returned, up to whole turns of the image. -/
theorem C118_clear (T : Shift) (cfg : PsfConfig) (kappa : ℕ) (hk : 1 ≤ kappa) (hcfg : cfg.upsample = kappa) {n m : ℕ} (f t : Fin n → Fin m → ℝ)
    (s0 s1 k0 k1 : ℤ) (hc : ClearBest kappa cfg.pad f t s0 s1 k0 k1) (y x amp : ℝ) (h : psffit T cfg ⟨n, m, f⟩ ⟨n, m, t⟩ = .ok ((y, x), amp)) :
    SamePlace n y (s0 + k0 / kappa) ∧ SamePlace m x (s1 + k1 / kappa) := by
  obtain ⟨a0, a1, -, hbest, h1, h2⟩ := C54_peak T cfg kappa hk hcfg f t y x amp h
  have hd : (n : ℤ) ∣ a0 - s0 ∧ (m : ℤ) ∣ a1 - s1 := by
    by_contra hne
    exact absurd (hbest s0 s1) (not_le.mpr (hc.whole a0 a1 hne))
  obtain ⟨⟨c0, e0⟩, ⟨c1, e1⟩⟩ := hd
  have r0 : (a0 : ℝ) = s0 + n * c0 := by
    have : a0 = s0 + n * c0 := by linarith
    exact_mod_cast this
  have r1 : (a1 : ℝ) = s1 + m * c1 := by
    have : a1 = s1 + m * c1 := by linarith
    exact_mod_cast this
  by_cases hk1 : kappa = 1
  · obtain ⟨rfl, rfl⟩ := h1 hk1
    obtain ⟨rfl, rfl⟩ := hc.none hk1
    exact ⟨⟨c0, by rw [r0]; simp⟩, ⟨c1, by rw [r1]; simp⟩⟩
  · obtain ⟨j0, j1, rfl, rfl, n0, n1, hmost⟩ := h2 hk1
    obtain ⟨i0, i1⟩ := hc.inside hk1
    have near : ∀ k : ℤ, 2 * |k| < ⌈(kappa : ℝ) * cfg.pad⌉ → Near kappa cfg.pad k := by
      intro k hkk
      unfold Near
      have := abs_le.mp (le_refl |k|)
      omega
    have wide : ∀ k : ℤ, Near kappa cfg.pad k → 2 * |k| ≤ ⌈(kappa : ℝ) * cfg.pad⌉ := by
      intro k hkk
      unfold Near at hkk
      rcases abs_cases k with ⟨e, -⟩ | ⟨e, -⟩ <;> omega
    have key : j0 = k0 ∧ j1 = k1 := by
      by_contra hne
      have g1 := hmost k0 k1 (near _ i0) (near _ i1)
      have g2 := hc.fine hk1 j0 j1 (wide _ n0) (wide _ n1) hne
      have per : ∀ u v : ℝ, crossAt f t (a0 + u) (a1 + v) = crossAt f t (s0 + u) (s1 + v) := by
        intro u v
        rw [r0, r1, ← crossAt_periodic f t (s0 + u) (s1 + v) c0 c1]
        congr 1 <;> ring
      rw [per, per] at g1
      exact absurd g1 (not_le.mpr g2)
    obtain ⟨rfl, rfl⟩ := key
    exact ⟨⟨c0, by rw [r0]; ring⟩, ⟨c1, by rw [r1]; ring⟩⟩

theorem SamePlace.signed {n : ℕ} {y y' : ℝ} {e s u k : ℤ} {kappa : ℝ} (h : SamePlace n y (s + k / kappa)) (h' : SamePlace n y' (((e * s + u : ℤ) : ℝ) + ((e * k : ℤ) : ℝ) / kappa)) :
    SamePlace n y' (e * y + u) := by
  obtain ⟨c, rfl⟩ := h
  obtain ⟨d, rfl⟩ := h'
  refine ⟨d - e * c, ?_⟩
  push_cast
  ring

theorem clear_pair (T : Shift) (cfg : PsfConfig) (kappa : ℕ) (hk : 1 ≤ kappa) (hcfg : cfg.upsample = kappa) {n m : ℕ} {f t f' t' : Fin n → Fin m → ℝ}
    {s0 s1 k0 k1 : ℤ} (hc : ClearBest kappa cfg.pad f t s0 s1 k0 k1) (e0 e1 u0 u1 : ℤ) (he0 : e0 = 1 ∨ e0 = -1) (he1 : e1 = 1 ∨ e1 = -1) (c : ℝ) (hcp : 0 < c)
    (hx : ∀ a b : ℤ, ‖crossAt f' t' (e0 * (a / kappa) + u0) (e1 * (b / kappa) + u1)‖ = c * ‖crossAt f t (a / kappa) (b / kappa)‖) {y x amp y' x' amp' : ℝ}
    (h : psffit T cfg ⟨n, m, f⟩ ⟨n, m, t⟩ = .ok ((y, x), amp)) (h' : psffit T cfg ⟨n, m, f'⟩ ⟨n, m, t'⟩ = .ok ((y', x'), amp')) :
    SamePlace n y' (e0 * y + u0) ∧ SamePlace m x' (e1 * x + u1) := by
  obtain ⟨p0, p1⟩ := C118_clear T cfg kappa hk hcfg f t s0 s1 k0 k1 hc y x amp h
  obtain ⟨q0, q1⟩ := C118_clear T cfg kappa hk hcfg f' t' _ _ _ _ (hc.carry hk e0 e1 u0 u1 he0 he1 c hcp hx) y' x' amp' h'
  exact ⟨p0.signed q0, p1.signed q1⟩

/-! ### Theorems -/

/-- **C118.** Exchanging source and target reverses the shift. -/
theorem C118_exchanged (T : Shift) (cfg : PsfConfig) (kappa : ℕ) (hk : 1 ≤ kappa) (hcfg : cfg.upsample = kappa) {n m : ℕ} (f t : Fin n → Fin m → ℝ)
    (s0 s1 k0 k1 : ℤ) (hc : ClearBest kappa cfg.pad f t s0 s1 k0 k1) (y x amp y' x' amp' : ℝ)
    (h : psffit T cfg ⟨n, m, f⟩ ⟨n, m, t⟩ = .ok ((y, x), amp)) (h' : psffit T cfg ⟨n, m, t⟩ ⟨n, m, f⟩ = .ok ((y', x'), amp')) :
    SamePlace n y' (-y) ∧ SamePlace m x' (-x) := by
  have := clear_pair T cfg kappa hk hcfg hc (-1) (-1) 0 0 (Or.inr rfl) (Or.inr rfl) 1 one_pos (fun a b => by
    rw [one_mul, ← cross_exchanged]
    push_cast
    congr 2 <;> ring) h h'
  simpa using this

/-- **C118.** Source and target moved by whole pixels with wrap-around, each by its own displacement and with its own change of brightness: the
shift changes by the difference of the displacements. -/
theorem C118_moved (T : Shift) (cfg : PsfConfig) (kappa : ℕ) (hk : 1 ≤ kappa) (hcfg : cfg.upsample = kappa) {n m : ℕ} (f t f' t' : Fin n → Fin m → ℝ)
    (s0 s1 k0 k1 : ℤ) (hc : ClearBest kappa cfg.pad f t s0 s1 k0 k1) (a b : ℝ) (ha : a ≠ 0) (hb : b ≠ 0) (d0 d1 g0 g1 : ℕ) (hf : Translated f f' a d0 d1)
    (ht : Translated t t' b g0 g1) (y x amp y' x' amp' : ℝ) (h : psffit T cfg ⟨n, m, f⟩ ⟨n, m, t⟩ = .ok ((y, x), amp))
    (h' : psffit T cfg ⟨n, m, f'⟩ ⟨n, m, t'⟩ = .ok ((y', x'), amp')) : SamePlace n y' (y + g0 - d0) ∧ SamePlace m x' (x + g1 - d1) := by
  have := clear_pair T cfg kappa hk hcfg hc 1 1 ((g0 : ℤ) - d0) ((g1 : ℤ) - d1) (Or.inl rfl) (Or.inl rfl) |a * b| (abs_pos.mpr (mul_ne_zero ha hb)) (fun p q => by
    have e := cross_moved f t f' t' a b d0 d1 g0 g1 hf ht (p / kappa) (q / kappa)
    have e' := congrArg (fun z => ‖z‖) e
    simp only [norm_mul _ (crossAt f t _ _), Complex.norm_real, Real.norm_eq_abs] at e'
    rw [← e']
    push_cast
    congr 2 <;> ring) h h'
  push_cast at this
  rwa [one_mul, one_mul, ← add_sub_assoc, ← add_sub_assoc] at this

/-- **C118.** Both images turned by half a turn: the shift is reversed. -/
theorem C118_half_turned (T : Shift) (cfg : PsfConfig) (kappa : ℕ) (hk : 1 ≤ kappa) (hcfg : cfg.upsample = kappa) {n m : ℕ} (f t : Fin n → Fin m → ℝ)
    (s0 s1 k0 k1 : ℤ) (hc : ClearBest kappa cfg.pad f t s0 s1 k0 k1) (y x amp y' x' amp' : ℝ)
    (h : psffit T cfg ⟨n, m, f⟩ ⟨n, m, t⟩ = .ok ((y, x), amp))
    (h' : psffit T cfg ⟨n, m, halfTurned f⟩ ⟨n, m, halfTurned t⟩ = .ok ((y', x'), amp')) : SamePlace n y' (-y) ∧ SamePlace m x' (-x) := by
  have := clear_pair T cfg kappa hk hcfg hc (-1) (-1) 0 0 (Or.inr rfl) (Or.inr rfl) 1 one_pos (fun a b => by
    rw [one_mul, ← cross_halfTurned f t]
    push_cast
    congr 2 <;> ring) h h'
  simpa using this

/-- **C118.** Both images upside down: the row shift is reversed, the column shift unchanged.  With upsampling, for images with an odd number of
rows. -/
theorem C118_upside_down (T : Shift) (cfg : PsfConfig) (kappa : ℕ) (hk : 1 ≤ kappa) (hcfg : cfg.upsample = kappa) {n m : ℕ} (hodd : kappa = 1 ∨ Odd n)
    (f t : Fin n → Fin m → ℝ) (s0 s1 k0 k1 : ℤ) (hc : ClearBest kappa cfg.pad f t s0 s1 k0 k1) (y x amp y' x' amp' : ℝ)
    (h : psffit T cfg ⟨n, m, f⟩ ⟨n, m, t⟩ = .ok ((y, x), amp))
    (h' : psffit T cfg ⟨n, m, rowsReversed f⟩ ⟨n, m, rowsReversed t⟩ = .ok ((y', x'), amp')) : SamePlace n y' (-y) ∧ SamePlace m x' x := by
  have hn : 0 < n := by
    by_contra h0
    unfold psffit at h
    rw [if_neg (by push Not; exact ⟨rfl, rfl⟩), if_pos (Or.inl (by show n = 0; omega))] at h
    cases h
  have := clear_pair T cfg kappa hk hcfg hc (-1) 1 0 0 (Or.inr rfl) (Or.inl rfl) 1 one_pos (fun a b => by
    rw [one_mul, ← cross_rowsReversed hn f t _ _ (by
      rcases hodd with rfl | hodd
      · exact Or.inr ⟨a, by simp⟩
      · exact Or.inl hodd)]
    push_cast
    congr 2 <;> ring) h h'
  simpa using this

/-- **C118.** Both images transposed: the two shifts are exchanged. -/
theorem C118_transposed (T : Shift) (cfg : PsfConfig) (kappa : ℕ) (hk : 1 ≤ kappa) (hcfg : cfg.upsample = kappa) {n m : ℕ} (f t : Fin n → Fin m → ℝ)
    (s0 s1 k0 k1 : ℤ) (hc : ClearBest kappa cfg.pad f t s0 s1 k0 k1) (y x amp y' x' amp' : ℝ)
    (h : psffit T cfg ⟨n, m, f⟩ ⟨n, m, t⟩ = .ok ((y, x), amp))
    (h' : psffit T cfg ⟨m, n, rowsForCols f⟩ ⟨m, n, rowsForCols t⟩ = .ok ((x', y'), amp')) : SamePlace n y' y ∧ SamePlace m x' x := by
  have hc' : ClearBest kappa cfg.pad (rowsForCols f) (rowsForCols t) s1 s0 k1 k0 := by
    refine ⟨fun a b hab => ?_, fun h1 => ⟨(hc.none h1).2, (hc.none h1).1⟩, fun h1 => ⟨(hc.inside h1).2, (hc.inside h1).1⟩, fun h1 a b ha hb hne => ?_⟩
    · rw [cross_rowsForCols, cross_rowsForCols]
      exact hc.whole b a fun hh => hab ⟨hh.2, hh.1⟩
    · rw [cross_rowsForCols, cross_rowsForCols]
      exact hc.fine h1 b a hb ha fun hh => hne ⟨hh.2, hh.1⟩
  obtain ⟨⟨c0, p0⟩, ⟨c1, p1⟩⟩ := C118_clear T cfg kappa hk hcfg f t s0 s1 k0 k1 hc y x amp h
  obtain ⟨⟨d1, q1⟩, ⟨d0, q0⟩⟩ := C118_clear T cfg kappa hk hcfg _ _ _ _ _ _ hc' x' y' amp' h'
  refine ⟨⟨d0 - c0, ?_⟩, ⟨d1 - c1, ?_⟩⟩
  · rw [q0, p0]; push_cast; ring
  · rw [q1, p1]; push_cast; ring

/-! ### Changes which leave the answer exactly as it is -/

theorem argmaxUpto_scaled (g g' : ℕ → ℝ) (c : ℝ) (hc : 0 < c) (h : ∀ i, g' i = c * g i) (k : ℕ) : argmaxUpto g' k = argmaxUpto g k := by
  induction k with
  | zero => rfl
  | succ k ih =>
    unfold argmaxUpto
    rw [ih, h, h]
    by_cases hlt : g (argmaxUpto g k) < g (k + 1)
    · rw [if_pos hlt, if_pos (mul_lt_mul_of_pos_left hlt hc)]
    · rw [if_neg hlt, if_neg (not_lt.mpr (mul_le_mul_of_nonneg_left (not_lt.mp hlt) hc.le))]

theorem argmax2_scaled {n m : ℕ} (g g' : Fin n → Fin m → ℝ) (c : ℝ) (hc : 0 < c) (h : ∀ i j, g' i j = c * g i j) :
    argmax2 (⟨n, m, g'⟩ : Arr2 ℝ) = argmax2 (⟨n, m, g⟩ : Arr2 ℝ) := by
  unfold argmax2
  have := argmaxUpto_scaled (fun p => (⟨n, m, g⟩ : Arr2 ℝ).zext ((p / m : ℕ) : ℤ) ((p % m : ℕ) : ℤ))
    (fun p => (⟨n, m, g'⟩ : Arr2 ℝ).zext ((p / m : ℕ) : ℤ) ((p % m : ℕ) : ℤ)) c hc (fun i => by
      unfold Arr2.zext
      by_cases hb : (0 ≤ ((i / m : ℕ) : ℤ) ∧ ((i / m : ℕ) : ℤ) < n) ∧ 0 ≤ ((i % m : ℕ) : ℤ) ∧ ((i % m : ℕ) : ℤ) < m
      · rw [Arr2.px_of_inB _ hb, Arr2.px_of_inB _ hb]
        exact h _ _
      · rw [Arr2.px_of_not_inB _ hb, Arr2.px_of_not_inB _ hb]
        simp) (n * m - 1)
  simp only
  rw [this]

theorem tensorPass_scaled (ups : ℕ) (k : ℕ → ℕ → ℂ) (a : Arr2 ℂ) (c : ℂ) : tensorPass ups k (a.map (c * ·)) = (tensorPass ups k a).map (c * ·) := by
  unfold tensorPass Arr2.map
  simp only
  congr 1
  funext u r
  rw [Finset.mul_sum]
  exact Finset.sum_congr rfl fun _ _ => by ring

open scoped Classical in
/-- The part of the registration which finds the shift. -/
noncomputable def shiftOf (cfg : PsfConfig) (n m : ℕ) (P : Arr2 ℂ) : Res (ℝ × ℝ) :=
  let mx := argmax2 ((npIfft2 P).map fun z => ‖z‖)
  if cfg.upsample ≠ 1 then refineShift P cfg.upsample cfg.pad (unwrapShift n mx.1) (unwrapShift m mx.2)
  else .ok ((unwrapShift n mx.1 : ℝ), (unwrapShift m mx.2 : ℝ))

theorem psffit_shiftOf (T : Shift) (cfg : PsfConfig) {n m : ℕ} (f t : Fin n → Fin m → ℝ) (hz : ¬ (n = 0 ∨ m = 0)) :
    psffit T cfg ⟨n, m, f⟩ ⟨n, m, t⟩ = (shiftOf cfg n m (imageProduct ⟨n, m, f⟩ ⟨n, m, t⟩)).bind fun s =>
      .ok ((-s.1, -s.2), psfAmplitude (T.run (-s.1) (-s.2) ⟨n, m, f⟩) ⟨n, m, t⟩ cfg.thresh) := by
  unfold psffit
  rw [if_neg (by push Not; exact ⟨rfl, rfl⟩), if_neg hz]
  simp only [neg_one_mul]
  unfold shiftOf
  by_cases hu : cfg.upsample ≠ 1
  · simp only [if_pos hu]
    rfl
  · simp only [if_neg hu]
    rfl

theorem coarse_scaled (P : Arr2 ℂ) (c : ℂ) (hc : 0 < ‖c‖) :
    argmax2 ((npIfft2 (P.map (c * ·))).map fun z => ‖z‖) = argmax2 ((npIfft2 P).map fun z => ‖z‖) := by
  obtain ⟨pn, pm, pf⟩ := P
  refine argmax2_scaled (fun i j => ‖(npIfft2 ⟨pn, pm, pf⟩).val i j‖) (fun i j => ‖(npIfft2 ((⟨pn, pm, pf⟩ : Arr2 ℂ).map (c * ·))).val i j‖) ‖c‖ hc fun i j => ?_
  rw [← norm_mul]
  congr 1
  unfold npIfft2 Arr2.map
  simp only
  rw [mul_left_comm]
  congr 1
  rw [Finset.mul_sum]
  refine Finset.sum_congr rfl fun p _ => ?_
  rw [Finset.mul_sum]
  exact Finset.sum_congr rfl fun q _ => by ring

theorem fine_scaled (U : Arr2 ℂ) (c D : ℂ) (hc : 0 < ‖c‖) :
    argmax2 ((((U.map (c * ·)).map fun z => (starRingEnd ℂ) z / D)).map fun z => ‖z‖) = argmax2 (((U.map fun z => (starRingEnd ℂ) z / D)).map fun z => ‖z‖) := by
  obtain ⟨un, um, uf⟩ := U
  refine argmax2_scaled (fun i j => ‖(starRingEnd ℂ) (uf i j) / D‖) (fun i j => ‖(starRingEnd ℂ) (c * uf i j) / D‖) ‖c‖ hc fun i j => ?_
  rw [← RCLike.norm_conj c, ← norm_mul, map_mul, mul_div_assoc]

theorem upsampled_scaled (a : Arr2 ℂ) (sizes : List ℤ) (kappa : ℝ) (offs : List ℝ) (c : ℂ) :
    computeUpsampledDft (a.map (c * ·)) sizes kappa offs = (computeUpsampledDft a sizes kappa offs).map (Arr2.map (c * ·)) := by
  unfold computeUpsampledDft
  split
  · next s0 s1 o0 o1 =>
    show (if kappa = 0 ∨ a.nr = 0 ∨ a.nc = 0 then _ else _ : Res (Arr2 ℂ)) = _
    split
    · rfl
    · rw [tensorPass_scaled, tensorPass_scaled]
      rfl
  · rfl

theorem refine_scaled (P : Arr2 ℂ) (kappa pad : ℝ) (s0 s1 : ℤ) (c : ℝ) (hc : c ≠ 0) :
    refineShift (P.map ((c : ℂ) * ·)) kappa pad s0 s1 = refineShift P kappa pad s0 s1 := by
  have hcn : 0 < ‖(c : ℂ)‖ := by
    rw [Complex.norm_real, Real.norm_eq_abs]
    exact abs_pos.mpr hc
  have hm : (P.map ((c : ℂ) * ·)).map (starRingEnd ℂ) = (P.map (starRingEnd ℂ)).map ((c : ℂ) * ·) := by
    unfold Arr2.map
    simp only [map_mul, Complex.conj_ofReal]
  unfold refineShift
  simp only
  split
  · rfl
  rw [hm, upsampled_scaled]
  cases computeUpsampledDft (P.map (starRingEnd ℂ)) _ kappa _ with
  | error e => rfl
  | ok U =>
    have := fine_scaled U c (((P.nr : ℂ) * P.nc) * (kappa : ℂ) ^ 2) hcn
    show Except.ok (_ + (((argmax2 ((((U.map ((c : ℂ) * ·)).map fun z => (starRingEnd ℂ) z / (((P.nr : ℂ) * P.nc) * (kappa : ℂ) ^ 2))).map fun z => ‖z‖)).1 : ℝ) - _) / _,
      _ + (((argmax2 ((((U.map ((c : ℂ) * ·)).map fun z => (starRingEnd ℂ) z / (((P.nr : ℂ) * P.nc) * (kappa : ℂ) ^ 2))).map fun z => ‖z‖)).2 : ℝ) - _) / _) = _
    rw [this]
    rfl

theorem shiftOf_scaled (cfg : PsfConfig) (n m : ℕ) (P : Arr2 ℂ) (c : ℝ) (hc : c ≠ 0) : shiftOf cfg n m (P.map ((c : ℂ) * ·)) = shiftOf cfg n m P := by
  have hcn : 0 < ‖(c : ℂ)‖ := by
    rw [Complex.norm_real, Real.norm_eq_abs]
    exact abs_pos.mpr hc
  unfold shiftOf
  simp only [coarse_scaled P c hcn, refine_scaled _ _ _ _ _ c hc]

/-- The registration only looks at where the correlation is large. -/
theorem psffit_scaled (T : Shift) (cfg : PsfConfig) {n m : ℕ} (f t f' t' : Fin n → Fin m → ℝ) (c : ℝ) (hc : c ≠ 0)
    (hp : imageProduct ⟨n, m, f'⟩ ⟨n, m, t'⟩ = (imageProduct ⟨n, m, f⟩ ⟨n, m, t⟩).map ((c : ℂ) * ·)) :
    (psffit T cfg ⟨n, m, f'⟩ ⟨n, m, t'⟩ = psffit T cfg ⟨n, m, f⟩ ⟨n, m, t⟩ ∧ ∃ e, psffit T cfg ⟨n, m, f⟩ ⟨n, m, t⟩ = .error e) ∨
      ∃ y x : ℝ, psffit T cfg ⟨n, m, f⟩ ⟨n, m, t⟩ = .ok ((y, x), psfAmplitude (T.run y x ⟨n, m, f⟩) ⟨n, m, t⟩ cfg.thresh) ∧
        psffit T cfg ⟨n, m, f'⟩ ⟨n, m, t'⟩ = .ok ((y, x), psfAmplitude (T.run y x ⟨n, m, f'⟩) ⟨n, m, t'⟩ cfg.thresh) := by
  by_cases hz : n = 0 ∨ m = 0
  · left
    have hempty : ∀ g g' : Fin n → Fin m → ℝ, psffit T cfg ⟨n, m, g⟩ ⟨n, m, g'⟩ = .error .valueError := by
      intro g g'
      unfold psffit
      rw [if_neg (by push Not; exact ⟨rfl, rfl⟩), if_pos hz]
    rw [hempty, hempty]
    exact ⟨rfl, _, rfl⟩
  rw [psffit_shiftOf T cfg f t hz, psffit_shiftOf T cfg f' t' hz, hp, shiftOf_scaled cfg n m _ c hc]
  cases shiftOf cfg n m (imageProduct ⟨n, m, f⟩ ⟨n, m, t⟩) with
  | error e => exact Or.inl ⟨rfl, e, rfl⟩
  | ok s => exact Or.inr ⟨-s.1, -s.2, rfl, rfl⟩

/-- **C118.** Moving both images by the same whole pixels with wrap-around, and changing the brightness of each, leaves the shift exactly as it is,
for all images, configurations and also where the answer is not clear; and a refusal remains a refusal. -/
theorem C118_together (T : Shift) (cfg : PsfConfig) {n m : ℕ} (f t f' t' : Fin n → Fin m → ℝ) (a b : ℝ) (ha : a ≠ 0) (hb : b ≠ 0) (d0 d1 : ℕ)
    (hf : Translated f f' a d0 d1) (ht : Translated t t' b d0 d1) :
    (psffit T cfg ⟨n, m, f'⟩ ⟨n, m, t'⟩).map Prod.fst = (psffit T cfg ⟨n, m, f⟩ ⟨n, m, t⟩).map Prod.fst := by
  have hp : imageProduct ⟨n, m, f'⟩ ⟨n, m, t'⟩ = (imageProduct ⟨n, m, f⟩ ⟨n, m, t⟩).map (((a * b : ℝ) : ℂ) * ·) := by
    refine congrArg (Arr2.mk n m) (funext fun p => funext fun q => ?_)
    have h1 := product_spec f' t' p q
    have h2 := product_spec f t p q
    refine h1.trans (Eq.trans ?_ (congrArg (((a * b : ℝ) : ℂ) * ·) h2.symm))
    rw [spec_translated f f' a d0 d1 hf p q, spec_translated t t' b d0 d1 ht p q, map_mul, map_mul, conj_cis, neg_neg, Complex.conj_ofReal, cis_neg]
    have := cis_ne_zero ((d0 : ℝ) * ((p : ℕ) : ℝ) / n + (d1 : ℝ) * ((q : ℕ) : ℝ) / m)
    push_cast
    field_simp
  rcases psffit_scaled T cfg f t f' t' (a * b) (mul_ne_zero ha hb) hp with ⟨e, -⟩ | ⟨y, x, e, e'⟩
  · rw [e]
  · rw [e, e']
    rfl

theorem amax_scaled {n m : ℕ} (t : Fin n → Fin m → ℝ) (b : ℝ) (hb : 0 < b) : amax ⟨n, m, fun i j => b * t i j⟩ = b * amax ⟨n, m, t⟩ := by
  unfold amax
  rw [argmax2_scaled t (fun i j => b * t i j) b hb fun _ _ => rfl]
  unfold Arr2.zext
  generalize (argmax2 (⟨n, m, t⟩ : Arr2 ℝ)) = mx
  by_cases hbd : (0 ≤ ((mx.1 : ℕ) : ℤ) ∧ ((mx.1 : ℕ) : ℤ) < n) ∧ 0 ≤ ((mx.2 : ℕ) : ℤ) ∧ ((mx.2 : ℕ) : ℤ) < m
  · rw [Arr2.px_of_inB _ hbd, Arr2.px_of_inB _ hbd]
    rfl
  · rw [Arr2.px_of_not_inB _ hbd, Arr2.px_of_not_inB _ hbd]
    simp

/-- **C118.** Source `a` times and target `b` times as bright (both positive): the same shift exactly, and the amplitude ratio `b / a` times as large. -/
theorem C118_gains (T : Shift) (cfg : PsfConfig) {n m : ℕ} (f t : Fin n → Fin m → ℝ) (a b : ℝ) (ha : 0 < a) (hb : 0 < b) (y x amp : ℝ)
    (h : psffit T cfg ⟨n, m, f⟩ ⟨n, m, t⟩ = .ok ((y, x), amp)) :
    psffit T cfg ⟨n, m, fun i j => a * f i j⟩ ⟨n, m, fun i j => b * t i j⟩ = .ok ((y, x), b / a * amp) := by
  have roll0 : ∀ (k : ℕ) (i : Fin k), rollIdx k 0 i = i := by
    intro k i
    apply Fin.ext
    simp [rollIdx, Nat.mod_eq_of_lt i.isLt]
  have hf : Translated f (fun i j => a * f i j) a 0 0 := fun i j => by simp only [roll0]
  have ht : Translated t (fun i j => b * t i j) b 0 0 := fun i j => by simp only [roll0]
  have hp : imageProduct ⟨n, m, fun i j => a * f i j⟩ ⟨n, m, fun i j => b * t i j⟩ = (imageProduct ⟨n, m, f⟩ ⟨n, m, t⟩).map (((a * b : ℝ) : ℂ) * ·) := by
    refine congrArg (Arr2.mk n m) (funext fun p => funext fun q => ?_)
    have h1 := product_spec (fun i j => a * f i j) (fun i j => b * t i j) p q
    have h2 := product_spec f t p q
    refine h1.trans (Eq.trans ?_ (congrArg (((a * b : ℝ) : ℂ) * ·) h2.symm))
    rw [spec_translated f _ a 0 0 hf p q, spec_translated t _ b 0 0 ht p q, map_mul, map_mul, Complex.conj_ofReal]
    simp only [Nat.cast_zero, zero_mul, zero_div, add_zero, neg_zero, cis_zero, mul_one, map_one]
    push_cast
    ring
  rcases psffit_scaled T cfg f t _ _ (a * b) (mul_pos ha hb).ne' hp with ⟨-, e, he⟩ | ⟨y', x', e, e'⟩
  · rw [he] at h; cases h
  rw [e] at h
  have h0 := Except.ok.inj h
  have hy : y' = y := congrArg (fun z => z.1.1) h0
  have hx : x' = x := congrArg (fun z => z.1.2) h0
  have ham : psfAmplitude (T.run y' x' ⟨n, m, f⟩) ⟨n, m, t⟩ cfg.thresh = amp := congrArg Prod.snd h0
  subst hy hx
  rw [e', ← ham]
  congr 2
  have hg : ∀ i j : ℤ, (T.run y' x' ⟨n, m, fun i j => a * f i j⟩).zext i j = a * (T.run y' x' ⟨n, m, f⟩).zext i j := by
    intro i j
    have := T.linear y' x' n m f f a 0 i j
    simp only [zero_mul, add_zero] at this
    exact this
  unfold psfAmplitude
  simp only [amax_scaled t b hb, hg]
  have hcond : ∀ i j, (cfg.thresh * (b * amax ⟨n, m, t⟩) < b * t i j) ↔ cfg.thresh * amax ⟨n, m, t⟩ < t i j := by
    intro i j
    rw [mul_left_comm, mul_lt_mul_iff_right₀ hb]
  simp only [hcond]
  generalize (T.run y' x' ⟨n, m, f⟩) = g
  have s1 : (∑ i : Fin n, ∑ j : Fin m, if cfg.thresh * amax ⟨n, m, t⟩ < t i j then a * g.zext (i : ℕ) (j : ℕ) * (b * t i j) else 0) =
      a * b * ∑ i : Fin n, ∑ j : Fin m, if cfg.thresh * amax ⟨n, m, t⟩ < t i j then g.zext (i : ℕ) (j : ℕ) * t i j else 0 := by
    rw [Finset.mul_sum]
    refine Finset.sum_congr rfl fun i _ => ?_
    rw [Finset.mul_sum]
    refine Finset.sum_congr rfl fun j _ => ?_
    split
    · ring
    · rw [mul_zero]
  have s2 : (∑ i : Fin n, ∑ j : Fin m, if cfg.thresh * amax ⟨n, m, t⟩ < t i j then a * g.zext (i : ℕ) (j : ℕ) * (a * g.zext (i : ℕ) (j : ℕ)) else 0) =
      a * a * ∑ i : Fin n, ∑ j : Fin m, if cfg.thresh * amax ⟨n, m, t⟩ < t i j then g.zext (i : ℕ) (j : ℕ) * g.zext (i : ℕ) (j : ℕ) else 0 := by
    rw [Finset.mul_sum]
    refine Finset.sum_congr rfl fun i _ => ?_
    rw [Finset.mul_sum]
    refine Finset.sum_congr rfl fun j _ => ?_
    split
    · ring
    · rw [mul_zero]
  rw [s1, s2, mul_div_mul_comm, mul_div_mul_left _ _ ha.ne']

/-! ### The hypotheses can be met -/

theorem cross_phases {n m : ℕ} (f : Fin n → Fin m → ℝ) (u v : ℝ) : crossAt f f u v = phases (weight f 1) (-u) (-v) := by
  rw [crossAt_fin]
  unfold phases weight
  refine Finset.sum_congr rfl fun p _ => Finset.sum_congr rfl fun q _ => ?_
  rw [Complex.mul_conj, Complex.normSq_eq_norm_sq, one_mul]
  congr 2
  ring

/-- A target which is a brighter or fainter copy of the source, moved with wrap-around, has one clear answer, as soon as the image holds something of the
lowest frequencies and the refined region is narrower than the image. -/
theorem C118_copies_are_clear (kappa : ℕ) (hk : 1 ≤ kappa) (pad : ℝ) (hpad : 0 < pad) {n m : ℕ} (hn : 2 ≤ n) (hm : 2 ≤ m) (f t : Fin n → Fin m → ℝ) (A : ℝ) (hA : A ≠ 0)
    (h00 : spec f ⟨0, by omega⟩ ⟨0, by omega⟩ ≠ 0) (h10 : spec f ⟨1, by omega⟩ ⟨0, by omega⟩ ≠ 0) (h01 : spec f ⟨0, by omega⟩ ⟨1, by omega⟩ ≠ 0)
    (hR0 : ⌈(kappa : ℝ) * pad⌉ < 2 * kappa * n) (hR1 : ⌈(kappa : ℝ) * pad⌉ < 2 * kappa * m) (y x : ℕ) (h : Translated f t A y x) :
    ClearBest kappa pad f t y x 0 0 := by
  have hk' : (0 : ℝ) < kappa := by positivity
  have hlt : ∀ u v : ℝ, ¬ ((∃ k : ℤ, u = n * k) ∧ ∃ l : ℤ, v = m * l) → ‖crossAt f t (y + u) (x + v)‖ < ‖crossAt f t (y + 0) (x + 0)‖ := by
    intro u v hne
    rw [cross_translated f t A y x h, cross_translated f t A y x h]
    refine mul_lt_mul_of_pos_left ?_ (abs_pos.mpr hA)
    rw [cross_phases, cross_phases, neg_zero]
    by_contra hle
    obtain ⟨⟨k, hk0⟩, ⟨l, hl0⟩⟩ := phases_full hn hm f 1 one_pos h00 h10 h01 _ _ (not_lt.mp hle)
    refine hne ⟨⟨-k, ?_⟩, ⟨-l, ?_⟩⟩ <;> push_cast <;> linarith
  have hR : 0 < ⌈(kappa : ℝ) * pad⌉ := Int.ceil_pos.mpr (mul_pos hk' hpad)
  refine ⟨fun a b hab => ?_, fun _ => ⟨rfl, rfl⟩, fun _ => by simpa using hR, fun _ a b ha hb hne => ?_⟩
  · have := hlt (a - y) (b - x) (by
      rintro ⟨⟨k, h1⟩, ⟨l, h2⟩⟩
      refine hab ⟨⟨k, ?_⟩, ⟨l, ?_⟩⟩
      · exact_mod_cast h1
      · exact_mod_cast h2)
    rw [add_zero, add_zero, add_sub_cancel, add_sub_cancel] at this
    simpa using this
  · have small : ∀ (N : ℕ) (_ : ⌈(kappa : ℝ) * pad⌉ < 2 * kappa * N) (a k : ℤ) (_ : 2 * |a| ≤ ⌈(kappa : ℝ) * pad⌉) (_ : (a : ℝ) / kappa = N * k), a = 0 := by
      intro N hN a k ha e
      rw [div_eq_iff hk'.ne'] at e
      have e' : a = N * k * kappa := by exact_mod_cast e
      by_contra hne
      have hkk : k ≠ 0 := by
        rintro rfl
        simp at e'
        exact hne e'
      have h1 : 1 ≤ |k| := Int.one_le_abs hkk
      have h2 : |a| = N * |k| * kappa := by rw [e', abs_mul, abs_mul, Nat.abs_cast, Nat.abs_cast]
      have h3 : (N : ℤ) * kappa ≤ |a| := by
        rw [h2]
        have : (0 : ℤ) ≤ N * kappa := by positivity
        nlinarith
      nlinarith
    have := hlt (a / kappa) (b / kappa) (by
      rintro ⟨⟨k, h1⟩, ⟨l, h2⟩⟩
      exact hne ⟨small n hR0 a k ha h1, small m hR1 b l hb h2⟩)
    simpa using this

theorem spec_dot (n m a b : ℕ) (ha : a < n) (hb : b < m) (v : ℝ) (hv : v ≠ 0) (p : Fin n) (q : Fin m) : spec (dot n m a b v) p q ≠ 0 := by
  rw [spec_eq]
  unfold dot
  rw [Finset.sum_eq_single (⟨a, ha⟩ : Fin n), Finset.sum_eq_single (⟨b, hb⟩ : Fin m)]
  · rw [if_pos ⟨rfl, rfl⟩]
    exact mul_ne_zero (by exact_mod_cast hv) (cis_ne_zero _)
  · intro j _ hj
    rw [if_neg (fun h => hj (Fin.ext h.2))]
    simp
  · exact fun h => absurd (Finset.mem_univ _) h
  · intro i _ hi
    refine Finset.sum_eq_zero fun j _ => ?_
    rw [if_neg (fun h => hi (Fin.ext h.1))]
    simp
  · exact fun h => absurd (Finset.mem_univ _) h

/-- A star which has moved by two rows and four columns, with the registration to a tenth of a pixel. -/
theorem dot_clear : ClearBest 10 1.5 (dot 4 5 1 2 1) (dot 4 5 3 1 2) 2 4 0 0 := by
  have : ⌈((10 : ℕ) : ℝ) * 1.5⌉ = 15 := by rw [Int.ceil_eq_iff]; norm_num
  exact C118_copies_are_clear 10 (by norm_num) 1.5 (by norm_num) (by norm_num) (by norm_num) _ _ 2 (by norm_num) (spec_dot _ _ _ _ (by norm_num) (by norm_num) _ one_ne_zero _ _)
    (spec_dot _ _ _ _ (by norm_num) (by norm_num) _ one_ne_zero _ _) (spec_dot _ _ _ _ (by norm_num) (by norm_num) _ one_ne_zero _ _) (by rw [this]; norm_num) (by rw [this]; norm_num)
    2 4 dot_translated

example (T : Shift) : ∃ y' x' amp' : ℝ, psffit T ⟨(10 : ℕ), 1.5, 0.2⟩ ⟨4, 5, dot 4 5 3 1 2⟩ ⟨4, 5, dot 4 5 1 2 1⟩ = .ok ((y', x'), amp') ∧ SamePlace 4 y' (-2) ∧ SamePlace 5 x' (-4) := by
  obtain ⟨⟨⟨y, x⟩, amp⟩, ho⟩ := C54_accepts T ⟨(10 : ℕ), 1.5, 0.2⟩ ⟨4, 5, dot 4 5 1 2 1⟩ ⟨4, 5, dot 4 5 3 1 2⟩ rfl rfl (by norm_num) (by norm_num) (by norm_num) (by norm_num)
  obtain ⟨⟨⟨y', x'⟩, amp'⟩, ho'⟩ := C54_accepts T ⟨(10 : ℕ), 1.5, 0.2⟩ ⟨4, 5, dot 4 5 3 1 2⟩ ⟨4, 5, dot 4 5 1 2 1⟩ rfl rfl (by norm_num) (by norm_num) (by norm_num) (by norm_num)
  obtain ⟨⟨c, hy⟩, ⟨d, hx⟩⟩ := C118_clear T ⟨(10 : ℕ), 1.5, 0.2⟩ 10 (by norm_num) rfl _ _ _ _ _ _ dot_clear y x amp ho
  obtain ⟨⟨c', hy'⟩, ⟨d', hx'⟩⟩ := C118_exchanged T ⟨(10 : ℕ), 1.5, 0.2⟩ 10 (by norm_num) rfl _ _ _ _ _ _ dot_clear y x amp y' x' amp' ho ho'
  refine ⟨y', x', amp', ho', ⟨c' - c, ?_⟩, ⟨d' - d, ?_⟩⟩
  · rw [hy', hy]; push_cast; ring
  · rw [hx', hx]; push_cast; ring

end Coralign.Props
