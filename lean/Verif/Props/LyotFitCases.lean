import Verif.Props.LyotFit
import Verif.Props.MaskFitCases
import Verif.Props.MaskGenWhole
import Verif.Props.PupilSearch

/-!
# C78: a scene in which the hypotheses of the theorems hold
-/

namespace Coralign.Props

open Coralign Coralign.Spec

/-! ### The lateral search at rest -/

/-- **C64.** If the measurement, recentred on the coarse offset, is the reference times a positive factor, the reference tells the trial
displacements apart from none, and the mismatch is a paraboloid on the grids about the centre, the answer is the coarse offset. -/
theorem C64_rest (S : Solver) (meas ref : Arr2 ℝ) (diam : ℝ) (nSteps : ℤ) (d : ℝ) (nPad nFocus nIter : ℤ) (xC yC : ℤ)
    (h : LateralArgs diam nSteps d nPad nFocus nIter) (h3 : 3 ≤ nSteps) (h1 : 1 < nIter) (hodd : nSteps % 2 = 1) (s : ℝ) (hs : 0 < s)
    (hm : ∀ p ∈ window nPad.toNat, ∀ q ∈ window nPad.toNat, at0 meas (p + yC) (q + xC) = s * at0 ref p q)
    (hr : ∀ x ∈ trials nSteps.toNat d 0, ∀ y ∈ trials nSteps.toNat d 0, (x, y) ≠ (0, 0) →
      Resolves nPad.toNat nFocus.toNat (halfSample nPad.toNat) (at0 ref) x y)
    (hp : ∀ k : ℕ, (k : ℤ) + 1 < nIter →
      Paraboloid (mismatch nPad.toNat nFocus.toNat (halfSample nPad.toNat) (fun p q => at0 meas (p + yC) (q + xC)) (at0 ref))
        (trials nSteps.toNat (d / 2 ^ k) 0) (trials nSteps.toNat (d / 2 ^ k) 0) 0 0) :
    computeLateralOffsets S meas ref diam nSteps d nPad nFocus nIter xC yC = .ok ((yC : ℝ), (xC : ℝ)) := by
  rw [lateral_eq S meas ref diam nSteps d nPad nFocus nIter xC yC h, npRound_intCast, npRound_intCast]
  generalize hF : mismatch nPad.toNat nFocus.toNat (halfSample nPad.toNat) (fun p q => at0 meas (p + yC) (q + xC)) (at0 ref) = F at hp
  have hlt : ∀ x ∈ trials nSteps.toNat d 0, ∀ y ∈ trials nSteps.toNat d 0, (x, y) ≠ (0, 0) → F 0 0 < F x y := by
    rw [← hF]
    exact fun x hx y hy hxy => mismatch_self_lt _ _ _ s hs _ _ hm x y (hr x hx y hy hxy)
  have ho : nSteps.toNat % 2 = 1 := by omega
  obtain ⟨m, hm'⟩ : ∃ m : ℕ, nIter.toNat = m + 2 := ⟨nIter.toNat - 2, by omega⟩
  rw [hm']
  have hn : 3 ≤ nSteps.toNat := by omega
  generalize nSteps.toNat = n at *
  have hd := h.pixel.ne'
  have e : lateralLoop S F n (m + 2) (m + 2) 0 d (0, 0) = .ok (0, 0) := by
    conv_lhs => unfold lateralLoop
    have hc : (True ∧ m + 2 > 1) := ⟨trivial, by omega⟩
    simp only [if_neg (show ¬ (0 > 1) by omega), search_trials n hn]
    rw [costGrid_ok _ _ _ F (fun x _ y _ => rfl), res_ok_bind, if_pos hc, res_ok_bind]
    obtain ⟨g1, g2, g3⟩ := gridArgmin_spec (trials n d 0) (trials n d 0) F (trials_ne_nil n (by omega) d 0) (trials_ne_nil n (by omega) d 0)
    generalize gridArgmin (trials n d 0) (trials n d 0) _ = b at g1 g2 g3
    have hb : b = (0, 0) := by
      by_contra hb
      have := g3 0 (zero_mem_trials n ho d) 0 (zero_mem_trials n ho d)
      have := hlt b.1 g1 b.2 g2 hb
      linarith
    have hp0 := hp 0 (by omega)
    rw [pow_zero, div_one] at hp0
    rw [hb, lateralLoop_fit S F n (m + 2) hn m 1 (by omega) d hd (0, 0) 0 0 (by rw [if_neg (by omega)]; exact hp0), if_neg (by omega)]
    exact lateralLoop_stays S F n (m + 2) hn 0 0 m 2 le_rfl d hd fun k hk => hp (k + 1) (by omega)
  rw [e, res_ok_bind]
  simp

/-! ### The field of a small round stop -/

/-- The pixels within `sqrt 5` of the centre: a square of 5 x 5 pixels without its corners. -/
def round5 (p q : ℤ) : ℕ := if p ^ 2 + q ^ 2 ≤ 5 then 1 else 0

theorem window6 : window 6 = {-3, -2, -1, 0, 1, 2} := by
  ext p
  rw [mem_window]
  simp only [Finset.mem_insert, Finset.mem_singleton]
  constructor
  · intro h; omega
  · rintro (rfl | rfl | rfl | rfl | rfl | rfl) <;> norm_num

theorem turn_re (u p : ℤ) : Complex.exp (-2 * Real.pi * Complex.I * ((u * p : ℂ) / (6 : ℕ))) =
    ⟨Real.cos (2 * Real.pi * (((u * p : ℤ) : ℝ) / 6)), -Real.sin (2 * Real.pi * (((u * p : ℤ) : ℝ) / 6))⟩ := by
  rw [show (-2 * Real.pi * Complex.I * ((u * p : ℂ) / (6 : ℕ)) : ℂ) = ((-(2 * Real.pi * (((u * p : ℤ) : ℝ) / 6)) : ℝ) : ℂ) * Complex.I by push_cast; ring,
    Complex.exp_mul_I, ← Complex.ofReal_cos, ← Complex.ofReal_sin, Real.cos_neg, Real.sin_neg]
  generalize Real.cos _ = a
  generalize Real.sin _ = b
  apply Complex.ext <;> simp

/-- The sum over three pixels about the centre and over five. -/
theorem turn_sums (u : ℤ) (hu : u = -1 ∨ u = 0 ∨ u = 1) :
    Complex.exp (-2 * Real.pi * Complex.I * ((u * (-1 : ℤ) : ℂ) / (6 : ℕ))) + Complex.exp (-2 * Real.pi * Complex.I * ((u * (0 : ℤ) : ℂ) / (6 : ℕ))) +
      Complex.exp (-2 * Real.pi * Complex.I * ((u * (1 : ℤ) : ℂ) / (6 : ℕ))) = (if u = 0 then 3 else 2 : ℂ) ∧
    Complex.exp (-2 * Real.pi * Complex.I * ((u * (-2 : ℤ) : ℂ) / (6 : ℕ))) + Complex.exp (-2 * Real.pi * Complex.I * ((u * (2 : ℤ) : ℂ) / (6 : ℕ))) =
      (if u = 0 then 2 else -1 : ℂ) := by
  simp only [turn_re]
  have h1 : Real.cos (2 * Real.pi * (1 / 6)) = 1 / 2 := by rw [show 2 * Real.pi * (1 / 6) = Real.pi / 3 by ring, Real.cos_pi_div_three]
  have h2 : Real.cos (2 * Real.pi * (2 / 6)) = -1 / 2 := by
    rw [show 2 * Real.pi * (2 / 6) = 2 * (2 * Real.pi * (1 / 6)) by ring, Real.cos_two_mul, h1]; norm_num
  have n1 : ∀ t : ℝ, Real.cos (2 * Real.pi * (-t / 6)) = Real.cos (2 * Real.pi * (t / 6)) := fun t => by
    rw [← Real.cos_neg]; congr 1; ring
  have n2 : ∀ t : ℝ, Real.sin (2 * Real.pi * (-t / 6)) = -Real.sin (2 * Real.pi * (t / 6)) := fun t => by
    rw [← Real.sin_neg]; congr 1; ring
  constructor <;> apply Complex.ext <;> rcases hu with rfl | rfl | rfl <;> simp [n1, n2] <;> norm_num [h1, h2]
  all_goals (try rw [one_div] at h1)
  all_goals linarith

theorem round_field (f : ℤ → ℤ → ℝ) (hf : ∀ p ∈ window 6, ∀ q ∈ window 6, f p q = (round5 p q : ℕ)) (u v : ℤ)
    (hu : u = -1 ∨ u = 0 ∨ u = 1) (hv : v = -1 ∨ v = 0 ∨ v = 1) :
    fieldAt 6 f u v = if u = 0 ∧ v = 0 then 21 / 6 else if u = 0 ∨ v = 0 then 7 / 6 else 0 := by
  obtain ⟨a1, a2⟩ := turn_sums u hu
  obtain ⟨b1, b2⟩ := turn_sums v hv
  unfold fieldAt
  have e : ∀ p ∈ window 6, ∀ q ∈ window 6, (f p q : ℂ) * Complex.exp (-2 * Real.pi * Complex.I * ((u * p + v * q) / (6 : ℕ))) =
      (round5 p q : ℕ) * (Complex.exp (-2 * Real.pi * Complex.I * ((u * p : ℂ) / (6 : ℕ))) * Complex.exp (-2 * Real.pi * Complex.I * ((v * q : ℂ) / (6 : ℕ)))) := by
    intro p hp q hq
    rw [hf p hp q hq, ← Complex.exp_add]
    push_cast
    congr 2
    ring
  rw [Finset.sum_congr rfl fun p hp => Finset.sum_congr rfl fun q hq => e p hp q hq, window6]
  generalize hE : (fun u p : ℤ => Complex.exp (-2 * Real.pi * Complex.I * ((u * p : ℂ) / (6 : ℕ)))) = E
  have hE' : ∀ u p : ℤ, Complex.exp (-2 * Real.pi * Complex.I * ((u * p : ℂ) / (6 : ℕ))) = E u p := fun u p => congrFun (congrFun hE u) p
  simp only [hE'] at a1 a2 b1 b2 ⊢
  have six : ∀ h : ℤ → ℂ, ∑ p ∈ ({-3, -2, -1, 0, 1, 2} : Finset ℤ), h p = h (-3) + h (-2) + h (-1) + h 0 + h 1 + h 2 := by
    intro h
    rw [Finset.sum_insert (by decide), Finset.sum_insert (by decide), Finset.sum_insert (by decide), Finset.sum_insert (by decide), Finset.sum_insert (by decide), Finset.sum_singleton]
    ring
  simp only [six]
  simp only [show ∀ p q : ℤ, round5 p q = if p ^ 2 + q ^ 2 ≤ 5 then 1 else 0 from fun _ _ => rfl]
  norm_num
  have hsum : ∀ a b c d e a' b' c' d' e' : ℂ, a * b' + a * c' + a * d' + (b * a' + b * b' + b * c' + b * d' + b * e') + (c * a' + c * b' + c * c' + c * d' + c * e') +
      (d * a' + d * b' + d * c' + d * d' + d * e') + (e * b' + e * c' + e * d') =
      (b + c + d) * (b' + c' + d' + (a' + e')) + (b + c + d + (a + e)) * (b' + c' + d') - (b + c + d) * (b' + c' + d') := by
    intros; ring
  rw [hsum, a1, a2, b1, b2]
  rcases hu with rfl | rfl | rfl <;> rcases hv with rfl | rfl | rfl <;> norm_num

/-- The mismatch of the stop with itself. -/
theorem round_mismatch (f g : ℤ → ℤ → ℝ) (hf : ∀ p ∈ window 6, ∀ q ∈ window 6, f p q = g p q)
    (hg : ∀ p ∈ window 6, ∀ q ∈ window 6, g p q = (round5 p q : ℕ)) (dx dy : ℝ) :
    mismatch 6 3 (halfSample 6) f g dx dy = 49 / 9 * (1 - Real.cos (2 * Real.pi * (dx / 6))) + 49 / 9 * (1 - Real.cos (2 * Real.pi * (dy / 6))) := by
  have hs : halfSample 6 = 0 := by unfold halfSample; norm_num
  rw [mismatch_self 6 3 _ 1 f g (fun p hp q hq => by rw [one_mul]; exact hf p hp q hq), hs, window_36]
  have three : ∀ h : ℤ → ℝ, ∑ p ∈ ({-1, 0, 1} : Finset ℤ), h p = h (-1) + h 0 + h 1 := by
    intro h
    rw [Finset.sum_insert (by decide), Finset.sum_insert (by decide), Finset.sum_singleton]
    ring
  simp only [three]
  have ff := fun u v hu hv => round_field g hg u v hu hv
  rw [ff (-1) (-1) (by simp) (by simp), ff (-1) 0 (by simp) (by simp), ff (-1) 1 (by simp) (by simp), ff 0 (-1) (by simp) (by simp), ff 0 0 (by simp) (by simp), ff 0 1 (by simp) (by simp),
    ff 1 (-1) (by simp) (by simp), ff 1 0 (by simp) (by simp), ff 1 1 (by simp) (by simp)]
  have n1 : ∀ t : ℝ, Real.cos (2 * Real.pi * (-t / 6)) = Real.cos (2 * Real.pi * (t / 6)) := fun t => by
    rw [← Real.cos_neg]; congr 1; ring
  norm_num [n1]
  ring

/-- The trial displacements of the example. -/
theorem trials_one : ∀ z ∈ trials 3 1 0, ∃ k : ℤ, z = k ∧ -1 ≤ k ∧ k ≤ 1 := by
  intro z hz
  obtain ⟨k, hk, rfl⟩ := List.mem_map.mp hz
  have := List.mem_range.mp hk
  refine ⟨(k : ℤ) - 1, ?_, by omega, by omega⟩
  push_cast
  ring

/-- The stop tells the trial displacements from none. -/
theorem round_resolves (g : ℤ → ℤ → ℝ) (hr : ∀ p ∈ window 6, ∀ q ∈ window 6, g p q = (round5 p q : ℕ)) :
    ∀ x ∈ trials 3 1 0, ∀ y ∈ trials 3 1 0, (x, y) ≠ (0, 0) → Resolves 6 3 (halfSample 6) g x y := by
  intro x hx y hy hxy
  obtain ⟨X, rfl, hX⟩ := trials_one x hx
  obtain ⟨Y, rfl, hY⟩ := trials_one y hy
  have hs : halfSample 6 = 0 := by unfold halfSample; norm_num
  have w0 : (0 : ℤ) ∈ window 3 ∩ window 6 := by rw [window_36]; simp
  have w1 : (1 : ℤ) ∈ window 3 ∩ window 6 := by rw [window_36]; simp
  have turn : ∀ k : ℤ, k = -1 ∨ k = 1 → Complex.exp (2 * Real.pi * Complex.I * ((k : ℂ) / 6)) ≠ 1 := by
    intro k hk h
    rw [Complex.exp_eq_one_iff] at h
    obtain ⟨n, hn⟩ := h
    have hpi : (2 * Real.pi * Complex.I : ℂ) ≠ 0 := by simp [Real.pi_ne_zero]
    have h6 : (k : ℂ) / 6 = n := by
      refine mul_left_cancel₀ hpi ?_
      rw [hn]; ring
    have h7 : (k : ℂ) = ((6 * n : ℤ) : ℂ) := by push_cast; rw [← h6]; ring
    have h8 : k = 6 * n := by exact_mod_cast h7
    omega
  by_cases hX0 : X = 0
  · have hY0 : Y = -1 ∨ Y = 1 := by
      have : Y ≠ 0 := fun h => hxy (by rw [hX0, h]; simp)
      omega
    refine ⟨1, w1, 0, w0, ?_, ?_⟩
    · refine (round_field (g) hr 1 0 (by simp) (by simp)).symm ▸ ?_
      norm_num
    · have := turn Y hY0
      show Complex.exp (2 * Real.pi * Complex.I * ((((X : ℤ) : ℝ) * (((0 : ℤ) : ℂ) - (halfSample 6 : ℝ)) + ((Y : ℤ) : ℝ) * (((1 : ℤ) : ℂ) - (halfSample 6 : ℝ))) / (6 : ℕ))) ≠ 1
      rw [hs, hX0]
      push_cast
      simpa using this
  · refine ⟨0, w0, 1, w1, ?_, ?_⟩
    · refine (round_field (g) hr 0 1 (by simp) (by simp)).symm ▸ ?_
      norm_num
    · have := turn X (by omega)
      show Complex.exp (2 * Real.pi * Complex.I * ((((X : ℤ) : ℝ) * (((1 : ℤ) : ℂ) - (halfSample 6 : ℝ)) + ((Y : ℤ) : ℝ) * (((0 : ℤ) : ℂ) - (halfSample 6 : ℝ))) / (6 : ℕ))) ≠ 1
      rw [hs]
      push_cast
      simpa using this

/-- The mismatch of the stop with itself is a paraboloid on the trial displacements. -/
theorem round_paraboloid (f g : ℤ → ℤ → ℝ) (hf : ∀ p ∈ window 6, ∀ q ∈ window 6, f p q = g p q)
    (hg : ∀ p ∈ window 6, ∀ q ∈ window 6, g p q = (round5 p q : ℕ)) :
    Paraboloid (mismatch 6 3 (halfSample 6) f g) (trials 3 1 0) (trials 3 1 0) 0 0 := by
  have hf1 : fresolution < 1 / 100 := by norm_num [fresolution]
  refine ⟨49 / 18, 0, 49 / 18, 0, ?_, ?_, fun x hx y hy => ?_⟩
  · rw [show (0 : ℝ) * 0 - 4 * (49 / 18) * (49 / 18) = -(2401 / 81) by norm_num, abs_neg, abs_of_nonneg (by norm_num)]
    linarith
  · rw [abs_of_nonneg (by norm_num)]
    linarith
  · obtain ⟨X, rfl, hX⟩ := trials_one x hx
    obtain ⟨Y, rfl, hY⟩ := trials_one y hy
    refine (round_mismatch f g hf hg X Y).trans ?_
    rw [third_cos X (by omega), third_cos Y (by omega)]
    obtain rfl | rfl | rfl : X = -1 ∨ X = 0 ∨ X = 1 := by omega
    all_goals obtain rfl | rfl | rfl : Y = -1 ∨ Y = 0 ∨ Y = 1 := by omega
    all_goals norm_num

/-- The lateral search rests on the stop. -/
theorem round_rest (S : Solver) (meas ref : Arr2 ℝ) (diam : ℝ) (hd : 0 < diam) (hm : ∀ p ∈ window 6, ∀ q ∈ window 6, at0 meas p q = (round5 p q : ℕ))
    (hr : ∀ p ∈ window 6, ∀ q ∈ window 6, at0 ref p q = (round5 p q : ℕ)) :
    computeLateralOffsets S meas ref diam 3 1 6 3 2 0 0 = .ok (0, 0) := by
  have := C64_rest S meas ref diam 3 1 6 3 2 0 0 ⟨hd, by norm_num, by norm_num, by norm_num, by norm_num, by norm_num⟩ le_rfl (by norm_num) (by norm_num) 1
    one_pos (fun p hp q hq => by rw [add_zero, add_zero, one_mul, hm p hp q hq, hr p hp q hq]) (round_resolves (at0 ref) hr) (fun k hk => by
      obtain rfl : k = 0 := by omega
      rw [pow_zero, div_one]
      exact round_paraboloid _ _ (fun p hp q hq => by simp only [add_zero]; rw [hm p hp q hq, hr p hp q hq]) hr)
  simpa using this

/-! ### The stop at high resolution -/

/-- The stop: 5 x 5 cells of 3 x 3 pixels without the corner cells. -/
def stopAt (x y : ℤ) : ℕ := if (x.natAbs ≤ 7 ∧ y.natAbs ≤ 4) ∨ (x.natAbs ≤ 4 ∧ y.natAbs ≤ 7) then 1 else 0

noncomputable def stopMask : Arr2 ℝ := ⟨23, 23, fun i j => (stopAt ((i : ℕ) - 11) ((j : ℕ) - 11) : ℕ)⟩

theorem stopMask_at (x y : ℤ) : maskAt stopMask false x y = (stopAt x y : ℕ) := by
  unfold maskAt stopMask Arr2.centered
  simp only [Bool.false_eq_true, if_false]
  by_cases h : (0 ≤ ((23 : ℕ) : ℤ) / 2 + x ∧ ((23 : ℕ) : ℤ) / 2 + x < ((23 : ℕ) : ℤ)) ∧ (0 ≤ ((23 : ℕ) : ℤ) / 2 + y ∧ ((23 : ℕ) : ℤ) / 2 + y < ((23 : ℕ) : ℤ))
  · rw [Arr2.px_of_inB (⟨23, 23, fun i j => (stopAt ((i : ℕ) - 11) ((j : ℕ) - 11) : ℕ)⟩ : Arr2 ℝ) h]
    simp only [Option.getD_some]
    congr 2 <;> omega
  · rw [Arr2.px_of_not_inB (⟨23, 23, fun i j => (stopAt ((i : ℕ) - 11) ((j : ℕ) - 11) : ℕ)⟩ : Arr2 ℝ) h]
    unfold stopAt
    rw [if_neg]
    · simp
    · omega

/-- The number of the pixels of the disc of diameter `k` about `k (u, v)` that lie in the stop. -/
noncomputable def stopCount (k u v : ℤ) : ℕ :=
  ∑ d ∈ ((Finset.Icc (-k) k) ×ˢ (Finset.Icc (-k) k)).filter (fun d : ℤ × ℤ => 4 * (d.1 ^ 2 + d.2 ^ 2) ≤ k ^ 2), stopAt (k * u - d.1) (k * v - d.2)

theorem stop_mean (k u v : ℤ) : discMean k (maskAt stopMask false) (k * u) (k * v) = (stopCount k u v : ℕ) / ((discOffsets k).card : ℕ) := by
  unfold discMean stopCount
  congr 1
  push_cast
  refine Finset.sum_congr rfl fun d _ => ?_
  rw [stopMask_at]

theorem disc_cards : (discOffsets 2).card = 5 ∧ (discOffsets 3).card = 9 ∧ (discOffsets 6).card = 29 := by
  unfold discOffsets
  decide +kernel

/-- The reference at one over a whole number, on 13 x 13 pixels. -/
theorem stop_reference (Sp : ClampSpline) (k : ℕ) (hk : 0 < k) (padFac th : ℝ) (hp : 1 ≤ padFac) (hm : (14 + 2 * k : ℝ) ≤ padFac * 23) :
    ∃ ref, IsReference Sp Rotate.still stopMask th (1 / k) 0 0 padFac 13 13 ref ∧ ref.nr = 13 ∧ ref.nc = 13 ∧
      ∀ p q : ℤ, Reaches 13 13 p q → at0 ref p q = (stopCount k p q : ℕ) / ((discOffsets k).card : ℕ) := by
  have hmax : max stopMask.nr stopMask.nc = 23 := rfl
  have hk1 : (1 : ℝ) ≤ k := by exact_mod_cast hk
  have hargs : MaskArgs stopMask (1 / k) padFac := by
    refine ⟨by positivity, ?_, hp, ?_⟩
    · rw [div_le_one (by linarith)]; exact hk1
    · rw [hmax]; push_cast; linarith
  obtain ⟨d, hd⟩ := (C60_accepts Sp Rotate.still stopMask 0 (1 / k) 0 0 padFac false).mpr hargs
  have hth : rotateShiftDownsample Sp Rotate.still stopMask th (1 / k) 0 0 padFac false = .ok d := by
    obtain ⟨h1, h2, h3⟩ := side_facts (padFac * (max stopMask.nr stopMask.nc : ℕ))
    have h4 := h3.mpr hargs.enough
    obtain ⟨N, hN'⟩ := Int.eq_ofNat_of_zero_le (show 0 ≤ ceilOdd (padFac * (max stopMask.nr stopMask.nc : ℕ)) by omega)
    rw [rsd_ok Sp Rotate.still stopMask _ (1 / k) 0 0 padFac false hargs N hN'.symm] at hd ⊢
    rw [← hd]
    congr 2
    show (if th = 0 then _ else Rotate.still.run _ _) = (if (0 : ℝ) = 0 then _ else Rotate.still.run _ _)
    have : ∀ t a, Rotate.still.run t a = a := fun _ _ => rfl
    rw [this, this, ite_self, ite_self]
  have hw := C60_downsample_whole Sp Rotate.still stopMask k hk 0 0 padFac false 7 (by norm_num) (fun x y h => by
    rw [stopMask_at]
    unfold stopAt
    rw [if_neg]
    · simp
    · rw [Int.abs_eq_natAbs, Int.abs_eq_natAbs] at h; omega) (by rw [hmax]; push_cast; linarith) d (by simpa using hd)
  refine ⟨embed d 13 13 0, ⟨d, hth, padCrop_eq d 13 13 0 (by norm_num) (by norm_num)⟩, rfl, rfl, fun p q hR => ?_⟩
  have := hw p q
  rw [sub_zero, sub_zero, stop_mean] at this
  rw [← this]
  unfold at0
  rw [embed_centered _ _ _ _ hR, Option.getD_some]

/-! ### Pixels by their offset from the centre -/

theorem val_at0 (a : Arr2 ℝ) (i : Fin a.nr) (j : Fin a.nc) : a.val i j = at0 a (((i : ℕ) : ℤ) - (a.nr : ℤ) / 2) (((j : ℕ) : ℤ) - (a.nc : ℤ) / 2) := by
  unfold at0 Arr2.centered
  rw [add_sub_cancel, add_sub_cancel, Arr2.px_val]
  rfl

theorem px_at0 (a : Arr2 ℝ) (p q : ℤ) (h : Reaches a.nr a.nc p q) : a.px ((a.nr : ℤ) / 2 + p) ((a.nc : ℤ) / 2 + q) = some (at0 a p q) := by
  unfold Reaches at h
  unfold at0 Arr2.centered
  rw [Arr2.px_of_inB a (by omega), Option.getD_some]

/-- The values allowed in the images of the example: one, or clearly less. -/
structure Spread13 (a : Arr2 ℝ) : Prop where
  nr : a.nr = 13
  nc : a.nc = 13
  gap : ∀ p q : ℤ, Reaches 13 13 p q → at0 a p q = 1 ∨ (0 ≤ at0 a p q ∧ at0 a p q < 19 / 21)
  top : at0 a 0 0 = 1
  low : at0 a 6 6 = 0

theorem spread13_norm (a : Arr2 ℝ) (h : Spread13 a) : NormBy a a 100 1 ∧ ∃ m t, ampthresh a 21 = .ok m ∧ 0 < t ∧ t < 1 ∧
    ∀ i j : ℤ, m.px i j = (a.px i j).map fun v : ℝ => decide (t < v) := by
  obtain ⟨n, k, g⟩ := a
  obtain ⟨hr, hc, hg, h1, h0⟩ := h
  simp only at hr hc
  subst hr
  subst hc
  have hv : ∀ i j, g i j = 1 ∨ (0 ≤ g i j ∧ g i j < 19 / 21) := by
    intro i j
    have e := val_at0 ⟨13, 13, g⟩ i j
    simp only at e
    rw [e]
    refine hg _ _ ?_
    unfold Reaches
    have := i.isLt
    have := j.isLt
    omega
  have m1 : g 6 6 = 1 := by
    have e := val_at0 ⟨13, 13, g⟩ (6 : Fin 13) (6 : Fin 13)
    refine e.trans ?_
    show at0 _ (((6 : ℕ) : ℤ) - ((13 : ℕ) : ℤ) / 2) (((6 : ℕ) : ℤ) - ((13 : ℕ) : ℤ) / 2) = 1
    rw [show ((6 : ℕ) : ℤ) - ((13 : ℕ) : ℤ) / 2 = 0 by norm_num]
    exact h1
  have m0 : g 12 12 = 0 := by
    have e := val_at0 ⟨13, 13, g⟩ (12 : Fin 13) (12 : Fin 13)
    refine e.trans ?_
    show at0 _ (((12 : ℕ) : ℤ) - ((13 : ℕ) : ℤ) / 2) (((12 : ℕ) : ℤ) - ((13 : ℕ) : ℤ) / 2) = 0
    rw [show ((12 : ℕ) : ℤ) - ((13 : ℕ) : ℤ) / 2 = 6 by norm_num]
    exact h0
  have hex : Extremes (⟨13, 13, g⟩ : Arr2 ℝ).pixels 0 1 := by
    refine ⟨(mem_pixels_val _ 0).mpr ⟨(12 : Fin 13), (12 : Fin 13), m0⟩, (mem_pixels_val _ 1).mpr ⟨(6 : Fin 13), (6 : Fin 13), m1⟩, fun v hv' => ?_⟩
    obtain ⟨i, j, rfl⟩ := (mem_pixels_val _ v).mp hv'
    rcases hv i j with e | e
    · show 0 ≤ g i j ∧ g i j ≤ 1
      rw [e]; norm_num
    · exact ⟨e.1, by linarith [e.2]⟩
  obtain ⟨m, hm⟩ := ampthresh_of_gap ⟨13, 13, g⟩ 0 1 one_pos hex (fun v hv' => by
    obtain ⟨i, j, rfl⟩ := (mem_pixels_val _ v).mp hv'
    rcases hv i j with e | e
    · exact Or.inl e
    · right
      show g i j < _
      linarith [e.2])
  obtain ⟨hr, hc, th, lo, hi, he, hlo, hhi, hpx, -⟩ := C12_threshold_mask _ 21 m hm
  obtain ⟨rfl, rfl⟩ : lo = 0 ∧ hi = 1 := by
    obtain ⟨hl, hh, hb⟩ := he
    exact ⟨le_antisymm (hb _ hex.1).1 (hex.2.2 _ hl).1, le_antisymm (hex.2.2 _ hh).2 (hb _ hex.2.1).2⟩
  refine ⟨?_, m, th, hm, hlo, hhi, hpx⟩
  obtain ⟨n', k', b⟩ := m
  simp only at hr hc
  subst hr
  subst hc
  have hb6 : b 6 6 = true := by
    have := hpx (((6 : Fin 13) : ℕ) : ℤ) (((6 : Fin 13) : ℕ) : ℤ)
    rw [Arr2.px_val (a := ⟨13, 13, b⟩) (6 : Fin 13) (6 : Fin 13), Arr2.px_val (a := ⟨13, 13, g⟩) (6 : Fin 13) (6 : Fin 13)] at this
    simp only [Option.map_some, Option.some.injEq] at this
    rw [this, m1]
    simpa using hhi
  have hargs : ∀ p : ℝ, 0 ≤ p → p ≤ 100 → NormArgs (fun i j => if b i j = true then (1 : ℝ) else 0) p := by
    intro p hp0 hp1
    refine ⟨fun i j => ?_, ⟨6, 6, ?_⟩, hp0, hp1⟩
    · simp only; split_ifs <;> simp
    · simp only; rw [if_pos hb6]
  obtain ⟨-, r, hr, hmax⟩ := C53_extremes g (fun i j => if b i j = true then (1 : ℝ) else 0) (hargs 0 le_rfl (by norm_num))
  obtain ⟨r', hr', -, i, j, -, hle⟩ := C53_range g (fun i j => if b i j = true then (1 : ℝ) else 0) 100 (hargs 100 (by norm_num) le_rfl)
  obtain rfl := Except.ok.inj (hr.symm.trans hr')
  have h6 := hmax 6 6 (by rw [if_pos hb6])
  have : r = 1 := by
    rw [m1] at h6
    rcases hv i j with e | e
    · rw [e] at hle; linarith
    · linarith [e.2]
  subst this
  exact ⟨_, hm, hr⟩

/-- Counting matching pixels by a test on whole numbers. -/
theorem close13 (a b : Arr2 ℝ) (hr : a.nr = 13) (hc : a.nc = 13) (hr' : b.nr = 13) (hc' : b.nc = 13) (tol : ℝ) (P : ℤ → ℤ → Bool)
    (h : ∀ p q, Reaches 13 13 p q → (|at0 a p q - at0 b p q| < tol ↔ P p q = true)) :
    closePixels a b tol = (Finset.univ.filter fun q : Fin 13 × Fin 13 => P (((q.1 : ℕ) : ℤ) - 6) (((q.2 : ℕ) : ℤ) - 6) = true).card := by
  classical
  obtain ⟨n, k, f⟩ := a
  obtain ⟨n', k', g⟩ := b
  simp only at hr hc hr' hc'
  subst hr
  subst hc
  subst hr'
  subst hc'
  unfold closePixels
  congr 1
  ext ⟨i, j⟩
  simp only [Finset.mem_filter, Finset.mem_univ, true_and]
  have hi := i.isLt
  have hj := j.isLt
  have e1 := val_at0 (⟨13, 13, f⟩ : Arr2 ℝ) i j
  have e2 := val_at0 (⟨13, 13, g⟩ : Arr2 ℝ) i j
  simp only at e1 e2
  rw [← h _ _ (by unfold Reaches; simp only at hi hj; omega)]
  rw [Arr2.px_val (a := ⟨13, 13, g⟩) i j]
  simp only [Option.some.injEq, exists_eq_left']
  rw [e1, e2]
  rfl

theorem counts3 : ∀ u ∈ Finset.Icc (-6 : ℤ) 6, ∀ v ∈ Finset.Icc (-6 : ℤ) 6, stopCount 3 u v = 9 * round5 u v := by
  unfold stopCount round5 stopAt
  decide +kernel

theorem counts2 : ∀ u ∈ Finset.Icc (-6 : ℤ) 6, ∀ v ∈ Finset.Icc (-6 : ℤ) 6, stopCount 2 u v ≤ 4 ∨ stopCount 2 u v = 5 := by
  unfold stopCount stopAt
  decide +kernel

theorem counts6 : ∀ u ∈ Finset.Icc (-6 : ℤ) 6, ∀ v ∈ Finset.Icc (-6 : ℤ) 6, stopCount 6 u v ≤ 23 ∨ stopCount 6 u v = 29 := by
  unfold stopCount stopAt
  decide +kernel

theorem match2 : (Finset.univ.filter fun q : Fin 13 × Fin 13 =>
    decide (4 * ((25 * round5 (((q.1 : ℕ) : ℤ) - 6) (((q.2 : ℕ) : ℤ) - 6) : ℤ) - stopCount 2 (((q.1 : ℕ) : ℤ) - 6) (((q.2 : ℕ) : ℤ) - 6) ^ 2).natAbs < 75) = true).card = 153 := by
  unfold stopCount round5 stopAt
  decide +kernel

theorem match6 : (Finset.univ.filter fun q : Fin 13 × Fin 13 =>
    decide (4 * ((841 * round5 (((q.1 : ℕ) : ℤ) - 6) (((q.2 : ℕ) : ℤ) - 6) : ℤ) - stopCount 6 (((q.1 : ℕ) : ℤ) - 6) (((q.2 : ℕ) : ℤ) - 6) ^ 2).natAbs < 2523) = true).card = 153 := by
  unfold stopCount round5 stopAt
  decide +kernel

/-! ### The scene -/

/-- The unmasked pupil: a square of 11 x 11 bright pixels. -/
noncomputable def lyotU : Arr2 ℝ := ⟨13, 13, fun i j => if (1 ≤ (i : ℕ) ∧ (i : ℕ) ≤ 11) ∧ (1 ≤ (j : ℕ) ∧ (j : ℕ) ≤ 11) then 1 else 0⟩

/-- The pupil seen through the stop. -/
noncomputable def lyotM : Arr2 ℝ := ⟨13, 13, fun i j => (round5 (((i : ℕ) : ℤ) - 6) (((j : ℕ) : ℤ) - 6) : ℕ)⟩

/-- The tuning parameters of the example: magnifications one half, one and three halves are tried. -/
noncomputable def stopTuning (rounds : ℤ) : LyotTuning where
  clockMaxDeg := 1
  nClock := 3
  deltaAmpMax := 3 / 4
  diamPupil := 5
  magShrinkFac := 1 / 2
  deltaMag := 1
  nMag := 3
  nIterMag := rounds
  diamHighRes := 15
  odLs := 1
  nPadFFT := 6
  nFocusCrop := 3
  nPhaseSteps := 3
  dPixel := 1
  percentile := 100
  mask := stopMask

theorem at0_13 (f : Fin 13 → Fin 13 → ℝ) (g : ℤ → ℤ → ℝ) (hf : ∀ i j : Fin 13, f i j = g (((i : ℕ) : ℤ) - 6) (((j : ℕ) : ℤ) - 6)) (p q : ℤ)
    (h : Reaches 13 13 p q) : at0 (⟨13, 13, f⟩ : Arr2 ℝ) p q = g p q := by
  unfold Reaches at h
  unfold at0 Arr2.centered
  have := Arr2.px_of_inB (⟨13, 13, f⟩ : Arr2 ℝ) (i := ((13 : ℕ) : ℤ) / 2 + p) (j := ((13 : ℕ) : ℤ) / 2 + q) (by
    show (0 ≤ ((13 : ℕ) : ℤ) / 2 + p ∧ ((13 : ℕ) : ℤ) / 2 + p < ((13 : ℕ) : ℤ)) ∧ (0 ≤ ((13 : ℕ) : ℤ) / 2 + q ∧ ((13 : ℕ) : ℤ) / 2 + q < ((13 : ℕ) : ℤ))
    omega)
  refine (congrArg (fun o => o.getD 0) this).trans ?_
  simp only [Option.getD_some]
  rw [hf]
  congr 1 <;> simp only <;> omega

theorem lyotM_at0 (p q : ℤ) (h : Reaches 13 13 p q) : at0 lyotM p q = (round5 p q : ℕ) :=
  at0_13 _ (fun p q => (round5 p q : ℕ)) (fun _ _ => rfl) p q h

theorem lyotU_at0 (p q : ℤ) (h : Reaches 13 13 p q) : at0 lyotU p q = if (-5 ≤ p ∧ p ≤ 5) ∧ (-5 ≤ q ∧ q ≤ 5) then 1 else 0 := by
  refine at0_13 _ (fun p q => if (-5 ≤ p ∧ p ≤ 5) ∧ (-5 ≤ q ∧ q ≤ 5) then 1 else 0) (fun i j => ?_) p q h
  congr 1
  apply propext
  omega

theorem round5_cases (p q : ℤ) : round5 p q = 0 ∨ round5 p q = 1 := by
  unfold round5
  split_ifs <;> simp

theorem lyotM_spread : Spread13 lyotM := by
  refine ⟨rfl, rfl, fun p q h => ?_, ?_, ?_⟩
  · rw [lyotM_at0 p q h]
    rcases round5_cases p q with e | e <;> rw [e] <;> norm_num
  · rw [lyotM_at0 0 0 (by unfold Reaches; norm_num)]
    simp [round5]
  · rw [lyotM_at0 6 6 (by unfold Reaches; norm_num)]
    simp [round5]

theorem lyotU_spread : Spread13 lyotU := by
  refine ⟨rfl, rfl, fun p q h => ?_, ?_, ?_⟩
  · rw [lyotU_at0 p q h]
    split_ifs <;> norm_num
  · rw [lyotU_at0 0 0 (by unfold Reaches; norm_num)]
    norm_num
  · rw [lyotU_at0 6 6 (by unfold Reaches; norm_num)]
    norm_num

/-- Images of zeros and ones are their own amplitudes. -/
theorem bits_amp (a : Arr2 ℝ) (h : ∀ i j, a.val i j = 0 ∨ a.val i j = 1) : imageToAmp a 1 = a ∧ clipUnits a 1 = a := by
  obtain ⟨n, m, f⟩ := a
  constructor
  · unfold imageToAmp Arr2.map
    congr 1
    funext i j
    rcases h i j with e | e
    · simp only at e ⊢; rw [e]; simp
    · simp only at e ⊢; rw [e]; norm_num
  · unfold clipUnits Arr2.map
    congr 1
    funext i j
    rcases h i j with e | e
    · simp only at e ⊢; rw [e]; simp
    · simp only at e ⊢; rw [e]; norm_num

theorem sumWhere_all (a : Arr2 ℝ) (m : Arr2 Bool) (h : ∀ (i : Fin a.nr) (j : Fin a.nc), m.px ((i : ℕ) : ℤ) ((j : ℕ) : ℤ) ≠ some true → a.val i j = 0) :
    sumWhere a m = ∑ i : Fin a.nr, ∑ j : Fin a.nc, a.val i j := by
  unfold sumWhere
  refine Finset.sum_congr rfl fun i _ => Finset.sum_congr rfl fun j _ => ?_
  split_ifs with hc
  · rfl
  · exact (h i j hc).symm

/-- The reference at the scale of the detector is the stop itself. -/
theorem stop_reference3 (Sp : ClampSpline) (padFac th : ℝ) (hp : 1 ≤ padFac) :
    ∃ ref, IsReference Sp Rotate.still stopMask th (5 / 15) 0 0 padFac 13 13 ref ∧ ref.nr = 13 ∧ ref.nc = 13 ∧
      ∀ p q : ℤ, Reaches 13 13 p q → at0 ref p q = (round5 p q : ℕ) := by
  obtain ⟨ref, h1, h2, h3, h4⟩ := stop_reference Sp 3 (by norm_num) padFac th hp (by push_cast; linarith)
  refine ⟨ref, ?_, h2, h3, fun p q h => ?_⟩
  · rw [show (5 / 15 : ℝ) = 1 / (3 : ℕ) by norm_num]; exact h1
  · rw [h4 p q h]
    unfold Reaches at h
    have := counts3 p (by rw [Finset.mem_Icc]; omega) q (by rw [Finset.mem_Icc]; omega)
    rw [show ((3 : ℕ) : ℤ) = 3 from rfl, this, disc_cards.2.1]
    push_cast
    field_simp

theorem val_13 (a : Arr2 ℝ) (hr : a.nr = 13) (hc : a.nc = 13) (g : ℤ → ℤ → ℝ) (h : ∀ p q, Reaches 13 13 p q → at0 a p q = g p q) :
    a = ⟨13, 13, fun i j => g (((i : ℕ) : ℤ) - 6) (((j : ℕ) : ℤ) - 6)⟩ := by
  obtain ⟨n, m, f⟩ := a
  simp only at hr hc
  subst hr
  subst hc
  congr 1
  funext i j
  have e := val_at0 (⟨13, 13, f⟩ : Arr2 ℝ) i j
  simp only at e
  rw [e]
  refine h _ _ ?_
  unfold Reaches
  have := i.isLt
  have := j.isLt
  omega

theorem total21 : (∑ i : Fin 13, ∑ j : Fin 13, round5 (((i : ℕ) : ℤ) - 6) (((j : ℕ) : ℤ) - 6)) = 21 := by
  unfold round5
  decide +kernel

/-- The first estimate of the magnification is exact. -/
theorem stop_start (Sp : ClampSpline) (rounds : ℤ) (hr : 1 ≤ rounds) :
    lyotStart Sp Rotate.still (stopTuning rounds) lyotU lyotM 0 0 = .ok (lyotU, lyotM, 1, lyotM) := by
  have hargs : LyotArgs (stopTuning rounds) := ⟨by norm_num [stopTuning], by norm_num [stopTuning], by norm_num [stopTuning], by norm_num [stopTuning],
    by norm_num [stopTuning], by norm_num [stopTuning], by norm_num [stopTuning], by show 0 < rounds; omega⟩
  obtain ⟨uN, mU, tU, hmU, tU0, tU1, hpU⟩ := spread13_norm lyotU lyotU_spread
  obtain ⟨-, mM, tM, hmM, tM0, tM1, hpM⟩ := spread13_norm lyotM lyotM_spread
  obtain ⟨ref, href, rr, rc, hrv⟩ := stop_reference3 Sp (6 / 5) 0 (by norm_num)
  obtain ⟨aU, cU⟩ := bits_amp lyotU (fun i j => by
    show (if _ then (1 : ℝ) else 0) = 0 ∨ (if _ then (1 : ℝ) else 0) = 1
    split_ifs <;> simp)
  obtain ⟨aM, cM⟩ := bits_amp lyotM (fun i j => by
    show ((round5 _ _ : ℕ) : ℝ) = 0 ∨ ((round5 _ _ : ℕ) : ℝ) = 1
    rcases round5_cases (((i : ℕ) : ℤ) - 6) (((j : ℕ) : ℤ) - 6) with e | e <;> rw [e] <;> simp)
  have hsim : ∀ p q, Reaches 13 13 p q → at0 lyotU p q * at0 ref p q = (round5 p q : ℕ) := by
    intro p q h
    rw [lyotU_at0 p q h, hrv p q h]
    split_ifs with hc
    · rw [one_mul]
    · unfold round5
      rw [if_neg (by intro h5; apply hc; constructor <;> constructor <;> nlinarith)]
      simp
  have e1 : lyotU.mulZ ref = lyotM := by
    refine (val_13 _ rfl rfl (fun p q => (round5 p q : ℕ)) fun p q h => ?_).trans rfl
    rw [at0_mulZ lyotU ref rr rc, hsim p q h]
  have e2 : ref.mulZ lyotU = lyotM := by
    refine (val_13 (ref.mulZ lyotU) rr rc (fun p q => (round5 p q : ℕ)) fun p q h => ?_).trans rfl
    rw [at0_mulZ ref lyotU rr.symm rc.symm, mul_comm, hsim p q h]
  have bright : ∀ (a : Arr2 ℝ) (m : Arr2 Bool) (t : ℝ), t < 1 → (∀ i j : ℤ, m.px i j = (a.px i j).map fun v : ℝ => decide (t < v)) →
      ∀ (i : Fin a.nr) (j : Fin a.nc), a.val i j = 1 → m.px ((i : ℕ) : ℤ) ((j : ℕ) : ℤ) = some true := by
    intro a m t ht hp i j hv
    rw [hp, Arr2.px_val, Option.map_some, hv, decide_eq_true ht]
  have hbitM : ∀ i j, lyotM.val i j = 0 ∨ lyotM.val i j = 1 := fun i j => by
    show ((round5 _ _ : ℕ) : ℝ) = 0 ∨ ((round5 _ _ : ℕ) : ℝ) = 1
    rcases round5_cases (((i : ℕ) : ℤ) - 6) (((j : ℕ) : ℤ) - 6) with e | e <;> rw [e] <;> simp
  have s1 : sumWhere lyotM mM = 21 := by
    rw [sumWhere_all lyotM mM fun i j hne => (hbitM i j).resolve_right fun h1 => hne (bright lyotM mM tM tM1 hpM i j h1)]
    show (∑ i : Fin 13, ∑ j : Fin 13, ((round5 (((i : ℕ) : ℤ) - 6) (((j : ℕ) : ℤ) - 6) : ℕ) : ℝ)) = 21
    exact_mod_cast total21
  have s2 : sumWhere lyotM mU = 21 := by
    rw [sumWhere_all lyotM mU fun i j hne => (hbitM i j).resolve_right fun h1 => hne (bright lyotU mU tU tU1 hpU i j (by
      have hi : (i : ℕ) < 13 := i.isLt
      have hj : (j : ℕ) < 13 := j.isLt
      have h1' : ((round5 (((i : ℕ) : ℤ) - 6) (((j : ℕ) : ℤ) - 6) : ℕ) : ℝ) = 1 := h1
      show (if _ then (1 : ℝ) else 0) = 1
      refine if_pos ?_
      by_contra hc
      unfold round5 at h1'
      rw [if_neg (by
        intro h5
        have : -5 ≤ ((i : ℕ) : ℤ) - 6 ∧ ((i : ℕ) : ℤ) - 6 ≤ 5 ∧ -5 ≤ ((j : ℕ) : ℤ) - 6 ∧ ((j : ℕ) : ℤ) - 6 ≤ 5 := by
          refine ⟨?_, ?_, ?_, ?_⟩ <;> nlinarith
        omega)] at h1'
      norm_num at h1'))]
    show (∑ i : Fin 13, ∑ j : Fin 13, ((round5 (((i : ℕ) : ℤ) - 6) (((j : ℕ) : ℤ) - 6) : ℕ) : ℝ)) = 21
    exact_mod_cast total21
  have href' : ∀ m : ℝ, m = 5 / 15 → referenceOn Sp Rotate.still stopMask 0 m 0 0 (6 / 5) 13 13 = .ok ref := fun m hm => by
    rw [hm]; exact (referenceOn_iff _ _ _ _ _ _ _ _ _ _ _).mpr href
  unfold lyotStart
  rw [(lyotChecks_ok (stopTuning rounds) ()).mpr hargs, res_ok_bind, (normFactorOf_iff _ _ _ _).mpr (show NormBy lyotU lyotU (stopTuning rounds).percentile 1 from uN),
    res_ok_bind]
  simp only [aU, cU, aM, cM]
  have q1 : referenceOn Sp Rotate.still (stopTuning rounds).mask 0 ((stopTuning rounds).diamPupil / (stopTuning rounds).diamHighRes) 0 0 (6 / 5) lyotU.nr lyotU.nc = .ok ref :=
    href' _ rfl
  rw [q1, res_ok_bind, hmM, res_ok_bind, hmU, res_ok_bind, e1, s1, s2, div_self (by norm_num), Real.sqrt_one]
  have q2 : referenceOn Sp Rotate.still (stopTuning rounds).mask 0 (1 * (stopTuning rounds).diamPupil / (stopTuning rounds).diamHighRes) 0 0 (6 / 5) lyotU.nr lyotU.nc = .ok ref :=
    href' _ (by rw [one_mul]; rfl)
  rw [q2, res_ok_bind, e2]

/-- The coarse search finds the stop at the centre. -/
theorem stop_coarse (fuel : ℕ) (hf : 2 ≤ fuel) : coarselyLocate fuel lyotM (1 * 5 * 1) 3 = some (.ok ((0, 0), [1])) := by
  obtain ⟨M, hM⟩ := C52_ideal_pupil lyotM (1 * 5 * 1) 0 0 6 1 (by norm_num) (by norm_num) (by norm_num) 0 0 ⟨6, by norm_num, by norm_num⟩
    ⟨6, by norm_num, by norm_num⟩ 1 one_pos (fun i j h => by
      have h' : ((j - 6) ^ 2 + (i - 6) ^ 2 : ℤ) ≤ 6 := by
        have e : (((j - (lyotM.nc / 2 : ℕ) - 0 : ℤ) : ℝ)) ^ 2 + (((i - (lyotM.nr / 2 : ℕ) - 0 : ℤ) : ℝ)) ^ 2 = (((j - 6) ^ 2 + (i - 6) ^ 2 : ℤ) : ℝ) := by
          rw [show (lyotM.nc / 2 : ℕ) = 6 from rfl, show (lyotM.nr / 2 : ℕ) = 6 from rfl]; push_cast; ring
        rw [e] at h
        have h7 : (((j - 6) ^ 2 + (i - 6) ^ 2 : ℤ) : ℝ) < (7 : ℤ) := lt_of_le_of_lt h (by norm_num)
        have : ((j - 6) ^ 2 + (i - 6) ^ 2 : ℤ) < 7 := by exact_mod_cast h7
        omega
      have hi : -2 ≤ i - 6 ∧ i - 6 ≤ 2 := by constructor <;> nlinarith [sq_nonneg (j - 6)]
      have hj : -2 ≤ j - 6 ∧ j - 6 ≤ 2 := by constructor <;> nlinarith [sq_nonneg (i - 6)]
      have h5 : ((i - 6) ^ 2 + (j - 6) ^ 2 : ℤ) ≤ 5 := by
        generalize i - 6 = x at *
        generalize j - 6 = y at *
        obtain rfl | rfl | rfl | rfl | rfl : x = -2 ∨ x = -1 ∨ x = 0 ∨ x = 1 ∨ x = 2 := by omega
        all_goals obtain rfl | rfl | rfl | rfl | rfl : y = -2 ∨ y = -1 ∨ y = 0 ∨ y = 1 ∨ y = 2 := by omega
        all_goals first | (exfalso; revert h'; norm_num; done) | norm_num
      have := px_at0 lyotM (i - 6) (j - 6) (by show Reaches 13 13 _ _; unfold Reaches; omega)
      rw [show ((lyotM.nr : ℤ) / 2 + (i - 6)) = i by show ((13 : ℕ) : ℤ) / 2 + (i - 6) = i; omega,
        show ((lyotM.nc : ℤ) / 2 + (j - 6)) = j by show ((13 : ℕ) : ℤ) / 2 + (j - 6) = j; omega,
        lyotM_at0 _ _ (by unfold Reaches; omega)] at this
      rw [this]
      unfold round5
      rw [if_pos h5]
      simp) (fun i j h => by
      show ((round5 (((i : ℕ) : ℤ) - 6) (((j : ℕ) : ℤ) - 6) : ℕ) : ℝ) = 0
      unfold round5
      rw [if_neg]
      · simp
      · intro h5
        apply h
        unfold InBeam
        rw [show (lyotM.nc / 2 : ℕ) = 6 from rfl, show (lyotM.nr / 2 : ℕ) = 6 from rfl]
        have h6 : (((((i : ℕ) : ℤ) - 6) ^ 2 + (((j : ℕ) : ℤ) - 6) ^ 2 : ℤ) : ℝ) ≤ (5 : ℤ) := by exact_mod_cast h5
        push_cast at h6 ⊢
        linarith)
  obtain ⟨f, rfl⟩ : ∃ f, fuel = f + 2 := ⟨fuel - 2, by omega⟩
  unfold coarselyLocate
  rw [if_neg (by norm_num), if_neg (by norm_num), if_neg (by norm_num)]
  have hstep : max 1 ⌊(1 * 5 * 1 : ℝ) / 3⌋ = 1 := by
    rw [show ⌊(1 * 5 * 1 : ℝ) / 3⌋ = 1 by rw [Int.floor_eq_iff]; norm_num]
    rfl
  rw [hstep]
  have hrad : max ((lyotM.nc / 2 : ℕ) : ℤ) ((lyotM.nr / 2 : ℕ) : ℤ) = 6 := rfl
  rw [hrad]
  unfold coarseLoop
  rw [if_neg (by norm_num), hM]
  simp only
  have hns : nextStep 3 1 = 0 := by unfold nextStep; rw [if_pos rfl]
  rw [hns]
  unfold coarseLoop
  rw [if_pos rfl]

theorem stop_clocking (S : Solver) (Sp : ClampSpline) :
    computeClocking S Sp Rotate.still lyotM.toC (1 * 5) stopMask 15 (0 + 0) (0 + 0) 1 3 100 (3 / 4) false = .ok 0 := by
  have hz : (fun i j : Fin 13 => ‖((lyotM.val i j : ℝ) : ℂ)‖) = lyotM.val := by
    funext i j
    rw [Complex.norm_real, Real.norm_eq_abs, abs_of_nonneg]
    show (0 : ℝ) ≤ ((round5 _ _ : ℕ) : ℝ)
    positivity
  have hsq : lyotM.map (fun v : ℝ => v ^ 2) = lyotM := by
    unfold lyotM Arr2.map
    congr 1
    funext i j
    simp only
    rcases round5_cases (((i : ℕ) : ℤ) - 6) (((j : ℕ) : ℤ) - 6) with e | e <;> rw [e] <;> simp
  have hone : ∀ a : Arr2 ℝ, a.map (fun v : ℝ => v / 1) = a := by
    rintro ⟨n, m, f⟩
    unfold Arr2.map
    simp
  have := C76_symmetric S Sp Rotate.still (fun i j : Fin 13 => ((lyotM.val i j : ℝ) : ℂ)) (1 * 5) stopMask 15 (0 + 0) (0 + 0) 1 3 100 (3 / 4) false
    ⟨by norm_num, by norm_num, by norm_num, by norm_num, by norm_num⟩ (by norm_num) one_ne_zero (fun _ => 169) (fun th _ => by
      obtain ⟨ref, href, rr, rc, hrv⟩ := stop_reference3 Sp 1 th le_rfl
      refine ⟨ref, ?_, ?_⟩
      · rw [add_zero, one_mul]; exact href
      · unfold Matches
        rw [if_pos rfl]
        refine ⟨1, 1, ?_, ?_, ?_⟩
        · rw [hz]
          have e : NormBy lyotM (lyotM.map fun v : ℝ => v ^ 2) 100 1 := by rw [hsq]; exact (spread13_norm lyotM lyotM_spread).1
          exact e
        · refine (spread13_norm ref ⟨rr, rc, fun p q h => ?_, ?_, ?_⟩).1
          · rw [hrv p q h]
            rcases round5_cases p q with e | e <;> rw [e] <;> norm_num
          · rw [hrv 0 0 (by unfold Reaches; norm_num)]; simp [round5]
          · rw [hrv 6 6 (by unfold Reaches; norm_num)]; simp [round5]
        · rw [hone, hone, hz]
          refine Eq.trans ?_ (close13 lyotM ref rfl rfl rr rc (3 / 4) (fun _ _ => true) (fun p q h => ?_)).symm
          · simp
          · rw [lyotM_at0 p q h, hrv p q h]
            simp) (fun _ _ => rfl)
  exact this

/-- How many pixels match at the three magnifications. -/
theorem stop_matches (Sp : ClampSpline) (rounds : ℤ) :
    LyotMatches Sp Rotate.still (stopTuning rounds) lyotM 0 0 0 (1 / 2) 153 ∧ LyotMatches Sp Rotate.still (stopTuning rounds) lyotM 0 0 0 1 169 ∧
    LyotMatches Sp Rotate.still (stopTuning rounds) lyotM 0 0 0 (3 / 2) 153 := by
  have gen : ∀ (k card : ℕ) (m : ℝ) (N : ℕ) (hk : 0 < k), (14 + 2 * k : ℝ) ≤ 6 / 5 * 23 → m * 5 / 15 = 1 / k → (discOffsets k).card = card → 0 < card →
      (∀ u ∈ Finset.Icc (-6 : ℤ) 6, ∀ v ∈ Finset.Icc (-6 : ℤ) 6, 21 * stopCount k u v ^ 2 < 19 * card ^ 2 ∨ stopCount k u v = card) →
      stopCount k 0 0 = card → stopCount k 6 6 = 0 →
      (Finset.univ.filter fun q : Fin 13 × Fin 13 => decide (4 * (((card : ℤ) ^ 2 * round5 (((q.1 : ℕ) : ℤ) - 6) (((q.2 : ℕ) : ℤ) - 6) : ℤ) -
        stopCount k (((q.1 : ℕ) : ℤ) - 6) (((q.2 : ℕ) : ℤ) - 6) ^ 2).natAbs < 3 * card ^ 2) = true).card = N →
      LyotMatches Sp Rotate.still (stopTuning rounds) lyotM 0 0 0 m N := by
    intro k card m N hk hpad hm hcard hpos hgap h00 h66 hN
    obtain ⟨ref, href, rr, rc, hrv⟩ := stop_reference Sp k hk (6 / 5) 0 (by norm_num) hpad
    rw [hcard] at hrv
    have hc0 : (0 : ℝ) < card := by exact_mod_cast hpos
    have hsq : ∀ p q, Reaches 13 13 p q → at0 (ref.map fun v : ℝ => v ^ 2) p q = ((stopCount k p q : ℕ) / card : ℝ) ^ 2 := by
      intro p q h
      rw [at0_map ref _ (by norm_num), hrv p q h]
    refine ⟨ref, 1, ?_, ?_, ?_⟩
    · show IsReference Sp Rotate.still stopMask 0 (m * 5 / 15) 0 0 (6 / 5) 13 13 ref
      rw [hm]; exact href
    · refine (spread13_norm (ref.map fun v : ℝ => v ^ 2) ⟨rr, rc, fun p q h => ?_, ?_, ?_⟩).1
      · rw [hsq p q h]
        have h' := h
        unfold Reaches at h'
        rcases hgap p (by rw [Finset.mem_Icc]; omega) q (by rw [Finset.mem_Icc]; omega) with e | e
        · right
          refine ⟨by positivity, ?_⟩
          rw [div_pow, div_lt_div_iff₀ (by positivity) (by norm_num)]
          have : ((21 * stopCount k p q ^ 2 : ℕ) : ℝ) < ((19 * card ^ 2 : ℕ) : ℝ) := by exact_mod_cast e
          push_cast at this
          linarith
        · left
          rw [e, div_self hc0.ne', one_pow]
      · rw [hsq 0 0 (by unfold Reaches; norm_num), h00, div_self hc0.ne', one_pow]
      · rw [hsq 6 6 (by unfold Reaches; norm_num), h66]; simp
    · rw [← hN]
      refine (close13 lyotM (ref.map fun v : ℝ => v ^ 2 / 1) rfl rfl rr rc (3 / 4) (fun p q => decide (4 * (((card : ℤ) ^ 2 * round5 p q : ℤ) - stopCount k p q ^ 2).natAbs < 3 * card ^ 2))
        (fun p q h => ?_)).symm
      rw [lyotM_at0 p q h, at0_map ref _ (by norm_num), hrv p q h, decide_eq_true_eq, div_one]
      have e : ((round5 p q : ℕ) : ℝ) - ((stopCount k p q : ℕ) / card : ℝ) ^ 2 =
          (((card : ℤ) ^ 2 * round5 p q - stopCount k p q ^ 2 : ℤ) : ℝ) / card ^ 2 := by
        push_cast
        field_simp
      rw [e, abs_div, abs_of_pos (show (0 : ℝ) < card ^ 2 by positivity), div_lt_div_iff₀ (by positivity) (by norm_num), ← Int.cast_abs, Int.abs_eq_natAbs]
      generalize ((card : ℤ) ^ 2 * round5 p q - stopCount k p q ^ 2 : ℤ).natAbs = z
      constructor
      · intro h
        have h1 : ((z * 4 : ℕ) : ℝ) < ((3 * card ^ 2 : ℕ) : ℝ) := by push_cast at h ⊢; exact h
        have h2 : z * 4 < 3 * card ^ 2 := by exact_mod_cast h1
        omega
      · intro h
        have h1 : ((z * 4 : ℕ) : ℝ) < ((3 * card ^ 2 : ℕ) : ℝ) := by
          have : z * 4 < 3 * card ^ 2 := by omega
          exact_mod_cast this
        push_cast at h1 ⊢
        exact h1
  refine ⟨gen 6 29 (1 / 2) 153 (by norm_num) (by norm_num) (by norm_num) disc_cards.2.2 (by norm_num) ?_ ?_ ?_ ?_,
    gen 3 9 1 169 (by norm_num) (by norm_num) (by norm_num) disc_cards.2.1 (by norm_num) ?_ ?_ ?_ ?_,
    gen 2 5 (3 / 2) 153 (by norm_num) (by norm_num) (by norm_num) disc_cards.1 (by norm_num) ?_ ?_ ?_ ?_⟩
  · unfold stopCount stopAt; decide +kernel
  · unfold stopCount stopAt; decide +kernel
  · unfold stopCount stopAt; decide +kernel
  · unfold stopCount stopAt round5; decide +kernel
  · unfold stopCount stopAt; decide +kernel
  · unfold stopCount stopAt; decide +kernel
  · unfold stopCount stopAt; decide +kernel
  · unfold stopCount stopAt round5; decide +kernel
  · unfold stopCount stopAt; decide +kernel
  · unfold stopCount stopAt; decide +kernel
  · unfold stopCount stopAt; decide +kernel
  · unfold stopCount stopAt round5; decide +kernel

/-- The line search stays where the overlap has its peak. -/
theorem magLoop_tent (S : Solver) (overlap : ℝ → Res ℝ) (shrink delta : ℝ) (nMag nIter : ℕ) (m0 N k : ℝ) (hk : 0 < k)
    (h3 : ThreeValues ((spread delta nMag).map fun v : ℝ => m0 + shrink * v)) (hm0 : m0 ∈ (spread delta nMag).map fun v : ℝ => m0 + shrink * v)
    (ho : ∀ m ∈ (spread delta nMag).map fun v : ℝ => m0 + shrink * v, overlap m = .ok (N - k * |m - m0|)) (left iter : ℕ) :
    magLoop S overlap shrink delta nMag nIter left iter m0 = .ok m0 := by
  induction left generalizing iter with
  | zero => rfl
  | succ left ih =>
    unfold magLoop
    simp only [linspaceList_spread]
    rw [mapM_ok overlap (fun m => N - k * |m - m0|) _ ho, res_ok_bind]
    have e1 := deficitVertex_tent S (fun m => N - k * |m - m0|) _ 1 m0 N k h3 hm0 hk (fun s _ => rfl)
    have e2 : lineArgmax ((spread delta nMag).map fun v : ℝ => m0 + shrink * v)
        (((spread delta nMag).map fun v : ℝ => m0 + shrink * v).map fun m => N - k * |m - m0|) = m0 := by
      obtain ⟨-, h2⟩ := lineArgmax_spec (fun m => N - k * |m - m0|) _ (List.ne_nil_of_mem hm0)
      have := h2 m0 hm0
      simp only [sub_self, abs_zero, mul_zero, sub_zero] at this
      generalize lineArgmax _ _ = z at this ⊢
      have hz : |z - m0| ≤ 0 := by nlinarith [abs_nonneg (z - m0)]
      have := abs_nonpos_iff.mp hz
      linarith
    rw [e1, e2, ite_self]
    exact ih (iter + 1)

/-- The whole fit on the scene with the stop in its place: the magnification is exactly one and the clocking exactly zero, for every number of
rounds. -/
theorem lyot_scene (fuel : ℕ) (hf : 2 ≤ fuel) (S : Solver) (Sp : ClampSpline) (rounds : ℤ) (hr : 1 ≤ rounds) :
    fitLyotStopMagClocking fuel S Sp Rotate.still (stopTuning rounds) lyotU lyotM 0 0 = some (.ok (1, 0)) := by
  unfold fitLyotStopMagClocking
  rw [if_neg (by push Not; exact ⟨rfl, rfl⟩), stop_start Sp rounds hr]
  simp only
  have hco : coarselyLocate fuel lyotM (1 * (stopTuning rounds).diamPupil * (stopTuning rounds).odLs) 3 = some (.ok ((0, 0), [1])) := stop_coarse fuel hf
  rw [hco]
  simp only
  congr 1
  unfold lyotFinish
  have hcrop := recentre_at0 lyotM 13 (by norm_num) 0 0
  have hc' : offcenterCrop lyotM 0 ((max lyotU.nr lyotU.nc : ℕ) : ℤ) (((0 + ((lyotU.nr / 2 : ℕ) : ℤ) : ℤ)) : ℝ) (((0 + ((lyotU.nc / 2 : ℕ) : ℤ) : ℤ)) : ℝ) =
      .ok ⟨13, 13, fun i j => at0 lyotM (((i : ℕ) - ((13 : ℕ) : ℤ) / 2) + 0) (((j : ℕ) - ((13 : ℕ) : ℤ) / 2) + 0)⟩ := by
    rw [← hcrop]
    congr 2
  simp only
  rw [hc', res_ok_bind, res_ok_bind]
  have hat : ∀ p ∈ window 6, ∀ q ∈ window 6, at0 (⟨13, 13, fun i j => at0 lyotM (((i : ℕ) - ((13 : ℕ) : ℤ) / 2) + 0) (((j : ℕ) - ((13 : ℕ) : ℤ) / 2) + 0)⟩ : Arr2 ℝ) p q =
      (round5 p q : ℕ) := by
    intro p hp q hq
    rw [mem_window] at hp hq
    refine (at0_13 _ (fun p q => at0 lyotM p q) (fun i j => ?_) p q (by unfold Reaches; omega)).trans (lyotM_at0 p q (by unfold Reaches; omega))
    rw [add_zero, add_zero]
    rfl
  have hlat : computeLateralOffsets S _ _ (1 * (stopTuning rounds).diamPupil) (stopTuning rounds).nPhaseSteps (stopTuning rounds).dPixel (stopTuning rounds).nPadFFT
      (stopTuning rounds).nFocusCrop 2 0 0 = .ok (0, 0) := round_rest S _ _ (1 * 5) (by norm_num) hat hat
  rw [hlat, res_ok_bind]
  have hcl : computeClocking S Sp Rotate.still lyotM.toC (1 * (stopTuning rounds).diamPupil) (stopTuning rounds).mask (stopTuning rounds).diamHighRes (0 + 0) (0 + 0)
      (stopTuning rounds).clockMaxDeg (stopTuning rounds).nClock (stopTuning rounds).percentile (stopTuning rounds).deltaAmpMax false = .ok 0 := stop_clocking S Sp
  simp only
  rw [hcl, res_ok_bind]
  obtain ⟨h1, h2, h3⟩ := stop_matches Sp rounds
  have hl : (spread (stopTuning rounds).deltaMag (stopTuning rounds).nMag.toNat).map (fun v : ℝ => 1 + (stopTuning rounds).magShrinkFac * v) = [1 / 2, 1, 3 / 2] := by
    show (spread 1 3).map (fun v : ℝ => 1 + 1 / 2 * v) = _
    simp only [spread, List.range, List.range.loop, List.map_cons, List.map_nil]
    norm_num
  rw [magLoop_tent S _ _ _ _ _ 1 169 32 (by norm_num) (by
      rw [hl]; exact ⟨1 / 2, by simp, 1, by simp, 3 / 2, by simp, by norm_num, by norm_num, by norm_num⟩) (by rw [hl]; simp) (fun m hm => by
      rw [hl] at hm
      rw [add_zero]
      rw [lyotOverlap_iff]
      simp only [List.mem_cons, List.not_mem_nil, or_false] at hm
      rcases hm with rfl | rfl | rfl
      · exact ⟨153, h1, by norm_num [abs_of_nonpos, abs_of_nonneg]⟩
      · exact ⟨169, h2, by norm_num⟩
      · exact ⟨153, h3, by norm_num [abs_of_nonneg]⟩), res_ok_bind]

/-! ### The hypotheses of C78 hold here -/

/-- `C78_search`: the scene is fitted, for every solver and spline. -/
example (S : Solver) (Sp : ClampSpline) := C78_search 2 S Sp Rotate.still (stopTuning 4) lyotU lyotM 0 0 1 0 (lyot_scene 2 le_rfl S Sp 4 (by norm_num))

/-- `C78_recovers`: with three magnifications and four rounds. -/
example (S : Solver) (Sp : ClampSpline) := C78_recovers 2 S Sp Rotate.still (stopTuning 4) lyotU lyotM 0 0 1 0 (lyot_scene 2 le_rfl S Sp 4 (by norm_num))
  (by show (3 : ℤ) ≤ 3; norm_num) (fun _ => by show (3 : ℤ) % 2 = 1; norm_num)

/-- `C78_recovers`: the overlap has its peak of 169 pixels at magnification 1 and falls by 32 pixels per unit on both sides. -/
example (Sp : ClampSpline) (m : ℝ) (hm : m ∈ magGrid (stopTuning 4) 1) :
    ∃ n : ℕ, LyotMatches Sp Rotate.still (stopTuning 4) lyotM 0 0 0 m n ∧ (n : ℝ) = 169 - 32 * |m - 1| := by
  obtain ⟨h1, h2, h3⟩ := stop_matches Sp 4
  have hl : magGrid (stopTuning 4) 1 = [1 / 2, 1, 3 / 2] := by
    show (spread 1 3).map (fun v : ℝ => 1 + 1 / 2 * v) = _
    simp only [spread, List.range, List.range.loop, List.map_cons, List.map_nil]
    norm_num
  rw [hl] at hm
  simp only [List.mem_cons, List.not_mem_nil, or_false] at hm
  rcases hm with rfl | rfl | rfl
  · exact ⟨153, h1, by norm_num [abs_of_nonpos, abs_of_nonneg]⟩
  · exact ⟨169, h2, by norm_num⟩
  · exact ⟨153, h3, by norm_num [abs_of_nonneg]⟩

/-- `C78_limits`: with a single round. -/
example (S : Solver) (Sp : ClampSpline) := C78_limits 2 S Sp Rotate.still (stopTuning 1) lyotU lyotM 0 0 1 0 (lyot_scene 2 le_rfl S Sp 1 le_rfl) rfl rfl

end Coralign.Props
