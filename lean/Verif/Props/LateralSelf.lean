import Verif.Props.Lateral

/-!
# C64: a pupil which already has the shape and position of the reference is left where it is
-/

namespace Coralign.Props

open Coralign Coralign.Spec

/-! ### Quadratic fits to data which do not change under reflection -/

theorem even_fit {ι : Type} [Fintype ι] (X Y B : ι → ℝ) (σ : ι ≃ ι) (hX : ∀ q, X (σ q) = -X q) (hY : ∀ q, Y (σ q) = -Y q)
    (hB : ∀ q, B (σ q) = B q) (p : Fin 6 → ℝ) (hls : IsLeastSq (fun q => quadRow (X q) (Y q)) B p) (q : ι) : p 3 * X q + p 4 * Y q = 0 := by
  have hres : ∀ r : Fin 6 → ℝ, sqResidual (fun q => quadRow (X q) (Y q)) B ![r 0, r 1, r 2, -r 3, -r 4, r 5] =
      sqResidual (fun q => quadRow (X q) (Y q)) B r := by
    intro r
    unfold sqResidual
    rw [← Equiv.sum_comp σ]
    refine Finset.sum_congr rfl fun i _ => ?_
    rw [fitted_quadRow, fitted_quadRow, hX, hY, hB]
    simp
  have hls' : IsLeastSq (fun q => quadRow (X q) (Y q)) B ![p 0, p 1, p 2, -p 3, -p 4, p 5] := by
    intro y
    rw [hres]
    exact hls y
  have := hls.fitted_unique hls' q
  rw [fitted_quadRow, fitted_quadRow] at this
  simp at this
  linarith

theorem trials_length (n : ℕ) (step c : ℝ) : (trials n step c).length = n := by simp [trials]

theorem trials_get (n : ℕ) (step c : ℝ) (i : Fin (trials n step c).length) :
    (trials n step c).get i = c + (((i : ℕ) : ℝ) - ((n : ℝ) - 1) / 2) * step := by
  rw [List.get_eq_getElem]
  simp only [trials, List.getElem_map, List.getElem_range]

theorem trials_get_rev (n : ℕ) (step : ℝ) (i : Fin (trials n step 0).length) : (trials n step 0).get i.rev = -(trials n step 0).get i := by
  have := i.isLt
  have hv : ((i.rev : ℕ) : ℝ) = (n : ℝ) - ((i : ℕ) + 1) := by
    rw [Fin.val_rev, Nat.cast_sub (by omega)]
    simp only [trials_length]
    push_cast
    ring
  rw [trials_get, trials_get, hv]
  ring

/-- A fit to an even function on a grid centred on zero finds zero, or gives up. -/
theorem gridFit_even (S : Solver) (F : ℝ → ℝ → ℝ) (n : ℕ) (hn : 2 ≤ n) (step : ℝ) (hs : step ≠ 0)
    (hF : ∀ x ∈ trials n step 0, ∀ y ∈ trials n step 0, F (-x) (-y) = F x y) :
    gridFit S (trials n step 0) (trials n step 0) ⟨(trials n step 0).length, (trials n step 0).length,
        fun i j => F ((trials n step 0).get j) ((trials n step 0).get i)⟩ = .ok (0, 0) ∨
      gridFit S (trials n step 0) (trials n step 0) ⟨(trials n step 0).length, (trials n step 0).length,
        fun i j => F ((trials n step 0).get j) ((trials n step 0).get i)⟩ = .error .quadraticException := by
  generalize hl : trials n step 0 = l at *
  have hlen : l.length = n := by rw [← hl, trials_length]
  have hrev : ∀ i : Fin l.length, l.get i.rev = -l.get i := by
    subst hl
    exact trials_get_rev n step
  have h01 : l.get ⟨0, by omega⟩ ≠ 0 ∧ l.get ⟨0, by omega⟩ ≠ l.get ⟨1, by omega⟩ := by
    subst hl
    rw [trials_get, trials_get]
    have : (2 : ℝ) ≤ n := by exact_mod_cast hn
    constructor
    · push_cast
      intro h0
      have : -(((n : ℝ) - 1) / 2) * step = 0 := by linarith
      rcases mul_eq_zero.mp this with h | h
      · linarith
      · exact hs h
    · push_cast
      intro h0
      apply hs
      linarith
  set ι := Masked (Arr2.full l.length l.length true) with hι
  let gx : ι → Fin l.length := fun q => q.1.2
  let gy : ι → Fin l.length := fun q => q.1.1
  let p := S.solve (ι := ι) (fun q => quadRow (l.get (gx q)) (l.get (gy q))) (fun q => F (l.get (gx q)) (l.get (gy q)))
  have hls : IsLeastSq (fun q => quadRow (l.get (gx q)) (l.get (gy q))) (fun q => F (l.get (gx q)) (l.get (gy q))) p := S.isLeastSq (ι := ι) _ _
  let σ : ι ≃ ι := ⟨fun q => ⟨(Fin.rev q.1.1, Fin.rev q.1.2), rfl⟩, fun q => ⟨(Fin.rev q.1.1, Fin.rev q.1.2), rfl⟩,
      fun q => Subtype.ext (Prod.ext (Fin.rev_rev _) (Fin.rev_rev _)), fun q => Subtype.ext (Prod.ext (Fin.rev_rev _) (Fin.rev_rev _))⟩
  have hσx : ∀ q, gx (σ q) = (gx q).rev := fun _ => rfl
  have hσy : ∀ q, gy (σ q) = (gy q).rev := fun _ => rfl
  have hpq := even_fit (ι := ι) (fun q => l.get (gx q)) (fun q => l.get (gy q)) (fun q => F (l.get (gx q)) (l.get (gy q)))
    σ (fun q => by rw [hσx]; exact hrev _) (fun q => by rw [hσy]; exact hrev _) (fun q => by
      rw [hσx, hσy, hrev, hrev]
      exact hF _ (List.get_mem _ _) _ (List.get_mem _ _)) p hls
  have hq0 : p 3 * l.get ⟨0, by omega⟩ + p 4 * l.get ⟨0, by omega⟩ = 0 :=
    hpq ⟨(⟨0, by show 0 < l.length; omega⟩, ⟨0, by show 0 < l.length; omega⟩), rfl⟩
  have hq1 : p 3 * l.get ⟨0, by omega⟩ + p 4 * l.get ⟨1, by omega⟩ = 0 :=
    hpq ⟨(⟨1, by show 1 < l.length; omega⟩, ⟨0, by show 0 < l.length; omega⟩), rfl⟩
  have hp4 : p 4 = 0 := by
    have : p 4 * (l.get ⟨0, by omega⟩ - l.get ⟨1, by omega⟩) = 0 := by linarith
    exact (mul_eq_zero.mp this).resolve_right (sub_ne_zero.mpr h01.2)
  have hp3 : p 3 = 0 := by
    rw [hp4, zero_mul, add_zero] at hq0
    exact (mul_eq_zero.mp hq0).resolve_right h01.1
  have e : gridFit S l l ⟨l.length, l.length, fun i j => F (l.get j) (l.get i)⟩ =
      if |p 1 * p 1 - 4 * p 0 * p 2| < 4 * fresolution ∨ |2 * p 2| < 2 * fresolution then .error .quadraticException
      else .ok ((2 * p 2 * p 3 - p 4 * p 1) / (p 1 * p 1 - 4 * p 0 * p 2),
        -(p 1 * ((2 * p 2 * p 3 - p 4 * p 1) / (p 1 * p 1 - 4 * p 0 * p 2)) + p 4) / (2 * p 2)) := by
    unfold gridFit findOptimum2d
    rw [dif_neg (by simp [Arr2.full]), dif_neg (by simp), dif_neg (by simp)]
    rfl
  rw [e, hp3, hp4]
  split_ifs
  · right; rfl
  · left; simp

/-! ### The mismatch of a pupil with itself -/

theorem fieldAt_smul (n : ℕ) (f : ℤ → ℤ → ℝ) (s : ℝ) (u v : ℤ) : fieldAt n (fun p q => s * f p q) u v = s * fieldAt n f u v := by
  unfold fieldAt
  rw [← mul_div_assoc, Finset.mul_sum]
  congr 1
  refine Finset.sum_congr rfl fun p _ => ?_
  rw [Finset.mul_sum]
  refine Finset.sum_congr rfl fun q _ => ?_
  push_cast
  ring

theorem fieldAt_congr (n : ℕ) (f g : ℤ → ℤ → ℝ) (h : ∀ p ∈ window n, ∀ q ∈ window n, f p q = g p q) (u v : ℤ) :
    fieldAt n f u v = fieldAt n g u v := by
  unfold fieldAt
  congr 1
  refine Finset.sum_congr rfl fun p hp => Finset.sum_congr rfl fun q hq => ?_
  rw [h p hp q hq]

theorem norm_turn_sub (s t : ℝ) : ‖(s : ℂ) * Complex.exp (2 * Real.pi * Complex.I * t) - 1‖ ^ 2 =
    (s - 1) ^ 2 + 2 * s * (1 - Real.cos (2 * Real.pi * t)) := by
  have e : Complex.exp (2 * Real.pi * Complex.I * t) = ⟨Real.cos (2 * Real.pi * t), Real.sin (2 * Real.pi * t)⟩ := by
    rw [show (2 * Real.pi * Complex.I * t : ℂ) = ((2 * Real.pi * t : ℝ) : ℂ) * Complex.I by push_cast; ring, Complex.exp_mul_I,
      ← Complex.ofReal_cos, ← Complex.ofReal_sin]
    generalize Real.cos (2 * Real.pi * t) = a
    generalize Real.sin (2 * Real.pi * t) = b
    apply Complex.ext <;> simp
  rw [e, ← Complex.normSq_eq_norm_sq, Complex.normSq_apply]
  simp
  linear_combination s ^ 2 * Real.sin_sq_add_cos_sq (2 * Real.pi * t)

theorem mismatch_self (n c : ℕ) (h s : ℝ) (f g : ℤ → ℤ → ℝ) (hfg : ∀ p ∈ window n, ∀ q ∈ window n, f p q = s * g p q) (dx dy : ℝ) :
    mismatch n c h f g dx dy = ∑ u ∈ window c ∩ window n, ∑ v ∈ window c ∩ window n,
      ‖fieldAt n g u v‖ ^ 2 * ((s - 1) ^ 2 + 2 * s * (1 - Real.cos (2 * Real.pi * ((dx * (v - h) + dy * (u - h)) / n)))) := by
  unfold mismatch
  refine Finset.sum_congr rfl fun u _ => Finset.sum_congr rfl fun v _ => ?_
  rw [fieldAt_congr n f (fun p q => s * g p q) hfg, fieldAt_smul, ← norm_turn_sub, ← mul_pow, ← norm_mul]
  congr 2
  push_cast
  ring

theorem mismatch_self_even (n c : ℕ) (h s : ℝ) (f g : ℤ → ℤ → ℝ) (hfg : ∀ p ∈ window n, ∀ q ∈ window n, f p q = s * g p q) (dx dy : ℝ) :
    mismatch n c h f g (-dx) (-dy) = mismatch n c h f g dx dy := by
  rw [mismatch_self n c h s f g hfg, mismatch_self n c h s f g hfg]
  refine Finset.sum_congr rfl fun u _ => Finset.sum_congr rfl fun v _ => ?_
  rw [show 2 * Real.pi * ((-dx * (v - h) + -dy * (u - h)) / n) = -(2 * Real.pi * ((dx * (v - h) + dy * (u - h)) / n)) by ring, Real.cos_neg]

theorem mismatch_self_lt (n c : ℕ) (h s : ℝ) (hs : 0 < s) (f g : ℤ → ℤ → ℝ) (hfg : ∀ p ∈ window n, ∀ q ∈ window n, f p q = s * g p q)
    (dx dy : ℝ) (hr : Resolves n c h g dx dy) : mismatch n c h f g 0 0 < mismatch n c h f g dx dy := by
  rw [mismatch_self n c h s f g hfg, mismatch_self n c h s f g hfg]
  have hle : ∀ u v : ℤ, ‖fieldAt n g u v‖ ^ 2 * ((s - 1) ^ 2 + 2 * s * (1 - Real.cos (2 * Real.pi * ((0 * ((v : ℝ) - h) + 0 * (u - h)) / n)))) ≤
      ‖fieldAt n g u v‖ ^ 2 * ((s - 1) ^ 2 + 2 * s * (1 - Real.cos (2 * Real.pi * ((dx * (v - h) + dy * (u - h)) / n)))) := by
    intro u v
    refine mul_le_mul_of_nonneg_left ?_ (sq_nonneg _)
    simp only [zero_mul, add_zero, zero_div, mul_zero, Real.cos_zero]
    have := Real.cos_le_one (2 * Real.pi * ((dx * (v - h) + dy * (u - h)) / n))
    nlinarith
  obtain ⟨u, hu, v, hv, hf, he⟩ := hr
  refine Finset.sum_lt_sum (fun u _ => Finset.sum_le_sum fun v _ => hle u v) ⟨u, hu, Finset.sum_lt_sum (fun v _ => hle u v) ⟨v, hv, ?_⟩⟩
  refine mul_lt_mul_of_pos_left ?_ (by positivity)
  simp only [zero_mul, add_zero, zero_div, mul_zero, Real.cos_zero]
  have hc : Real.cos (2 * Real.pi * ((dx * (v - h) + dy * (u - h)) / n)) ≠ 1 := by
    intro h1
    apply he
    have e := norm_turn_sub 1 ((dx * (v - h) + dy * (u - h)) / n)
    rw [h1] at e
    norm_num at e
    have := sub_eq_zero.mp e
    rw [← this]
  have := lt_of_le_of_ne (Real.cos_le_one _) hc
  nlinarith

/-! ### The loop -/

theorem lateralLoop_even (S : Solver) (F : ℝ → ℝ → ℝ) (n nIter : ℕ) (hn : 3 ≤ n) (hF : ∀ x y, F (-x) (-y) = F x y) (left iter : ℕ)
    (hi : iter = 0 → nIter ≤ 1) (d : ℝ) (hd : d ≠ 0) :
    lateralLoop S F n nIter left iter d (0, 0) = .ok (0, 0) ∨ lateralLoop S F n nIter left iter d (0, 0) = .error .quadraticException := by
  induction left generalizing iter d with
  | zero => left; rfl
  | succ left ih =>
    have hd' : (if iter > 1 then d / 2 else d) ≠ 0 := by
      split_ifs
      · exact div_ne_zero hd two_ne_zero
      · exact hd
    generalize hD : (if iter > 1 then d / 2 else d) = D at *
    have hi' : ¬ (iter = 0 ∧ nIter > 1) := fun h => by have := hi h.1; omega
    have e : lateralLoop S F n nIter (left + 1) iter d (0, 0) =
        (gridFit S (trials n D 0) (trials n D 0) ⟨(trials n D 0).length, (trials n D 0).length, fun i j => F ((trials n D 0).get j)
          ((trials n D 0).get i)⟩ >>= fun sol => lateralLoop S F n nIter left (iter + 1) D sol) := by
      conv_lhs => unfold lateralLoop
      simp only [hD, search_trials n hn, if_neg hi']
      rw [costGrid_ok _ _ _ F (fun x _ y _ => rfl), res_ok_bind]
    rw [e]
    rcases gridFit_even S F n (by omega) D hd' (fun x _ y _ => hF x y) with h | h
    · rw [h, res_ok_bind]
      exact ih (iter + 1) (by omega) D hd'
    · right
      rw [h]
      rfl

theorem zero_mem_trials (n : ℕ) (ho : n % 2 = 1) (d : ℝ) : (0 : ℝ) ∈ trials n d 0 := by
  unfold trials
  refine List.mem_map.mpr ⟨n / 2, List.mem_range.mpr (by omega), ?_⟩
  have : (n : ℝ) = 2 * ((n / 2 : ℕ) : ℝ) + 1 := by exact_mod_cast (by omega : n = 2 * (n / 2) + 1)
  rw [show (((n / 2 : ℕ) : ℝ) - ((n : ℝ) - 1) / 2) = 0 by rw [this]; ring]
  ring

theorem lateralLoop_even_first (S : Solver) (F : ℝ → ℝ → ℝ) (n nIter : ℕ) (hn : 3 ≤ n) (hF : ∀ x y, F (-x) (-y) = F x y) (d : ℝ) (hd : d ≠ 0)
    (h1 : 1 < nIter → n % 2 = 1 ∧ ∀ x ∈ trials n d 0, ∀ y ∈ trials n d 0, (x, y) ≠ (0, 0) → F 0 0 < F x y) :
    lateralLoop S F n nIter nIter 0 d (0, 0) = .ok (0, 0) ∨ lateralLoop S F n nIter nIter 0 d (0, 0) = .error .quadraticException := by
  by_cases hI : nIter ≤ 1
  · exact lateralLoop_even S F n nIter hn hF nIter 0 (fun _ => hI) d hd
  · obtain ⟨ho, hlt⟩ := h1 (by omega)
    obtain ⟨m, rfl⟩ : ∃ m, nIter = m + 1 := ⟨nIter - 1, by omega⟩
    have hc : (True ∧ m + 1 > 1) := ⟨trivial, by omega⟩
    have e : lateralLoop S F n (m + 1) (m + 1) 0 d (0, 0) = lateralLoop S F n (m + 1) m 1 d (0, 0) := by
      conv_lhs => unfold lateralLoop
      simp only [if_neg (show ¬ (0 > 1) by omega), search_trials n hn]
      rw [costGrid_ok _ _ _ F (fun x _ y _ => rfl), res_ok_bind, if_pos hc, res_ok_bind]
      obtain ⟨g1, g2, g3⟩ := gridArgmin_spec (trials n d 0) (trials n d 0) F (trials_ne_nil n (by omega) d 0) (trials_ne_nil n (by omega) d 0)
      generalize gridArgmin (trials n d 0) (trials n d 0) _ = b at g1 g2 g3
      have hb : b = (0, 0) := by
        by_contra hb
        have := g3 0 (zero_mem_trials n ho d) 0 (zero_mem_trials n ho d)
        have := hlt b.1 g1 b.2 g2 hb
        linarith
      rw [hb]
    rw [e]
    exact lateralLoop_even S F n (m + 1) hn hF m 1 (by omega) d hd

/-- **C64 (fixed point).**  If the measured pupil, inside the padded window and about the coarse offset, is the reference times a
positive factor, the search answers that coarse offset exactly or reports that no paraboloid fits; it never moves the pupil.  A search of
several iterations starts from the best grid point: it needs an odd number of steps, so that no displacement is among the trials, and
displacements that the central frequencies can tell from none. -/
theorem C64_fixed_point (S : Solver) (meas ref : Arr2 ℝ) (diam : ℝ) (nSteps : ℤ) (d : ℝ) (nPad nFocus nIter : ℤ) (xC yC : ℤ)
    (h : LateralArgs diam nSteps d nPad nFocus nIter) (h3 : 3 ≤ nSteps) (s : ℝ) (hs : 0 < s)
    (hm : ∀ p ∈ window nPad.toNat, ∀ q ∈ window nPad.toNat, at0 meas (p + yC) (q + xC) = s * at0 ref p q)
    (h1 : 1 < nIter → nSteps % 2 = 1 ∧ ∀ x ∈ trials nSteps.toNat d 0, ∀ y ∈ trials nSteps.toNat d 0, (x, y) ≠ (0, 0) →
      Resolves nPad.toNat nFocus.toNat (halfSample nPad.toNat) (at0 ref) x y) :
    computeLateralOffsets S meas ref diam nSteps d nPad nFocus nIter xC yC = .ok ((yC : ℝ), (xC : ℝ)) ∨
      computeLateralOffsets S meas ref diam nSteps d nPad nFocus nIter xC yC = .error .quadraticException := by
  rw [lateral_eq S meas ref diam nSteps d nPad nFocus nIter xC yC h, npRound_intCast, npRound_intCast]
  rcases lateralLoop_even_first S (mismatch nPad.toNat nFocus.toNat (halfSample nPad.toNat) (fun p q => at0 meas (p + yC) (q + xC)) (at0 ref))
    nSteps.toNat nIter.toNat (by omega) (mismatch_self_even _ _ _ s _ _ hm) d h.pixel.ne' (fun hI => by
      obtain ⟨ho, hr⟩ := h1 (by omega)
      exact ⟨by omega, fun x hx y hy hxy => mismatch_self_lt _ _ _ s hs _ _ hm x y (hr x hx y hy hxy)⟩) with e | e
  · left
    rw [e]
    show Except.ok _ = Except.ok _
    simp
  · right
    rw [e]
    rfl

/-- The displaced cross of `C64`, seen from its true position and searched in three iterations, meets the hypotheses. -/
example (S : Solver) : computeLateralOffsets S crossMeas crossRef 4 3 1 4 3 3 ((1 : ℤ) : ℝ) ((0 : ℤ) : ℝ) = .ok (((0 : ℤ) : ℝ), ((1 : ℤ) : ℝ)) ∨
    computeLateralOffsets S crossMeas crossRef 4 3 1 4 3 3 ((1 : ℤ) : ℝ) ((0 : ℤ) : ℝ) = .error .quadraticException := by
  refine C64_fixed_point S crossMeas crossRef 4 3 1 4 3 3 1 0 ⟨by norm_num, by norm_num, by norm_num, by norm_num, by norm_num, by norm_num⟩
    (by norm_num) 1 one_pos (fun p hp q hq => by rw [crossMeas_at0 p q hp hq, crossRef_at0 p q hp hq, one_mul]) fun _ => ⟨by norm_num, ?_⟩
  intro x hx y hy hxy
  have get : ∀ z ∈ trials 3 1 0, ∃ k : ℤ, z = k ∧ -1 ≤ k ∧ k ≤ 1 := by
    intro z hz
    obtain ⟨k, hk, rfl⟩ := List.mem_map.mp hz
    have := List.mem_range.mp hk
    refine ⟨(k : ℤ) - 1, ?_, by omega, by omega⟩
    push_cast
    ring
  obtain ⟨X, rfl, hX⟩ := get x hx
  obtain ⟨Y, rfl, hY⟩ := get y hy
  have hs : halfSample 4 = 0 := by unfold halfSample; norm_num
  have fr := fun (u v : ℤ) hu hv => cross_field (at0 crossRef) (fun p hp q hq => crossRef_at0 p q hp hq) u v hu hv
  have ex : ∀ u v : ℤ, Complex.exp (2 * Real.pi * Complex.I * ((((X : ℝ) : ℂ) * ((v : ℂ) - ((0 : ℝ) : ℂ)) + ((Y : ℝ) : ℂ) * ((u : ℂ) - ((0 : ℝ) : ℂ))) / ((4 : ℕ) : ℂ))) =
      Complex.I ^ (X * v + Y * u) := by
    intro u v
    rw [← turn_int]
    congr 1
    push_cast
    ring
  have ne1 : ∀ k : ℤ, -1 ≤ k ∧ k ≤ 1 → k ≠ 0 → Complex.I ^ k ≠ 1 := by
    intro k hk h0 h1
    have := turn_cost k hk
    rw [h1] at this
    have hk2 : (k : ℝ) ^ 2 = 0 := by norm_num at this; exact this ▸ by norm_num
    exact h0 (by exact_mod_cast pow_eq_zero_iff (two_ne_zero) |>.mp hk2)
  show Resolves 4 3 (halfSample 4) (at0 crossRef) X Y
  rw [hs]
  have hw : ∀ u : ℤ, -1 ≤ u ∧ u ≤ 1 → u ∈ window 3 ∩ window 4 := by
    intro u hu
    rw [window_34]
    simp only [Finset.mem_insert, Finset.mem_singleton]
    omega
  by_cases h0 : X = 0
  · refine ⟨1, hw 1 (by omega), 0, hw 0 (by omega), ?_, ?_⟩
    · rw [fr 1 0 (by omega) (by omega)]; norm_num
    · rw [ex]
      refine ne1 _ (by omega) fun h => hxy ?_
      rw [show Y = 0 by omega, h0]
      norm_num
  · refine ⟨0, hw 0 (by omega), 1, hw 1 (by omega), ?_, ?_⟩
    · rw [fr 0 1 (by omega) (by omega)]; norm_num
    · rw [ex]
      exact ne1 _ (by omega) (by omega)

end Coralign.Props
