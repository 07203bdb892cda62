import Verif.Props.MaskFit

/-!
# C77: a case in which the hypotheses of the theorems hold
-/

namespace Coralign.Props

open Coralign Coralign.Spec

/-! ### Thresholds and normalisation -/

/-- A map without pixels in the last bin but one is accepted. -/
theorem ampthresh_of_gap (a : Arr2 ℝ) (lo hi : ℝ) (hlt : lo < hi) (hex : Extremes a.pixels lo hi)
    (hgap : ∀ v ∈ a.pixels, v = hi ∨ v < lo + 19 * ((hi - lo) / 21)) : ∃ m, ampthresh a 21 = .ok m := by
  have huniq : ∀ l h, Extremes a.pixels l h → l = lo ∧ h = hi := by
    rintro l h ⟨hl, hh, hb⟩
    exact ⟨le_antisymm (hb _ hex.1).1 (hex.2.2 _ hl).1, le_antisymm (hex.2.2 _ hh).2 (hb _ hex.2.1).2⟩
  have hmin : InteriorMinimum a.pixels lo hi 21 19 := by
    refine ⟨by omega, by omega, _, _, _, rfl, rfl, rfl, ?_⟩
    have e0 : (a.pixels.filter fun v => lo + ((19 : ℕ) : ℝ) * ((hi - lo) / ((21 : ℕ) : ℝ)) ≤ v ∧
        (v < lo + (((19 : ℕ) : ℝ) + 1) * ((hi - lo) / ((21 : ℕ) : ℝ)) ∨ (19 + 1 = 21 ∧ v = hi))) = [] := by
      rw [List.filter_eq_nil_iff]
      intro v hv hc
      simp only [decide_eq_true_eq] at hc
      push_cast at hc
      rcases hgap v hv with rfl | h
      · rcases hc.2 with h | h
        · linarith
        · exact absurd h.1 (by norm_num)
      · linarith [hc.1]
    rw [e0]
    refine ⟨Nat.zero_le _, List.length_pos_of_mem (a := hi) ?_⟩
    rw [List.mem_filter]
    refine ⟨hex.2.1, ?_⟩
    simp only [decide_eq_true_eq]
    refine ⟨?_, Or.inr ⟨trivial, trivial⟩⟩
    push_cast
    linarith
  cases h : ampthresh a 21 with
  | error e =>
    exfalso
    rcases ((C12_error_iff a _).2.mp ⟨e, h⟩) with h1 | h1 | ⟨l, u, hx, h1⟩
    · omega
    · have := hex.1; rw [h1] at this; cases this
    · obtain ⟨rfl, rfl⟩ := huniq l u hx
      rcases h1 with h1 | h1
      · exact hlt.ne h1
      · exact h1 _ hmin
  | ok m => exact ⟨m, rfl⟩

/-- An accepted map has a normalisation factor, above its darkest pixel and not above its brightest. -/
theorem normBy_exists (a : Arr2 ℝ) (m : Arr2 Bool) (hm : ampthresh a 21 = .ok m) (p : ℝ) (hp : 0 ≤ p ∧ p ≤ 100) (top : ℝ)
    (htop : ∀ i j, a.val i j ≤ top) : ∃ f, NormBy a a p f ∧ f ≤ top := by
  obtain ⟨hr, hc, th, lo, hi, he, -, hthi, hpx, -⟩ := C12_threshold_mask a 21 m hm
  obtain ⟨n, k, g⟩ := a
  obtain ⟨n', k', b⟩ := m
  simp only at hr hc
  subst hr
  subst hc
  have hargs : NormArgs (fun i j => if b i j = true then (1 : ℝ) else 0) p := by
    refine ⟨fun i j => ?_, ?_, hp.1, hp.2⟩
    · simp only; split_ifs <;> simp
    · obtain ⟨i, j, hv⟩ := (mem_pixels_val _ hi).mp he.2.1
      refine ⟨i, j, ?_⟩
      have := hpx (i : ℕ) (j : ℕ)
      rw [Arr2.px_val (a := ⟨n', k', b⟩) i j, Arr2.px_val (a := ⟨n', k', g⟩) i j] at this
      simp only [Option.map_some, Option.some.injEq] at this
      have hv' : g i j = hi := hv
      rw [hv', decide_eq_true hthi] at this
      simp only
      rw [if_pos this]
  obtain ⟨r, hr, -, ⟨i, j, -, hle⟩⟩ := C53_range g (fun i j => if b i j = true then (1 : ℝ) else 0) p hargs
  exact ⟨r, ⟨_, hm, hr⟩, hle.trans (htop i j)⟩

/-! ### The field of a cross -/

theorem bar_sum (n : ℕ) (u : ℤ) (hu : |u| < n) :
    ∑ p ∈ window n, Complex.exp (-2 * Real.pi * Complex.I * ((u * p : ℂ) / n)) = if u = 0 then (n : ℂ) else 0 := by
  have hn : (n : ℂ) ≠ 0 := by
    have : 0 < n := by have := abs_nonneg u; omega
    exact_mod_cast this.ne'
  split_ifs with h
  · subst h
    simp only [Int.cast_zero, zero_mul, zero_div, mul_zero, Complex.exp_zero, Finset.sum_const]
    unfold window
    rw [Int.card_Ico]
    simp
  · set z := Complex.exp (-2 * Real.pi * Complex.I * ((u : ℂ) / n)) with hz
    have hz0 : z ≠ 0 := Complex.exp_ne_zero _
    have e : ∀ p : ℤ, Complex.exp (-2 * Real.pi * Complex.I * ((u * p : ℂ) / n)) = z ^ p := by
      intro p
      rw [hz, ← Complex.exp_int_mul]
      congr 1
      ring
    simp only [e]
    rw [← sum_spec_window n (fun p => z ^ p), Fin.sum_univ_eq_sum_range (fun i => z ^ ((i : ℤ) - (n : ℤ) / 2))]
    simp only [zpow_sub₀ hz0, zpow_natCast]
    rw [← Finset.sum_div]
    have hzn : z ^ n = 1 := by
      rw [hz, ← Complex.exp_nat_mul, Complex.exp_eq_one_iff]
      exact ⟨-u, by push_cast; field_simp⟩
    have hz1 : z ≠ 1 := by
      intro h1
      rw [hz, Complex.exp_eq_one_iff] at h1
      obtain ⟨m, hm⟩ := h1
      have hpi : (Real.pi : ℂ) ≠ 0 := by exact_mod_cast Real.pi_ne_zero
      have : (2 * Real.pi * Complex.I : ℂ) * (u + m * n) = 0 := by
        have h2 : (n : ℂ) * (-2 * Real.pi * Complex.I * ((u : ℂ) / n)) = n * (m * (2 * Real.pi * Complex.I)) := by rw [hm]
        field_simp at h2
        linear_combination (-2 * Real.pi * Complex.I : ℂ) * h2
      rcases mul_eq_zero.mp this with h3 | h3
      · exact absurd h3 (by simp [Complex.I_ne_zero, hpi])
      · have h4 : u + m * n = 0 := by exact_mod_cast h3
        have hm0 : m ≠ 0 := by rintro rfl; simp at h4; exact h h4
        have : (n : ℤ) ≤ |u| := by
          rw [show u = -(m * n) by linarith, abs_neg, abs_mul, Nat.abs_cast]
          have := Int.one_le_abs hm0
          nlinarith [Int.natCast_nonneg n]
        omega
    rw [geom_sum_eq hz1, hzn]
    simp

theorem bars_field (n : ℕ) (s : ℝ) (D : ℤ) (f : ℤ → ℤ → ℝ) (h0 : (0 : ℤ) ∈ window n) (hD : D ∈ window n)
    (hf : ∀ p ∈ window n, ∀ q ∈ window n, f p q = s * ((if p = 0 then 1 else 0) + (if q = D then 1 else 0))) (u v : ℤ) (hu : |u| < n) (hv : |v| < n) :
    fieldAt n f u v = s * ((if v = 0 then 1 else 0) + (if u = 0 then Complex.exp (-2 * Real.pi * Complex.I * ((v * D : ℂ) / n)) else 0)) := by
  have hn : (n : ℂ) ≠ 0 := by
    have : 0 < n := by have := abs_nonneg u; omega
    exact_mod_cast this.ne'
  unfold fieldAt
  have e : ∀ p ∈ window n, ∀ q ∈ window n, (f p q : ℂ) * Complex.exp (-2 * Real.pi * Complex.I * ((u * p + v * q) / n)) =
      (if p = 0 then s * Complex.exp (-2 * Real.pi * Complex.I * ((v * q : ℂ) / n)) else 0) +
      (if q = D then s * Complex.exp (-2 * Real.pi * Complex.I * ((v * D : ℂ) / n)) * Complex.exp (-2 * Real.pi * Complex.I * ((u * p : ℂ) / n)) else 0) := by
    intro p hp q hq
    have hsplit : Complex.exp (-2 * Real.pi * Complex.I * ((u * p + v * q : ℂ) / n)) =
        Complex.exp (-2 * Real.pi * Complex.I * ((v * q : ℂ) / n)) * Complex.exp (-2 * Real.pi * Complex.I * ((u * p : ℂ) / n)) := by
      rw [← Complex.exp_add]
      congr 1
      ring
    rw [hf p hp q hq, hsplit]
    by_cases h1 : p = 0 <;> by_cases h2 : q = D <;> simp [h1, h2] <;> ring
  rw [Finset.sum_congr rfl fun p hp => Finset.sum_congr rfl fun q hq => e p hp q hq]
  simp only [Finset.sum_add_distrib]
  rw [Finset.sum_comm]
  simp only [Finset.sum_ite_eq', h0, hD, if_true]
  rw [← Finset.mul_sum, ← Finset.mul_sum, bar_sum n u hu, bar_sum n v hv]
  split_ifs <;> field_simp <;> ring

theorem norm_turn_sub2 (s r t : ℝ) : ‖(s : ℂ) * Complex.exp (2 * Real.pi * Complex.I * t) - r‖ ^ 2 =
    (s - r) ^ 2 + 2 * s * r * (1 - Real.cos (2 * Real.pi * t)) := by
  have e : Complex.exp (2 * Real.pi * Complex.I * t) = ⟨Real.cos (2 * Real.pi * t), Real.sin (2 * Real.pi * t)⟩ := by
    rw [show (2 * Real.pi * Complex.I * t : ℂ) = ((2 * Real.pi * t : ℝ) : ℂ) * Complex.I by push_cast; ring, Complex.exp_mul_I,
      ← Complex.ofReal_cos, ← Complex.ofReal_sin]
    generalize Real.cos (2 * Real.pi * t) = a
    generalize Real.sin (2 * Real.pi * t) = b
    apply Complex.ext <;> simp
  rw [e, ← Complex.normSq_eq_norm_sq, Complex.normSq_apply]
  simp
  linear_combination s ^ 2 * Real.sin_sq_add_cos_sq (2 * Real.pi * t)

theorem window_36 : window 3 ∩ window 6 = {-1, 0, 1} := by
  ext p
  rw [Finset.mem_inter, mem_window, mem_window]
  simp only [Finset.mem_insert, Finset.mem_singleton]
  constructor
  · intro h; omega
  · intro h; rcases h with rfl | rfl | rfl <;> norm_num

/-- The mismatch of two crosses whose vertical bars are at columns `D` and `D'`. -/
theorem bars_mismatch (s r : ℝ) (D D' : ℤ) (f g : ℤ → ℤ → ℝ) (hD : D ∈ window 6) (hD' : D' ∈ window 6)
    (hf : ∀ p ∈ window 6, ∀ q ∈ window 6, f p q = s * ((if p = 0 then 1 else 0) + (if q = D then 1 else 0)))
    (hg : ∀ p ∈ window 6, ∀ q ∈ window 6, g p q = r * ((if p = 0 then 1 else 0) + (if q = D' then 1 else 0))) (dx dy : ℝ) :
    mismatch 6 3 (halfSample 6) f g dx dy = 8 * (s - r) ^ 2 + 4 * s * r * (1 - Real.cos (2 * Real.pi * ((dx - (D - D')) / 6))) +
      4 * s * r * (1 - Real.cos (2 * Real.pi * (dy / 6))) := by
  have hs : halfSample 6 = 0 := by unfold halfSample; norm_num
  have h0 : (0 : ℤ) ∈ window 6 := by rw [mem_window]; norm_num
  have ff : ∀ u v : ℤ, |u| < 6 → |v| < 6 → _ := fun u v hu hv => bars_field 6 s D f h0 hD hf u v hu hv
  have gg : ∀ u v : ℤ, |u| < 6 → |v| < 6 → _ := fun u v hu hv => bars_field 6 r D' g h0 hD' hg u v hu hv
  unfold mismatch
  rw [hs, window_36]
  have three : ∀ h : ℤ → ℝ, ∑ p ∈ ({-1, 0, 1} : Finset ℤ), h p = h (-1) + h 0 + h 1 := by
    intro h
    rw [Finset.sum_insert (by decide), Finset.sum_insert (by decide), Finset.sum_singleton]
    ring
  -- a column frequency
  have colterm : ∀ v : ℤ, v = 1 ∨ v = -1 → ‖fieldAt 6 f 0 v * Complex.exp (2 * Real.pi * Complex.I * ((dx * (v - (0 : ℝ)) + dy * ((0 : ℤ) - (0 : ℝ))) / (6 : ℕ))) -
      fieldAt 6 g 0 v‖ ^ 2 = (s - r) ^ 2 + 2 * s * r * (1 - Real.cos (2 * Real.pi * ((dx - (D - D')) / 6))) := by
    intro v hv
    rw [ff 0 v (by norm_num) (by rcases hv with rfl | rfl <;> norm_num), gg 0 v (by norm_num) (by rcases hv with rfl | rfl <;> norm_num)]
    have hv0 : v ≠ 0 := by rcases hv with rfl | rfl <;> norm_num
    rw [if_neg hv0, if_pos rfl, if_pos rfl, zero_add, zero_add]
    have hN : ‖Complex.exp (-2 * Real.pi * Complex.I * ((v * D' : ℂ) / (6 : ℕ)))‖ = 1 := by
      rw [show (-2 * Real.pi * Complex.I * ((v * D' : ℂ) / (6 : ℕ))) = 2 * Real.pi * Complex.I * ((-(v * D' / 6) : ℝ) : ℂ) by push_cast; ring]
      exact norm_exp_turn _
    have e : (s : ℂ) * Complex.exp (-2 * Real.pi * Complex.I * ((v * D : ℂ) / (6 : ℕ))) *
          Complex.exp (2 * Real.pi * Complex.I * ((dx * (v - (0 : ℝ)) + dy * ((0 : ℤ) - (0 : ℝ))) / (6 : ℕ))) -
        r * Complex.exp (-2 * Real.pi * Complex.I * ((v * D' : ℂ) / (6 : ℕ))) =
        Complex.exp (-2 * Real.pi * Complex.I * ((v * D' : ℂ) / (6 : ℕ))) *
          ((s : ℂ) * Complex.exp (2 * Real.pi * Complex.I * (((v : ℝ) * ((dx - (D - D')) / 6) : ℝ) : ℂ)) - r) := by
      have hE : Complex.exp (-2 * Real.pi * Complex.I * ((v * D : ℂ) / (6 : ℕ))) *
          Complex.exp (2 * Real.pi * Complex.I * ((dx * (v - (0 : ℝ)) + dy * ((0 : ℤ) - (0 : ℝ))) / (6 : ℕ))) =
          Complex.exp (-2 * Real.pi * Complex.I * ((v * D' : ℂ) / (6 : ℕ))) *
          Complex.exp (2 * Real.pi * Complex.I * (((v : ℝ) * ((dx - (D - D')) / 6) : ℝ) : ℂ)) := by
        rw [← Complex.exp_add, ← Complex.exp_add]
        congr 1
        push_cast
        ring
      linear_combination (s : ℂ) * hE
    rw [e, norm_mul, hN, one_mul, norm_turn_sub2]
    congr 3
    rcases hv with rfl | rfl
    · congr 1; push_cast; ring
    · rw [← Real.cos_neg]; congr 1; push_cast; ring
  have rowterm : ∀ u : ℤ, u = 1 ∨ u = -1 → ‖fieldAt 6 f u 0 * Complex.exp (2 * Real.pi * Complex.I * ((dx * ((0 : ℤ) - (0 : ℝ)) + dy * (u - (0 : ℝ))) / (6 : ℕ))) -
      fieldAt 6 g u 0‖ ^ 2 = (s - r) ^ 2 + 2 * s * r * (1 - Real.cos (2 * Real.pi * (dy / 6))) := by
    intro u hu
    rw [ff u 0 (by rcases hu with rfl | rfl <;> norm_num) (by norm_num), gg u 0 (by rcases hu with rfl | rfl <;> norm_num) (by norm_num)]
    have hu0 : u ≠ 0 := by rcases hu with rfl | rfl <;> norm_num
    rw [if_pos rfl, if_neg hu0, if_neg hu0, add_zero, mul_one, mul_one]
    rw [show (2 * Real.pi * Complex.I * ((dx * ((0 : ℤ) - (0 : ℝ)) + dy * (u - (0 : ℝ))) / (6 : ℕ)) : ℂ) =
      2 * Real.pi * Complex.I * (((u : ℝ) * (dy / 6) : ℝ) : ℂ) by push_cast; ring, norm_turn_sub2]
    congr 3
    rcases hu with rfl | rfl
    · congr 1; push_cast; ring
    · rw [← Real.cos_neg]; congr 1; push_cast; ring
  have cornerterm : ∀ u v : ℤ, (u = 1 ∨ u = -1) → (v = 1 ∨ v = -1) → ∀ w : ℂ, ‖fieldAt 6 f u v * w - fieldAt 6 g u v‖ ^ 2 = 0 := by
    intro u v hu hv w
    have hu0 : u ≠ 0 := by rcases hu with rfl | rfl <;> norm_num
    have hv0 : v ≠ 0 := by rcases hv with rfl | rfl <;> norm_num
    rw [ff u v (by rcases hu with rfl | rfl <;> norm_num) (by rcases hv with rfl | rfl <;> norm_num),
      gg u v (by rcases hu with rfl | rfl <;> norm_num) (by rcases hv with rfl | rfl <;> norm_num), if_neg hu0, if_neg hv0, if_neg hu0]
    simp
  have centre : ‖fieldAt 6 f 0 0 * Complex.exp (2 * Real.pi * Complex.I * ((dx * ((0 : ℤ) - (0 : ℝ)) + dy * ((0 : ℤ) - (0 : ℝ))) / (6 : ℕ))) - fieldAt 6 g 0 0‖ ^ 2 =
      4 * (s - r) ^ 2 := by
    rw [ff 0 0 (by norm_num) (by norm_num), gg 0 0 (by norm_num) (by norm_num)]
    simp only [Int.cast_zero, Complex.ofReal_zero, sub_zero, mul_zero, add_zero, zero_div, zero_mul, Complex.exp_zero, if_true, mul_one]
    rw [← sub_mul, norm_mul, ← Complex.ofReal_sub, Complex.norm_real, mul_pow, Real.norm_eq_abs, sq_abs]
    norm_num
    ring
  simp only [three]
  rw [cornerterm (-1) (-1) (Or.inr rfl) (Or.inr rfl), cornerterm (-1) 1 (Or.inr rfl) (Or.inl rfl), cornerterm 1 (-1) (Or.inl rfl) (Or.inr rfl),
    cornerterm 1 1 (Or.inl rfl) (Or.inl rfl), colterm 1 (Or.inl rfl), colterm (-1) (Or.inr rfl), rowterm 1 (Or.inl rfl), rowterm (-1) (Or.inr rfl), centre]
  ring

/-! ### The scene -/

/-- The pupil: a bright square of 9 x 9 pixels in an image of 11 x 11. -/
noncomputable def sceneU : Arr2 ℝ := ⟨11, 11, fun i j => if (1 ≤ (i : ℕ) ∧ (i : ℕ) ≤ 9) ∧ (1 ≤ (j : ℕ) ∧ (j : ℕ) ≤ 9) then 1 else 0⟩

/-- The mask: two bars which cross at the centre, with transmission one half outside the crossing. -/
noncomputable def crossMask : Arr2 ℝ := ⟨11, 11, fun i j => ((if (i : ℕ) = 5 then 1 else 0) + (if (j : ℕ) = 5 then 1 else 0)) / 2⟩

/-- The image of the pupil through the mask displaced by `k` columns. -/
noncomputable def sceneM (k : ℕ) : Arr2 ℝ := ⟨11, 11, fun i j => if (1 ≤ (i : ℕ) ∧ (i : ℕ) ≤ 9) ∧ (1 ≤ (j : ℕ) ∧ (j : ℕ) ≤ 9) then
  (((if (i : ℕ) = 5 then 1 else 0) + (if (j : ℕ) = 5 + k then 1 else 0)) / 2) ^ 2 else 0⟩

theorem scene_at0 (f : Fin 11 → Fin 11 → ℝ) (p q : ℤ) (hp : -5 ≤ p ∧ p ≤ 5) (hq : -5 ≤ q ∧ q ≤ 5) :
    at0 (⟨11, 11, f⟩ : Arr2 ℝ) p q = f ⟨(5 + p).toNat, by omega⟩ ⟨(5 + q).toNat, by omega⟩ := by
  unfold at0 Arr2.centered
  have := Arr2.px_of_inB (⟨11, 11, f⟩ : Arr2 ℝ) (i := ((11 : ℕ) : ℤ) / 2 + p) (j := ((11 : ℕ) : ℤ) / 2 + q) (by
    show (0 ≤ ((11 : ℕ) : ℤ) / 2 + p ∧ ((11 : ℕ) : ℤ) / 2 + p < ((11 : ℕ) : ℤ)) ∧ (0 ≤ ((11 : ℕ) : ℤ) / 2 + q ∧ ((11 : ℕ) : ℤ) / 2 + q < ((11 : ℕ) : ℤ))
    omega)
  refine (congrArg (fun o => o.getD 0) this).trans ?_
  rfl

theorem sceneU_at0 (p q : ℤ) (hp : p ∈ window 6) (hq : q ∈ window 6) : at0 sceneU p q = 1 := by
  rw [mem_window] at hp hq
  unfold sceneU
  rw [scene_at0 _ p q (by omega) (by omega)]
  refine if_pos ?_
  show (1 ≤ (5 + p).toNat ∧ (5 + p).toNat ≤ 9) ∧ (1 ≤ (5 + q).toNat ∧ (5 + q).toNat ≤ 9)
  omega

theorem crossMask_at0 (p q : ℤ) (hp : -5 ≤ p ∧ p ≤ 5) (hq : -5 ≤ q ∧ q ≤ 5) :
    at0 crossMask p q = ((if p = 0 then 1 else 0) + (if q = 0 then 1 else 0)) / 2 := by
  unfold crossMask
  rw [scene_at0 _ p q hp hq]
  simp only [show ((5 + p).toNat = 5) = (p = 0) by apply propext; omega, show ((5 + q).toNat = 5) = (q = 0) by apply propext; omega]

theorem sceneM_at0 (k : ℕ) (p q : ℤ) (hp : p ∈ window 6) (hq : q ∈ window 6) :
    at0 (sceneM k) p q = (((if p = 0 then 1 else 0) + (if q = k then 1 else 0)) / 2) ^ 2 := by
  rw [mem_window] at hp hq
  unfold sceneM
  rw [scene_at0 _ p q (by omega) (by omega)]
  simp only [show ((5 + p).toNat = 5) = (p = 0) by apply propext; omega, show ((5 + q).toNat = 5 + k) = (q = k) by apply propext; omega]
  refine if_pos ?_
  omega

theorem sceneU_norm (p : ℝ) (hp : 0 ≤ p ∧ p ≤ 100) : ∃ f, NormBy sceneU sceneU p f ∧ 0 < f ∧ f ≤ 1 := by
  have h01 : ∀ i j, sceneU.val i j = 0 ∨ sceneU.val i j = 1 := by
    intro i j
    show (if _ then (1 : ℝ) else 0) = 0 ∨ (if _ then (1 : ℝ) else 0) = 1
    split_ifs <;> simp
  have hlo : (0 : ℝ) ∈ sceneU.pixels := by
    refine (mem_pixels_val sceneU 0).mpr ⟨(0 : Fin 11), (0 : Fin 11), ?_⟩
    simp [sceneU]
  have hhi : (1 : ℝ) ∈ sceneU.pixels := by
    refine (mem_pixels_val sceneU 1).mpr ⟨(5 : Fin 11), (5 : Fin 11), ?_⟩
    simp [sceneU]
  obtain ⟨m, hm, -⟩ := C12_two_level sceneU 21 0 1 one_pos (by norm_num) (fun v hv => by
    obtain ⟨i, j, rfl⟩ := (mem_pixels_val sceneU v).mp hv
    exact h01 i j) hlo hhi
  obtain ⟨f, hf, hle⟩ := normBy_exists sceneU m hm p hp 1 (fun i j => by rcases h01 i j with h | h <;> rw [h] <;> norm_num)
  exact ⟨f, hf, normBy_pos sceneU (fun i j => by rcases h01 i j with h | h <;> rw [h] <;> norm_num) p f hf, hle⟩

theorem sceneM_norm (k : ℕ) (hk : k ≤ 4) (p : ℝ) (hp : 0 ≤ p ∧ p ≤ 100) : ∃ f, NormBy (sceneM k) (sceneM k) p f ∧ 0 < f ∧ f ≤ 1 := by
  have h01 : ∀ i j, (sceneM k).val i j = 0 ∨ (sceneM k).val i j = 1 / 4 ∨ (sceneM k).val i j = 1 := by
    intro i j
    show (if _ then (_ : ℝ) else 0) = 0 ∨ (if _ then (_ : ℝ) else 0) = 1 / 4 ∨ (if _ then (_ : ℝ) else 0) = 1
    split_ifs <;> norm_num
  have hbd : ∀ i j, 0 ≤ (sceneM k).val i j ∧ (sceneM k).val i j ≤ 1 := by
    intro i j
    rcases h01 i j with h | h | h <;> rw [h] <;> norm_num
  have hlo : (0 : ℝ) ∈ (sceneM k).pixels := by
    refine (mem_pixels_val (sceneM k) 0).mpr ⟨(0 : Fin 11), (0 : Fin 11), ?_⟩
    simp [sceneM]
  have hhi : (1 : ℝ) ∈ (sceneM k).pixels := by
    refine (mem_pixels_val (sceneM k) 1).mpr ⟨(5 : Fin 11), (⟨5 + k, by omega⟩ : Fin 11), ?_⟩
    simp [sceneM]
    omega
  obtain ⟨m, hm⟩ := ampthresh_of_gap (sceneM k) 0 1 one_pos ⟨hlo, hhi, fun v hv => by
    obtain ⟨i, j, rfl⟩ := (mem_pixels_val (sceneM k) v).mp hv
    exact hbd i j⟩ (fun v hv => by
    obtain ⟨i, j, rfl⟩ := (mem_pixels_val (sceneM k) v).mp hv
    rcases h01 i j with h | h | h <;> rw [h] <;> norm_num)
  obtain ⟨f, hf, hle⟩ := normBy_exists (sceneM k) m hm p hp 1 (fun i j => (hbd i j).2)
  exact ⟨f, hf, normBy_pos (sceneM k) (fun i j => (hbd i j).1) p f hf, hle⟩

/-- The reference mask, at full size and not clocked, moved `D` columns. -/
theorem crossMask_reference (Sp : ClampSpline) (R : Rotate) (D : ℤ) (hD : 0 ≤ D ∧ D ≤ 1) :
    ∃ ref, IsReference Sp R crossMask 0 1 D 0 (6 / 5) 11 11 ref ∧ (∀ i j, 0 ≤ ref.val i j) ∧
      ∀ p q : ℤ, (-4 ≤ p ∧ p ≤ 4) → (-4 ≤ q ∧ q ≤ 4) → at0 ref p q = ((if p = 0 then 1 else 0) + (if q = D then 1 else 0)) / 2 := by
  have hmax : max crossMask.nr crossMask.nc = 11 := rfl
  obtain ⟨d, hd⟩ := (C60_accepts Sp R crossMask 0 1 D 0 (6 / 5) false).mpr ⟨by norm_num, by norm_num, by norm_num, by rw [hmax]; norm_num⟩
  obtain ⟨hsq, -, hbig, -⟩ := C60_even_square Sp R crossMask 0 1 D 0 (6 / 5) false d hd
  have hbig' : (16 : ℤ) ≤ d.nr := by
    rw [hmax] at hbig
    have h0 : 0 ≤ max |(D : ℝ)| |(0 : ℝ)| := le_max_of_le_left (abs_nonneg _)
    have : (16 : ℝ) ≤ (d.nr : ℝ) := by
      refine le_trans ?_ hbig
      generalize max |(D : ℝ)| |(0 : ℝ)| = t at h0
      push_cast
      linarith
    exact_mod_cast this
  have hsh : ∀ u v : ℤ, Reaches d.nr d.nc u v → d.centered u v = some (at0 crossMask u (v - D)) := by
    intro u v hR
    have := C60_shift Sp R crossMask D 0 (6 / 5) false (by rw [hmax]; norm_num) d (by rw [Int.cast_zero]; exact hd) u v hR
    rw [sub_zero] at this
    rw [this]
    rfl
  refine ⟨embed d 11 11 0, ⟨d, hd, padCrop_eq d 11 11 0 (by norm_num) (by norm_num)⟩, ?_, ?_⟩
  · refine val_of_at0 (P := fun v => 0 ≤ v) fun p q => ?_
    unfold at0
    by_cases hR : Reaches 11 11 p q
    · rw [embed_centered _ _ _ _ hR, Option.getD_some, hsh p q (by unfold Reaches at hR ⊢; omega), Option.getD_some]
      refine at0_of_val (P := fun v => 0 ≤ v) le_rfl (fun i j => ?_) p (q - D)
      show 0 ≤ ((if _ then (1 : ℝ) else 0) + (if _ then (1 : ℝ) else 0)) / 2
      positivity
    · rw [centered_eq_none]
      · exact le_rfl
      · exact hR
  · intro p q hp hq
    have hR : Reaches 11 11 p q := by unfold Reaches; omega
    unfold at0
    rw [embed_centered _ _ _ _ hR, Option.getD_some, hsh p q (by unfold Reaches at hR ⊢; omega), Option.getD_some, crossMask_at0 _ _ (by omega) (by omega)]
    simp only [sub_eq_zero]

/-- The tuning parameters of the example: windows of 6 x 6 pixels, 3 x 3 frequencies, 3 x 3 displacements one pixel apart. -/
noncomputable def crossTuning (rounds : ℤ) : MaskTuning := ⟨6, 3, 3, 1, rounds, 1, 50, 10, crossMask⟩

theorem third_cos (k : ℤ) (hk : -2 ≤ k ∧ k ≤ 1) : 1 - Real.cos (2 * Real.pi * ((k : ℝ) / 6)) = if k = 0 then 0 else if k = -2 then 3 / 2 else 1 / 2 := by
  have h1 : Real.cos (2 * Real.pi * (1 / 6)) = 1 / 2 := by rw [show 2 * Real.pi * (1 / 6) = Real.pi / 3 by ring, Real.cos_pi_div_three]
  obtain rfl | rfl | rfl | rfl : k = -2 ∨ k = -1 ∨ k = 0 ∨ k = 1 := by omega
  · rw [if_neg (by norm_num), if_pos rfl]
    rw [show 2 * Real.pi * (((-2 : ℤ) : ℝ) / 6) = -(2 * (2 * Real.pi * (1 / 6))) by push_cast; ring, Real.cos_neg, Real.cos_two_mul, h1]
    norm_num
  · rw [if_neg (by norm_num), if_neg (by norm_num)]
    rw [show 2 * Real.pi * (((-1 : ℤ) : ℝ) / 6) = -(2 * Real.pi * (1 / 6)) by push_cast; ring, Real.cos_neg, h1]
    norm_num
  · simp
  · rw [if_neg (by norm_num), if_neg (by norm_num)]
    rw [show 2 * Real.pi * (((1 : ℤ) : ℝ) / 6) = (2 * Real.pi * (1 / 6)) by push_cast; ring, h1]
    norm_num

/-- What the comparison finds: with the mask assumed at the centre it overshoots by half, with the mask assumed in place it finds nothing. -/
theorem cross_displaced (S : Solver) (Sp : ClampSpline) (R : Rotate) (rounds D : ℤ) (hD : 0 ≤ D ∧ D ≤ 1) :
    Displaced S Sp R (crossTuning rounds) sceneU (sceneM 1) 0 0 10 1 0 D 0 (3 / 2 * (1 - D)) 0 := by
  obtain ⟨fu, hfu, hfu0, hfu1⟩ := sceneU_norm 50 (by norm_num)
  obtain ⟨fm, hfm, hfm0, hfm1⟩ := sceneM_norm 1 (by norm_num) 50 (by norm_num)
  obtain ⟨ref, href, -, hrefv⟩ := crossMask_reference Sp R D hD
  have hr0 : npRound (0 : ℝ) = 0 := by have := npRound_intCast (K := ℝ) 0; simpa using this
  let b : Arr2 ℝ := ⟨6, 6, fun i j => 1 / (2 * Real.sqrt fu) * ((if ((i : ℕ) : ℤ) - (6 : ℕ) / 2 = 0 then 1 else 0) + (if ((j : ℕ) : ℤ) - (6 : ℕ) / 2 = D then 1 else 0))⟩
  let a : Arr2 ℝ := ⟨6, 6, fun i j => 1 / (2 * Real.sqrt fm) * ((if ((i : ℕ) : ℤ) - (6 : ℕ) / 2 = 0 then 1 else 0) + (if ((j : ℕ) : ℤ) - (6 : ℕ) / 2 = 1 then 1 else 0))⟩
  have hb : ∀ p ∈ window 6, ∀ q ∈ window 6, at0 b p q = 1 / (2 * Real.sqrt fu) * ((if p = 0 then 1 else 0) + (if q = D then 1 else 0)) := fun p hp q hq =>
    at0_window 6 (fun p q => 1 / (2 * Real.sqrt fu) * ((if p = 0 then 1 else 0) + (if q = D then 1 else 0))) p q hp hq
  have ha : ∀ p ∈ window 6, ∀ q ∈ window 6, at0 a p q = 1 / (2 * Real.sqrt fm) * ((if p = 0 then 1 else 0) + (if q = 1 then 1 else 0)) := fun p hp q hq =>
    at0_window 6 (fun p q => 1 / (2 * Real.sqrt fm) * ((if p = 0 then 1 else 0) + (if q = 1 then 1 else 0))) p q hp hq
  have hsu := Real.sqrt_pos.mpr hfu0
  have hsm := Real.sqrt_pos.mpr hfm0
  refine ⟨fu, fm, ref, a, b, hfu, hfm, ?_, ⟨rfl, rfl, ?_⟩, ⟨rfl, rfl, ?_⟩, ?_⟩
  · show IsReference Sp R crossMask 0 (10 * 1 / 10) (D + 0) (0 + 0) (6 / 5) 11 11 ref
    rwa [show (10 : ℝ) * 1 / 10 = 1 by norm_num, add_zero, add_zero]
  · intro p hp q hq
    have hp' : p ∈ window 6 := hp
    have hq' : q ∈ window 6 := hq
    rw [ha p hp' q hq', hr0, add_zero, add_zero, sceneM_at0 1 p q hp' hq', Nat.cast_one]
    generalize hX : ((if p = 0 then 1 else 0) + (if q = 1 then 1 else 0) : ℝ) = X
    have hX0 : 0 ≤ X := by rw [← hX]; positivity
    rw [max_eq_left (by positivity), Real.sqrt_div (by positivity), Real.sqrt_sq (by positivity)]
    field_simp
  · intro p hp q hq
    have hp' : p ∈ window 6 := hp
    have hq' : q ∈ window 6 := hq
    rw [hb p hp' q hq', hr0, add_zero, add_zero, sceneU_at0 p q hp' hq', hrefv p q (by rw [mem_window] at hp'; omega) (by rw [mem_window] at hq'; omega), max_eq_left (by positivity), Real.sqrt_div (by positivity), Real.sqrt_one]
    field_simp
  · have hsr : 1 / 4 ≤ 1 / (2 * Real.sqrt fm) * (1 / (2 * Real.sqrt fu)) := by
      have h1 : Real.sqrt fu ≤ 1 := Real.sqrt_le_one.mpr hfu1
      have h2 : Real.sqrt fm ≤ 1 := Real.sqrt_le_one.mpr hfm1
      have h3 : (1 : ℝ) / 2 ≤ 1 / (2 * Real.sqrt fu) := by rw [div_le_div_iff₀ (by norm_num) (by positivity)]; linarith
      have h4 : (1 : ℝ) / 2 ≤ 1 / (2 * Real.sqrt fm) := by rw [div_le_div_iff₀ (by norm_num) (by positivity)]; linarith
      nlinarith
    have := C64_quadratic S a b 10 3 1 6 3 1 0 0 ⟨by norm_num, by norm_num, by norm_num, by norm_num, by norm_num, by norm_num⟩ (by norm_num)
      (3 / 2 * (1 - D)) 0 ?_
    · rw [Int.cast_zero, zero_add, zero_add] at this
      exact this
    rintro cx cy step (⟨rfl, rfl, rfl⟩ | ⟨h, -⟩ | ⟨k, h, h', -⟩)
    · have hf1 : fresolution < 1 / 100 := by norm_num [fresolution]
      generalize hs : 1 / (2 * Real.sqrt fm) = s at hsr ha
      generalize hr : 1 / (2 * Real.sqrt fu) = r at hsr hb
      have hFm := bars_mismatch s r 1 D (fun p q => at0 a (p + 0) (q + 0)) (at0 b) (by rw [mem_window]; norm_num) (by rw [mem_window]; omega)
        (fun p hp q hq => by simp only [add_zero]; exact ha p hp q hq) hb
      have get : ∀ z ∈ trials 3 1 0, ∃ k : ℤ, z = k ∧ -1 ≤ k ∧ k ≤ 1 := by
        intro z hz
        obtain ⟨k, hk, rfl⟩ := List.mem_map.mp hz
        have := List.mem_range.mp hk
        refine ⟨(k : ℤ) - 1, ?_, by omega, by omega⟩
        push_cast
        ring
      obtain rfl | rfl : D = 0 ∨ D = 1 := by omega
      · refine ⟨s * r, 0, 2 * (s * r), 8 * (s - r) ^ 2 - s * r / 4, ?_, ?_, fun x hx y hy => ?_⟩
        · rw [show (0 : ℝ) * 0 - 4 * (s * r) * (2 * (s * r)) = -(8 * (s * r) ^ 2) by ring, abs_neg, abs_of_nonneg (by positivity)]
          nlinarith
        · rw [abs_of_nonneg (by linarith)]
          linarith
        · obtain ⟨X, rfl, hX⟩ := get x hx
          obtain ⟨Y, rfl, hY⟩ := get y hy
          refine (hFm X Y).trans ?_
          have e1 := third_cos (X - 1) (by omega)
          have e2 := third_cos Y (by omega)
          rw [show (((X : ℝ) - (((1 : ℤ) : ℝ) - ((0 : ℤ) : ℝ))) / 6) = (((X - 1 : ℤ) : ℝ) / 6) by push_cast; ring, e1, e2]
          obtain rfl | rfl | rfl : X = -1 ∨ X = 0 ∨ X = 1 := by omega
          all_goals obtain rfl | rfl | rfl : Y = -1 ∨ Y = 0 ∨ Y = 1 := by omega
          all_goals norm_num
          all_goals ring
      · refine ⟨2 * (s * r), 0, 2 * (s * r), 8 * (s - r) ^ 2, ?_, ?_, fun x hx y hy => ?_⟩
        · rw [show (0 : ℝ) * 0 - 4 * (2 * (s * r)) * (2 * (s * r)) = -(16 * (s * r) ^ 2) by ring, abs_neg, abs_of_nonneg (by positivity)]
          nlinarith
        · rw [abs_of_nonneg (by linarith)]
          linarith
        · obtain ⟨X, rfl, hX⟩ := get x hx
          obtain ⟨Y, rfl, hY⟩ := get y hy
          refine (hFm X Y).trans ?_
          have e1 := third_cos X (by omega)
          have e2 := third_cos Y (by omega)
          rw [show (((X : ℝ) - (((1 : ℤ) : ℝ) - ((1 : ℤ) : ℝ))) / 6) = ((X : ℝ) / 6) by push_cast; ring, e1, e2]
          obtain rfl | rfl | rfl : X = -1 ∨ X = 0 ∨ X = 1 := by omega
          all_goals obtain rfl | rfl | rfl : Y = -1 ∨ Y = 0 ∨ Y = 1 := by omega
          all_goals norm_num
          all_goals ring
    · exact absurd h (by norm_num)
    · omega

/-- The displaced cross is found exactly, for any number of rounds, with the gain 2/3 that matches the overshoot. -/
example (S : Solver) (Sp : ClampSpline) (R : Rotate) (rounds : ℤ) (hr : 1 ≤ rounds) :
    fitPupilMaskOffsets S Sp R (crossTuning rounds) sceneU (sceneM 1) (2 / 3) 0 0 10 1 0 = .ok (1, 0) := by
  refine C77_matched_gain S Sp R (crossTuning rounds) sceneU (sceneM 1) (2 / 3) 0 0 10 1 0 rfl rfl (by norm_num) (by norm_num) (by norm_num)
    (by show (0 : ℤ) < 6; norm_num) hr 1 0 ?_ fun _ => ?_
  · have := cross_displaced S Sp R rounds 0 (by norm_num)
    norm_num at this ⊢
    exact this
  · have := cross_displaced S Sp R rounds 1 (by norm_num)
    norm_num at this ⊢
    exact this

/-- With gain 1 the first round overshoots. -/
example (S : Solver) (Sp : ClampSpline) (R : Rotate) : fitPupilMaskOffsets S Sp R (crossTuning 1) sceneU (sceneM 1) 1 0 0 10 1 0 = .ok (3 / 2, 0) := by
  have h0 := cross_displaced S Sp R 1 0 (by norm_num)
  have hU := sceneU_norm 50 (by norm_num)
  have hM := sceneM_norm 1 (by norm_num) 50 (by norm_num)
  have := C77_gain S Sp R (crossTuning 1) sceneU (sceneM 1) 1 0 0 10 1 0 rfl rfl (by norm_num) (by norm_num) (by norm_num)
    (by show (0 : ℤ) < 6; norm_num) 1 rfl (hU.imp fun _ h => h.1) (hM.imp fun _ h => h.1) (3 / 2) 1 0 (fun k hk => by
      obtain rfl : k = 0 := by omega
      norm_num at h0 ⊢
      exact h0)
  rw [this]
  norm_num

/-- The square pupil seen through the mask in its place meets the hypotheses of `C77_fixed_point`. -/
example (Sp : ClampSpline) (R : Rotate) : ∃ (ref : Arr2 ℝ) (fu fm : ℝ), NormBy sceneU sceneU 50 fu ∧
    NormBy (sceneM 0) (sceneM 0) 50 fm ∧ 0 < fu ∧ IsReference Sp R crossMask 0 (10 * 1 / 10) 0 0 (6 / 5) 11 11 ref ∧ (∀ i j, 0 ≤ ref.val i j) ∧
    ∀ p q, at0 (sceneM 0) p q = 1 * max (at0 sceneU p q) 0 * at0 ref p q ^ 2 := by
  obtain ⟨fu, hfu, hfu0, -⟩ := sceneU_norm 50 (by norm_num)
  obtain ⟨fm, hfm, -, -⟩ := sceneM_norm 0 (by norm_num) 50 (by norm_num)
  obtain ⟨ref, href, h0, hrefv⟩ := crossMask_reference Sp R 0 (by norm_num)
  refine ⟨ref, fu, fm, hfu, hfm, hfu0, ?_, h0, fun p q => ?_⟩
  · rw [Int.cast_zero] at href
    rwa [show (10 : ℝ) * 1 / 10 = 1 by norm_num]
  · by_cases hpq : (-4 ≤ p ∧ p ≤ 4) ∧ (-4 ≤ q ∧ q ≤ 4)
    · rw [hrefv p q hpq.1 hpq.2]
      unfold sceneM sceneU
      rw [scene_at0 _ p q (by omega) (by omega), scene_at0 _ p q (by omega) (by omega)]
      simp only [show ((5 + p).toNat = 5) = (p = 0) by apply propext; omega, show ((5 + q).toNat = 5 + 0) = (q = 0) by apply propext; omega]
      have hin : (1 ≤ (5 + p).toNat ∧ (5 + p).toNat ≤ 9) ∧ (1 ≤ (5 + q).toNat ∧ (5 + q).toNat ≤ 9) := by omega
      rw [if_pos hin, if_pos hin, max_eq_left zero_le_one, one_mul, one_mul]
    · by_cases hin : (-5 ≤ p ∧ p ≤ 5) ∧ (-5 ≤ q ∧ q ≤ 5)
      · unfold sceneM sceneU
        rw [scene_at0 _ p q hin.1 hin.2, scene_at0 _ p q hin.1 hin.2]
        simp only
        have hout : ¬ ((1 ≤ (5 + p).toNat ∧ (5 + p).toNat ≤ 9) ∧ (1 ≤ (5 + q).toNat ∧ (5 + q).toNat ≤ 9)) := by omega
        rw [if_neg hout, if_neg hout, max_self, mul_zero, zero_mul]
      · have hz : ∀ f : Fin 11 → Fin 11 → ℝ, at0 (⟨11, 11, f⟩ : Arr2 ℝ) p q = 0 := by
          intro f
          unfold at0
          rw [centered_eq_none]
          · rfl
          · show ¬ Reaches ((11 : ℕ) : ℤ) ((11 : ℕ) : ℤ) p q
            unfold Reaches
            omega
        unfold sceneM sceneU
        rw [hz, hz]
        norm_num

end Coralign.Props
