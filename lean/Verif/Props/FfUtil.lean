import Verif.Model.FfUtil
import Mathlib.Tactic.Linarith
import Mathlib.Tactic.FieldSimp
import Mathlib.Tactic.Ring
import Mathlib.Tactic.Positivity

/-!
# Properties C26 and C27: `bound_value`, `calc_offset_quadratic`, `calc_offset_linear`
-/

namespace Coralign.Props

open Coralign

/-! ### C26 -/

/-- **C26.** For a non-negative bound the result is the clamp: it lies in `[-m, m]`, equals `x` when `x` does,
and no point of the interval is nearer to `x`. -/
theorem C26_bound_value (x m : ℝ) (hm : 0 ≤ m) :
    ∃ y, boundValue x m = .ok y ∧ -m ≤ y ∧ y ≤ m ∧ (-m ≤ x → x ≤ m → y = x) ∧
      ∀ z, -m ≤ z → z ≤ m → |x - y| ≤ |x - z| := by
  unfold boundValue
  rw [if_neg (by linarith)]
  by_cases h1 : x > m
  · rw [if_pos h1]
    refine ⟨m, rfl, by linarith, le_refl _, fun _ h => by linarith, fun z _ hz => ?_⟩
    rw [abs_of_pos (by linarith), abs_of_pos (by linarith)]; linarith
  · rw [if_neg h1]
    by_cases h2 : x < -m
    · rw [if_pos h2]
      refine ⟨-m, rfl, le_refl _, by linarith, fun h _ => by linarith, fun z hz _ => ?_⟩
      rw [abs_of_neg (by linarith), abs_of_neg (by linarith)]; linarith
    · rw [if_neg h2]
      refine ⟨x, rfl, by linarith, by linarith, fun _ _ => rfl, fun z _ _ => ?_⟩
      rw [sub_self, abs_zero]; exact abs_nonneg _

/-- **C26.** A negative bound raises `ValueError`. -/
theorem C26_negative_bound (x m : ℝ) (hm : m < 0) : boundValue x m = .error .valueError := by
  unfold boundValue; rw [if_pos hm]

theorem boundValue_eq (x m : ℝ) (hm : 0 ≤ m) : boundValue x m = .ok (max (-m) (min m x)) := by
  unfold boundValue
  rw [if_neg (by linarith)]
  by_cases h1 : x > m
  · rw [if_pos h1, min_eq_left (by linarith), max_eq_right (by linarith)]
  · rw [if_neg h1, min_eq_right (by linarith)]
    by_cases h2 : x < -m
    · rw [if_pos h2, max_eq_left (by linarith)]
    · rw [if_neg h2, max_eq_right (by linarith)]

/-- **C26.** The clamp is odd, monotone, idempotent and non-expansive. -/
theorem C26_laws (m : ℝ) (hm : 0 ≤ m) (x x' y y' : ℝ) (h : boundValue x m = .ok y)
    (h' : boundValue x' m = .ok y') :
    boundValue (-x) m = .ok (-y) ∧ (x ≤ x' → y ≤ y') ∧ boundValue y m = .ok y ∧ |y - y'| ≤ |x - x'| := by
  rw [boundValue_eq _ _ hm] at h h' ⊢
  injection h with h
  injection h' with h'
  subst h; subst h'
  refine ⟨?_, ?_, ?_, ?_⟩
  · congr 1
    rcases le_total m x with a | a <;> rcases le_total (-m) x with b | b <;>
      rcases le_total m (-x) with c | c <;> rcases le_total (-m) (-x) with d | d <;>
      simp [a, b, c, d, hm] <;> linarith
  · intro hle
    exact max_le_max le_rfl (min_le_min le_rfl hle)
  · rw [boundValue_eq _ _ hm]
    congr 1
    have h1 : -m ≤ max (-m) (min m x) := le_max_left _ _
    have h2 : max (-m) (min m x) ≤ m := max_le (by linarith) (min_le_left _ _)
    rw [min_eq_right h2, max_eq_right h1]
  · refine le_trans (abs_max_sub_max_le_max _ _ _ _) ?_
    rw [sub_self, abs_zero]
    refine max_le (abs_nonneg _) (le_trans (abs_min_sub_min_le_max _ _ _ _) ?_)
    rw [sub_self, abs_zero]
    exact max_le (abs_nonneg _) le_rfl

example : boundValue (7 / 2) 2 = .ok 2 ∧ boundValue (-5) 2 = .ok (-2) ∧ boundValue 1 2 = .ok 1 := by
  refine ⟨?_, ?_, ?_⟩ <;> unfold boundValue <;> norm_num

/-! ### C27 -/

/-- The value of the quadratic solver for a ratio at least one. -/
theorem calcOffsetQuadratic_ge_one (c1 c2 r : ℝ) (hr : 1 ≤ r) :
    calcOffsetQuadratic c1 c2 r = .ok ((-c1 + Real.sqrt (c1 * c1 - 4 * c2 * (1 - r))) / (2 * c2)) := by
  unfold calcOffsetQuadratic ratioAndSign
  rw [if_neg (by linarith), if_neg (by linarith)]
  simp

/-- **C27.** For `r ≥ 1` and positive coefficients, `calc_offset_quadratic` returns the unique non-negative root
of `c2 x^2 + c1 x + 1 = r`. -/
theorem C27_quadratic_root (c1 c2 r : ℝ) (h1 : 0 < c1) (h2 : 0 < c2) (hr : 1 ≤ r) :
    ∃ x, calcOffsetQuadratic c1 c2 r = .ok x ∧ 0 ≤ x ∧ c2 * x ^ 2 + c1 * x + 1 = r ∧
      ∀ x', 0 ≤ x' → c2 * x' ^ 2 + c1 * x' + 1 = r → x' = x := by
  refine ⟨_, calcOffsetQuadratic_ge_one c1 c2 r hr, ?_⟩
  set s := Real.sqrt (c1 * c1 - 4 * c2 * (1 - r)) with hs
  have hd : 0 ≤ c1 * c1 - 4 * c2 * (1 - r) := by nlinarith [mul_nonneg h2.le (sub_nonneg.mpr hr)]
  have hsq : s ^ 2 = c1 * c1 - 4 * c2 * (1 - r) := Real.sq_sqrt hd
  have hs0 : 0 ≤ s := Real.sqrt_nonneg _
  have hsc : c1 ≤ s := by
    apply Real.le_sqrt_of_sq_le
    nlinarith [mul_nonneg h2.le (sub_nonneg.mpr hr)]
  have hx0 : 0 ≤ (-c1 + s) / (2 * c2) := div_nonneg (by linarith) (by linarith)
  have hroot : c2 * ((-c1 + s) / (2 * c2)) ^ 2 + c1 * ((-c1 + s) / (2 * c2)) + 1 = r := by
    field_simp
    nlinarith
  refine ⟨hx0, hroot, fun x' hx' hroot' => ?_⟩
  have hfac : (x' - (-c1 + s) / (2 * c2)) * (c2 * (x' + (-c1 + s) / (2 * c2)) + c1) = 0 := by
    linear_combination hroot' - hroot
  rcases mul_eq_zero.mp hfac with h | h
  · linarith
  · have : 0 < c2 * (x' + (-c1 + s) / (2 * c2)) + c1 := by positivity
    linarith

/-- **C27.** For `r ≥ 1` and a positive coefficient, `calc_offset_linear` returns the non-negative root of
`c1 x + 1 = r`. -/
theorem C27_linear_root (c1 r : ℝ) (h1 : 0 < c1) (hr : 1 ≤ r) :
    ∃ x, calcOffsetLinear c1 r = .ok x ∧ 0 ≤ x ∧ c1 * x + 1 = r := by
  refine ⟨(r - 1) / c1, ?_, div_nonneg (by linarith) h1.le, ?_⟩
  · unfold calcOffsetLinear ratioAndSign
    rw [if_neg (by linarith), if_neg (by linarith)]
    simp
  · field_simp; ring

theorem ratioAndSign_inv (r : ℝ) (hr : 0 < r) (h1 : r ≠ 1) :
    ratioAndSign (1 / r) = ((ratioAndSign r).1, -(ratioAndSign r).2) := by
  unfold ratioAndSign
  by_cases h : r < 1
  · have : ¬ (1 / r < 1) := by rw [not_lt, le_div_iff₀ hr]; linarith
    rw [if_pos h, if_neg this]
    simp
  · have hgt : 1 < r := lt_of_le_of_ne (not_lt.mp h) (Ne.symm h1)
    have : 1 / r < 1 := by rw [div_lt_one hr]; exact hgt
    rw [if_neg h, if_pos this]
    simp

/-- **C27.** A ratio of exactly one gives offset zero. -/
theorem C27_ratio_one (c1 c2 : ℝ) (h1 : 0 < c1) :
    calcOffsetQuadratic c1 c2 1 = .ok 0 ∧ calcOffsetLinear c1 1 = .ok 0 := by
  constructor
  · rw [calcOffsetQuadratic_ge_one c1 c2 1 le_rfl]
    have : c1 * c1 - 4 * c2 * (1 - 1) = c1 ^ 2 := by ring
    rw [this, Real.sqrt_sq h1.le]
    simp
  · unfold calcOffsetLinear ratioAndSign
    norm_num

/-- **C27.** Replacing the ratio by its inverse negates the answer. -/
theorem C27_inverse_negates (c1 c2 r : ℝ) (h1 : 0 < c1) (hr : 0 < r) (x y : ℝ)
    (hx : calcOffsetQuadratic c1 c2 r = .ok x) (hy : calcOffsetLinear c1 r = .ok y) :
    calcOffsetQuadratic c1 c2 (1 / r) = .ok (-x) ∧ calcOffsetLinear c1 (1 / r) = .ok (-y) := by
  have hr' : ¬ (1 / r ≤ 0) := by have : 0 < 1 / r := by positivity
                                 linarith
  by_cases hone : r = 1
  · subst hone
    obtain ⟨e1, e2⟩ := C27_ratio_one c1 c2 h1
    rw [e1] at hx; rw [e2] at hy
    injection hx with hx; injection hy with hy
    subst hx; subst hy
    simp only [div_one, neg_zero]
    exact ⟨e1, e2⟩
  · unfold calcOffsetQuadratic calcOffsetLinear at *
    rw [if_neg (by linarith)] at hx hy
    rw [if_neg hr', if_neg hr', ratioAndSign_inv r hr hone]
    generalize ratioAndSign r = p at *
    obtain ⟨q, s⟩ := p
    simp only [Except.ok.injEq] at hx hy ⊢
    rw [← hx, ← hy]
    constructor <;> ring

/-- **C27.** Non-positive ratios raise `ValueError`. -/
theorem C27_rejects (c1 c2 r : ℝ) (hr : r ≤ 0) :
    calcOffsetQuadratic c1 c2 r = .error .valueError ∧ calcOffsetLinear c1 r = .error .valueError := by
  unfold calcOffsetQuadratic calcOffsetLinear
  rw [if_pos hr, if_pos hr]
  exact ⟨rfl, rfl⟩

theorem quadratic_mono_ge_one (c1 c2 r r' : ℝ) (h2 : 0 < c2) (hr : 1 ≤ r) (h : r < r') :
    (-c1 + Real.sqrt (c1 * c1 - 4 * c2 * (1 - r))) / (2 * c2)
      < (-c1 + Real.sqrt (c1 * c1 - 4 * c2 * (1 - r'))) / (2 * c2) := by
  have hd : 0 ≤ c1 * c1 - 4 * c2 * (1 - r) := by
    nlinarith [mul_nonneg h2.le (sub_nonneg.mpr hr), mul_self_nonneg c1]
  have : Real.sqrt (c1 * c1 - 4 * c2 * (1 - r)) < Real.sqrt (c1 * c1 - 4 * c2 * (1 - r')) := by
    apply Real.sqrt_lt_sqrt hd
    nlinarith
  apply div_lt_div_of_pos_right _ (by linarith)
  linarith

theorem quadratic_lt_one (c1 c2 r : ℝ) (h0 : 0 < r) (hr : r < 1) :
    calcOffsetQuadratic c1 c2 r
      = .ok (-((-c1 + Real.sqrt (c1 * c1 - 4 * c2 * (1 - 1 / r))) / (2 * c2))) := by
  unfold calcOffsetQuadratic ratioAndSign
  rw [if_neg (by linarith), if_pos hr]
  simp

/-- **C27.** The quadratic answer is strictly increasing in the ratio. -/
theorem C27_quadratic_strictMono (c1 c2 r r' x x' : ℝ) (h1 : 0 < c1) (h2 : 0 < c2) (hr : 0 < r) (h : r < r')
    (hx : calcOffsetQuadratic c1 c2 r = .ok x) (hx' : calcOffsetQuadratic c1 c2 r' = .ok x') : x < x' := by
  by_cases hr1 : r < 1
  · rw [quadratic_lt_one c1 c2 r hr hr1] at hx
    injection hx with hx
    have hinv : 1 < 1 / r := by rw [lt_div_iff₀ hr]; linarith
    by_cases hr2 : r' < 1
    · rw [quadratic_lt_one c1 c2 r' (by linarith) hr2] at hx'
      injection hx' with hx'
      have hinv' : 1 ≤ 1 / r' := by rw [le_div_iff₀ (by linarith)]; linarith
      have hlt : 1 / r' < 1 / r := one_div_lt_one_div_of_lt hr h
      have := quadratic_mono_ge_one c1 c2 _ _ h2 hinv' hlt
      linarith
    · obtain ⟨z, hz, hz0, _⟩ := C27_quadratic_root c1 c2 r' h1 h2 (not_lt.mp hr2)
      rw [hx'] at hz
      injection hz with hz
      have h3 := quadratic_mono_ge_one c1 c2 1 (1 / r) h2 le_rfl hinv
      have h4 : (-c1 + Real.sqrt (c1 * c1 - 4 * c2 * (1 - 1))) / (2 * c2) = 0 := by
        have : c1 * c1 - 4 * c2 * (1 - 1) = c1 ^ 2 := by ring
        rw [this, Real.sqrt_sq h1.le]; simp
      linarith
  · rw [calcOffsetQuadratic_ge_one c1 c2 r (not_lt.mp hr1)] at hx
    rw [calcOffsetQuadratic_ge_one c1 c2 r' (by linarith [not_lt.mp hr1])] at hx'
    injection hx with hx
    injection hx' with hx'
    rw [← hx, ← hx']
    exact quadratic_mono_ge_one c1 c2 r r' h2 (not_lt.mp hr1) h

/-- **C27.** The linear answer is strictly increasing in the ratio. -/
theorem C27_linear_strictMono (c1 r r' x x' : ℝ) (h1 : 0 < c1) (hr : 0 < r) (h : r < r')
    (hx : calcOffsetLinear c1 r = .ok x) (hx' : calcOffsetLinear c1 r' = .ok x') : x < x' := by
  unfold calcOffsetLinear ratioAndSign at hx hx'
  rw [if_neg (by linarith)] at hx hx'
  have key : ∀ a b : ℝ, a < b → a / c1 < b / c1 := fun a b hab => div_lt_div_of_pos_right hab h1
  by_cases hr1 : r < 1
  · have hinv : 1 < 1 / r := by rw [lt_div_iff₀ hr]; linarith
    rw [if_pos hr1] at hx
    injection hx with hx
    by_cases hr2 : r' < 1
    · rw [if_pos hr2] at hx'
      injection hx' with hx'
      rw [← hx, ← hx']
      have hlt : 1 / r' < 1 / r := one_div_lt_one_div_of_lt hr h
      apply key; linarith
    · rw [if_neg hr2] at hx'
      injection hx' with hx'
      rw [← hx, ← hx']
      apply key; linarith
  · rw [if_neg hr1] at hx
    rw [if_neg (by linarith)] at hx'
    injection hx with hx
    injection hx' with hx'
    rw [← hx, ← hx']
    apply key; linarith

example : calcOffsetLinear 2 3 = .ok 1 := by
  unfold calcOffsetLinear ratioAndSign; norm_num
example : ∃ x, calcOffsetQuadratic 1 2 4 = .ok x ∧ 2 * x ^ 2 + 1 * x + 1 = 4 := by
  obtain ⟨x, h, _, h2, _⟩ := C27_quadratic_root 1 2 4 (by norm_num) (by norm_num) (by norm_num)
  exact ⟨x, h, h2⟩

end Coralign.Props
