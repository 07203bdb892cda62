import Verif.Model.ThinFilm
import Mathlib.Tactic.Linarith
import Mathlib.Tactic.FieldSimp
import Mathlib.Tactic.Ring
import Mathlib.Tactic.NormNum
import Mathlib.Tactic.LinearCombination
import Mathlib.Analysis.SpecialFunctions.Trigonometric.Basic
import Mathlib.Analysis.SpecialFunctions.Trigonometric.DerivHyp
import Mathlib.Analysis.SpecialFunctions.Trigonometric.Bounds

/-!
# Lemmas about the thin-film transfer matrix
-/

namespace Coralign

open Matrix

/-- Plane-wave amplitudes to tangential fields, in a medium with reduced wavenumber `k`. -/
noncomputable def fieldMat (k : ℂ) : Matrix (Fin 2) (Fin 2) ℂ := !![1, 1; k, -k]

/-- The characteristic matrix of a layer with reduced wavenumber `k` and phase thickness `p`. -/
noncomputable def layerMat (k p : ℂ) : Matrix (Fin 2) (Fin 2) ℂ :=
  !![Complex.cos p, -Complex.I * Complex.sin p / k; -Complex.I * k * Complex.sin p, Complex.cos p]

theorem layerMat_zero (k : ℂ) : layerMat k 0 = 1 := by
  ext i j; fin_cases i <;> fin_cases j <;> simp [layerMat]

theorem layerMat_add (k p q : ℂ) (hk : k ≠ 0) : layerMat k (p + q) = layerMat k p * layerMat k q := by
  have hI := Complex.I_mul_I
  ext i j
  fin_cases i <;> fin_cases j <;>
    simp [layerMat, Matrix.mul_apply, Fin.sum_univ_two, Complex.cos_add, Complex.sin_add]
  · field_simp
    linear_combination (-Complex.sin p * Complex.sin q) * hI
  · field_simp; ring
  · ring
  · field_simp
    linear_combination (-Complex.sin p * Complex.sin q) * hI

theorem exp_negI (p : ℂ) : Complex.exp (-Complex.I * p) = Complex.cos p - Complex.I * Complex.sin p := by
  rw [show -Complex.I * p = (-p) * Complex.I by ring, Complex.exp_mul_I, Complex.cos_neg, Complex.sin_neg]; ring

theorem exp_posI (p : ℂ) : Complex.exp (Complex.I * p) = Complex.cos p + Complex.I * Complex.sin p := by
  rw [show Complex.I * p = p * Complex.I by ring, Complex.exp_mul_I]; ring

/-- One loop factor, in terms of tangential fields. -/
theorem field_step (kz d k1 k2 : ℂ) (h1 : k1 ≠ 0) (h2 : k1 + k2 ≠ 0) :
    fieldMat k1 * tfStep kz d k1 k2 = layerMat k1 (kz * d) * fieldMat k2 := by
  ext i j
  fin_cases i <;> fin_cases j <;>
    simp only [tfStep, fieldMat, layerMat, Matrix.mul_apply, Fin.sum_univ_two, mul_assoc, exp_negI, exp_posI] <;>
    simp only [Fin.zero_eta, Fin.mk_one, Matrix.smul_apply, Matrix.of_apply, Matrix.cons_val', Matrix.cons_val_zero,
      Matrix.cons_val_one, Matrix.cons_val_fin_one, smul_eq_mul] <;>
    field_simp <;> ring

/-- The product of the loop, by recursion over the media with their thicknesses. -/
noncomputable def tfRec (kx : ℂ) (lam : ℝ) (tetm : Bool) : List (ℂ × ℝ) → Matrix (Fin 2) (Fin 2) ℂ
  | [] => 1
  | [_] => 1
  | a :: b :: l => tfStep (tfKz kx lam a.1) (a.2 : ℝ) (tfKzz kx lam tetm a.1) (tfKzz kx lam tetm b.1) * tfRec kx lam tetm (b :: l)

theorem tfMatrix_eq_rec (kx : ℂ) (lam : ℝ) (tetm : Bool) (l : List (ℂ × ℝ)) :
    tfMatrix (l.map Prod.fst) (l.map Prod.snd) kx lam tetm = tfRec kx lam tetm l := by
  have key : ∀ (g : ℕ → Matrix (Fin 2) (Fin 2) ℂ) (m : List ℕ) (A : Matrix (Fin 2) (Fin 2) ℂ),
      m.foldl (fun A i => A * g i) A = A * (m.map g).prod := by
    intro g m
    induction m with
    | nil => intro A; simp
    | cons i m ih => intro A; rw [List.foldl_cons, ih, List.map_cons, List.prod_cons, mul_assoc]
  unfold tfMatrix
  rw [key, one_mul]
  induction l with
  | nil => simp [tfRec]
  | cons a l ih =>
    cases l with
    | nil => simp [tfRec]
    | cons b l =>
      rw [tfRec, ← ih]
      simp only [List.map_cons, List.length_cons, List.length_map, Nat.add_sub_cancel]
      rw [List.range_succ_eq_map, List.map_cons, List.prod_cons, List.map_map]
      simp only [List.getD_cons_zero, List.getD_cons_succ, zero_add]
      rfl

/-- The characteristic matrix of a stack of layers. -/
noncomputable def stackMat (kx : ℂ) (lam : ℝ) (tetm : Bool) (l : List (ℂ × ℝ)) : Matrix (Fin 2) (Fin 2) ℂ :=
  (l.map fun a => layerMat (tfKzz kx lam tetm a.1) (tfKz kx lam a.1 * (a.2 : ℝ))).prod

/-- A reduced wavenumber on the code's branch. -/
def GoodK (k : ℂ) : Prop := k.re < 0 ∨ (k.re = 0 ∧ k.im < 0)

theorem GoodK.ne {k : ℂ} (h : GoodK k) : k ≠ 0 := by
  rintro rfl; rcases h with h | h <;> simp at h

theorem GoodK.add {k l : ℂ} (h : GoodK k) (h' : GoodK l) : GoodK (k + l) := by
  unfold GoodK at *
  simp only [Complex.add_re, Complex.add_im]
  rcases h with h | h <;> rcases h' with h' | h'
  · left; linarith
  · left; linarith [h'.1]
  · left; linarith [h.1]
  · right; exact ⟨by linarith [h.1, h'.1], by linarith [h.2, h'.2]⟩

theorem field_rec (kx : ℂ) (lam : ℝ) (tetm : Bool) (a : ℂ × ℝ) (l : List (ℂ × ℝ)) (s : ℂ × ℝ)
    (h : ∀ b ∈ a :: l ++ [s], GoodK (tfKzz kx lam tetm b.1)) :
    fieldMat (tfKzz kx lam tetm a.1) * tfRec kx lam tetm (a :: l ++ [s]) =
      stackMat kx lam tetm (a :: l) * fieldMat (tfKzz kx lam tetm s.1) := by
  induction l generalizing a with
  | nil =>
    have ha := h a (by simp)
    have hs := h s (by simp)
    simp only [List.cons_append, List.nil_append, tfRec, mul_one, stackMat, List.map_cons, List.map_nil, List.prod_cons,
      List.prod_nil]
    exact field_step _ _ _ _ ha.ne (ha.add hs).ne
  | cons b l ih =>
    have ha := h a (by simp)
    have hb := h b (by simp)
    have := ih b (fun c hc => h c (by simp at hc ⊢; tauto))
    simp only [List.cons_append] at this ⊢
    rw [tfRec, ← mul_assoc, field_step _ _ _ _ ha.ne (ha.add hb).ne, mul_assoc, this, ← mul_assoc]
    simp only [stackMat, List.map_cons, List.prod_cons, mul_assoc]

theorem stackMat_append (kx : ℂ) (lam : ℝ) (tetm : Bool) (l m : List (ℂ × ℝ)) :
    stackMat kx lam tetm (l ++ m) = stackMat kx lam tetm l * stackMat kx lam tetm m := by
  simp [stackMat]

theorem stackMat_cons (kx : ℂ) (lam : ℝ) (tetm : Bool) (a : ℂ × ℝ) (m : List (ℂ × ℝ)) :
    stackMat kx lam tetm (a :: m) = layerMat (tfKzz kx lam tetm a.1) (tfKz kx lam a.1 * (a.2 : ℝ)) * stackMat kx lam tetm m := by
  simp [stackMat]

/-! ### The square root branch -/

theorem csqrt_sq (z : ℂ) : csqrt z * csqrt z = z := by
  unfold csqrt
  rw [← pow_two]
  exact_mod_cast Complex.cpow_nat_inv_pow z (n := 2) (by norm_num)

theorem csqrt_re (z : ℂ) : 0 ≤ (csqrt z).re := by
  unfold csqrt; rw [Complex.cpow_inv_two_re]; positivity

/-- The root lies in the right half plane, or on the positive imaginary axis. -/
theorem csqrt_good (z : ℂ) (hz : z ≠ 0) : 0 < (csqrt z).re ∨ ((csqrt z).re = 0 ∧ 0 < (csqrt z).im) := by
  rcases (csqrt_re z).lt_or_eq with h | h
  · exact Or.inl h
  · right
    refine ⟨h.symm, ?_⟩
    have h2 := congrArg Complex.re (csqrt_sq z)
    have h3 := congrArg Complex.im (csqrt_sq z)
    simp only [Complex.mul_re, Complex.mul_im, ← h, zero_mul, mul_zero, add_zero, zero_sub] at h2 h3
    have him : 0 ≤ z.im := h3.le
    have : (csqrt z).im = √((‖z‖ - z.re) / 2) := by unfold csqrt; exact Complex.cpow_inv_two_im_eq_sqrt him
    have h0 : 0 ≤ (csqrt z).im := by rw [this]; positivity
    rcases h0.lt_or_eq with h4 | h4
    · exact h4
    · exfalso
      apply hz
      rw [← csqrt_sq z, show csqrt z = 0 from Complex.ext h.symm h4.symm, zero_mul]

theorem csqrt_im (z : ℂ) (hz : z.im < 0) : (csqrt z).im ≤ 0 := by
  unfold csqrt; rw [Complex.cpow_inv_two_im_eq_neg_sqrt hz]
  simp only [Left.neg_nonpos_iff]; positivity

end Coralign
