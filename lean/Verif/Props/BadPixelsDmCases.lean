import Verif.Props.BadPixelsDm
import Verif.Props.PlateSolvCases

/-!
# C113: plate scale and software mask with a bad pixel, concrete calls
-/

namespace Coralign.Props

open Coralign Coralign.Spec

/-- **C113.** Whenever `platesolv` would answer with some number in the bad pixels, it also answers with NaN there: it returns normally, with
the trial plate scales, no best fit and residuals that are all NaN. -/
theorem C113_platesolv_answers (I : Interp1d) (img guess : Arr2 (Fl ℝ)) (h : HasNan img ∨ HasNan guess) (pg : ℝ) (c : PlateConsts)
    (best pix : List ℝ) (resid : List (Option ℝ)) (e : platesolv I img.denan guess.denan pg c = .ok (best, pix, resid)) :
    platesolvN I img guess pg c = .ok ([], pix, pix.map fun _ => none) := by
  classical
  unfold platesolv at e
  unfold platesolvN
  have hs : img.denan.nr = img.nr ∧ img.denan.nc = img.nc ∧ guess.denan.nr = guess.nr ∧ guess.denan.nc = guess.nc := ⟨rfl, rfl, rfl, rfl⟩
  by_cases h1 : pg ≤ 0
  · rw [if_pos h1] at e; cases e
  rw [if_neg h1] at e ⊢
  by_cases h2 : img.nr ≠ guess.nr ∨ img.nc ≠ guess.nc
  · rw [if_pos (show img.denan.nr ≠ guess.denan.nr ∨ img.denan.nc ≠ guess.denan.nc from h2)] at e; cases e
  rw [if_neg (show ¬ (img.denan.nr ≠ guess.denan.nr ∨ img.denan.nc ≠ guess.denan.nc) from h2)] at e
  rw [if_neg h2]
  obtain ⟨_ | w, _ | n, _ | pct, _ | step⟩ := c <;> simp only at e ⊢ <;> try cases e
  by_cases h3 : n = 0
  · rw [if_pos h3] at e; cases e
  rw [if_neg h3] at e ⊢
  cases e1 : arange .zeroDivisionError (pg - pg * w) (pg + pg * w) (pg * w / (n / 2)) with
  | error x => rw [e1] at e; cases e
  | ok px =>
    rw [e1] at e
    simp only [bind, Except.bind] at e ⊢
    cases e2 : doImft (guess.denan.map fun v : ℝ => (v : ℂ)) guess.nr guess.nc pg ((max guess.nr guess.nc : ℕ) : ℝ) with
    | error x =>
      have e2' : doImft (guess.denan.map fun v : ℝ => (v : ℂ)) guess.denan.nr guess.denan.nc pg ((max guess.denan.nr guess.denan.nc : ℕ) : ℝ) = .error x := e2
      rw [e2'] at e; cases e
    | ok ref =>
      have e2' : doImft (guess.denan.map fun v : ℝ => (v : ℂ)) guess.denan.nr guess.denan.nc pg ((max guess.denan.nr guess.denan.nc : ℕ) : ℝ) = .ok ref := e2
      rw [e2'] at e
      simp only at e ⊢
      have hm : ∀ (l : List ℝ) rs, (l.mapM fun p => plateResidual img.denan guess.denan ref ((max guess.denan.nr guess.denan.nc : ℕ) : ℝ) pct p) = .ok rs →
          (l.mapM fun p => plateResidualN img guess ref ((max guess.nr guess.nc : ℕ) : ℝ) pct p) = .ok (l.map fun _ => none) := by
        intro l
        induction l with
        | nil => intro rs _; rfl
        | cons a l ih =>
          intro rs hr
          rw [List.mapM_cons] at hr ⊢
          cases ea : plateResidual img.denan guess.denan ref ((max guess.denan.nr guess.denan.nc : ℕ) : ℝ) pct a with
          | error x => rw [ea] at hr; cases hr
          | ok v =>
            rw [ea] at hr
            simp only [bind, Except.bind] at hr
            cases el : (l.mapM fun p => plateResidual img.denan guess.denan ref ((max guess.denan.nr guess.denan.nc : ℕ) : ℝ) pct p) with
            | error x => rw [el] at hr; cases hr
            | ok rs' =>
              have ea' : plateResidualN img guess ref ((max guess.nr guess.nc : ℕ) : ℝ) pct a = .ok none := by
                unfold plateResidualN
                have : plateResidual img.denan guess.denan ref ((max guess.nr guess.nc : ℕ) : ℝ) pct a = .ok v := ea
                rw [this]
                exact if_pos h
              rw [ea', ih _ el]
              rfl
      cases e3 : (px.mapM fun p => plateResidual img.denan guess.denan ref ((max guess.denan.nr guess.denan.nc : ℕ) : ℝ) pct p) with
      | error x => rw [e3] at e; cases e
      | ok rs =>
        rw [e3] at e
        rw [hm px rs e3]
        simp only at e ⊢
        cases e4 : px.min? with
        | none => rw [e4] at e; cases e
        | some lo =>
          cases e5 : px.max? with
          | none => rw [e4, e5] at e; cases e
          | some hi =>
            rw [e4, e5] at e
            simp only at e ⊢
            cases e6 : arange .valueError lo hi step with
            | error x => rw [e6] at e; cases e
            | ok xs =>
              rw [e6] at e
              simp only at e ⊢
              by_cases h4 : px.length < 4
              · rw [if_pos h4] at e; cases e
              rw [if_neg h4] at e ⊢
              by_cases h5 : xs = []
              · rw [if_pos h5] at e; cases e
              rw [if_neg h5] at e ⊢
              have hn : (px.map fun _ => (none : Option ℝ)).mapM id = none := (mapM_id _).2.mpr (by
                cases px with
                | nil => simp at h4
                | cons a l => simp)
              rw [hn]
              have hp : pix = px := by
                split at e <;> cases e <;> rfl
              rw [hp]

/-- Three times the star of `star_args`, with a dark pixel NaN instead. -/
noncomputable def badStar : Arr2 (Fl ℝ) := ⟨2, 2, fun i j => if i = 0 ∧ j = 0 then .nan else .num (3 * starImage.val i j)⟩

theorem badStar_nan : HasNan badStar := ⟨(0 : Fin 2), (0 : Fin 2), rfl⟩

/-- A bad pixel, in the dark, and the plate scale search that finds the scale without it answers nothing. -/
example : ∃ pix, platesolvN lagrange1d badStar starImage.nums 1 ⟨some (1 / 5), some ((2 * 2 : ℕ) : ℝ), some 100, some (1 / 100)⟩ =
    .ok ([], pix, pix.map fun _ => none) ∧ 4 ≤ pix.length := by
  obtain ⟨best, pix, resid, h0, -, h4, -⟩ := C84_answer lagrange1d _ _ _ _ _ _ _ (star_args 3 1 one_pos)
  refine ⟨pix, C113_platesolv_answers lagrange1d badStar starImage.nums (Or.inl badStar_nan) 1 _ best pix resid ?_, by omega⟩
  rw [denan_nums]
  have : badStar.denan = starImage.map fun v : ℝ => 3 * v := by
    refine congrArg (Arr2.mk 2 2) (funext fun i => funext fun j => ?_)
    change Fin 2 at i j
    fin_cases i <;> fin_cases j <;> simp [badStar, starImage]
  rw [this]
  exact h0

/-- The hypotheses of the theorems about the software mask can be met, with a bad phase in a bright pixel: the amplitude of `bimodal`. -/
theorem maskCall_bimodal : ∃ t, MaskCall (n := 2) (m := 3) (fun i j => ((bimodal.val i j : ℚ) : ℝ)) (Arr2.full 2 3 (.num 1)) t 1 0 1 ∧ t 1 1 = true := by
  have h : (match ampthresh bimodal 21 with | .ok m => m.px 1 1 | .error _ => none) = some true := by decide +kernel
  cases h2 : ampthresh bimodal 21 with
  | error e => rw [h2] at h; cases h
  | ok t =>
    rw [h2] at h
    have ht' := ampthresh_cast bimodal 21 t h2
    obtain ⟨s1, s2, _⟩ := C12_threshold_mask _ _ _ ht'
    obtain ⟨n, m, t⟩ := t
    obtain rfl : n = 2 := s1
    obtain rfl : m = 3 := s2
    refine ⟨t, ⟨ht', ⟨rfl, rfl⟩, Or.inl rfl, le_rfl, one_pos⟩, ?_⟩
    have e : (⟨2, 3, t⟩ : Arr2 Bool).px 1 1 = some (t 1 1) := Arr2.px_val (⟨2, 3, t⟩ : Arr2 Bool) (1 : Fin 2) (1 : Fin 3)
    have h' : (⟨2, 3, t⟩ : Arr2 Bool).px 1 1 = some true := h
    rw [e] at h'
    exact Option.some.inj h'

/-- So the mask of a call with a bad pixel contains that very pixel. -/
example (S : Solver) : ∃ o, calcSoftwareMaskN S none (bimodal.map fun v : ℚ => (v : ℝ)).nums (Arr2.full 2 3 (.num 0)) (Arr2.full 2 3 (.num 1))
    ⟨2, 3, fun i j => if i = 1 ∧ j = 1 then .nan else .num 0⟩ 1 0 1 = .ok o ∧ o.px 1 1 = some true := by
  obtain ⟨t, ht, h1⟩ := maskCall_bimodal
  obtain ⟨o, h2, h3⟩ := C113_mask_fails S _ _ (fun _ _ => .num 0) (fun i j => if i = 1 ∧ j = 1 then .nan else .num 0) t 1 0 1 ht ⟨1, 1, h1, Or.inr rfl⟩
  refine ⟨o, h2, (h3 1 1).mpr fun i' j' hi hj => ?_⟩
  obtain rfl : i' = 1 := by have := abs_le.mp hi; omega
  obtain rfl : j' = 1 := by have := abs_le.mp hj; omega
  have e : (⟨2, 3, t⟩ : Arr2 Bool).px 1 1 = some (t 1 1) := Arr2.px_val (⟨2, 3, t⟩ : Arr2 Bool) (1 : Fin 2) (1 : Fin 3)
  rw [e, h1]

end Coralign.Props
