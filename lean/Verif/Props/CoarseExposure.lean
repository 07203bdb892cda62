import Verif.Props.PupilSearch
import Verif.Props.PsfSymmetry

/-!
# Property C52, continued: the exposure does not matter to the coarse pupil search
-/

namespace Coralign.Props

open Coralign Finset

theorem overlap_exposure {n m : ℕ} (f f' : Fin n → Fin m → ℝ) (c : ℝ) (h : ∀ i j, f' i j = c * f i j) (nBeam : ℝ) (x y : ℤ) :
    overlapAt (⟨n, m, f'⟩ : Arr2 ℝ) nBeam x y = c * overlapAt (⟨n, m, f⟩ : Arr2 ℝ) nBeam x y := by
  unfold overlapAt
  rw [if_pos (by omega), if_pos (by omega), if_pos (by omega), if_pos (by omega), mul_sum]
  refine sum_congr rfl fun i _ => ?_
  rw [mul_sum]
  refine sum_congr rfl fun j _ => ?_
  rw [mul_ite, mul_zero]
  simp only [h]

/-- **C52.** The estimates of one round do not depend on the exposure: for every image and every factor `c > 0`, the same offsets are found and
the matrix is multiplied by `c`. -/
theorem C52_exposure {n m : ℕ} (f f' : Fin n → Fin m → ℝ) (c : ℝ) (hc : 0 < c) (h : ∀ i j, f' i j = c * f i j) (nBeam : ℝ)
    (xs ys radius step x y : ℤ) (M : Arr2 ℝ) (hok : coarseOnce (⟨n, m, f⟩ : Arr2 ℝ) nBeam xs ys radius step = .ok ((x, y), M)) :
    coarseOnce (⟨n, m, f'⟩ : Arr2 ℝ) nBeam xs ys radius step = .ok ((x, y), ⟨M.nr, M.nc, fun i j => c * M.val i j⟩) := by
  unfold coarseOnce at hok ⊢
  split at hok
  · cases hok
  · split at hok
    · cases hok
    · split at hok
      · cases hok
      · next h1 h2 h3 =>
        rw [if_neg h1, if_neg h2, if_neg h3]
        simp only [Except.ok.injEq, Prod.mk.injEq] at hok ⊢
        obtain ⟨⟨rfl, rfl⟩, rfl⟩ := hok
        rw [argmax2_scaled _ _ c hc fun i j => overlap_exposure f f' c h nBeam _ _]
        refine ⟨⟨rfl, rfl⟩, ?_⟩
        simp only [overlap_exposure f f' c h]

theorem loop_exposure {n m : ℕ} (f f' : Fin n → Fin m → ℝ) (c : ℝ) (hc : 0 < c) (h : ∀ i j, f' i j = c * f i j) (nBeam shrink : ℝ) (fuel : ℕ) :
    ∀ est xs ys radius step, coarseLoop (⟨n, m, f'⟩ : Arr2 ℝ) nBeam shrink fuel est xs ys radius step =
      coarseLoop (⟨n, m, f⟩ : Arr2 ℝ) nBeam shrink fuel est xs ys radius step := by
  induction fuel with
  | zero => intros; rfl
  | succ fuel ih =>
    intro est xs ys radius step
    unfold coarseLoop
    by_cases h0 : step = 0
    · rw [if_pos h0, if_pos h0]
    · rw [if_neg h0, if_neg h0]
      cases hok : coarseOnce (⟨n, m, f⟩ : Arr2 ℝ) nBeam xs ys radius step with
      | error e =>
        have : coarseOnce (⟨n, m, f'⟩ : Arr2 ℝ) nBeam xs ys radius step = .error e := by
          unfold coarseOnce at hok ⊢
          split at hok
          · next h1 => rw [if_pos h1]; exact congrArg _ (Except.error.inj hok)
          · next h1 =>
            rw [if_neg h1]
            split at hok
            · next h2 => rw [if_pos h2]; exact congrArg _ (Except.error.inj hok)
            · next h2 =>
              rw [if_neg h2]
              split at hok
              · next h3 => rw [if_pos h3]; exact congrArg _ (Except.error.inj hok)
              · cases hok
        rw [this]
      | ok r =>
        obtain ⟨⟨x, y⟩, M⟩ := r
        rw [C52_exposure f f' c hc h nBeam xs ys radius step x y M hok]
        simp only [ih]

/-- **C52.** Nor does the outcome of the whole search, whatever the image. -/
theorem C52_search_exposure {n m : ℕ} (f f' : Fin n → Fin m → ℝ) (c : ℝ) (hc : 0 < c) (h : ∀ i j, f' i j = c * f i j) (nBeam shrink : ℝ)
    (fuel : ℕ) : coarselyLocate fuel (⟨n, m, f'⟩ : Arr2 ℝ) nBeam shrink = coarselyLocate fuel (⟨n, m, f⟩ : Arr2 ℝ) nBeam shrink := by
  unfold coarselyLocate
  simp only [loop_exposure f f' c hc h]

/-- An image with negative pixels, five times as bright: one round returns in both cases, with the same offsets. -/
example : ∃ x y M, coarseOnce (⟨3, 4, fun i j => (i : ℕ) * 2 - (j : ℕ)⟩ : Arr2 ℝ) 3 0 0 2 1 = .ok ((x, y), M) ∧
    coarseOnce (⟨3, 4, fun i j => 5 * ((i : ℕ) * 2 - (j : ℕ))⟩ : Arr2 ℝ) 3 0 0 2 1 = .ok ((x, y), ⟨M.nr, M.nc, fun i j => 5 * M.val i j⟩) := by
  obtain ⟨x, y, M, hok, -⟩ := C52_best (⟨3, 4, fun i j => (i : ℕ) * 2 - (j : ℕ)⟩ : Arr2 ℝ) 3 0 0 2 1 (by norm_num) (by norm_num) (by norm_num)
  exact ⟨x, y, M, hok, C52_exposure _ _ 5 (by norm_num) (fun _ _ => rfl) 3 0 0 2 1 x y M hok⟩

example (fuel : ℕ) : coarselyLocate fuel (⟨3, 4, fun i j => 5 * ((i : ℕ) * 2 - (j : ℕ))⟩ : Arr2 ℝ) 3 2 =
    coarselyLocate fuel (⟨3, 4, fun i j => (i : ℕ) * 2 - (j : ℕ)⟩ : Arr2 ℝ) 3 2 :=
  C52_search_exposure _ _ 5 (by norm_num) (fun _ _ => rfl) 3 2 fuel

end Coralign.Props
