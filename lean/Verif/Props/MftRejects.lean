import Verif.Props.Mft

/-!
# Properties C16 and C18: exactly which calls of the matrix Fourier transforms are refused
-/

namespace Coralign.Props

open Coralign

theorem mftChecks_bad {o0 o1 : ℤ} {ppl ppp : ℝ} (h : ¬ MftArgs o0 o1 ppl ppp) : mftChecks o0 o1 ppl ppp = .error .typeError := by
  unfold mftChecks
  split; · rfl
  split; · rfl
  split; · rfl
  split; · rfl
  next h1 h2 h3 h4 =>
  exact absurd ⟨not_le.mp h3, not_le.mp h4, not_le.mp h1, not_le.mp h2⟩ h

/-- **C16.** `do_offcenter_mft` raises `TypeError` for exactly these arguments: a sampling, output size or pupil size that is not positive, or a negative
corner coordinate. -/
theorem C16_offcenter_type_error (e : Arr2 ℂ) (o0 o1 : ℤ) (ppl ppp : ℝ) (P0 P1 y0 x0 : ℤ) :
    doOffcenterMft e o0 o1 ppl ppp P0 P1 y0 x0 = .error .typeError ↔
      ppl ≤ 0 ∨ ppp ≤ 0 ∨ o0 ≤ 0 ∨ o1 ≤ 0 ∨ P0 ≤ 0 ∨ P1 ≤ 0 ∨ y0 < 0 ∨ x0 < 0 := by
  by_cases ha : MftArgs o0 o1 ppl ppp
  · have hno : ¬ (ppl ≤ 0) ∧ ¬ (ppp ≤ 0) ∧ ¬ (o0 ≤ 0) ∧ ¬ (o1 ≤ 0) :=
      ⟨not_le.mpr ha.lod, not_le.mpr ha.pup, not_le.mpr ha.rows, not_le.mpr ha.cols⟩
    simp only [hno, false_or]
    unfold doOffcenterMft
    rw [mftChecks_ok ha]
    simp only [bind, Except.bind]
    by_cases hp : P0 ≤ 0 ∨ P1 ≤ 0
    · rw [if_pos hp]
      exact ⟨fun _ => by tauto, fun _ => rfl⟩
    · rw [if_neg hp]
      by_cases hc : y0 < 0 ∨ x0 < 0
      · rw [if_pos hc]
        exact ⟨fun _ => by tauto, fun _ => rfl⟩
      · rw [if_neg hc, mftInterval_int _ _ (by omega) ha.pup, mftInterval_int _ _ (by omega) ha.pup, mftInterval_int _ _ ha.rows ha.lod,
          mftInterval_int _ _ ha.cols ha.lod]
        simp only
        constructor
        · intro h
          split at h <;> cases h
        · intro h
          exfalso
          tauto
  · unfold doOffcenterMft
    rw [mftChecks_bad ha]
    refine ⟨fun _ => ?_, fun _ => rfl⟩
    by_contra hn
    push Not at hn
    exact ha ⟨by omega, by omega, hn.1, hn.2.1⟩

/-- **C18.** `do_imft` raises `TypeError` for exactly a non-positive sampling or output size, or an input without pixels; `do_mft` likewise. -/
theorem C18_type_error (e : Arr2 ℂ) (o0 o1 : ℤ) (ppl ppp : ℝ) :
    (doImft e o0 o1 ppl ppp = .error .typeError ↔ ¬ (MftArgs o0 o1 ppl ppp ∧ 0 < e.nr ∧ 0 < e.nc)) ∧
    (doMft e o0 o1 ppl ppp = .error .typeError ↔ ¬ (MftArgs o0 o1 ppl ppp ∧ 0 < e.nr ∧ 0 < e.nc)) := by
  constructor
  · constructor
    · rintro h ⟨ha, hr, hc⟩
      have hs := C18_imft_sum e o0 o1 ppl ppp ha hr hc
      rw [h] at hs
      cases hs
    · intro h
      by_cases ha : MftArgs o0 o1 ppl ppp
      · unfold doImft
        rw [mftChecks_ok ha]
        simp only [bind, Except.bind]
        by_cases hr : 0 < e.nr
        · rw [mftInterval_nat _ _ hr ha.lod]
          have hc : e.nc = 0 := by
            by_contra hc; exact h ⟨ha, hr, Nat.pos_of_ne_zero hc⟩
          simp [hc, mftInterval]
        · have hr0 : e.nr = 0 := by omega
          simp [hr0, mftInterval]
      · unfold doImft
        rw [mftChecks_bad ha]
        rfl
  · constructor
    · rintro h ⟨ha, hr, hc⟩
      have hs := C18_mft_sum e o0 o1 ppl ppp ha hr hc
      rw [h] at hs
      cases hs
    · exact C18_mft_rejects e o0 o1 ppl ppp

/-- A corner coordinate of `-1` is refused, whatever the other one is. -/
example (e : Arr2 ℂ) : doOffcenterMft e 8 8 4 20 30 30 (-1) 5 = .error .typeError :=
  (C16_offcenter_type_error e 8 8 4 20 30 30 (-1) 5).mpr (by norm_num)

end Coralign.Props
