import Verif.Props.CoarseGround
import Verif.Props.CoarseUse

/-!
# Property C134, continued: the start of the fine search on a noisy photograph with a lit ground
-/

namespace Coralign.Props

open Coralign Finset

/-- **C134.** With `useCoarse=True`, `compute_lateral_offsets` starts its fine search from the true centre of the pupil also on a lit ground,
with an error of less than half a pupil pixel in all, and with a stated diameter whose radius has as many whole pixels as that of the pupil. -/
theorem C134_lateral_ground (S : Solver) (meas ref pure : Arr2 ℝ) (diam stated : ℝ) (nSteps : ℤ) (d : ℝ) (nPad nFocus nIter : ℤ)
    (ha : LateralArgs stated nSteps d nPad nFocus nIter) (hdiam : 0 < diam) (hsz : ⌊diam / 2⌋ = ⌊stated / 2⌋) (hn : 2 ≤ meas.nr ∨ 2 ≤ meas.nc)
    (p c : ℝ) (hp : 0 ≤ p) (hc : 0 < c) (a b : ℤ) (h : LitGround pure diam p c a b) (hi : AlmostPicture meas pure c)
    (fuel : ℕ) (hf : (max 1 ⌊stated / 3⌋).toNat < fuel) :
    computeLateralOffsetsCoarse fuel S meas ref stated nSteps d nPad nFocus nIter =
      some (computeLateralOffsets S meas ref stated nSteps d nPad nFocus nIter a b) := by
  obtain ⟨steps, hst⟩ := C134_ground meas pure diam stated 3 p c hdiam ha.diam (by norm_num) hp hc a b hn h hi hsz
  unfold computeLateralOffsetsCoarse
  rw [if_neg (by push Not; exact ⟨ha.diam, ha.steps, ha.pixel, ha.pad, ha.focus, ha.iter⟩), hst fuel hf]

/-- A disc one part in a thousand brighter than the ground. -/
example (S : Solver) (ref : Arr2 ℝ) :
    computeLateralOffsetsCoarse 20 S (faintDisc 100 200 40 1000 1 (-75) 25) ref 41 5 (1 / 2) 64 16 3 =
      some (computeLateralOffsets S (faintDisc 100 200 40 1000 1 (-75) 25) ref 41 5 (1 / 2) 64 16 3 (-75 : ℤ) (25 : ℤ)) :=
  C134_lateral_ground S _ ref (faintDisc 100 200 40 1000 1 (-75) 25) 40 41 5 (1 / 2) 64 16 3
    ⟨by norm_num, by norm_num, by norm_num, by norm_num, by norm_num, by norm_num⟩ (by norm_num)
    (by rw [show ⌊(40 : ℝ) / 2⌋ = 20 by rw [Int.floor_eq_iff]; norm_num, show ⌊(41 : ℝ) / 2⌋ = 20 by rw [Int.floor_eq_iff]; norm_num])
    (Or.inl (by simp [faintDisc])) 1000 1 (by norm_num) (by norm_num) (-75) 25
    (faintDisc_lit _ _ _ _ _ _ _ (discPicture_ideal _ _ _ _ _ _ (by norm_num) (by norm_num) (by norm_num) (by norm_num) (by norm_num)))
    ⟨rfl, rfl, by simp⟩ 20 (by rw [show ⌊(41 : ℝ) / 3⌋ = 13 by rw [Int.floor_eq_iff]; norm_num]; norm_num)

end Coralign.Props
