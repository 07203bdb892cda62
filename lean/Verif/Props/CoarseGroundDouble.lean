import Verif.Props.CoarseGround
import Verif.Props.CoarseAllDouble

/-!
# Property C134, continued: a pupil on a lit ground, in double precision
-/

namespace Coralign.Props

open Coralign Finset

/-- **C134, all in double precision, on a lit ground.** For images of photon counts, a whole number of pixels as the beam size and a whole shrink
factor, the centre is found exactly, with every operation rounded and in whatever order numpy adds. -/
theorem C134_ground_double (S : List ℝ → ℝ) (depth : ℕ → ℕ) (hS : RoundedSum depth S) (img pure : Arr2 ℝ) (hcount : CountImage img)
    (diam p c : ℝ) (N k : ℕ) (hdiam : 0 < diam) (hN : 1 ≤ N) (hN25 : N ≤ 2 ^ 25) (hk : 2 ≤ k) (hk52 : k ≤ 2 ^ 52) (hp : 0 ≤ p)
    (hc : 0 < c) (a b : ℤ) (hn : 2 ≤ img.nr ∨ 2 ≤ img.nc) (h : LitGround pure diam p c a b) (hi : AlmostPicture img pure c)
    (hsz : ⌊diam / 2⌋ = ⌊(N : ℝ) / 2⌋) :
    ∃ steps, ∀ fuel, max 1 (N / k) < fuel → coarselyLocateDD S fuel img N k = some (.ok ((a, b), steps)) := by
  have hclear : ClearBeam (N : ℝ) := by simpa using C52_clear_beam N 0 hN25 (by norm_num)
  obtain ⟨steps, hst⟩ := C134_ground img pure diam N k p c hdiam (by exact_mod_cast hN) (by exact_mod_cast hk) hp hc a b hn h hi hsz
  refine ⟨steps, fun fuel hf => ?_⟩
  rw [locateDD_eq S depth hS img hcount N k hclear, C51_double_same img N k (hN25.trans (by norm_num)) hk hk52]
  refine hst fuel ?_
  have e : ⌊(N : ℝ) / (k : ℝ)⌋ = ((N / k : ℕ) : ℤ) := by
    rw [Int.floor_div_natCast, Int.floor_natCast]
    rfl
  rw [e]
  omega

/-- The faint disc of `C134_ground` is an image of counts. -/
theorem faint_counts : CountImage (faintDisc 100 200 40 1000 1 (-75) 25) := by
  classical
  have hv : ∀ i j, ∃ n : ℕ, n ≤ 1001 ∧ (faintDisc 100 200 40 1000 1 (-75) 25).val i j = n := by
    intro i j
    unfold faintDisc discPicture
    simp only
    split
    · exact ⟨1001, le_rfl, by norm_num⟩
    · exact ⟨1000, by norm_num, by norm_num⟩
  refine ⟨fun i j => ⟨_, (hv i j).choose_spec.2⟩, ?_⟩
  have h1 : ∑ i, ∑ j, (faintDisc 100 200 40 1000 1 (-75) 25).val i j ≤
      ∑ _i : Fin (faintDisc 100 200 40 1000 1 (-75) 25).nr, ∑ _j : Fin (faintDisc 100 200 40 1000 1 (-75) 25).nc, (1001 : ℝ) := by
    refine sum_le_sum fun i _ => sum_le_sum fun j _ => ?_
    obtain ⟨n, hn, e⟩ := hv i j
    rw [e]
    exact_mod_cast hn
  refine h1.trans ?_
  rw [sum_const, sum_const, card_univ, card_univ, Fintype.card_fin, Fintype.card_fin, nsmul_eq_mul, nsmul_eq_mul]
  show ((100 : ℕ) : ℝ) * (((200 : ℕ) : ℝ) * 1001) ≤ 2 ^ 53
  norm_num

/-- 1001 counts a pixel in the disc and 1000 outside, added up from left to right. -/
example : ∃ steps, ∀ fuel, 13 < fuel →
    coarselyLocateDD leftSum fuel (faintDisc 100 200 40 1000 1 (-75) 25) ((41 : ℕ) : ℝ) ((3 : ℕ) : ℝ) = some (.ok ((-75, 25), steps)) :=
  C134_ground_double leftSum _ leftSum_rounded _ (faintDisc 100 200 40 1000 1 (-75) 25) faint_counts 40 1000 1 41 3 (by norm_num) (by norm_num)
    (by norm_num) (by norm_num) (by norm_num) (by norm_num) (by norm_num) (-75) 25 (Or.inl (by simp [faintDisc]))
    (faintDisc_lit _ _ _ _ _ _ _ (discPicture_ideal _ _ _ _ _ _ (by norm_num) (by norm_num) (by norm_num) (by norm_num) (by norm_num)))
    ⟨rfl, rfl, by simp⟩
    (by rw [show ⌊(40 : ℝ) / 2⌋ = 20 by rw [Int.floor_eq_iff]; norm_num, show ⌊((41 : ℕ) : ℝ) / 2⌋ = 20 by rw [Int.floor_eq_iff]; norm_num])

end Coralign.Props
