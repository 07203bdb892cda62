import Verif.Props.MaskGen
import Verif.Props.DmhPlaced

/-!
# C60: the direction of the rotation
-/

namespace Coralign.Props

open Coralign Coralign.Spec

/-- The output at whole positions is the smoothed and turned mask. -/
theorem rsd_at (S : ClampSpline) (R : Rotate) (a : Arr2 ℝ) (k : ℕ) (hk : 0 < k) (rot : ℝ) (xo yo : ℤ) (padFac : ℝ) (flipx : Bool) (N : ℕ)
    (hN : IsLeast {n : ℤ | n % 2 = 1 ∧ padFac * (max a.nr a.nc : ℕ) ≤ n} N) (o : Arr2 ℝ)
    (ho : rotateShiftDownsample S R a rot (1 / k) xo yo padFac flipx = .ok o) (u v : ℤ)
    (hu : |(k : ℤ) * (u - yo)| + (k : ℤ) / 2 ≤ (N : ℤ) / 2) (hv : |(k : ℤ) * (v - xo)| + (k : ℤ) / 2 ≤ (N : ℤ) / 2) :
    o.centered u v = some ((if rot = 0 then smoothMask (normWindow (discWindow N k)) ⟨N, N, prepared a N flipx⟩
      else R.run (-rot) (smoothMask (normWindow (discWindow N k)) ⟨N, N, prepared a N flipx⟩)).zext
        ((N : ℤ) / 2 + k * (u - yo)) ((N : ℤ) / 2 + k * (v - xo))) := by
  have hkR : (0 : ℝ) < k := by exact_mod_cast hk
  have h := (C60_accepts S R a rot (1 / k) xo yo padFac flipx).mp ⟨o, ho⟩
  obtain ⟨h1, h2, h3⟩ := side_facts (padFac * (max a.nr a.nc : ℕ))
  have h4 := h3.mpr h.enough
  have hN' : ceilOdd (padFac * (max a.nr a.nc : ℕ)) = (N : ℤ) := (hN.unique (C08_ceil_odd _)).symm
  rw [hN'] at h1 h4
  have hodd : N % 2 = 1 := by omega
  rw [rsd_ok S R a rot (1 / k) xo yo padFac flipx h N hN'.symm] at ho
  obtain rfl := Except.ok.inj ho
  obtain ⟨g1, g2, -⟩ := side_facts ((N : ℝ) * (1 / k) + 2 + 2 * max |(xo : ℝ)| |(yo : ℝ)|)
  obtain ⟨M, hM⟩ := Int.eq_ofNat_of_zero_le (show 0 ≤ ceilOdd ((N : ℝ) * (1 / k) + 2 + 2 * max |(xo : ℝ)| |(yo : ℝ)|) by
    have : 0 ≤ max |(xo : ℝ)| |(yo : ℝ)| := le_max_of_le_left (abs_nonneg _)
    have : (0 : ℝ) ≤ (ceilOdd ((N : ℝ) * (1 / k) + 2 + 2 * max |(xo : ℝ)| |(yo : ℝ)|) : ℤ) := le_trans (by positivity) g2
    exact_mod_cast this)
  rw [hM] at g1 g2 ⊢
  rw [Int.toNat_natCast]
  have hMo : M % 2 = 1 := by omega
  -- the pixel lies inside the output
  have reach : ∀ (w off : ℤ), |(k : ℤ) * (w - off)| + (k : ℤ) / 2 ≤ (N : ℤ) / 2 → |(off : ℝ)| ≤ max |(xo : ℝ)| |(yo : ℝ)| →
      0 ≤ (M : ℤ) / 2 + w ∧ (M : ℤ) / 2 + w < M := by
    intro w off hw hoff
    have hb : |(w : ℝ)| ≤ M / 2 := by
      have e1 : (k : ℝ) * |(w : ℝ) - off| ≤ N / 2 := by
        have : ((|(k : ℤ) * (w - off)| : ℤ) : ℝ) ≤ (((N : ℤ) / 2 : ℤ) : ℝ) := by
          exact_mod_cast (by have : 0 ≤ (k : ℤ) / 2 := by omega
                             omega : |(k : ℤ) * (w - off)| ≤ (N : ℤ) / 2)
        push_cast at this
        rw [abs_mul, abs_of_pos hkR] at this
        refine this.trans ?_
        have h5 : (((N : ℤ) / 2 : ℤ) : ℝ) ≤ N / 2 := by
          have : (2 : ℝ) * (((N : ℤ) / 2 : ℤ) : ℝ) ≤ N := by exact_mod_cast (by omega : 2 * ((N : ℤ) / 2) ≤ N)
          linarith
        exact_mod_cast h5
      have e2 : |(w : ℝ) - off| ≤ N * (1 / k) / 2 := by
        rw [mul_one_div, div_div, mul_comm (k : ℝ) 2, ← div_div, le_div_iff₀ hkR]
        linarith
      have e3 : |(w : ℝ)| ≤ |(w : ℝ) - off| + |(off : ℝ)| := by
        have := abs_add_le ((w : ℝ) - off) off
        rwa [sub_add_cancel] at this
      push_cast at g2
      linarith
    have h2' : 2 * |w| ≤ (M : ℤ) := by
      have : (2 : ℝ) * |(w : ℝ)| ≤ M := by linarith
      exact_mod_cast this
    obtain ⟨b1, b2⟩ := abs_le.mp (show |w| ≤ (M : ℤ) / 2 by omega)
    omega
  have hR : Reaches M M u v := ⟨reach u yo hu (le_max_right _ _), reach v xo hv (le_max_left _ _)⟩
  rw [resampled_px S _ N M hMo (1 / k) xo yo u v hR]
  congr 1
  have hk2 : 0 ≤ (k : ℤ) / 2 := by omega
  obtain ⟨u1, u2⟩ := abs_le.mp (show |(k : ℤ) * (u - yo)| ≤ (N : ℤ) / 2 by omega)
  obtain ⟨v1, v2⟩ := abs_le.mp (show |(k : ℤ) * (v - xo)| ≤ (N : ℤ) / 2 by omega)
  have coord : ∀ w off : ℤ, -((N : ℤ) / 2) ≤ (k : ℤ) * (w - off) → ((w : ℝ) - off) * (1 / (1 / k)) = maskAxis N ((N : ℤ) / 2 + k * (w - off)).toNat := by
    intro w off hw
    rw [maskAxis_odd N hodd, Int.toNat_of_nonneg (by omega), one_div_one_div]
    push_cast
    ring
  rw [coord u yo u1, coord v xo v1]
  simp only [one_div_one_div]
  set A := (if rot = 0 then smoothMask (normWindow (discWindow N k)) ⟨N, N, prepared a N flipx⟩
      else R.run (-rot) (smoothMask (normWindow (discWindow N k)) ⟨N, N, prepared a N flipx⟩)) with hA
  have a1 : A.nr = N := by
    rw [hA]; split
    · rfl
    · rw [R.nr]; rfl
  have a2 : A.nc = N := by
    rw [hA]; split
    · rfl
    · rw [R.nc]; rfl
  have hz := zext_in (a := A) (i := (N : ℤ) / 2 + k * (u - yo)) (j := (N : ℤ) / 2 + k * (v - xo)) (by rw [a1, a2]; omega)
  rw [hz]
  exact S.interpolates (maskAxis N) (maskAxis N) A (⟨((N : ℤ) / 2 + k * (u - yo)).toNat, by omega⟩ : Fin A.nr)
    (⟨((N : ℤ) / 2 + k * (v - xo)).toNat, by omega⟩ : Fin A.nc) (maskAxis_strictMono N) (maskAxis_strictMono N)

/-- The smoothed mask about a whole position is the mean of the mask. -/
theorem smooth_mask_at (a : Arr2 ℝ) (N k : ℕ) (hodd : N % 2 = 1) (flipx : Bool) (p q : ℤ) (hp : |p| + (k : ℤ) / 2 ≤ (N : ℤ) / 2)
    (hq : |q| + (k : ℤ) / 2 ≤ (N : ℤ) / 2) :
    (smoothMask (normWindow (discWindow N k)) ⟨N, N, prepared a N flipx⟩).zext ((N : ℤ) / 2 + p) ((N : ℤ) / 2 + q) =
      discMean k (maskAt a flipx) p q := by
  have hsm := smooth_disc N hodd k (by omega) (prepared a N flipx) p q hp hq
  rw [Int.cast_natCast] at hsm
  rw [hsm]
  unfold discMean
  congr 1
  refine Finset.sum_congr rfl fun d hd => ?_
  obtain ⟨d1, d2⟩ := disc_half k d (by omega) hd
  refine prepared_at a N hodd flipx _ _ ?_
  rw [abs_le] at d1 d2
  have u3 := abs_le.mp (show |p| ≤ (N : ℤ) / 2 - (k : ℤ) / 2 by omega)
  have v3 := abs_le.mp (show |q| ≤ (N : ℤ) / 2 - (k : ℤ) / 2 by omega)
  unfold Reaches
  omega

/-- **C60.** Rotation: the point `(p, q)` of the (optionally mirrored) mask appears, after a counterclockwise turn by `rot` degrees about the
centre pixel, reduction by `k` and a shift by whole output pixels, at output pixel `(u, v)`, which holds the mean of the mask over the disc of
diameter `k` about `(p, q)`.  Proved wherever the discs stay inside the padded array. -/
theorem C60_turned (S : ClampSpline) (R : Rotate) (hR : R.Exact) (a : Arr2 ℝ) (k : ℕ) (hk : 0 < k) (rot : ℝ) (xo yo : ℤ) (padFac : ℝ)
    (flipx : Bool) (N : ℕ) (hN : IsLeast {n : ℤ | n % 2 = 1 ∧ padFac * (max a.nr a.nc : ℕ) ≤ n} N) (o : Arr2 ℝ)
    (ho : rotateShiftDownsample S R a rot (1 / k) xo yo padFac flipx = .ok o) (p q u v : ℤ)
    (hat : AppearsAt false rot (k * xo) (k * yo) p q (k * u) (k * v))
    (hu : |(k : ℤ) * (u - yo)| + (k : ℤ) / 2 ≤ (N : ℤ) / 2) (hv : |(k : ℤ) * (v - xo)| + (k : ℤ) / 2 ≤ (N : ℤ) / 2)
    (hp : |p| + (k : ℤ) / 2 ≤ (N : ℤ) / 2) (hq : |q| + (k : ℤ) / 2 ≤ (N : ℤ) / 2) :
    o.centered u v = some (discMean k (maskAt a flipx) p q) := by
  have hodd : N % 2 = 1 := by have := hN.1.1; omega
  rw [rsd_at S R a k hk rot xo yo padFac flipx N hN o ho u v hu hv, ← smooth_mask_at a N k hodd flipx p q hp hq]
  congr 1
  obtain ⟨hcol, hrow⟩ := hat
  simp only [Bool.false_eq_true, if_false] at hcol hrow
  have hcs := Real.sin_sq_add_cos_sq (rot * Real.pi / 180)
  split
  · next h0 =>
    rw [h0, zero_mul, zero_div, Real.cos_zero, Real.sin_zero] at hcol hrow
    have e1 : (k : ℤ) * (u - yo) = p := by
      have : (((k : ℤ) * (u - yo) : ℤ) : ℝ) = p := by push_cast; linarith
      exact_mod_cast this
    have e2 : (k : ℤ) * (v - xo) = q := by
      have : (((k : ℤ) * (v - xo) : ℤ) : ℝ) = q := by push_cast; linarith
      exact_mod_cast this
    rw [e1, e2]
  · obtain ⟨u1, u2⟩ := abs_le.mp (show |(k : ℤ) * (u - yo)| ≤ (N : ℤ) / 2 by omega)
    obtain ⟨v1, v2⟩ := abs_le.mp (show |(k : ℤ) * (v - xo)| ≤ (N : ℤ) / 2 by omega)
    have ek : (((k : ℤ) * (u - yo) : ℤ) : ℝ) = Real.sin (rot * Real.pi / 180) * q + Real.cos (rot * Real.pi / 180) * p := by push_cast; linarith
    have el : (((k : ℤ) * (v - xo) : ℤ) : ℝ) = Real.cos (rot * Real.pi / 180) * q - Real.sin (rot * Real.pi / 180) * p := by push_cast; linarith
    exact rotate_centred hR (-rot) (smoothMask (normWindow (discWindow N k)) ⟨N, N, prepared a N flipx⟩) hodd hodd _ _ p q
      (show Reaches (N : ℤ) (N : ℤ) _ _ by unfold Reaches; omega)
      (by rw [show -rot * Real.pi / 180 = -(rot * Real.pi / 180) by ring, Real.cos_neg, Real.sin_neg, ek, el]; linear_combination -(p : ℝ) * hcs)
      (by rw [show -rot * Real.pi / 180 = -(rot * Real.pi / 180) by ring, Real.cos_neg, Real.sin_neg, ek, el]; linear_combination -(q : ℝ) * hcs)

/-- A quarter turn of a `21 x 21` mask at half size, moved one pixel right and two up: the pixel six right of and two below the centre appears
two right of and five above it, and the discs stay inside the array. -/
example : MaskArgs (Arr2.ofFn 21 21 fun i j => (i : ℝ) + j) (1 / (2 : ℕ)) 1 ∧
    AppearsAt false 90 (((2 : ℕ) : ℝ) * ((1 : ℤ) : ℝ)) (((2 : ℕ) : ℝ) * ((2 : ℤ) : ℝ)) ((-2 : ℤ) : ℝ) ((6 : ℤ) : ℝ)
      (((2 : ℕ) : ℝ) * ((5 : ℤ) : ℝ)) (((2 : ℕ) : ℝ) * ((2 : ℤ) : ℝ)) ∧
    |((2 : ℕ) : ℤ) * (5 - 2)| + ((2 : ℕ) : ℤ) / 2 ≤ ((21 : ℕ) : ℤ) / 2 ∧ |((2 : ℕ) : ℤ) * (2 - 1)| + ((2 : ℕ) : ℤ) / 2 ≤ ((21 : ℕ) : ℤ) / 2 := by
  refine ⟨⟨by norm_num, by norm_num, by norm_num, ?_⟩, ?_, by decide, by decide⟩
  · simp only [Arr2.ofFn_nr, Arr2.ofFn_nc]; norm_num
  · have := appears_quarter false 2 4 (-2) 6
    norm_num at this ⊢
    exact this

end Coralign.Props
