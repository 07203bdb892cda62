import Verif.Props.MaskGen
import Verif.Spec.Lateral

/-!
# C60: downsampling by a whole factor, over the whole output
-/

namespace Coralign.Props

open Coralign Coralign.Spec

/-- Near the border the disc sees only the margin of zeros, on whichever side it comes out. -/
theorem smooth_border (n : ℕ) (hn : n % 2 = 1) (k : ℤ) (hk : 0 < k) (f : Fin n → Fin n → ℝ) (H : ℤ) (hH : 0 ≤ H ∧ H + k ≤ (n : ℤ) / 2)
    (hf : ∀ x y : ℤ, Reaches n n x y → (H < |x| ∨ H < |y|) → (⟨n, n, f⟩ : Arr2 ℝ).zext ((n : ℤ) / 2 + x) ((n : ℤ) / 2 + y) = 0)
    (p q : ℤ) (hp : |p| ≤ (n : ℤ) / 2) (hq : |q| ≤ (n : ℤ) / 2) (hb : (n : ℤ) / 2 < |p| + k / 2 ∨ (n : ℤ) / 2 < |q| + k / 2) :
    (smoothMask (normWindow (discWindow n k)) ⟨n, n, f⟩).zext ((n : ℤ) / 2 + p) ((n : ℤ) / 2 + q) = 0 := by
  obtain ⟨p1, p2⟩ := abs_le.mp hp
  obtain ⟨q1, q2⟩ := abs_le.mp hq
  have hz : (smoothMask (normWindow (discWindow n k)) ⟨n, n, f⟩).zext ((n : ℤ) / 2 + p) ((n : ℤ) / 2 + q) =
      (smoothMask ⟨n, n, fun i j => (discWindow n k).val i j / ∑ i : Fin n, ∑ j : Fin n, (discWindow n k).val i j⟩ ⟨n, n, f⟩).val
        (⟨((n : ℤ) / 2 + p).toNat, by omega⟩ : Fin n) (⟨((n : ℤ) / 2 + q).toNat, by omega⟩ : Fin n) := by
    refine (zext_in (a := smoothMask (normWindow (discWindow n k)) ⟨n, n, f⟩) (i := (n : ℤ) / 2 + p) (j := (n : ℤ) / 2 + q) ?_).trans rfl
    show (0 ≤ (n : ℤ) / 2 + p ∧ (n : ℤ) / 2 + p < (n : ℤ)) ∧ (0 ≤ (n : ℤ) / 2 + q ∧ (n : ℤ) / 2 + q < (n : ℤ))
    omega
  rw [hz, smooth_val n (by omega)]
  refine Finset.sum_eq_zero fun i _ => Finset.sum_eq_zero fun j _ => ?_
  by_cases hw : (((i : ℕ) : ℤ) - (n : ℤ) / 2, ((j : ℕ) : ℤ) - (n : ℤ) / 2) ∈ discOffsets k
  · obtain ⟨h1, h2⟩ := disc_half k _ hk.le hw
    rw [abs_le] at h1 h2
    simp only at h1 h2
    have far : ∀ (r : ℤ) (hr : |r| ≤ (n : ℤ) / 2) (i : Fin n), (-(k / 2) ≤ ((i : ℕ) : ℤ) - (n : ℤ) / 2 ∧ ((i : ℕ) : ℤ) - (n : ℤ) / 2 ≤ k / 2) →
        (n : ℤ) / 2 < |r| + k / 2 → ∀ (h : ((n : ℤ) / 2 + r).toNat < n), H < |((cIdx n ⟨((n : ℤ) / 2 + r).toNat, h⟩ i : ℕ) : ℤ) - (n : ℤ) / 2| := by
      intro r hr i hi hb h
      obtain ⟨r1, r2⟩ := abs_le.mp hr
      obtain ⟨c, hc⟩ := cIdx_val n ⟨((n : ℤ) / 2 + r).toNat, h⟩ i
      have hlt := (cIdx n ⟨((n : ℤ) / 2 + r).toNat, h⟩ i).isLt
      simp only at hc
      rw [Int.toNat_of_nonneg (by omega)] at hc
      generalize ((cIdx n ⟨((n : ℤ) / 2 + r).toNat, h⟩ i : Fin n) : ℕ) = z at hc hlt
      have hcb : -2 < c ∧ c < 2 := by
        constructor
        · by_contra hcon
          have := mul_le_mul_of_nonneg_left (show c ≤ -2 by omega) (show (0 : ℤ) ≤ n by omega)
          omega
        · by_contra hcon
          have := mul_le_mul_of_nonneg_left (show 2 ≤ c by omega) (show (0 : ℤ) ≤ n by omega)
          omega
      obtain rfl | rfl | rfl : c = -1 ∨ c = 0 ∨ c = 1 := by omega
      all_goals
        rcases abs_cases r with ⟨hr', _⟩ | ⟨hr', _⟩ <;> rcases abs_cases ((z : ℤ) - (n : ℤ) / 2) with ⟨hz', _⟩ | ⟨hz', _⟩ <;> omega
    have e := Arr2.zext_val (⟨n, n, f⟩ : Arr2 ℝ) (cIdx n ⟨((n : ℤ) / 2 + p).toNat, by omega⟩ i) (cIdx n ⟨((n : ℤ) / 2 + q).toNat, by omega⟩ j)
    have hl1 := (cIdx n ⟨((n : ℤ) / 2 + p).toNat, by omega⟩ i).isLt
    have hl2 := (cIdx n ⟨((n : ℤ) / 2 + q).toNat, by omega⟩ j).isLt
    have := hf (((cIdx n ⟨((n : ℤ) / 2 + p).toNat, by omega⟩ i : ℕ) : ℤ) - (n : ℤ) / 2) (((cIdx n ⟨((n : ℤ) / 2 + q).toNat, by omega⟩ j : ℕ) : ℤ) - (n : ℤ) / 2)
      (by unfold Reaches; omega) (by
        rcases hb with hb | hb
        · exact Or.inl (far p hp i h1 hb _)
        · exact Or.inr (far q hq j h2 hb _))
    rw [add_sub_cancel, add_sub_cancel, e] at this
    simp only at this
    rw [this, mul_zero]
  · have : (discWindow n k).val i j = 0 := by
      show (if Real.sqrt (maskAxis n j ^ 2 + maskAxis n i ^ 2) ≤ (k : ℝ) / 2 then (1 : ℝ) else 0) = 0
      rw [maskAxis_odd n hn, maskAxis_odd n hn, if_neg]
      rw [sqrt_disc k _ _ hk.le]
      exact fun h => hw ((mem_disc k _ hk.le).mpr h)
    rw [this, zero_div, zero_mul]

/-- Far from the mask the mean over the disc is zero. -/
theorem discMean_far (f : ℤ → ℤ → ℝ) (H k : ℤ) (hk : 0 ≤ k) (hf : ∀ x y, (H < |x| ∨ H < |y|) → f x y = 0) (p q : ℤ)
    (h : H + k / 2 < |p| ∨ H + k / 2 < |q|) : discMean k f p q = 0 := by
  unfold discMean
  rw [Finset.sum_eq_zero, zero_div]
  intro d hd
  obtain ⟨h1, h2⟩ := disc_half k d hk hd
  refine hf _ _ ?_
  rcases h with h | h
  · left
    have := abs_sub_abs_le_abs_sub p d.1
    omega
  · right
    have := abs_sub_abs_le_abs_sub q d.2
    omega

/-- **C60.** Downsampling by a whole factor `k` with whole offsets and no rotation, over the whole plane: if the mask vanishes beyond `H`
pixels from its centre and the padding leaves room for `k` more on each side, the output, read as zero outside its array, is everywhere the
mean of the mask over the disc of diameter `k` about `k` times the offset from the centre less the shift.  In particular nothing of
the mask is cut off, however far it is shifted. -/
theorem C60_downsample_whole (S : ClampSpline) (R : Rotate) (a : Arr2 ℝ) (k : ℕ) (hk : 0 < k) (xo yo : ℤ) (padFac : ℝ) (flipx : Bool)
    (H : ℤ) (hH0 : 0 ≤ H) (hH : ∀ x y, (H < |x| ∨ H < |y|) → maskAt a flipx x y = 0)
    (hmargin : ((2 * H + 2 * k : ℤ) : ℝ) ≤ padFac * (max a.nr a.nc : ℕ)) (o : Arr2 ℝ)
    (ho : rotateShiftDownsample S R a 0 (1 / k) xo yo padFac flipx = .ok o) (u v : ℤ) :
    at0 o u v = discMean k (maskAt a flipx) (k * (u - yo)) (k * (v - xo)) := by
  have hkR : (0 : ℝ) < k := by exact_mod_cast hk
  have h := (C60_accepts S R a 0 (1 / k) xo yo padFac flipx).mp ⟨o, ho⟩
  have hodd' := C60_even_square S R a 0 (1 / k) xo yo padFac flipx o ho
  obtain ⟨h1, h2, h3⟩ := side_facts (padFac * (max a.nr a.nc : ℕ))
  have h4 := h3.mpr h.enough
  obtain ⟨N, hN'⟩ := Int.eq_ofNat_of_zero_le (show 0 ≤ ceilOdd (padFac * (max a.nr a.nc : ℕ)) by omega)
  rw [hN'] at h1 h2 h4
  have hodd : N % 2 = 1 := by omega
  have hNm : 2 * H + 2 * k ≤ N := by
    have : ((2 * H + 2 * k : ℤ) : ℝ) ≤ ((N : ℤ) : ℝ) := hmargin.trans h2
    exact_mod_cast this
  rw [rsd_ok S R a 0 (1 / k) xo yo padFac flipx h N hN'.symm, if_pos rfl] at ho
  obtain rfl := Except.ok.inj ho
  obtain ⟨g1, g2, -⟩ := side_facts ((N : ℝ) * (1 / k) + 2 + 2 * max |(xo : ℝ)| |(yo : ℝ)|)
  obtain ⟨M, hM⟩ := Int.eq_ofNat_of_zero_le (show 0 ≤ ceilOdd ((N : ℝ) * (1 / k) + 2 + 2 * max |(xo : ℝ)| |(yo : ℝ)|) by
    have : 0 ≤ max |(xo : ℝ)| |(yo : ℝ)| := le_max_of_le_left (abs_nonneg _)
    have : (0 : ℝ) ≤ (ceilOdd ((N : ℝ) * (1 / k) + 2 + 2 * max |(xo : ℝ)| |(yo : ℝ)|) : ℤ) := le_trans (by positivity) g2
    exact_mod_cast this)
  rw [hM] at g1 g2 ⊢
  rw [Int.toNat_natCast]
  have hMo : M % 2 = 1 := by omega
  unfold at0
  have hbig : ∀ off : ℤ, |(off : ℝ)| ≤ max |(xo : ℝ)| |(yo : ℝ)| → (N : ℤ) + 2 * k + 2 * (k * |off|) ≤ k * M := by
    intro off hoff
    have h5 : (N : ℝ) * (1 / k) + 2 + 2 * |(off : ℝ)| ≤ M := by push_cast at g2; linarith
    have h6 : (N : ℝ) + 2 * k + 2 * (k * |(off : ℝ)|) ≤ k * M := by
      have := mul_le_mul_of_nonneg_left h5 hkR.le
      have e : (k : ℝ) * (N * (1 / k) + 2 + 2 * |(off : ℝ)|) = N + 2 * k + 2 * (k * |(off : ℝ)|) := by field_simp
      linarith
    exact_mod_cast h6
  have hby := hbig yo (le_max_right _ _)
  have hbx := hbig xo (le_max_left _ _)
  by_cases hin : Reaches M M u v
  · rw [resampled_px S _ N M hMo (1 / k) xo yo u v hin, Option.getD_some]
    rw [S.clamps, show ((u : ℝ) - yo) * (1 / (1 / k)) = ((k * (u - yo) : ℤ) : ℝ) by rw [one_div_one_div]; push_cast; ring,
      show ((v : ℝ) - xo) * (1 / (1 / k)) = ((k * (v - xo) : ℤ) : ℝ) by rw [one_div_one_div]; push_cast; ring]
    have c1 := clamp_axis N hodd (k * (u - yo))
    have c2 := clamp_axis N hodd (k * (v - xo))
    have e : S.eval (maskAxis N) (maskAxis N) (smoothMask (normWindow (discWindow N (1 / (1 / k)))) ⟨N, N, prepared a N flipx⟩)
        (clampTo (maskAxis N 0) (maskAxis N (N - 1)) ((k * (u - yo) : ℤ) : ℝ)) (clampTo (maskAxis N 0) (maskAxis N (N - 1)) ((k * (v - xo) : ℤ) : ℝ)) =
        discMean k (maskAt a flipx) (max (-((N : ℤ) / 2)) (min ((N : ℤ) / 2) (k * (u - yo)))) (max (-((N : ℤ) / 2)) (min ((N : ℤ) / 2) (k * (v - xo)))) := by
      rw [c1, c2]
      generalize hp : max (-((N : ℤ) / 2)) (min ((N : ℤ) / 2) ((k : ℤ) * (u - yo))) = p
      generalize hq : max (-((N : ℤ) / 2)) (min ((N : ℤ) / 2) ((k : ℤ) * (v - xo))) = q
      have hp1 : -((N : ℤ) / 2) ≤ p ∧ p ≤ (N : ℤ) / 2 := by
        rw [← hp]
        exact ⟨le_max_left _ _, max_le (by omega) (min_le_left _ _)⟩
      have hq1 : -((N : ℤ) / 2) ≤ q ∧ q ≤ (N : ℤ) / 2 := by
        rw [← hq]
        exact ⟨le_max_left _ _, max_le (by omega) (min_le_left _ _)⟩
      have hint := S.interpolates (maskAxis N) (maskAxis N) (smoothMask (normWindow (discWindow N (1 / (1 / k)))) ⟨N, N, prepared a N flipx⟩)
        (⟨((N : ℤ) / 2 + p).toNat, by omega⟩ : Fin N) (⟨((N : ℤ) / 2 + q).toNat, by omega⟩ : Fin N)
        (maskAxis_strictMono N) (maskAxis_strictMono N)
      refine hint.trans ?_
      have hsm : (smoothMask (normWindow (discWindow N ((k : ℤ) : ℝ))) ⟨N, N, prepared a N flipx⟩).zext ((N : ℤ) / 2 + p) ((N : ℤ) / 2 + q) =
          discMean k (maskAt a flipx) p q := by
        by_cases hb : |p| + (k : ℤ) / 2 ≤ (N : ℤ) / 2 ∧ |q| + (k : ℤ) / 2 ≤ (N : ℤ) / 2
        · rw [smooth_disc N hodd k (by omega) (prepared a N flipx) p q hb.1 hb.2]
          unfold discMean
          congr 1
          refine Finset.sum_congr rfl fun d hd => ?_
          obtain ⟨d1, d2⟩ := disc_half k d (by omega) hd
          refine prepared_at a N hodd flipx _ _ ?_
          rw [abs_le] at d1 d2
          have u3 := abs_le.mp (show |p| ≤ (N : ℤ) / 2 - (k : ℤ) / 2 by omega)
          have v3 := abs_le.mp (show |q| ≤ (N : ℤ) / 2 - (k : ℤ) / 2 by omega)
          unfold Reaches
          omega
        · rw [not_and_or, not_le, not_le] at hb
          rw [smooth_border N hodd k (by omega) (prepared a N flipx) H ⟨by omega, by omega⟩ (fun x y hxy hfar => by
            rw [prepared_at a N hodd flipx x y hxy]
            exact hH x y hfar) p q (abs_le.mpr hp1) (abs_le.mpr hq1) hb, discMean_far (maskAt a flipx) H k (by omega) hH p q (by
              rcases hb with hb | hb
              · left; omega
              · right; omega)]
      have hz := zext_in (a := smoothMask (normWindow (discWindow N ((k : ℤ) : ℝ))) ⟨N, N, prepared a N flipx⟩) (i := (N : ℤ) / 2 + p)
        (j := (N : ℤ) / 2 + q) (by
          show (0 ≤ (N : ℤ) / 2 + p ∧ (N : ℤ) / 2 + p < (N : ℤ)) ∧ (0 ≤ (N : ℤ) / 2 + q ∧ (N : ℤ) / 2 + q < (N : ℤ))
          omega)
      refine Eq.trans ?_ (hz.symm.trans hsm)
      rw [one_div_one_div]
      rfl
    refine Eq.trans e ?_
    by_cases hc : |(k : ℤ) * (u - yo)| ≤ (N : ℤ) / 2 ∧ |(k : ℤ) * (v - xo)| ≤ (N : ℤ) / 2
    · obtain ⟨a1, a2⟩ := abs_le.mp hc.1
      obtain ⟨b1, b2⟩ := abs_le.mp hc.2
      rw [min_eq_right a2, max_eq_right a1, min_eq_right b2, max_eq_right b1]
    · have hcl : ∀ z : ℤ, (N : ℤ) / 2 < |z| → |max (-((N : ℤ) / 2)) (min ((N : ℤ) / 2) z)| = (N : ℤ) / 2 := by
        intro z hz
        rcases lt_abs.mp hz with h' | h'
        · rw [min_eq_left h'.le, max_eq_right (by omega), abs_of_nonneg (by omega)]
        · rw [min_eq_right (by omega), max_eq_left (by omega), abs_neg, abs_of_nonneg (by omega)]
      rw [not_and_or, not_le, not_le] at hc
      rw [discMean_far (maskAt a flipx) H k (by omega) hH (k * (u - yo)) (k * (v - xo)) (by omega)]
      refine discMean_far (maskAt a flipx) H k (by omega) hH _ _ ?_
      rcases hc with hc | hc
      · left; rw [hcl _ hc]; omega
      · right; rw [hcl _ hc]; omega
  · have hedge : (M : ℤ) + 1 ≤ 2 * |u| ∨ (M : ℤ) + 1 ≤ 2 * |v| := by
      unfold Reaches at hin
      rcases abs_cases u with ⟨hu, _⟩ | ⟨hu, _⟩ <;> rcases abs_cases v with ⟨hv, _⟩ | ⟨hv, _⟩ <;> rw [hu, hv] <;> omega
    have far : ∀ w off : ℤ, (N : ℤ) + 2 * k + 2 * (k * |off|) ≤ k * M → (M : ℤ) + 1 ≤ 2 * |w| → (N : ℤ) / 2 < |(k : ℤ) * (w - off)| := by
      intro w off hb h5
      have h6 : |w| - |off| ≤ |w - off| := abs_sub_abs_le_abs_sub w off
      rw [abs_mul, abs_of_nonneg (show (0 : ℤ) ≤ k by omega)]
      have h7 := mul_le_mul_of_nonneg_left h6 (show (0 : ℤ) ≤ k by omega)
      have h8 := mul_le_mul_of_nonneg_left h5 (show (0 : ℤ) ≤ k by omega)
      have h9 : (k : ℤ) * (|w| - |off|) = k * |w| - k * |off| := by ring
      have h10 : (k : ℤ) * (2 * |w|) = 2 * (k * |w|) := by ring
      have h11 : (k : ℤ) * (M + 1) = k * M + k := by ring
      omega
    rw [discMean_far (maskAt a flipx) H k (by omega) hH (k * (u - yo)) (k * (v - xo)) (by
      rcases hedge with h | h
      · left; have := far u yo hby h; omega
      · right; have := far v xo hbx h; omega)]
    by_cases hR' : (0 ≤ ((M + 1 : ℕ) : ℤ) / 2 + u ∧ ((M + 1 : ℕ) : ℤ) / 2 + u < ((M + 1 : ℕ) : ℤ)) ∧
      (0 ≤ ((M + 1 : ℕ) : ℤ) / 2 + v ∧ ((M + 1 : ℕ) : ℤ) / 2 + v < ((M + 1 : ℕ) : ℤ))
    · have e := Arr2.px_of_inB (resampled S (smoothMask (normWindow (discWindow N (1 / (1 / k)))) ⟨N, N, prepared a N flipx⟩) N M (1 / k) xo yo)
        (i := ((M + 1 : ℕ) : ℤ) / 2 + u) (j := ((M + 1 : ℕ) : ℤ) / 2 + v) hR'
      refine (congrArg (fun o : Option ℝ => o.getD 0) e).trans ?_
      show (if (((M + 1 : ℕ) : ℤ) / 2 + u).toNat = 0 ∨ (((M + 1 : ℕ) : ℤ) / 2 + v).toNat = 0 then (0 : ℝ) else _) = _
      rw [if_pos (by unfold Reaches at hin; omega)]
    · have e := Arr2.px_of_not_inB (resampled S (smoothMask (normWindow (discWindow N (1 / (1 / k)))) ⟨N, N, prepared a N flipx⟩) N M (1 / k) xo yo)
        (i := ((M + 1 : ℕ) : ℤ) / 2 + u) (j := ((M + 1 : ℕ) : ℤ) / 2 + v) hR'
      exact (congrArg (fun o : Option ℝ => o.getD 0) e).trans rfl

/-- The margin in terms of the shape of the array. -/
theorem margin_of_shape (a : Arr2 ℝ) (flipx : Bool) (k : ℕ) (padFac : ℝ) (h : ((max a.nr a.nc : ℕ) : ℝ) + 2 * k ≤ padFac * (max a.nr a.nc : ℕ)) :
    (∀ x y, ((max a.nr a.nc : ℤ) / 2 < |x| ∨ (max a.nr a.nc : ℤ) / 2 < |y|) → maskAt a flipx x y = 0) ∧
      ((2 * ((max a.nr a.nc : ℤ) / 2) + 2 * k : ℤ) : ℝ) ≤ padFac * (max a.nr a.nc : ℕ) := by
  refine ⟨fun x y hfar => maskAt_outside a flipx x y hfar, le_trans ?_ h⟩
  have : (2 * ((max a.nr a.nc : ℤ) / 2) + 2 * k : ℤ) ≤ ((max a.nr a.nc : ℕ) : ℤ) + 2 * k := by push_cast; omega
  exact_mod_cast this

/-- A mask of 31 x 31 pixels, halved, with the default padding of one fifth: the margin is large enough. -/
example (a : Arr2 ℝ) (hr : a.nr = 31) (hc : a.nc = 31) : ((max a.nr a.nc : ℕ) : ℝ) + 2 * (2 : ℕ) ≤ 6 / 5 * (max a.nr a.nc : ℕ) ∧
    ∀ (S : ClampSpline) (R : Rotate), ∃ o, rotateShiftDownsample S R a 0 (1 / (2 : ℕ)) 1 0 (6 / 5) false = .ok o := by
  rw [hr, hc]
  refine ⟨by norm_num, fun S R => (C60_accepts S R a 0 _ 1 0 (6 / 5) false).mpr ⟨by norm_num, by norm_num, by norm_num, ?_⟩⟩
  rw [hr, hc]
  norm_num

end Coralign.Props
