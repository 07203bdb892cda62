import Verif.Props.Dmhtoph
import Verif.Props.ConjugateOutside
import Verif.Base.RotateExact
import Verif.Spec.Registration

/-!
# C62: where `dmhtoph` puts the facesheet, for every rotation
-/

namespace Coralign.Props

open Coralign Coralign.Spec

/-- A rotation, seen from the centre of an array of odd size. -/
theorem rotate_centred {R : Rotate} (hR : R.Exact) (th : ℝ) (a : Arr2 ℝ) (h1 : a.nr % 2 = 1) (h2 : a.nc % 2 = 1) (r c p q : ℤ)
    (hb : Reaches a.nr a.nc r c)
    (hp : (p : ℝ) = Real.cos (th * Real.pi / 180) * r + Real.sin (th * Real.pi / 180) * c)
    (hq : (q : ℝ) = -(Real.sin (th * Real.pi / 180) * r) + Real.cos (th * Real.pi / 180) * c) :
    (R.run th a).zext (a.nr / 2 + r) (a.nc / 2 + c) = a.zext (a.nr / 2 + p) (a.nc / 2 + q) := by
  have e1 : (((a.nr : ℤ) / 2 : ℤ) : ℝ) = ((a.nr : ℝ) - 1) / 2 := by
    have : (2 * ((a.nr : ℤ) / 2) + 1 : ℤ) = a.nr := by omega
    have : ((2 * ((a.nr : ℤ) / 2) + 1 : ℤ) : ℝ) = a.nr := by exact_mod_cast this
    push_cast at this ⊢
    linarith
  have e2 : (((a.nc : ℤ) / 2 : ℤ) : ℝ) = ((a.nc : ℝ) - 1) / 2 := by
    have : (2 * ((a.nc : ℤ) / 2) + 1 : ℤ) = a.nc := by omega
    have : ((2 * ((a.nc : ℤ) / 2) + 1 : ℤ) : ℝ) = a.nc := by exact_mod_cast this
    push_cast at this ⊢
    linarith
  unfold Arr2.zext
  rw [hR th a ((a.nr : ℤ) / 2 + r) ((a.nc : ℤ) / 2 + c) ((a.nr : ℤ) / 2 + p) ((a.nc : ℤ) / 2 + q) hb
    (by rw [Int.cast_add, Int.cast_add, Int.cast_add, e1, e2, hp]; ring)
    (by rw [Int.cast_add, Int.cast_add, Int.cast_add, e1, e2, hq]; ring)]
  rfl

/-- A sample of the facesheet farther from the centre of the mirror than the working array reaches is farther than anything moves. -/
theorem far_of_radius (n P N : ℕ) (hP : 1 ≤ P) (hN : N % 2 = 1) (c : ℝ) (hc : 0 < c) (u y : ℤ)
    (h : (u : ℝ) / c = dmPos n P y) (hfar : (((n : ℝ) + N / P) * c) < 2 * |(u : ℝ)|) :
    y < -((N : ℤ) / 2) ∨ P * ((n : ℤ) - 1) + N < y + (N : ℤ) / 2 + 1 := by
  have hP0 : (0 : ℝ) < P := by exact_mod_cast hP
  unfold dmPos at h
  rw [div_eq_iff hc.ne'] at h
  have hy : (y : ℝ) = P * ((u : ℝ) / c + ((n : ℝ) - 1) / 2) := by
    rw [h]; push_cast; field_simp; ring
  rcases abs_cases (u : ℝ) with ⟨ha, -⟩ | ⟨ha, -⟩
  · right
    rw [ha] at hfar
    have h1 : ((n : ℝ) + N / P) / 2 < (u : ℝ) / c := by
      rw [lt_div_iff₀ hc]; linarith
    have h2 : P * (((n : ℝ) + N / P) / 2 + ((n : ℝ) - 1) / 2) < y := by
      rw [hy]; exact mul_lt_mul_of_pos_left (by linarith) hP0
    have h3 : P * (((n : ℝ) + N / P) / 2 + ((n : ℝ) - 1) / 2) = P * (n - 1) + P / 2 + N / 2 := by field_simp; ring
    rw [h3] at h2
    have h4 : ((2 * (P * ((n : ℤ) - 1)) + N : ℤ) : ℝ) < ((2 * y : ℤ) : ℝ) := by push_cast; linarith
    have h5 := (Int.cast_lt (R := ℝ)).mp h4
    omega
  · left
    rw [ha] at hfar
    have h1 : (u : ℝ) / c < -(((n : ℝ) + N / P) / 2) := by
      rw [div_lt_iff₀ hc]; linarith
    have h2 : (y : ℝ) < P * (-(((n : ℝ) + N / P) / 2) + ((n : ℝ) - 1) / 2) := by
      rw [hy]; exact mul_lt_mul_of_pos_left (by linarith) hP0
    have h3 : P * (-(((n : ℝ) + N / P) / 2) + ((n : ℝ) - 1) / 2) = - (P : ℝ) / 2 - N / 2 := by field_simp; ring
    rw [h3] at h2
    have h4 : ((2 * y : ℤ) : ℝ) < ((-(N : ℤ) : ℤ) : ℝ) := by push_cast; linarith
    have h5 := (Int.cast_lt (R := ℝ)).mp h4
    omega

/-- The facesheet is flat where the turned mirror leaves the working array. -/
theorem flat_beyond (n P N : ℕ) (hn : 1 ≤ n) (hP : 1 ≤ P) (hN : N % 2 = 1) (cx cy : ℝ) (hx : 0 < cx) (hy : 0 < cy) (d : Fin n → Fin n → ℝ)
    (w : Fin N → Fin N → ℝ) (u v y x r c : ℤ) (h1 : (u : ℝ) / cy = dmPos n P y) (h2 : (v : ℝ) / cx = dmPos n P x)
    (hrc : (r : ℝ) ^ 2 + (c : ℝ) ^ 2 = (u : ℝ) ^ 2 + (v : ℝ) ^ 2) (M : ℤ)
    (hM : Real.sqrt 2 * (((n : ℤ) : ℝ) + N / ((P : ℤ) : ℝ)) * max cx cy ≤ M) (hodd : M % 2 = 1) (hout : ¬ Reaches M M r c) :
    facesheet ⟨n, n, d⟩ ⟨N, N, w⟩ P y x = 0 := by
  have hP0 : (0 : ℝ) < P := by exact_mod_cast hP
  have hn0 : (1 : ℝ) ≤ n := by exact_mod_cast hn
  set D : ℝ := ((n : ℝ) + N / P) with hD
  have hD0 : 0 < D := by positivity
  have hm : 0 < max cx cy := lt_max_of_lt_left hx
  have hM' : Real.sqrt 2 * D * max cx cy ≤ M := by
    have : Real.sqrt 2 * (((n : ℤ) : ℝ) + N / ((P : ℤ) : ℝ)) * max cx cy = Real.sqrt 2 * D * max cx cy := by rw [hD]; push_cast; ring
    linarith
  have hMpos : (0 : ℝ) < M := lt_of_lt_of_le (by positivity) hM'
  have hMi : (0 : ℤ) < M := by exact_mod_cast hMpos
  have hz : M < 2 * |r| ∨ M < 2 * |c| := by
    unfold Reaches at hout
    rcases abs_cases r with ⟨a1, a2⟩ | ⟨a1, a2⟩ <;> rcases abs_cases c with ⟨b1, b2⟩ | ⟨b1, b2⟩ <;> rw [a1, b1] <;> omega
  have hsq : (M : ℝ) ^ 2 < 4 * ((u : ℝ) ^ 2 + (v : ℝ) ^ 2) := by
    rw [← hrc]
    rcases hz with hz | hz
    · have h3 : (M : ℝ) < 2 * |(r : ℝ)| := by exact_mod_cast hz
      have h4 : (M : ℝ) ^ 2 < (2 * |(r : ℝ)|) ^ 2 := pow_lt_pow_left₀ h3 hMpos.le (by norm_num)
      rw [mul_pow, sq_abs] at h4
      nlinarith [sq_nonneg (c : ℝ)]
    · have h3 : (M : ℝ) < 2 * |(c : ℝ)| := by exact_mod_cast hz
      have h4 : (M : ℝ) ^ 2 < (2 * |(c : ℝ)|) ^ 2 := pow_lt_pow_left₀ h3 hMpos.le (by norm_num)
      rw [mul_pow, sq_abs] at h4
      nlinarith [sq_nonneg (r : ℝ)]
  have hbig : 2 * (D * max cx cy) ^ 2 ≤ (M : ℝ) ^ 2 := by
    have h3 : (Real.sqrt 2 * D * max cx cy) ^ 2 ≤ (M : ℝ) ^ 2 := pow_le_pow_left₀ (by positivity) hM' 2
    have h4 : (Real.sqrt 2 * D * max cx cy) ^ 2 = 2 * (D * max cx cy) ^ 2 := by
      rw [mul_assoc, mul_pow, Real.sq_sqrt (by norm_num)]
    linarith
  have hor : D * max cx cy < 2 * |(u : ℝ)| ∨ D * max cx cy < 2 * |(v : ℝ)| := by
    by_contra hc
    push Not at hc
    have h3 : (2 * |(u : ℝ)|) ^ 2 ≤ (D * max cx cy) ^ 2 := pow_le_pow_left₀ (by positivity) hc.1 2
    have h4 : (2 * |(v : ℝ)|) ^ 2 ≤ (D * max cx cy) ^ 2 := pow_le_pow_left₀ (by positivity) hc.2 2
    rw [mul_pow, sq_abs] at h3 h4
    linarith
  apply facesheet_far n P N hn hP
  rcases hor with h | h
  · rcases far_of_radius n P N hP hN cy hy u y h1 (lt_of_le_of_lt (mul_le_mul_of_nonneg_left (le_max_right _ _) hD0.le) h) with h | h
    · exact Or.inl h
    · exact Or.inr (Or.inl h)
  · exact Or.inr (Or.inr (far_of_radius n P N hP hN cx hx v x h2 (lt_of_le_of_lt (mul_le_mul_of_nonneg_left (le_max_left _ _) hD0.le) h)))

theorem placed_at (S : Spline) (R : Rotate) (hR : R.Exact) (T : Shift) (nrow ncol : ℤ) (dm : Arr2 ℝ) (n : ℤ) (w : Arr2 ℝ) (P : ℤ)
    (cx cy th : ℝ) (dx dy : ℤ) (flipx : Bool) (out : Arr2 ℝ)
    (hok : dmhtoph S R T nrow ncol dm n w P cx cy dx dy th flipx = .ok out) (u v y x k l : ℤ) (hy : (u : ℝ) / cy = dmPos n P y)
    (hx : (v : ℝ) / cx = dmPos n P x) (hat : AppearsAt flipx th dx dy u v k l) (hkl : Reaches nrow ncol k l)
    (hb : Reaches (workSize n w.nr P cx cy) (workSize n w.nr P cx cy) k l) :
    out.centered k l = some (facesheet dm w P y x) := by
  have A := dmh_args hok
  rw [dmh_eq S R T nrow ncol dm n w P cx cy dx dy th flipx A] at hok
  obtain ⟨a1, a2, a3, a4, a5, a6, -, a8, -, a10, a11, -⟩ := A
  obtain ⟨n, rfl⟩ := Int.eq_ofNat_of_zero_le a3.le
  obtain ⟨P, rfl⟩ := Int.eq_ofNat_of_zero_le a4.le
  obtain ⟨n1, n2, d⟩ := dm
  obtain ⟨N, N', w⟩ := w
  simp only at a8 a10 a11 hb
  obtain ⟨b1, b2⟩ := a8
  have b1' : n1 = n := by exact_mod_cast b1
  have b2' : n2 = n := by exact_mod_cast b2
  subst b1' b2' a10
  simp only [Int.toNat_natCast] at hok
  have hcam := camera_facesheet S n2 P N (by omega) (by omega) a11 cx cy a5 a6 d w u v y x hy hx
  obtain ⟨⟨hodd, hge⟩, -⟩ := C08_ceil_odd (Real.sqrt 2 * (((n2 : ℤ) : ℝ) + N / ((P : ℤ) : ℝ)) * max cx cy)
  change (workSize n2 N P cx cy) % 2 = 1 at hodd
  change _ ≤ ((workSize n2 N P cx cy : ℤ) : ℝ) at hge
  have hflat := fun r c hrc => flat_beyond n2 P N (by omega) (by omega) a11 cx cy a5 a6 d w u v y x r c hy hx hrc _ hge hodd
  obtain ⟨bk, bl⟩ := hb
  have hnr : ∀ M, (cameraGrid S (fullConvolve (spreadPokes n2 P ⟨n2, n2, d⟩) ⟨N, N, w⟩) ((P : ℤ) : ℝ) M cx cy).nr = M.toNat := fun _ => rfl
  have hnc : ∀ M, (cameraGrid S (fullConvolve (spreadPokes n2 P ⟨n2, n2, d⟩) ⟨N, N, w⟩) ((P : ℤ) : ℝ) M cx cy).nc = M.toNat := fun _ => rfl
  have hnr := hnr (workSize n2 N P cx cy)
  have hnc := hnc (workSize n2 N P cx cy)
  generalize cameraGrid S (fullConvolve (spreadPokes n2 P ⟨n2, n2, d⟩) ⟨N, N, w⟩) ((P : ℤ) : ℝ) (workSize n2 N P cx cy) cx cy = g
    at hok hcam hnr hnc
  generalize workSize n2 N P cx cy = M at *
  obtain ⟨o1, o2, o3⟩ := crop_at hok
  rw [o3 k l hkl]
  congr 1
  have hM : ((M.toNat : ℕ) : ℤ) = M := by omega
  -- the flipped array, read at the flipped column
  have hflip : ∃ g' : Arr2 ℝ, (if flipx = true then g.fliplr else g) = g' ∧ g'.nr = M.toNat ∧ g'.nc = M.toNat ∧
      g'.zext (M / 2 + u) (M / 2 + (if flipx = true then -v else v)) = g.zext (M / 2 + u) (M / 2 + v) := by
    cases flipx with
    | false => exact ⟨g, rfl, hnr, hnc, rfl⟩
    | true =>
      refine ⟨g.fliplr, rfl, hnr, hnc, ?_⟩
      simp only [if_true]
      rw [fliplr_zext, hnc, hM]
      congr 1
      omega
  obtain ⟨g', hg', hr', hc', hz'⟩ := hflip
  rw [hg']
  obtain ⟨hcol, hrow⟩ := hat
  have hv' : ((if flipx = true then -v else v : ℤ) : ℝ) = if flipx = true then -(v : ℝ) else v := by split <;> push_cast <;> rfl
  rw [← hv'] at hcol hrow
  have hvv : ((if flipx = true then -v else v : ℤ) : ℝ) ^ 2 = (v : ℝ) ^ 2 := by split <;> push_cast <;> ring
  generalize (if flipx = true then -v else v : ℤ) = v' at *
  have hcs := Real.sin_sq_add_cos_sq (th * Real.pi / 180)
  unfold Arr2.centered
  rw [T.nr, T.nc, R.nr, R.nc, hr', hc', hM, T.whole dy dx _ _ _ (by rw [R.nr, R.nc, hr', hc', hM]; exact ⟨bk, bl⟩), Option.getD_some,
    add_sub_assoc, add_sub_assoc]
  have ek : ((k - dy : ℤ) : ℝ) = Real.sin (th * Real.pi / 180) * v' + Real.cos (th * Real.pi / 180) * u := by push_cast; linarith
  have el : ((l - dx : ℤ) : ℝ) = Real.cos (th * Real.pi / 180) * v' - Real.sin (th * Real.pi / 180) * u := by push_cast; linarith
  generalize k - dy = r at *
  generalize l - dx = c at *
  by_cases hb : Reaches M M r c
  · have hrot := rotate_centred hR (-th) g' (by omega) (by omega) r c u v' (by rw [hr', hc', hM]; exact hb)
      (by rw [show -th * Real.pi / 180 = -(th * Real.pi / 180) by ring, Real.cos_neg, Real.sin_neg, ek, el]; linear_combination -(u : ℝ) * hcs)
      (by rw [show -th * Real.pi / 180 = -(th * Real.pi / 180) by ring, Real.cos_neg, Real.sin_neg, ek, el]; linear_combination -(v' : ℝ) * hcs)
    rw [hr', hc', hM, hz', hcam] at hrot
    exact hrot
  · have hf := hflat r c (by rw [ek, el, ← hvv]; linear_combination ((u : ℝ) ^ 2 + (v' : ℝ) ^ 2) * hcs) hb
    rw [hf]
    rw [Arr2.px_of_not_inB _ (by rw [R.nr, R.nc, hr', hc', hM]; exact hb)]
    rfl

/-- **C62.** Where the facesheet appears.  Mirror pixel `(u, v)` from the centre of the mirror, `(y, x)` samples of the influence function from
actuator `(0, 0)`, appears at camera pixel `(k, l)` from the centre of the output - after the reversal, the counterclockwise turn and the
translation - with the height of the facesheet: the sum over all actuators of the command times the influence function.  The output pixel
is within the extent `√2 (n + N/P) max(cx, cy)` that the function works on. -/
theorem C62_placed (S : Spline) (R : Rotate) (hR : R.Exact) (T : Shift) (nrow ncol : ℤ) (dm : Arr2 ℝ) (n : ℤ) (w : Arr2 ℝ) (P : ℤ)
    (cx cy th : ℝ) (dx dy : ℤ) (flipx : Bool) (out : Arr2 ℝ)
    (hok : dmhtoph S R T nrow ncol dm n w P cx cy dx dy th flipx = .ok out) (u v y x k l : ℤ) (hy : (u : ℝ) / cy = dmPos n P y)
    (hx : (v : ℝ) / cx = dmPos n P x) (hat : AppearsAt flipx th dx dy u v k l) (hkl : Reaches nrow ncol k l)
    (hk : 2 * |(k : ℝ)| ≤ Real.sqrt 2 * (n + w.nr / P) * max cx cy) (hl : 2 * |(l : ℝ)| ≤ Real.sqrt 2 * (n + w.nr / P) * max cx cy) :
    out.centered k l = some (facesheet dm w P y x) := by
  obtain ⟨⟨hodd, hge⟩, -⟩ := C08_ceil_odd (Real.sqrt 2 * ((n : ℝ) + w.nr / (P : ℝ)) * max cx cy)
  change (workSize n w.nr P cx cy) % 2 = 1 at hodd
  change _ ≤ ((workSize n w.nr P cx cy : ℤ) : ℝ) at hge
  have bnd : ∀ z : ℤ, 2 * |(z : ℝ)| ≤ Real.sqrt 2 * ((n : ℝ) + w.nr / (P : ℝ)) * max cx cy →
      0 ≤ workSize n w.nr P cx cy / 2 + z ∧ workSize n w.nr P cx cy / 2 + z < workSize n w.nr P cx cy := by
    intro z hz
    have : ((2 * |z| : ℤ) : ℝ) ≤ workSize n w.nr P cx cy := by push_cast; exact hz.trans hge
    have : 2 * |z| ≤ workSize n w.nr P cx cy := by exact_mod_cast this
    have := le_abs_self z
    have := neg_abs_le z
    omega
  exact placed_at S R hR T nrow ncol dm n w P cx cy th dx dy flipx out hok u v y x k l hy hx hat hkl ⟨bnd k hk, bnd l hl⟩

/-- **C62.** The centred case needs no bound on the position: however the mirror is turned, the working array covers everything that moves. -/
theorem C62_placed_centred (S : Spline) (R : Rotate) (hR : R.Exact) (T : Shift) (nrow ncol : ℤ) (dm : Arr2 ℝ) (n : ℤ) (w : Arr2 ℝ) (P : ℤ)
    (cx cy th : ℝ) (flipx : Bool) (out : Arr2 ℝ)
    (hok : dmhtoph S R T nrow ncol dm n w P cx cy 0 0 th flipx = .ok out) (u v y x k l : ℤ) (hy : (u : ℝ) / cy = dmPos n P y)
    (hx : (v : ℝ) / cx = dmPos n P x) (hat : AppearsAt flipx th 0 0 u v k l) (hkl : Reaches nrow ncol k l) :
    out.centered k l = some (facesheet dm w P y x) := by
  by_cases hb : Reaches (workSize n w.nr P cx cy) (workSize n w.nr P cx cy) k l
  · exact placed_at S R hR T nrow ncol dm n w P cx cy th 0 0 flipx out (by simpa using hok) u v y x k l hy hx (by simpa using hat) hkl hb
  · obtain ⟨⟨hodd, hge⟩, -⟩ := C08_ceil_odd (Real.sqrt 2 * ((n : ℝ) + w.nr / (P : ℝ)) * max cx cy)
    change (workSize n w.nr P cx cy) % 2 = 1 at hodd
    change _ ≤ ((workSize n w.nr P cx cy : ℤ) : ℝ) at hge
    rw [outside_zero S R T nrow ncol dm n w P cx cy 0 0 th flipx out hok k l hkl (by
      unfold Reaches at hb
      rcases abs_cases k with ⟨a1, a2⟩ | ⟨a1, a2⟩ <;> rcases abs_cases l with ⟨b1, b2⟩ | ⟨b1, b2⟩ <;> rw [a1, b1] <;> omega)]
    obtain ⟨a1, a2, a3, a4, a5, a6, -, a8, -, a10, a11, -⟩ := dmh_args hok
    obtain ⟨n, rfl⟩ := Int.eq_ofNat_of_zero_le a3.le
    obtain ⟨P, rfl⟩ := Int.eq_ofNat_of_zero_le a4.le
    obtain ⟨n1, n2, d⟩ := dm
    obtain ⟨N, N', w⟩ := w
    simp only at a8 a10 a11 hb hge hodd
    obtain ⟨b1, b2⟩ := a8
    have b1' : n1 = n := by exact_mod_cast b1
    have b2' : n2 = n := by exact_mod_cast b2
    subst b1' b2' a10
    obtain ⟨hcol, hrow⟩ := hat
    have hcs := Real.sin_sq_add_cos_sq (th * Real.pi / 180)
    have hvv : (if flipx = true then -(v : ℝ) else v) ^ 2 = (v : ℝ) ^ 2 := by split <;> ring
    rw [flat_beyond n2 P N (by omega) (by omega) a11 cx cy a5 a6 d w u v y x k l hy hx
      (by rw [hcol, hrow, ← hvv]; linear_combination ((u : ℝ) ^ 2 + (if flipx = true then -(v : ℝ) else v) ^ 2) * hcs) _ hge hodd hb]

/-- A mirror turned by a right angle: right becomes up, up becomes left. -/
theorem appears_quarter (flipx : Bool) (dx dy u v : ℤ) :
    AppearsAt flipx 90 dx dy u v ((dy + (if flipx = true then -v else v) : ℤ) : ℝ) ((dx - u : ℤ) : ℝ) := by
  have h : (90 : ℝ) * Real.pi / 180 = Real.pi / 2 := by ring
  constructor
  · rw [h, Real.cos_pi_div_two, Real.sin_pi_div_two]; push_cast; ring
  · rw [h, Real.cos_pi_div_two, Real.sin_pi_div_two]; split <;> push_cast <;> ring

theorem appears_straight (flipx : Bool) (dx dy u v : ℤ) :
    AppearsAt flipx 0 dx dy u v ((dy + u : ℤ) : ℝ) ((dx + (if flipx = true then -v else v) : ℤ) : ℝ) := by
  constructor
  · rw [zero_mul, zero_div, Real.cos_zero, Real.sin_zero]; split <;> push_cast <;> ring
  · rw [zero_mul, zero_div, Real.cos_zero, Real.sin_zero]; push_cast; ring

/-- With five actuators, one pixel each, actuator `(3, 0)` is mirror pixel `(1, -2)`; a quarter turn and a translation take it to camera
pixel `(-3, 2)`, and a flip before the turn to `(1, 2)`. -/
example : ((1 : ℤ) : ℝ) / 1 = dmPos 5 2 (2 * 3) ∧ ((-2 : ℤ) : ℝ) / 1 = dmPos 5 2 (2 * 0) ∧
    AppearsAt false 90 3 (-1) (1 : ℤ) (-2 : ℤ) (-3) 2 ∧ AppearsAt true 90 3 (-1) (1 : ℤ) (-2 : ℤ) 1 2 := by
  refine ⟨by norm_num [dmPos], by norm_num [dmPos], ?_, ?_⟩
  · have := appears_quarter false 3 (-1) 1 (-2); norm_num at this ⊢; exact this
  · have := appears_quarter true 3 (-1) 1 (-2); norm_num at this ⊢; exact this

end Coralign.Props
