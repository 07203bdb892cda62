import Verif.Props.Mft
import Verif.Props.PadCrop
import Mathlib.Algebra.BigOperators.Field

/-!
# Property C116: where and how bright things land in the focal plane of a matrix Fourier transform
-/

namespace Coralign.Props

open Coralign

/-- Specification: the focal-plane field of the pupil field `e` at `u` (down) and `v` (across) lambda/D off axis, `ppp` pixels per pupil diameter D, as a
function of real coordinates. -/
noncomputable def focalField (e : Arr2 ℂ) (ppp u v : ℝ) : ℂ :=
  (∑ i : Fin e.nr, ∑ j : Fin e.nc, e.val i j * Complex.exp (-2 * Real.pi * Complex.I *
    ((u * (offc e.nr i : ℝ) + v * (offc e.nc j : ℝ)) / ppp : ℝ))) / (ppp : ℂ) ^ 2

/-- Specification: `e` with a wavefront tilt of `a` waves down and `b` waves across one pupil diameter. -/
noncomputable def withTilt (ppp a b : ℝ) (e : Arr2 ℂ) : Arr2 ℂ :=
  ⟨e.nr, e.nc, fun i j => e.val i j * Complex.exp (2 * Real.pi * Complex.I * ((a * (offc e.nr i : ℝ) + b * (offc e.nc j : ℝ)) / ppp : ℝ))⟩

theorem focalField_cis (e : Arr2 ℂ) (ppp u v : ℝ) : focalField e ppp u v =
    (∑ i : Fin e.nr, ∑ j : Fin e.nc, e.val i j * cis (-((u * (offc e.nr i : ℝ) + v * (offc e.nc j : ℝ)) / ppp))) / (ppp : ℂ) ^ 2 := by
  unfold focalField cis
  congr 1
  refine Finset.sum_congr rfl fun i _ => Finset.sum_congr rfl fun j _ => ?_
  congr 2
  push_cast
  ring

theorem mft_args {e f : Arr2 ℂ} {o0 o1 : ℤ} {ppl ppp : ℝ} (h : doMft e o0 o1 ppl ppp = .ok f) :
    MftArgs o0 o1 ppl ppp ∧ 0 < e.nr ∧ 0 < e.nc := by
  by_contra hb
  have : doMft e o0 o1 ppl ppp = .error .typeError := by
    exact C18_mft_rejects e o0 o1 ppl ppp hb
  rw [this] at h
  exact absurd h (by simp)

theorem mft_focal {e f : Arr2 ℂ} {o0 o1 : ℤ} {ppl ppp : ℝ} (h : doMft e o0 o1 ppl ppp = .ok f) :
    f.nr = o0.toNat ∧ f.nc = o1.toNat ∧ ∀ k l : ℤ, Reaches o0 o1 k l → f.centered k l = some (focalField e ppp (k / ppl) (l / ppl)) := by
  obtain ⟨ha, hr, hc⟩ := mft_args h
  rw [C18_mft_sum e o0 o1 ppl ppp ha hr hc] at h
  obtain rfl := Except.ok.inj h
  refine ⟨rfl, rfl, fun k l hk => ?_⟩
  have h0 := ha.rows
  have h1 := ha.cols
  unfold Reaches at hk
  unfold Arr2.centered
  simp only [Arr2.ofFn_nr, Arr2.ofFn_nc]
  rw [Arr2.px_ofFn_in _ (by omega), focalField_cis]
  congr 1
  unfold mftSum
  congr 1
  have e0 : offc o0.toNat (((o0.toNat : ℕ) : ℤ) / 2 + k).toNat = k := by unfold offc; omega
  have e1 : offc o1.toNat (((o1.toNat : ℕ) : ℤ) / 2 + l).toNat = l := by unfold offc; omega
  rw [e0, e1]
  refine Finset.sum_congr rfl fun i _ => Finset.sum_congr rfl fun j _ => ?_
  congr 3
  have hl := ha.lod.ne'
  have hp := ha.pup.ne'
  field_simp

/-- **C116, sampling.**  The output of `do_mft` samples one continuous field at multiples of `1/pixperlod` from the centre pixel, whatever the output shape. -/
theorem C116_sampled (e f : Arr2 ℂ) (o0 o1 : ℤ) (ppl ppp : ℝ) (h : doMft e o0 o1 ppl ppp = .ok f) (k l : ℤ) :
    f.centered k l = if Reaches o0 o1 k l then some (focalField e ppp (k / ppl) (l / ppl)) else none := by
  obtain ⟨h1, h2, h3⟩ := mft_focal h
  obtain ⟨ha, -, -⟩ := mft_args h
  have h0 := ha.rows
  have h1' := ha.cols
  split_ifs with hk
  · exact h3 k l hk
  · unfold Reaches at hk
    exact Arr2.px_of_not_inB _ (by rw [h1, h2]; omega)

/-- **C116, zoom.**  Two transforms of one field, at any two shapes and samplings, agree wherever they sample the same place. -/
theorem C116_zoom (e f f' : Arr2 ℂ) (o0 o1 o0' o1' : ℤ) (ppl ppl' ppp : ℝ) (h : doMft e o0 o1 ppl ppp = .ok f)
    (h' : doMft e o0' o1' ppl' ppp = .ok f') (k l k' l' : ℤ) (hk : Reaches o0 o1 k l) (hk' : Reaches o0' o1' k' l')
    (hu : (k : ℝ) / ppl = k' / ppl') (hv : (l : ℝ) / ppl = l' / ppl') : f.centered k l = f'.centered k' l' := by
  rw [(mft_focal h).2.2 k l hk, (mft_focal h').2.2 k' l' hk', hu, hv]

theorem focal_withTilt (e : Arr2 ℂ) (ppp a b u v : ℝ) : focalField (withTilt ppp a b e) ppp u v = focalField e ppp (u - a) (v - b) := by
  unfold focalField withTilt
  simp only
  congr 1
  refine Finset.sum_congr rfl fun i _ => Finset.sum_congr rfl fun j _ => ?_
  rw [mul_assoc, ← Complex.exp_add]
  congr 2
  push_cast
  ring

theorem mft_ok {e : Arr2 ℂ} {o0 o1 : ℤ} {ppl ppp : ℝ} (ha : MftArgs o0 o1 ppl ppp) (hr : 0 < e.nr) (hc : 0 < e.nc) :
    ∃ f, doMft e o0 o1 ppl ppp = .ok f := ⟨_, C18_mft_sum e o0 o1 ppl ppp ha hr hc⟩

/-- **C116, tilt.**  A tilt of `a` by `b` waves per pupil diameter moves the whole field by `a` by `b` lambda/D, towards larger indices for positive tilts,
for every real tilt. -/
theorem C116_tilt (e f : Arr2 ℂ) (o0 o1 : ℤ) (ppl ppp a b : ℝ) (h : doMft e o0 o1 ppl ppp = .ok f) :
    ∃ f', doMft (withTilt ppp a b e) o0 o1 ppl ppp = .ok f' ∧
      (∀ k l : ℤ, Reaches o0 o1 k l → f'.centered k l = some (focalField e ppp (k / ppl - a) (l / ppl - b))) ∧
      ∀ m n : ℤ, a * ppl = m → b * ppl = n → ∀ k l : ℤ, Reaches o0 o1 k l → Reaches o0 o1 (k + m) (l + n) →
        f'.centered (k + m) (l + n) = f.centered k l := by
  obtain ⟨ha, hr, hc⟩ := mft_args h
  obtain ⟨f', hf'⟩ := mft_ok (e := withTilt ppp a b e) ha hr hc
  refine ⟨f', hf', fun k l hk => ?_, fun m n hm hn k l hk hk' => ?_⟩
  · rw [(mft_focal hf').2.2 k l hk, focal_withTilt]
  · rw [(mft_focal hf').2.2 _ _ hk', (mft_focal h).2.2 k l hk, focal_withTilt]
    have hl := ha.lod.ne'
    congr 2
    · push_cast; rw [← hm]; field_simp; ring
    · push_cast; rw [← hn]; field_simp; ring

theorem focal_placed {w full : Arr2 ℂ} {y x : ℕ} (hp : PlacedAt w full y x) (ppp u v : ℝ) : focalField full ppp u v =
    (∑ i : Fin w.nr, ∑ j : Fin w.nc, w.val i j * cis (-((u * (offc full.nr (y + i) : ℝ) + v * (offc full.nc (x + j) : ℝ)) / ppp))) / (ppp : ℂ) ^ 2 := by
  rw [focalField_cis]
  congr 1
  obtain ⟨h1, h2, h3⟩ := hp
  have hfull : ∀ (i : Fin full.nr) (j : Fin full.nc), full.val i j = (w.px (((i : ℕ) : ℤ) - y) (((j : ℕ) : ℤ) - x)).getD 0 := by
    intro i j
    have := h3 (i : ℕ) (j : ℕ) (by omega)
    rw [Arr2.px_val] at this
    exact Option.some.inj this
  have he : ∀ (i : Fin w.nr) (j : Fin w.nc), w.val i j = (w.px (((i : ℕ) : ℤ)) (((j : ℕ) : ℤ))).getD 0 := by
    intro i j; rw [Arr2.px_val]; rfl
  simp only [hfull, he]
  rw [sum_window full.nr y w.nr h1 (fun i => ∑ j : Fin full.nc,
    (w.px ((i : ℤ) - y) (((j : ℕ) : ℤ) - x)).getD 0 * cis (-((u * (offc full.nr i : ℝ) + v * (offc full.nc j : ℝ)) / ppp)))]
  · refine Finset.sum_congr rfl fun i _ => ?_
    rw [sum_window full.nc x w.nc h2 (fun j =>
      (w.px (((y + (i : ℕ) : ℕ) : ℤ) - y) ((j : ℤ) - x)).getD 0 * cis (-((u * (offc full.nr (y + i) : ℝ) + v * (offc full.nc j : ℝ)) / ppp)))]
    · refine Finset.sum_congr rfl fun j _ => ?_
      push_cast
      simp only [add_sub_cancel_left]
    · intro j hj hne
      rw [Arr2.px_of_not_inB w (by omega)]
      simp
  · intro i hi hne
    refine Finset.sum_eq_zero fun j _ => ?_
    rw [Arr2.px_of_not_inB w (by omega)]
    simp

theorem focal_moved {w full full' : Arr2 ℂ} {y x y' x' : ℕ} (hp : PlacedAt w full y x) (hp' : PlacedAt w full' y' x') (hr : full'.nr = full.nr)
    (hc : full'.nc = full.nc) (ppp u v : ℝ) : focalField full' ppp u v =
      cis (-((u * ((y' : ℝ) - y) + v * ((x' : ℝ) - x)) / ppp)) * focalField full ppp u v := by
  rw [focal_placed hp, focal_placed hp', hr, hc, ← mul_div_assoc]
  congr 1
  rw [Finset.mul_sum]
  refine Finset.sum_congr rfl fun i _ => ?_
  rw [Finset.mul_sum]
  refine Finset.sum_congr rfl fun j _ => ?_
  rw [mul_left_comm, ← cis_add]
  congr 2
  unfold offc
  push_cast
  ring

/-- **C116, moved pupil.**  The same pupil placed elsewhere in the array gives every focal-plane pixel the same brightness and only turns its phase, by one
wave per `D` of motion and lambda/D of distance from the axis. -/
theorem C116_moved (w full full' f : Arr2 ℂ) (y x y' x' : ℕ) (o0 o1 : ℤ) (ppl ppp : ℝ) (hp : PlacedAt w full y x) (hp' : PlacedAt w full' y' x')
    (hr : full'.nr = full.nr) (hc : full'.nc = full.nc) (h : doMft full o0 o1 ppl ppp = .ok f) :
    ∃ f', doMft full' o0 o1 ppl ppp = .ok f' ∧ ∀ k l : ℤ, Reaches o0 o1 k l → ∃ s s' : ℂ, f.centered k l = some s ∧ f'.centered k l = some s' ∧
      s' = s * Complex.exp (-2 * Real.pi * Complex.I * ((((y' : ℝ) - y) / ppp) * (k / ppl) + (((x' : ℝ) - x) / ppp) * (l / ppl) : ℝ)) ∧ ‖s'‖ = ‖s‖ := by
  obtain ⟨ha, hr0, hc0⟩ := mft_args h
  obtain ⟨f', hf'⟩ := mft_ok (e := full') ha (hr ▸ hr0) (hc ▸ hc0)
  refine ⟨f', hf', fun k l hk => ⟨_, _, (mft_focal h).2.2 k l hk, (mft_focal hf').2.2 k l hk, ?_, ?_⟩⟩
  · rw [focal_moved hp hp' hr hc, mul_comm]
    congr 1
    unfold cis
    congr 1
    push_cast
    ring
  · rw [focal_moved hp hp' hr hc, norm_mul, norm_cis, one_mul]

/-- **C116, moved crop.**  Where a crop sits in the pupil array does not change the brightness `do_offcenter_mft` gives any pixel. -/
theorem C116_moved_crop (w f : Arr2 ℂ) (y x y' x' P0 P1 : ℕ) (o0 o1 : ℤ) (ppl ppp : ℝ) (hw : 0 < w.nr ∧ 0 < w.nc) (hfit : y' + w.nr ≤ P0 ∧ x' + w.nc ≤ P1)
    (hfit0 : y + w.nr ≤ P0 ∧ x + w.nc ≤ P1) (h : doOffcenterMft w o0 o1 ppl ppp P0 P1 y x = .ok f) :
    ∃ f', doOffcenterMft w o0 o1 ppl ppp P0 P1 y' x' = .ok f' ∧ ∀ k l : ℤ, Reaches o0 o1 k l → ∃ s s' : ℂ, f.centered k l = some s ∧
      f'.centered k l = some s' ∧ ‖s'‖ = ‖s‖ := by
  have place : ∀ y x : ℕ, y + w.nr ≤ P0 ∧ x + w.nc ≤ P1 → PlacedAt w (Arr2.ofFn P0 P1 fun i j => (w.px ((i : ℤ) - y) ((j : ℤ) - x)).getD 0) y x := by
    intro y x hf
    refine ⟨hf.1, hf.2, fun i j hij => ?_⟩
    rw [Arr2.px_ofFn_in (nr := P0) (nc := P1) _ hij, Int.toNat_of_nonneg hij.1.1, Int.toNat_of_nonneg hij.2.1]
  have e0 := C16_offcenter_equals_embedded w _ o0 o1 ppl ppp y x (by simp only [Arr2.ofFn_nr]; omega) (by simp only [Arr2.ofFn_nc]; omega) (place y x hfit0)
  have e1 := C16_offcenter_equals_embedded w _ o0 o1 ppl ppp y' x' (by simp only [Arr2.ofFn_nr]; omega) (by simp only [Arr2.ofFn_nc]; omega) (place y' x' hfit)
  simp only [Arr2.ofFn_nr, Arr2.ofFn_nc] at e0 e1
  rw [e0] at h
  obtain ⟨f', h1, h2⟩ := C116_moved w _ _ f y x y' x' o0 o1 ppl ppp (place y x hfit0) (place y' x' hfit) rfl rfl h
  refine ⟨f', e1.trans h1, fun k l hk => ?_⟩
  obtain ⟨s, s', a, b, -, c⟩ := h2 k l hk
  exact ⟨s, s', a, b, c⟩

theorem embed_placed (e : Arr2 ℂ) (H W : ℕ) (hh : e.nr ≤ H) (hw : e.nc ≤ W) :
    PlacedAt e (embed e H W 0) (H / 2 - e.nr / 2) (W / 2 - e.nc / 2) := by
  refine ⟨by show _ ≤ H; omega, by show _ ≤ W; omega, fun i j hij => ?_⟩
  unfold embed at hij ⊢
  rw [Arr2.px_ofFn_in (nr := H) (nc := W) _ hij]
  congr 3 <;> omega

theorem energy_placed {w full : Arr2 ℂ} {y x : ℕ} (hp : PlacedAt w full y x) :
    ∑ i, ∑ j, ‖full.val i j‖ ^ 2 = ∑ i, ∑ j, ‖w.val i j‖ ^ 2 := by
  obtain ⟨h1, h2, h3⟩ := hp
  have hfull : ∀ (i : Fin full.nr) (j : Fin full.nc), full.val i j = (w.px (((i : ℕ) : ℤ) - y) (((j : ℕ) : ℤ) - x)).getD 0 := by
    intro i j
    have := h3 (i : ℕ) (j : ℕ) (by omega)
    rw [Arr2.px_val] at this
    exact Option.some.inj this
  have he : ∀ (i : Fin w.nr) (j : Fin w.nc), w.val i j = (w.px (((i : ℕ) : ℤ)) (((j : ℕ) : ℤ))).getD 0 := by
    intro i j; rw [Arr2.px_val]; rfl
  simp only [hfull, he]
  rw [sum_window full.nr y w.nr h1 (fun i => ∑ j : Fin full.nc, ‖(w.px ((i : ℤ) - y) (((j : ℕ) : ℤ) - x)).getD 0‖ ^ 2)]
  · refine Finset.sum_congr rfl fun i _ => ?_
    rw [sum_window full.nc x w.nc h2 (fun j => ‖(w.px (((y + (i : ℕ) : ℕ) : ℤ) - y) ((j : ℤ) - x)).getD 0‖ ^ 2)]
    · refine Finset.sum_congr rfl fun j _ => ?_
      push_cast
      simp only [add_sub_cancel_left]
    · intro j hj hne
      rw [Arr2.px_of_not_inB w (by omega)]
      simp
  · intro i hi hne
    refine Finset.sum_eq_zero fun j _ => ?_
    rw [Arr2.px_of_not_inB w (by omega)]
    simp

/-- **C116, zero padding.**  `pad_crop` to a larger array does not change the transform. -/
theorem C116_padded (e e' : Arr2 ℂ) (h w : ℤ) (o0 o1 : ℤ) (ppl ppp : ℝ) (hr : 0 < e.nr) (hc : 0 < e.nc) (hh : (e.nr : ℤ) ≤ h) (hw : (e.nc : ℤ) ≤ w)
    (hp : padCrop e [h, w] 0 = .ok e') : doMft e' o0 o1 ppl ppp = doMft e o0 o1 ppl ppp := by
  rw [padCrop_eq e h w 0 (by omega) (by omega)] at hp
  obtain rfl := Except.ok.inj hp
  obtain ⟨H, rfl⟩ : ∃ n : ℕ, h = n := ⟨h.toNat, by omega⟩
  obtain ⟨W, rfl⟩ : ∃ n : ℕ, w = n := ⟨w.toNat, by omega⟩
  simp only [Int.toNat_natCast]
  have hpl := embed_placed e H W (by omega) (by omega)
  by_cases ha : MftArgs o0 o1 ppl ppp
  · obtain ⟨f, hf⟩ := mft_ok (e := e) ha hr hc
    obtain ⟨f', hf'⟩ := mft_ok (e := embed e H W 0) ha (by show 0 < H; omega) (by show 0 < W; omega)
    rw [hf, hf']
    congr 1
    obtain ⟨a1, a2, a3⟩ := mft_focal hf
    obtain ⟨b1, b2, b3⟩ := mft_focal hf'
    refine Arr2.ext_px (by rw [a1, b1]) (by rw [a2, b2]) fun i j hi hi' hj hj' => ?_
    have h0 := ha.rows
    have h1 := ha.cols
    have hk : Reaches o0 o1 (i - o0 / 2) (j - o1 / 2) := by unfold Reaches; omega
    have c1 := a3 _ _ hk
    have c2 := b3 _ _ hk
    unfold Arr2.centered at c1 c2
    rw [a1, a2] at c1
    rw [b1, b2] at c2
    have t0 : ((o0.toNat : ℕ) : ℤ) / 2 + (i - o0 / 2) = i := by omega
    have t1 : ((o1.toNat : ℕ) : ℤ) / 2 + (j - o1 / 2) = j := by omega
    rw [t0, t1] at c1 c2
    rw [c1, c2, focal_placed hpl, focalField_cis]
    congr 2
    refine Finset.sum_congr rfl fun a _ => Finset.sum_congr rfl fun b _ => ?_
    have r0 : offc (embed e H W 0).nr (H / 2 - e.nr / 2 + a) = offc e.nr a := by
      show offc H _ = _
      unfold offc; omega
    have r1 : offc (embed e H W 0).nc (W / 2 - e.nc / 2 + b) = offc e.nc b := by
      show offc W _ = _
      unfold offc; omega
    rw [r0, r1]
  · rw [C18_mft_rejects _ o0 o1 ppl ppp fun h => ha h.1, C18_mft_rejects _ o0 o1 ppl ppp fun h => ha h.1]

/-- Specification: the complex conjugate of a field. -/
noncomputable def conjField (e : Arr2 ℂ) : Arr2 ℂ := e.map (starRingEnd ℂ)

/-- **C116, conjugate.**  Conjugating the pupil field turns the focal-plane field by half a turn and conjugates it; a real pupil (no phase) therefore has a
focal-plane brightness symmetric about the centre pixel. -/
theorem C116_conjugate (e f : Arr2 ℂ) (o0 o1 : ℤ) (ppl ppp : ℝ) (h : doMft e o0 o1 ppl ppp = .ok f) :
    ∃ f', doMft (conjField e) o0 o1 ppl ppp = .ok f' ∧ (∀ k l : ℤ, Reaches o0 o1 k l → Reaches o0 o1 (-k) (-l) →
      f'.centered k l = (f.centered (-k) (-l)).map (starRingEnd ℂ)) ∧
      ((∀ i j, (e.val i j).im = 0) → ∀ k l : ℤ, Reaches o0 o1 k l → Reaches o0 o1 (-k) (-l) →
        (f.centered k l).map (fun z => ‖z‖) = (f.centered (-k) (-l)).map fun z => ‖z‖) := by
  obtain ⟨ha, hr, hc⟩ := mft_args h
  obtain ⟨f', hf'⟩ := mft_ok (e := conjField e) ha hr hc
  have key : ∀ k l : ℤ, Reaches o0 o1 k l → Reaches o0 o1 (-k) (-l) → f'.centered k l = (f.centered (-k) (-l)).map (starRingEnd ℂ) := by
    intro k l hk hk'
    rw [(mft_focal hf').2.2 k l hk, (mft_focal h).2.2 _ _ hk', focalField_cis, focalField_cis]
    simp only [Option.map_some, map_div₀, map_sum, map_mul, map_pow, Complex.conj_ofReal, conj_cis]
    congr 2
    refine Finset.sum_congr rfl fun i _ => Finset.sum_congr rfl fun j _ => ?_
    show (starRingEnd ℂ) (e.val i j) * cis (-((↑k / ppl * ((offc e.nr i : ℤ) : ℝ) + ↑l / ppl * ((offc e.nc j : ℤ) : ℝ)) / ppp)) = _
    congr 2
    push_cast
    ring
  refine ⟨f', hf', key, fun him k l hk hk' => ?_⟩
  have he : conjField e = e := by
    obtain ⟨n, m, v⟩ := e
    unfold conjField Arr2.map
    congr 1
    funext i j
    exact Complex.conj_eq_iff_im.mpr (him i j)
  rw [he, h] at hf'
  obtain rfl := Except.ok.inj hf'
  rw [key k l hk hk', Option.map_map]
  congr 1
  funext z
  exact RCLike.norm_conj z

/-- **C116, brightest.**  No pixel is brighter than the summed moduli of the pupil over `pixperpupil²`, and a pupil without phase reaches that in the centre
pixel, so no focal-plane pixel of any aberrated version of it is brighter than its own centre pixel. -/
theorem C116_brightest (e f : Arr2 ℂ) (o0 o1 : ℤ) (ppl ppp : ℝ) (h : doMft e o0 o1 ppl ppp = .ok f) :
    (∀ k l : ℤ, ∀ s : ℂ, f.centered k l = some s → ‖s‖ ≤ (∑ i, ∑ j, ‖e.val i j‖) / ppp ^ 2) ∧
    ∃ g, doMft (e.map fun z => (‖z‖ : ℂ)) o0 o1 ppl ppp = .ok g ∧ g.centered 0 0 = some ((((∑ i, ∑ j, ‖e.val i j‖) / ppp ^ 2 : ℝ)) : ℂ) := by
  obtain ⟨ha, hr, hc⟩ := mft_args h
  have h0 := ha.rows
  have h1 := ha.cols
  constructor
  · intro k l s hs
    rw [C116_sampled e f o0 o1 ppl ppp h] at hs
    split_ifs at hs
    obtain rfl := Option.some.inj hs
    rw [focalField_cis, norm_div, norm_pow, Complex.norm_real, Real.norm_of_nonneg ha.pup.le]
    apply div_le_div_of_nonneg_right _ (by have := ha.pup; positivity)
    refine (norm_sum_le _ _).trans (Finset.sum_le_sum fun i _ => (norm_sum_le _ _).trans (Finset.sum_le_sum fun j _ => ?_))
    rw [norm_mul, norm_cis, mul_one]
  · obtain ⟨g, hg⟩ := mft_ok (e := e.map fun z => (‖z‖ : ℂ)) ha hr hc
    refine ⟨g, hg, ?_⟩
    rw [(mft_focal hg).2.2 0 0 (by unfold Reaches; omega), focalField_cis]
    simp only [Int.cast_zero, zero_div, zero_mul, add_zero, neg_zero, cis_zero, mul_one]
    push_cast
    rfl

/-- **C116, energy.**  When the output covers one period of the focal plane (`N` by `N` with `pixperlod * pixperpupil = N`, no smaller than the field), the
summed brightness per (lambda/D)² equals the summed brightness per pupil area. -/
theorem C116_energy (e f : Arr2 ℂ) (N : ℕ) (ppl ppp : ℝ) (hr : e.nr ≤ N) (hc : e.nc ≤ N) (hm : ppl * ppp = N) (h : doMft e N N ppl ppp = .ok f) :
    (∑ p, ∑ q, ‖f.val p q‖ ^ 2) / ppl ^ 2 = (∑ i, ∑ j, ‖e.val i j‖ ^ 2) / ppp ^ 2 := by
  obtain ⟨ha, hr0, hc0⟩ := mft_args h
  have hN : 0 < N := by have := ha.rows; omega
  have hpad := C116_padded e (embed e N N 0) N N N N ppl ppp hr0 hc0 (by omega) (by omega)
    (by rw [padCrop_eq e N N 0 (by omega) (by omega)]; rfl)
  rw [h] at hpad
  have hfft := C18_matched_fft N hN (embed e N N 0).val ppl ppp ha.lod ha.pup hm
  have hf : f = (doFft (embed e N N 0)).map fun z => z / (ppp : ℂ) ^ 2 := Except.ok.inj (hpad.symm.trans hfft)
  subst hf
  have hpar := C19_parseval (embed e N N 0)
  rw [energy_placed (embed_placed e N N hr hc)] at hpar
  have e1 : ∑ p, ∑ q, ‖((doFft (embed e N N 0)).map fun z => z / (ppp : ℂ) ^ 2).val p q‖ ^ 2 =
      (∑ p, ∑ q, ‖(doFft (embed e N N 0)).val p q‖ ^ 2) / (ppp ^ 2) ^ 2 := by
    rw [Finset.sum_div]
    refine Finset.sum_congr rfl fun p _ => ?_
    rw [Finset.sum_div]
    refine Finset.sum_congr rfl fun q _ => ?_
    show ‖(doFft (embed e N N 0)).val p q / (ppp : ℂ) ^ 2‖ ^ 2 = _
    rw [norm_div, div_pow, norm_pow, Complex.norm_real, Real.norm_of_nonneg ha.pup.le]
  rw [e1, hpar]
  have hs : ((embed e N N 0).nr * (embed e N N 0).nc : ℝ) = (ppl * ppp) * (ppl * ppp) := by rw [hm]; rfl
  rw [hs]
  have hl := ha.lod.ne'
  have hp := ha.pup.ne'
  field_simp

/-- **C116, adjoint.**  `do_imft` is the adjoint of `do_mft` for every pair of shapes, weighting each plane by its pixel area. -/
theorem C116_adjoint (e g f b : Arr2 ℂ) (ppl ppp : ℝ) (hf : doMft e g.nr g.nc ppl ppp = .ok f) (hb : doImft g e.nr e.nc ppl ppp = .ok b) :
    (∑ p : Fin g.nr, ∑ q : Fin g.nc, (starRingEnd ℂ) (g.val p q) * (f.px p q).getD 0) / (ppl : ℂ) ^ 2 =
      (∑ i : Fin e.nr, ∑ j : Fin e.nc, (starRingEnd ℂ) ((b.px i j).getD 0) * e.val i j) / (ppp : ℂ) ^ 2 := by
  obtain ⟨ha, hr, hc⟩ := mft_args hf
  have h0 := ha.rows
  have h1 := ha.cols
  have hb' : MftArgs e.nr e.nc ppl ppp := ⟨by exact_mod_cast hr, by exact_mod_cast hc, ha.lod, ha.pup⟩
  rw [C18_mft_sum e _ _ ppl ppp ha hr hc] at hf
  rw [C18_imft_sum g _ _ ppl ppp hb' (by exact_mod_cast h0) (by exact_mod_cast h1)] at hb
  obtain rfl := Except.ok.inj hf
  obtain rfl := Except.ok.inj hb
  simp only [Int.toNat_natCast]
  have t1 : ∀ (p : Fin g.nr) (q : Fin g.nc), ((Arr2.ofFn g.nr g.nc fun p q => mftSum e g.nr g.nc ppl ppp p q).px ((p : ℕ) : ℤ) ((q : ℕ) : ℤ)).getD 0 =
      mftSum e g.nr g.nc ppl ppp p q := by
    intro p q
    rw [Arr2.px_ofFn_in _ (by omega)]
    rfl
  have t2 : ∀ (p : Fin e.nr) (q : Fin e.nc), ((Arr2.ofFn e.nr e.nc fun p q => imftSum g e.nr e.nc ppl ppp p q).px ((p : ℕ) : ℤ) ((q : ℕ) : ℤ)).getD 0 =
      imftSum g e.nr e.nc ppl ppp p q := by
    intro p q
    rw [Arr2.px_ofFn_in _ (by omega)]
    rfl
  simp only [t1, t2]
  unfold mftSum imftSum
  simp only [map_div₀, map_sum, map_mul, map_pow, Complex.conj_ofReal, conj_cis]
  have hl : (ppl : ℂ) ≠ 0 := by exact_mod_cast ha.lod.ne'
  have hp : (ppp : ℂ) ≠ 0 := by exact_mod_cast ha.pup.ne'
  simp only [← mul_div_assoc, div_mul_eq_mul_div, ← Finset.sum_div, Finset.mul_sum, Finset.sum_mul]
  rw [div_right_comm]
  congr 2
  have swap : ∀ G : Fin g.nr → Fin g.nc → Fin e.nr → Fin e.nc → ℂ, ∑ p, ∑ q, ∑ i, ∑ j, G p q i j = ∑ i, ∑ j, ∑ p, ∑ q, G p q i j := by
    intro G
    calc ∑ p, ∑ q, ∑ i, ∑ j, G p q i j = ∑ p, ∑ i, ∑ q, ∑ j, G p q i j := Finset.sum_congr rfl fun p _ => Finset.sum_comm
      _ = ∑ i, ∑ p, ∑ q, ∑ j, G p q i j := Finset.sum_comm
      _ = ∑ i, ∑ p, ∑ j, ∑ q, G p q i j := Finset.sum_congr rfl fun i _ => Finset.sum_congr rfl fun p _ => Finset.sum_comm
      _ = ∑ i, ∑ j, ∑ p, ∑ q, G p q i j := Finset.sum_congr rfl fun i _ => Finset.sum_comm
  rw [swap]
  refine Finset.sum_congr rfl fun i _ => Finset.sum_congr rfl fun j _ => Finset.sum_congr rfl fun p _ => Finset.sum_congr rfl fun q _ => ?_
  rw [show (((offc e.nr i : ℤ) : ℝ) * ((offc g.nr p : ℤ) : ℝ) + ((offc e.nc j : ℤ) : ℝ) * ((offc g.nc q : ℤ) : ℝ)) =
    (((offc g.nr p : ℤ) : ℝ) * ((offc e.nr i : ℤ) : ℝ) + ((offc g.nc q : ℤ) : ℝ) * ((offc e.nc j : ℤ) : ℝ)) by ring]
  ring

/-- **C116, transposition.**  Transposing the pupil array and exchanging the output sizes transposes the result. -/
theorem C116_transposed (n m : ℕ) (v : Fin n → Fin m → ℂ) (o0 o1 : ℕ) (ppl ppp : ℝ) (F : Fin o0 → Fin o1 → ℂ)
    (h : doMft ⟨n, m, v⟩ o0 o1 ppl ppp = .ok ⟨o0, o1, F⟩) :
    doMft ⟨m, n, fun j i => v i j⟩ o1 o0 ppl ppp = .ok ⟨o1, o0, fun q p => F p q⟩ := by
  obtain ⟨ha, hr, hc⟩ := mft_args h
  rw [C18_mft_sum _ _ _ ppl ppp ha hr hc] at h
  rw [C18_mft_sum ⟨m, n, fun j i => v i j⟩ _ _ ppl ppp ⟨ha.cols, ha.rows, ha.lod, ha.pup⟩ hc hr]
  have h' := Except.ok.inj h
  simp only [Int.toNat_natCast] at h' ⊢
  congr 1
  refine congrArg (Arr2.mk o1 o0) (funext fun q => funext fun p => ?_)
  have hF : mftSum ⟨n, m, v⟩ o0 o1 ppl ppp p q = F p q := by
    have t := congrArg (fun a : Arr2 ℂ => a.px ((p : ℕ) : ℤ) ((q : ℕ) : ℤ)) h'
    rw [Arr2.px_ofFn_in _ (by omega)] at t
    have t2 : (⟨o0, o1, F⟩ : Arr2 ℂ).px ((p : ℕ) : ℤ) ((q : ℕ) : ℤ) = some (F p q) := Arr2.px_val (⟨o0, o1, F⟩ : Arr2 ℂ) p q
    rw [t2] at t
    exact Option.some.inj t
  rw [← hF]
  unfold mftSum
  simp only
  congr 1
  rw [Finset.sum_comm]
  refine Finset.sum_congr rfl fun i _ => Finset.sum_congr rfl fun j _ => ?_
  congr 3
  ring

/-! ### The hypotheses are met -/

/-- A 2 by 2 pupil with one aberrated pixel. -/
noncomputable def smallPupil : Arr2 ℂ := ⟨2, 2, fun i j => if i = 0 ∧ j = 0 then Complex.I else 1⟩

/-- The transform of a small pupil exists at every shape and sampling the claims use: a 5 by 3 output at 2 pixels per lambda/D, 4 by 4 at matched sampling. -/
example : (∃ f, doMft smallPupil 5 3 2 2 = .ok f) ∧ (∃ f, doMft smallPupil 4 4 2 2 = .ok f) ∧ smallPupil.nr ≤ 4 ∧ smallPupil.nc ≤ 4 ∧
    (2 : ℝ) * 2 = ((4 : ℕ) : ℝ) := by
  refine ⟨mft_ok ⟨?_, ?_, ?_, ?_⟩ (by show 0 < 2; norm_num) (by show 0 < 2; norm_num),
    mft_ok ⟨?_, ?_, ?_, ?_⟩ (by show 0 < 2; norm_num) (by show 0 < 2; norm_num), le_of_lt (by show 2 < 4; norm_num), le_of_lt (by show 2 < 4; norm_num), ?_⟩ <;>
    norm_num

/-- Half a wave of tilt at 2 pixels per lambda/D is a whole pixel, and both ends of that motion are inside a 5 by 3 output. -/
example : (1 / 2 : ℝ) * 2 = ((1 : ℤ) : ℝ) ∧ Reaches 5 3 0 0 ∧ Reaches 5 3 (0 + 1) (0 + 1) ∧ Reaches 5 3 (-2) (-1) ∧ Reaches 5 3 2 1 := by
  refine ⟨by norm_num, ?_, ?_, ?_, ?_⟩ <;> decide

/-- The small pupil in two places of one larger array. -/
example : ∃ full full' : Arr2 ℂ, full.nr = 6 ∧ full'.nr = full.nr ∧ full'.nc = full.nc ∧ PlacedAt smallPupil full 1 1 ∧ PlacedAt smallPupil full' 3 2 := by
  refine ⟨Arr2.ofFn 6 6 fun i j => (smallPupil.px ((i : ℤ) - (1 : ℕ)) ((j : ℤ) - (1 : ℕ))).getD 0,
    Arr2.ofFn 6 6 fun i j => (smallPupil.px ((i : ℤ) - (3 : ℕ)) ((j : ℤ) - (2 : ℕ))).getD 0, rfl, rfl, rfl, ?_, ?_⟩
  all_goals
    refine ⟨by show _ + 2 ≤ 6; norm_num, by show _ + 2 ≤ 6; norm_num, fun i j hij => ?_⟩
    rw [Arr2.px_ofFn_in (nr := 6) (nc := 6) _ hij, Int.toNat_of_nonneg hij.1.1, Int.toNat_of_nonneg hij.2.1]

/-- The small pupil inside a larger off-centre frame, and its inverse transform back to its own shape. -/
example : (∃ f, doOffcenterMft smallPupil 5 3 2 2 (6 : ℕ) (6 : ℕ) (1 : ℕ) (1 : ℕ) = .ok f) ∧ ∃ b, doImft smallPupil smallPupil.nr smallPupil.nc 2 2 = .ok b := by
  constructor
  · have hp : PlacedAt smallPupil (Arr2.ofFn 6 6 fun i j => (smallPupil.px ((i : ℤ) - (1 : ℕ)) ((j : ℤ) - (1 : ℕ))).getD 0) 1 1 := by
      refine ⟨by show _ + 2 ≤ 6; norm_num, by show _ + 2 ≤ 6; norm_num, fun i j hij => ?_⟩
      rw [Arr2.px_ofFn_in (nr := 6) (nc := 6) _ hij, Int.toNat_of_nonneg hij.1.1, Int.toNat_of_nonneg hij.2.1]
    have e := C16_offcenter_equals_embedded smallPupil _ 5 3 2 2 1 1 (by show 0 < 6; norm_num) (by show 0 < 6; norm_num) hp
    obtain ⟨f, hf⟩ := mft_ok (e := Arr2.ofFn 6 6 fun i j => (smallPupil.px ((i : ℤ) - (1 : ℕ)) ((j : ℤ) - (1 : ℕ))).getD 0) (o0 := 5) (o1 := 3)
      (ppl := 2) (ppp := 2) ⟨by norm_num, by norm_num, by norm_num, by norm_num⟩ (by show 0 < 6; norm_num) (by show 0 < 6; norm_num)
    exact ⟨f, e.trans hf⟩
  · exact ⟨_, C18_imft_sum smallPupil 2 2 2 2 ⟨by norm_num, by norm_num, by norm_num, by norm_num⟩ (by show 0 < 2; norm_num) (by show 0 < 2; norm_num)⟩

end Coralign.Props
