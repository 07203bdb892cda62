import Verif.Spec.FitShapes
import Verif.Props.AmpThresh
import Verif.Lemmas.PadCrop
import Verif.Props.Pupil
import Verif.Props.SpmShear

/-!
# C79, C80: ellipse and circle fits
-/

namespace Coralign.Props

open Coralign Coralign.Spec

/-! ### Dilation and erosion -/

theorem px_dilate3 (m : Arr2 Bool) (i j : ℤ) : (dilate3 m).px i j = some true ↔
    ((0 ≤ i ∧ i < m.nr) ∧ (0 ≤ j ∧ j < m.nc)) ∧ ∃ i' j' : ℤ, |i' - i| ≤ 1 ∧ |j' - j| ≤ 1 ∧ m.px i' j' = some true := by
  by_cases hin : (0 ≤ i ∧ i < m.nr) ∧ (0 ≤ j ∧ j < m.nc)
  · rw [Arr2.px_of_inB _ (show (0 ≤ i ∧ i < (dilate3 m).nr) ∧ (0 ≤ j ∧ j < (dilate3 m).nc) from hin)]
    simp only [dilate3, Option.some.injEq, decide_eq_true_eq, hin, true_and]
    rw [Int.toNat_of_nonneg hin.1.1, Int.toNat_of_nonneg hin.2.1]
    constructor
    · rintro ⟨a, b, h⟩
      refine ⟨_, _, ?_, ?_, h⟩ <;> rw [abs_le] <;> omega
    · rintro ⟨i', j', hi, hj, h⟩
      rw [abs_le] at hi hj
      refine ⟨⟨(i' - i + 1).toNat, by omega⟩, ⟨(j' - j + 1).toNat, by omega⟩, ?_⟩
      rw [← h]
      congr 1 <;> simp only <;> omega
  · rw [Arr2.px_of_not_inB _ (show ¬ ((0 ≤ i ∧ i < (dilate3 m).nr) ∧ (0 ≤ j ∧ j < (dilate3 m).nc)) from hin)]
    simp [hin]

theorem dilate3_iterate (n : ℕ) (m : Arr2 Bool) : (dilate3^[n] m).nr = m.nr ∧ (dilate3^[n] m).nc = m.nc ∧ ∀ i j : ℤ,
    (dilate3^[n] m).px i j = some true ↔
      ((0 ≤ i ∧ i < m.nr) ∧ (0 ≤ j ∧ j < m.nc)) ∧ ∃ i' j' : ℤ, |i' - i| ≤ n ∧ |j' - j| ≤ n ∧ m.px i' j' = some true := by
  induction n with
  | zero =>
    refine ⟨rfl, rfl, fun i j => ⟨fun h => ⟨(Arr2.px_isSome m i j).mp (by rw [show m.px i j = _ from h]; rfl), i, j, by simp, by simp, h⟩, ?_⟩⟩
    rintro ⟨-, i', j', hi, hj, h⟩
    rw [abs_le] at hi hj
    rw [show i = i' by push_cast at hi; omega, show j = j' by push_cast at hj; omega]
    exact h
  | succ n ih =>
    rw [Function.iterate_succ_apply']
    obtain ⟨hr, hc, ih⟩ := ih
    refine ⟨hr, hc, fun i j => ?_⟩
    rw [px_dilate3, hr, hc]
    refine and_congr_right fun hin => ⟨?_, ?_⟩
    · rintro ⟨i', j', hi, hj, h⟩
      obtain ⟨-, i'', j'', hi', hj', h'⟩ := (ih i' j').mp h
      rw [abs_le] at hi hj hi' hj'
      refine ⟨i'', j'', ?_, ?_, h'⟩ <;> rw [abs_le] <;> push_cast <;> omega
    · rintro ⟨i'', j'', hi, hj, h⟩
      have hb := (Arr2.px_isSome m i'' j'').mp (by rw [h]; rfl)
      rw [abs_le] at hi hj
      push_cast at hi hj
      refine ⟨max (i - 1) (min (i + 1) i''), max (j - 1) (min (j + 1) j''), ?_, ?_, (ih _ _).mpr ⟨by omega, i'', j'', ?_, ?_, h⟩⟩ <;> rw [abs_le] <;> omega

theorem erode3_iterate (n : ℕ) (m : Arr2 Bool) : ((fun a => erode a (squareElem 1))^[n] m).nr = m.nr ∧
    ((fun a => erode a (squareElem 1))^[n] m).nc = m.nc ∧ ∀ i j : ℤ,
    ((fun a => erode a (squareElem 1))^[n] m).px i j = some true ↔ ∀ i' j' : ℤ, |i' - i| ≤ n → |j' - j| ≤ n → m.px i' j' = some true := by
  induction n with
  | zero =>
    refine ⟨rfl, rfl, fun i j => ⟨fun h i' j' hi hj => ?_, fun h => h i j (by simp) (by simp)⟩⟩
    rw [abs_le] at hi hj
    push_cast at hi hj
    rw [show i' = i by omega, show j' = j by omega]
    exact h
  | succ n ih =>
    rw [Function.iterate_succ_apply']
    obtain ⟨hr, hc, ih⟩ := ih
    refine ⟨hr, hc, fun i j => ?_⟩
    rw [px_erode_square]
    constructor
    · intro h i'' j'' hi hj
      rw [abs_le] at hi hj
      push_cast at hi hj
      refine (ih _ _).mp (h (max (i - 1) (min (i + 1) i'')) (max (j - 1) (min (j + 1) j'')) ?_ ?_) i'' j'' ?_ ?_ <;> rw [abs_le] <;> push_cast <;> omega
    · intro h i' j' hi hj
      refine (ih _ _).mpr fun i'' j'' hi' hj' => h i'' j'' ?_ ?_
      all_goals rw [abs_le] at *
      all_goals push_cast at *
      all_goals omega

/-- What closing leaves, in coordinates about the centre. -/
theorem places_closeStruts (n : ℕ) (m : Arr2 Bool) : (closeStruts n m).nr = m.nr ∧ (closeStruts n m).nc = m.nc ∧
    places (closeStruts n m) = {p | ∀ q, Near n p q → Reaches m.nr m.nc q.1 q.2 ∧ ∃ r ∈ places m, Near n q r} := by
  obtain ⟨hr, hc, he⟩ := erode3_iterate n (dilate3^[n] m)
  obtain ⟨hr', hc', hd⟩ := dilate3_iterate n m
  refine ⟨hr.trans hr', hc.trans hc', ?_⟩
  ext ⟨k, l⟩
  unfold places Near Arr2.centered
  simp only [Set.mem_setOf_eq]
  have hnr : (closeStruts n m).nr = m.nr := hr.trans hr'
  have hnc : (closeStruts n m).nc = m.nc := hc.trans hc'
  rw [hnr, hnc]
  unfold closeStruts
  rw [he]
  constructor
  · intro h q hq
    have := (hd _ _).mp (h ((m.nr : ℤ) / 2 + q.1) ((m.nc : ℤ) / 2 + q.2) (by rw [show (m.nr : ℤ) / 2 + q.1 - ((m.nr : ℤ) / 2 + k) = q.1 - k by ring]; exact hq.1)
      (by rw [show (m.nc : ℤ) / 2 + q.2 - ((m.nc : ℤ) / 2 + l) = q.2 - l by ring]; exact hq.2))
    obtain ⟨hin, i', j', hi, hj, hm⟩ := this
    refine ⟨by unfold Reaches; omega, (i' - (m.nr : ℤ) / 2, j' - (m.nc : ℤ) / 2), ?_, ?_, ?_⟩
    · simp only
      rw [show (m.nr : ℤ) / 2 + (i' - (m.nr : ℤ) / 2) = i' by ring, show (m.nc : ℤ) / 2 + (j' - (m.nc : ℤ) / 2) = j' by ring]
      exact hm
    · simp only; rw [abs_le] at hi ⊢; omega
    · simp only; rw [abs_le] at hj ⊢; omega
  · intro h i' j' hi hj
    obtain ⟨hin, r, hr, h1, h2⟩ := h (i' - (m.nr : ℤ) / 2, j' - (m.nc : ℤ) / 2) (by
      simp only
      rw [abs_le] at hi hj ⊢
      rw [abs_le]
      omega)
    simp only at h1 h2 hin
    unfold Reaches at hin
    refine (hd _ _).mpr ⟨by omega, (m.nr : ℤ) / 2 + r.1, (m.nc : ℤ) / 2 + r.2, ?_, ?_, hr⟩
    · rw [abs_le] at h1 ⊢; omega
    · rw [abs_le] at h2 ⊢; omega

/-- With room about it, the shape is closed as in the infinite plane. -/
theorem places_closeStruts_room (n : ℕ) (m : Arr2 Bool) (N : ℕ) (hr : m.nr = N) (hc : m.nc = N) (h : Room N n (places m)) :
    places (closeStruts n m) = Closed n (places m) := by
  rw [(places_closeStruts n m).2.2]
  ext p
  unfold Closed
  simp only [Set.mem_setOf_eq]
  constructor
  · intro hp q hq
    exact (hp q hq).2
  · intro hp q hq
    obtain ⟨r, hr', hn⟩ := hp q hq
    refine ⟨?_, r, hr', hn⟩
    rw [hr, hc]
    refine h r hr' q ?_
    unfold Near at hn ⊢
    rw [abs_sub_comm q.1, abs_sub_comm q.2]
    exact hn

/-! ### C79 -/

theorem mask_ext (M N : Arr2 Bool) (hr : M.nr = N.nr) (hc : M.nc = N.nc) (h : places M = places N) : M = N := by
  refine ext_centered hr hc fun k l hkl => ?_
  have h1 : (k, l) ∈ places M ↔ (k, l) ∈ places N := by rw [h]
  unfold places at h1
  simp only [Set.mem_setOf_eq] at h1
  have e1 : (M.centered k l).isSome := by unfold Arr2.centered; rw [Arr2.px_isSome]; exact hkl
  have e2 : (N.centered k l).isSome := by unfold Arr2.centered; rw [Arr2.px_isSome, ← hr, ← hc]; exact hkl
  cases hM : M.centered k l with
  | none => rw [hM] at e1; cases e1
  | some u =>
    cases hN : N.centered k l with
    | none => rw [hN] at e2; cases e2
    | some v =>
      rw [hM, hN] at h1
      cases u <;> cases v <;> simp_all

/-- **C79.** What `fit_ellipse` fits and answers.  The image is padded with zeros to a square of `ceil(padFactor * longest side)` pixels
and thresholded; the mask given to the ellipse finder is True at a place exactly if all its neighbours within `nIter` pixels lie in the
padded array and have a pupil pixel within `nIter`.  The diameter is the longer full axis and the offsets are those of the ellipse centre
from the centre pixel, `x` along columns and `y` along rows. -/
theorem C79_fit (E : EllipseFinder) (t : EllipseTuning) (img : Arr2 ℝ) (d x y : ℝ) :
    fitEllipse E t img = .ok (d, x, y) ↔ ∃ (N : ℕ) (o : Arr2 ℝ) (m M : Arr2 Bool) (xc yc a b : ℝ), (N : ℤ) = ⌈t.padFactor * ((max img.nr img.nc : ℕ) : ℝ)⌉ ∧
      padCrop img [(N : ℤ), (N : ℤ)] 0 = .ok o ∧ ampthresh o 21 = .ok m ∧ M.nr = N ∧ M.nc = N ∧
      places M = {p | ∀ q, Near t.nIter p q → Reaches N N q.1 q.2 ∧ ∃ r ∈ places m, Near t.nIter q r} ∧
      E M = .ok ((xc, yc), (a, b)) ∧ d = max a b ∧ x = xc - ((N / 2 : ℕ) : ℝ) ∧ y = yc - ((N / 2 : ℕ) : ℝ) := by
  have hmax : ∀ a b : ℝ, 2 * max (a / 2) (b / 2) = max a b := fun a b => by
    rw [mul_max_of_nonneg _ _ (by norm_num : (0 : ℝ) ≤ 2)]
    congr 1 <;> ring
  unfold fitEllipse
  constructor
  · intro h
    cases hp : padCrop img [ellipseSize t img, ellipseSize t img] 0 with
    | error e => rw [hp] at h; cases h
    | ok o =>
      rw [hp, res_ok_bind] at h
      have hpos : 0 < ellipseSize t img := by
        by_contra hn
        rw [padCrop_error _ _ _ (by rintro ⟨hh, ww, he, h1, -⟩; simp only [List.cons.injEq] at he; omega)] at hp
        cases hp
      cases hm : ampthresh o 21 with
      | error e => rw [hm] at h; cases h
      | ok m =>
        rw [hm, res_ok_bind] at h
        simp only at h
        cases hE : E (closeStruts t.nIter m) with
        | error e => rw [hE] at h; cases h
        | ok e =>
          rw [hE, res_ok_bind] at h
          simp only [Except.ok.injEq, Prod.mk.injEq] at h
          obtain ⟨h1, h2, h3⟩ := h
          obtain ⟨c1, c2, c3⟩ := places_closeStruts t.nIter m
          obtain ⟨m1, m2, -⟩ := C12_threshold_mask o 21 m hm
          have ho := hp
          rw [padCrop_eq img _ _ 0 hpos hpos] at ho
          injection ho with ho
          have o1 : o.nr = (ellipseSize t img).toNat := by rw [← ho]; rfl
          have o2 : o.nc = (ellipseSize t img).toNat := by rw [← ho]; rfl
          have hN : (((ellipseSize t img).toNat : ℕ) : ℤ) = ellipseSize t img := Int.toNat_of_nonneg hpos.le
          refine ⟨(ellipseSize t img).toNat, o, m, closeStruts t.nIter m, e.1.1, e.1.2, e.2.1, e.2.2, hN, ?_, hm, ?_, ?_, ?_, hE, ?_, ?_, ?_⟩
          · rw [hN]; exact hp
          · rw [c1, m1, o1]
          · rw [c2, m2, o2]
          · rw [c3, m1, m2, o1, o2]
          · rw [← h1, hmax]
          · rw [← h2, c2, m2, o2]
          · rw [← h3, c1, m1, o1]
  · rintro ⟨N, o, m, M, xc, yc, a, b, hN, hp, hm, hr, hc, hM, hE, rfl, rfl, rfl⟩
    have hN' : ellipseSize t img = N := hN.symm
    obtain ⟨c1, c2, c3⟩ := places_closeStruts t.nIter m
    obtain ⟨m1, m2, -⟩ := C12_threshold_mask o 21 m hm
    have hpos : (0 : ℤ) < N := by
      by_contra hn
      rw [padCrop_error _ _ _ (by rintro ⟨hh, ww, he, h1, -⟩; simp only [List.cons.injEq] at he; omega)] at hp
      cases hp
    have ho := hp
    rw [padCrop_eq img _ _ 0 hpos hpos] at ho
    injection ho with ho
    have o1 : o.nr = N := by rw [← ho]; rfl
    have o2 : o.nc = N := by rw [← ho]; rfl
    have e : closeStruts t.nIter m = M := by
      refine mask_ext _ _ (by rw [c1, m1, o1, hr]) (by rw [c2, m2, o2, hc]) ?_
      rw [c3, hM, m1, m2, o1, o2]
    rw [hN', hp, res_ok_bind, hm, res_ok_bind]
    simp only
    rw [e, hE, res_ok_bind]
    simp only [hr, hc, hmax]

/-- **C79.** The exposure of the image does not matter. -/
theorem C79_exposure (E : EllipseFinder) (t : EllipseTuning) {n m : ℕ} (f : Fin n → Fin m → ℝ) (c : ℝ) (hc : 0 < c) :
    fitEllipse E t ⟨n, m, fun i j => c * f i j⟩ = fitEllipse E t ⟨n, m, f⟩ := by
  unfold fitEllipse
  have hs : ellipseSize t ⟨n, m, fun i j => c * f i j⟩ = ellipseSize t ⟨n, m, f⟩ := rfl
  rw [hs]
  by_cases hpos : 0 < ellipseSize t ⟨n, m, f⟩
  · rw [padCrop_eq _ _ _ 0 hpos hpos, padCrop_eq _ _ _ 0 hpos hpos, res_ok_bind, res_ok_bind]
    have e : embed (⟨n, m, fun i j => c * f i j⟩ : Arr2 ℝ) (ellipseSize t ⟨n, m, f⟩).toNat (ellipseSize t ⟨n, m, f⟩).toNat 0 =
        (embed ⟨n, m, f⟩ (ellipseSize t ⟨n, m, f⟩).toNat (ellipseSize t ⟨n, m, f⟩).toNat 0).map fun v : ℝ => c * v + 0 := by
      refine Arr2.ext_px rfl rfl fun i j h1 h2 h3 h4 => ?_
      have hm : (⟨n, m, fun i j => c * f i j⟩ : Arr2 ℝ) = (⟨n, m, f⟩ : Arr2 ℝ).map fun v : ℝ => c * v := rfl
      generalize (ellipseSize t ⟨n, m, f⟩).toNat = N at *
      have hin : (0 ≤ i ∧ i < (N : ℤ)) ∧ (0 ≤ j ∧ j < (N : ℤ)) := ⟨⟨h1, h2⟩, h3, h4⟩
      rw [Arr2.px_map, embed_px _ _ _ _ hin, embed_px _ _ _ _ hin, hm, Arr2.px_map]
      simp only [Arr2.map_nr, Arr2.map_nc]
      cases (⟨n, m, f⟩ : Arr2 ℝ).px _ _ <;> simp
    rw [e, C12_affine_invariant _ 21 c 0 hc]
  · rw [padCrop_error _ _ _ (by rintro ⟨hh, ww, he, h1, -⟩; simp only [List.cons.injEq] at he; omega),
      padCrop_error _ _ _ (by rintro ⟨hh, ww, he, h1, -⟩; simp only [List.cons.injEq] at he; omega)]

theorem mem_pixels_centered (a : Arr2 ℝ) (v : ℝ) : v ∈ a.pixels ↔ ∃ k l : ℤ, a.centered k l = some v := by
  rw [mem_pixels]
  constructor
  · rintro ⟨i, j, h⟩
    refine ⟨i - (a.nr : ℤ) / 2, j - (a.nc : ℤ) / 2, ?_⟩
    unfold Arr2.centered
    rw [show (a.nr : ℤ) / 2 + (i - (a.nr : ℤ) / 2) = i by ring, show (a.nc : ℤ) / 2 + (j - (a.nc : ℤ) / 2) = j by ring]
    exact h
  · rintro ⟨k, l, h⟩
    exact ⟨_, _, h⟩

/-- The mask of a clean image. -/
theorem clean_mask (img : Arr2 ℝ) (v : ℝ) (B : Set (ℤ × ℤ)) (hB : CleanPupil img v B) (N n : ℕ) (hroom : Room N n B)
    (hdark : ∃ k l, Reaches N N k l ∧ (k, l) ∉ B) :
    ∃ m, ampthresh (embed img N N 0) 21 = .ok m ∧ m.nr = N ∧ m.nc = N ∧ places m = B := by
  classical
  obtain ⟨hv, ⟨b, hb⟩, h1, h0⟩ := hB
  have hin : ∀ p ∈ B, Reaches N N p.1 p.2 := fun p hp => hroom p hp p ⟨by simp, by simp⟩
  have hval : ∀ k l, Reaches N N k l → (embed img N N 0).centered k l = some (if (k, l) ∈ B then v else 0) := by
    intro k l hkl
    rw [embed_centered _ _ _ _ hkl]
    split_ifs with hm
    · rw [h1 (k, l) hm]; rfl
    · cases hc : img.centered k l with
      | none => rfl
      | some w => rw [h0 (k, l) w hm hc]; rfl
  have hreach : ∀ k l w, (embed img N N 0).centered k l = some w → Reaches N N k l := by
    intro k l w h
    by_contra hn
    rw [centered_eq_none _ (show ¬ Reaches (embed img N N 0).nr (embed img N N 0).nc k l from hn)] at h
    cases h
  obtain ⟨m, hm, hr, hc, hpx⟩ := C12_two_level (embed img N N 0) 21 0 v hv (by norm_num) (fun w hw => by
      obtain ⟨k, l, h⟩ := (mem_pixels_centered _ _).mp hw
      rw [hval k l (hreach k l w h)] at h
      injection h with h
      split_ifs at h
      · exact Or.inr h.symm
      · exact Or.inl h.symm)
    ((mem_pixels_centered _ _).mpr (by
      obtain ⟨k, l, hkl, hn⟩ := hdark
      exact ⟨k, l, by rw [hval k l hkl, if_neg hn]⟩))
    ((mem_pixels_centered _ _).mpr ⟨b.1, b.2, by rw [hval _ _ (hin b hb), if_pos hb]⟩)
  refine ⟨m, hm, hr, hc, ?_⟩
  ext ⟨k, l⟩
  unfold places Arr2.centered
  simp only [Set.mem_setOf_eq]
  rw [hr, hc, hpx]
  have e : (embed img N N 0).px (((embed img N N 0).nr : ℤ) / 2 + k) (((embed img N N 0).nc : ℤ) / 2 + l) = (embed img N N 0).centered k l := rfl
  rw [e]
  by_cases hkl : Reaches N N k l
  · rw [hval k l hkl]
    simp only [Option.map_some, Option.some.injEq, decide_eq_true_eq]
    split_ifs with hm
    · simp [hm]
    · simp [hm, hv.ne]
  · rw [centered_eq_none _ (show ¬ Reaches (embed img N N 0).nr (embed img N N 0).nc k l from hkl)]
    simp only [Option.map_none, reduceCtorEq, false_iff]
    intro h
    exact hkl (hin _ h)

/-- The fit of a clean image with room about the pupil. -/
theorem clean_fit (E : EllipseFinder) (n : ℕ) (pf : ℝ) (img : Arr2 ℝ) (v : ℝ) (B : Set (ℤ × ℤ)) (hB : CleanPupil img v B)
    (hroom : Room ⌈pf * ((max img.nr img.nc : ℕ) : ℝ)⌉ n B)
    (hdark : ∃ k l, Reaches ⌈pf * ((max img.nr img.nc : ℕ) : ℝ)⌉ ⌈pf * ((max img.nr img.nc : ℕ) : ℝ)⌉ k l ∧ (k, l) ∉ B) :
    ∃ M : Arr2 Bool, places M = Closed n B ∧ fitEllipse E ⟨n, pf⟩ img =
      (E M).map fun e => (max e.2.1 e.2.2, e.1.1 - ((M.nc / 2 : ℕ) : ℝ), e.1.2 - ((M.nr / 2 : ℕ) : ℝ)) := by
  have hpos : 0 < ⌈pf * ((max img.nr img.nc : ℕ) : ℝ)⌉ := by
    obtain ⟨k, l, h, -⟩ := hdark
    unfold Reaches at h
    omega
  have hsz : ellipseSize ⟨n, pf⟩ img = ⌈pf * ((max img.nr img.nc : ℕ) : ℝ)⌉ := rfl
  obtain ⟨N, hN⟩ : ∃ N : ℕ, ⌈pf * ((max img.nr img.nc : ℕ) : ℝ)⌉ = N := ⟨_, (Int.toNat_of_nonneg hpos.le).symm⟩
  rw [hN] at hpos hroom hdark hsz
  obtain ⟨m, hm, hr, hc, hp⟩ := clean_mask img v B hB N n hroom hdark
  refine ⟨closeStruts n m, ?_, ?_⟩
  · rw [places_closeStruts_room n m N hr hc (by rw [hp]; exact hroom), hp]
  · unfold fitEllipse
    rw [hsz, padCrop_eq img _ _ 0 hpos hpos, res_ok_bind]
    rw [Int.toNat_natCast, hm, res_ok_bind]
    simp only
    cases E (closeStruts n m) with
    | error e => rfl
    | ok e =>
      rw [res_ok_bind]
      simp only [Except.map]
      rw [mul_max_of_nonneg _ _ (by norm_num : (0 : ℝ) ≤ 2), mul_div_cancel₀ _ (two_ne_zero), mul_div_cancel₀ _ (two_ne_zero)]

/-- **C79.** The same clean pupil moved by whole pixels, in an image of any other shape, brightness and padding, gives the same diameter
and the offsets moved by exactly those pixels, as long as the padding leaves `nIter` pixels of room (and one dark pixel).  In particular
the answer does not depend on the padding factor. -/
theorem C79_shift (E : EllipseFinder) (hE : SeesShape E) (n : ℕ) (pf pf' : ℝ) (img img' : Arr2 ℝ) (v v' : ℝ) (B B' : Set (ℤ × ℤ))
    (hB : CleanPupil img v B) (hB' : CleanPupil img' v' B') (dy dx : ℤ) (hs : ∀ p : ℤ × ℤ, p ∈ B ↔ (p.1 + dy, p.2 + dx) ∈ B')
    (hroom : Room ⌈pf * ((max img.nr img.nc : ℕ) : ℝ)⌉ n B) (hroom' : Room ⌈pf' * ((max img'.nr img'.nc : ℕ) : ℝ)⌉ n B')
    (hdark : ∃ k l, Reaches ⌈pf * ((max img.nr img.nc : ℕ) : ℝ)⌉ ⌈pf * ((max img.nr img.nc : ℕ) : ℝ)⌉ k l ∧ (k, l) ∉ B)
    (hdark' : ∃ k l, Reaches ⌈pf' * ((max img'.nr img'.nc : ℕ) : ℝ)⌉ ⌈pf' * ((max img'.nr img'.nc : ℕ) : ℝ)⌉ k l ∧ (k, l) ∉ B') :
    fitEllipse E ⟨n, pf'⟩ img' = (fitEllipse E ⟨n, pf⟩ img).map fun a : ℝ × ℝ × ℝ => (a.1, a.2.1 + (dx : ℝ), a.2.2 + (dy : ℝ)) := by
  obtain ⟨M, hM, h1⟩ := clean_fit E n pf img v B hB hroom hdark
  obtain ⟨M', hM', h2⟩ := clean_fit E n pf' img' v' B' hB' hroom' hdark'
  have hC : ∀ p : ℤ × ℤ, p ∈ places M ↔ (p.1 + dy, p.2 + dx) ∈ places M' := by
    intro p
    rw [hM, hM']
    unfold Closed
    simp only [Set.mem_setOf_eq]
    constructor
    · intro h q hq
      obtain ⟨r, hr, hn⟩ := h (q.1 - dy, q.2 - dx) (by
        unfold Near at hq ⊢
        rw [show q.1 - dy - p.1 = q.1 - (p.1 + dy) by ring, show q.2 - dx - p.2 = q.2 - (p.2 + dx) by ring]
        exact hq)
      refine ⟨_, (hs r).mp hr, ?_⟩
      unfold Near at hn ⊢
      rw [show r.1 + dy - q.1 = r.1 - (q.1 - dy) by ring, show r.2 + dx - q.2 = r.2 - (q.2 - dx) by ring]
      exact hn
    · intro h q hq
      obtain ⟨r, hr, hn⟩ := h (q.1 + dy, q.2 + dx) (by
        unfold Near at hq ⊢
        rw [show q.1 + dy - (p.1 + dy) = q.1 - p.1 by ring, show q.2 + dx - (p.2 + dx) = q.2 - p.2 by ring]
        exact hq)
      refine ⟨(r.1 - dy, r.2 - dx), (hs _).mpr (by simpa using hr), ?_⟩
      unfold Near at hn ⊢
      rw [show r.1 - dy - q.1 = r.1 - (q.1 + dy) by ring, show r.2 - dx - q.2 = r.2 - (q.2 + dx) by ring]
      exact hn
  rw [h1, h2, hE M M' dy dx hC]
  cases E M with
  | error e => rfl
  | ok e =>
    simp only [Except.map, Except.ok.injEq, Prod.mk.injEq]
    refine ⟨trivial, by ring, by ring⟩

/-- Filling the struts.  With room about the pupil, no pupil pixel is lost, nothing farther than `n` from the pupil is added,
a strut up to `2 n` pixels wide between two pieces of pupil is filled, and a place next to an open square of `2 n + 1` pixels is not. -/
theorem closeStruts_fills (n : ℕ) (m : Arr2 Bool) (N : ℕ) (hr : m.nr = N) (hc : m.nc = N) (h : Room N n (places m)) :
    places m ⊆ places (closeStruts n m) ∧
    (∀ p ∈ places (closeStruts n m), ∃ r ∈ places m, Near n p r) ∧
    (∀ p : ℤ × ℤ, ∀ l₁ l₂ : ℤ, l₂ - l₁ ≤ 2 * n + 1 →
      (∀ k l : ℤ, |k - p.1| ≤ n → |l - p.2| ≤ 2 * n → (l ≤ l₁ ∨ l₂ ≤ l) → (k, l) ∈ places m) → |l₁ - p.2| ≤ 2 * n → |l₂ - p.2| ≤ 2 * n →
      p ∈ places (closeStruts n m)) ∧
    (∀ p q : ℤ × ℤ, Near n p q → (∀ r, Near n q r → r ∉ places m) → p ∉ places (closeStruts n m)) := by
  rw [places_closeStruts_room n m N hr hc h]
  refine ⟨fun p hp q hq => ⟨p, hp, ?_⟩, fun p hp => hp p ⟨by simp, by simp⟩, ?_, ?_⟩
  · unfold Near at hq ⊢
    rw [abs_sub_comm p.1, abs_sub_comm p.2]
    exact hq
  · intro p l₁ l₂ hw hb h1 h2 q hq
    unfold Near at hq
    rw [abs_le] at h1 h2
    have hq1 := hq.1
    have hq2 := hq.2
    rw [abs_le] at hq2
    by_cases c1 : q.2 ≤ l₁
    · exact ⟨q, hb q.1 q.2 hq1 (by rw [abs_le]; omega) (Or.inl c1), by unfold Near; simp⟩
    by_cases c2 : l₂ ≤ q.2
    · exact ⟨q, hb q.1 q.2 hq1 (by rw [abs_le]; omega) (Or.inr c2), by unfold Near; simp⟩
    by_cases c3 : q.2 - l₁ ≤ n
    · refine ⟨(q.1, l₁), hb q.1 l₁ hq1 (by rw [abs_le]; omega) (Or.inl le_rfl), ?_⟩
      unfold Near
      refine ⟨by simp, ?_⟩
      rw [abs_le]; simp only; omega
    · refine ⟨(q.1, l₂), hb q.1 l₂ hq1 (by rw [abs_le]; omega) (Or.inr le_rfl), ?_⟩
      unfold Near
      refine ⟨by simp, ?_⟩
      rw [abs_le]; simp only; omega
  · intro p q hq hno hp
    obtain ⟨r, hr, hn⟩ := hp q hq
    exact hno r hn hr

/-- Without room the pupil is eaten away: whatever the image, no pixel within `nIter` of the border of the padded array is left
in the mask that is fitted. -/
theorem closeStruts_border (n : ℕ) (m : Arr2 Bool) (p q : ℤ × ℤ) (hq : Near n p q) (hout : ¬ Reaches m.nr m.nc q.1 q.2) : p ∉ places (closeStruts n m) := by
  rw [(places_closeStruts n m).2.2]
  intro h
  exact hout (h q hq).1

/-- Specification: `M` is the mask that `fit_ellipse` hands to the ellipse finder, whichever finder that is: the answer is always the longer full axis of
the ellipse found in `M` and the offsets of its centre from the centre pixel of `M`.  (There is at most one such mask: a finder can tell two apart.) -/
def FittedMask (t : EllipseTuning) (img : Arr2 ℝ) (M : Arr2 Bool) : Prop :=
  ∀ E : EllipseFinder, fitEllipse E t img = (E M).map fun e : (ℝ × ℝ) × (ℝ × ℝ) =>
    (max e.2.1 e.2.2, e.1.1 - ((M.nc / 2 : ℕ) : ℝ), e.1.2 - ((M.nr / 2 : ℕ) : ℝ))

theorem fittedMask_of (t : EllipseTuning) (img : Arr2 ℝ) (N : ℕ) (hN : (N : ℤ) = ⌈t.padFactor * ((max img.nr img.nc : ℕ) : ℝ)⌉) (o : Arr2 ℝ)
    (m : Arr2 Bool) (ho : padCrop img [(N : ℤ), (N : ℤ)] 0 = .ok o) (hm : ampthresh o 21 = .ok m) :
    FittedMask t img (closeStruts t.nIter m) ∧ (m.nr = N ∧ m.nc = N) := by
  have hpos : 0 < (N : ℤ) := by
    by_contra hn
    rw [padCrop_error _ _ _ (by rintro ⟨hh, ww, he, h1, -⟩; simp only [List.cons.injEq] at he; omega)] at ho
    cases ho
  constructor
  · intro E
    unfold fitEllipse
    rw [show ellipseSize t img = (N : ℤ) from hN.symm, ho, res_ok_bind, hm, res_ok_bind]
    simp only
    cases E (closeStruts t.nIter m) with
    | error e => rfl
    | ok e =>
      rw [res_ok_bind]
      show Except.ok _ = Except.ok _
      congr 2
      rw [mul_max_of_nonneg _ _ (by norm_num : (0 : ℝ) ≤ 2)]
      congr 1 <;> ring
  · obtain ⟨m1, m2, -⟩ := C12_threshold_mask o 21 m hm
    rw [padCrop_eq img _ _ 0 hpos hpos] at ho
    injection ho with ho
    rw [m1, m2, ← ho]
    exact ⟨Int.toNat_natCast N, Int.toNat_natCast N⟩

/-- **C79.** Filling the struts.  Let `m` be the bright pixels of the padded image.  With room about the pupil, in the mask in which the ellipse is
sought no pupil pixel is lost, nothing farther than `nIter` from the pupil is added,
a strut up to `2 nIter` pixels wide between two pieces of pupil is filled, and a place next to an open square of `2 nIter + 1` pixels is not. -/
theorem C79_fills (t : EllipseTuning) (img : Arr2 ℝ) (N : ℕ) (hN : (N : ℤ) = ⌈t.padFactor * ((max img.nr img.nc : ℕ) : ℝ)⌉) (o : Arr2 ℝ)
    (m : Arr2 Bool) (ho : padCrop img [(N : ℤ), (N : ℤ)] 0 = .ok o) (hm : ampthresh o 21 = .ok m) (h : Room N t.nIter (places m)) :
    ∃ M, FittedMask t img M ∧ places m ⊆ places M ∧ (∀ p ∈ places M, ∃ r ∈ places m, Near t.nIter p r) ∧
    (∀ p : ℤ × ℤ, ∀ l₁ l₂ : ℤ, l₂ - l₁ ≤ 2 * t.nIter + 1 →
      (∀ k l : ℤ, |k - p.1| ≤ t.nIter → |l - p.2| ≤ 2 * t.nIter → (l ≤ l₁ ∨ l₂ ≤ l) → (k, l) ∈ places m) →
      |l₁ - p.2| ≤ 2 * t.nIter → |l₂ - p.2| ≤ 2 * t.nIter → p ∈ places M) ∧
    (∀ p q : ℤ × ℤ, Near t.nIter p q → (∀ r, Near t.nIter q r → r ∉ places m) → p ∉ places M) := by
  obtain ⟨hF, h1, h2⟩ := fittedMask_of t img N hN o m ho hm
  exact ⟨_, hF, closeStruts_fills t.nIter m N h1 h2 h⟩

/-- **C79.** Without room the pupil is eaten away: whatever the image, no pixel within `nIter` of the border of the padded array is left
in the mask in which the ellipse is sought. -/
theorem C79_border (t : EllipseTuning) (img : Arr2 ℝ) (N : ℕ) (hN : (N : ℤ) = ⌈t.padFactor * ((max img.nr img.nc : ℕ) : ℝ)⌉) (o : Arr2 ℝ)
    (m : Arr2 Bool) (ho : padCrop img [(N : ℤ), (N : ℤ)] 0 = .ok o) (hm : ampthresh o 21 = .ok m) :
    ∃ M, FittedMask t img M ∧ ∀ p q : ℤ × ℤ, Near t.nIter p q → ¬ Reaches N N q.1 q.2 → p ∉ places M := by
  obtain ⟨hF, h1, h2⟩ := fittedMask_of t img N hN o m ho hm
  exact ⟨_, hF, fun p q hq hout => closeStruts_border t.nIter m p q hq (by rw [h1, h2]; exact hout)⟩

/-! ### C80 -/

/-- **C80.** `fit_circle` answers the first circle found in the thresholded image, counted from the centre pixel: `x` along the columns
and `y` along the rows, among the radii from `min_radius` to `max_radius`, both included. -/
theorem C80_fit (H : CircleFinder) (img : Arr2 ℝ) (minR maxR : ℤ) (sigma : ℝ) (x y r : ℤ) :
    fitCircle H img minR maxR sigma = .ok (x, y, r) ↔ 0 < minR ∧ minR < maxR ∧ 0 < sigma ∧ ∃ m radii rest, ampthresh img 21 = .ok m ∧
      (∀ k : ℕ, radii[k]? = if (k : ℤ) ≤ maxR - minR then some (minR + k) else none) ∧
      H m sigma radii = (x + ((img.nc / 2 : ℕ) : ℤ), y + ((img.nr / 2 : ℕ) : ℤ), r) :: rest := by
  have hrad : ∀ radii : List ℤ, (∀ k : ℕ, radii[k]? = if (k : ℤ) ≤ maxR - minR then some (minR + k) else none) ↔
      radii = (List.range (maxR + 1 - minR).toNat).map fun k : ℕ => minR + k := by
    have e : ∀ k : ℕ, ((List.range (maxR + 1 - minR).toNat).map fun k : ℕ => minR + (k : ℤ))[k]? =
        if (k : ℤ) ≤ maxR - minR then some (minR + k) else none := by
      intro k
      rw [List.getElem?_map]
      split_ifs with h
      · rw [List.getElem?_range (by omega)]; rfl
      · rw [List.getElem?_eq_none (by rw [List.length_range]; omega)]; rfl
    intro radii
    constructor
    · intro h
      exact List.ext_getElem? fun k => by rw [h, e]
    · rintro rfl
      exact e
  unfold fitCircle
  split_ifs with h1 h2
  · constructor
    · intro h; cases h
    · rintro ⟨a, b, c, -⟩
      exfalso
      rcases h1 with h | h | h
      · omega
      · omega
      · linarith
  · push Not at h1
    constructor
    · intro h
      cases hm : ampthresh img 21 with
      | error e => rw [hm] at h; cases h
      | ok m =>
        rw [hm, res_ok_bind] at h
        simp only at h
        obtain ⟨m1, m2, -⟩ := C12_threshold_mask img 21 m hm
        split at h
        · cases h
        · next cx cy r' rest hH =>
          simp only [Except.ok.injEq, Prod.mk.injEq] at h
          obtain ⟨rfl, rfl, rfl⟩ := h
          refine ⟨h1.1, h2, h1.2.2, m, _, rest, rfl, (hrad _).mpr rfl, ?_⟩
          rw [hH, m1, m2]
          simp
    · rintro ⟨a, b, c, m, radii, rest, hm, hR, hH⟩
      obtain ⟨m1, m2, -⟩ := C12_threshold_mask img 21 m hm
      rw [hm, res_ok_bind]
      simp only
      rw [← (hrad radii).mp hR, hH, m1, m2]
      simp
  · constructor
    · intro h; cases h
    · rintro ⟨a, b, c, -⟩
      exact absurd b h2

/-- **C80.** Neither the exposure nor a uniform background matters. -/
theorem C80_exposure (H : CircleFinder) {n m : ℕ} (f : Fin n → Fin m → ℝ) (c b : ℝ) (hc : 0 < c) (minR maxR : ℤ) (sigma : ℝ) :
    fitCircle H ⟨n, m, fun i j => c * f i j + b⟩ minR maxR sigma = fitCircle H ⟨n, m, f⟩ minR maxR sigma := by
  have := C12_affine_invariant (⟨n, m, f⟩ : Arr2 ℝ) 21 c b hc
  unfold fitCircle
  rw [show (⟨n, m, fun i j => c * f i j + b⟩ : Arr2 ℝ) = (⟨n, m, f⟩ : Arr2 ℝ).map fun v : ℝ => c * v + b from rfl, this]

/-- **C80.** The errors. -/
theorem C80_rejects (H : CircleFinder) (img : Arr2 ℝ) (minR maxR : ℤ) (sigma : ℝ) :
    ((minR ≤ 0 ∨ maxR ≤ 0 ∨ sigma ≤ 0) → fitCircle H img minR maxR sigma = .error .typeError) ∧
    (0 < minR → 0 < maxR → 0 < sigma → maxR ≤ minR → fitCircle H img minR maxR sigma = .error .valueError) ∧
    (0 < minR → minR < maxR → 0 < sigma → (∃ e, ampthresh img 21 = .error e) → fitCircle H img minR maxR sigma = .error .valueError) := by
  unfold fitCircle
  refine ⟨fun h => by rw [if_pos h], fun a b c d => ?_, fun a b c ⟨e, he⟩ => ?_⟩
  · rw [if_neg (by push Not; exact ⟨a, b, c⟩), if_pos (by omega)]
  · rw [if_neg (by push Not; exact ⟨a, by omega, c⟩), if_neg (by omega), he, (C12_error_iff img 21).1 e he]
    rfl

/-! ### The hypotheses hold -/

open scoped Classical in
/-- A finder that sees only the shape: the corner of the box about it. -/
noncomputable def cornerFinder : EllipseFinder := fun M =>
  if (places M).Nonempty then
    .ok ((((M.nc / 2 : ℕ) : ℝ) + ((sInf (Prod.snd '' places M) : ℤ) : ℝ), ((M.nr / 2 : ℕ) : ℝ) + ((sInf (Prod.fst '' places M) : ℤ) : ℝ)), (2, 1))
  else .error .indexError

theorem csInf_add (S T : Set ℤ) (d : ℤ) (hS : S.Nonempty) (hb : BddBelow S) (h : ∀ x, x ∈ S ↔ x + d ∈ T) : sInf T = sInf S + d := by
  have hT : T = (OrderIso.addRight d) '' S := by
    ext x
    constructor
    · intro hx
      exact ⟨x - d, (h _).mpr (by simpa using hx), by simp⟩
    · rintro ⟨y, hy, rfl⟩
      exact (h y).mp hy
  rw [hT, ← OrderIso.map_csInf' (OrderIso.addRight d) hS hb]
  rfl

theorem cornerFinder_sees : SeesShape cornerFinder := by
  intro M N dy dx h
  unfold cornerFinder
  by_cases hM : (places M).Nonempty
  · have hN : (places N).Nonempty := by
      obtain ⟨p, hp⟩ := hM
      exact ⟨_, (h p).mp hp⟩
    rw [if_pos hM, if_pos hN]
    have hreach : ∀ p ∈ places M, Reaches M.nr M.nc p.1 p.2 := by
      intro p hp
      by_contra hn
      have := centered_eq_none M hn
      rw [show M.centered p.1 p.2 = some true from hp] at this
      cases this
    have e1 := csInf_add (Prod.snd '' places M) (Prod.snd '' places N) dx (hM.image _)
      ⟨-((M.nc : ℤ)), by rintro x ⟨p, hp, rfl⟩; have := hreach p hp; unfold Reaches at this; omega⟩ (fun x => by
        constructor
        · rintro ⟨p, hp, rfl⟩
          exact ⟨_, (h p).mp hp, rfl⟩
        · rintro ⟨p, hp, he⟩
          exact ⟨(p.1 - dy, p.2 - dx), (h _).mpr (by simpa using hp), by simp only; omega⟩)
    have e2 := csInf_add (Prod.fst '' places M) (Prod.fst '' places N) dy (hM.image _)
      ⟨-((M.nr : ℤ)), by rintro x ⟨p, hp, rfl⟩; have := hreach p hp; unfold Reaches at this; omega⟩ (fun x => by
        constructor
        · rintro ⟨p, hp, rfl⟩
          exact ⟨_, (h p).mp hp, rfl⟩
        · rintro ⟨p, hp, he⟩
          exact ⟨(p.1 - dy, p.2 - dx), (h _).mpr (by simpa using hp), by simp only; omega⟩)
    rw [e1, e2]
    simp only [Except.map, Except.ok.injEq, Prod.mk.injEq]
    refine ⟨⟨?_, ?_⟩, trivial⟩ <;> push_cast <;> ring
  · have hN : ¬ (places N).Nonempty := by
      rintro ⟨p, hp⟩
      exact hM ⟨(p.1 - dy, p.2 - dx), (h _).mpr (by simpa using hp)⟩
    rw [if_neg hM, if_neg hN]
    rfl

/-- One bright pixel. -/
noncomputable def onePixel (n m : ℕ) (v : ℝ) (k l : ℤ) : Arr2 ℝ :=
  ⟨n, m, fun i j => if ((i : ℕ) : ℤ) = (n : ℤ) / 2 + k ∧ ((j : ℕ) : ℤ) = (m : ℤ) / 2 + l then v else 0⟩

theorem onePixel_clean (n m : ℕ) (v : ℝ) (k l : ℤ) (hv : 0 < v) (h : Reaches n m k l) : CleanPupil (onePixel n m v k l) v {(k, l)} := by
  have e : ∀ p q : ℤ, Reaches n m p q → (onePixel n m v k l).centered p q = some (if p = k ∧ q = l then v else 0) := by
    intro p q hpq
    show (onePixel n m v k l).px ((n : ℤ) / 2 + p) ((m : ℤ) / 2 + q) = _
    rw [Arr2.px_of_inB (onePixel n m v k l) (show (0 ≤ (n : ℤ) / 2 + p ∧ (n : ℤ) / 2 + p < n) ∧ (0 ≤ (m : ℤ) / 2 + q ∧ (m : ℤ) / 2 + q < m) from hpq)]
    unfold Reaches at hpq
    simp only [onePixel]
    congr 1
    have : (((((n : ℤ) / 2 + p).toNat : ℕ) : ℤ) = (n : ℤ) / 2 + k ∧ ((((m : ℤ) / 2 + q).toNat : ℕ) : ℤ) = (m : ℤ) / 2 + l) ↔ (p = k ∧ q = l) := by omega
    simp only [this]
  refine ⟨hv, ⟨_, rfl⟩, ?_, ?_⟩
  · rintro p rfl
    rw [e k l h, if_pos ⟨rfl, rfl⟩]
  · intro p w hp hc
    by_cases hr : Reaches n m p.1 p.2
    · rw [e _ _ hr, if_neg (by rintro ⟨rfl, rfl⟩; exact hp rfl)] at hc
      exact (Option.some.inj hc).symm
    · rw [centered_eq_none _ (show ¬ Reaches (onePixel n m v k l).nr (onePixel n m v k l).nc p.1 p.2 from hr)] at hc
      cases hc

/-- `C79_shift`: a bright pixel in the middle of a 3 x 3 image padded to 6 x 6, and one off the middle of a 5 x 4 image padded to 8 x 8. -/
example : fitEllipse cornerFinder ⟨1, 3 / 2⟩ (onePixel 5 4 7 1 (-1)) =
    (fitEllipse cornerFinder ⟨1, 2⟩ (onePixel 3 3 1 0 0)).map fun a : ℝ × ℝ × ℝ => (a.1, a.2.1 + ((-1 : ℤ) : ℝ), a.2.2 + ((1 : ℤ) : ℝ)) := by
  have s1 : ⌈(2 : ℝ) * ((max 3 3 : ℕ) : ℝ)⌉ = 6 := by rw [Int.ceil_eq_iff]; norm_num
  have s2 : ⌈(3 / 2 : ℝ) * ((max 5 4 : ℕ) : ℝ)⌉ = 8 := by rw [Int.ceil_eq_iff]; norm_num
  refine C79_shift cornerFinder cornerFinder_sees 1 2 (3 / 2) (onePixel 3 3 1 0 0) (onePixel 5 4 7 1 (-1)) 1 7 {(0, 0)} {(1, -1)}
    (onePixel_clean _ _ _ _ _ one_pos (by decide)) (onePixel_clean _ _ _ _ _ (by norm_num) (by decide)) 1 (-1) ?_ ?_ ?_ ?_ ?_
  · intro p
    simp only [Set.mem_singleton_iff, Prod.ext_iff]
    omega
  · show Room ⌈(2 : ℝ) * ((max 3 3 : ℕ) : ℝ)⌉ 1 _
    rw [s1]
    rintro p rfl q ⟨h1, h2⟩
    rw [abs_le] at h1 h2
    unfold Reaches
    push_cast at h1 h2
    omega
  · show Room ⌈(3 / 2 : ℝ) * ((max 5 4 : ℕ) : ℝ)⌉ 1 _
    rw [s2]
    rintro p rfl q ⟨h1, h2⟩
    rw [abs_le] at h1 h2
    unfold Reaches
    push_cast at h1 h2
    omega
  · show ∃ k l, Reaches ⌈(2 : ℝ) * ((max 3 3 : ℕ) : ℝ)⌉ ⌈(2 : ℝ) * ((max 3 3 : ℕ) : ℝ)⌉ k l ∧ _
    rw [s1]
    exact ⟨1, 1, by decide, by simp⟩
  · show ∃ k l, Reaches ⌈(3 / 2 : ℝ) * ((max 5 4 : ℕ) : ℝ)⌉ ⌈(3 / 2 : ℝ) * ((max 5 4 : ℕ) : ℝ)⌉ k l ∧ _
    rw [s2]
    exact ⟨0, 0, by decide, by simp⟩

/-- `C79_fit`: the pixel in the middle is found there. -/
example : fitEllipse cornerFinder ⟨1, 2⟩ (onePixel 3 3 1 0 0) = .ok (2, 0, 0) := by
  have s1 : ⌈(2 : ℝ) * ((max 3 3 : ℕ) : ℝ)⌉ = 6 := by rw [Int.ceil_eq_iff]; norm_num
  obtain ⟨M, hM, h⟩ := clean_fit cornerFinder 1 2 (onePixel 3 3 1 0 0) 1 {(0, 0)} (onePixel_clean _ _ _ _ _ one_pos (by decide))
    (by
      show Room ⌈(2 : ℝ) * ((max 3 3 : ℕ) : ℝ)⌉ 1 _
      rw [s1]
      rintro p rfl q ⟨h1, h2⟩
      rw [abs_le] at h1 h2
      unfold Reaches
      push_cast at h1 h2
      omega)
    (by
      show ∃ k l, Reaches ⌈(2 : ℝ) * ((max 3 3 : ℕ) : ℝ)⌉ ⌈(2 : ℝ) * ((max 3 3 : ℕ) : ℝ)⌉ k l ∧ _
      rw [s1]
      exact ⟨1, 1, by decide, by simp⟩)
  have hC : Closed 1 {((0 : ℤ), (0 : ℤ))} = {(0, 0)} := by
    ext p
    constructor
    · intro hp
      obtain ⟨r, rfl, h1⟩ := hp (p.1 + 1, p.2 + 1) ⟨by simp, by simp⟩
      obtain ⟨r, rfl, h2⟩ := hp (p.1 - 1, p.2 - 1) ⟨by simp, by simp⟩
      unfold Near at h1 h2
      simp only [abs_le] at h1 h2
      push_cast at h1 h2
      rw [Set.mem_singleton_iff, Prod.ext_iff]
      simp only
      omega
    · rintro rfl q hq
      refine ⟨_, rfl, ?_⟩
      unfold Near at hq ⊢
      rw [abs_sub_comm, abs_sub_comm (0, 0).2]
      exact hq
  rw [h]
  unfold cornerFinder
  rw [hM, hC, if_pos ⟨_, rfl⟩]
  simp [Except.map]

/-- Two vertical bars with a gap of two pixels. -/
def twoBars : Arr2 Bool := ⟨9, 9, fun i j => decide ((1 ≤ (i : ℕ) ∧ (i : ℕ) ≤ 7) ∧ ((j : ℕ) = 2 ∨ (j : ℕ) = 3 ∨ (j : ℕ) = 6))⟩

theorem places_twoBars (k l : ℤ) : (k, l) ∈ places twoBars ↔ ((-3 ≤ k ∧ k ≤ 3) ∧ (l = -2 ∨ l = -1 ∨ l = 2)) := by
  show Arr2.centered _ k l = some true ↔ _
  by_cases h : Reaches 9 9 k l
  · show twoBars.px (((9 : ℕ) : ℤ) / 2 + k) (((9 : ℕ) : ℤ) / 2 + l) = some true ↔ _
    rw [Arr2.px_of_inB twoBars (show (0 ≤ ((9 : ℕ) : ℤ) / 2 + k ∧ ((9 : ℕ) : ℤ) / 2 + k < (9 : ℕ)) ∧ (0 ≤ ((9 : ℕ) : ℤ) / 2 + l ∧ ((9 : ℕ) : ℤ) / 2 + l < (9 : ℕ)) from h)]
    unfold Reaches at h
    simp only [twoBars, Option.some.injEq, decide_eq_true_eq]
    omega
  · rw [centered_eq_none twoBars (show ¬ Reaches twoBars.nr twoBars.nc k l from h)]
    unfold Reaches at h
    simp only [reduceCtorEq, false_iff]
    omega

/-- The image of the two bars. -/
noncomputable def barImage : Arr2 ℝ := twoBars.map fun b => if b then 1 else 0

theorem barImage_mask : ∃ o m, padCrop barImage [((9 : ℕ) : ℤ), ((9 : ℕ) : ℤ)] 0 = .ok o ∧ ampthresh o 21 = .ok m ∧ Room ((9 : ℕ) : ℤ) 1 (places m) ∧
    ∀ k l, (k, l) ∈ places m ↔ ((-3 ≤ k ∧ k ≤ 3) ∧ (l = -2 ∨ l = -1 ∨ l = 2)) := by
  have hcen : ∀ k l : ℤ, barImage.centered k l = (twoBars.centered k l).map fun b => if b then (1 : ℝ) else 0 := by
    intro k l
    unfold barImage Arr2.centered
    rw [Arr2.px_map]
    rfl
  have hroom : Room ((9 : ℕ) : ℤ) 1 (places twoBars) := by
    rintro ⟨k, l⟩ hp ⟨q1, q2⟩ ⟨h1, h2⟩
    rw [places_twoBars] at hp
    simp only [abs_le] at h1 h2
    push_cast at h1 h2
    unfold Reaches
    push_cast
    omega
  obtain ⟨m, hm, -, -, hp⟩ := clean_mask barImage 1 (places twoBars) ⟨one_pos, ⟨(0, 2), by rw [places_twoBars]; omega⟩, fun p h => by
      rw [hcen, show twoBars.centered p.1 p.2 = some true from h]; rfl, fun p w h hw => by
      rw [hcen] at hw
      cases hb : twoBars.centered p.1 p.2 with
      | none => rw [hb] at hw; cases hw
      | some b =>
        rw [hb] at hw
        cases b
        · exact (Option.some.inj hw).symm
        · exact absurd hb h⟩ 9 1 hroom ⟨0, 0, by unfold Reaches; norm_num, by rw [places_twoBars]; omega⟩
  refine ⟨_, m, padCrop_eq barImage _ _ 0 (by norm_num) (by norm_num), hm, by rw [hp]; exact hroom, ?_⟩
  rw [hp]
  exact places_twoBars

theorem barImage_size : (((9 : ℕ) : ℕ) : ℤ) = ⌈(1 : ℝ) * ((max barImage.nr barImage.nc : ℕ) : ℝ)⌉ := by
  rw [eq_comm, Int.ceil_eq_iff]
  rw [show barImage.nr = 9 from rfl, show barImage.nc = 9 from rfl]
  norm_num

/-- `C79_fills`: a strut of two pixels between two vertical bars of a 9 x 9 image is filled. -/
example : ∃ M, FittedMask ⟨1, 1⟩ barImage M ∧ (0, 0) ∈ places M := by
  obtain ⟨o, m, ho, hm, hroom, hp⟩ := barImage_mask
  obtain ⟨M, hM, -, -, h, -⟩ := C79_fills ⟨1, 1⟩ barImage 9 barImage_size o m ho hm hroom
  refine ⟨M, hM, h (0, 0) (-1) 2 (by norm_num) ?_ (by norm_num) (by norm_num)⟩
  intro k l hk hl h
  rw [hp]
  simp only [abs_le] at hk hl
  push_cast at hk hl
  omega

/-- `C79_border`: the corner pixel of the same image is never in the mask. -/
example : ∃ M, FittedMask ⟨1, 1⟩ barImage M ∧ (4, 4) ∉ places M := by
  obtain ⟨o, m, ho, hm, -, -⟩ := barImage_mask
  obtain ⟨M, hM, h⟩ := C79_border ⟨1, 1⟩ barImage 9 barImage_size o m ho hm
  exact ⟨M, hM, h (4, 4) (5, 5) (by unfold Near; norm_num) (by unfold Reaches; norm_num)⟩

/-- `C80_fit`: a finder that answers the corner of the image and the largest radius. -/
example : fitCircle (fun _ _ r => [(0, 0, r.getLastD 0)]) ⟨2, 2, fun i j => if i = j then 1 else 0⟩ 1 3 1 = .ok (-1, -1, 3) := by
  obtain ⟨m, hm, -⟩ := C12_two_level (⟨2, 2, fun i j => if i = j then 1 else 0⟩ : Arr2 ℝ) 21 0 1 one_pos (by norm_num) (by
      intro v hv
      rw [mem_pixels_val] at hv
      obtain ⟨i, j, rfl⟩ := hv
      simp only
      split_ifs
      · exact Or.inr rfl
      · exact Or.inl rfl)
    ((mem_pixels_val _ _).mpr ⟨0, 1, by simp⟩) ((mem_pixels_val _ _).mpr ⟨0, 0, by simp⟩)
  exact (C80_fit _ _ 1 3 1 (-1) (-1) 3).mpr ⟨by norm_num, by norm_num, one_pos, m, [1, 2, 3], [], hm, fun k => by
    rcases k with _ | _ | _ | k
    · norm_num
    · norm_num
    · norm_num
    · rw [if_neg (by push_cast; omega)]; simp, rfl⟩

end Coralign.Props
