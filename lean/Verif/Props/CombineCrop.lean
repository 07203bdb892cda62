import Verif.Model.CombineCrop

/-!
# Properties C05 and C06: `combine`, `crop`, `get_crop_lower`
-/

namespace Coralign.Props

open Coralign

variable {K : Type}

/-- **C05, combine.** Same shape as the frame; NaN exactly at bad pixels, the frame's own value elsewhere. -/
theorem C05_combine (frame : Arr2 (Fl K)) (bp : Arr2 Bool) (hr : bp.nr = frame.nr) (hc : bp.nc = frame.nc) :
    ∃ o, combine frame bp = .ok o ∧ o.nr = frame.nr ∧ o.nc = frame.nc ∧
      ∀ i j : Int, (bp.px i j = some true → o.px i j = some .nan) ∧
                   (bp.px i j = some false → o.px i j = frame.px i j) := by
  unfold combine
  rw [dif_pos ⟨hr, hc⟩]
  refine ⟨_, rfl, rfl, rfl, ?_⟩
  intro i j
  by_cases hin : (0 ≤ i ∧ i < frame.nr) ∧ (0 ≤ j ∧ j < frame.nc)
  · rw [Arr2.px_of_inB bp (by omega), Arr2.px_of_inB frame hin]
    constructor <;> intro hb <;> simp only [Option.some.injEq] at hb <;>
      (rw [Arr2.px, dif_pos hin]; simp [hb])
  · rw [Arr2.px_of_not_inB bp (by omega)]
    simp

/-- **C05, combine error branch.** A bad-pixel map of another shape is rejected. -/
theorem C05_combine_rejects (frame : Arr2 (Fl K)) (bp : Arr2 Bool) (h : ¬ (bp.nr = frame.nr ∧ bp.nc = frame.nc)) :
    combine frame bp = .error .typeError := by
  unfold combine; rw [dif_neg h]

example : (Arr2.ofFn 2 2 fun i j => i == j : Arr2 Bool).nr = (Arr2.full 2 2 (Fl.num (1 : Int))).nr := rfl

theorem crop_ok_aux (frame : Arr2 (Fl K)) (r c h w : Int)
    (h1 : 0 ≤ r) (h2 : 0 ≤ c) (h3 : 0 < h) (h4 : 0 < w) (h5 : r < frame.nr) (h6 : c < frame.nc) :
    crop frame r c h w = (Arr2.full h.toNat w.toNat Fl.nan).assign 0
        (frame.slice r (r + h) c (c + w)).nr 0 (frame.slice r (r + h) c (c + w)).nc
        (frame.slice r (r + h) c (c + w)) := by
  have e1 : checkNonnegInt r = .ok () := by unfold checkNonnegInt; rw [if_neg (by omega)]
  have e2 : checkNonnegInt c = .ok () := by unfold checkNonnegInt; rw [if_neg (by omega)]
  have e3 : checkPosInt h = .ok () := by unfold checkPosInt; rw [if_neg (by omega)]
  have e4 : checkPosInt w = .ok () := by unfold checkPosInt; rw [if_neg (by omega)]
  unfold crop
  simp only [e1, e2, e3, e4, bind, Except.bind]
  rw [if_neg (by omega), if_neg (by omega)]

/-- **C05, crop.** A crop whose lower corner lies in the frame succeeds, has the requested shape, and shows
the frame's pixels shifted by the lower corner, with NaN wherever the window leaves the frame. -/
theorem C05_crop (frame : Arr2 (Fl K)) (r c h w : Int)
    (h1 : 0 ≤ r) (h2 : 0 ≤ c) (h3 : 0 < h) (h4 : 0 < w) (h5 : r < frame.nr) (h6 : c < frame.nc) :
    ∃ o, crop frame r c h w = .ok o ∧ (o.nr : Int) = h ∧ (o.nc : Int) = w ∧
      ∀ i j : Int, 0 ≤ i → i < h → 0 ≤ j → j < w →
        o.px i j = some (match frame.px (r + i) (c + j) with | some v => v | none => .nan) := by
  rw [crop_ok_aux frame r c h w h1 h2 h3 h4 h5 h6]
  have b1 : Arr2.sliceBound frame.nr r = r.toNat := Arr2.sliceBound_of_le h1 (by omega)
  have b2 : Arr2.sliceBound frame.nc c = c.toNat := Arr2.sliceBound_of_le h2 (by omega)
  have b3 : Arr2.sliceBound frame.nr (r + h) = (min (r + h) frame.nr).toNat := by
    unfold Arr2.sliceBound; rw [if_neg (by omega)]
  have b4 : Arr2.sliceBound frame.nc (c + w) = (min (c + w) frame.nc).toNat := by
    unfold Arr2.sliceBound; rw [if_neg (by omega)]
  have n1 := Arr2.slice_nr frame r (r + h) c (c + w)
  have n2 := Arr2.slice_nc frame r (r + h) c (c + w)
  rw [b1, b3] at n1
  rw [b2, b4] at n2
  generalize hs : frame.slice r (r + h) c (c + w) = s at *
  have z : ∀ n : Nat, Arr2.sliceBound n 0 = 0 := fun n => by unfold Arr2.sliceBound; simp
  have d1 : Arr2.sliceBound h.toNat (s.nr : Int) = s.nr := by
    rw [Arr2.sliceBound_of_le (by omega) (by omega)]; simp
  have d2 : Arr2.sliceBound w.toNat (s.nc : Int) = s.nc := by
    rw [Arr2.sliceBound_of_le (by omega) (by omega)]; simp
  obtain ⟨o, ho, hnr, hnc, hin, hout⟩ := Arr2.assign_ok (Arr2.full h.toNat w.toNat (Fl.nan : Fl K)) s 0 s.nr 0 s.nc
    (by simp only [Arr2.full_nr, z, d1]; omega) (by simp only [Arr2.full_nc, z, d2]; omega)
  simp only [Arr2.full_nr, Arr2.full_nc, z, d1, d2] at hnr hnc hin hout
  refine ⟨o, ho, by omega, by omega, ?_⟩
  intro i j i0 i1 j0 j1
  by_cases hc : (0 ≤ i ∧ i < s.nr) ∧ (0 ≤ j ∧ j < s.nc)
  · rw [hin i j (by omega)]
    simp only [Nat.cast_zero, sub_zero]
    rw [← hs, Arr2.px_slice_in frame (by rw [hs]; exact hc), b1, b2, Int.toNat_of_nonneg h1, Int.toNat_of_nonneg h2]
    have : (frame.px (r + i) (c + j)).isSome := by rw [Arr2.px_isSome]; omega
    obtain ⟨v, hv⟩ := Option.isSome_iff_exists.mp this
    rw [hv]
  · rw [hout i j (by omega), Arr2.px_full_in _ (by omega)]
    have : frame.px (r + i) (c + j) = none := by rw [Arr2.px_eq_none]; omega
    rw [this]

/-- **C05, crop error branch.** With well-formed integers, `ValueError` exactly when the lower corner is not
inside the frame. -/
theorem C05_crop_rejects (frame : Arr2 (Fl K)) (r c h w : Int)
    (h1 : 0 ≤ r) (h2 : 0 ≤ c) (h3 : 0 < h) (h4 : 0 < w) :
    crop frame r c h w = .error .valueError ↔ (frame.nr : Int) ≤ r ∨ (frame.nc : Int) ≤ c := by
  constructor
  · intro he
    by_contra hcon
    push Not at hcon
    obtain ⟨o, ho, _⟩ := C05_crop frame r c h w h1 h2 h3 h4 hcon.1 hcon.2
    rw [ho] at he; cases he
  · intro hor
    have e1 : checkNonnegInt r = .ok () := by unfold checkNonnegInt; rw [if_neg (by omega)]
    have e2 : checkNonnegInt c = .ok () := by unfold checkNonnegInt; rw [if_neg (by omega)]
    have e3 : checkPosInt h = .ok () := by unfold checkPosInt; rw [if_neg (by omega)]
    have e4 : checkPosInt w = .ok () := by unfold checkPosInt; rw [if_neg (by omega)]
    unfold crop
    simp only [e1, e2, e3, e4, bind, Except.bind]
    by_cases hr : (frame.nr : Int) ≤ r
    · rw [if_pos (by omega)]
    · rw [if_neg (by omega), if_pos (by omega)]

/-- **C05, crop of malformed integers.** Negative corners and non-positive widths raise `TypeError`. -/
theorem C05_crop_type_errors (frame : Arr2 (Fl K)) (r c h w : Int) (hbad : r < 0 ∨ c < 0 ∨ h ≤ 0 ∨ w ≤ 0) :
    crop frame r c h w = .error .typeError := by
  unfold crop checkNonnegInt checkPosInt
  by_cases h1 : r < 0
  · simp [h1, bind, Except.bind]
  by_cases h2 : c < 0
  · simp [h1, h2, bind, Except.bind]
  by_cases h3 : h ≤ 0
  · simp [h1, h2, h3, bind, Except.bind]
  have h4 : w ≤ 0 := by omega
  simp [h1, h2, h3, h4, bind, Except.bind]

/-- **C05, composition.** Cropping a crop is one crop at the summed corner, provided the inner window
contains the outer one. -/
theorem C05_crop_crop (frame : Arr2 (Fl K)) (r c h w r' c' h' w' : Int)
    (h1 : 0 ≤ r) (h2 : 0 ≤ c) (h1' : 0 ≤ r') (h2' : 0 ≤ c') (h3' : 0 < h') (h4' : 0 < w')
    (h5 : r + r' < frame.nr) (h6 : c + c' < frame.nc) (hh : r' + h' ≤ h) (hw : c' + w' ≤ w) :
    (crop frame r c h w).bind (fun b => crop b r' c' h' w') = crop frame (r + r') (c + c') h' w' := by
  obtain ⟨o, ho, nr, nc, hpx⟩ := C05_crop frame r c h w h1 h2 (by omega) (by omega) (by omega) (by omega)
  obtain ⟨o', ho', nr', nc', hpx'⟩ := C05_crop o r' c' h' w' h1' h2' h3' h4' (by omega) (by omega)
  obtain ⟨o'', ho'', nr'', nc'', hpx''⟩ := C05_crop frame (r + r') (c + c') h' w' (by omega) (by omega) h3' h4' h5 h6
  rw [ho, ho'']
  simp only [Except.bind]
  rw [ho']
  congr 1
  refine Arr2.ext_px (by omega) (by omega) ?_
  intro i j i0 i1 j0 j1
  rw [hpx' i j i0 (by omega) j0 (by omega), hpx'' i j i0 (by omega) j0 (by omega),
    hpx (r' + i) (c' + j) (by omega) (by omega) (by omega) (by omega)]
  simp only [add_assoc]

/-- Non-trivial instance: a 3x3 window at (2,1) of a 4x4 frame, hanging over the edge, re-cropped. -/
example : (0 : Int) ≤ 2 ∧ (0 : Int) ≤ 1 ∧ (2 : Int) + 1 < ((Arr2.full 4 4 (Fl.num (5 : Int))).nr : Int) ∧
    (1 : Int) + 2 ≤ 3 := by decide
example :
    (match crop (Arr2.ofFn 4 4 fun i j => Fl.num (10 * i + j)) 2 1 3 3 with
     | .ok o => [o.px 0 0, o.px 1 2, o.px 2 0] | .error _ => []) =
    [some (.num 21), some (.num 33), some .nan] := by decide

/-- **C06.** Without `bound`, the requested centre is at index `width // 2` of the crop on both axes. -/
theorem C06_get_crop_lower (rc cc rw cw : Int) (h1 : 0 ≤ rc) (h2 : 0 ≤ cc) (h3 : 0 < rw) (h4 : 0 < cw) :
    ∃ lr lc, getCropLower rc cc rw cw false = .ok (lr, lc) ∧ lr + rw / 2 = rc ∧ lc + cw / 2 = cc := by
  unfold getCropLower checkNonnegInt checkPosInt
  refine ⟨rc - rw / 2, cc - cw / 2, ?_, by omega, by omega⟩
  simp [Int.not_lt.mpr h1, Int.not_lt.mpr h2, Int.not_le.mpr h3, Int.not_le.mpr h4, bind, Except.bind]

/-- **C06, bounded.** With `bound` the corner is never negative, is unchanged if it already was
non-negative and is 0 otherwise; it is the closest legal corner. -/
theorem C06_get_crop_lower_bound (rc cc rw cw : Int) (h1 : 0 ≤ rc) (h2 : 0 ≤ cc) (h3 : 0 < rw) (h4 : 0 < cw) :
    ∃ lr lc, getCropLower rc cc rw cw true = .ok (lr, lc) ∧ 0 ≤ lr ∧ 0 ≤ lc ∧
      (rw / 2 ≤ rc → lr + rw / 2 = rc) ∧ (rc < rw / 2 → lr = 0) ∧
      (cw / 2 ≤ cc → lc + cw / 2 = cc) ∧ (cc < cw / 2 → lc = 0) := by
  unfold getCropLower checkNonnegInt checkPosInt
  refine ⟨max (rc - rw / 2) 0, max (cc - cw / 2) 0, ?_, by omega, by omega, by omega, by omega, by omega, by omega⟩
  simp [Int.not_lt.mpr h1, Int.not_lt.mpr h2, Int.not_le.mpr h3, Int.not_le.mpr h4, bind, Except.bind]

/-- **C06, end to end.** A crop placed with the bounded corner succeeds whenever the requested centre is in
the frame, and then contains that centre pixel: at index `width // 2` if the window fits on the low side. -/
theorem C06_crop_contains_center (frame : Arr2 (Fl K)) (rc cc rw cw : Int)
    (h1 : 0 ≤ rc) (h2 : 0 ≤ cc) (h3 : 0 < rw) (h4 : 0 < cw) (h5 : rc < frame.nr) (h6 : cc < frame.nc) :
    ∃ o, (getCropLower rc cc rw cw true).bind (fun p => crop frame p.1 p.2 rw cw) = .ok o ∧
      o.px (min rc (rw / 2)) (min cc (cw / 2)) = frame.px rc cc := by
  obtain ⟨lr, lc, he, n1, n2, a1, a2, a3, a4⟩ := C06_get_crop_lower_bound rc cc rw cw h1 h2 h3 h4
  obtain ⟨o, ho, -, -, hpx⟩ := C05_crop frame lr lc rw cw n1 n2 h3 h4 (by omega) (by omega)
  refine ⟨o, ?_, ?_⟩
  · rw [he]; exact ho
  · rw [hpx _ _ (by omega) (by omega) (by omega) (by omega)]
    have e1 : lr + min rc (rw / 2) = rc := by omega
    have e2 : lc + min cc (cw / 2) = cc := by omega
    rw [e1, e2]
    have : (frame.px rc cc).isSome := by rw [Arr2.px_isSome]; omega
    obtain ⟨v, hv⟩ := Option.isSome_iff_exists.mp this
    rw [hv]

/-- **C06, error branch.** Negative centres and non-positive widths raise `TypeError`. -/
theorem C06_get_crop_lower_rejects (rc cc rw cw : Int) (b : Bool)
    (hbad : rc < 0 ∨ cc < 0 ∨ rw ≤ 0 ∨ cw ≤ 0) : getCropLower rc cc rw cw b = .error .typeError := by
  unfold getCropLower checkNonnegInt checkPosInt
  by_cases h1 : rc < 0
  · simp [h1, bind, Except.bind]
  by_cases h2 : cc < 0
  · simp [h1, h2, bind, Except.bind]
  by_cases h3 : rw ≤ 0
  · simp [h1, h2, h3, bind, Except.bind]
  have h4 : cw ≤ 0 := by omega
  simp [h1, h2, h3, h4, bind, Except.bind]

example : (0 : Int) ≤ 1 ∧ (0 : Int) < 5 ∧ (1 : Int) < (5 : Int) / 2 := by decide

end Coralign.Props
