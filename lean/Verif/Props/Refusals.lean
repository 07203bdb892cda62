import Verif.Model.Shapes
import Verif.Model.DmShapes
import Verif.Model.Dmhtoph
import Verif.Model.FindOpt
import Verif.Model.Quad
import Verif.Props.Shapes
import Verif.Props.PadCrop
import Mathlib.Tactic.Tauto
import Mathlib.Tactic.FinCases
import Verif.Props.GainMap
import Verif.Props.Dmhtoph

/-!
# C97: bad arguments are refused, with the promised exception, and good ones are not
-/

namespace Coralign.Props

open Coralign

/-- Two refusals and a result, all decided by the arguments. -/
theorem two_refusals {α : Type} {r : Res α} {P Q : Prop} {e f : PyExc} (h : e ≠ f) (hP : ¬ P → r = .error e)
    (hQ : P → ¬ Q → r = .error f) (ho : P → Q → ∃ o, r = .ok o) :
    ((∃ o, r = .ok o) ↔ P ∧ Q) ∧ (r = .error e ↔ ¬ P) ∧ (r = .error f ↔ P ∧ ¬ Q) := by
  by_cases p : P
  · by_cases q : Q
    · obtain ⟨o, rfl⟩ := ho p q
      simp [p, q]
    · rw [hQ p q]; simp [p, q, Ne.symm h]
  · rw [hP p]; simp [p, h]

/-- One refusal and a result. -/
theorem one_refusal {α : Type} {r : Res α} {P : Prop} {e : PyExc} (hP : ¬ P → r = .error e) (ho : P → ∃ o, r = .ok o) :
    ((∃ o, r = .ok o) ↔ P) ∧ (r = .error e ↔ ¬ P) := by
  by_cases p : P
  · obtain ⟨o, rfl⟩ := ho p
    simp [p]
  · rw [hP p]; simp [p]

/-- Every entry of a disjunction of sign tests contradicts the corresponding entry of the conjunction. -/
macro "signs" : tactic => `(tactic| (first | omega | linarith))

/-- **C97 (ellipse).**  `ellipse` returns an image exactly for sizes of at least two pixels, positive radii and at least one
subpixel; otherwise it raises `TypeError`, or `IndexError` when an axis has one pixel only. -/
theorem C97_ellipse (nx ny : ℤ) (rx ry rot xo yo : ℝ) (nSub : ℤ) (dark : Bool) :
    ((∃ o, ellipse nx ny rx ry rot xo yo nSub dark = .ok o) ↔
      (1 ≤ nx ∧ 1 ≤ ny ∧ 0 < rx ∧ 0 < ry ∧ 1 ≤ nSub) ∧ (nx ≠ 1 ∧ ny ≠ 1)) ∧
    (ellipse nx ny rx ry rot xo yo nSub dark = .error .typeError ↔ ¬ (1 ≤ nx ∧ 1 ≤ ny ∧ 0 < rx ∧ 0 < ry ∧ 1 ≤ nSub)) ∧
    (ellipse nx ny rx ry rot xo yo nSub dark = .error .indexError ↔
      (1 ≤ nx ∧ 1 ≤ ny ∧ 0 < rx ∧ 0 < ry ∧ 1 ≤ nSub) ∧ ¬ (nx ≠ 1 ∧ ny ≠ 1)) := by
  unfold ellipse
  refine two_refusals (by decide) (fun h => if_pos ?_) (fun h h' => ?_) (fun h h' => ?_)
  · by_contra hc; push Not at hc; exact h ⟨by omega, by omega, hc.2.2.1, hc.2.2.2.1, by omega⟩
  · rw [if_neg (by rintro (h | h | h | h | h) <;> signs), if_pos (by tauto)]
  · rw [if_neg (by rintro (h | h | h | h | h) <;> signs), if_neg (by tauto)]
    exact ⟨_, rfl⟩

/-- **C97 (annular segments).**  `annular_segments` returns an image exactly for one or two segments, positive radii, sizes and
subpixels, non-negative opening and angular margin, at least two columns and a rotation below 360 degrees. -/
theorem C97_annular (nSeg : ℤ) (rIn rOut : ℝ) (nx ny : ℤ) (xo yo angOpen angRot : ℝ) (nSub : ℤ) (dTheta : ℝ) :
    ((∃ o, annularSegments nSeg rIn rOut nx ny xo yo angOpen angRot nSub dTheta = .ok o) ↔
      ((nSeg = 1 ∨ nSeg = 2) ∧ 0 < rIn ∧ 0 < rOut ∧ 1 ≤ nx ∧ 1 ≤ ny ∧ 0 ≤ angOpen ∧ 1 ≤ nSub ∧ 0 ≤ dTheta) ∧ nx ≠ 1 ∧ angRot < 360) ∧
    (annularSegments nSeg rIn rOut nx ny xo yo angOpen angRot nSub dTheta = .error .typeError ↔
      ¬ ((nSeg = 1 ∨ nSeg = 2) ∧ 0 < rIn ∧ 0 < rOut ∧ 1 ≤ nx ∧ 1 ≤ ny ∧ 0 ≤ angOpen ∧ 1 ≤ nSub ∧ 0 ≤ dTheta)) ∧
    (annularSegments nSeg rIn rOut nx ny xo yo angOpen angRot nSub dTheta = .error .indexError ↔
      ((nSeg = 1 ∨ nSeg = 2) ∧ 0 < rIn ∧ 0 < rOut ∧ 1 ≤ nx ∧ 1 ≤ ny ∧ 0 ≤ angOpen ∧ 1 ≤ nSub ∧ 0 ≤ dTheta) ∧ nx = 1) ∧
    (annularSegments nSeg rIn rOut nx ny xo yo angOpen angRot nSub dTheta = .error .unboundLocalError ↔
      ((nSeg = 1 ∨ nSeg = 2) ∧ 0 < rIn ∧ 0 < rOut ∧ 1 ≤ nx ∧ 1 ≤ ny ∧ 0 ≤ angOpen ∧ 1 ≤ nSub ∧ 0 ≤ dTheta) ∧ nx ≠ 1 ∧ 360 ≤ angRot) := by
  by_cases hg : (nSeg = 1 ∨ nSeg = 2) ∧ 0 < rIn ∧ 0 < rOut ∧ 1 ≤ nx ∧ 1 ≤ ny ∧ 0 ≤ angOpen ∧ 1 ≤ nSub ∧ 0 ≤ dTheta
  · have h0 : ¬ (nSeg ≠ 1 ∧ nSeg ≠ 2) := by omega
    have h1 : ¬ (rIn ≤ 0 ∨ rOut ≤ 0 ∨ nx ≤ 0 ∨ ny ≤ 0 ∨ angOpen < 0 ∨ nSub ≤ 0 ∨ dTheta < 0) := by
      rintro (h | h | h | h | h | h | h) <;> signs
    unfold annularSegments
    rw [if_neg h0, if_neg h1]
    by_cases h2 : nx = 1
    · rw [if_pos h2]; simp [hg, h2]
    · rw [if_neg h2]
      by_cases h3 : angRot < 360
      · rw [if_neg (not_not.mpr h3)]
        dsimp only
        split_ifs <;> simp [hg, h2, h3]
      · rw [if_pos h3]; simp [hg, h2, h3, not_lt.mp h3]
  · have : annularSegments nSeg rIn rOut nx ny xo yo angOpen angRot nSub dTheta = .error .typeError := by
      unfold annularSegments
      by_cases h0 : nSeg ≠ 1 ∧ nSeg ≠ 2
      · rw [if_pos h0]
      · rw [if_neg h0, if_pos]
        by_contra hc; push Not at hc
        exact hg ⟨by omega, hc.1, hc.2.1, by omega, by omega, hc.2.2.2.2.1, by omega, hc.2.2.2.2.2.2⟩
    rw [this]
    simp [hg]

/-- **C97 (probe).** -/
theorem C97_probe (nact : ℤ) (dact xc yc clock height ximin ximax etamin etamax phase : ℝ) :
    ((∃ o, probe nact dact xc yc clock height ximin ximax etamin etamax phase = .ok o) ↔
      (1 ≤ nact ∧ 0 < dact ∧ 0 < height) ∧ (ximin < ximax ∧ etamin < etamax)) ∧
    (probe nact dact xc yc clock height ximin ximax etamin etamax phase = .error .typeError ↔ ¬ (1 ≤ nact ∧ 0 < dact ∧ 0 < height)) ∧
    (probe nact dact xc yc clock height ximin ximax etamin etamax phase = .error .valueError ↔
      (1 ≤ nact ∧ 0 < dact ∧ 0 < height) ∧ ¬ (ximin < ximax ∧ etamin < etamax)) := by
  unfold probe
  refine two_refusals (by decide) (fun h => if_pos ?_) (fun h h' => ?_) (fun h h' => ?_)
  · by_contra hc; push Not at hc; exact h ⟨by omega, hc.2.1, hc.2.2⟩
  · rw [if_neg (by rintro (h | h | h) <;> signs)]
    by_cases h1 : ximin ≥ ximax
    · rw [if_pos h1]
    · rw [if_neg h1, if_pos]
      by_contra hc
      exact h' ⟨not_le.mp h1, not_le.mp hc⟩
  · rw [if_neg (by rintro (h | h | h) <;> signs), if_neg (not_le.mpr h'.1), if_neg (not_le.mpr h'.2)]
    exact ⟨_, rfl⟩

/-- **C97 (sine).** -/
theorem C97_sine (nact : ℤ) (dact amplitude phase freqx freqy : ℝ) :
    ((∃ o, sine nact dact amplitude phase freqx freqy = .ok o) ↔ 1 ≤ nact ∧ 0 < dact ∧ 0 < amplitude) ∧
    (sine nact dact amplitude phase freqx freqy = .error .typeError ↔ ¬ (1 ≤ nact ∧ 0 < dact ∧ 0 < amplitude)) := by
  unfold sine
  refine one_refusal (fun h => if_pos ?_) (fun h => ⟨_, if_neg (by rintro (h | h | h) <;> signs)⟩)
  by_contra hc; push Not at hc; exact h ⟨by omega, hc.2.1, hc.2.2⟩

/-- **C97 (gain conversions).** -/
theorem C97_dmh_to_volts (g h : Arr2 ℝ) (lam : ℝ) :
    ((∃ o, dmhToVolts g h lam = .ok o) ↔ 0 < lam ∧ h.nr = g.nr ∧ h.nc = g.nc) ∧
    (dmhToVolts g h lam = .error .typeError ↔ ¬ (0 < lam ∧ h.nr = g.nr ∧ h.nc = g.nc)) := by
  unfold dmhToVolts
  refine one_refusal (fun hb => ?_) (fun hb => ⟨_, by rw [if_neg (not_le.mpr hb.1), dif_pos hb.2]⟩)
  by_cases hl : lam ≤ 0
  · rw [if_pos hl]
  · rw [if_neg hl, dif_neg (fun hh => hb ⟨not_le.mp hl, hh⟩)]

/-- **C97 (gain conversions, the other way).** -/
theorem C97_volts_to_dmh (g h : Arr2 ℝ) (lam : ℝ) :
    ((∃ o, voltsToDmh g h lam = .ok o) ↔ 0 < lam ∧ h.nr = g.nr ∧ h.nc = g.nc) ∧
    (voltsToDmh g h lam = .error .typeError ↔ ¬ (0 < lam ∧ h.nr = g.nr ∧ h.nc = g.nc)) := by
  unfold voltsToDmh
  refine one_refusal (fun hb => ?_) (fun hb => ⟨_, by rw [if_neg (not_le.mpr hb.1), dif_pos hb.2]⟩)
  by_cases hl : lam ≤ 0
  · rw [if_pos hl]
  · rw [if_neg hl, dif_neg (fun hh => hb ⟨not_le.mp hl, hh⟩)]

/-- **C97 (quadrant balance).**  Negative numbers raise `TypeError`; an origin beyond the image (the code compares the column
with the number of rows, and the row with the number of columns) raises `ValueError`. -/
theorem C97_quadrant (a : Arr2 ℝ) (ox oy : ℤ) (r : ℝ) :
    ((∃ o, quadrantEnergyBalance a ox oy r = .ok o) ↔ (0 ≤ r ∧ 0 ≤ ox ∧ 0 ≤ oy) ∧ ox < a.nr ∧ oy < a.nc) ∧
    (quadrantEnergyBalance a ox oy r = .error .typeError ↔ ¬ (0 ≤ r ∧ 0 ≤ ox ∧ 0 ≤ oy)) ∧
    (quadrantEnergyBalance a ox oy r = .error .valueError ↔ (0 ≤ r ∧ 0 ≤ ox ∧ 0 ≤ oy) ∧ ¬ (ox < a.nr ∧ oy < a.nc)) := by
  unfold quadrantEnergyBalance
  refine two_refusals (by decide) (fun h => ?_) (fun h h' => ?_) (fun h h' => ?_)
  · split_ifs <;> first | rfl | exact absurd ⟨not_lt.mp ‹_›, not_lt.mp ‹_›, not_lt.mp ‹_›⟩ h
  · rw [if_neg (not_lt.mpr h.1), if_neg (not_lt.mpr h.2.1), if_neg (not_lt.mpr h.2.2)]
    by_cases h1 : ox < a.nr
    · rw [if_neg (not_not.mpr h1), if_pos (fun h2 => h' ⟨h1, h2⟩)]
    · rw [if_pos h1]
  · rw [if_neg (not_lt.mpr h.1), if_neg (not_lt.mpr h.2.1), if_neg (not_lt.mpr h.2.2), if_neg (not_not.mpr h'.1), if_neg (not_not.mpr h'.2)]
    dsimp only
    split_ifs <;> exact ⟨_, rfl⟩

/-- **C97 (circle).** -/
theorem C97_circle (nx ny : ℤ) (radius xo yo : ℝ) (nSub : ℤ) (dark : Bool) :
    ((∃ o, circle nx ny radius xo yo nSub dark = .ok o) ↔ (1 ≤ nx ∧ 1 ≤ ny ∧ 0 < radius ∧ 1 ≤ nSub) ∧ nx ≠ 1) ∧
    (circle nx ny radius xo yo nSub dark = .error .typeError ↔ ¬ (1 ≤ nx ∧ 1 ≤ ny ∧ 0 < radius ∧ 1 ≤ nSub)) ∧
    (circle nx ny radius xo yo nSub dark = .error .indexError ↔ (1 ≤ nx ∧ 1 ≤ ny ∧ 0 < radius ∧ 1 ≤ nSub) ∧ ¬ nx ≠ 1) := by
  unfold circle
  refine two_refusals (by decide) (fun h => if_pos ?_) (fun h h' => ?_) (fun h h' => ?_)
  · by_contra hc; push Not at hc; exact h ⟨by omega, by omega, hc.2.2.1, by omega⟩
  · rw [if_neg (by rintro (h | h | h | h) <;> signs), if_pos (by tauto)]
  · rw [if_neg (by rintro (h | h | h | h) <;> signs), if_neg (by tauto)]
    exact ⟨_, rfl⟩

/-- **C97 (rectangle).** -/
theorem C97_rectangle (nx ny : ℤ) (width height xo yo rot : ℝ) (nSub : ℤ) (dark : Bool) :
    ((∃ o, rectangle nx ny width height xo yo rot nSub dark = .ok o) ↔
      (1 ≤ nx ∧ 1 ≤ ny ∧ 0 < width ∧ 0 < height ∧ 1 ≤ nSub) ∧ nx ≠ 1) ∧
    (rectangle nx ny width height xo yo rot nSub dark = .error .typeError ↔
      ¬ (1 ≤ nx ∧ 1 ≤ ny ∧ 0 < width ∧ 0 < height ∧ 1 ≤ nSub)) ∧
    (rectangle nx ny width height xo yo rot nSub dark = .error .indexError ↔
      (1 ≤ nx ∧ 1 ≤ ny ∧ 0 < width ∧ 0 < height ∧ 1 ≤ nSub) ∧ ¬ nx ≠ 1) := by
  unfold rectangle
  refine two_refusals (by decide) (fun h => if_pos ?_) (fun h h' => ?_) (fun h h' => ?_)
  · by_contra hc; push Not at hc; exact h ⟨by omega, by omega, hc.2.2.1, hc.2.2.2.1, by omega⟩
  · rw [if_neg (by rintro (h | h | h | h | h) <;> signs), if_pos (by tauto)]
  · rw [if_neg (by rintro (h | h | h | h | h) <;> signs), if_neg (by tauto)]
    exact ⟨_, rfl⟩

theorem fold_struts (f : ℝ → Res (Arr2 ℝ)) (angles : List ℝ) (h : ∀ a, ∃ s, f a = .ok s) (p : Arr2 ℝ) :
    ∃ o, angles.foldlM (fun p angle => do
      let s ← f angle
      (.ok (p.mulPx s) : Res (Arr2 ℝ))) p = .ok o := by
  induction angles generalizing p with
  | nil => exact ⟨p, rfl⟩
  | cons a l ih =>
    obtain ⟨s, hs⟩ := h a
    obtain ⟨o, ho⟩ := ih (p.mulPx s)
    refine ⟨o, ?_⟩
    rw [List.foldlM_cons, hs]
    exact ho

/-- **C97 (pupil).** -/
theorem C97_pupil (nx ny : ℤ) (xo yo dInner dOuter : ℝ) (angles : List ℝ) (width : ℝ) (nSub : ℤ) :
    ((∃ o, simplePupil nx ny xo yo dInner dOuter angles width nSub = .ok o) ↔
      (1 ≤ nx ∧ 1 ≤ ny ∧ 0 ≤ dInner ∧ 0 < dOuter ∧ 0 ≤ width ∧ 1 ≤ nSub ∧ dInner < dOuter) ∧ nx ≠ 1) ∧
    (simplePupil nx ny xo yo dInner dOuter angles width nSub = .error .typeError ↔
      ¬ (1 ≤ nx ∧ 1 ≤ ny ∧ 0 ≤ dInner ∧ 0 < dOuter ∧ 0 ≤ width ∧ 1 ≤ nSub ∧ dInner < dOuter)) ∧
    (simplePupil nx ny xo yo dInner dOuter angles width nSub = .error .indexError ↔
      (1 ≤ nx ∧ 1 ≤ ny ∧ 0 ≤ dInner ∧ 0 < dOuter ∧ 0 ≤ width ∧ 1 ≤ nSub ∧ dInner < dOuter) ∧ ¬ nx ≠ 1) := by
  unfold simplePupil
  refine two_refusals (by decide) (fun h => if_pos ?_) (fun h h' => ?_) (fun h h' => ?_)
  · by_contra hc; push Not at hc; exact h ⟨by omega, by omega, hc.2.2.1, hc.2.2.2.1, hc.2.2.2.2.1, by omega, hc.2.2.2.2.2.2⟩
  · rw [if_neg (by rintro (h | h | h | h | h | h | h) <;> signs),
      (C97_circle nx ny (dOuter / 2) xo yo nSub false).2.2.mpr ⟨⟨h.1, h.2.1, by linarith, by omega⟩, h'⟩]
    rfl
  · rw [if_neg (by rintro (h | h | h | h | h | h | h) <;> signs)]
    obtain ⟨p0, e0⟩ := (C97_circle nx ny (dOuter / 2) xo yo nSub false).1.mpr ⟨⟨h.1, h.2.1, by linarith, by omega⟩, h'⟩
    rw [e0]
    have tail : ∀ p1 : Arr2 ℝ, ∃ o, (if 0 < angles.length ∧ width > 0 then
        angles.foldlM (fun p angle => do
          let s ← pupilStrut nx ny xo yo dOuter width nSub angle
          .ok (p.mulPx s)) p1
      else .ok p1 : Res (Arr2 ℝ)) = .ok o := by
      intro p1
      split_ifs with hs
      · exact fold_struts _ _ (fun a => (C97_rectangle nx ny _ _ _ _ a nSub true).1.mpr
          ⟨⟨h.1, h.2.1, by have := h.2.2.2.1; positivity, hs.2, by omega⟩, h'⟩) p1
      · exact ⟨_, rfl⟩
    by_cases hi : dInner > 0
    · obtain ⟨d, hd⟩ := (C97_circle nx ny (dInner / 2) xo yo nSub true).1.mpr ⟨⟨h.1, h.2.1, by linarith, by omega⟩, h'⟩
      obtain ⟨o, ho⟩ := tail (p0.mulPx d)
      refine ⟨o, ?_⟩
      rw [← ho, res_ok_bind, if_pos hi, hd]
      rfl
    · obtain ⟨o, ho⟩ := tail p0
      refine ⟨o, ?_⟩
      rw [← ho, res_ok_bind, if_neg hi]
      rfl

/-- **C97 (DM surface).**  Everything `dmhtoph` refuses is refused with `TypeError`, except arguments that pass every documented
test but leave fewer than four samples for the spline. -/
theorem C97_dmhtoph (S : Spline) (R : Rotate) (T : Shift) (nrow ncol : ℤ) (dm : Arr2 ℝ) (n : ℤ) (w : Arr2 ℝ) (P : ℤ)
    (cx cy dx dy th : ℝ) (flipx : Bool) :
    dmhtoph S R T nrow ncol dm n w P cx cy dx dy th flipx = .error .typeError ↔
      ¬ (1 ≤ nrow ∧ 1 ≤ ncol ∧ 1 ≤ n ∧ 1 ≤ P ∧ 0 < cx ∧ 0 < cy ∧ w.nr < n * P ∧ (dm.nr : ℤ) = n ∧ (dm.nc : ℤ) = n ∧ cx ≤ P ∧ cy ≤ P ∧
        w.nr = w.nc ∧ w.nr % 2 = 1) := by
  constructor
  · rintro h ⟨h1, h2, h3, h4, h5, h6, h7, h8, h9, h10, h11, h12, h13⟩
    unfold dmhtoph at h
    rw [if_neg (by rintro (h | h | h | h | h | h) <;> signs), if_neg (by omega), if_neg (by omega),
      if_neg (by rintro (h | h) <;> linarith), if_neg (by omega), if_neg (by omega)] at h
    dsimp only at h
    split_ifs at h
    · cases h
    · obtain ⟨o, ho, -⟩ := C01_pad_crop_registered (T.run dy dx (R.run (-th)
        (if flipx = true then
          (cameraGrid S (fullConvolve (spreadPokes n.toNat P.toNat dm) w) P (workSize n w.nr P cx cy) cx cy).fliplr
        else cameraGrid S (fullConvolve (spreadPokes n.toNat P.toNat dm) w) P (workSize n w.nr P cx cy) cx cy))) nrow ncol 0 (by omega) (by omega)
      simp_all
    · obtain ⟨o, ho, -⟩ := C01_pad_crop_registered (T.run dy dx (R.run (-th)
        (if flipx = true then
          (cameraGrid S (fullConvolve (spreadPokes n.toNat P.toNat dm) w) P (workSize n w.nr P cx cy) cx cy).fliplr
        else cameraGrid S (fullConvolve (spreadPokes n.toNat P.toNat dm) w) P (workSize n w.nr P cx cy) cx cy))) nrow ncol 0 (by omega) (by omega)
      simp_all
  · intro h
    unfold dmhtoph
    split_ifs with h1 h2 h3 h4 h5 h6 <;> try rfl
    all_goals
      exfalso
      push Not at h1 h2 h3 h4 h5 h6
      exact h ⟨by omega, by omega, by omega, by omega, h1.2.2.2.2.1, h1.2.2.2.2.2, by omega, h3.1, h3.2, h4.1, h4.2, h5, h6⟩

/-- **C97 (one-dimensional optimum).** -/
theorem C97_find_optimum_1d (S : Solver) (x y : List ℝ) :
    (findOptimum1d S x y = .error .valueError ↔ x.length ≠ y.length) ∧
    (findOptimum1d S x y = .error .typeError ↔ x = [] ∧ y = []) ∧
    ((∃ o, findOptimum1d S x y = .ok o) ∨ findOptimum1d S x y = .error .quadraticException ↔ x.length = y.length ∧ x ≠ []) := by
  unfold findOptimum1d
  by_cases h : x.length ≠ y.length
  · rw [dif_pos h]
    simp [h]
    rintro rfl rfl
    simp at h
  · rw [dif_neg h]
    push Not at h
    by_cases h0 : x.length = 0
    · have hx : x = [] := List.length_eq_zero_iff.mp h0
      have hy : y = [] := List.length_eq_zero_iff.mp (by omega)
      subst hx hy
      simp
    · rw [if_neg h0]
      have hx : x ≠ [] := fun e => h0 (by simp [e])
      dsimp only
      split_ifs <;> simp [h, hx]

/-- **C97 (two-dimensional optimum).** -/
theorem C97_find_optimum_2d (S : Solver) (x y : List ℝ) (a : Arr2 ℝ) (mask : Arr2 Bool) :
    (findOptimum2d S x y a mask = .error .valueError ↔ ¬ (a.nr = mask.nr ∧ a.nc = mask.nc ∧ a.nr = y.length ∧ a.nc = x.length)) ∧
    ((∃ o, findOptimum2d S x y a mask = .ok o) ∨ findOptimum2d S x y a mask = .error .quadraticException ↔
      a.nr = mask.nr ∧ a.nc = mask.nc ∧ a.nr = y.length ∧ a.nc = x.length) := by
  unfold findOptimum2d
  by_cases h1 : a.nr ≠ mask.nr ∨ a.nc ≠ mask.nc
  · rw [dif_pos h1]
    simp
    omega
  · rw [dif_neg h1]
    by_cases h2 : a.nr ≠ y.length
    · rw [dif_pos h2]; simp; omega
    · rw [dif_neg h2]
      by_cases h3 : a.nc ≠ x.length
      · rw [dif_pos h3]; simp; omega
      · rw [dif_neg h3]
        have : a.nr = mask.nr ∧ a.nc = mask.nc ∧ a.nr = y.length ∧ a.nc = x.length := by omega
        dsimp only
        refine ⟨iff_of_false ?_ (not_not.mpr this), iff_of_true ?_ this⟩ <;> split_ifs <;> simp

section
variable {K : Type} [Field K] [LinearOrder K] [IsStrictOrderedRing K]

theorem fillGrid_refuses (nr nc : ℕ) (f : ℕ → ℕ → Res K) (e : PyExc) (he : ∀ r < nr, ∀ c < nc, (∃ x, f r c = .ok x) ∨ f r c = .error e) :
    ((∃ o, fillGrid nr nc f = .ok o) ↔ ∀ r < nr, ∀ c < nc, ∃ x, f r c = .ok x) ∧
    (fillGrid nr nc f = .error e ↔ ¬ ∀ r < nr, ∀ c < nc, ∃ x, f r c = .ok x) := by
  refine one_refusal (fun h => ?_) (fun h => ?_)
  · push Not at h
    obtain ⟨r, hr, c, hc, hx⟩ := h
    rcases he r hr c hc with ⟨x, h⟩ | h
    · exact absurd h (hx x)
    · obtain ⟨r', hr', c', hc', e', h1, h2⟩ := fillGrid_err nr nc f ⟨r, hr, c, hc, e, h⟩
      rcases he r' hr' c' hc' with ⟨x, h'⟩ | h'
      · rw [h'] at h1; cases h1
      · rw [h'] at h1; cases h1; exact h2
  · have : ∀ r c, ∃ x, r < nr → c < nc → f r c = .ok x := by
      intro r c
      by_cases hr : r < nr
      · by_cases hc : c < nc
        · obtain ⟨x, hx⟩ := h r hr c hc
          exact ⟨x, fun _ _ => hx⟩
        · exact ⟨0, fun _ h => absurd h hc⟩
      · exact ⟨0, fun h => absurd h hr⟩
    choose v hv using this
    exact ⟨_, fillGrid_ok nr nc f v fun r hr c hc => hv r c hr hc⟩

omit [IsStrictOrderedRing K] in
/-- The interpolator refuses exactly what its contract says. -/
theorem interp_refuses (I : CubicInterp K) (x y : List K) (q : K) :
    ((∃ o, I.run x y q = .ok o) ↔ x.length = y.length ∧ 4 ≤ x.length ∧ x.Nodup ∧ (∃ a ∈ x, a ≤ q) ∧ ∃ b ∈ x, q ≤ b) ∧
    (I.run x y q = .error .valueError ↔
      ¬ (x.length = y.length ∧ 4 ≤ x.length ∧ x.Nodup ∧ (∃ a ∈ x, a ≤ q) ∧ ∃ b ∈ x, q ≤ b)) := by
  refine one_refusal (fun h => ?_) (fun h => I.inside x y q h.1 h.2.1 h.2.2.1 h.2.2.2.1 h.2.2.2.2)
  by_cases h1 : x.length = y.length ∧ 4 ≤ x.length ∧ x.Nodup
  · refine I.outside x y q ?_
    by_contra hc
    push Not at hc
    exact h ⟨h1.1, h1.2.1, h1.2.2, hc.1, hc.2⟩
  · exact I.bad x y q h1

theorem increasing_verified {v : List K} (hv : v.Pairwise (· < ·)) : verifyUnique v = .ok () ∧ verifyPresorted v = .ok () :=
  ⟨(C29_unique v).1.mpr hv.nodup, C29_sorted_accepted v (hv.imp fun h => h.le)⟩

/-- **C97 (heights for commands).**  For a square map and increasing reference commands, the conversion returns exactly when the
cube belongs to the map, there is one slice per reference command, there are at least four of them, and every command lies
within their range; otherwise it raises `ValueError`. -/
theorem C97_heights (I : CubicInterp K) (m : Arr2 K) (cube : Arr3 K) (v : List K) (hv : v.Pairwise (· < ·)) (hsq : m.nr = m.nc)
    (hpos : 0 < m.nr) :
    ((∃ o, heightsForCommands I m cube v = .ok o) ↔ (cube.nr = m.nr ∧ cube.nc = m.nc ∧ cube.ns = v.length) ∧ 4 ≤ v.length ∧
      ∀ i j c, m.px i j = some c → (∃ a ∈ v, a ≤ c) ∧ ∃ b ∈ v, c ≤ b) ∧
    (heightsForCommands I m cube v = .error .valueError ↔ ¬ ((cube.nr = m.nr ∧ cube.nc = m.nc ∧ cube.ns = v.length) ∧ 4 ≤ v.length ∧
      ∀ i j c, m.px i j = some c → (∃ a ∈ v, a ≤ c) ∧ ∃ b ∈ v, c ≤ b)) := by
  obtain ⟨u1, u2⟩ := increasing_verified hv
  by_cases hc : cube.nr = m.nr ∧ cube.nc = m.nc
  · have e : heightsForCommands I m cube v = fillGrid m.nr m.nc (fun iRow iCol => do
        let col ← cube.column iRow iCol
        I.run v col ((m.px iRow iCol).getD 0)) := by
      unfold heightsForCommands
      rw [if_neg (by omega), if_neg (by omega), u1, u2]
      rfl
    have col : ∀ r < m.nr, ∀ c < m.nc, ∃ l, cube.column r c = .ok l ∧ l.length = cube.ns ∧
        (do let col ← cube.column r c; I.run v col ((m.px r c).getD 0) : Res K) = I.run v l ((m.px r c).getD 0) := by
      intro r hr c hc'
      have h := column_ok cube (i := r) (j := c) (by omega) (by omega)
      exact ⟨_, h, by simp, by rw [h]; rfl⟩
    rw [e]
    obtain ⟨g1, g2⟩ := fillGrid_refuses m.nr m.nc (fun iRow iCol => do
        let col ← cube.column iRow iCol
        I.run v col ((m.px iRow iCol).getD 0)) .valueError (by
      intro r hr c hc'
      obtain ⟨l, h1, h2, h3⟩ := col r hr c hc'
      rw [h3]
      by_cases hh : ∃ o, I.run v l ((m.px r c).getD 0) = .ok o
      · exact Or.inl hh
      · exact Or.inr ((interp_refuses I v l _).2.mpr (fun h => hh ((interp_refuses I v l _).1.mpr h))))
    have key : (∀ r < m.nr, ∀ c < m.nc, ∃ x, (do let col ← cube.column r c; I.run v col ((m.px r c).getD 0) : Res K) = .ok x) ↔
        (cube.nr = m.nr ∧ cube.nc = m.nc ∧ cube.ns = v.length) ∧ 4 ≤ v.length ∧
          ∀ i j c, m.px i j = some c → (∃ a ∈ v, a ≤ c) ∧ ∃ b ∈ v, c ≤ b := by
      constructor
      · intro h
        have h0 := h 0 hpos 0 (by omega)
        obtain ⟨l, -, h2, h3⟩ := col 0 hpos 0 (by omega)
        rw [h3] at h0
        obtain ⟨a1, a2, -⟩ := (interp_refuses I v l _).1.mp h0
        refine ⟨⟨hc.1, hc.2, by omega⟩, a2, fun i j c hp => ?_⟩
        have hin := (Arr2.px_isSome m i j).mp (by rw [hp]; rfl)
        lift i to ℕ using (by omega)
        lift j to ℕ using (by omega)
        obtain ⟨l, -, -, h3⟩ := col i (by omega) j (by omega)
        have h1 := h i (by omega) j (by omega)
        rw [h3, hp] at h1
        exact ((interp_refuses I v l _).1.mp h1).2.2.2
      · rintro ⟨h1, h2, h4⟩ r hr c hc'
        obtain ⟨l, -, hl, h3⟩ := col r hr c hc'
        rw [h3]
        obtain ⟨q, hq⟩ := Option.isSome_iff_exists.mp ((Arr2.px_isSome m r c).mpr (by omega))
        rw [hq]
        obtain ⟨p1, p2⟩ := h4 r c q hq
        exact (interp_refuses I v l _).1.mpr ⟨by omega, h2, hv.nodup, p1, p2⟩
    exact ⟨g1.trans key, g2.trans (not_congr key)⟩
  · have : heightsForCommands I m cube v = .error .valueError := by
      unfold heightsForCommands
      by_cases h1 : m.nr ≠ cube.nc
      · rw [if_pos h1]
      · rw [if_neg h1, if_pos (by omega)]
    rw [this]
    have hn : ¬ ((cube.nr = m.nr ∧ cube.nc = m.nc ∧ cube.ns = v.length) ∧ 4 ≤ v.length ∧
      ∀ i j c, m.px i j = some c → (∃ a ∈ v, a ≤ c) ∧ ∃ b ∈ v, c ≤ b) := fun h => hc ⟨h.1.1, h.1.2.1⟩
    simp only [hn, not_false_eq_true, iff_false, and_true]
    simp

/-- **C97 (commands for heights).**  The same for the inverse conversion: the heights of every actuator must be different from
slice to slice, and the wanted height must lie within their range. -/
theorem C97_commands (I : CubicInterp K) (m : Arr2 K) (cube : Arr3 K) (v : List K) (hv : v.Pairwise (· < ·)) (hsq : m.nr = m.nc)
    (hpos : 0 < m.nr) :
    ((∃ o, commandsForHeights I m cube v = .ok o) ↔ (cube.nr = m.nr ∧ cube.nc = m.nc ∧ cube.ns = v.length) ∧ 4 ≤ v.length ∧
      ∀ (i j : ℕ) (c : K) (h : List K), m.px i j = some c → ActuatorHeights cube i j h → h.Nodup ∧ (∃ a ∈ h, a ≤ c) ∧ ∃ b ∈ h, c ≤ b) ∧
    (commandsForHeights I m cube v = .error .valueError ↔ ¬ ((cube.nr = m.nr ∧ cube.nc = m.nc ∧ cube.ns = v.length) ∧ 4 ≤ v.length ∧
      ∀ (i j : ℕ) (c : K) (h : List K), m.px i j = some c → ActuatorHeights cube i j h → h.Nodup ∧ (∃ a ∈ h, a ≤ c) ∧ ∃ b ∈ h, c ≤ b)) := by
  obtain ⟨u1, u2⟩ := increasing_verified hv
  by_cases hc : cube.nr = m.nr ∧ cube.nc = m.nc
  · have e : commandsForHeights I m cube v = fillGrid m.nr m.nc (fun iRow iCol => do
        let col ← cube.column iRow iCol
        I.run col v ((m.px iRow iCol).getD 0)) := by
      unfold commandsForHeights
      rw [if_neg (by omega), if_neg (by omega), u1, u2]
      rfl
    have col : ∀ r < m.nr, ∀ c < m.nc, ∃ l, cube.column r c = .ok l ∧ l.length = cube.ns ∧
        (do let col ← cube.column r c; I.run col v ((m.px r c).getD 0) : Res K) = I.run l v ((m.px r c).getD 0) := by
      intro r hr c hc'
      have h := column_ok cube (i := r) (j := c) (by omega) (by omega)
      exact ⟨_, h, by simp, by rw [h]; rfl⟩
    rw [e]
    obtain ⟨g1, g2⟩ := fillGrid_refuses m.nr m.nc (fun iRow iCol => do
        let col ← cube.column iRow iCol
        I.run col v ((m.px iRow iCol).getD 0)) .valueError (by
      intro r hr c hc'
      obtain ⟨l, h1, h2, h3⟩ := col r hr c hc'
      rw [h3]
      by_cases hh : ∃ o, I.run l v ((m.px r c).getD 0) = .ok o
      · exact Or.inl hh
      · exact Or.inr ((interp_refuses I l v _).2.mpr (fun h => hh ((interp_refuses I l v _).1.mpr h))))
    have key : (∀ r < m.nr, ∀ c < m.nc, ∃ x, (do let col ← cube.column r c; I.run col v ((m.px r c).getD 0) : Res K) = .ok x) ↔
        (cube.nr = m.nr ∧ cube.nc = m.nc ∧ cube.ns = v.length) ∧ 4 ≤ v.length ∧
          ∀ (i j : ℕ) (c : K) (h : List K), m.px i j = some c → ActuatorHeights cube i j h → h.Nodup ∧ (∃ a ∈ h, a ≤ c) ∧ ∃ b ∈ h, c ≤ b := by
      constructor
      · intro h
        have h0 := h 0 hpos 0 (by omega)
        obtain ⟨l, -, h2, h3⟩ := col 0 hpos 0 (by omega)
        rw [h3] at h0
        obtain ⟨a1, a2, -⟩ := (interp_refuses I l v _).1.mp h0
        refine ⟨⟨hc.1, hc.2, by omega⟩, by omega, fun i j c h' hp hh => ?_⟩
        have hin := (Arr2.px_isSome m i j).mp (by rw [hp]; rfl)
        obtain ⟨l, e1, -, h3⟩ := col i (by omega) j (by omega)
        have h1 := h i (by omega) j (by omega)
        rw [h3, hp] at h1
        have : h' = l := Except.ok.inj (hh.symm.trans e1)
        subst this
        exact ((interp_refuses I h' v _).1.mp h1).2.2
      · rintro ⟨h1, h2, h4⟩ r hr c hc'
        obtain ⟨l, e1, hl, h3⟩ := col r hr c hc'
        rw [h3]
        obtain ⟨q, hq⟩ := Option.isSome_iff_exists.mp ((Arr2.px_isSome m r c).mpr (by omega))
        rw [hq]
        obtain ⟨p0, p1, p2⟩ := h4 r c q l hq e1
        exact (interp_refuses I l v _).1.mpr ⟨by omega, by omega, p0, p1, p2⟩
    exact ⟨g1.trans key, g2.trans (not_congr key)⟩
  · have : commandsForHeights I m cube v = .error .valueError := by
      unfold commandsForHeights
      by_cases h1 : m.nr ≠ cube.nc
      · rw [if_pos h1]
      · rw [if_neg h1, if_pos (by omega)]
    rw [this]
    refine ⟨iff_of_false (by simp) (fun h => hc ⟨h.1.1, h.1.2.1⟩), iff_of_true rfl (fun h => hc ⟨h.1.1, h.1.2.1⟩)⟩

/-- **C97 (gain map).**  For a square map and increasing reference commands the gain map is returned exactly when the cube
belongs to the map, there is one slice per reference command and there are at least three of them. -/
theorem C97_gain_map (m : Arr2 K) (cube : Arr3 K) (v : List K) (hv : v.Pairwise (· < ·)) (hsq : m.nr = m.nc) (hpos : 0 < m.nr) :
    ((∃ o, gainMap m cube v = .ok o) ↔ (cube.nr = m.nr ∧ cube.nc = m.nc ∧ cube.ns = v.length) ∧ 3 ≤ v.length) ∧
    (gainMap m cube v = .error .valueError ↔ ¬ ((cube.nr = m.nr ∧ cube.nc = m.nc ∧ cube.ns = v.length) ∧ 3 ≤ v.length)) := by
  refine one_refusal (fun h => ?_) (fun h => ?_)
  · unfold gainMap
    by_cases h0 : v = []
    · subst h0
      rfl
    rw [diffAndMean_eq v hv h0, res_ok_bind]
    by_cases hs : v.length = cube.ns
    · rw [gainCube_eq cube v hv h0 hs, res_ok_bind]
      dsimp only
      by_cases h1 : m.nr ≠ cube.nc
      · rw [if_pos h1]
      · rw [if_neg h1]
        by_cases h2 : m.nc ≠ cube.nr
        · rw [if_pos h2]
        · rw [if_neg h2]
          have bad : ∀ r < m.nr, ∀ c < m.nc, (do
              let col ← (⟨cube.ns - 1, cube.nr, cube.nc, fun ii i j =>
                (cube.val ⟨ii + 1, by omega⟩ i j - cube.val ⟨ii, by omega⟩ i j) / (v.getD (ii + 1) 0 - v.getD ii 0)⟩ : Arr3 K).column r c
              linInterp ((List.range (v.length - 1)).map fun ii => (v.getD (ii + 1) 0 + v.getD ii 0) / 2) col ((m.px r c).getD 0) : Res K) =
              .error .valueError := by
            intro r hr c hc
            rw [column_ok _ (by dsimp only; omega) (by dsimp only; omega), res_ok_bind]
            unfold linInterp
            rw [if_neg]
            rw [List.length_map, List.length_range]
            have : ¬ 3 ≤ v.length := fun h3 => h ⟨⟨by omega, by omega, hs.symm⟩, h3⟩
            omega
          refine (fillGrid_refuses m.nr m.nc _ .valueError fun r hr c hc => Or.inr (bad r hr c hc)).2.mpr fun hall => ?_
          obtain ⟨x, hx⟩ := hall 0 hpos 0 (by omega)
          rw [bad 0 hpos 0 (by omega)] at hx
          cases hx
    · rw [C30_mismatch cube v hs]
      rfl
  · obtain ⟨⟨h1, h2, h3⟩, h4⟩ := h
    obtain ⟨nr, nc, c⟩ := m
    obtain rfl : nr = nc := hsq
    obtain ⟨-, -, -, -, -, -, -, -, -, o, ho, -⟩ := gainMap_eq nr cube v ⟨hv, h4, h3, h1, h2⟩ c
    exact ⟨_, ho⟩

end

/-! ### Instances -/

example : (∃ o, ellipse 100 80 30 20 15 0.3 (-0.2) 10 false = .ok o) ∧ ellipse 100 1 30 20 15 0.3 (-0.2) 10 false = .error .indexError ∧
    ellipse 100 80 30 0 15 0.3 (-0.2) 10 false = .error .typeError :=
  ⟨(C97_ellipse ..).1.mpr (by norm_num), (C97_ellipse ..).2.2.mpr (by norm_num), (C97_ellipse ..).2.1.mpr (by norm_num)⟩

example : (∃ o, annularSegments 2 10 30 100 80 0 0 65 90 11 4 = .ok o) ∧
    annularSegments 2 10 30 100 80 0 0 65 360 11 4 = .error .unboundLocalError ∧ annularSegments 3 10 30 100 80 0 0 65 90 11 4 = .error .typeError :=
  ⟨(C97_annular ..).1.mpr (by norm_num), (C97_annular ..).2.2.2.mpr (by norm_num), (C97_annular ..).2.1.mpr (by norm_num)⟩

example : (∃ o, simplePupil 100 80 0 0 20 60 [0, 120, 240] 3 11 = .ok o) ∧ simplePupil 100 80 0 0 60 60 [0, 120, 240] 3 11 = .error .typeError ∧
    simplePupil 1 80 0 0 20 60 [] 0 11 = .error .indexError :=
  ⟨(C97_pupil ..).1.mpr (by norm_num), (C97_pupil ..).2.1.mpr (by norm_num), (C97_pupil ..).2.2.mpr (by norm_num)⟩

example : (∃ o, probe 48 46.3 0 0 0 1 1.5 12 (-10) 10 90 = .ok o) ∧ probe 48 46.3 0 0 0 1 1.5 1.5 (-10) 10 90 = .error .valueError ∧
    probe 48 46.3 0 0 0 0 1.5 12 (-10) 10 90 = .error .typeError :=
  ⟨(C97_probe ..).1.mpr (by norm_num), (C97_probe ..).2.2.mpr (by norm_num), (C97_probe ..).2.1.mpr (by norm_num)⟩

example (I : CubicInterp ℚ) (cube : Arr3 ℚ) (h : cube.ns = 5 ∧ cube.nr = 2 ∧ cube.nc = 2) :
    (∃ o, heightsForCommands I ⟨2, 2, fun _ _ => 30⟩ cube [0, 10, 20, 50, 100] = .ok o) ∧
    heightsForCommands I ⟨2, 2, fun i _ => if i = 0 then 30 else 101⟩ cube [0, 10, 20, 50, 100] = .error .valueError := by
  constructor
  · refine (C97_heights I _ cube _ (by decide +kernel) rfl (by decide)).1.mpr ⟨⟨h.2.1, h.2.2, h.1⟩, by decide, fun i j c hc => ?_⟩
    have : c = 30 := by
      unfold Arr2.px at hc
      split_ifs at hc
      exact (Option.some.inj hc).symm
    subst this
    exact ⟨⟨0, by simp, by norm_num⟩, ⟨100, by simp, by norm_num⟩⟩
  · refine (C97_heights I _ cube _ (by decide +kernel) rfl (by decide)).2.mpr fun hh => ?_
    obtain ⟨-, b, hb, hle⟩ := hh.2.2 1 1 101 rfl
    revert hle
    fin_cases hb <;> norm_num

example (cube : Arr3 ℚ) (h : cube.ns = 5 ∧ cube.nr = 2 ∧ cube.nc = 2) :
    (∃ o, gainMap ⟨2, 2, fun _ _ => 30⟩ cube [0, 10, 20, 50, 100] = .ok o) ∧
    gainMap ⟨3, 3, fun _ _ => 30⟩ cube [0, 10, 20, 50, 100] = .error .valueError :=
  ⟨(C97_gain_map _ cube _ (by decide +kernel) rfl (by decide)).1.mpr ⟨⟨h.2.1, h.2.2, h.1⟩, by decide⟩,
    (C97_gain_map _ cube _ (by decide +kernel) rfl (by decide)).2.mpr fun hh => by have : cube.nr = 3 := hh.1.1; omega⟩

end Coralign.Props
