import Verif.Props.Refusals
import Verif.Model.DarkHole
import Verif.Model.Conjugate
import Verif.Props.Zernike

/-!
# C97 continued: dark-hole masks, Zernike maps and the flattening helpers
-/

namespace Coralign.Props

open Coralign

/-- **C97 (dark-hole rectangle).** -/
theorem C97_dh_rectangle (nRows nCols : ℤ) (xo yo width height : ℝ) :
    ((∃ o, genRectangle nRows nCols xo yo width height = .ok o) ↔ 1 ≤ nRows ∧ 1 ≤ nCols ∧ 0 < width ∧ 0 < height) ∧
    (genRectangle nRows nCols xo yo width height = .error .typeError ↔ ¬ (1 ≤ nRows ∧ 1 ≤ nCols ∧ 0 < width ∧ 0 < height)) := by
  unfold genRectangle dhShapeOk
  refine one_refusal (fun h => ?_) (fun h => ?_)
  · by_cases h1 : 0 < nRows ∧ 0 < nCols
    · rw [if_neg (not_not.mpr h1), if_pos]
      by_contra hc; push Not at hc
      exact h ⟨by omega, by omega, hc.1, hc.2⟩
    · rw [if_pos h1]
  · rw [if_neg (not_not.mpr ⟨by omega, by omega⟩), if_neg (by rintro (h | h) <;> linarith)]
    exact ⟨_, rfl⟩

/-- **C97 (dark-hole annulus).**  Negative radii raise `TypeError`, an inner radius above the outer one `ValueError`; equal
radii are accepted. -/
theorem C97_dh_annulus (nRows nCols : ℤ) (xo yo rIn rOut : ℝ) :
    ((∃ o, genAnnulus nRows nCols xo yo rIn rOut = .ok o) ↔ (1 ≤ nRows ∧ 1 ≤ nCols ∧ 0 ≤ rIn ∧ 0 ≤ rOut) ∧ rIn ≤ rOut) ∧
    (genAnnulus nRows nCols xo yo rIn rOut = .error .typeError ↔ ¬ (1 ≤ nRows ∧ 1 ≤ nCols ∧ 0 ≤ rIn ∧ 0 ≤ rOut)) ∧
    (genAnnulus nRows nCols xo yo rIn rOut = .error .valueError ↔ (1 ≤ nRows ∧ 1 ≤ nCols ∧ 0 ≤ rIn ∧ 0 ≤ rOut) ∧ ¬ rIn ≤ rOut) := by
  unfold genAnnulus dhShapeOk
  refine two_refusals (by decide) (fun h => ?_) (fun h h' => ?_) (fun h h' => ?_)
  · by_cases h1 : 0 < nRows ∧ 0 < nCols
    · rw [if_neg (not_not.mpr h1), if_pos]
      by_contra hc; push Not at hc
      exact h ⟨by omega, by omega, hc.1, hc.2⟩
    · rw [if_pos h1]
  · rw [if_neg (not_not.mpr ⟨by omega, by omega⟩), if_neg (by rintro (h | h) <;> linarith), if_pos (not_le.mp h')]
  · rw [if_neg (not_not.mpr ⟨by omega, by omega⟩), if_neg (by rintro (h | h) <;> linarith), if_neg (not_lt.mpr h')]
    exact ⟨_, rfl⟩

/-- **C97 (dark-hole sector).** -/
theorem C97_dh_sector (nRows nCols : ℤ) (xo yo rIn rOut op cl : ℝ) :
    ((∃ o, genAnnularSector nRows nCols xo yo rIn rOut op cl = .ok o) ↔
      (1 ≤ nRows ∧ 1 ≤ nCols ∧ 0 ≤ rIn ∧ 0 ≤ rOut) ∧ rIn ≤ rOut ∧ 0 < op) ∧
    (genAnnularSector nRows nCols xo yo rIn rOut op cl = .error .typeError ↔
      ¬ (1 ≤ nRows ∧ 1 ≤ nCols ∧ 0 ≤ rIn ∧ 0 ≤ rOut) ∨ rIn ≤ rOut ∧ op ≤ 0) ∧
    (genAnnularSector nRows nCols xo yo rIn rOut op cl = .error .valueError ↔
      (1 ≤ nRows ∧ 1 ≤ nCols ∧ 0 ≤ rIn ∧ 0 ≤ rOut) ∧ rOut < rIn) := by
  by_cases h : 1 ≤ nRows ∧ 1 ≤ nCols ∧ 0 ≤ rIn ∧ 0 ≤ rOut
  · unfold genAnnularSector dhShapeOk
    rw [if_neg (not_not.mpr ⟨by omega, by omega⟩), if_neg (by rintro (h | h) <;> linarith)]
    by_cases h1 : rIn > rOut
    · rw [if_pos h1]; simp [h, h1]
    · rw [if_neg h1]
      have h1' := not_lt.mp h1
      by_cases h2 : op ≤ 0
      · rw [if_pos h2]; simp [h, h1', h2]
      · rw [if_neg h2]; simp [h, h1', h2, not_le.mp h2]
  · have : genAnnularSector nRows nCols xo yo rIn rOut op cl = .error .typeError := by
      unfold genAnnularSector dhShapeOk
      by_cases h1 : 0 < nRows ∧ 0 < nCols
      · rw [if_neg (not_not.mpr h1), if_pos]
        by_contra hc; push Not at hc
        exact h ⟨by omega, by omega, hc.1, hc.2⟩
      · rw [if_pos h1]
    rw [this]
    simp [h]

/-- **C97 (dark-hole bowtie).**  The same conditions as for a sector. -/
theorem C97_dh_bowtie (nRows nCols : ℤ) (xo yo rIn rOut op cl : ℝ) :
    ((∃ o, genBowtie nRows nCols xo yo rIn rOut op cl = .ok o) ↔
      (1 ≤ nRows ∧ 1 ≤ nCols ∧ 0 ≤ rIn ∧ 0 ≤ rOut) ∧ rIn ≤ rOut ∧ 0 < op) ∧
    (genBowtie nRows nCols xo yo rIn rOut op cl = .error .typeError ↔
      ¬ (1 ≤ nRows ∧ 1 ≤ nCols ∧ 0 ≤ rIn ∧ 0 ≤ rOut) ∨ rIn ≤ rOut ∧ op ≤ 0) ∧
    (genBowtie nRows nCols xo yo rIn rOut op cl = .error .valueError ↔
      (1 ≤ nRows ∧ 1 ≤ nCols ∧ 0 ≤ rIn ∧ 0 ≤ rOut) ∧ rOut < rIn) := by
  obtain ⟨a1, a2, a3⟩ := C97_dh_sector nRows nCols xo yo rIn rOut op cl
  obtain ⟨b1, -, -⟩ := C97_dh_sector nRows nCols xo yo rIn rOut op (cl + 180)
  unfold genBowtie
  cases h : genAnnularSector nRows nCols xo yo rIn rOut op cl with
  | error e =>
    rw [h] at a1 a2 a3
    refine ⟨by simpa [bind, Except.bind] using a1, by simpa [bind, Except.bind] using a2, by simpa [bind, Except.bind] using a3⟩
  | ok s =>
    rw [h] at a1 a2 a3
    obtain ⟨t, ht⟩ := b1.mpr (a1.mp ⟨s, rfl⟩)
    rw [ht]
    refine ⟨by simpa [bind, Except.bind] using a1, by simpa [bind, Except.bind] using a2, by simpa [bind, Except.bind] using a3⟩

/-- **C97 (sampled Zernike modes).** -/
theorem C97_xyzern (x y : Arr2 ℝ) (prad : ℝ) (orders : List ℤ) :
    ((∃ o, xyzern x y prad orders = .ok o) ↔ (0 < prad ∧ x.nr = y.nr ∧ x.nc = y.nc ∧ ∀ j ∈ orders, 1 ≤ j) ∧ orders ≠ []) ∧
    (xyzern x y prad orders = .error .typeError ↔ ¬ (0 < prad ∧ x.nr = y.nr ∧ x.nc = y.nc ∧ ∀ j ∈ orders, 1 ≤ j)) ∧
    (xyzern x y prad orders = .error .valueError ↔ (0 < prad ∧ x.nr = y.nr ∧ x.nc = y.nc ∧ ∀ j ∈ orders, 1 ≤ j) ∧ ¬ orders ≠ []) := by
  unfold xyzern
  refine two_refusals (by decide) (fun h => ?_) (fun h h' => ?_) (fun h h' => ?_)
  · by_cases h1 : prad ≤ 0
    · rw [if_pos h1]
    · rw [if_neg h1]
      by_cases h2 : x.nr = y.nr ∧ x.nc = y.nc
      · rw [dif_pos h2, if_pos]
        by_contra hc; push Not at hc
        exact h ⟨not_le.mp h1, h2.1, h2.2, fun j hj => hc j hj⟩
      · rw [dif_neg h2]
  · rw [if_neg (not_le.mpr h.1), dif_pos ⟨h.2.1, h.2.2.1⟩, if_neg (fun ⟨j, hj, hn⟩ => by have := h.2.2.2 j hj; omega),
      if_pos (not_not.mp h')]
  · rw [if_neg (not_le.mpr h.1), dif_pos ⟨h.2.1, h.2.2.1⟩, if_neg (fun ⟨j, hj, hn⟩ => by have := h.2.2.2 j hj; omega), if_neg h']
    exact ⟨_, rfl⟩

/-- **C97 (Zernike map).**  Vectors of different lengths, an empty vector, and a beam or array that is not positive raise
`ValueError`; a mode number below one raises `TypeError`. -/
theorem C97_gen_zernikes (inds : List ℤ) (coefs : List ℝ) (xo yo nBeam : ℝ) (nArray : ℤ) :
    ((∃ o, genZernikes inds coefs xo yo nBeam nArray = .ok o) ↔
      (inds.length = coefs.length ∧ 0 < nBeam ∧ 1 ≤ nArray ∧ inds ≠ []) ∧ ∀ j ∈ inds, 1 ≤ j) ∧
    (genZernikes inds coefs xo yo nBeam nArray = .error .valueError ↔
      ¬ (inds.length = coefs.length ∧ 0 < nBeam ∧ 1 ≤ nArray ∧ inds ≠ [])) ∧
    (genZernikes inds coefs xo yo nBeam nArray = .error .typeError ↔
      (inds.length = coefs.length ∧ 0 < nBeam ∧ 1 ≤ nArray ∧ inds ≠ []) ∧ ¬ ∀ j ∈ inds, 1 ≤ j) := by
  unfold genZernikes
  generalize hN : (if nArray = 1000000 then defaultArray xo yo nBeam else nArray) = N
  obtain ⟨a1, a2, a3⟩ := C97_xyzern (zernGrid N.toNat N.toNat xo yo).1 (zernGrid N.toNat N.toNat xo yo).2 (nBeam / 2) inds
  refine two_refusals (by decide) (fun h => ?_) (fun h h' => ?_) (fun h h' => ?_)
  · by_cases h1 : inds.length ≠ coefs.length
    · rw [if_pos h1]
    · rw [if_neg h1]
      by_cases h2 : nBeam ≤ 0
      · rw [if_pos h2]
      · rw [if_neg h2]
        by_cases h3 : nArray ≤ 0
        · rw [if_pos h3]
        · rw [if_neg h3]
          have h4 : inds = [] := by
            by_contra h4
            exact h ⟨not_not.mp h1, not_le.mp h2, by omega, h4⟩
          dsimp only
          rw [a3.mpr ⟨⟨by linarith, rfl, rfl, by simp [h4]⟩, by simp [h4]⟩]
          rfl
  · rw [if_neg (not_not.mpr h.1), if_neg (not_le.mpr h.2.1), if_neg (by omega)]
    dsimp only
    rw [a2.mpr (fun hh => h' hh.2.2.2)]
    rfl
  · rw [if_neg (not_not.mpr h.1), if_neg (not_le.mpr h.2.1), if_neg (by omega)]
    dsimp only
    obtain ⟨c, hc⟩ := a1.mpr ⟨⟨by linarith, rfl, rfl, h'⟩, h.2.2.2⟩
    rw [hc]
    exact ⟨_, rfl⟩

/-- **C97 (Zernike fit).** -/
theorem C97_fit_zernikes (S : Solver) (wfe : Arr2 ℝ) (u : Arr2 Bool) (maxNoll : ℤ) (nBeam dx dy : ℝ) :
    ((∃ o, fitZernikes S wfe u maxNoll nBeam dx dy = .ok o) ↔ (wfe.nr = u.nr ∧ wfe.nc = u.nc ∧ 1 ≤ maxNoll) ∧ 0 < nBeam) ∧
    (fitZernikes S wfe u maxNoll nBeam dx dy = .error .valueError ↔ ¬ (wfe.nr = u.nr ∧ wfe.nc = u.nc ∧ 1 ≤ maxNoll)) ∧
    (fitZernikes S wfe u maxNoll nBeam dx dy = .error .typeError ↔ (wfe.nr = u.nr ∧ wfe.nc = u.nc ∧ 1 ≤ maxNoll) ∧ ¬ 0 < nBeam) := by
  unfold fitZernikes
  refine two_refusals (by decide) (fun h => ?_) (fun h h' => ?_) (fun h h' => ?_)
  · by_cases h1 : wfe.nr = u.nr ∧ wfe.nc = u.nc
    · rw [dif_pos h1, if_pos]
      by_contra hc
      exact h ⟨h1.1, h1.2, by omega⟩
    · rw [dif_neg h1]
  · rw [dif_pos ⟨h.1, h.2.1⟩, if_neg (by omega), if_pos (not_lt.mp h')]
  · rw [dif_pos ⟨h.1, h.2.1⟩, if_neg (by omega), if_neg (not_le.mpr h')]
    obtain ⟨c, hc⟩ := (C97_xyzern (zernGrid wfe.nr wfe.nc dx dy).1 (zernGrid wfe.nr wfe.nc dx dy).2 (nBeam / 2)
      ((List.range maxNoll.toNat).map fun k : ℕ => (k : ℤ) + 1)).1.mpr ⟨⟨by linarith, rfl, rfl, by simp⟩, by
        intro h0
        rw [List.map_eq_nil_iff, List.range_eq_nil] at h0
        omega⟩
    dsimp only
    rw [hc]
    exact ⟨_, rfl⟩

theorem padCrop_two (a : Arr2 ℝ) (h w : ℤ) :
    ((∃ o, padCrop a [h, w] 0 = .ok o) ↔ 1 ≤ h ∧ 1 ≤ w) ∧ (padCrop a [h, w] 0 = .error .typeError ↔ ¬ (1 ≤ h ∧ 1 ≤ w)) := by
  refine one_refusal (fun hn => ?_) (fun hp => ?_)
  · refine (C01_pad_crop_rejects a [h, w] 0).mpr ?_
    rintro ⟨h', w', e, h1, h2⟩
    simp at e
    omega
  · obtain ⟨o, ho, -⟩ := C01_pad_crop_registered a h w 0 (by omega) (by omega)
    exact ⟨o, ho⟩

theorem bind_ne {α β : Type} {r : Res α} {f : α → Res β} {e : PyExc} (hr : r ≠ .error e) (hf : ∀ x, f x ≠ .error e) :
    (r >>= f) ≠ .error e := by
  cases r with
  | error e' => intro h; exact hr (by cases h; rfl)
  | ok x => exact hf x

/-- **C97 (split wavefront).**  Besides the conditions of C50, the exceptions: a number of modes or a beam that is not positive
raises `ValueError`; using the focus mechanism with fewer than four modes raises `IndexError`, and nothing else does. -/
theorem C97_split_wfe (useFCM : Bool) (maxNoll : ℤ) (coef : List ℝ) (diam : ℝ) (h w : ℤ) (xo yo : ℝ) :
    ((maxNoll ≤ 0 ∨ diam ≤ 0) → genSplitWfe useFCM maxNoll coef diam h w xo yo = .error .valueError) ∧
    (genSplitWfe useFCM maxNoll coef diam h w xo yo = .error .indexError ↔ useFCM = true ∧ (1 ≤ maxNoll ∧ maxNoll ≤ 3) ∧ 0 < diam) := by
  have gz : ∀ inds cs N, genZernikes inds cs xo yo diam N ≠ .error .indexError := by
    intro inds cs N hh
    obtain ⟨a1, a2, a3⟩ := C97_gen_zernikes inds cs xo yo diam N
    rw [hh] at a1 a2 a3
    simp at a1 a2 a3
    obtain ⟨b1, b2, b3, b4⟩ := a2
    obtain ⟨x, hx, hl⟩ := a1 b1 b2 b3 b4
    have := a3 b1 b2 b3 b4 x hx
    omega
  have pc : ∀ a : Arr2 ℝ, padCrop a [h, w] 0 ≠ .error .indexError := by
    intro a hh
    obtain ⟨a1, a2⟩ := padCrop_two a h w
    rw [hh] at a1 a2
    simp at a1 a2
    omega
  by_cases hm : maxNoll ≤ 0
  · have : genSplitWfe useFCM maxNoll coef diam h w xo yo = .error .valueError := by unfold genSplitWfe; rw [if_pos hm]
    rw [this]
    refine ⟨fun _ => rfl, iff_of_false (by simp) ?_⟩
    rintro ⟨-, hh, -⟩; omega
  by_cases hd : diam ≤ 0
  · have : genSplitWfe useFCM maxNoll coef diam h w xo yo = .error .valueError := by unfold genSplitWfe; rw [if_neg hm, if_pos hd]
    rw [this]
    refine ⟨fun _ => rfl, iff_of_false (by simp) ?_⟩
    rintro ⟨-, -, hh⟩; linarith
  refine ⟨fun hh => absurd hh (by tauto), ?_⟩
  have hz := fitLength_length maxNoll.toNat coef
  unfold genSplitWfe
  rw [if_neg hm, if_neg hd]
  dsimp only
  cases useFCM
  · refine iff_of_false ?_ (by simp)
    rw [if_neg (by simp)]
    split_ifs
    · simp
    · exact bind_ne (gz _ _ _) fun _ => bind_ne (pc _) fun _ => bind_ne (gz _ _ _) fun _ => bind_ne (pc _) fun _ => by simp
  · rw [if_pos rfl]
    by_cases h4 : maxNoll ≤ 3
    · have : (fitLength maxNoll.toNat coef)[3]? = none := by rw [List.getElem?_eq_none_iff]; omega
      rw [this]
      exact iff_of_true rfl ⟨rfl, ⟨by omega, h4⟩, not_le.mp hd⟩
    · refine iff_of_false ?_ (by rintro ⟨-, hh, -⟩; omega)
      have : (fitLength maxNoll.toNat coef)[3]? = some ((fitLength maxNoll.toNat coef)[3]'(by omega)) := List.getElem?_eq_getElem _
      rw [this]
      exact bind_ne (gz _ _ _) fun _ => bind_ne (pc _) fun _ => bind_ne (gz _ _ _) fun _ => bind_ne (pc _) fun _ =>
        bind_ne (gz _ _ _) fun _ => bind_ne (pc _) fun _ => by simp

/-- **C97 (cost of a split).** -/
theorem C97_phase_cost (alpha : ℝ) (low high : Arr2 ℝ) (u : Arr2 Bool) :
    ((∃ o, phaseCost alpha low high u = .ok o) ↔
      (0 ≤ alpha ∧ alpha ≤ 1) ∧ (low.nr = u.nr ∧ low.nc = u.nc) ∧ high.nr = u.nr ∧ high.nc = u.nc) ∧
    (phaseCost alpha low high u = .error .valueError ↔
      ¬ ((0 ≤ alpha ∧ alpha ≤ 1) ∧ (low.nr = u.nr ∧ low.nc = u.nc) ∧ high.nr = u.nr ∧ high.nc = u.nc)) := by
  unfold phaseCost
  refine one_refusal (fun h => ?_) (fun h => ?_)
  · split_ifs with h1 h2 h3 <;> first | rfl | skip
    push Not at h1
    exact absurd ⟨h1, h2, h3⟩ h
  · rw [if_neg (by rintro (h | h) <;> linarith), if_neg (not_not.mpr h.2.1), if_neg (not_not.mpr h.2.2)]
    exact ⟨_, rfl⟩

/-- **C97 (smoothing).**  A window that is not positive raises `ValueError`; anything else is accepted for a non-empty map. -/
theorem C97_smooth_surface (B : BoxSmooth) (a : Arr2 ℝ) (width : ℤ) (hr : 0 < a.nr) (hc : 0 < a.nc) :
    ((∃ o, smoothSurface B a width = .ok o) ↔ 1 ≤ width) ∧ (smoothSurface B a width = .error .valueError ↔ ¬ 1 ≤ width) := by
  unfold smoothSurface
  refine one_refusal (fun h => if_pos (by omega)) (fun h => ?_)
  rw [if_neg (by omega)]
  obtain ⟨o, ho, -⟩ := C01_pad_crop_registered (B.run width a) a.nr a.nc 0 (by omega) (by omega)
  exact ⟨o, ho⟩

/-- **C97 (dead actuators).** -/
theorem C97_reassign (h1 h2 : Arr2 ℝ) (n1 n2 : ℕ) (t1 t2 : Arr2 ℤ) :
    ((∃ o, reassign h1 h2 n1 n2 t1 t2 = .ok o) ↔
      (t1.nr = n1 ∧ t1.nc = n1) ∧ (h1.nr = h2.nr ∧ h1.nc = h2.nc) ∧ t2.nr = n2 ∧ t2.nc = n2) ∧
    (reassign h1 h2 n1 n2 t1 t2 = .error .valueError ↔ (t1.nr = n1 ∧ t1.nc = n1) ∧ ¬ (h1.nr = h2.nr ∧ h1.nc = h2.nc)) ∧
    (reassign h1 h2 n1 n2 t1 t2 = .error .indexError ↔
      ¬ (t1.nr = n1 ∧ t1.nc = n1) ∨ (h1.nr = h2.nr ∧ h1.nc = h2.nc) ∧ ¬ (t2.nr = n2 ∧ t2.nc = n2)) := by
  unfold reassign
  by_cases a : t1.nr = n1 ∧ t1.nc = n1
  · rw [if_neg (not_not.mpr a)]
    by_cases b : h1.nr = h2.nr ∧ h1.nc = h2.nc
    · rw [if_neg (not_not.mpr b)]
      by_cases c : t2.nr = n2 ∧ t2.nc = n2
      · rw [if_neg (not_not.mpr c)]; simp [a, b, c]
      · rw [if_pos c]; simp [a, b, c]
    · rw [if_pos b]; simp [a, b]
  · rw [if_pos a]; simp [a]

/-- **C97 (flattening).**  Whatever else is passed, `flatten` raises `ValueError` for a command array that is not square and for
a wavelength, pupil diameter or fixed setting that is not positive. -/
theorem C97_flatten (E : FlattenEnv) (cmd1 cmd2 : Arr2 ℝ) (cmdFCM : ℤ) (useDMs useFCM highZern : Bool) (lam : ℝ)
    (amp ph : Arr2 ℝ) (diam xo yo : ℝ) (dm1 dm2 : DmCal) (fc : FcmCal) (cfg : FlattenCfg)
    (hbad : cmd1.nr ≠ cmd1.nc ∨ cmd2.nr ≠ cmd2.nc ∨ lam ≤ 0 ∨ diam ≤ 0 ∨ cfg.maxNoll < 1 ∨ cfg.nIterSmooth < 1 ∨ cfg.nBin < 1 ∨
      cfg.arrayExtFac ≤ 0) :
    flatten E cmd1 cmd2 cmdFCM useDMs useFCM highZern lam amp ph diam xo yo dm1 dm2 fc cfg = .error .valueError := by
  unfold flatten
  by_cases h1 : cmd1.nr ≠ cmd1.nc ∨ cmd2.nr ≠ cmd2.nc ∨ lam ≤ 0
  · rw [if_pos h1]
  · rw [if_neg h1]
    have h2 : diam ≤ 0 ∨ cfg.maxNoll < 1 ∨ cfg.nIterSmooth < 1 ∨ cfg.nBin < 1 ∨ cfg.arrayExtFac ≤ 0 := by tauto
    have : flattenSurfaces E useDMs useFCM highZern amp ph diam xo yo dm1 dm2 cfg = .error .valueError := by
      unfold flattenSurfaces
      by_cases h3 : diam ≤ 0
      · rw [if_pos h3]
      · rw [if_neg h3, if_pos]
        rcases h2 with h | h | h | h | h
        · exact absurd h h3
        · exact Or.inl (by omega)
        · exact Or.inr (Or.inl (by omega))
        · exact Or.inr (Or.inr (Or.inl (by omega)))
        · exact Or.inr (Or.inr (Or.inr h))
    rw [this]
    rfl

/-! ### Instances -/

example : (∃ o, genAnnulus 60 80 0.5 (-0.5) 3 9 = .ok o) ∧ (∃ o, genAnnulus 60 80 0.5 (-0.5) 9 9 = .ok o) ∧
    genAnnulus 60 80 0.5 (-0.5) 9 3 = .error .valueError ∧ genAnnulus 60 80 0.5 (-0.5) (-1) 3 = .error .typeError :=
  ⟨(C97_dh_annulus ..).1.mpr (by norm_num), (C97_dh_annulus ..).1.mpr (by norm_num), (C97_dh_annulus ..).2.2.mpr (by norm_num),
    (C97_dh_annulus ..).2.1.mpr (by norm_num)⟩

example : (∃ o, genBowtie 60 80 0 0 3 9 65 0 = .ok o) ∧ genBowtie 60 80 0 0 3 9 0 0 = .error .typeError :=
  ⟨(C97_dh_bowtie ..).1.mpr (by norm_num), (C97_dh_bowtie ..).2.1.mpr (by norm_num)⟩

example : (∃ o, genZernikes [1, 4, 11] [0, 0.5, 2] 0 0 50 64 = .ok o) ∧ genZernikes [1, 4] [0, 0.5, 2] 0 0 50 64 = .error .valueError ∧
    genZernikes [1, 0] [0, 0.5] 0 0 50 64 = .error .typeError :=
  ⟨(C97_gen_zernikes ..).1.mpr (by simp), (C97_gen_zernikes ..).2.1.mpr (by simp), (C97_gen_zernikes ..).2.2.mpr (by simp)⟩

example : genSplitWfe true 3 [1, 2, 3] 300 600 600 0 0 = .error .indexError := (C97_split_wfe ..).2.mpr (by norm_num)

end Coralign.Props
