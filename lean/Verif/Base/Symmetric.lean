import Verif.Base.Ndimage
import Verif.Base.RotateExact
import Verif.Base.Spline
import Verif.Model.Conjugate

/-!
# Mirror and transposition symmetry of the scipy routines used by the DM code

Further contracts, kept apart so that only the theorems about mirrored and transposed mirrors ask for them.  In exact arithmetic the interpolating
splines behind these routines treat both directions of an axis, and both axes, alike.
-/

namespace Coralign

/-- `a.T`. -/
def Arr2.tr {α : Type} (a : Arr2 α) : Arr2 α := ⟨a.nc, a.nr, fun i j => a.val j i⟩

/-- `RectBivariateSpline`: mirrored samples on the mirrored grid give the mirrored spline, and transposed samples the transposed spline. -/
structure Spline.Symmetric (S : Spline) : Prop where
  mirrored : ∀ (r0 c0 c0' : ℕ → ℝ) (f : Arr2 ℝ) (r c : ℝ), StrictMono r0 → StrictMono c0 → StrictMono c0' →
    (∀ j, j < f.nc → c0' j = -c0 (f.nc - 1 - j)) → S.eval r0 c0' f.fliplr r (-c) = S.eval r0 c0 f r c
  transposed : ∀ (r0 c0 : ℕ → ℝ) (f : Arr2 ℝ) (r c : ℝ), StrictMono r0 → StrictMono c0 → S.eval c0 r0 f.tr c r = S.eval r0 c0 f r c

/-- `scipy.ndimage.rotate(..., reshape=False)`: a mirrored or transposed picture turns the other way. -/
structure Rotate.Symmetric (R : Rotate) : Prop where
  mirrored : ∀ th a, R.run (-th) a.fliplr = (R.run th a).fliplr
  transposed : ∀ th a, R.run (-th) a.tr = (R.run th a).tr

/-- `scipy.ndimage.shift`: a mirrored picture shifts the other way, a transposed picture with the axes exchanged. -/
structure Shift.Symmetric (T : Shift) : Prop where
  mirrored : ∀ dy dx a, T.run dy (-dx) a.fliplr = (T.run dy dx a).fliplr
  transposed : ∀ dy dx a, T.run dx dy a.tr = (T.run dy dx a).tr

/-! ### The contracts can be met -/

theorem lookup_hit (r0 c0 : ℕ → ℝ) (f : Arr2 ℝ) (hr : StrictMono r0) (hc : StrictMono c0) (i : Fin f.nr) (j : Fin f.nc) (r c : ℝ) (h1 : r0 i = r)
    (h2 : c0 j = c) : Spline.lookup.eval r0 c0 f r c = f.val i j := by
  subst h1 h2
  exact Spline.lookup.interpolates r0 c0 f i j hr hc

theorem lookup_miss (r0 c0 : ℕ → ℝ) (f : Arr2 ℝ) (r c : ℝ) (h : ¬ ∃ i : Fin f.nr, ∃ j : Fin f.nc, r0 i = r ∧ c0 j = c) :
    Spline.lookup.eval r0 c0 f r c = 0 := dif_neg h

theorem Spline.lookup_symmetric : Spline.lookup.Symmetric where
  mirrored r0 c0 c0' f r c hr hc hc' hm := by
    by_cases h : ∃ i : Fin f.nr, ∃ j : Fin f.nc, r0 i = r ∧ c0 j = c
    · obtain ⟨i, j, h1, h2⟩ := h
      rw [lookup_hit r0 c0 f hr hc i j r c h1 h2]
      have hj := j.isLt
      refine (lookup_hit r0 c0' f.fliplr hr hc' i (Fin.rev j) r (-c) h1 ?_).trans ?_
      · have e : ((Fin.rev (n := f.nc) j : Fin f.nc) : ℕ) = f.nc - ((j : ℕ) + 1) := Fin.val_rev _
        have := hm _ (Fin.rev (n := f.nc) j).isLt
        rw [e, show f.nc - 1 - (f.nc - ((j : ℕ) + 1)) = j by omega, h2] at this
        show c0' ((Fin.rev (n := f.nc) j : Fin f.nc) : ℕ) = -c
        rw [e, this]
      · show f.val i (Fin.rev (Fin.rev j)) = f.val i j
        rw [Fin.rev_rev]
    · rw [lookup_miss r0 c0 f r c h, lookup_miss]
      rintro ⟨i, j, h1, h2⟩
      refine h ⟨i, Fin.rev j, h1, ?_⟩
      have hj : (j : ℕ) < f.nc := j.isLt
      have := hm j hj
      rw [h2] at this
      have e : ((Fin.rev (n := f.nc) j : Fin f.nc) : ℕ) = f.nc - 1 - j := by
        have : ((Fin.rev (n := f.nc) j : Fin f.nc) : ℕ) = f.nc - ((j : ℕ) + 1) := Fin.val_rev _
        omega
      rw [e]; linarith
  transposed r0 c0 f r c hr hc := by
    by_cases h : ∃ i : Fin f.nr, ∃ j : Fin f.nc, r0 i = r ∧ c0 j = c
    · obtain ⟨i, j, h1, h2⟩ := h
      rw [lookup_hit r0 c0 f hr hc i j r c h1 h2]
      exact lookup_hit c0 r0 f.tr hc hr j i c r h2 h1
    · rw [lookup_miss r0 c0 f r c h, lookup_miss]
      rintro ⟨i, j, h1, h2⟩
      exact h ⟨j, i, h2, h1⟩

theorem atPixels_val (th : ℝ) (a : Arr2 ℝ) (i : Fin a.nr) (j : Fin a.nc) (p q : ℤ)
    (h1 : (p : ℝ) - ((a.nr : ℝ) - 1) / 2 = Real.cos (th * Real.pi / 180) * ((i : ℕ) - ((a.nr : ℝ) - 1) / 2) +
          Real.sin (th * Real.pi / 180) * ((j : ℕ) - ((a.nc : ℝ) - 1) / 2))
    (h2 : (q : ℝ) - ((a.nc : ℝ) - 1) / 2 = -(Real.sin (th * Real.pi / 180) * ((i : ℕ) - ((a.nr : ℝ) - 1) / 2)) +
          Real.cos (th * Real.pi / 180) * ((j : ℕ) - ((a.nc : ℝ) - 1) / 2)) :
    (Rotate.atPixels.run th a).val i j = (a.px p q).getD 0 := by
  have h : ∃ s : ℤ × ℤ,
        (s.1 : ℝ) - ((a.nr : ℝ) - 1) / 2 = Real.cos (th * Real.pi / 180) * ((i : ℕ) - ((a.nr : ℝ) - 1) / 2) +
          Real.sin (th * Real.pi / 180) * ((j : ℕ) - ((a.nc : ℝ) - 1) / 2) ∧
        (s.2 : ℝ) - ((a.nc : ℝ) - 1) / 2 = -(Real.sin (th * Real.pi / 180) * ((i : ℕ) - ((a.nr : ℝ) - 1) / 2)) +
          Real.cos (th * Real.pi / 180) * ((j : ℕ) - ((a.nc : ℝ) - 1) / 2) := ⟨(p, q), h1, h2⟩
  refine (dif_pos h).trans ?_
  have e1 : h.choose.1 = p := by have : (h.choose.1 : ℝ) = p := by linarith [h.choose_spec.1]
                                 exact_mod_cast this
  have e2 : h.choose.2 = q := by have : (h.choose.2 : ℝ) = q := by linarith [h.choose_spec.2]
                                 exact_mod_cast this
  rw [e1, e2]

theorem atPixels_none (th : ℝ) (a : Arr2 ℝ) (i : Fin a.nr) (j : Fin a.nc)
    (h : ¬ ∃ p q : ℤ, (p : ℝ) - ((a.nr : ℝ) - 1) / 2 = Real.cos (th * Real.pi / 180) * ((i : ℕ) - ((a.nr : ℝ) - 1) / 2) +
          Real.sin (th * Real.pi / 180) * ((j : ℕ) - ((a.nc : ℝ) - 1) / 2) ∧
        (q : ℝ) - ((a.nc : ℝ) - 1) / 2 = -(Real.sin (th * Real.pi / 180) * ((i : ℕ) - ((a.nr : ℝ) - 1) / 2)) +
          Real.cos (th * Real.pi / 180) * ((j : ℕ) - ((a.nc : ℝ) - 1) / 2)) :
    (Rotate.atPixels.run th a).val i j = 0 := dif_neg fun ⟨s, h1, h2⟩ => h ⟨s.1, s.2, h1, h2⟩

theorem fliplr_px {α : Type} (a : Arr2 α) (i j : ℤ) : a.fliplr.px i j = a.px i ((a.nc : ℤ) - 1 - j) := by
  by_cases hb : (0 ≤ i ∧ i < a.nr) ∧ (0 ≤ j ∧ j < a.nc)
  · rw [Arr2.px_of_inB a.fliplr hb, Arr2.px_of_inB a (by omega)]
    unfold Arr2.fliplr
    simp only
    congr 2
    apply Fin.ext
    simp only [Fin.val_rev]
    omega
  · rw [Arr2.px_of_not_inB a.fliplr hb, Arr2.px_of_not_inB a (by omega)]

theorem tr_px {α : Type} (a : Arr2 α) (i j : ℤ) : a.tr.px i j = a.px j i := by
  by_cases hb : (0 ≤ j ∧ j < a.nr) ∧ (0 ≤ i ∧ i < a.nc)
  · rw [Arr2.px_of_inB a hb, Arr2.px_of_inB a.tr ⟨hb.2, hb.1⟩]; rfl
  · rw [Arr2.px_of_not_inB a hb, Arr2.px_of_not_inB a.tr fun h => hb ⟨h.2, h.1⟩]

theorem Rotate.atPixels_symmetric : Rotate.atPixels.Symmetric where
  mirrored th a := by
    obtain ⟨n, m, f⟩ := a
    show (⟨n, m, _⟩ : Arr2 ℝ) = ⟨n, m, _⟩
    congr 1
    refine funext fun (i : Fin n) => funext fun (j : Fin m) => ?_
    have hc : Real.cos (-th * Real.pi / 180) = Real.cos (th * Real.pi / 180) := by rw [show -th * Real.pi / 180 = -(th * Real.pi / 180) by ring, Real.cos_neg]
    have hs : Real.sin (-th * Real.pi / 180) = -Real.sin (th * Real.pi / 180) := by rw [show -th * Real.pi / 180 = -(th * Real.pi / 180) by ring, Real.sin_neg]
    have hj := j.isLt
    have hr : ((Fin.rev j : Fin m) : ℝ) = (m : ℝ) - 1 - (j : ℕ) := by
      have : ((Fin.rev j : Fin m) : ℕ) + (j : ℕ) + 1 = m := by rw [Fin.val_rev]; omega
      have h' : (((Fin.rev j : Fin m) : ℕ) : ℝ) + (j : ℕ) + 1 = m := by exact_mod_cast this
      linarith
    by_cases h : ∃ p q : ℤ, (p : ℝ) - ((n : ℝ) - 1) / 2 = Real.cos (th * Real.pi / 180) * ((i : ℕ) - ((n : ℝ) - 1) / 2) +
          Real.sin (th * Real.pi / 180) * (((Fin.rev j : Fin m) : ℕ) - ((m : ℝ) - 1) / 2) ∧
        (q : ℝ) - ((m : ℝ) - 1) / 2 = -(Real.sin (th * Real.pi / 180) * ((i : ℕ) - ((n : ℝ) - 1) / 2)) +
          Real.cos (th * Real.pi / 180) * (((Fin.rev j : Fin m) : ℕ) - ((m : ℝ) - 1) / 2)
    · obtain ⟨p, q, h1, h2⟩ := h
      refine Eq.trans (atPixels_val (-th) (Arr2.fliplr ⟨n, m, f⟩) i j p ((m : ℤ) - 1 - q) ?_ ?_) (Eq.trans ?_ (Eq.symm (atPixels_val th ⟨n, m, f⟩ i (Fin.rev j) p q h1 h2)))
      · show (p : ℝ) - ((n : ℝ) - 1) / 2 = Real.cos (-th * Real.pi / 180) * ((i : ℕ) - ((n : ℝ) - 1) / 2) + Real.sin (-th * Real.pi / 180) * ((j : ℕ) - ((m : ℝ) - 1) / 2)
        rw [hc, hs, h1, hr]; ring
      · show (((m : ℤ) - 1 - q : ℤ) : ℝ) - ((m : ℝ) - 1) / 2 = -(Real.sin (-th * Real.pi / 180) * ((i : ℕ) - ((n : ℝ) - 1) / 2)) + Real.cos (-th * Real.pi / 180) * ((j : ℕ) - ((m : ℝ) - 1) / 2)
        rw [hr] at h2
        rw [hc, hs]; push_cast; linarith
      · rw [fliplr_px]
        show ((⟨n, m, f⟩ : Arr2 ℝ).px p ((m : ℤ) - 1 - ((m : ℤ) - 1 - q))).getD 0 = _
        rw [sub_sub_cancel]
    · refine Eq.trans (atPixels_none (-th) (Arr2.fliplr ⟨n, m, f⟩) i j ?_) (Eq.symm (atPixels_none th ⟨n, m, f⟩ i (Fin.rev j) h))
      rintro ⟨p, q, h1, h2⟩
      have h1 : (p : ℝ) - ((n : ℝ) - 1) / 2 = Real.cos (-th * Real.pi / 180) * ((i : ℕ) - ((n : ℝ) - 1) / 2) + Real.sin (-th * Real.pi / 180) * ((j : ℕ) - ((m : ℝ) - 1) / 2) := h1
      have h2 : (q : ℝ) - ((m : ℝ) - 1) / 2 = -(Real.sin (-th * Real.pi / 180) * ((i : ℕ) - ((n : ℝ) - 1) / 2)) + Real.cos (-th * Real.pi / 180) * ((j : ℕ) - ((m : ℝ) - 1) / 2) := h2
      rw [hc, hs] at h1 h2
      refine h ⟨p, (m : ℤ) - 1 - q, ?_, ?_⟩
      · rw [h1, hr]; ring
      · rw [hr]; push_cast; linarith
  transposed th a := by
    obtain ⟨n, m, f⟩ := a
    show (⟨m, n, _⟩ : Arr2 ℝ) = ⟨m, n, _⟩
    congr 1
    refine funext fun (i : Fin m) => funext fun (j : Fin n) => ?_
    have hc : Real.cos (-th * Real.pi / 180) = Real.cos (th * Real.pi / 180) := by rw [show -th * Real.pi / 180 = -(th * Real.pi / 180) by ring, Real.cos_neg]
    have hs : Real.sin (-th * Real.pi / 180) = -Real.sin (th * Real.pi / 180) := by rw [show -th * Real.pi / 180 = -(th * Real.pi / 180) by ring, Real.sin_neg]
    by_cases h : ∃ p q : ℤ, (p : ℝ) - ((n : ℝ) - 1) / 2 = Real.cos (th * Real.pi / 180) * ((j : ℕ) - ((n : ℝ) - 1) / 2) +
          Real.sin (th * Real.pi / 180) * ((i : ℕ) - ((m : ℝ) - 1) / 2) ∧
        (q : ℝ) - ((m : ℝ) - 1) / 2 = -(Real.sin (th * Real.pi / 180) * ((j : ℕ) - ((n : ℝ) - 1) / 2)) +
          Real.cos (th * Real.pi / 180) * ((i : ℕ) - ((m : ℝ) - 1) / 2)
    · obtain ⟨p, q, h1, h2⟩ := h
      refine Eq.trans (atPixels_val (-th) (Arr2.tr ⟨n, m, f⟩) i j q p ?_ ?_) (Eq.trans ?_ (Eq.symm (atPixels_val th ⟨n, m, f⟩ j i p q h1 h2)))
      · show (q : ℝ) - ((m : ℝ) - 1) / 2 = Real.cos (-th * Real.pi / 180) * ((i : ℕ) - ((m : ℝ) - 1) / 2) + Real.sin (-th * Real.pi / 180) * ((j : ℕ) - ((n : ℝ) - 1) / 2)
        rw [hc, hs, h2]; ring
      · show (p : ℝ) - ((n : ℝ) - 1) / 2 = -(Real.sin (-th * Real.pi / 180) * ((i : ℕ) - ((m : ℝ) - 1) / 2)) + Real.cos (-th * Real.pi / 180) * ((j : ℕ) - ((n : ℝ) - 1) / 2)
        rw [hc, hs, h1]; ring
      · rw [tr_px]
    · refine Eq.trans (atPixels_none (-th) (Arr2.tr ⟨n, m, f⟩) i j ?_) (Eq.symm (atPixels_none th ⟨n, m, f⟩ j i h))
      rintro ⟨q, p, h2, h1⟩
      have h2 : (q : ℝ) - ((m : ℝ) - 1) / 2 = Real.cos (-th * Real.pi / 180) * ((i : ℕ) - ((m : ℝ) - 1) / 2) + Real.sin (-th * Real.pi / 180) * ((j : ℕ) - ((n : ℝ) - 1) / 2) := h2
      have h1 : (p : ℝ) - ((n : ℝ) - 1) / 2 = -(Real.sin (-th * Real.pi / 180) * ((i : ℕ) - ((m : ℝ) - 1) / 2)) + Real.cos (-th * Real.pi / 180) * ((j : ℕ) - ((n : ℝ) - 1) / 2) := h1
      rw [hc, hs] at h1 h2
      exact h ⟨p, q, by rw [h1]; ring, by rw [h2]; ring⟩

open scoped Classical in
/-- A shift that moves by whole pixels only, and gives zeros for other shifts. -/
noncomputable def Shift.wholeOnly : Shift where
  run dy dx a := ⟨a.nr, a.nc, fun i j => if h : ∃ s : ℤ × ℤ, (s.1 : ℝ) = dy ∧ (s.2 : ℝ) = dx then (a.px ((i : ℕ) - h.choose.1) ((j : ℕ) - h.choose.2)).getD 0 else 0⟩
  nr _ _ _ := rfl
  nc _ _ _ := rfl
  linear dy dx n m f g a b i j := by
    have hp : ∀ i j : ℤ, ((⟨n, m, fun i j => a * f i j + b * g i j⟩ : Arr2 ℝ).px i j).getD 0 =
        a * ((⟨n, m, f⟩ : Arr2 ℝ).px i j).getD 0 + b * ((⟨n, m, g⟩ : Arr2 ℝ).px i j).getD 0 := by
      intro i j
      by_cases h : (0 ≤ i ∧ i < n) ∧ (0 ≤ j ∧ j < m)
      · rw [Arr2.px_of_inB _ h, Arr2.px_of_inB _ h, Arr2.px_of_inB _ h]; rfl
      · rw [Arr2.px_of_not_inB _ h, Arr2.px_of_not_inB _ h, Arr2.px_of_not_inB _ h]; simp
    by_cases h : (0 ≤ i ∧ i < n) ∧ (0 ≤ j ∧ j < m)
    · rw [Arr2.px_of_inB _ h, Arr2.px_of_inB _ h, Arr2.px_of_inB _ h]
      simp only [Option.getD_some]
      split
      · exact hp _ _
      · simp
    · rw [Arr2.px_of_not_inB _ h, Arr2.px_of_not_inB _ h, Arr2.px_of_not_inB _ h]; simp
  whole dy dx a i j h := by
    refine (Arr2.px_of_inB (⟨a.nr, a.nc, fun i j => if h : ∃ s : ℤ × ℤ, (s.1 : ℝ) = dy ∧ (s.2 : ℝ) = dx then (a.px ((i : ℕ) - h.choose.1) ((j : ℕ) - h.choose.2)).getD 0 else 0⟩ : Arr2 ℝ) h).trans ?_
    have hh : ∃ s : ℤ × ℤ, (s.1 : ℝ) = dy ∧ (s.2 : ℝ) = dx := ⟨(dy, dx), rfl, rfl⟩
    simp only [dif_pos hh]
    have e1 : hh.choose.1 = dy := by exact_mod_cast hh.choose_spec.1
    have e2 : hh.choose.2 = dx := by exact_mod_cast hh.choose_spec.2
    rw [e1, e2, Int.toNat_of_nonneg h.1.1, Int.toNat_of_nonneg h.2.1]

theorem wholeOnly_val (dy dx : ℝ) (a : Arr2 ℝ) (i : Fin a.nr) (j : Fin a.nc) (p q : ℤ) (h1 : (p : ℝ) = dy) (h2 : (q : ℝ) = dx) :
    (Shift.wholeOnly.run dy dx a).val i j = (a.px ((i : ℕ) - p) ((j : ℕ) - q)).getD 0 := by
  have hh : ∃ s : ℤ × ℤ, (s.1 : ℝ) = dy ∧ (s.2 : ℝ) = dx := ⟨(p, q), h1, h2⟩
  refine (dif_pos hh).trans ?_
  have e1 : hh.choose.1 = p := by exact_mod_cast hh.choose_spec.1.trans h1.symm
  have e2 : hh.choose.2 = q := by exact_mod_cast hh.choose_spec.2.trans h2.symm
  rw [e1, e2]

theorem wholeOnly_none (dy dx : ℝ) (a : Arr2 ℝ) (i : Fin a.nr) (j : Fin a.nc) (h : ¬ ∃ p q : ℤ, (p : ℝ) = dy ∧ (q : ℝ) = dx) :
    (Shift.wholeOnly.run dy dx a).val i j = 0 := dif_neg fun ⟨s, h1, h2⟩ => h ⟨s.1, s.2, h1, h2⟩

theorem Shift.wholeOnly_symmetric : Shift.wholeOnly.Symmetric where
  mirrored dy dx a := by
    obtain ⟨n, m, f⟩ := a
    show (⟨n, m, _⟩ : Arr2 ℝ) = ⟨n, m, _⟩
    congr 1
    refine funext fun (i : Fin n) => funext fun (j : Fin m) => ?_
    by_cases h : ∃ p q : ℤ, (p : ℝ) = dy ∧ (q : ℝ) = dx
    · obtain ⟨p, q, h1, h2⟩ := h
      refine Eq.trans (wholeOnly_val dy (-dx) (Arr2.fliplr ⟨n, m, f⟩) i j p (-q) h1 (by push_cast; rw [h2])) (Eq.trans ?_ (Eq.symm (wholeOnly_val dy dx ⟨n, m, f⟩ i (Fin.rev j) p q h1 h2)))
      rw [fliplr_px]
      have hj := j.isLt
      have : (((Fin.rev j : Fin m) : ℕ) : ℤ) - q = (m : ℤ) - 1 - ((j : ℕ) - -q) := by rw [Fin.val_rev]; omega
      rw [this]
    · refine Eq.trans (wholeOnly_none dy (-dx) (Arr2.fliplr ⟨n, m, f⟩) i j ?_) (Eq.symm (wholeOnly_none dy dx ⟨n, m, f⟩ i (Fin.rev j) h))
      rintro ⟨p, q, h1, h2⟩
      exact h ⟨p, -q, h1, by push_cast; rw [h2, neg_neg]⟩
  transposed dy dx a := by
    obtain ⟨n, m, f⟩ := a
    show (⟨m, n, _⟩ : Arr2 ℝ) = ⟨m, n, _⟩
    congr 1
    refine funext fun (i : Fin m) => funext fun (j : Fin n) => ?_
    by_cases h : ∃ p q : ℤ, (p : ℝ) = dy ∧ (q : ℝ) = dx
    · obtain ⟨p, q, h1, h2⟩ := h
      refine Eq.trans (wholeOnly_val dx dy (Arr2.tr ⟨n, m, f⟩) i j q p h2 h1) (Eq.trans ?_ (Eq.symm (wholeOnly_val dy dx ⟨n, m, f⟩ j i p q h1 h2)))
      rw [tr_px]
    · refine Eq.trans (wholeOnly_none dx dy (Arr2.tr ⟨n, m, f⟩) i j ?_) (Eq.symm (wholeOnly_none dy dx ⟨n, m, f⟩ j i h))
      rintro ⟨q, p, h2, h1⟩
      exact h ⟨p, q, h1, h2⟩

end Coralign
