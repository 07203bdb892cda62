import Verif.Base.Morph
import Verif.Model.AmpThresh
import Mathlib.Analysis.Real.Pi.Bounds

/-!
# Model of `coralign/util/unwrap.py`

scikit-image's `unwrap_phase` and `remove_small_objects` and scipy's `NearestNDInterpolator` are external.
-/

namespace Coralign

/-- Contract of `skimage.restoration.unwrap_phase` on a masked array: the result has the shape of the input and
differs from it by whole turns at the pixels that are not masked out.  `use` is True at usable pixels. -/
structure Unwrapper where
  run : Arr2 ℝ → Arr2 Bool → Arr2 ℝ
  nr_eq : ∀ p m, (run p m).nr = p.nr
  nc_eq : ∀ p m, (run p m).nc = p.nc
  congr : ∀ p m (i j : ℤ) v, m.px i j = some true → p.px i j = some v →
    ∃ k : ℤ, (run p m).px i j = some (v + 2 * Real.pi * k)

/-- Contract of `skimage.morphology.remove_small_objects`: a mask of the same shape that is nowhere larger. -/
structure SmallRemover where
  run : Arr2 Bool → ℤ → Arr2 Bool
  nr_eq : ∀ m s, (run m s).nr = m.nr
  nc_eq : ∀ m s, (run m s).nc = m.nc
  subset : ∀ m s (i j : ℤ), (run m s).px i j = some true → m.px i j = some true

/-- `a[np.logical_not(mask)] = fill`. -/
def fillOutside (a : Arr2 ℝ) (mask : Arr2 Bool) (fill : ℝ) : Arr2 ℝ :=
  ⟨a.nr, a.nc, fun i j => if mask.px (i : ℕ) (j : ℕ) = some true then a.val i j else fill⟩

/-- `(amplitude.real < 0).any()`. -/
def anyNegative (a : Arr2 ℝ) : Prop := ∃ i j, a.val i j < 0

/-- The argument checks shared by both functions, `coralign/util/unwrap.py` lines 59-82 and 180-203.
Simplification: arrays are real by type, so the checks on imaginary parts (63-67) cannot fail.
`bMask` is boolean; the code also accepts a numeric one, which is then used as an index, and that is not modelled. -/
noncomputable def unwrapChecks (phase amplitude : Arr2 ℝ) (nbin minSize : ℤ) (bMask : Option (Arr2 Bool)) : Res Unit :=
  open Classical in
  if phase.nr ≠ amplitude.nr ∨ phase.nc ≠ amplitude.nc then .error .typeError
  else if anyNegative amplitude then .error .typeError
  else if nbin ≤ 0 then .error .typeError
  else if nbin < 3 then .error .valueError
  else if minSize ≤ 0 then .error .typeError
  else match bMask with
    | none => .ok ()
    | some b => if b.nr ≠ phase.nr ∨ b.nc ≠ phase.nc then .error .typeError else .ok ()

/-- The choice of mask, `coralign/util/unwrap.py` lines 84-96 and 209-221. -/
noncomputable def chooseMask (R : SmallRemover) (phase amplitude : Arr2 ℝ) (nbin minSize : ℤ) (useMask : Bool)
    (bMask : Option (Arr2 Bool)) : Res (Arr2 Bool) :=
  match bMask with
  | some b => .ok b
  | none =>
    if useMask then
      match ampthresh amplitude nbin with
      | .error e => .error e
      | .ok t => .ok (R.run t minSize)
    else .ok (Arr2.full phase.nr phase.nc true)

/-- `unwrap`, `coralign/util/unwrap.py` lines 58-118. -/
noncomputable def unwrap (U : Unwrapper) (R : SmallRemover) (phase amplitude : Arr2 ℝ) (nbin : ℤ) (fill : ℝ)
    (minSize : ℤ) (useMask : Bool) (bMask : Option (Arr2 Bool)) : Res (Arr2 ℝ × Arr2 Bool) :=
  match unwrapChecks phase amplitude nbin minSize bMask with
  | .error e => .error e
  | .ok () =>
    match chooseMask R phase amplitude nbin minSize useMask bMask with
    | .error e => .error e
    | .ok m => .ok (fillOutside (U.run phase m) m fill, m)

/-- The optional erosion, `coralign/util/unwrap.py` lines 224-228. -/
def erodeOpt (m : Arr2 Bool) : Option (Arr2 Bool) → Res (Arr2 Bool)
  | some s => binaryErosion m s
  | none => .ok m

/-- `unwrap_segments`, `coralign/util/unwrap.py` lines 179-248.  `interp` is `NearestNDInterpolator` built from the
pixels of the eroded mask (line 235) and evaluated at pixel `(i, j)` (line 240); it may raise (for instance when
the eroded mask is empty).  Line 243 calls `unwrap` with its defaults and no mask. -/
noncomputable def unwrapSegments (U : Unwrapper) (R : SmallRemover)
    (interp : Arr2 ℝ → Arr2 Bool → Res (ℕ → ℕ → ℝ)) (phase amplitude : Arr2 ℝ) (nbin : ℤ) (fill : ℝ)
    (minSize : ℤ) (useMask : Bool) (bMask : Option (Arr2 Bool)) (selem : Option (Arr2 Bool)) :
    Res (Arr2 ℝ × Arr2 Bool) :=
  match unwrapChecks phase amplitude nbin minSize bMask with
  | .error e => .error e
  | .ok () =>
    match chooseMask R phase amplitude nbin minSize useMask bMask with
    | .error e => .error e
    | .ok m =>
      match erodeOpt m selem with
      | .error e => .error e
      | .ok me =>
        match interp phase me with
        | .error e => .error e
        | .ok f =>
          let filled : Arr2 ℝ := ⟨phase.nr, phase.nc, fun i j =>
            if me.px (i : ℕ) (j : ℕ) = some true then phase.val i j else f i j⟩
          match unwrap U R filled amplitude 21 0 64 false none with
          | .error e => .error e
          | .ok (u, _) => .ok (fillOutside u me fill, me)

end Coralign
