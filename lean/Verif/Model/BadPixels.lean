import Verif.Model.CombineCrop
import Verif.Model.Center
import Verif.Model.Quad
import Verif.Model.PsfFit
import Verif.Model.PupilSearch

/-!
# What NaN pixels do

`combine` and `crop` (`coralign/util/combine_crop.py`) mark bad pixels and pixels outside the frame with NaN.  This file models
the functions that receive such images with numpy's NaN rules: NaN absorbs in sums, products and quotients, comparisons with it
are false, and `np.argmax` returns the first NaN if there is one.  Infinities are not modelled: `Fl.nan` stands for every
result that is not a finite number (a quotient by zero).
-/

namespace Coralign

namespace Fl
variable {K : Type}

/-- `x + y`: NaN absorbs. -/
def add [Add K] : Fl K → Fl K → Fl K
  | .num x, .num y => .num (x + y)
  | _, _ => .nan

/-- `x * y`: NaN absorbs, also when the other factor is zero. -/
def mul [Mul K] : Fl K → Fl K → Fl K
  | .num x, .num y => .num (x * y)
  | _, _ => .nan

/-- `x / y`; the NaN or infinity of a division by zero is `nan`. -/
def quot [Div K] [Zero K] [DecidableEq K] : Fl K → Fl K → Fl K
  | .num x, .num y => if y = 0 then .nan else .num (x / y)
  | _, _ => .nan

/-- `-x`. -/
def neg [Neg K] : Fl K → Fl K
  | .num x => .num (-x)
  | .nan => .nan

/-- `x > y`: false when one of them is NaN. -/
def gt [LT K] : Fl K → Fl K → Prop
  | .num x, .num y => y < x
  | _, _ => False

/-- A function applied elementwise (`np.abs`, `np.conj`): NaN stays NaN. -/
def map {L : Type} (f : K → L) : Fl K → Fl L
  | .num x => .num (f x)
  | .nan => .nan

instance [Add K] : Add (Fl K) := ⟨Fl.add⟩
instance [Zero K] : Zero (Fl K) := ⟨.num 0⟩

instance [AddCommMonoid K] : AddCommMonoid (Fl K) where
  add_assoc a b c := by
    cases a <;> cases b <;> cases c <;> first | rfl | (show Fl.num _ = Fl.num _; rw [add_assoc])
  zero_add a := by cases a <;> first | rfl | (show Fl.num _ = Fl.num _; rw [zero_add])
  add_zero a := by cases a <;> first | rfl | (show Fl.num _ = Fl.num _; rw [add_zero])
  add_comm a b := by cases a <;> cases b <;> first | rfl | (show Fl.num _ = Fl.num _; rw [add_comm])
  nsmul := nsmulRec

instance [Mul K] : Mul (Fl K) := ⟨Fl.mul⟩

end Fl

/-- Does the image have a NaN pixel? -/
def HasNan {K : Type} (a : Arr2 (Fl K)) : Prop := ∃ i j, a.val i j = .nan

/-- An image of numbers. -/
def Arr2.nums {K : Type} (a : Arr2 K) : Arr2 (Fl K) := a.map Fl.num

/-- The numbers of an image, with zero in place of NaN. -/
def Arr2.denan {K : Type} [Zero K] (a : Arr2 (Fl K)) : Arr2 K := a.map fun v => match v with | .num x => x | .nan => 0

section
variable {K : Type} [Field K] [DecidableEq K]

/-- `np.nonzero(a)`, `coralign/util/center.py` lines 29 and 32: NaN counts as non-zero. -/
def nonzeroPixelsN (a : Arr2 (Fl K)) : Finset (Fin a.nr × Fin a.nc) :=
  Finset.univ.filter fun p => a.val p.1 p.2 ≠ .num 0

/-- `center_of_energy`, `coralign/util/center.py` lines 25-46, with NaN pixels. -/
def centerOfEnergyN (a : Arr2 (Fl K)) : Fl K × Fl K :=
  let total := ∑ p ∈ nonzeroPixelsN a, a.val p.1 p.2
  let avgRow := ∑ p ∈ nonzeroPixelsN a, .num ((p.1 : ℕ) : K) * (a.val p.1 p.2).quot total
  let avgCol := ∑ p ∈ nonzeroPixelsN a, .num ((p.2 : ℕ) : K) * (a.val p.1 p.2).quot total
  (avgCol, avgRow)

end

open scoped Classical in
/-- `quadrant_energy_balance`, `coralign/util/quad.py` lines 38-83, with NaN pixels: line 44 divides every pixel by the sum of
all of them. -/
noncomputable def quadrantEnergyBalanceN (a : Arr2 (Fl ℝ)) (xOrigin yOrigin : ℤ) (radius : ℝ) : Res (Fl ℝ × Fl ℝ) :=
  if radius < 0 then .error .typeError
  else if xOrigin < 0 then .error .typeError
  else if yOrigin < 0 then .error .typeError
  else if ¬ xOrigin < a.nr then .error .valueError
  else if ¬ yOrigin < a.nc then .error .valueError
  else
    let total := ∑ i : Fin a.nr, ∑ j : Fin a.nc, a.val i j
    let counts : (ℝ → ℝ → Prop) → Fl ℝ := fun q => ∑ i : Fin a.nr, ∑ j : Fin a.nc,
      let x : ℝ := (((j : ℕ) : ℤ) - xOrigin : ℤ)
      let y : ℝ := (((i : ℕ) : ℤ) - yOrigin : ℤ)
      if q x y ∧ (cart2pol x y).1 ≤ radius then (a.val i j).quot total else 0
    let q1 := counts fun x y => x ≥ 0 ∧ y ≥ 0
    let q2 := counts fun x y => x ≤ 0 ∧ y ≥ 0
    let q3 := counts fun x y => x ≥ 0 ∧ y ≤ 0
    let q4 := counts fun x y => x ≤ 0 ∧ y ≤ 0
    .ok ((q1 + q3) + (q2 + q4).neg, (q1 + q2) + (q3 + q4).neg)

open scoped Classical in
/-- `rms`, `coralign/util/math.py` lines 7-11, of a non-empty array with NaN entries. -/
noncomputable def rmsN {ι : Type} [Fintype ι] (a : ι → Fl ℝ) : Fl ℝ :=
  ((∑ i, a i * a i).quot (.num (Fintype.card ι : ℝ))).map Real.sqrt

open scoped Classical in
/-- `compute_norm_factor`, `coralign/pupil/util.py` lines 524-547, with NaN pixels: `np.percentile` of values with a NaN is NaN. -/
noncomputable def computeNormFactorN (img : Arr2 (Fl ℝ)) (mask : Arr2 ℝ) (p : ℝ) : Res (Fl ℝ) :=
  if img.nr ≠ mask.nr ∨ img.nc ≠ mask.nc then .error .typeError
  else if ∃ i j, mask.val i j ≠ 0 ∧ mask.val i j ≠ 1 then .error .typeError
  else if p < 0 ∨ 100 < p then .error .typeError
  else if ∀ i j, mask.val i j = 0 then .error .typeError
  else
    let values := (List.finRange img.nr).flatMap fun i : Fin img.nr =>
      ((List.finRange img.nc).filter fun j : Fin img.nc => mask.zext ((i : ℕ) : ℤ) ((j : ℕ) : ℤ) = 1).map fun j => img.val i j
    if .nan ∈ values then .ok .nan
    else .ok (.num (percentile (values.map fun v => match v with | .num x => x | .nan => 0) p))

/-- `np.argmax` of `f 0, ..., f k`: the first NaN, or the first maximum if there is none. -/
noncomputable def argmaxUptoN (f : ℕ → Fl ℝ) : ℕ → ℕ
  | 0 => 0
  | k + 1 =>
    match f (argmaxUptoN f k), f (k + 1) with
    | .nan, _ => argmaxUptoN f k
    | .num _, .nan => k + 1
    | .num x, .num y => open scoped Classical in if x < y then k + 1 else argmaxUptoN f k

/-- `np.unravel_index(np.argmax(a), a.shape)`, for a non-empty array. -/
noncomputable def argmax2N (a : Arr2 (Fl ℝ)) : ℕ × ℕ :=
  let p := argmaxUptoN (fun p => (a.px ((p / a.nc : ℕ) : ℤ) ((p % a.nc : ℕ) : ℤ)).getD (.num 0)) (a.nr * a.nc - 1)
  (p / a.nc, p % a.nc)

open scoped Classical in
/-- `np.fft.fftn` or `np.fft.ifftn` (`f`) of an image with NaN pixels: every output is a combination of all pixels, so each of
them is NaN. -/
noncomputable def fftN (f : Arr2 ℂ → Arr2 ℂ) (a : Arr2 (Fl ℂ)) : Arr2 (Fl ℂ) :=
  if HasNan a then ⟨a.nr, a.nc, fun _ _ => .nan⟩ else (f a.denan).nums

/-- `image_product`, `coralign/psffit/psffit.py` lines 126-130, with NaN pixels. -/
noncomputable def imageProductN (src tgt : Arr2 (Fl ℝ)) : Arr2 (Fl ℂ) :=
  let s := fftN npFft2 (src.map (Fl.map fun x : ℝ => (x : ℂ)))
  let t := fftN npFft2 (tgt.map (Fl.map fun x : ℝ => (x : ℂ)))
  ⟨s.nr, s.nc, fun p q => s.val p q * ((t.px (p : ℕ) (q : ℕ)).getD (.num 0)).map (starRingEnd ℂ)⟩

/-- `np.tensordot(kernel, a, axes=(1, -1))`, `psffit.py` line 76, with NaN entries. -/
noncomputable def tensorPassN (ups : ℕ) (k : ℕ → ℕ → ℂ) (a : Arr2 (Fl ℂ)) : Arr2 (Fl ℂ) :=
  ⟨ups, a.nr, fun u r => ∑ c : Fin a.nc, .num (k u c) * a.val r c⟩

open scoped Classical in
/-- Lines 145-172 of `psffit.py` with NaN entries in the image product (`refineShift` of `Model/PsfFit`). -/
noncomputable def refineShiftN (prod : Arr2 (Fl ℂ)) (kappa pad : ℝ) (s0 s1 : ℤ) : Res (ℝ × ℝ) :=
  let t0 : ℝ := npRound ((s0 : ℝ) * kappa) / kappa
  let t1 : ℝ := npRound ((s1 : ℝ) * kappa) / kappa
  let region : ℤ := ⌈kappa * pad⌉
  let dftshift : ℤ := region / 2
  if region ≤ 0 then .error .valueError
  else if kappa = 0 ∨ prod.nr = 0 ∨ prod.nc = 0 then .error .zeroDivisionError
  else
    let up := tensorPassN region.toNat (dftKernel prod.nr kappa ((dftshift : ℝ) - t0 * kappa))
      (tensorPassN region.toNat (dftKernel prod.nc kappa ((dftshift : ℝ) - t1 * kappa)) (prod.map (Fl.map (starRingEnd ℂ))))
    let cc := up.map (Fl.map fun z => (starRingEnd ℂ) z / (((prod.nr : ℂ) * prod.nc) * (kappa : ℂ) ^ 2))
    let mx := argmax2N (cc.map (Fl.map fun z : ℂ => ‖z‖))
    .ok (t0 + (((mx.1 : ℕ) : ℝ) - dftshift) / kappa, t1 + (((mx.2 : ℕ) : ℝ) - dftshift) / kappa)

open scoped Classical in
/-- `np.amax` with NaN pixels. -/
noncomputable def amaxN (a : Arr2 (Fl ℝ)) : Fl ℝ := if HasNan a then .nan else .num (amax a.denan)

open scoped Classical in
/-- Lines 174-188 of `psffit.py` with NaN pixels: pixels not above the threshold are left out; a threshold of NaN leaves out
all. -/
noncomputable def psfAmplitudeN (guess tgt : Arr2 (Fl ℝ)) (thresh : ℝ) : Fl ℝ :=
  (∑ i : Fin tgt.nr, ∑ j : Fin tgt.nc, if (tgt.val i j).gt (.num thresh * amaxN tgt) then
      ((guess.px (i : ℕ) (j : ℕ)).getD (.num 0)) * tgt.val i j else 0).quot
  (∑ i : Fin tgt.nr, ∑ j : Fin tgt.nc, if (tgt.val i j).gt (.num thresh * amaxN tgt) then
      ((guess.px (i : ℕ) (j : ℕ)).getD (.num 0)) * ((guess.px (i : ℕ) (j : ℕ)).getD (.num 0)) else 0)

open scoped Classical in
/-- `psffit(source_image, target_image, config_file)`, `psffit.py` lines 118-194, on images with NaN pixels.  `shift` is
`ndimage.shift`. -/
noncomputable def psffitN (shift : ℝ → ℝ → Arr2 (Fl ℝ) → Arr2 (Fl ℝ)) (cfg : PsfConfig) (src tgt : Arr2 (Fl ℝ)) :
    Res ((ℝ × ℝ) × Fl ℝ) :=
  if src.nr ≠ tgt.nr ∨ src.nc ≠ tgt.nc then .error .valueError
  else if src.nr = 0 ∨ src.nc = 0 then .error .valueError
  else do
    let prod := imageProductN src tgt
    let mx := argmax2N ((fftN npIfft2 prod).map (Fl.map fun z : ℂ => ‖z‖))
    let s0 := unwrapShift src.nr mx.1
    let s1 := unwrapShift src.nc mx.2
    let s ← if cfg.upsample ≠ 1 then refineShiftN prod cfg.upsample cfg.pad s0 s1 else .ok ((s0 : ℝ), (s1 : ℝ))
    let guess := shift (-1 * s.1) (-1 * s.2) src
    .ok ((-s.1, -s.2), psfAmplitudeN guess tgt cfg.thresh)

open scoped Classical in
/-- The entry of `overlap_matrix`, `coralign/pupil/util.py` lines 478-492, with NaN pixels (`overlapAt` of
`Model/PupilSearch`): line 492 adds up the selected pixels only. -/
noncomputable def overlapAtN (img : Arr2 (Fl ℝ)) (nBeam : ℝ) (x y : ℤ) : Fl ℝ :=
  if x + (img.nc / 2 : ℕ) ≥ 0 ∨ x + (img.nc / 2 : ℕ) ≤ (img.nc : ℤ) - 1 then
    if y + (img.nr / 2 : ℕ) ≥ 0 ∨ y + (img.nr / 2 : ℕ) ≤ (img.nr : ℤ) - 1 then
      ∑ i : Fin img.nr, ∑ j : Fin img.nc,
        if Real.sqrt (((coordOf img.nc j - x : ℤ) : ℝ) ^ 2 + ((coordOf img.nr i - y : ℤ) : ℝ) ^ 2) ≤ nBeam / 2 then img.val i j else 0
    else 0
  else 0

/-- `coarsely_locate_pupil_offset_once`, `coralign/pupil/util.py` lines 453-501, with NaN pixels. -/
noncomputable def coarseOnceN (img : Arr2 (Fl ℝ)) (nBeam : ℝ) (xStart yStart radius step : ℤ) : Res (ℤ × ℤ) :=
  if ¬ 0 < nBeam then .error .typeError
  else if radius ≤ 0 then .error .typeError
  else if step ≤ 0 then .error .typeError
  else
    let n := gridSize radius step
    let overlap : Arr2 (Fl ℝ) := ⟨n, n, fun iy ix =>
      overlapAtN img nBeam (gridOffset radius step ix + xStart) (gridOffset radius step iy + yStart)⟩
    let best := argmax2N overlap
    .ok (gridOffset radius step best.2 + xStart, gridOffset radius step best.1 + yStart)

end Coralign
