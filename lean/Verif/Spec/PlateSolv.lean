import Verif.Model.PlateSolv

/-!
# Specification vocabulary for the plate scale search
-/

namespace Coralign.Spec

open Coralign

/-- Arguments with which the search runs, for a positive search width. -/
structure PlateArgs (img guess : Arr2 ℝ) (pg w n pct step : ℝ) : Prop where
  scale : 0 < pg
  rows : img.nr = guess.nr
  cols : img.nc = guess.nc
  pixels : 0 < guess.nr ∧ 0 < guess.nc
  widPos : 0 < w
  widLt : w < 1
  trials : 3 < n
  pctLo : 0 ≤ pct
  pctHi : pct ≤ 100
  step : 0 < step

/-- Offset of index `i` from the centre pixel of an axis of length `n`. -/
def fromCentre (n i : ℕ) : ℝ := (i : ℝ) - ((n / 2 : ℕ) : ℝ)

/-- The simulated image `g`, sampled at `pg` pixels per resolution element, resampled at `p` pixels per resolution element: `g` is Fourier
transformed to the samples of a pupil plane `max(nr, nc)` samples across, one row of samples for each row of the image, and back. -/
noncomputable def rescaledAt (g : Arr2 ℝ) (pg p : ℝ) (a b : ℕ) : ℝ :=
  let N : ℝ := (max g.nr g.nc : ℕ)
  ∑ u : Fin g.nr, ∑ v : Fin g.nc, ∑ i : Fin g.nr, ∑ j : Fin g.nc, g.val i j *
    Real.cos (2 * Real.pi * ((fromCentre g.nr u * fromCentre g.nr i + fromCentre g.nc v * fromCentre g.nc j) / (pg * N) -
      (fromCentre g.nr a * fromCentre g.nr u + fromCentre g.nc b * fromCentre g.nc v) / (p * N))) / (pg ^ 2 * N ^ 2)

/-- The resampled image as an array. -/
noncomputable def trialImage (g : Arr2 ℝ) (pg p : ℝ) : Arr2 ℝ := ⟨g.nr, g.nc, fun a b => rescaledAt g pg p a b⟩

/-- `sd` is the standard deviation of the values of `f` over the pixels of an `n x m` array. -/
def IsStd (n m : ℕ) (f : ℕ → ℕ → ℝ) (sd : ℝ) : Prop :=
  0 ≤ sd ∧ ∃ mean : ℝ, n * m * mean = ∑ i ∈ Finset.range n, ∑ j ∈ Finset.range m, f i j ∧
    n * m * sd ^ 2 = ∑ i ∈ Finset.range n, ∑ j ∈ Finset.range m, (f i j - mean) ^ 2

/-- `top` is the largest pixel of `g`. -/
def IsBrightest (g : Arr2 ℝ) (top : ℝ) : Prop := (∃ i j, g.val i j = top) ∧ ∀ i j, g.val i j ≤ top

/-- The misfit at plate scale `p`: the standard deviation of the difference between the trial image, scaled so that its percentile is that of
`img`, and `img`, in units of the largest pixel of the simulated image.  It is not a number if the percentile of the trial image or that
largest pixel vanishes. -/
def Misfit (img g : Arr2 ℝ) (pg pct p : ℝ) (r : Option ℝ) : Prop :=
  ∃ top, IsBrightest g top ∧
    match r with
    | none => percentile (trialImage g pg p).pixels pct = 0 ∨ top = 0
    | some sd => percentile (trialImage g pg p).pixels pct ≠ 0 ∧ top ≠ 0 ∧
        IsStd img.nr img.nc (fun i j => (rescaledAt g pg p i j * (percentile img.pixels pct / percentile (trialImage g pg p).pixels pct) - img.zext i j) / top) sd

/-- The plate scales tried: from `pg (1 - w)`, in steps of `2 pg w / n`, as long as `pg (1 + w)` is not reached. -/
def IsScales (pg w n : ℝ) (pix : List ℝ) : Prop :=
  (∀ k (h : k < pix.length), pix[k] = pg * (1 - w) + k * (2 * pg * w / n)) ∧ ∀ k : ℕ, k < pix.length ↔ pg * (1 - w) + k * (2 * pg * w / n) < pg * (1 + w)

/-- `x` is a point `lo + k step` below `hi`. -/
def OnGrid (lo hi step x : ℝ) : Prop := ∃ k : ℕ, x = lo + k * step ∧ x < hi

/-- `best` lists, in increasing order, the points of the grid over `[lo, hi)` at which the curve `f` is lowest. -/
def IsLowest (lo hi step : ℝ) (f : ℝ → ℝ) (best : List ℝ) : Prop :=
  best ≠ [] ∧ best.Pairwise (· < ·) ∧ ∀ x, x ∈ best ↔ OnGrid lo hi step x ∧ ∀ x', OnGrid lo hi step x' → f x ≤ f x'

end Coralign.Spec
