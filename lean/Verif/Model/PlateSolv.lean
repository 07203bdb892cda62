import Verif.Model.AmpThresh
import Verif.Model.Mft
import Verif.Model.PupilSearch
import Verif.Base.Py

/-!
# Model of `coralign/platesolv/platesolv.py`

Images are real.  Numbers in the parameter file are Python numbers, so that dividing by zero raises.  A number which numpy would give as
`nan` is `none`.
-/

namespace Coralign

/-- `scipy.interpolate.interp1d(xs, ys, kind='cubic')`, for at least four distinct abscissae: a curve through the points which is linear in
the ordinates. -/
structure Interp1d where
  eval : List ℝ → List ℝ → ℝ → ℝ
  node : ∀ xs ys : List ℝ, xs.Nodup → xs.length = ys.length → 4 ≤ xs.length → ∀ k (h : k < xs.length) (h' : k < ys.length), eval xs ys xs[k] = ys[k]
  scale : ∀ (c : ℝ) (xs ys : List ℝ) (v : ℝ), eval xs (ys.map fun y : ℝ => c * y) v = c * eval xs ys v

/-- The entries of the parameter file, `none` where there is none. -/
structure PlateConsts where
  psWid : Option ℝ
  nTrials : Option ℝ
  percentileVal : Option ℝ
  interpStep : Option ℝ

/-- `PlateSolvException`, line 14. -/
def plateSolvException : PyExc := .user 2

/-- `np.arange(a, b, s)` in exact arithmetic.  A zero step raises `e`: numpy divides `b - a` by `s`, so that it is `ZeroDivisionError` when
the difference is a Python number (lines 108-110) and `ValueError` when it is a numpy number (lines 146-147). -/
noncomputable def arange (e : PyExc) (a b s : ℝ) : Res (List ℝ) :=
  if s = 0 then .error e
  else .ok ((List.range ⌈(b - a) / s⌉.toNat).map fun k : ℕ => a + k * s)

/-- `np.std` over all pixels of an array. -/
noncomputable def stdDev (a : Arr2 ℝ) : ℝ :=
  let mean := (∑ i : Fin a.nr, ∑ j : Fin a.nc, a.val i j) / (a.nr * a.nc)
  Real.sqrt ((∑ i : Fin a.nr, ∑ j : Fin a.nc, (a.val i j - mean) ^ 2) / (a.nr * a.nc))

/-- One pass of the loop, lines 124-143.  A zero percentile of the trial image makes it infinite or `nan`, a zero maximum of the simulated
image makes the quotient so; the standard deviation is `nan` in either case. -/
noncomputable def plateResidual (img guess : Arr2 ℝ) (ref : Arr2 ℂ) (pixperpupil pct p : ℝ) : Res (Option ℝ) := do
  let t ← doMft ref guess.nr guess.nc p pixperpupil
  if pct < 0 ∨ 100 < pct then .error .valueError
  else
    let trial := t.map fun z : ℂ => z.re
    let q := percentile trial.pixels pct
    let top := (guess.pixels.max?).getD 0
    if q = 0 ∨ top = 0 then .ok none
    else
      let s := percentile img.pixels pct / q
      .ok (some (stdDev ⟨img.nr, img.nc, fun i j => (trial.zext (i : ℕ) (j : ℕ) * s - img.val i j) / top⟩))

/-- `platesolv(img, guess_img, pixper_guess, ..)`, `coralign/platesolv/platesolv.py` lines 75-154: `(best_fit, pix_per_arr, resid_norm_arr)`. -/
noncomputable def platesolv (I : Interp1d) (img guess : Arr2 ℝ) (pg : ℝ) (c : PlateConsts) : Res (List ℝ × List ℝ × List (Option ℝ)) :=
  if pg ≤ 0 then .error plateSolvException                                            -- line 78
  else if img.nr ≠ guess.nr ∨ img.nc ≠ guess.nc then .error plateSolvException        -- lines 81-82
  else match c.psWid, c.nTrials, c.percentileVal, c.interpStep with                   -- lines 91-98
    | some w, some n, some pct, some step =>
      if n = 0 then .error .zeroDivisionError
      else do
        let wid := pg * w                                                             -- line 102
        let pix ← arange .zeroDivisionError (pg - wid) (pg + wid) (wid / (n / 2))                        -- lines 108-110
        let ppp : ℝ := ((max guess.nr guess.nc : ℕ) : ℝ)                              -- line 114
        let ref ← doImft (guess.map fun v : ℝ => (v : ℂ)) guess.nr guess.nc pg ppp    -- lines 117-118
        let resid ← pix.mapM fun p => plateResidual img guess ref ppp pct p           -- lines 121-143
        match pix.min?, pix.max? with                                                 -- lines 146-147
        | some lo, some hi => do
          let xs ← arange .valueError lo hi step
          if pix.length < 4 then .error .valueError                                   -- line 148
          else if xs = [] then .error .valueError                                     -- line 152, np.amin of an empty array
          else match resid.mapM id with
            | none => .ok ([], pix, resid)                                            -- nan compares unequal to itself
            | some ys =>
              let f := I.eval pix ys
              let low := ((xs.map f).min?).getD 0
              .ok (xs.filter fun x => f x = low, pix, resid)                          -- line 152
        | _, _ => .error .valueError
    | _, _, _, _ => .error plateSolvException

end Coralign
