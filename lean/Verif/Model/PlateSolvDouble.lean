import Verif.Model.PlateSolv
import Verif.Base.Double

/-!
# The plate scales of `coralign/platesolv/platesolv.py` in double precision

The bounds of the search, the plate scales tried and the points of the interpolation grid are computed in double precision.  The images and the misfits
are as in `Verif.Model.PlateSolv`, in exact arithmetic at the plate scales computed here.  Overflow is not modelled.
-/

namespace Coralign

/-- The values `np.arange(a, b, s)` fills in: the first is `a`, the second `a + s`, and the others are counted from `a` in multiples of the
difference of the two. -/
noncomputable def arangeValue (a s : ℝ) (k : ℕ) : ℝ :=
  if k = 0 then a
  else
    let next := double (a + s)
    if k = 1 then next
    else double (a + double (k * double (next - a)))

/-- `np.arange(a, b, s)` for doubles.  A zero step raises, as in `arange`. -/
noncomputable def arangeD (e : PyExc) (a b s : ℝ) : Res (List ℝ) :=
  if s = 0 then .error e
  else .ok ((List.range ⌈double (double (b - a) / s)⌉.toNat).map (arangeValue a s))

open Classical in
/-- `platesolv(img, guess_img, pixper_guess, ..)`, `coralign/platesolv/platesolv.py` lines 75-154, with the plate scales and the interpolation grid
in double precision.  `interp1d(.., kind='cubic')` of line 148 refuses fewer than four or repeated plate scales, and its call on line 149 refuses
points outside the range of the plate scales: all these are `ValueError`. -/
noncomputable def platesolvD (I : Interp1d) (img guess : Arr2 ℝ) (pg : ℝ) (c : PlateConsts) : Res (List ℝ × List ℝ × List (Option ℝ)) :=
  if pg ≤ 0 then .error plateSolvException                                            -- line 78
  else if img.nr ≠ guess.nr ∨ img.nc ≠ guess.nc then .error plateSolvException        -- lines 81-82
  else match c.psWid, c.nTrials, c.percentileVal, c.interpStep with                   -- lines 91-98
    | some w, some n, some pct, some step =>
      if n = 0 then .error .zeroDivisionError
      else do
        let wid := double (pg * w)                                                    -- line 102
        let pix ← arangeD .zeroDivisionError (double (pg - wid)) (double (pg + wid)) (double (wid / double (n / 2)))  -- lines 108-110
        let ppp : ℝ := ((max guess.nr guess.nc : ℕ) : ℝ)                              -- line 114
        let ref ← doImft (guess.map fun v : ℝ => (v : ℂ)) guess.nr guess.nc pg ppp    -- lines 117-118
        let resid ← pix.mapM fun p => plateResidual img guess ref ppp pct p           -- lines 121-143
        match pix.min?, pix.max? with                                                 -- lines 146-147
        | some lo, some hi => do
          let xs ← arangeD .valueError lo hi step
          if pix.length < 4 ∨ ¬ pix.Nodup then .error .valueError                     -- line 148
          else if ∃ x ∈ xs, x < lo ∨ hi < x then .error .valueError                   -- line 149
          else if xs = [] then .error .valueError                                     -- line 152, np.amin of an empty array
          else match resid.mapM id with
            | none => .ok ([], pix, resid)                                            -- nan compares unequal to itself
            | some ys =>
              let f := I.eval pix ys
              let low := ((xs.map f).min?).getD 0
              .ok (xs.filter fun x => f x = low, pix, resid)                          -- line 152
        | _, _ => .error .valueError
    | _, _, _, _ => .error plateSolvException

end Coralign
