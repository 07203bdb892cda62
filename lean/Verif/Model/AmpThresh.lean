import Verif.Base.Arr2
import Mathlib.Algebra.Order.Field.Basic

/-!
# Model of `coralign/util/ampthresh.py`
-/

namespace Coralign

/-- All pixel values, row by row. -/
def Arr2.pixels {α : Type} (a : Arr2 α) : List α :=
  (List.finRange a.nr).flatMap fun i => (List.finRange a.nc).map fun j => a.val i j

variable {K : Type} [Field K] [LinearOrder K]

/-- Bin edges of `np.histogram(xs, bins=n)`: `np.linspace(min, max, n+1)`. -/
def histEdge (lo hi : K) (n k : ℕ) : K := lo + k * ((hi - lo) / n)

/-- Bin counts of `np.histogram(xs, bins=n)`: bins are half open, the last one is closed. -/
def histCount (xs : List K) (lo hi : K) (n k : ℕ) : ℕ :=
  xs.countP fun v => histEdge lo hi n k ≤ v ∧ (v < histEdge lo hi n (k + 1) ∨ (k + 1 = n ∧ v ≤ histEdge lo hi n (k + 1)))

/-- The threshold search, `coralign/util/ampthresh.py` lines 36-60. `lo`, `hi` are `np.min`, `np.max`;
lines 40-44 histogram and interior local minima, 47 bin centres, 50-60 the first minimum. -/
def ampThreshold (xs : List K) (nBin : ℕ) : Res K :=
  match xs.min?, xs.max? with
  | some lo, some hi =>
    if lo = hi then .error .valueError
    else
      let cnt := histCount xs lo hi nBin
      match (List.range (nBin - 2)).find? fun i => cnt (i + 1) ≤ cnt i ∧ cnt (i + 1) < cnt (i + 2) with
      | some i => .ok ((1 / 2) * (histEdge lo hi nBin (i + 1) + histEdge lo hi nBin (i + 2)))
      | none => .error .valueError
  | _, _ => .error .valueError   -- np.min of an empty array

/-- `ampthresh`, `coralign/util/ampthresh.py` lines 29-65, for a real map. Line 30 is the check on `nBin`; the
rank check of line 29 is built into `Arr2`.  Simplification: lines 32-34, which replace a map having some non-real
pixel by its modulus, are not modelled; the map is real. -/
def ampthresh (pupilMap : Arr2 K) (nBin : ℤ) : Res (Arr2 Bool) :=
  if nBin ≤ 0 then .error .valueError
  else match ampThreshold pupilMap.pixels nBin.toNat with
    | .error e => .error e
    | .ok t => .ok (pupilMap.map fun v => decide (t < v))

end Coralign
