import Verif.Model.Zernike
import Verif.Base.Double

/-!
# `xyzern` of `coralign/util/nollzernikes.py` in double precision

Every operation on floats is rounded to the nearest double.  The order and frequency of the mode are whole numbers (lines 81-86); that they come out
right in double precision is C21.  `scipy.special.gamma`, `np.hypot`, `np.arctan2`, `np.cos` and `np.sin` are parameters.  Overflow, infinities and
`nan` are not modelled.
-/

namespace Coralign

/-- The routines of numpy and scipy that `xyzern` calls.  `gamma` is called with whole numbers only. -/
structure ZernRoutines where
  gamma : ℕ → ℝ
  hypot : ℝ → ℝ → ℝ
  arctan2 : ℝ → ℝ → ℝ
  cos : ℝ → ℝ
  sin : ℝ → ℝ

/-- Row `i` of `rpow`, `nollzernikes.py` lines 92-95. -/
noncomputable def rpowD (r : ℝ) : ℕ → ℝ
  | 0 => 1
  | i + 1 => double (rpowD r i * r)

/-- Entry `[i, s]` of `sincos`, `nollzernikes.py` lines 96-100. -/
noncomputable def sincosD (P : ZernRoutines) (th : ℝ) (i s : ℕ) : ℝ :=
  if i = 0 then 1 else if s = 0 then P.cos (double (i * th)) else P.sin (double (i * th))

/-- Lines 107-112.  The arguments of `gamma` are whole numbers computed exactly. -/
noncomputable def zernInitD (P : ZernRoutines) (n m : ℕ) : ZernWork :=
  let kmax := (n - m) / 2
  { rnum := Function.update (fun _ => 0) kmax (double (P.gamma (n - kmax + 1) * (-1) ^ kmax))
    d0 := Function.update (fun _ => 0) 0 1
    d1 := Function.update (fun _ => 0) kmax (P.gamma ((n + m) / 2 - kmax + 1))
    d2 := Function.update (fun _ => 0) kmax (P.gamma ((n - m) / 2 - kmax + 1)) }

/-- Lines 114-117: one pass of the loop `for k in range(1, kmax+1)`.  The second factors are whole numbers. -/
noncomputable def zernStepD (n m : ℕ) (w : ZernWork) (k : ℕ) : ZernWork :=
  let kmax := (n - m) / 2
  { rnum := Function.update w.rnum (kmax - k) (double (w.rnum (kmax - k + 1) * -((n : ℝ) - ((kmax - k : ℕ) : ℝ))))
    d0 := Function.update w.d0 k (double (w.d0 (k - 1) * k))
    d1 := Function.update w.d1 (kmax - k) (double (w.d1 (kmax - k + 1) * (((n + m) / 2 : ℕ) - ((kmax - k : ℕ) : ℝ))))
    d2 := Function.update w.d2 (kmax - k) (double (w.d2 (kmax - k + 1) * (((n - m) / 2 : ℕ) - ((kmax - k : ℕ) : ℝ)))) }

/-- The work arrays after the loop, lines 107-118. -/
noncomputable def zernWorkD (P : ZernRoutines) (n m : ℕ) : ZernWork :=
  (List.range' 1 ((n - m) / 2)).foldl (zernStepD n m) (zernInitD P n m)

/-- `rnum[k]/rden[:, k].prod(axis=0)`, line 120: the product of three numbers, then the quotient. -/
noncomputable def zernCoefD (P : ZernRoutines) (n m k : ℕ) : ℝ :=
  double ((zernWorkD P n m).rnum k / double (double ((zernWorkD P n m).d0 k * (zernWorkD P n m).d1 k) * (zernWorkD P n m).d2 k))

/-- The radial polynomial `rp` at one sample, lines 119-121. -/
noncomputable def zernRpD (P : ZernRoutines) (n m : ℕ) (r : ℝ) : ℝ :=
  (List.range ((n - m) / 2 + 1)).foldl (fun rp k => double (rp + double (zernCoefD P n m k * rpowD r (n - 2 * k)))) 0

/-- The sample of the Noll mode `j` at the point `(x, y)`: lines 71-72, 102-123 and 126-131. -/
noncomputable def zernSampleD (P : ZernRoutines) (j : ℤ) (prad x y : ℝ) : ℝ :=
  let r := double (P.hypot x y / prad)
  let th := P.arctan2 y x
  let n := (nollN j).toNat
  let m := (nollM j).toNat
  let nc := if m ≠ 0 then double (Real.sqrt (2 * (n + 1))) else double (Real.sqrt (n + 1))
  double (nc * double (zernRpD P n m r * sincosD P th m (j % 2).toNat))

end Coralign
