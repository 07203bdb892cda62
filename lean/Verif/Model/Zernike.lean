import Verif.Base.LeastSq
import Verif.Base.Arr2
import Verif.Model.DrUtil
import Verif.Model.Math
import Mathlib.Analysis.SpecialFunctions.Gamma.Basic
import Mathlib.Algebra.Order.Floor.Ring

/-!
# Model of `coralign/util/nollzernikes.py`
-/

namespace Coralign

/-- `np1 = (np.ceil((np.sqrt(1.+8.*moa)-1.)/2.)+0.5).astype(int)`, `nollzernikes.py` line 81.  The argument of `astype`
is positive, so truncation is the floor. -/
noncomputable def nollNp1 (j : ℤ) : ℤ := ⌊(⌈(Real.sqrt (1 + 8 * j) - 1) / 2⌉ : ℝ) + 1 / 2⌋

/-- `ntermsn = (np1*(np1-1))//2`, `nollzernikes.py` line 84. -/
noncomputable def nollTerms (j : ℤ) : ℤ := nollNp1 j * (nollNp1 j - 1) / 2

/-- `m = ((moa - ntermsn - ((np1+1) % 2))//2)*2 + ((np1+1) % 2)`, `nollzernikes.py` line 85. -/
noncomputable def nollM (j : ℤ) : ℤ :=
  (j - nollTerms j - (nollNp1 j + 1) % 2) / 2 * 2 + (nollNp1 j + 1) % 2

/-- `n = np1-1`, `nollzernikes.py` line 86. -/
noncomputable def nollN (j : ℤ) : ℤ := nollNp1 j - 1

/-- Row `i` of `rpow`, `nollzernikes.py` lines 92-95. -/
def rpow (r : ℝ) : ℕ → ℝ
  | 0 => 1
  | i + 1 => rpow r i * r

/-- Entry `[i, s]` of `sincos`, `nollzernikes.py` lines 96-100: row 0 keeps the initial ones. -/
noncomputable def sincos (th : ℝ) (i s : ℕ) : ℝ :=
  if i = 0 then 1 else if s = 0 then Real.cos (i * th) else Real.sin (i * th)

/-- The work arrays `rnum` and `rden[0..2]` of `nollzernikes.py` lines 107-108, as functions of the index. -/
structure ZernWork where
  rnum : ℕ → ℝ
  d0 : ℕ → ℝ
  d1 : ℕ → ℝ
  d2 : ℕ → ℝ

/-- Lines 107-112: zero arrays, then the four starting entries.  `scipy.special.gamma` is Euler's Gamma function. -/
noncomputable def zernInit (n m : ℕ) : ZernWork :=
  let kmax := (n - m) / 2
  { rnum := Function.update (fun _ => 0) kmax (Real.Gamma ((n : ℝ) - kmax + 1) * (-1) ^ kmax)
    d0 := Function.update (fun _ => 0) 0 1
    d1 := Function.update (fun _ => 0) kmax (Real.Gamma (((n + m) / 2 : ℕ) - (kmax : ℝ) + 1))
    d2 := Function.update (fun _ => 0) kmax (Real.Gamma (((n - m) / 2 : ℕ) - (kmax : ℝ) + 1)) }

/-- Lines 114-117: one pass of the loop `for k in range(1, kmax+1)`. -/
def zernStep (n m : ℕ) (w : ZernWork) (k : ℕ) : ZernWork :=
  let kmax := (n - m) / 2
  { rnum := Function.update w.rnum (kmax - k) (w.rnum (kmax - k + 1) * -((n : ℝ) - ((kmax - k : ℕ) : ℝ)))
    d0 := Function.update w.d0 k (w.d0 (k - 1) * k)
    d1 := Function.update w.d1 (kmax - k) (w.d1 (kmax - k + 1) * (((n + m) / 2 : ℕ) - ((kmax - k : ℕ) : ℝ)))
    d2 := Function.update w.d2 (kmax - k) (w.d2 (kmax - k + 1) * (((n - m) / 2 : ℕ) - ((kmax - k : ℕ) : ℝ))) }

/-- The work arrays after the loop, lines 107-118. -/
noncomputable def zernWork (n m : ℕ) : ZernWork :=
  (List.range' 1 ((n - m) / 2)).foldl (zernStep n m) (zernInit n m)

/-- The radial polynomial `rp` at one sample, lines 119-121. -/
noncomputable def zernRp (n m : ℕ) (r : ℝ) : ℝ :=
  (List.range ((n - m) / 2 + 1)).foldl
    (fun rp k => rp + (zernWork n m).rnum k / ((zernWork n m).d0 k * (zernWork n m).d1 k * (zernWork n m).d2 k) *
      rpow r (n - 2 * k)) 0

/-- The sample of the Noll mode `j` at the point `(x, y)`: `nc[i]*zpoly[i]`, lines 71-72, 102-123 and 126-131. -/
noncomputable def zernSample (j : ℤ) (prad x y : ℝ) : ℝ :=
  let r := Real.sqrt (x ^ 2 + y ^ 2) / prad
  let th := arctan2 y x
  let n := (nollN j).toNat
  let m := (nollM j).toNat
  let nc := if m ≠ 0 then Real.sqrt (2 * (n + 1)) else Real.sqrt (n + 1)
  nc * (zernRp n m r * sincos th m (j % 2).toNat)

open scoped Classical in
/-- `xyzern(x, y, prad, orders)`, `nollzernikes.py` lines 9-134; `orders` is a sequence of Python integers.  The cube is
the list of its slices.  An empty `orders` reaches `m.max()` (line 89), which raises `ValueError`. -/
noncomputable def xyzern (x y : Arr2 ℝ) (prad : ℝ) (orders : List ℤ) : Res (List (Arr2 ℝ)) :=
  if prad ≤ 0 then .error .typeError
  else if h : x.nr = y.nr ∧ x.nc = y.nc then
    if ∃ j ∈ orders, j ≤ 0 then .error .typeError
    else if orders = [] then .error .valueError
    else .ok (orders.map fun j => ⟨x.nr, x.nc, fun i k =>
      zernSample j prad (x.val i k) (y.val (i.cast h.1) (k.cast h.2))⟩)
  else .error .typeError

/-- The grid coordinates `(xx, yy)` of `gen_zernikes`/`fit_zernikes`: lines 177-179 and 237-242. -/
noncomputable def zernGrid (ny nx : ℕ) (xo yo : ℝ) : Arr2 ℝ × Arr2 ℝ :=
  (⟨ny, nx, fun _ k => ((k : ℕ) : ℝ) - ((nx / 2 : ℕ) : ℝ) - xo⟩, ⟨ny, nx, fun i _ => ((i : ℕ) : ℝ) - ((ny / 2 : ℕ) : ℝ) - yo⟩)

/-- The array size chosen when `nArray` keeps its default: lines 173-175. -/
noncomputable def defaultArray (xo yo nBeam : ℝ) : ℤ := 2 * ⌈(1 / 2 : ℝ) * (nBeam + 1 + max |xo| |yo|)⌉

/-- The accumulation `zernAbMap += zernCoefVec[ii]*zernCube[ii]`, lines 182-184. -/
noncomputable def zernAccum (n : ℕ) (coefs : List ℝ) (cube : List (Arr2 ℝ)) : Arr2 ℝ :=
  (List.zip coefs cube).foldl
    (fun acc p => Arr2.ofFn n n fun i k => (acc.px i k).getD 0 + p.1 * (p.2.px i k).getD 0) (Arr2.full n n 0)

open scoped Classical in
/-- `gen_zernikes(zernIndVec, zernCoefVec, x_offset, y_offset, nBeam, nArray)`, `nollzernikes.py` lines 137-186.
`nArray` not given is the sentinel `int(1e6)`. -/
noncomputable def genZernikes (inds : List ℤ) (coefs : List ℝ) (xo yo nBeam : ℝ) (nArray : ℤ := 1000000) :
    Res (Arr2 ℝ) := do
  if inds.length ≠ coefs.length then .error .valueError
  else if nBeam ≤ 0 then .error .valueError
  else if nArray ≤ 0 then .error .valueError
  else
    let nArr : ℤ := if nArray = 1000000 then defaultArray xo yo nBeam else nArray
    let g := zernGrid nArr.toNat nArr.toNat xo yo
    let cube ← xyzern g.1 g.2 (nBeam / 2) inds
    .ok (zernAccum nArr.toNat coefs cube)

open scoped Classical in
/-- `fit_zernikes(wfe, usablePixelMap, maxNollZern, nBeam, dxPupil, dyPupil)`, `nollzernikes.py` lines 189-269, with the
usable-pixel map already compared with zero.  `int(nx/2)` is `nx/2`.  `S` is `np.linalg.lstsq`. -/
noncomputable def fitZernikes (S : Solver) (wfe : Arr2 ℝ) (usable : Arr2 Bool) (maxNoll : ℤ) (nBeam dx dy : ℝ) :
    Res (Fin maxNoll.toNat → ℝ) :=
  if h : wfe.nr = usable.nr ∧ wfe.nc = usable.nc then
    if maxNoll ≤ 0 then .error .valueError
    else if nBeam ≤ 0 then .error .typeError
    else
      let orders : List ℤ := (List.range maxNoll.toNat).map fun k : ℕ => (k : ℤ) + 1
      let g := zernGrid wfe.nr wfe.nc dx dy
      do
        let cube ← xyzern g.1 g.2 (nBeam / 2) orders
        .ok (S.solve (ι := Selected fun i k => usable.val (i.cast h.1) (k.cast h.2))
          (fun q c => ((cube[(c : ℕ)]?.getD (Arr2.full 0 0 0)).px (q.1.1 : ℕ) (q.1.2 : ℕ)).getD 0)
          (fun q => wfe.val q.1.1 q.1.2))
  else .error .valueError

end Coralign
