import Verif.Model.Zernike
import Mathlib.Analysis.SpecialFunctions.Trigonometric.Basic

/-!
# Model of `coralign/util/dmshapes.py` and of the height/voltage conversions of `coralign/util/dmhtoph.py`
-/

namespace Coralign

/-- One entry of `np.arange(nact)-(nact-1.)/2.`, `dmshapes.py` lines 79-80, 131-132 and 250-251. -/
noncomputable def dmAxis (nact : ℕ) (k : ℕ) : ℝ := (k : ℝ) - ((nact : ℝ) - 1) / 2

open scoped Classical in
/-- `np.sinc(x)`: `sin(pi x)/(pi x)`, and 1 at zero. -/
noncomputable def npSinc (x : ℝ) : ℝ := if x = 0 then 1 else Real.sin (Real.pi * x) / (Real.pi * x)

/-- One actuator of `probe`, `dmshapes.py` lines 78-97.  `x0`, `y0` are `xx0`, `yy0`. -/
noncomputable def probeVal (dact clock height ximin ximax etamin etamax phase x0 y0 : ℝ) : ℝ :=
  let rclock := clock * Real.pi / 180
  let xx := x0 * Real.cos rclock - y0 * Real.sin rclock
  let yy := x0 * Real.sin rclock + y0 * Real.cos rclock
  let wx := dact / (ximax - ximin)
  let wy := dact / (etamax - etamin)
  let fx := (ximin + ximax) / 2
  let fy := (etamin + etamax) / 2
  let ddm := height * npSinc (xx / wx) * npSinc (yy / wy)
  let ddm := ddm / (wx * wy)
  ddm * (2 * Real.sin (2 * Real.pi * (xx * fx + yy * fy) / dact + phase * Real.pi / 180))

open scoped Classical in
/-- `probe(nact, dact, xcenter, ycenter, clock, height, ximin, ximax, etamin, etamax, phase)`, `dmshapes.py` lines 10-97.
Arguments are assumed to be of the right numeric type, so the `check` calls reduce to their sign tests. -/
noncomputable def probe (nact : ℤ) (dact xcenter ycenter clock height ximin ximax etamin etamax phase : ℝ) :
    Res (Arr2 ℝ) :=
  if nact ≤ 0 ∨ dact ≤ 0 ∨ height ≤ 0 then .error .typeError
  else if ximin ≥ ximax then .error .valueError
  else if etamin ≥ etamax then .error .valueError
  else .ok (Arr2.ofFn nact.toNat nact.toNat fun i j =>
    probeVal dact clock height ximin ximax etamin etamax phase
      (dmAxis nact.toNat j - xcenter) (dmAxis nact.toNat i - ycenter))

open scoped Classical in
/-- `sine(nact, dact, amplitude, phase, freqx, freqy)`, `dmshapes.py` lines 100-137. -/
noncomputable def sine (nact : ℤ) (dact amplitude phase freqx freqy : ℝ) : Res (Arr2 ℝ) :=
  if nact ≤ 0 ∨ dact ≤ 0 ∨ amplitude ≤ 0 then .error .typeError
  else .ok (Arr2.ofFn nact.toNat nact.toNat fun i j =>
    let sphase := 2 * Real.pi * (dmAxis nact.toNat j * freqx + dmAxis nact.toNat i * freqy) / dact
    amplitude * Real.sin (sphase + phase * Real.pi / 180))

/-- The positions selected by the slice `start::step` on an axis of length `n` (`0 ≤ start`, `0 < step`). -/
def strided (start step n : ℕ) : List ℕ :=
  (List.range ((n - start + (step - 1)) / step)).map fun k => start + k * step

/-- `grid(nact, xspace, yspace, xoffset, yoffset, pokesize)`, `dmshapes.py` lines 140-217. -/
def grid {K : Type} [AddCommMonoid K] (nact xspace yspace xoffset yoffset : ℤ) (pokesize : K) : Res (Arr2 K) :=
  if nact ≤ 0 ∨ xspace ≤ 0 ∨ yspace ≤ 0 ∨ xoffset < 0 ∨ yoffset < 0 then .error .typeError
  else if xoffset ≥ xspace then .error .valueError
  else if yoffset ≥ yspace then .error .valueError
  else if xspace > nact then .error .valueError
  else if yspace > nact then .error .valueError
  else .ok (Arr2.ofFn nact.toNat nact.toNat fun i j =>
    if i ∈ strided yoffset.toNat yspace.toNat nact.toNat ∧ j ∈ strided xoffset.toNat xspace.toNat nact.toNat
      then 0 + pokesize else 0)

open scoped Classical in
/-- `zernike(nact, dact, zernsize, order)`, `dmshapes.py` lines 220-253. -/
noncomputable def dmZernike (nact : ℤ) (dact zernsize : ℝ) (order : ℤ) : Res (Arr2 ℝ) := do
  if nact ≤ 0 ∨ dact ≤ 0 ∨ order ≤ 0 then .error .typeError
  else
    let xx := Arr2.ofFn nact.toNat nact.toNat fun _ j => dmAxis nact.toNat j
    let yy := Arr2.ofFn nact.toNat nact.toNat fun i _ => dmAxis nact.toNat i
    let cube ← xyzern xx yy (dact / 2) [order]
    match cube with
    | [] => .error .indexError
    | s :: _ => .ok (s.map fun v => zernsize * v)

/-- One entry of `dmh*lam/(2.0*np.pi)/gainmap`, `dmhtoph.py` line 199.  Numpy's division by zero gives infinities or NaN;
the real division here is meaningful only where the gain is non-zero.  `Model/ZeroGain` has the other case. -/
noncomputable def voltsOf (g h lam : ℝ) : ℝ := h * lam / (2 * Real.pi) / g

/-- One entry of `volts/lam*(2.0*np.pi)*gainmap`, `dmhtoph.py` line 230. -/
noncomputable def dmhOf (g v lam : ℝ) : ℝ := v / lam * (2 * Real.pi) * g

open scoped Classical in
/-- `dmh_to_volts(gainmap, dmh, lam)`, `dmhtoph.py` lines 171-199. -/
noncomputable def dmhToVolts (gainmap dmh : Arr2 ℝ) (lam : ℝ) : Res (Arr2 ℝ) :=
  if lam ≤ 0 then .error .typeError
  else if h : dmh.nr = gainmap.nr ∧ dmh.nc = gainmap.nc then
    .ok ⟨dmh.nr, dmh.nc, fun i j => voltsOf (gainmap.val (i.cast h.1) (j.cast h.2)) (dmh.val i j) lam⟩
  else .error .typeError

open scoped Classical in
/-- `volts_to_dmh(gainmap, volts, lam)`, `dmhtoph.py` lines 202-230. -/
noncomputable def voltsToDmh (gainmap volts : Arr2 ℝ) (lam : ℝ) : Res (Arr2 ℝ) :=
  if lam ≤ 0 then .error .typeError
  else if h : volts.nr = gainmap.nr ∧ volts.nc = gainmap.nc then
    .ok ⟨volts.nr, volts.nc, fun i j => dmhOf (gainmap.val (i.cast h.1) (j.cast h.2)) (volts.val i j) lam⟩
  else .error .typeError

end Coralign
