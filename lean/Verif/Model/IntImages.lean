import Verif.Model.BadPixels
import Verif.Model.AmpThresh

/-!
# Images of integer type

numpy keeps the integer type of an image in elementwise products and powers and in the matrix product, all modulo the width of the
type; `np.sum` adds integers in 64 bits; a quotient is a float.
-/

namespace Coralign

/-- A numpy integer type, such as `uint16`. -/
structure IntKind where
  bits : ℕ
  signed : Bool

/-- Reduction of an integer to the type: two's complement for signed types. -/
def IntKind.wrap (k : IntKind) (z : ℤ) : ℤ := if k.signed then Int.bmod z (2 ^ k.bits) else z % 2 ^ k.bits

/-- The type in which `np.sum` adds up: `int64` or `uint64`. -/
def IntKind.wide (k : IntKind) : IntKind := ⟨64, k.signed⟩

/-- `rms`, `coralign/util/math.py` lines 7-11, of a non-empty integer array: `arrayIn**2` has the type of `arrayIn`; the mean is a
float; the root of a negative mean is NaN. -/
noncomputable def rmsI (k : IntKind) {ι : Type} [Fintype ι] (a : ι → ℤ) : Fl ℝ :=
  let mean : ℝ := (∑ i, (k.wrap (a i ^ 2) : ℝ)) / Fintype.card ι
  open scoped Classical in if mean < 0 then .nan else .num (Real.sqrt mean)

/-- `center_of_energy`, `coralign/util/center.py` lines 25-46, of an integer image; `none` as in `centerOfEnergy`. -/
noncomputable def centerOfEnergyI (k : IntKind) (a : Arr2 ℤ) : Option (ℝ × ℝ) :=
  let s : Finset (Fin a.nr × Fin a.nc) := Finset.univ.filter fun p => a.val p.1 p.2 ≠ 0
  let total : ℝ := (k.wide.wrap (∑ p ∈ s, a.val p.1 p.2) : ℤ)
  open scoped Classical in
  if s = ∅ then some (0, 0)
  else if total = 0 then none
  else
    let avgRow := ∑ p ∈ s, ((p.1 : ℕ) : ℝ) * ((a.val p.1 p.2 : ℝ) / total)
    let avgCol := ∑ p ∈ s, ((p.2 : ℕ) : ℝ) * ((a.val p.1 p.2 : ℝ) / total)
    some (avgCol, avgRow)

open scoped Classical in
/-- `quadrant_energy_balance`, `coralign/util/quad.py` lines 38-83, of an integer image (`quadrantEnergyBalance` of `Model/Quad`): only
the sum of line 44 is an integer. -/
noncomputable def quadrantEnergyBalanceI (k : IntKind) (a : Arr2 ℤ) (xOrigin yOrigin : ℤ) (radius : ℝ) : Res (Option (ℝ × ℝ)) :=
  if radius < 0 then .error .typeError
  else if xOrigin < 0 then .error .typeError
  else if yOrigin < 0 then .error .typeError
  else if ¬ xOrigin < a.nr then .error .valueError
  else if ¬ yOrigin < a.nc then .error .valueError
  else
    let total : ℝ := (k.wide.wrap (∑ i : Fin a.nr, ∑ j : Fin a.nc, a.val i j) : ℤ)
    if total = 0 then .ok none
    else
      let counts : (ℝ → ℝ → Prop) → ℝ := fun q => ∑ i : Fin a.nr, ∑ j : Fin a.nc,
        let x : ℝ := (((j : ℕ) : ℤ) - xOrigin : ℤ)
        let y : ℝ := (((i : ℕ) : ℤ) - yOrigin : ℤ)
        sel (q x y ∧ (cart2pol x y).1 ≤ radius) ((a.val i j : ℝ) / total)
      let q1 := counts fun x y => x ≥ 0 ∧ y ≥ 0
      let q2 := counts fun x y => x ≤ 0 ∧ y ≥ 0
      let q3 := counts fun x y => x ≥ 0 ∧ y ≤ 0
      let q4 := counts fun x y => x ≤ 0 ∧ y ≤ 0
      .ok (some ((q1 + q3) - (q2 + q4), (q1 + q2) - (q3 + q4)))

open scoped Classical in
/-- Lines 176-188 of `coralign/psffit/psffit.py` for images of one integer type: `guess` is the source as shifted by
`ndimage.shift`, which keeps the type.  The matrix products of lines 187-188 are integers of that type. -/
noncomputable def psfAmplitudeI (k : IntKind) (guess tgt : Arr2 ℤ) (thresh : ℝ) : Fl ℝ :=
  let sel := fun (i : Fin tgt.nr) (j : Fin tgt.nc) => thresh * amax (tgt.map fun v : ℤ => (v : ℝ)) < (tgt.val i j : ℝ)
  let gt : ℤ := k.wrap (∑ i : Fin tgt.nr, ∑ j : Fin tgt.nc, if sel i j then guess.zext (i : ℕ) (j : ℕ) * tgt.val i j else 0)
  let gg : ℤ := k.wrap (∑ i : Fin tgt.nr, ∑ j : Fin tgt.nc,
    if sel i j then guess.zext (i : ℕ) (j : ℕ) * guess.zext (i : ℕ) (j : ℕ) else 0)
  (Fl.num (gt : ℝ)).quot (.num (gg : ℝ))

/-- `ampthresh(ampMeas**2)`, `coralign/pupil/util.py` lines 89 and 106, for an integer image. -/
noncomputable def squareMaskI (k : IntKind) (amp : Arr2 ℤ) : Res (Arr2 Bool) :=
  ampthresh (amp.map fun v : ℤ => ((k.wrap (v ^ 2) : ℤ) : ℝ)) 21

end Coralign
