import Verif.Base.Arr2
import Verif.Base.Round

/-!
# Model of `coralign/util/pad_crop.py`
-/

namespace Coralign


variable {α : Type}
variable {K : Type*} [Field K] [LinearOrder K] [IsStrictOrderedRing K] [FloorRing K]

/-- `check.positive_scalar_integer(v, name, TypeError)` on an `int` (coralign/util/check.py:237-259).
The full validator over arbitrary Python values is in `Verif/Model/Check.lean`. -/
def checkPosInt (v : Int) : Res Unit := if v ≤ 0 then .error .typeError else .ok ()

/-- `pad_crop(arr0, outsize, extrapval)` - coralign/util/pad_crop.py:10-70.

* `arr0` is already a 2-D array and `ev` is `extrapval` already converted to the element type of `arr0`
  (lines 55-56: `np.array(extrapval*np.ones(outsize), dtype=arr0.dtype)`).
* `outsize` is an arbitrary iterable of Python ints (lines 47-53). -/
def padCrop (arr0 : Arr2 α) (outsize : List Int) (ev : α) : Res (Arr2 α) :=
  match outsize with
  | [h, w] => do
    checkPosInt h                                               -- line 52
    checkPosInt w                                               -- line 53
    let sh00 : Int := arr0.nr
    let sh01 : Int := arr0.nc
    let out := Arr2.full h.toNat w.toNat ev                     -- lines 55-56
    let xneg := min (sh01 / 2) (w / 2)                          -- line 58
    let xpos := min (sh01 - sh01 / 2) (w - w / 2)               -- line 59
    let yneg := min (sh00 / 2) (h / 2)                          -- line 60
    let ypos := min (sh00 - sh00 / 2) (h - h / 2)               -- line 61
    -- lines 63-68: out[slice1] = arr0[slice0]
    out.assign (h / 2 - yneg) (h / 2 + ypos) (w / 2 - xneg) (w / 2 + xpos)
      (arr0.slice (sh00 / 2 - yneg) (sh00 / 2 + ypos) (sh01 / 2 - xneg) (sh01 / 2 + xpos))
  | _ => .error .typeError                                      -- lines 47-51

/-- `np.ceil(n/2.)` for an integer `n` (used at coralign/util/pad_crop.py:123-137). -/
def ceilHalf (n : Int) : Int := -((-n) / 2)

/-- One axis of the padding computation of `offcenter_crop`
(coralign/util/pad_crop.py:121-128 for x and 131-138 for y; the two blocks are the same text up to renaming).
`n` is `pixel_count_across`, `c` the rounded centre, `cnt` the input's pixel count on the axis. -/
def offcenterPad (n c cnt : Int) : Int :=
  let padPre : Int := if ceilHalf (-n) + c < 0 then (ceilHalf (-n) + c).natAbs else 0
  let padPost : Int := if ceilHalf n + c > cnt - 1 then ceilHalf n + c - cnt else 0
  max padPre padPost

/-- `offcenter_crop(arrayIn, pixel_count_across, output_center_y, output_center_x)` -
coralign/util/pad_crop.py:73-159.  `zero` is the array's zero (the default `extrapval` of the inner
`pad_crop` call).  Centres are finite numbers of the exact field `K`. -/
def offcenterCrop (arrayIn : Arr2 α) (zero : α) (n : Int) (cy cx : K) : Res (Arr2 α) := do
  checkPosInt n                                                 -- lines 111-112
  let yc := npRound cy                                          -- line 116
  let xc := npRound cx                                          -- line 117
  let cntY : Int := arrayIn.nr                                  -- line 118
  let cntX : Int := arrayIn.nc
  let xPad := offcenterPad n xc cntX                            -- lines 120-128
  let yPad := offcenterPad n yc cntY                            -- lines 130-138
  let padded ← padCrop arrayIn [cntY + 2 * yPad, cntX + 2 * xPad] zero  -- lines 140-141
  let xc := xc + xPad                                           -- line 143
  let yc := yc + yPad                                           -- line 144
  let buffer : Int := if n % 2 = 1 then 1 else 0                -- lines 146-150
  .ok (padded.slice (yc - n / 2) (yc + n / 2 + buffer) (xc - n / 2) (xc + n / 2 + buffer))  -- lines 152-159

end Coralign
