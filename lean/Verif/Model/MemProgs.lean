import Verif.Model.Memory

/-!
# Array programs of the package

Generated by `tools/memgen.py` from the source; one program per function of `/repo/coralign`
(`util/debug.py`, which only plots, is left out).  Every line cites the source line it comes from.

Translation rules:

* a variable is a number; parameters come first, in the order of the `def`;
* arithmetic, comparisons, and the external routines listed as `NEW` in the tool (they allocate their
  result or return no array) give a new array (`alloc`); `.shape`, `.size`, … too;
* a plain name, an index or slice, `.T`, `.real`, `np.real`, `np.asarray`, `.ravel()`, `.reshape()`,
  `np.fliplr`, `np.array(…, copy=False)`, a tuple, a conditional expression, and any external routine not listed as `NEW` *may share*
  memory with every array that occurs in it (`bind`);
* the in-place routines listed as `INPLACE` in the tool and `out=` arguments do not occur (the tool would stop);
* an assignment to an index or slice, an augmented assignment (`+=`), and `.append` write in place (`write`);
  after a variable has been validated as a scalar, string or boolean it is no array (`alloc`);
* a call of a package function is a `call`; each argument is the list of variables it may share memory with,
  the empty list for a new object (numbers, strings, results of arithmetic, defaults);
* a program may stop with an exception anywhere, so a guard `if …: raise …` leaves no trace;
* `if`/`else` is `branch` with the condition unknown, `for`/`while` is `loop` with an unknown number of rounds,
  `break` and `continue` are `exit`, `raise` is `raises`; a `try` is its body, since every handler in the
  package only raises and a program may stop with an exception anywhere;
* the module constants that are arrays (`SELEM_DEFAULT`) are one more argument of the functions that use them.
-/

namespace Coralign.Memory

/-- `gen_coords`, `coralign/buildmodel/darkhole.py` lines 8-57. Variables: 0 `arrayShape`, 1 `xOffset`, 2 `yOffset`, 3 `nx`, 4 `x`, 5 `ny`, 6 `y`, 7 `X`, 8 `Y`, 9 `R`, 10 `THETA`. -/
def p0_gen_coords : Fn where
  name := "buildmodel.darkhole.gen_coords"
  params := 3
  body :=
    .call [] 58 [[0], [], []] <|  -- 33: oneD_array
    .call [] 64 [[0], [], []] <|  -- 36: positive_scalar_integer
    .call [] 64 [[0], [], []] <|  -- 37: positive_scalar_integer
    .call [] 62 [[1], [], []] <|  -- 38: real_scalar
    .alloc 1 <|  -- 38: xOffset is a scalar, string or boolean
    .call [] 62 [[2], [], []] <|  -- 39: real_scalar
    .alloc 2 <|  -- 39: yOffset is a scalar, string or boolean
    .bind 3 [0] <|  -- 41: nx = arrayShape[1]
    .branch (  -- 42: if nx % 2 == 0:
      .alloc 4 <|  -- 43: x = np.linspace(-nx / 2, nx / 2 - 1, nx) - xOffset
      .done)
      (
      .alloc 4 <|  -- 45: x = np.linspace(-(nx - 1) / 2, (nx - 1) / 2, nx) - xOffset
      .done) <|
    .bind 5 [0] <|  -- 47: ny = arrayShape[0]
    .branch (  -- 48: if ny % 2 == 0:
      .alloc 6 <|  -- 49: y = np.linspace(-ny / 2, ny / 2 - 1, ny) - yOffset
      .done)
      (
      .alloc 6 <|  -- 51: y = np.linspace(-(ny - 1) / 2, (ny - 1) / 2, ny) - yOffset
      .done) <|
    .alloc 7 <|  -- 53: X, Y = np.meshgrid(x, y)
    .alloc 8 <|  -- 53: X, Y = np.meshgrid(x, y)
    .alloc 9 <|  -- 54: R = np.sqrt(X * X + Y * Y)
    .alloc 10 <|  -- 55: THETA = np.arctan2(Y, X)
    .ret [7, 8, 9, 10]  -- 57: return (X, Y, R, THETA)

/-- `gen_rectangle`, `coralign/buildmodel/darkhole.py` lines 60-96. Variables: 0 `arrayShape`, 1 `xOffset`, 2 `yOffset`, 3 `width`, 4 `height`, 5 `X`, 6 `Y`, 7 `_`, 8 `rectangle`. -/
def p1_gen_rectangle : Fn where
  name := "buildmodel.darkhole.gen_rectangle"
  params := 5
  body :=
    .call [] 58 [[0], [], []] <|  -- 83: oneD_array
    .call [] 64 [[0], [], []] <|  -- 86: positive_scalar_integer
    .call [] 64 [[0], [], []] <|  -- 87: positive_scalar_integer
    .call [] 62 [[1], [], []] <|  -- 88: real_scalar
    .alloc 1 <|  -- 88: xOffset is a scalar, string or boolean
    .call [] 62 [[2], [], []] <|  -- 89: real_scalar
    .alloc 2 <|  -- 89: yOffset is a scalar, string or boolean
    .call [] 56 [[3], [], []] <|  -- 90: real_positive_scalar
    .alloc 3 <|  -- 90: width is a scalar, string or boolean
    .call [] 56 [[4], [], []] <|  -- 91: real_positive_scalar
    .alloc 4 <|  -- 91: height is a scalar, string or boolean
    .call [5, 6, 7, 7] 0 [[0], [1], [2]] <|  -- 93: gen_coords
    .alloc 8 <|  -- 94: rectangle = (np.abs(X) <= width / 2) & (np.abs(Y) <= height 
    .ret [8]  -- 96: return rectangle

/-- `gen_annulus`, `coralign/buildmodel/darkhole.py` lines 99-137. Variables: 0 `arrayShape`, 1 `xOffset`, 2 `yOffset`, 3 `radiusInner`, 4 `radiusOuter`, 5 `_`, 6 `R`, 7 `annulus`. -/
def p2_gen_annulus : Fn where
  name := "buildmodel.darkhole.gen_annulus"
  params := 5
  body :=
    .call [] 58 [[0], [], []] <|  -- 122: oneD_array
    .call [] 64 [[0], [], []] <|  -- 125: positive_scalar_integer
    .call [] 64 [[0], [], []] <|  -- 126: positive_scalar_integer
    .call [] 62 [[1], [], []] <|  -- 127: real_scalar
    .alloc 1 <|  -- 127: xOffset is a scalar, string or boolean
    .call [] 62 [[2], [], []] <|  -- 128: real_scalar
    .alloc 2 <|  -- 128: yOffset is a scalar, string or boolean
    .call [] 63 [[3], [], []] <|  -- 129: real_nonnegative_scalar
    .alloc 3 <|  -- 129: radiusInner is a scalar, string or boolean
    .call [] 63 [[4], [], []] <|  -- 130: real_nonnegative_scalar
    .alloc 4 <|  -- 130: radiusOuter is a scalar, string or boolean
    .call [5, 5, 6, 5] 0 [[0], [1], [2]] <|  -- 134: gen_coords
    .alloc 7 <|  -- 135: annulus = (R >= radiusInner) & (R <= radiusOuter)
    .ret [7]  -- 137: return annulus

/-- `gen_annular_sector`, `coralign/buildmodel/darkhole.py` lines 140-191. Variables: 0 `arrayShape`, 1 `xOffset`, 2 `yOffset`, 3 `radiusInner`, 4 `radiusOuter`, 5 `openingAngle`, 6 `clocking`, 7 `_`, 8 `R`, 9 `THETA`, 10 `THETAROT`, 11 `sector`. -/
def p3_gen_annular_sector : Fn where
  name := "buildmodel.darkhole.gen_annular_sector"
  params := 7
  body :=
    .call [] 58 [[0], [], []] <|  -- 169: oneD_array
    .call [] 64 [[0], [], []] <|  -- 172: positive_scalar_integer
    .call [] 64 [[0], [], []] <|  -- 173: positive_scalar_integer
    .call [] 62 [[1], [], []] <|  -- 174: real_scalar
    .alloc 1 <|  -- 174: xOffset is a scalar, string or boolean
    .call [] 62 [[2], [], []] <|  -- 175: real_scalar
    .alloc 2 <|  -- 175: yOffset is a scalar, string or boolean
    .call [] 63 [[3], [], []] <|  -- 176: real_nonnegative_scalar
    .alloc 3 <|  -- 176: radiusInner is a scalar, string or boolean
    .call [] 63 [[4], [], []] <|  -- 177: real_nonnegative_scalar
    .alloc 4 <|  -- 177: radiusOuter is a scalar, string or boolean
    .call [] 56 [[5], [], []] <|  -- 180: real_positive_scalar
    .alloc 5 <|  -- 180: openingAngle is a scalar, string or boolean
    .call [] 62 [[6], [], []] <|  -- 181: real_scalar
    .alloc 6 <|  -- 181: clocking is a scalar, string or boolean
    .call [7, 7, 8, 9] 0 [[0], [1], [2]] <|  -- 183: gen_coords
    .alloc 10 <|  -- 184: THETAROT = np.angle(np.exp(1j * (THETA - np.radians(clocking
    .alloc 11 <|  -- 185: sector = (R >= radiusInner) & (R <= radiusOuter) & (THETAROT
    .ret [11]  -- 191: return sector

/-- `gen_bowtie`, `coralign/buildmodel/darkhole.py` lines 194-243. Variables: 0 `arrayShape`, 1 `xOffset`, 2 `yOffset`, 3 `radiusInner`, 4 `radiusOuter`, 5 `openingAngle`, 6 `clocking`, 9 `bowtie`. -/
def p4_gen_bowtie : Fn where
  name := "buildmodel.darkhole.gen_bowtie"
  params := 7
  body :=
    .call [] 58 [[0], [], []] <|  -- 223: oneD_array
    .call [] 64 [[0], [], []] <|  -- 226: positive_scalar_integer
    .call [] 64 [[0], [], []] <|  -- 227: positive_scalar_integer
    .call [] 62 [[1], [], []] <|  -- 228: real_scalar
    .alloc 1 <|  -- 228: xOffset is a scalar, string or boolean
    .call [] 62 [[2], [], []] <|  -- 229: real_scalar
    .alloc 2 <|  -- 229: yOffset is a scalar, string or boolean
    .call [] 63 [[3], [], []] <|  -- 230: real_nonnegative_scalar
    .alloc 3 <|  -- 230: radiusInner is a scalar, string or boolean
    .call [] 63 [[4], [], []] <|  -- 231: real_nonnegative_scalar
    .alloc 4 <|  -- 231: radiusOuter is a scalar, string or boolean
    .call [] 56 [[5], [], []] <|  -- 234: real_positive_scalar
    .alloc 5 <|  -- 234: openingAngle is a scalar, string or boolean
    .call [] 62 [[6], [], []] <|  -- 235: real_scalar
    .alloc 6 <|  -- 235: clocking is a scalar, string or boolean
    .call [7] 3 [[0], [1], [2], [3], [4], [5], [6]] <|  -- 237: gen_annular_sector
    .call [8] 3 [[0], [1], [2], [3], [4], [5], []] <|  -- 239: gen_annular_sector
    .alloc 9 <|  -- 237: bowtie = gen_annular_sector(arrayShape, xOffset, yOffset, ra
    .ret [9]  -- 243: return bowtie

/-- `gen_dark_hole_from_yaml`, `coralign/buildmodel/darkhole.py` lines 246-323. Variables: 0 `fnSpecs`, 1 `allowedShapes`, 2 `inputs`, 3 `nRows`, 4 `nCols`, 5 `mask`, 6 `_`, 7 `nestedDict`, 8 `xOffset`, 9 `yOffset`, 10 `shapeName`. -/
def p5_gen_dark_hole_from_yaml : Fn where
  name := "buildmodel.darkhole.gen_dark_hole_from_yaml"
  params := 1
  body :=
    .alloc 1 <|  -- 262: allowedShapes = ('rectangle', 'annulus', 'annular_sector', '
    .call [2] 92 [[0], []] <|  -- 264: loadyaml
    .bind 3 [2] <|  -- 265: nRows = inputs['nRows']
    .bind 4 [2] <|  -- 266: nCols = inputs['nCols']
    .call [] 64 [[3], [], []] <|  -- 267: positive_scalar_integer
    .alloc 3 <|  -- 267: nRows is a scalar, string or boolean
    .call [] 64 [[4], [], []] <|  -- 268: positive_scalar_integer
    .alloc 4 <|  -- 268: nCols is a scalar, string or boolean
    .alloc 5 <|  -- 271: mask = np.zeros((nRows, nCols))
    .loop (  -- 272: for _, nestedDict in inputs['shapes'].items():
      .bind 6 [2] <|  -- 272: for _, nestedDict in inputs['shapes'].items():
      .bind 7 [2] <|  -- 272: for _, nestedDict in inputs['shapes'].items():
      .bind 8 [7] <|  -- 274: xOffset = nestedDict['xOffset']
      .bind 9 [7] <|  -- 275: yOffset = nestedDict['yOffset']
      .bind 10 [7] <|  -- 277: shapeName = nestedDict['shape']
      .branch (  -- 282: if shapeName == 'rectangle':
        .call [11] 1 [[3, 4], [8], [9], [7], [7]] <|  -- 284: gen_rectangle
        .alloc 5 <|  -- 283: mask = np.logical_or(gen_rectangle((nRows, nCols), xOffset, 
        .done)
        (
        .branch (  -- 291: if shapeName == 'annulus':
          .call [12] 2 [[3, 4], [8], [9], [7], [7]] <|  -- 293: gen_annulus
          .alloc 5 <|  -- 292: mask = np.logical_or(gen_annulus((nRows, nCols), xOffset, yO
          .done)
          (
          .branch (  -- 300: if shapeName == 'annular_sector':
            .call [13] 3 [[3, 4], [8], [9], [7], [7], [7], [7]] <|  -- 302: gen_annular_sector
            .alloc 5 <|  -- 301: mask = np.logical_or(gen_annular_sector((nRows, nCols), xOff
            .done)
            (
            .branch (  -- 311: if shapeName == 'bowtie':
              .call [14] 4 [[3, 4], [8], [9], [7], [7], [7], [7]] <|  -- 313: gen_bowtie
              .alloc 5 <|  -- 312: mask = np.logical_or(gen_bowtie((nRows, nCols), xOffset, yOf
              .done)
              (
              .done) <|
            .done) <|
          .done) <|
        .done) <|
      .done) <|
    .ret [5]  -- 323: return mask

/-- `flatten`, `coralign/conjugate/conjugate.py` lines 24-282. Variables: 0 `cmdDM1`, 1 `cmdDM2`, 2 `cmdFCM`, 3 `flagUseDMs`, 4 `flagUseFCM`, 5 `flagHighZern`, 6 `lam`, 7 `amp`, 8 `ph`, 9 `diamPupil`, 10 `xOffset`, 11 `yOffset`, 12 `dm_fn`, 13 `fcm_fn`, 14 `flatten_params_fn`, 15 `data_path`, 16 `dmConfig`, 17 `dm`, 18 `dm1r`, 19 `dm2r`, 20 `dpad`, 21 `nxres1`, 22 `nyres1`, 23 `wfeShape1`, 24 `nxres2`, 25 `nyres2`, 26 `wfeShape2`, 27 `nxresMax`, 28 `nyresMax`, 29 `wfeShapeMax`, 30 `fcmConfig`, 31 `focusPerStroke`, 32 `strokePerStep`, 33 `flattenDict`, 34 `maxNollZern`, 35 `nIterSmooth`, 36 `nBin`, 37 `arrayExtFac`, 38 `wfeIn`, 39 `ampIn`, 40 `usablePixelMap`, 41 `zernCoefVec`, 42 `wfeZ1to3`, 43 `wfeZ4`, 44 `wfeZ4or5toZmax`, 45 `wfeAboveZmax`, 46 `rmsAboveZmax`, 47 `rmsZ4or5toZmax`, 48 `alphaBest`, 49 `DM1Phase`, 50 `DM2Phase`, 51 `nArraySmall`, 52 `usablePixelMapCrop`, 53 `DM1Phase0`, 54 `minPhase1`, 55 `maxPhase1`, 56 `DM2Phase0`, 57 `minPhase2`, 58 `maxPhase2`, 59 `surfDesDM1`, 60 `surfDesDM2`, 61 `windowWidth1`, 62 `_`, 63 `windowWidth2`, 64 `hdm1`, 65 `hdm2`, 66 `dm1tiefn`, 67 `tiemap1`, 68 `nact1`, 69 `isdeadmap1`, 70 `h1to2`, 71 `dm2tiefn`, 72 `tiemap2`, 73 `nact2`, 74 `isdeadmap2`, 75 `h2to1`, 76 `dm1gainfn`, 77 `dm1gainmap`, 78 `deltaCmdDM1`, 79 `dm2gainfn`, 80 `dm2gainmap`, 81 `deltaCmdDM2`, 82 `deltaCmdFCM`. -/
def p6_flatten : Fn where
  name := "conjugate.conjugate.flatten"
  params := 16
  body :=
    .call [] 60 [[0], [], []] <|  -- 98: twoD_square_array
    .call [] 57 [[0], [], []] <|  -- 99: real_array
    .call [] 60 [[1], [], []] <|  -- 100: twoD_square_array
    .call [] 57 [[1], [], []] <|  -- 101: real_array
    .call [] 66 [[2], [], []] <|  -- 102: scalar_integer
    .alloc 2 <|  -- 102: cmdFCM is a scalar, string or boolean
    .call [] 68 [[3], [], []] <|  -- 103: boolean
    .alloc 3 <|  -- 103: flagUseDMs is a scalar, string or boolean
    .call [] 68 [[4], [], []] <|  -- 104: boolean
    .alloc 4 <|  -- 104: flagUseFCM is a scalar, string or boolean
    .call [] 68 [[5], [], []] <|  -- 105: boolean
    .alloc 5 <|  -- 105: flagHighZern is a scalar, string or boolean
    .call [] 56 [[6], [], []] <|  -- 106: real_positive_scalar
    .alloc 6 <|  -- 106: lam is a scalar, string or boolean
    .call [] 59 [[7], [], []] <|  -- 107: twoD_array
    .call [] 57 [[7], [], []] <|  -- 108: real_array
    .call [] 59 [[8], [], []] <|  -- 109: twoD_array
    .call [] 57 [[8], [], []] <|  -- 110: real_array
    .call [] 56 [[9], [], []] <|  -- 111: real_positive_scalar
    .alloc 9 <|  -- 111: diamPupil is a scalar, string or boolean
    .call [] 62 [[10], [], []] <|  -- 112: real_scalar
    .alloc 10 <|  -- 112: xOffset is a scalar, string or boolean
    .call [] 62 [[11], [], []] <|  -- 113: real_scalar
    .alloc 11 <|  -- 113: yOffset is a scalar, string or boolean
    .call [] 67 [[12], [], []] <|  -- 114: string
    .alloc 12 <|  -- 114: dm_fn is a scalar, string or boolean
    .call [] 67 [[13], [], []] <|  -- 115: string
    .alloc 13 <|  -- 115: fcm_fn is a scalar, string or boolean
    .call [] 67 [[14], [], []] <|  -- 116: string
    .alloc 14 <|  -- 116: flatten_params_fn is a scalar, string or boolean
    .call [] 67 [[15], [], []] <|  -- 117: string
    .alloc 15 <|  -- 117: data_path is a scalar, string or boolean
    .call [16] 92 [[12], []] <|  -- 120: loadyaml
    .bind 17 [16] <|  -- 121: dm = dmConfig['dms']
    .bind 18 [17] <|  -- 122: dm1r = dm['DM1']['registration']
    .bind 19 [17] <|  -- 123: dm2r = dm['DM2']['registration']
    .alloc 20 <|  -- 126: dpad = 2
    .alloc 21 <|  -- 127: nxres1 = round(dpad * dm1r['nact'] * dm1r['ppact_cx'])
    .alloc 22 <|  -- 128: nyres1 = round(dpad * dm1r['nact'] * dm1r['ppact_cy'])
    .bind 23 [21, 22] <|  -- 129: wfeShape1 = (nyres1, nxres1)
    .alloc 24 <|  -- 130: nxres2 = round(dpad * dm2r['nact'] * dm2r['ppact_cx'])
    .alloc 25 <|  -- 131: nyres2 = round(dpad * dm2r['nact'] * dm2r['ppact_cy'])
    .bind 26 [24, 25] <|  -- 132: wfeShape2 = (nyres2, nxres2)
    .alloc 27 <|  -- 133: nxresMax = int(np.max((nxres1, nxres2)))
    .alloc 28 <|  -- 134: nyresMax = int(np.max((nyres1, nyres2)))
    .bind 29 [27, 28] <|  -- 135: wfeShapeMax = (nyresMax, nxresMax)
    .call [30] 92 [[13], []] <|  -- 138: loadyaml
    .bind 31 [30] <|  -- 139: focusPerStroke = fcmConfig['focusPerStroke']
    .bind 32 [30] <|  -- 140: strokePerStep = fcmConfig['strokePerStep']
    .call [] 62 [[31], [], []] <|  -- 141: real_scalar
    .alloc 31 <|  -- 141: focusPerStroke is a scalar, string or boolean
    .call [] 62 [[32], [], []] <|  -- 142: real_scalar
    .alloc 32 <|  -- 142: strokePerStep is a scalar, string or boolean
    .call [33] 92 [[14], []] <|  -- 147: loadyaml
    .bind 34 [33] <|  -- 148: maxNollZern = flattenDict['maxNollZern']
    .bind 35 [33] <|  -- 149: nIterSmooth = flattenDict['nIterSmooth']
    .bind 36 [33] <|  -- 150: nBin = flattenDict['nBin']
    .bind 37 [33] <|  -- 151: arrayExtFac = flattenDict['arrayExtFac']
    .call [] 64 [[34], [], []] <|  -- 152: positive_scalar_integer
    .alloc 34 <|  -- 152: maxNollZern is a scalar, string or boolean
    .call [] 64 [[35], [], []] <|  -- 153: positive_scalar_integer
    .alloc 35 <|  -- 153: nIterSmooth is a scalar, string or boolean
    .call [] 64 [[36], [], []] <|  -- 154: positive_scalar_integer
    .alloc 36 <|  -- 154: nBin is a scalar, string or boolean
    .call [] 56 [[37], [], []] <|  -- 155: real_positive_scalar
    .alloc 37 <|  -- 155: arrayExtFac is a scalar, string or boolean
    .call [38] 104 [[8], [29], []] <|  -- 158: pad_crop
    .call [39] 104 [[7], [29], []] <|  -- 159: pad_crop
    .call [40] 52 [[39], [36]] <|  -- 161: ampthresh
    .call [41] 103 [[38], [40], [34], [9], [10], [11]] <|  -- 163: fit_zernikes
    .call [42, 43, 44] 7 [[4], [34], [41], [9], [29], [10], [11]] <|  -- 166: gen_split_wfe
    .alloc 45 <|  -- 169: wfeAboveZmax = (wfeIn - wfeZ4or5toZmax - wfeZ4 - wfeZ1to3) *
    .branch (  -- 172: if flagUseDMs:
      .call [46] 93 [[45]] <|  -- 173: rms
      .call [47] 93 [[44]] <|  -- 174: rms
      .branch (  -- 176: if flagHighZern:
        .branch (  -- 177: if rmsZ4or5toZmax > rmsAboveZmax:
          .loop (
            .call [] 10 [[40, 44, 45], [40, 44, 45], [40, 44, 45], [40, 44, 45]] <|  -- 178: calls phase_cost_function
            .done) <|
          .alloc 48 <|  -- 178: alphaBest = fminbound(phase_cost_function, 0.0, 1.0, args=(w
          .done)
          (
          .alloc 48 <|  -- 182: alphaBest = 0
          .done) <|
        .alloc 49 <|  -- 185: DM1Phase = alphaBest * wfeZ4or5toZmax + wfeAboveZmax * usabl
        .alloc 50 <|  -- 186: DM2Phase = (1 - alphaBest) * wfeZ4or5toZmax
        .done)
        (
        .alloc 49 <|  -- 189: DM1Phase = 0.5 * wfeZ4or5toZmax
        .alloc 50 <|  -- 190: DM2Phase = 0.5 * wfeZ4or5toZmax
        .done) <|
      .done)
      (
      .alloc 49 <|  -- 193: DM1Phase = np.zeros(wfeShape1)
      .alloc 50 <|  -- 194: DM2Phase = np.zeros(wfeShape2)
      .done) <|
    .call [51] 94 [[]] <|  -- 198: ceil_odd
    .call [52] 104 [[40], [51], []] <|  -- 199: pad_crop
    .call [53] 104 [[49], [51], []] <|  -- 201: pad_crop
    .alloc 54 <|  -- 202: minPhase1 = np.min(DM1Phase0[usablePixelMapCrop == 1])
    .alloc 55 <|  -- 203: maxPhase1 = np.max(DM1Phase0[usablePixelMapCrop == 1])
    .write 53 <|  -- 204: DM1Phase0[DM1Phase0 < minPhase1] = minPhase1
    .write 53 <|  -- 205: DM1Phase0[DM1Phase0 > maxPhase1] = maxPhase1
    .call [56] 104 [[50], [51], []] <|  -- 207: pad_crop
    .alloc 57 <|  -- 208: minPhase2 = np.min(DM2Phase0[usablePixelMapCrop == 1])
    .alloc 58 <|  -- 209: maxPhase2 = np.max(DM2Phase0[usablePixelMapCrop == 1])
    .write 56 <|  -- 210: DM2Phase0[DM2Phase0 < minPhase2] = minPhase2
    .write 56 <|  -- 211: DM2Phase0[DM2Phase0 > maxPhase2] = maxPhase2
    .alloc 59 <|  -- 217: surfDesDM1 = DM1Phase0.copy() / 2.0
    .alloc 60 <|  -- 218: surfDesDM2 = DM2Phase0.copy() / 2.0
    .branch (  -- 220: if flagHighZern:
      .alloc 61 <|  -- 221: windowWidth1 = round(np.max((dm1r['ppact_cx'], dm1r['ppact_c
      .loop (  -- 222: for _ in range(nIterSmooth):
        .alloc 62 <|  -- 222: for _ in range(nIterSmooth):
        .call [59] 8 [[59], [61]] <|  -- 224: smooth_surface
        .write 59 <|  -- 226: surfDesDM1[usablePixelMapCrop] = DM1Phase0[usablePixelMapCro
        .done) <|
      .alloc 63 <|  -- 229: windowWidth2 = round(np.max((dm2r['ppact_cx'], dm2r['ppact_c
      .loop (  -- 230: for _ in range(nIterSmooth):
        .alloc 62 <|  -- 230: for _ in range(nIterSmooth):
        .call [60] 8 [[60], [63]] <|  -- 232: smooth_surface
        .write 60 <|  -- 234: surfDesDM2[usablePixelMapCrop] = DM2Phase0[usablePixelMapCro
        .done) <|
      .done)
      (
      .done) <|
    .call [64] 9 [[59], [17], [15]] <|  -- 238: conv_surf_to_dm_cmd
    .call [65] 9 [[60], [17], [15]] <|  -- 240: conv_surf_to_dm_cmd
    .alloc 66 <|  -- 244: dm1tiefn = os.path.join(data_path, dm['DM1']['voltages']['ti
    .alloc 67 <|  -- 245: tiemap1 = fits.getdata(dm1tiefn)
    .bind 68 [18] <|  -- 246: nact1 = dm1r['nact']
    .alloc 69 <|  -- 247: isdeadmap1 = np.zeros((nact1, nact1))
    .write 69 <|  -- 248: isdeadmap1[tiemap1 == -1] = 1
    .alloc 70 <|  -- 249: h1to2 = isdeadmap1 * hdm1
    .write 65 <|  -- 250: hdm2 += h1to2
    .alloc 71 <|  -- 253: dm2tiefn = os.path.join(data_path, dm['DM2']['voltages']['ti
    .alloc 72 <|  -- 254: tiemap2 = fits.getdata(dm2tiefn)
    .bind 73 [19] <|  -- 255: nact2 = dm2r['nact']
    .alloc 74 <|  -- 256: isdeadmap2 = np.zeros((nact2, nact2))
    .write 74 <|  -- 257: isdeadmap2[tiemap2 == -1] = 1
    .alloc 75 <|  -- 258: h2to1 = isdeadmap2 * hdm2
    .write 64 <|  -- 259: hdm1 += h2to1
    .write 64 <|  -- 262: hdm1[isdeadmap1 == 1] = 0
    .write 65 <|  -- 263: hdm2[isdeadmap2 == 1] = 0
    .alloc 76 <|  -- 266: dm1gainfn = os.path.join(data_path, dm['DM1']['voltages']['g
    .alloc 77 <|  -- 267: dm1gainmap = fits.getdata(dm1gainfn)
    .call [78] 73 [[77], [64], [6]] <|  -- 268: dmh_to_volts
    .alloc 79 <|  -- 270: dm2gainfn = os.path.join(data_path, dm['DM2']['voltages']['g
    .alloc 80 <|  -- 271: dm2gainmap = fits.getdata(dm2gainfn)
    .call [81] 73 [[80], [65], [6]] <|  -- 272: dmh_to_volts
    .alloc 0 <|  -- 274: cmdDM1 = cmdDM1 - deltaCmdDM1
    .alloc 1 <|  -- 275: cmdDM2 = cmdDM2 - deltaCmdDM2
    .branch (  -- 278: if flagUseFCM:
      .alloc 82 <|  -- 279: deltaCmdFCM = zernCoefVec[3] * lam / (2 * np.pi) / focusPerS
      .alloc 2 <|  -- 280: cmdFCM = int(round(cmdFCM + deltaCmdFCM))
      .done)
      (
      .done) <|
    .ret [0, 1, 2, 41]  -- 282: return (cmdDM1, cmdDM2, cmdFCM, zernCoefVec)

/-- `gen_split_wfe`, `coralign/conjugate/conjugate.py` lines 285-371. Variables: 0 `flagUseFCM`, 1 `maxNollZern`, 2 `zernCoef`, 3 `diamPupil`, 4 `wfeShape`, 5 `xOffset`, 6 `yOffset`, 7 `zernCoef0`, 8 `nArray`, 9 `zCoef`, 10 `Z4coef`, 11 `zSetDM1`, 12 `wfeZ4`, 13 `wfeZ1to3`, 14 `wfeZ4or5toZmax`. -/
def p7_gen_split_wfe : Fn where
  name := "conjugate.conjugate.gen_split_wfe"
  params := 7
  body :=
    .call [] 68 [[0], [], []] <|  -- 323: boolean
    .alloc 0 <|  -- 323: flagUseFCM is a scalar, string or boolean
    .call [] 64 [[1], [], []] <|  -- 324: positive_scalar_integer
    .alloc 1 <|  -- 324: maxNollZern is a scalar, string or boolean
    .call [] 58 [[2], [], []] <|  -- 325: oneD_array
    .call [] 57 [[2], [], []] <|  -- 326: real_array
    .call [] 56 [[3], [], []] <|  -- 330: real_positive_scalar
    .alloc 3 <|  -- 330: diamPupil is a scalar, string or boolean
    .call [] 58 [[4], [], []] <|  -- 331: oneD_array
    .call [] 57 [[4], [], []] <|  -- 332: real_array
    .call [] 62 [[5], [], []] <|  -- 335: real_scalar
    .alloc 5 <|  -- 335: xOffset is a scalar, string or boolean
    .call [] 62 [[6], [], []] <|  -- 336: real_scalar
    .alloc 6 <|  -- 336: yOffset is a scalar, string or boolean
    .branch (  -- 339: if zernCoef.size < maxNollZern:
      .bind 7 [2] <|  -- 340: zernCoef0 = copy.copy(zernCoef)
      .alloc 2 <|  -- 341: zernCoef = np.zeros((maxNollZern,))
      .write 2 <|  -- 342: zernCoef[0:zernCoef0.size] = zernCoef0
      .done)
      (
      .branch (  -- 343: if zernCoef.size > maxNollZern:
        .bind 2 [2] <|  -- 344: zernCoef = zernCoef[0:maxNollZern]
        .done)
        (
        .done) <|
      .done) <|
    .alloc 8 <|  -- 346: nArray = round(np.max(wfeShape))
    .branch (  -- 348: if flagUseFCM:
      .bind 9 [2] <|  -- 349: zCoef = zernCoef[4:]
      .bind 10 [2] <|  -- 350: Z4coef = zernCoef[3]
      .alloc 11 <|  -- 351: zSetDM1 = np.arange(5, maxNollZern + 1)
      .call [12] 102 [[], [], [5], [6], [3], [8]] <|  -- 353: gen_zernikes
      .call [12] 104 [[12], [4], []] <|  -- 355: pad_crop
      .done)
      (
      .bind 9 [2] <|  -- 357: zCoef = zernCoef[3:]
      .alloc 10 <|  -- 358: Z4coef = 0.0
      .alloc 11 <|  -- 359: zSetDM1 = np.arange(4, maxNollZern + 1)
      .alloc 12 <|  -- 361: wfeZ4 = np.zeros(wfeShape)
      .done) <|
    .call [13] 102 [[], [2], [5], [6], [3], [8]] <|  -- 363: gen_zernikes
    .call [13] 104 [[13], [4], []] <|  -- 365: pad_crop
    .call [14] 102 [[11], [9], [5], [6], [3], [8]] <|  -- 367: gen_zernikes
    .call [14] 104 [[14], [4], []] <|  -- 369: pad_crop
    .ret [13, 12, 14]  -- 371: return (wfeZ1to3, wfeZ4, wfeZ4or5toZmax)

/-- `smooth_surface`, `coralign/conjugate/conjugate.py` lines 374-399. Variables: 0 `arrayIn`, 1 `windowWidth`, 2 `smoothedArray`. -/
def p8_smooth_surface : Fn where
  name := "conjugate.conjugate.smooth_surface"
  params := 2
  body :=
    .call [] 59 [[0], [], []] <|  -- 392: twoD_array
    .call [] 57 [[0], [], []] <|  -- 393: real_array
    .call [] 56 [[1], [], []] <|  -- 394: real_positive_scalar
    .alloc 1 <|  -- 394: windowWidth is a scalar, string or boolean
    .alloc 2 <|  -- 396: smoothedArray = convolve(arrayIn, Box2DKernel(windowWidth))
    .call [2] 104 [[2], [], []] <|  -- 397: pad_crop
    .ret [2]  -- 399: return smoothedArray

/-- `conv_surf_to_dm_cmd`, `coralign/conjugate/conjugate.py` lines 402-499. Variables: 0 `surfaceToFit`, 1 `dm`, 2 `data_path`, 3 `dmReg`, 4 `actPitch`, 5 `dx`, 6 `dy`, 7 `ppact_cx`, 8 `ppact_cy`, 9 `thact`, 10 `nact`, 11 `ppact_d`, 12 `inffn`, 13 `flipx`, 14 `infFunc`, 15 `dx_inf0`, 16 `actres1`, 17 `nY`, 18 `nX`, 19 `xsA`, 20 `ysA`, 21 `ppact_new`, 22 `nB`, 23 `xsB`, 24 `ysB`, 25 `interp_spline`, 26 `gridDerotAtActRes`, 27 `sparseMat`, 28 `Vout`. -/
def p9_conv_surf_to_dm_cmd : Fn where
  name := "conjugate.conjugate.conv_surf_to_dm_cmd"
  params := 3
  body :=
    .call [] 59 [[0], [], []] <|  -- 430: twoD_array
    .call [] 57 [[0], [], []] <|  -- 431: real_array
    .bind 3 [1] <|  -- 435: dmReg = dm['registration']
    .bind 4 [1] <|  -- 436: actPitch = dm['pitch']
    .bind 5 [3] <|  -- 437: dx = dmReg['dx']
    .bind 6 [3] <|  -- 438: dy = dmReg['dy']
    .bind 7 [3] <|  -- 439: ppact_cx = dmReg['ppact_cx']
    .bind 8 [3] <|  -- 440: ppact_cy = dmReg['ppact_cy']
    .bind 9 [3] <|  -- 441: thact = dmReg['thact']
    .bind 10 [3] <|  -- 442: nact = dmReg['nact']
    .bind 11 [3] <|  -- 443: ppact_d = dmReg['ppact_d']
    .alloc 12 <|  -- 444: inffn = os.path.join(data_path, dmReg['inffn'])
    .bind 13 [3] <|  -- 445: flipx = dmReg['flipx']
    .call [] 56 [[4], [], []] <|  -- 448: real_positive_scalar
    .alloc 4 <|  -- 448: actPitch is a scalar, string or boolean
    .call [] 62 [[5], [], []] <|  -- 449: real_scalar
    .alloc 5 <|  -- 449: dx is a scalar, string or boolean
    .call [] 62 [[6], [], []] <|  -- 450: real_scalar
    .alloc 6 <|  -- 450: dy is a scalar, string or boolean
    .call [] 56 [[7], [], []] <|  -- 451: real_positive_scalar
    .alloc 7 <|  -- 451: ppact_cx is a scalar, string or boolean
    .call [] 56 [[8], [], []] <|  -- 452: real_positive_scalar
    .alloc 8 <|  -- 452: ppact_cy is a scalar, string or boolean
    .call [] 62 [[9], [], []] <|  -- 453: real_scalar
    .alloc 9 <|  -- 453: thact is a scalar, string or boolean
    .call [] 64 [[10], [], []] <|  -- 454: positive_scalar_integer
    .alloc 10 <|  -- 454: nact is a scalar, string or boolean
    .call [] 56 [[11], [], []] <|  -- 455: real_positive_scalar
    .alloc 11 <|  -- 455: ppact_d is a scalar, string or boolean
    .call [] 68 [[13], [], []] <|  -- 456: boolean
    .alloc 13 <|  -- 456: flipx is a scalar, string or boolean
    .alloc 14 <|  -- 460: infFunc = fits.getdata(inffn)
    .call [] 60 [[14], [], []] <|  -- 461: twoD_square_array
    .alloc 15 <|  -- 465: dx_inf0 = actPitch / float(ppact_d)
    .alloc 16 <|  -- 466: actres1 = actPitch / dx_inf0
    .branch (  -- 469: if flipx:
      .bind 0 [0] <|  -- 470: surfaceToFit = np.fliplr(surfaceToFit)
      .done)
      (
      .done) <|
    .alloc 0 <|  -- 473: surfaceToFit = rotate(surfaceToFit, thact, reshape=False)
    .alloc 17 <|  -- 476: [nY, nX] = surfaceToFit.shape
    .alloc 18 <|  -- 476: [nY, nX] = surfaceToFit.shape
    .branch (  -- 477: if nX % 2 == 0:
      .alloc 19 <|  -- 478: xsA = np.linspace(-nX / 2, nX / 2 - 1, nX) / ppact_cx
      .done)
      (
      .alloc 19 <|  -- 480: xsA = np.linspace(-(nX - 1) / 2, (nX - 1) / 2, nX) / ppact_c
      .done) <|
    .branch (  -- 482: if nY % 2 == 0:
      .alloc 20 <|  -- 483: ysA = np.linspace(-nY / 2, nY / 2 - 1, nY) / ppact_cy
      .done)
      (
      .alloc 20 <|  -- 485: ysA = np.linspace(-(nY - 1) / 2, (nY - 1) / 2, nY) / ppact_c
      .done) <|
    .alloc 21 <|  -- 487: ppact_new = 1
    .alloc 22 <|  -- 488: nB = nact * ppact_new
    .alloc 23 <|  -- 489: xsB = np.linspace(-(nB - 1) / 2, (nB - 1) / 2, nB) / ppact_n
    .bind 24 [23] <|  -- 490: ysB = xsB
    .bind 25 [0, 19, 20] <|  -- 492: interp_spline = RectBivariateSpline(ysA, xsA, surfaceToFit)
    .bind 26 [25] <|  -- 493: gridDerotAtActRes = interp_spline(ysB + dy / ppact_cy, xsB +
    .call [27] 84 [[], [], [14], [16]] <|  -- 495: build_prefilter
    .call [28] 83 [[26], [27]] <|  -- 497: fit_surf_to_dm
    .ret [28]  -- 499: return Vout

/-- `phase_cost_function`, `coralign/conjugate/conjugate.py` lines 502-553. Variables: 0 `alpha`, 1 `wfeZ4or5toZmax`, 2 `wfeAboveZmax`, 3 `usablePixelMap`, 6 `cost`. -/
def p10_phase_cost_function : Fn where
  name := "conjugate.conjugate.phase_cost_function"
  params := 4
  body :=
    .call [] 62 [[0], [], []] <|  -- 532: real_scalar
    .alloc 0 <|  -- 532: alpha is a scalar, string or boolean
    .call [] 59 [[1], [], []] <|  -- 535: twoD_array
    .call [] 57 [[1], [], []] <|  -- 536: real_array
    .call [] 59 [[2], [], []] <|  -- 537: twoD_array
    .call [] 57 [[2], [], []] <|  -- 538: real_array
    .call [] 59 [[3], [], []] <|  -- 539: twoD_array
    .call [4] 93 [[]] <|  -- 549: rms
    .call [5] 93 [[]] <|  -- 551: rms
    .alloc 6 <|  -- 549: cost = (rms(wfeAboveZmax[usablePixelMap] + alpha * wfeZ4or5t
    .ret [6]  -- 553: return cost

/-- `calc_software_mask`, `coralign/dmreg/dmreg.py` lines 18-93. Variables: 0 `amp0`, 1 `ph0`, 2 `amp1`, 3 `ph1`, 4 `whichDM`, 5 `nErode`, 6 `deltaPhaseThresh`, 7 `phDiff`, 8 `usablePixelMap`. -/
def p11_calc_software_mask : Fn where
  name := "dmreg.dmreg.calc_software_mask"
  params := 7
  body :=
    .call [] 59 [[0], [], []] <|  -- 61: twoD_array
    .call [] 59 [[1], [], []] <|  -- 62: twoD_array
    .call [] 59 [[2], [], []] <|  -- 63: twoD_array
    .call [] 59 [[3], [], []] <|  -- 64: twoD_array
    .call [] 64 [[4], [], []] <|  -- 71: positive_scalar_integer
    .alloc 4 <|  -- 71: whichDM is a scalar, string or boolean
    .call [] 65 [[5], [], []] <|  -- 74: nonnegative_scalar_integer
    .alloc 5 <|  -- 74: nErode is a scalar, string or boolean
    .call [] 56 [[6], [], []] <|  -- 75: real_positive_scalar
    .alloc 6 <|  -- 75: deltaPhaseThresh is a scalar, string or boolean
    .alloc 7 <|  -- 78: phDiff = ph1 - ph0
    .call [8] 52 [[0], []] <|  -- 81: ampthresh
    .call [7] 14 [[7], [8]] <|  -- 82: remove_piston_tip_tilt
    .write 8 <|  -- 86: usablePixelMap[np.abs(phDiff) > deltaPhaseThresh] = False
    .alloc 8 <|  -- 90: usablePixelMap = binary_erosion(usablePixelMap, structure=np
    .ret [8]  -- 93: return usablePixelMap

/-- `calc_translation_clocking`, `coralign/dmreg/dmreg.py` lines 96-307. Variables: 0 `amp0`, 1 `ph0`, 2 `amp1`, 3 `ph1`, 4 `usablePixelMap`, 5 `whichDM`, 6 `deltaV`, 7 `xOffsetPupil`, 8 `yOffsetPupil`, 9 `dm_fn`, 10 `fn_fit_params`, 11 `lam`, 12 `data_path`, 13 `fn_fit_params_fullpath`, 14 `fitParamDict`, 15 `nIterBoth`, 16 `offsetMax`, 17 `nOffset`, 18 `nIterOffset`, 19 `shrinkFac`, 20 `clockMaxDeg`, 21 `nClock`, 22 `nIterClock`, 23 `dm_fn_fullpath`, 24 `dmDict`, 25 `dm`, 26 `dmr`, 27 `flipx`, 28 `gainfn`, 29 `gainmap`, 30 `inffn`, 31 `inf_func`, 32 `dmrad`, 33 `phDiffMeas`, 34 `xOffsetVec`, 35 `yOffsetVec`, 36 `costMat`, 37 `xOffsetEst`, 38 `yOffsetEst`, 39 `clockEst`, 40 `nrow`, 41 `ncol`, 42 `iterBoth`, 43 `iterOffset`, 44 `iy`, 45 `yOffsetTemp`, 46 `ix`, 47 `xOffsetTemp`, 48 `phDiffSim`, 49 `bestInds`, 50 `clockVec`, 51 `costVec`, 52 `iterClock`, 53 `ic`, 54 `deltaClock`, 55 `bestInd`. -/
def p12_calc_translation_clocking : Fn where
  name := "dmreg.dmreg.calc_translation_clocking"
  params := 13
  body :=
    .call [] 59 [[0], [], []] <|  -- 176: twoD_array
    .call [] 59 [[1], [], []] <|  -- 177: twoD_array
    .call [] 59 [[2], [], []] <|  -- 178: twoD_array
    .call [] 59 [[3], [], []] <|  -- 179: twoD_array
    .call [] 59 [[4], [], []] <|  -- 180: twoD_array
    .call [] 64 [[5], [], []] <|  -- 189: positive_scalar_integer
    .alloc 5 <|  -- 189: whichDM is a scalar, string or boolean
    .call [] 62 [[7], [], []] <|  -- 192: real_scalar
    .alloc 7 <|  -- 192: xOffsetPupil is a scalar, string or boolean
    .call [] 62 [[8], [], []] <|  -- 193: real_scalar
    .alloc 8 <|  -- 193: yOffsetPupil is a scalar, string or boolean
    .call [] 60 [[6], [], []] <|  -- 194: twoD_square_array
    .call [] 56 [[11], [], []] <|  -- 195: real_positive_scalar
    .alloc 11 <|  -- 195: lam is a scalar, string or boolean
    .alloc 13 <|  -- 198: fn_fit_params_fullpath = os.path.join(data_path, fn_fit_para
    .call [14] 92 [[13], []] <|  -- 199: loadyaml
    .bind 15 [14] <|  -- 200: nIterBoth = fitParamDict['nIterBoth']
    .bind 16 [14] <|  -- 201: offsetMax = fitParamDict['offsetMax']
    .bind 17 [14] <|  -- 202: nOffset = fitParamDict['nOffset']
    .bind 18 [14] <|  -- 203: nIterOffset = fitParamDict['nIterOffset']
    .bind 19 [14] <|  -- 204: shrinkFac = fitParamDict['shrinkFac']
    .bind 20 [14] <|  -- 205: clockMaxDeg = fitParamDict['clockMaxDeg']
    .bind 21 [14] <|  -- 206: nClock = fitParamDict['nClock']
    .bind 22 [14] <|  -- 207: nIterClock = fitParamDict['nIterClock']
    .call [] 64 [[15], [], []] <|  -- 209: positive_scalar_integer
    .alloc 15 <|  -- 209: nIterBoth is a scalar, string or boolean
    .call [] 62 [[16], [], []] <|  -- 210: real_scalar
    .alloc 16 <|  -- 210: offsetMax is a scalar, string or boolean
    .call [] 64 [[17], [], []] <|  -- 211: positive_scalar_integer
    .alloc 17 <|  -- 211: nOffset is a scalar, string or boolean
    .call [] 64 [[18], [], []] <|  -- 212: positive_scalar_integer
    .alloc 18 <|  -- 212: nIterOffset is a scalar, string or boolean
    .call [] 56 [[19], [], []] <|  -- 213: real_positive_scalar
    .alloc 19 <|  -- 213: shrinkFac is a scalar, string or boolean
    .call [] 62 [[20], [], []] <|  -- 216: real_scalar
    .alloc 20 <|  -- 216: clockMaxDeg is a scalar, string or boolean
    .call [] 64 [[21], [], []] <|  -- 217: positive_scalar_integer
    .alloc 21 <|  -- 217: nClock is a scalar, string or boolean
    .call [] 64 [[22], [], []] <|  -- 218: positive_scalar_integer
    .alloc 22 <|  -- 218: nIterClock is a scalar, string or boolean
    .alloc 23 <|  -- 221: dm_fn_fullpath = os.path.join(data_path, dm_fn)
    .call [24] 92 [[23], []] <|  -- 222: loadyaml
    .branch (  -- 223: if whichDM == 1:
      .bind 25 [24] <|  -- 224: dm = dmDict['dms']['DM1']
      .done)
      (
      .branch (  -- 225: if whichDM == 2:
        .bind 25 [24] <|  -- 226: dm = dmDict['dms']['DM2']
        .done)
        (
        .done) <|
      .done) <|
    .bind 26 [25] <|  -- 227: dmr = dm['registration']
    .bind 27 [26] <|  -- 228: flipx = dmr['flipx']
    .alloc 28 <|  -- 229: gainfn = os.path.join(data_path, dm['voltages']['gainfn'])
    .alloc 29 <|  -- 230: gainmap = fits.getdata(gainfn)
    .alloc 30 <|  -- 231: inffn = os.path.join(data_path, dmr['inffn'])
    .alloc 31 <|  -- 232: inf_func = fits.getdata(inffn)
    .call [32] 74 [[29], [6], [11]] <|  -- 233: volts_to_dmh
    .alloc 33 <|  -- 235: phDiffMeas = ph1 - ph0
    .alloc 33 <|  -- 236: phDiffMeas = np.angle(np.exp(1j * phDiffMeas))
    .call [33] 14 [[33], [4]] <|  -- 237: remove_piston_tip_tilt
    .alloc 34 <|  -- 240: xOffsetVec = np.linspace(-offsetMax, offsetMax, nOffset)
    .alloc 35 <|  -- 241: yOffsetVec = np.linspace(-offsetMax, offsetMax, nOffset)
    .alloc 36 <|  -- 242: costMat = np.zeros((nOffset, nOffset))
    .bind 37 [7] <|  -- 243: xOffsetEst = xOffsetPupil
    .bind 38 [8] <|  -- 244: yOffsetEst = yOffsetPupil
    .bind 39 [26] <|  -- 245: clockEst = dmr['thact']
    .alloc 40 <|  -- 246: [nrow, ncol] = amp0.shape
    .alloc 41 <|  -- 246: [nrow, ncol] = amp0.shape
    .loop (  -- 249: for iterBoth in range(nIterBoth):
      .alloc 42 <|  -- 249: for iterBoth in range(nIterBoth):
      .loop (  -- 252: for iterOffset in range(nIterOffset):
        .alloc 43 <|  -- 252: for iterOffset in range(nIterOffset):
        .loop (  -- 253: for iy, yOffsetTemp in enumerate(yOffsetVec):
          .bind 44 [35] <|  -- 253: for iy, yOffsetTemp in enumerate(yOffsetVec):
          .bind 45 [35] <|  -- 253: for iy, yOffsetTemp in enumerate(yOffsetVec):
          .loop (  -- 254: for ix, xOffsetTemp in enumerate(xOffsetVec):
            .bind 46 [34] <|  -- 254: for ix, xOffsetTemp in enumerate(xOffsetVec):
            .bind 47 [34] <|  -- 254: for ix, xOffsetTemp in enumerate(xOffsetVec):
            .call [48] 72 [[40], [41], [32], [26], [31], [26], [26], [26], [], [], [39], [27]] <|  -- 255: dmhtoph
            .write 48 <|  -- 261: phDiffSim *= 2
            .call [48] 14 [[48], [4]] <|  -- 262: remove_piston_tip_tilt
            .write 36 <|  -- 265: costMat[iy, ix] = np.sum(usablePixelMap * np.abs(phDiffMeas 
            .done) <|
          .done) <|
        .branch (  -- 270: if iterOffset == 0 and nIterOffset > 1:
          .alloc 49 <|  -- 271: bestInds = np.unravel_index(np.argmin(costMat), costMat.shap
          .bind 47 [34] <|  -- 272: xOffsetTemp = xOffsetVec[bestInds[1]]
          .bind 45 [35] <|  -- 273: yOffsetTemp = yOffsetVec[bestInds[0]]
          .done)
          (
          .call [47, 45] 80 [[34], [35], [36], []] <|  -- 276: find_optimum_2d
          .done) <|
        .write 37 <|  -- 278: xOffsetEst += xOffsetTemp
        .write 38 <|  -- 279: yOffsetEst += yOffsetTemp
        .alloc 34 <|  -- 280: xOffsetVec = shrinkFac ** iterOffset * np.linspace(-offsetMa
        .alloc 35 <|  -- 282: yOffsetVec = shrinkFac ** iterOffset * np.linspace(-offsetMa
        .done) <|
      .alloc 50 <|  -- 286: clockVec = np.linspace(-clockMaxDeg, clockMaxDeg, nClock)
      .alloc 51 <|  -- 287: costVec = np.zeros((nClock,))
      .loop (  -- 288: for iterClock in range(nIterClock):
        .alloc 52 <|  -- 288: for iterClock in range(nIterClock):
        .loop (  -- 289: for ic, deltaClock in enumerate(shrinkFac ** iterClock * clo
          .alloc 53 <|  -- 289: for ic, deltaClock in enumerate(shrinkFac ** iterClock * clo
          .alloc 54 <|  -- 289: for ic, deltaClock in enumerate(shrinkFac ** iterClock * clo
          .call [48] 72 [[40], [41], [32], [26], [31], [26], [26], [26], [37], [38], [], [27]] <|  -- 290: dmhtoph
          .write 51 <|  -- 296: costVec[ic] = np.sum(usablePixelMap * np.abs(phDiffMeas - ph
          .done) <|
        .branch (  -- 301: if iterClock == 0 and nIterClock > 1:
          .alloc 55 <|  -- 302: bestInd = np.argmin(costVec)
          .write 39 <|  -- 303: clockEst += clockVec[bestInd]
          .done)
          (
          .call [56] 79 [[50], [51]] <|  -- 305: find_optimum_1d
          .write 39 <|  -- 305: clockEst += find_optimum_1d(clockVec, costVec)
          .done) <|
        .done) <|
      .done) <|
    .ret [37, 38, 39]  -- 307: return (xOffsetEst, yOffsetEst, clockEst)

/-- `calc_scale`, `coralign/dmreg/dmreg.py` lines 310-479. Variables: 0 `amp0`, 1 `ph0`, 2 `amp1`, 3 `ph1`, 4 `usablePixelMap`, 5 `whichDM`, 6 `deltaV`, 7 `dm_fn`, 8 `fn_fit_params`, 9 `lam`, 10 `xOffset`, 11 `yOffset`, 12 `clocking`, 13 `data_path`, 14 `fn_fit_fullpath`, 15 `fitDict`, 16 `maxDeltaScaleFac`, 17 `nScale`, 18 `nIter`, 19 `shrinkFac`, 20 `dm_fn_fullpath`, 21 `dmConfig`, 22 `dm`, 23 `dmr`, 24 `gainfn`, 25 `gainmap`, 26 `inffn`, 27 `inf_func`, 28 `dmrad`, 29 `flipx`, 30 `phDiffMeas`, 31 `xScaleVec`, 32 `yScaleVec`, 33 `costMat`, 34 `xScale`, 35 `yScale`, 36 `iter_`, 37 `iy`, 38 `yScaleTemp`, 39 `ix`, 40 `xScaleTemp`, 41 `phDiffSim`, 42 `bestInds`, 43 `ppact_cx_est`, 44 `ppact_cy_est`. -/
def p13_calc_scale : Fn where
  name := "dmreg.dmreg.calc_scale"
  params := 14
  body :=
    .call [] 59 [[0], [], []] <|  -- 387: twoD_array
    .call [] 59 [[1], [], []] <|  -- 388: twoD_array
    .call [] 59 [[2], [], []] <|  -- 389: twoD_array
    .call [] 59 [[3], [], []] <|  -- 390: twoD_array
    .call [] 59 [[4], [], []] <|  -- 391: twoD_array
    .call [] 64 [[5], [], []] <|  -- 400: positive_scalar_integer
    .alloc 5 <|  -- 400: whichDM is a scalar, string or boolean
    .call [] 60 [[6], [], []] <|  -- 403: twoD_square_array
    .call [] 56 [[9], [], []] <|  -- 404: real_positive_scalar
    .alloc 9 <|  -- 404: lam is a scalar, string or boolean
    .call [] 62 [[10], [], []] <|  -- 405: real_scalar
    .alloc 10 <|  -- 405: xOffset is a scalar, string or boolean
    .call [] 62 [[11], [], []] <|  -- 406: real_scalar
    .alloc 11 <|  -- 406: yOffset is a scalar, string or boolean
    .call [] 62 [[12], [], []] <|  -- 407: real_scalar
    .alloc 12 <|  -- 407: clocking is a scalar, string or boolean
    .alloc 14 <|  -- 410: fn_fit_fullpath = os.path.join(data_path, fn_fit_params)
    .call [15] 92 [[14], []] <|  -- 411: loadyaml
    .bind 16 [15] <|  -- 412: maxDeltaScaleFac = fitDict['maxDeltaScaleFac']
    .bind 17 [15] <|  -- 413: nScale = fitDict['nScale']
    .bind 18 [15] <|  -- 414: nIter = fitDict['nIter']
    .bind 19 [15] <|  -- 415: shrinkFac = fitDict['shrinkFac']
    .call [] 62 [[16], [], []] <|  -- 416: real_scalar
    .alloc 16 <|  -- 416: maxDeltaScaleFac is a scalar, string or boolean
    .call [] 64 [[17], [], []] <|  -- 417: positive_scalar_integer
    .alloc 17 <|  -- 417: nScale is a scalar, string or boolean
    .call [] 64 [[18], [], []] <|  -- 418: positive_scalar_integer
    .alloc 18 <|  -- 418: nIter is a scalar, string or boolean
    .call [] 56 [[19], [], []] <|  -- 419: real_positive_scalar
    .alloc 19 <|  -- 419: shrinkFac is a scalar, string or boolean
    .alloc 20 <|  -- 424: dm_fn_fullpath = os.path.join(data_path, dm_fn)
    .call [21] 92 [[20], []] <|  -- 425: loadyaml
    .branch (  -- 426: if whichDM == 1:
      .bind 22 [21] <|  -- 427: dm = dmConfig['dms']['DM1']
      .done)
      (
      .branch (  -- 428: if whichDM == 2:
        .bind 22 [21] <|  -- 429: dm = dmConfig['dms']['DM2']
        .done)
        (
        .done) <|
      .done) <|
    .bind 23 [22] <|  -- 430: dmr = dm['registration']
    .alloc 24 <|  -- 431: gainfn = os.path.join(data_path, dm['voltages']['gainfn'])
    .alloc 25 <|  -- 432: gainmap = fits.getdata(gainfn)
    .alloc 26 <|  -- 433: inffn = os.path.join(data_path, dmr['inffn'])
    .alloc 27 <|  -- 434: inf_func = fits.getdata(inffn)
    .call [28] 74 [[25], [6], [9]] <|  -- 435: volts_to_dmh
    .alloc 29 <|  -- 436: flipx = False
    .alloc 30 <|  -- 438: phDiffMeas = ph1 - ph0
    .alloc 30 <|  -- 439: phDiffMeas = np.angle(np.exp(1j * phDiffMeas))
    .call [30] 14 [[30], [4]] <|  -- 440: remove_piston_tip_tilt
    .alloc 31 <|  -- 442: xScaleVec = np.linspace(1 - maxDeltaScaleFac, 1 + maxDeltaSc
    .alloc 32 <|  -- 443: yScaleVec = np.linspace(1 - maxDeltaScaleFac, 1 + maxDeltaSc
    .alloc 33 <|  -- 444: costMat = np.zeros((nScale, nScale))
    .alloc 34 <|  -- 445: xScale = 1
    .alloc 35 <|  -- 446: yScale = 1
    .loop (  -- 447: for iter_ in range(nIter):
      .alloc 36 <|  -- 447: for iter_ in range(nIter):
      .loop (  -- 448: for iy, yScaleTemp in enumerate(yScaleVec):
        .bind 37 [32] <|  -- 448: for iy, yScaleTemp in enumerate(yScaleVec):
        .bind 38 [32] <|  -- 448: for iy, yScaleTemp in enumerate(yScaleVec):
        .loop (  -- 449: for ix, xScaleTemp in enumerate(xScaleVec):
          .bind 39 [31] <|  -- 449: for ix, xScaleTemp in enumerate(xScaleVec):
          .bind 40 [31] <|  -- 449: for ix, xScaleTemp in enumerate(xScaleVec):
          .call [41] 72 [[], [], [28], [23], [27], [23], [], [], [10], [11], [12], [29]] <|  -- 450: dmhtoph
          .write 41 <|  -- 456: phDiffSim *= 2
          .call [41] 104 [[41], [], []] <|  -- 457: pad_crop
          .call [41] 14 [[41], [4]] <|  -- 458: remove_piston_tip_tilt
          .write 33 <|  -- 460: costMat[iy, ix] = np.sum(usablePixelMap * np.abs(phDiffMeas 
          .done) <|
        .done) <|
      .branch (  -- 463: if iter_ == 0 and nIter > 1:
        .alloc 42 <|  -- 464: bestInds = np.unravel_index(np.argmin(costMat), costMat.shap
        .bind 40 [31] <|  -- 465: xScaleTemp = xScaleVec[bestInds[1]]
        .bind 38 [32] <|  -- 466: yScaleTemp = yScaleVec[bestInds[0]]
        .done)
        (
        .call [40, 38] 80 [[31], [32], [33], []] <|  -- 468: find_optimum_2d
        .done) <|
      .alloc 34 <|  -- 470: xScale = xScaleTemp * xScale
      .alloc 35 <|  -- 471: yScale = yScaleTemp * yScale
      .alloc 16 <|  -- 472: maxDeltaScaleFac = shrinkFac * maxDeltaScaleFac
      .alloc 31 <|  -- 473: xScaleVec = np.linspace(1 - maxDeltaScaleFac, 1 + maxDeltaSc
      .alloc 32 <|  -- 474: yScaleVec = np.linspace(1 - maxDeltaScaleFac, 1 + maxDeltaSc
      .done) <|
    .alloc 43 <|  -- 476: ppact_cx_est = xScale * dmr['ppact_cx']
    .alloc 44 <|  -- 477: ppact_cy_est = yScale * dmr['ppact_cy']
    .ret [43, 44]  -- 479: return (ppact_cx_est, ppact_cy_est)

/-- `remove_piston_tip_tilt`, `coralign/dmreg/dr_util.py` lines 7-53. Variables: 0 `arrayToFit`, 1 `mask`, 2 `maskBool`, 3 `nPix`, 4 `ny`, 5 `nx`, 6 `xVec`, 7 `yVec`, 8 `ONES`, 9 `X`, 10 `Y`, 11 `f0`, 12 `f1`, 13 `f2`, 14 `A`, 15 `y`, 16 `temp`, 17 `coeffs`, 18 `a`, 19 `b`, 20 `c`, 21 `arrayOut`. -/
def p14_remove_piston_tip_tilt : Fn where
  name := "dmreg.dr_util.remove_piston_tip_tilt"
  params := 2
  body :=
    .call [] 59 [[0], [], []] <|  -- 24: twoD_array
    .call [] 59 [[1], [], []] <|  -- 25: twoD_array
    .alloc 2 <|  -- 29: maskBool = np.asarray(mask).astype(bool)
    .alloc 3 <|  -- 30: nPix = int(np.sum(mask))
    .alloc 4 <|  -- 31: ny = arrayToFit.shape[0]
    .alloc 5 <|  -- 32: nx = arrayToFit.shape[1]
    .alloc 6 <|  -- 33: xVec = np.arange(-nx / 2.0, nx / 2.0) / nx
    .alloc 7 <|  -- 34: yVec = np.arange(-ny / 2.0, ny / 2.0) / ny
    .alloc 8 <|  -- 37: ONES = np.ones((ny, nx))
    .alloc 9 <|  -- 38: [X, Y] = np.meshgrid(xVec, yVec)
    .alloc 10 <|  -- 38: [X, Y] = np.meshgrid(xVec, yVec)
    .bind 11 [9] <|  -- 39: f0 = X
    .bind 12 [10] <|  -- 40: f1 = Y
    .bind 13 [8] <|  -- 41: f2 = ONES
    .alloc 14 <|  -- 44: A = np.concatenate((f0[maskBool].reshape((nPix, 1)), f1[mask
    .alloc 15 <|  -- 47: y = arrayToFit[maskBool].flatten()
    .alloc 16 <|  -- 48: temp = np.linalg.lstsq(A, y, rcond=None)
    .bind 17 [16] <|  -- 49: coeffs = temp[0]
    .bind 18 [17] <|  -- 50: a, b, c = coeffs[0:3]
    .bind 19 [17] <|  -- 50: a, b, c = coeffs[0:3]
    .bind 20 [17] <|  -- 50: a, b, c = coeffs[0:3]
    .alloc 21 <|  -- 51: arrayOut = maskBool * (arrayToFit - (a * X + b * Y + c * ONE
    .ret [21]  -- 53: return arrayOut

/-- `bound_value`, `coralign/focalfit/ff_util.py` lines 7-35. Variables: 0 `inVal`, 1 `maxVal`, 2 `outVal`. -/
def p15_bound_value : Fn where
  name := "focalfit.ff_util.bound_value"
  params := 2
  body :=
    .call [] 62 [[0], [], []] <|  -- 23: real_scalar
    .alloc 0 <|  -- 23: inVal is a scalar, string or boolean
    .call [] 63 [[1], [], []] <|  -- 24: real_nonnegative_scalar
    .alloc 1 <|  -- 24: maxVal is a scalar, string or boolean
    .branch (  -- 26: if inVal > maxVal:
      .bind 2 [1] <|  -- 27: outVal = maxVal
      .done)
      (
      .branch (  -- 29: if inVal < -maxVal:
        .alloc 2 <|  -- 30: outVal = -maxVal
        .done)
        (
        .bind 2 [0] <|  -- 33: outVal = inVal
        .done) <|
      .done) <|
    .ret [2]  -- 35: return outVal

/-- `calc_offset_quadratic`, `coralign/focalfit/ff_util.py` lines 38-81. Variables: 0 `fitCoefPow1`, 1 `fitCoefPow2`, 2 `roiSumRatio`, 3 `sign`, 4 `offset`. -/
def p16_calc_offset_quadratic : Fn where
  name := "focalfit.ff_util.calc_offset_quadratic"
  params := 3
  body :=
    .call [] 62 [[0], [], []] <|  -- 67: real_scalar
    .alloc 0 <|  -- 67: fitCoefPow1 is a scalar, string or boolean
    .call [] 62 [[1], [], []] <|  -- 68: real_scalar
    .alloc 1 <|  -- 68: fitCoefPow2 is a scalar, string or boolean
    .call [] 56 [[2], [], []] <|  -- 69: real_positive_scalar
    .alloc 2 <|  -- 69: roiSumRatio is a scalar, string or boolean
    .branch (  -- 71: if roiSumRatio < 1:
      .alloc 2 <|  -- 72: roiSumRatio = 1.0 / roiSumRatio
      .alloc 3 <|  -- 73: sign = -1
      .done)
      (
      .alloc 3 <|  -- 75: sign = 1
      .done) <|
    .alloc 4 <|  -- 77: offset = sign * ((-fitCoefPow1 + np.sqrt(fitCoefPow1 * fitCo
    .ret [4]  -- 81: return offset

/-- `calc_offset_linear`, `coralign/focalfit/ff_util.py` lines 84-118. Variables: 0 `fitCoefPow1`, 1 `roiSumRatio`, 2 `sign`, 3 `offset`. -/
def p17_calc_offset_linear : Fn where
  name := "focalfit.ff_util.calc_offset_linear"
  params := 2
  body :=
    .call [] 62 [[0], [], []] <|  -- 107: real_scalar
    .alloc 0 <|  -- 107: fitCoefPow1 is a scalar, string or boolean
    .call [] 56 [[1], [], []] <|  -- 108: real_positive_scalar
    .alloc 1 <|  -- 108: roiSumRatio is a scalar, string or boolean
    .branch (  -- 110: if roiSumRatio < 1:
      .alloc 1 <|  -- 111: roiSumRatio = 1.0 / roiSumRatio
      .alloc 2 <|  -- 112: sign = -1
      .done)
      (
      .alloc 2 <|  -- 114: sign = 1
      .done) <|
    .alloc 3 <|  -- 116: offset = sign * (roiSumRatio - 1) / fitCoefPow1
    .ret [3]  -- 118: return offset

/-- `calc_bowtie_offsets_from_spots`, `coralign/focalfit/focalfit.py` lines 10-201. Variables: 0 `imageSpotted`, 1 `xOffsetStarFromCenterPixel`, 2 `yOffsetStarFromCenterPixel`, 3 `fnTuning`, 4 `debug`, 5 `inp`, 6 `spotSepPix`, 7 `spotRotDeg`, 8 `spotExtraRotDeg`, 9 `roiRadiusPix`, 10 `nSubpixels`, 11 `maxStep`, 12 `fitCoefPow1x`, 13 `fitCoefPow2x`, 14 `fitCoefPow1y`, 15 `fitCoefPow2y`, 16 `xRatioTarget`, 17 `yRatioTarget`, 18 `ny`, 19 `nx`, 20 `spotRotRad`, 21 `clocking`, 22 `roiQuad1`, 23 `roiQuad2`, 24 `roiQuad3`, 25 `roiQuad4`, 26 `sumRoiQuad1`, 27 `sumRoiQuad2`, 28 `sumRoiQuad3`, 29 `sumRoiQuad4`, 30 `minVal`, 31 `upSum`, 32 `downSum`, 33 `leftSum`, 34 `rightSum`, 35 `xRatio`, 37 `xOffsetStarFromMask`, 39 `xOffsetTarget`, 40 `yRatio`, 42 `yOffsetStarFromMask`, 44 `yOffsetTarget`. -/
def p18_calc_bowtie_offsets_from_spots : Fn where
  name := "focalfit.focalfit.calc_bowtie_offsets_from_spots"
  params := 5
  body :=
    .call [] 59 [[0], [], []] <|  -- 102: twoD_array
    .call [] 62 [[1], [], []] <|  -- 103: real_scalar
    .alloc 1 <|  -- 103: xOffsetStarFromCenterPixel is a scalar, string or boolean
    .call [] 62 [[2], [], []] <|  -- 105: real_scalar
    .alloc 2 <|  -- 105: yOffsetStarFromCenterPixel is a scalar, string or boolean
    .call [5] 92 [[3], []] <|  -- 108: loadyaml
    .bind 6 [5] <|  -- 109: spotSepPix = inp['spotSepPix']
    .bind 7 [5] <|  -- 110: spotRotDeg = inp['spotRotDeg']
    .bind 8 [5] <|  -- 111: spotExtraRotDeg = inp['spotExtraRotDeg']
    .bind 9 [5] <|  -- 112: roiRadiusPix = inp['roiRadiusPix']
    .bind 10 [5] <|  -- 113: nSubpixels = inp['nSubpixels']
    .bind 11 [5] <|  -- 114: maxStep = inp['maxStep']
    .bind 12 [5] <|  -- 115: fitCoefPow1x = inp['fitCoefPow1x']
    .bind 13 [5] <|  -- 116: fitCoefPow2x = inp['fitCoefPow2x']
    .bind 14 [5] <|  -- 117: fitCoefPow1y = inp['fitCoefPow1y']
    .bind 15 [5] <|  -- 118: fitCoefPow2y = inp['fitCoefPow2y']
    .bind 16 [5] <|  -- 119: xRatioTarget = inp['xRatioTarget']
    .bind 17 [5] <|  -- 120: yRatioTarget = inp['yRatioTarget']
    .call [] 56 [[6], [], []] <|  -- 122: real_positive_scalar
    .alloc 6 <|  -- 122: spotSepPix is a scalar, string or boolean
    .call [] 56 [[9], [], []] <|  -- 123: real_positive_scalar
    .alloc 9 <|  -- 123: roiRadiusPix is a scalar, string or boolean
    .call [] 64 [[10], [], []] <|  -- 124: positive_scalar_integer
    .alloc 10 <|  -- 124: nSubpixels is a scalar, string or boolean
    .call [] 56 [[11], [], []] <|  -- 125: real_positive_scalar
    .alloc 11 <|  -- 125: maxStep is a scalar, string or boolean
    .call [] 56 [[12], [], []] <|  -- 126: real_positive_scalar
    .alloc 12 <|  -- 126: fitCoefPow1x is a scalar, string or boolean
    .call [] 56 [[13], [], []] <|  -- 127: real_positive_scalar
    .alloc 13 <|  -- 127: fitCoefPow2x is a scalar, string or boolean
    .call [] 56 [[14], [], []] <|  -- 128: real_positive_scalar
    .alloc 14 <|  -- 128: fitCoefPow1y is a scalar, string or boolean
    .call [] 56 [[15], [], []] <|  -- 129: real_positive_scalar
    .alloc 15 <|  -- 129: fitCoefPow2y is a scalar, string or boolean
    .alloc 18 <|  -- 134: ny, nx = imageSpotted.shape
    .alloc 19 <|  -- 134: ny, nx = imageSpotted.shape
    .alloc 20 <|  -- 135: spotRotRad = np.pi / 180.0 * spotRotDeg
    .alloc 21 <|  -- 136: clocking = np.pi / 180.0 * spotExtraRotDeg
    .call [22] 108 [[19], [18], [9], [], [], [10], []] <|  -- 137: circle
    .call [23] 108 [[19], [18], [9], [], [], [10], []] <|  -- 142: circle
    .call [24] 108 [[19], [18], [9], [], [], [10], []] <|  -- 147: circle
    .call [25] 108 [[19], [18], [9], [], [], [10], []] <|  -- 152: circle
    .alloc 26 <|  -- 159: sumRoiQuad1 = np.sum(roiQuad1 * imageSpotted)
    .alloc 27 <|  -- 160: sumRoiQuad2 = np.sum(roiQuad2 * imageSpotted)
    .alloc 28 <|  -- 161: sumRoiQuad3 = np.sum(roiQuad3 * imageSpotted)
    .alloc 29 <|  -- 162: sumRoiQuad4 = np.sum(roiQuad4 * imageSpotted)
    .alloc 30 <|  -- 164: minVal = np.finfo(float).eps
    .branch (  -- 165: if sumRoiQuad1 <= 0:
      .bind 26 [30] <|  -- 166: sumRoiQuad1 = minVal
      .done)
      (
      .done) <|
    .branch (  -- 167: if sumRoiQuad2 <= 0:
      .bind 27 [30] <|  -- 168: sumRoiQuad2 = minVal
      .done)
      (
      .done) <|
    .branch (  -- 169: if sumRoiQuad3 <= 0:
      .bind 28 [30] <|  -- 170: sumRoiQuad3 = minVal
      .done)
      (
      .done) <|
    .branch (  -- 171: if sumRoiQuad4 <= 0:
      .bind 29 [30] <|  -- 172: sumRoiQuad4 = minVal
      .done)
      (
      .done) <|
    .alloc 31 <|  -- 174: upSum = sumRoiQuad1 + sumRoiQuad2
    .alloc 32 <|  -- 175: downSum = sumRoiQuad3 + sumRoiQuad4
    .alloc 33 <|  -- 176: leftSum = sumRoiQuad2 + sumRoiQuad3
    .alloc 34 <|  -- 177: rightSum = sumRoiQuad1 + sumRoiQuad4
    .alloc 35 <|  -- 179: xRatio = rightSum / leftSum
    .call [36] 16 [[12], [13], [35]] <|  -- 180: calc_offset_quadratic
    .alloc 37 <|  -- 180: xOffsetStarFromMask = -ffu.calc_offset_quadratic(fitCoefPow1
    .call [38] 16 [[12], [13], [16]] <|  -- 183: calc_offset_quadratic
    .alloc 39 <|  -- 183: xOffsetTarget = -ffu.calc_offset_quadratic(fitCoefPow1x, fit
    .alloc 37 <|  -- 186: xOffsetStarFromMask = xOffsetStarFromMask - xOffsetTarget
    .alloc 40 <|  -- 188: yRatio = upSum / downSum
    .call [41] 16 [[14], [15], [40]] <|  -- 189: calc_offset_quadratic
    .alloc 42 <|  -- 189: yOffsetStarFromMask = -ffu.calc_offset_quadratic(fitCoefPow1
    .call [43] 16 [[14], [15], [17]] <|  -- 192: calc_offset_quadratic
    .alloc 44 <|  -- 192: yOffsetTarget = -ffu.calc_offset_quadratic(fitCoefPow1y, fit
    .alloc 42 <|  -- 195: yOffsetStarFromMask = yOffsetStarFromMask - yOffsetTarget
    .call [37] 15 [[37], [11]] <|  -- 198: bound_value
    .call [42] 15 [[42], [11]] <|  -- 199: bound_value
    .ret [37, 42]  -- 201: return (xOffsetStarFromMask, yOffsetStarFromMask)

/-- `calc_offset_from_spots`, `coralign/focalfit/focalfit.py` lines 204-367. Variables: 0 `imageSpotted`, 1 `xProbeRotDeg`, 2 `xOffsetStarFromCenterPixel`, 3 `yOffsetStarFromCenterPixel`, 4 `fnTuning`, 5 `fnTarget`, 6 `debug`, 7 `inp`, 8 `xRatioTarget`, 9 `spotSepPix`, 10 `roiRadiusPix`, 11 `nSubpixels`, 12 `maxStep`, 13 `fitCoefPow1`, 14 `fitCoefPow2`, 15 `powerOfFit`, 16 `maskIsInsideSpots`, 17 `ny`, 18 `nx`, 19 `xProbeRotRad`, 20 `xProbePlusCoord`, 21 `xProbeMinusCoord`, 22 `xProbePlusMask`, 23 `xProbeMinusMask`, 24 `xProbePlusSum`, 25 `xProbeMinusSum`, 26 `minVal`, 27 `xRatio`, 28 `xOffsetStarFromMask`, 29 `xOffsetTarget`. -/
def p19_calc_offset_from_spots : Fn where
  name := "focalfit.focalfit.calc_offset_from_spots"
  params := 7
  body :=
    .call [] 59 [[0], [], []] <|  -- 282: twoD_array
    .call [] 62 [[1], [], []] <|  -- 283: real_scalar
    .alloc 1 <|  -- 283: xProbeRotDeg is a scalar, string or boolean
    .call [] 62 [[2], [], []] <|  -- 284: real_scalar
    .alloc 2 <|  -- 284: xOffsetStarFromCenterPixel is a scalar, string or boolean
    .call [] 62 [[3], [], []] <|  -- 286: real_scalar
    .alloc 3 <|  -- 286: yOffsetStarFromCenterPixel is a scalar, string or boolean
    .call [7] 92 [[5], []] <|  -- 289: loadyaml
    .bind 8 [7] <|  -- 290: xRatioTarget = inp['targetRatio']
    .call [] 56 [[8], [], []] <|  -- 291: real_positive_scalar
    .alloc 8 <|  -- 291: xRatioTarget is a scalar, string or boolean
    .call [7] 92 [[4], []] <|  -- 293: loadyaml
    .bind 9 [7] <|  -- 294: spotSepPix = inp['spotSepPix']
    .bind 10 [7] <|  -- 295: roiRadiusPix = inp['roiRadiusPix']
    .bind 11 [7] <|  -- 296: nSubpixels = inp['nSubpixels']
    .bind 12 [7] <|  -- 297: maxStep = inp['maxStep']
    .bind 13 [7] <|  -- 298: fitCoefPow1 = inp['fitCoefPow1']
    .bind 14 [7] <|  -- 299: fitCoefPow2 = inp['fitCoefPow2']
    .bind 15 [7] <|  -- 300: powerOfFit = inp['powerOfFit']
    .bind 16 [7] <|  -- 301: maskIsInsideSpots = inp['maskIsInsideSpots']
    .call [] 56 [[9], [], []] <|  -- 303: real_positive_scalar
    .alloc 9 <|  -- 303: spotSepPix is a scalar, string or boolean
    .call [] 56 [[10], [], []] <|  -- 304: real_positive_scalar
    .alloc 10 <|  -- 304: roiRadiusPix is a scalar, string or boolean
    .call [] 64 [[11], [], []] <|  -- 305: positive_scalar_integer
    .alloc 11 <|  -- 305: nSubpixels is a scalar, string or boolean
    .call [] 56 [[12], [], []] <|  -- 306: real_positive_scalar
    .alloc 12 <|  -- 306: maxStep is a scalar, string or boolean
    .call [] 56 [[13], [], []] <|  -- 307: real_positive_scalar
    .alloc 13 <|  -- 307: fitCoefPow1 is a scalar, string or boolean
    .call [] 56 [[14], [], []] <|  -- 308: real_positive_scalar
    .alloc 14 <|  -- 308: fitCoefPow2 is a scalar, string or boolean
    .call [] 64 [[15], [], []] <|  -- 309: positive_scalar_integer
    .alloc 15 <|  -- 309: powerOfFit is a scalar, string or boolean
    .call [] 66 [[16], [], []] <|  -- 312: scalar_integer
    .alloc 16 <|  -- 312: maskIsInsideSpots is a scalar, string or boolean
    .alloc 17 <|  -- 318: ny, nx = imageSpotted.shape
    .alloc 18 <|  -- 318: ny, nx = imageSpotted.shape
    .alloc 19 <|  -- 320: xProbeRotRad = np.pi / 180.0 * xProbeRotDeg
    .alloc 20 <|  -- 321: xProbePlusCoord = np.array([np.sin(xProbeRotRad) * spotSepPi
    .alloc 21 <|  -- 325: xProbeMinusCoord = np.array([np.sin(xProbeRotRad + np.pi) * 
    .call [22] 108 [[18], [17], [10], [20], [20], [11], []] <|  -- 330: circle
    .call [23] 108 [[18], [17], [10], [21], [21], [11], []] <|  -- 332: circle
    .alloc 24 <|  -- 335: xProbePlusSum = np.sum(xProbePlusMask * imageSpotted)
    .alloc 25 <|  -- 336: xProbeMinusSum = np.sum(xProbeMinusMask * imageSpotted)
    .alloc 26 <|  -- 339: minVal = np.finfo(float).eps
    .branch (  -- 340: if xProbeMinusSum <= 0:
      .bind 25 [26] <|  -- 341: xProbeMinusSum = minVal
      .done)
      (
      .done) <|
    .branch (  -- 342: if xProbePlusSum <= 0:
      .bind 24 [26] <|  -- 343: xProbePlusSum = minVal
      .done)
      (
      .done) <|
    .alloc 27 <|  -- 346: xRatio = xProbePlusSum / xProbeMinusSum
    .branch (  -- 347: if powerOfFit == 1:
      .call [28] 17 [[13], [27]] <|  -- 348: calc_offset_linear
      .call [29] 17 [[13], [8]] <|  -- 349: calc_offset_linear
      .done)
      (
      .branch (  -- 351: if powerOfFit == 2:
        .call [28] 16 [[13], [14], [27]] <|  -- 352: calc_offset_quadratic
        .call [29] 16 [[13], [14], [8]] <|  -- 355: calc_offset_quadratic
        .done)
        (
        .done) <|
      .done) <|
    .alloc 28 <|  -- 359: xOffsetStarFromMask = xOffsetStarFromMask - xOffsetTarget
    .call [28] 15 [[28], [12]] <|  -- 361: bound_value
    .branch (  -- 364: if not maskIsInsideSpots:
      .write 28 <|  -- 365: xOffsetStarFromMask *= -1
      .done)
      (
      .done) <|
    .ret [28]  -- 367: return xOffsetStarFromMask

/-- `compute_starting_commands_for_flight`, `coralign/gainmap/gainmap.py` lines 10-65. Variables: 0 `flatCommandMap`, 1 `deltaHeightMap`, 2 `fnRefCube`, 3 `fnRefCommandVec`, 4 `flatHeightMap`, 5 `startingHeightMap`, 6 `refHeightCube`, 7 `maxHeightMap`, 8 `minHeightMap`, 9 `startingCommandMap`. -/
def p20_compute_starting_commands_for_flight : Fn where
  name := "gainmap.gainmap.compute_starting_commands_for_flight"
  params := 4
  body :=
    .call [] 59 [[0], [], []] <|  -- 37: twoD_array
    .call [] 59 [[1], [], []] <|  -- 38: twoD_array
    .call [4] 24 [[0], [2], [3]] <|  -- 43: compute_heights_for_command_map
    .alloc 5 <|  -- 46: startingHeightMap = flatHeightMap + deltaHeightMap
    .alloc 6 <|  -- 52: refHeightCube = fits.getdata(fnRefCube)
    .call [] 61 [[6], [], []] <|  -- 53: threeD_array
    .bind 7 [6] <|  -- 54: maxHeightMap = refHeightCube[-1, :, :]
    .bind 8 [6] <|  -- 55: minHeightMap = refHeightCube[0, :, :]
    .write 5 <|  -- 56: startingHeightMap[startingHeightMap < minHeightMap] = minHei
    .write 5 <|  -- 58: startingHeightMap[startingHeightMap > maxHeightMap] = maxHei
    .call [9] 23 [[5], [2], [3]] <|  -- 61: compute_commands_for_height_map
    .ret [9]  -- 65: return startingCommandMap

/-- `compute_gainmap`, `coralign/gainmap/gainmap.py` lines 68-120. Variables: 0 `commandMap`, 1 `fnRefCube`, 2 `fnRefCommandVec`, 3 `_`, 4 `meanCommandVec`, 5 `gainCube`, 6 `nRows`, 7 `nCols`, 8 `gainMap`, 9 `iCol`, 10 `iRow`, 11 `interpolator`. -/
def p21_compute_gainmap : Fn where
  name := "gainmap.gainmap.compute_gainmap"
  params := 3
  body :=
    .call [3, 4] 26 [[2]] <|  -- 98: compute_diff_and_mean_of_vector
    .call [5] 25 [[1], [2]] <|  -- 99: compute_gain_cube_from_height_cube
    .call [] 59 [[0], [], []] <|  -- 102: twoD_array
    .alloc 6 <|  -- 103: nRows = commandMap.shape[0]
    .alloc 7 <|  -- 104: nCols = commandMap.shape[1]
    .alloc 8 <|  -- 110: gainMap = np.zeros((nRows, nCols))
    .loop (  -- 111: for iCol in range(nCols):
      .alloc 9 <|  -- 111: for iCol in range(nCols):
      .loop (  -- 112: for iRow in range(nRows):
        .alloc 10 <|  -- 112: for iRow in range(nRows):
        .bind 11 [4, 5] <|  -- 113: interpolator = interp1d(meanCommandVec, gainCube[:, iRow, iC
        .write 8 <|  -- 118: gainMap[iRow, iCol] = interpolator(commandMap[iRow, iCol])
        .done) <|
      .done) <|
    .ret [8]  -- 120: return gainMap

/-- `compute_delta_height_map_from_command_maps`, `coralign/gainmap/gm_util.py` lines 9-53. Variables: 0 `commandMapBefore`, 1 `commandMapAfter`, 2 `fnRefCube`, 3 `fnRefCommandVec`, 4 `heightMapBefore`, 5 `heightMapAfter`, 6 `deltaHeightMap`. -/
def p22_compute_delta_height_map_from_command_maps : Fn where
  name := "gainmap.gm_util.compute_delta_height_map_from_command_maps"
  params := 4
  body :=
    .call [] 59 [[0], [], []] <|  -- 39: twoD_array
    .call [] 59 [[1], [], []] <|  -- 40: twoD_array
    .call [4] 24 [[0], [2], [3]] <|  -- 45: compute_heights_for_command_map
    .call [5] 24 [[1], [2], [3]] <|  -- 48: compute_heights_for_command_map
    .alloc 6 <|  -- 51: deltaHeightMap = heightMapAfter - heightMapBefore
    .ret [6]  -- 53: return deltaHeightMap

/-- `compute_commands_for_height_map`, `coralign/gainmap/gm_util.py` lines 56-108. Variables: 0 `heightMap`, 1 `fnRefCube`, 2 `fnRefCommandVec`, 3 `nRows`, 4 `nCols`, 5 `refHeightCube`, 6 `refCommandVec`, 7 `commandMap`, 8 `iCol`, 9 `iRow`, 10 `interpolator`. -/
def p23_compute_commands_for_height_map : Fn where
  name := "gainmap.gm_util.compute_commands_for_height_map"
  params := 3
  body :=
    .call [] 59 [[0], [], []] <|  -- 82: twoD_array
    .alloc 3 <|  -- 83: nRows = heightMap.shape[0]
    .alloc 4 <|  -- 84: nCols = heightMap.shape[1]
    .alloc 5 <|  -- 86: refHeightCube = fits.getdata(fnRefCube)
    .call [] 61 [[5], [], []] <|  -- 87: threeD_array
    .alloc 6 <|  -- 93: refCommandVec = fits.getdata(fnRefCommandVec)
    .call [] 58 [[6], [], []] <|  -- 94: oneD_array
    .call [] 27 [[6]] <|  -- 95: verify_vector_has_unique_values
    .call [] 28 [[6]] <|  -- 96: verify_vector_is_presorted
    .alloc 7 <|  -- 98: commandMap = np.zeros((nRows, nCols))
    .loop (  -- 99: for iCol in range(nCols):
      .alloc 8 <|  -- 99: for iCol in range(nCols):
      .loop (  -- 100: for iRow in range(nRows):
        .alloc 9 <|  -- 100: for iRow in range(nRows):
        .bind 10 [5, 6] <|  -- 101: interpolator = interp1d(refHeightCube[:, iRow, iCol], refCom
        .write 7 <|  -- 106: commandMap[iRow, iCol] = interpolator(heightMap[iRow, iCol])
        .done) <|
      .done) <|
    .ret [7]  -- 108: return commandMap

/-- `compute_heights_for_command_map`, `coralign/gainmap/gm_util.py` lines 111-171. Variables: 0 `commandMap`, 1 `fnRefCube`, 2 `fnRefCommandVec`, 3 `nRows`, 4 `nCols`, 5 `refHeightCube`, 6 `refCommandVec`, 7 `heightMap`, 8 `iCol`, 9 `iRow`, 10 `interpolator`. -/
def p24_compute_heights_for_command_map : Fn where
  name := "gainmap.gm_util.compute_heights_for_command_map"
  params := 3
  body :=
    .call [] 59 [[0], [], []] <|  -- 145: twoD_array
    .alloc 3 <|  -- 146: nRows = commandMap.shape[0]
    .alloc 4 <|  -- 147: nCols = commandMap.shape[1]
    .alloc 5 <|  -- 149: refHeightCube = fits.getdata(fnRefCube)
    .call [] 61 [[5], [], []] <|  -- 150: threeD_array
    .alloc 6 <|  -- 156: refCommandVec = fits.getdata(fnRefCommandVec)
    .call [] 58 [[6], [], []] <|  -- 157: oneD_array
    .call [] 27 [[6]] <|  -- 158: verify_vector_has_unique_values
    .call [] 28 [[6]] <|  -- 159: verify_vector_is_presorted
    .alloc 7 <|  -- 161: heightMap = np.zeros((nRows, nCols))
    .loop (  -- 162: for iCol in range(nCols):
      .alloc 8 <|  -- 162: for iCol in range(nCols):
      .loop (  -- 163: for iRow in range(nRows):
        .alloc 9 <|  -- 163: for iRow in range(nRows):
        .bind 10 [5, 6] <|  -- 164: interpolator = interp1d(refCommandVec, refHeightCube[:, iRow
        .write 7 <|  -- 169: heightMap[iRow, iCol] = interpolator(commandMap[iRow, iCol])
        .done) <|
      .done) <|
    .ret [7]  -- 171: return heightMap

/-- `compute_gain_cube_from_height_cube`, `coralign/gainmap/gm_util.py` lines 174-213. Variables: 0 `fnRefCube`, 1 `fnRefCommandVec`, 2 `diffVec`, 3 `meanVec`, 4 `refHeightCube`, 5 `nSlicesHeight`, 6 `nRows`, 7 `nCols`, 8 `nSlicesGain`, 9 `gainCube`, 10 `ii`. -/
def p25_compute_gain_cube_from_height_cube : Fn where
  name := "gainmap.gm_util.compute_gain_cube_from_height_cube"
  params := 2
  body :=
    .call [2, 3] 26 [[1]] <|  -- 193: compute_diff_and_mean_of_vector
    .alloc 4 <|  -- 195: refHeightCube = fits.getdata(fnRefCube)
    .call [] 61 [[4], [], []] <|  -- 196: threeD_array
    .alloc 5 <|  -- 198: nSlicesHeight = refHeightCube.shape[0]
    .alloc 6 <|  -- 199: nRows = refHeightCube.shape[1]
    .alloc 7 <|  -- 200: nCols = refHeightCube.shape[2]
    .alloc 8 <|  -- 205: nSlicesGain = nSlicesHeight - 1
    .alloc 9 <|  -- 206: gainCube = np.zeros((nSlicesGain, nRows, nCols))
    .loop (  -- 207: for ii in range(nSlicesGain):
      .alloc 10 <|  -- 207: for ii in range(nSlicesGain):
      .write 9 <|  -- 208: gainCube[ii, :, :] = (refHeightCube[ii + 1, :, :] - refHeigh
      .done) <|
    .ret [9]  -- 213: return gainCube

/-- `compute_diff_and_mean_of_vector`, `coralign/gainmap/gm_util.py` lines 216-252. Variables: 0 `fnVec`, 1 `vecIn`, 2 `nOut`, 3 `diffVec`, 4 `meanVec`, 5 `ii`. -/
def p26_compute_diff_and_mean_of_vector : Fn where
  name := "gainmap.gm_util.compute_diff_and_mean_of_vector"
  params := 1
  body :=
    .alloc 1 <|  -- 238: vecIn = fits.getdata(fnVec)
    .call [] 58 [[1], [], []] <|  -- 241: oneD_array
    .call [] 27 [[1]] <|  -- 242: verify_vector_has_unique_values
    .call [] 28 [[1]] <|  -- 243: verify_vector_is_presorted
    .alloc 2 <|  -- 245: nOut = len(vecIn) - 1
    .alloc 3 <|  -- 246: diffVec = np.zeros(nOut)
    .alloc 4 <|  -- 247: meanVec = np.zeros(nOut)
    .loop (  -- 248: for ii in range(nOut):
      .alloc 5 <|  -- 248: for ii in range(nOut):
      .write 3 <|  -- 249: diffVec[ii] = vecIn[ii + 1] - vecIn[ii]
      .write 4 <|  -- 250: meanVec[ii] = (vecIn[ii + 1] + vecIn[ii]) / 2
      .done) <|
    .ret [3, 4]  -- 252: return (diffVec, meanVec)

/-- `verify_vector_has_unique_values`, `coralign/gainmap/gm_util.py` lines 255-266. Variables: 0 `vecIn`, 1 `valuesAreUnique`. -/
def p27_verify_vector_has_unique_values : Fn where
  name := "gainmap.gm_util.verify_vector_has_unique_values"
  params := 1
  body :=
    .call [] 58 [[0], [], []] <|  -- 258: oneD_array
    .alloc 0 <|  -- 261: vecIn = np.array(vecIn)
    .alloc 1 <|  -- 262: valuesAreUnique = vecIn.size == np.unique(vecIn).size
    .alloc 2 <|  -- 266: return None
    .ret [2]  -- 266: return None

/-- `verify_vector_is_presorted`, `coralign/gainmap/gm_util.py` lines 269-282. Variables: 0 `vecIn`, 1 `valuesAreSorted`. -/
def p28_verify_vector_is_presorted : Fn where
  name := "gainmap.gm_util.verify_vector_is_presorted"
  params := 1
  body :=
    .call [] 58 [[0], [], []] <|  -- 272: oneD_array
    .alloc 0 <|  -- 275: vecIn = np.array(vecIn)
    .alloc 1 <|  -- 276: valuesAreSorted = np.allclose(vecIn, np.sort(vecIn), atol=np
    .alloc 2 <|  -- 282: return None
    .ret [2]  -- 282: return None

/-- `rotate_shift_downsample_amplitude_mask`, `coralign/maskgen/maskgen.py` lines 18-107. Variables: 0 `maskIn`, 1 `rotDeg`, 2 `mag`, 3 `xOffset`, 4 `yOffset`, 5 `padFac`, 6 `flipx`, 7 `newSideLength`, 8 `dxIn`, 9 `dxOut`, 10 `nMaskIn`, 11 `nMaskOut`, 12 `x0`, 13 `X0`, 14 `Y0`, 15 `R0`, 16 `Window`, 17 `f_window`, 18 `f_maskIn`, 19 `A`, 20 `x1`, 21 `y1`, 22 `interp_spline`, 23 `Atemp`, 24 `maskOut`. -/
def p29_rotate_shift_downsample_amplitude_mask : Fn where
  name := "maskgen.maskgen.rotate_shift_downsample_amplitude_mask"
  params := 7
  body :=
    .call [] 59 [[0], [], []] <|  -- 49: twoD_array
    .call [] 62 [[1], [], []] <|  -- 50: real_scalar
    .alloc 1 <|  -- 50: rotDeg is a scalar, string or boolean
    .call [] 56 [[2], [], []] <|  -- 51: real_positive_scalar
    .alloc 2 <|  -- 51: mag is a scalar, string or boolean
    .call [] 62 [[3], [], []] <|  -- 54: real_scalar
    .alloc 3 <|  -- 54: xOffset is a scalar, string or boolean
    .call [] 62 [[4], [], []] <|  -- 55: real_scalar
    .alloc 4 <|  -- 55: yOffset is a scalar, string or boolean
    .call [] 56 [[5], [], []] <|  -- 56: real_positive_scalar
    .alloc 5 <|  -- 56: padFac is a scalar, string or boolean
    .call [] 68 [[6], [], []] <|  -- 59: boolean
    .alloc 6 <|  -- 59: flipx is a scalar, string or boolean
    .call [7] 94 [[]] <|  -- 62: ceil_odd
    .call [0] 104 [[0], [7], []] <|  -- 63: pad_crop
    .branch (  -- 66: if flipx:
      .bind 0 [0] <|  -- 67: maskIn = np.fliplr(maskIn)
      .done)
      (
      .done) <|
    .alloc 8 <|  -- 70: dxIn = 1.0
    .alloc 9 <|  -- 71: dxOut = 1.0 / mag
    .alloc 10 <|  -- 72: nMaskIn = maskIn.shape[0]
    .call [11] 94 [[]] <|  -- 73: ceil_odd
    .alloc 12 <|  -- 80: x0 = np.arange(-(nMaskIn - 1.0) / 2.0, nMaskIn / 2.0, 1) * d
    .alloc 13 <|  -- 81: [X0, Y0] = np.meshgrid(x0, x0)
    .alloc 14 <|  -- 81: [X0, Y0] = np.meshgrid(x0, x0)
    .alloc 15 <|  -- 82: R0 = np.sqrt(X0 ** 2 + Y0 ** 2)
    .alloc 16 <|  -- 83: Window = 0 * R0
    .write 16 <|  -- 84: Window[R0 <= dxOut / 2.0] = 1
    .alloc 16 <|  -- 85: Window = Window / np.sum(Window)
    .alloc 17 <|  -- 89: f_window = ifft2(ifftshift(Window)) * nMaskIn
    .alloc 18 <|  -- 90: f_maskIn = ifft2(ifftshift(maskIn)) * nMaskIn
    .alloc 19 <|  -- 91: A = fftshift(fft2(f_window * f_maskIn))
    .bind 19 [19] <|  -- 92: A = np.real(A)
    .branch (  -- 94: if not rotDeg == 0:
      .alloc 19 <|  -- 95: A = rotate(A, -rotDeg, reshape=False)
      .done)
      (
      .done) <|
    .alloc 20 <|  -- 97: x1 = (np.arange(-(nMaskOut - 1.0) / 2.0, nMaskOut / 2.0, 1) 
    .alloc 21 <|  -- 98: y1 = (np.arange(-(nMaskOut - 1.0) / 2.0, nMaskOut / 2.0, 1) 
    .bind 22 [12, 19] <|  -- 101: interp_spline = RectBivariateSpline(x0, x0, A)
    .bind 23 [20, 21, 22] <|  -- 102: Atemp = interp_spline(y1, x1)
    .alloc 24 <|  -- 104: maskOut = np.zeros((nMaskOut + 1, nMaskOut + 1))
    .write 24 <|  -- 105: maskOut[1:, 1:] = np.real(Atemp)
    .ret [24]  -- 107: return maskOut

/-- `gen_hlc_occulter`, `coralign/maskgen/maskgen.py` lines 110-272. Variables: 0 `lam`, 1 `scaleWithWavelength`, 2 `shapeOut`, 3 `fnCalibData`, 4 `fnOccData`, 5 `xOffset`, 6 `yOffset`, 7 `data_path`, 8 `inp`, 9 `ppl`, 10 `rotDeg`, 11 `aoi`, 12 `rOccLamD`, 13 `fnPMGI`, 14 `lam0`, 15 `hTi`, 16 `hNi`, 17 `dx`, 18 `FN`, 19 `polState`, 20 `hRefCoef`, 21 `padFac`, 22 `minOversizeFacForFFT`, 23 `pmgi`, 24 `nFPM0`, 25 `footprint`, 26 `indOcc`, 27 `indSubstrate`, 28 `hRef`, 29 `hTiVec`, 30 `hNiVec`, 31 `hPMGIVec`, 32 `tCoef`, 33 `rCoef`, 34 `tCoefSub`, 35 `rCoefSub`, 36 `occStartFlat`, 37 `occStart`, 38 `pplStart`, 39 `pplEnd`, 40 `nPadEnd`, 41 `nPadMiddle`, 42 `pplMiddle`, 43 `mag`, 44 `occMiddleReal`, 45 `occMiddleImag`, 46 `occMiddle`, 48 `occFT`, 49 `occEnd`, 51 `occ`. -/
def p30_gen_hlc_occulter : Fn where
  name := "maskgen.maskgen.gen_hlc_occulter"
  params := 8
  body :=
    .call [] 56 [[0], [], []] <|  -- 163: real_positive_scalar
    .alloc 0 <|  -- 163: lam is a scalar, string or boolean
    .call [] 58 [[2], [], []] <|  -- 164: oneD_array
    .call [] 64 [[2], [], []] <|  -- 167: positive_scalar_integer
    .call [] 64 [[2], [], []] <|  -- 168: positive_scalar_integer
    .call [] 68 [[1], [], []] <|  -- 169: boolean
    .alloc 1 <|  -- 169: scaleWithWavelength is a scalar, string or boolean
    .call [] 62 [[5], [], []] <|  -- 170: real_scalar
    .alloc 5 <|  -- 170: xOffset is a scalar, string or boolean
    .call [] 62 [[6], [], []] <|  -- 171: real_scalar
    .alloc 6 <|  -- 171: yOffset is a scalar, string or boolean
    .call [8] 92 [[3], []] <|  -- 175: loadyaml
    .bind 9 [8] <|  -- 176: ppl = inp['ppl']
    .bind 10 [8] <|  -- 177: rotDeg = inp['rotDeg']
    .bind 11 [8] <|  -- 178: aoi = inp['aoi']
    .call [8] 92 [[4], []] <|  -- 181: loadyaml
    .bind 12 [8] <|  -- 182: rOccLamD = inp['rOccLamD']
    .bind 13 [8] <|  -- 183: fnPMGI = inp['fnPMGI']
    .bind 14 [8] <|  -- 184: lam0 = inp['lam0']
    .bind 15 [8] <|  -- 185: hTi = inp['hTi']
    .bind 16 [8] <|  -- 186: hNi = inp['hNi']
    .bind 17 [8] <|  -- 187: dx = inp['dx']
    .bind 18 [8] <|  -- 188: FN = inp['FN']
    .bind 19 [8] <|  -- 189: polState = inp['polState']
    .bind 20 [8] <|  -- 192: hRefCoef = inp['hRefCoef']
    .bind 21 [8] <|  -- 194: padFac = inp['padFac']
    .bind 22 [8] <|  -- 195: minOversizeFacForFFT = inp['minOversizeFacForFFT']
    .call [] 56 [[9], [], []] <|  -- 198: real_positive_scalar
    .alloc 9 <|  -- 198: ppl is a scalar, string or boolean
    .call [] 62 [[10], [], []] <|  -- 199: real_scalar
    .alloc 10 <|  -- 199: rotDeg is a scalar, string or boolean
    .call [] 62 [[11], [], []] <|  -- 200: real_scalar
    .alloc 11 <|  -- 200: aoi is a scalar, string or boolean
    .call [] 56 [[14], [], []] <|  -- 202: real_positive_scalar
    .alloc 14 <|  -- 202: lam0 is a scalar, string or boolean
    .call [] 56 [[15], [], []] <|  -- 203: real_positive_scalar
    .alloc 15 <|  -- 203: hTi is a scalar, string or boolean
    .call [] 56 [[16], [], []] <|  -- 204: real_positive_scalar
    .alloc 16 <|  -- 204: hNi is a scalar, string or boolean
    .call [] 56 [[17], [], []] <|  -- 205: real_positive_scalar
    .alloc 17 <|  -- 205: dx is a scalar, string or boolean
    .call [] 56 [[18], [], []] <|  -- 206: real_positive_scalar
    .alloc 18 <|  -- 206: FN is a scalar, string or boolean
    .call [] 65 [[19], [], []] <|  -- 207: nonnegative_scalar_integer
    .alloc 19 <|  -- 207: polState is a scalar, string or boolean
    .call [] 56 [[20], [], []] <|  -- 210: real_positive_scalar
    .alloc 20 <|  -- 210: hRefCoef is a scalar, string or boolean
    .call [] 63 [[11], [], []] <|  -- 211: real_nonnegative_scalar
    .alloc 11 <|  -- 211: aoi is a scalar, string or boolean
    .call [] 56 [[21], [], []] <|  -- 214: real_positive_scalar
    .alloc 21 <|  -- 214: padFac is a scalar, string or boolean
    .call [] 56 [[22], [], []] <|  -- 217: real_positive_scalar
    .alloc 22 <|  -- 217: minOversizeFacForFFT is a scalar, string or boolean
    .alloc 23 <|  -- 223: pmgi = fits.getdata(os.path.join(data_path, fnPMGI))
    .call [24] 94 [[]] <|  -- 224: ceil_odd
    .call [23] 104 [[23], [24], []] <|  -- 225: pad_crop
    .alloc 25 <|  -- 226: footprint = np.zeros_like(pmgi, dtype=int)
    .write 25 <|  -- 227: footprint[pmgi > 0] = 1
    .alloc 26 <|  -- 230: indOcc = np.nonzero(footprint.flatten() == 1)[0]
    .alloc 27 <|  -- 231: indSubstrate = np.nonzero(footprint.flatten() == 0)[0]
    .alloc 28 <|  -- 234: hRef = hRefCoef * lam0
    .alloc 29 <|  -- 235: hTiVec = hTi * np.ones_like(indOcc)
    .alloc 30 <|  -- 236: hNiVec = hNi * np.ones_like(indOcc)
    .alloc 31 <|  -- 237: hPMGIVec = pmgi.flatten()[indOcc]
    .call [32, 33] 31 [[0], [11], [29], [30], [31], [28], [19], [], []] <|  -- 238: calc_complex_occulter
    .call [34, 35] 31 [[0], [11], [], [], [], [28], [19], [], []] <|  -- 240: calc_complex_occulter
    .alloc 36 <|  -- 242: occStartFlat = np.zeros(nFPM0 * nFPM0, dtype=complex)
    .write 36 <|  -- 243: occStartFlat[indSubstrate] = tCoefSub[0]
    .write 36 <|  -- 244: occStartFlat[indOcc] = tCoef
    .bind 37 [24, 36] <|  -- 245: occStart = occStartFlat.reshape((nFPM0, nFPM0))
    .alloc 37 <|  -- 246: occStart = occStart / occStart[0, 0]
    .alloc 38 <|  -- 249: pplStart = FN * lam0 / dx
    .branch (  -- 250: if scaleWithWavelength:
      .alloc 39 <|  -- 251: pplEnd = lam0 / lam * ppl
      .done)
      (
      .bind 39 [9] <|  -- 253: pplEnd = ppl
      .done) <|
    .alloc 40 <|  -- 254: nPadEnd = int(np.ceil(2 * rOccLamD * pplEnd * minOversizeFac
    .alloc 41 <|  -- 255: nPadMiddle = int(np.floor(pplStart / pplEnd * nPadEnd))
    .alloc 42 <|  -- 256: pplMiddle = nPadMiddle / nPadEnd * pplEnd
    .alloc 43 <|  -- 257: mag = pplMiddle / pplStart
    .call [44] 29 [[], [10], [43], [], [], [21], []] <|  -- 258: rotate_shift_downsample_amplitude_mask
    .call [45] 29 [[], [10], [43], [], [], [21], []] <|  -- 261: rotate_shift_downsample_amplitude_mask
    .alloc 46 <|  -- 264: occMiddle = occMiddleReal + 1j * occMiddleImag
    .call [47] 104 [[46], [41], []] <|  -- 265: pad_crop
    .alloc 46 <|  -- 265: occMiddle = pad_crop(occMiddle, (nPadMiddle, nPadMiddle)) + 
    .call [48] 104 [[], [40], []] <|  -- 268: pad_crop
    .alloc 49 <|  -- 269: occEnd = fftshift(fft2(ifftshift(occFT)))
    .call [50] 104 [[], [2], []] <|  -- 270: pad_crop
    .alloc 51 <|  -- 270: occ = pad_crop(occEnd - occStart[0, 0], shapeOut) + occStart
    .ret [51]  -- 272: return occ

/-- `calc_complex_occulter`, `coralign/maskgen/util/thinfilm.py` lines 9-160. Variables: 0 `lam`, 1 `aoi`, 2 `t_Ti_vec`, 3 `t_Ni_vec`, 4 `t_PMGI_vec`, 5 `d0`, 6 `pol`, 7 `flagOPD`, 8 `SUBSTRATE`, 9 `lam_nm`, 10 `lam_um`, 11 `lam_um2`, 12 `theta`, 13 `localpath`, 14 `fnFS`, 15 `fsCoef`, 16 `A1`, 17 `A2`, 18 `A3`, 19 `B1`, 20 `B2`, 21 `B3`, 22 `n_substrate`, 23 `npmgi`, 24 `Nmetal`, 25 `fnTi`, 26 `titanium`, 27 `lam_ti`, 28 `n_ti`, 29 `k_ti`, 30 `nti`, 31 `kti`, 32 `fnNickel`, 33 `vnickel`, 34 `lam_nickel`, 35 `n_nickel`, 36 `k_nickel`, 37 `nnickel`, 38 `knickel`, 39 `tCoef`, 40 `rCoef`, 41 `ii`, 42 `dni`, 43 `dti`, 44 `dpm`, 45 `nvec`, 46 `dvec`, 47 `dummy1`, 48 `dummy2`, 49 `rr0`, 50 `tt0`, 51 `rr1`, 52 `tt1`, 53 `rr`, 54 `tt`, 55 `dumm1`. -/
def p31_calc_complex_occulter : Fn where
  name := "maskgen.util.thinfilm.calc_complex_occulter"
  params := 9
  body :=
    .call [] 56 [[0], [], []] <|  -- 52: real_positive_scalar
    .alloc 0 <|  -- 52: lam is a scalar, string or boolean
    .call [] 63 [[1], [], []] <|  -- 53: real_nonnegative_scalar
    .alloc 1 <|  -- 53: aoi is a scalar, string or boolean
    .call [] 58 [[2], [], []] <|  -- 56: oneD_array
    .call [] 58 [[3], [], []] <|  -- 57: oneD_array
    .call [] 58 [[4], [], []] <|  -- 58: oneD_array
    .call [] 56 [[5], [], []] <|  -- 62: real_positive_scalar
    .alloc 5 <|  -- 62: d0 is a scalar, string or boolean
    .call [] 66 [[6], [], []] <|  -- 63: scalar_integer
    .alloc 6 <|  -- 63: pol is a scalar, string or boolean
    .alloc 9 <|  -- 73: lam_nm = lam * 1000000000.0
    .alloc 10 <|  -- 74: lam_um = lam * 1000000.0
    .alloc 11 <|  -- 75: lam_um2 = lam_um * lam_um
    .alloc 12 <|  -- 76: theta = aoi * (np.pi / 180.0)
    .alloc 13 <|  -- 78: localpath = os.path.dirname(os.path.dirname(os.path.abspath(
    .branch (  -- 83: if SUBSTRATE.upper() in ('FS', 'FUSEDSILICA'):
      .alloc 14 <|  -- 84: fnFS = os.path.join(localpath, 'materialdata', 'fused_silica
      .alloc 15 <|  -- 86: fsCoef = np.loadtxt(fnFS, delimiter='\t', unpack=False, comm
      .bind 16 [15] <|  -- 87: A1 = fsCoef[0]
      .bind 17 [15] <|  -- 88: A2 = fsCoef[1]
      .bind 18 [15] <|  -- 89: A3 = fsCoef[2]
      .bind 19 [15] <|  -- 90: B1 = fsCoef[3]
      .bind 20 [15] <|  -- 91: B2 = fsCoef[4]
      .bind 21 [15] <|  -- 92: B3 = fsCoef[5]
      .alloc 22 <|  -- 93: n_substrate = np.sqrt(1 + A1 * lam_um2 / (lam_um2 - B1) + A2
      .done)
      (
      .raises) <|  -- 97: raise
    .alloc 23 <|  -- 100: npmgi = 1.524 + 0.005176 / lam_um ** 2 + 0.0002105 / lam_um 
    .alloc 24 <|  -- 104: Nmetal = len(t_Ni_vec)
    .alloc 2 <|  -- 105: t_Ti_vec = t_Ti_vec * np.ones(Nmetal)
    .alloc 25 <|  -- 106: fnTi = os.path.join(localpath, 'materialdata', 'titanium_dat
    .alloc 26 <|  -- 108: titanium = np.loadtxt(fnTi, delimiter='\t', unpack=False, co
    .bind 27 [26] <|  -- 109: lam_ti = titanium[:, 0]
    .bind 28 [26] <|  -- 110: n_ti = titanium[:, 1]
    .bind 29 [26] <|  -- 111: k_ti = titanium[:, 2]
    .alloc 30 <|  -- 112: nti = np.interp(lam_nm, lam_ti, n_ti)
    .alloc 31 <|  -- 113: kti = np.interp(lam_nm, lam_ti, k_ti)
    .alloc 32 <|  -- 116: fnNickel = os.path.join(localpath, 'materialdata', 'nickel_d
    .alloc 33 <|  -- 118: vnickel = np.loadtxt(fnNickel, delimiter='\t', unpack=False,
    .bind 34 [33] <|  -- 119: lam_nickel = vnickel[:, 0]
    .bind 35 [33] <|  -- 120: n_nickel = vnickel[:, 1]
    .bind 36 [33] <|  -- 121: k_nickel = vnickel[:, 2]
    .alloc 37 <|  -- 122: nnickel = np.interp(lam_nm, lam_nickel, n_nickel)
    .alloc 38 <|  -- 123: knickel = np.interp(lam_nm, lam_nickel, k_nickel)
    .alloc 39 <|  -- 126: tCoef = np.zeros((Nmetal,), dtype=complex)
    .alloc 40 <|  -- 127: rCoef = np.zeros((Nmetal,), dtype=complex)
    .loop (  -- 129: for ii in range(Nmetal):
      .alloc 41 <|  -- 129: for ii in range(Nmetal):
      .bind 42 [3] <|  -- 130: dni = t_Ni_vec[ii]
      .bind 43 [2] <|  -- 131: dti = t_Ti_vec[ii]
      .bind 44 [4] <|  -- 132: dpm = t_PMGI_vec[ii]
      .alloc 45 <|  -- 134: nvec = np.array([1, 1, npmgi, nnickel - 1j * knickel, nti - 
      .alloc 46 <|  -- 136: dvec = np.array([d0 - dpm - dni - dti, dpm, dni, dti])
      .branch (  -- 139: if pol == 2:
        .call [47, 48, 49, 50] 32 [[45], [46], [12], [0], []] <|  -- 140: solver
        .call [47, 48, 51, 52] 32 [[45], [46], [12], [0], []] <|  -- 142: solver
        .alloc 53 <|  -- 144: rr = (rr0 + rr1) / 2.0
        .alloc 54 <|  -- 145: tt = (tt0 + tt1) / 2.0
        .done)
        (
        .branch (  -- 146: if pol == 0 or pol == 1:
          .call [55, 48, 53, 54] 32 [[45], [46], [12], [0], []] <|  -- 147: solver
          .done)
          (
          .raises) <|  -- 150: raise
        .done) <|
      .branch (  -- 153: if not flagOPD:
        .write 39 <|  -- 154: tCoef[ii] = np.conj(tt)
        .write 40 <|  -- 155: rCoef[ii] = np.conj(rr)
        .done)
        (
        .write 39 <|  -- 157: tCoef[ii] = tt
        .write 40 <|  -- 158: rCoef[ii] = rr
        .done) <|
      .done) <|
    .ret [39, 40]  -- 160: return (tCoef, rCoef)

/-- `solver`, `coralign/maskgen/util/thinfilm.py` lines 163-251. Variables: 0 `n`, 1 `d0`, 2 `theta`, 3 `lam`, 4 `tetm`, 5 `N`, 6 `d`, 7 `kx`, 8 `kz`, 9 `kzz`, 10 `eep`, 11 `eem`, 12 `i1`, 13 `i2`, 14 `tin`, 15 `ri`, 16 `A`, 17 `i`, 18 `rr`, 19 `tt`, 20 `R`, 21 `Pn`, 22 `T`. -/
def p32_solver : Fn where
  name := "maskgen.util.thinfilm.solver"
  params := 5
  body :=
    .call [] 58 [[0], [], []] <|  -- 196: oneD_array
    .call [] 58 [[1], [], []] <|  -- 197: oneD_array
    .alloc 5 <|  -- 198: N = len(n)
    .call [] 63 [[2], [], []] <|  -- 202: real_nonnegative_scalar
    .alloc 2 <|  -- 202: theta is a scalar, string or boolean
    .call [] 56 [[3], [], []] <|  -- 205: real_positive_scalar
    .alloc 3 <|  -- 205: lam is a scalar, string or boolean
    .bind 0 [0] <|  -- 209: n = np.asarray(n)
    .bind 1 [1] <|  -- 210: d0 = np.asarray(d0)
    .alloc 6 <|  -- 212: d = np.hstack((0, d0.reshape(len(d0)), 0))
    .alloc 7 <|  -- 214: kx = 2 * np.pi * n[0] * np.sin(theta) / lam
    .alloc 8 <|  -- 216: kz = -np.sqrt((2 * np.pi * n / lam) ** 2 - kx * kx)
    .branch (  -- 218: if tetm:
      .alloc 9 <|  -- 219: kzz = kz / (n * n)
      .done)
      (
      .bind 9 [8] <|  -- 221: kzz = kz
      .done) <|
    .alloc 10 <|  -- 223: eep = np.exp(-1j * kz * d)
    .alloc 11 <|  -- 224: eem = np.exp(1j * kz * d)
    .alloc 12 <|  -- 226: i1 = np.arange(N - 1)
    .alloc 13 <|  -- 227: i2 = np.arange(1, N)
    .alloc 14 <|  -- 228: tin = 0.5 * (kzz[i1] + kzz[i2]) / kzz[i1]
    .alloc 15 <|  -- 229: ri = (kzz[i1] - kzz[i2]) / (kzz[i1] + kzz[i2])
    .alloc 16 <|  -- 231: A = np.eye(2, dtype=complex)
    .loop (  -- 232: for i in range(N - 1):
      .alloc 17 <|  -- 232: for i in range(N - 1):
      .alloc 16 <|  -- 233: A = A @ np.array(tin[i] * np.array([[eep[i], ri[i] * eep[i]]
      .done) <|
    .alloc 18 <|  -- 236: rr = A[1, 0] / A[0, 0]
    .alloc 19 <|  -- 237: tt = 1 / A[0, 0]
    .alloc 20 <|  -- 241: R = np.abs(rr) ** 2
    .branch (  -- 242: if tetm:
      .alloc 21 <|  -- 243: Pn = np.real(kz[-1] / n[-1] ** 2 / (kz[0] / n[0] ** 2))
      .done)
      (
      .alloc 21 <|  -- 245: Pn = np.real(kz[-1] / kz[0])
      .done) <|
    .alloc 22 <|  -- 248: T = Pn * np.abs(tt) ** 2
    .alloc 19 <|  -- 249: tt = np.sqrt(Pn) * tt
    .ret [20, 22, 18, 19]  -- 251: return [R, T, rr, tt]

/-- `calc_star_location_from_spots`, `coralign/occastro/occastro.py` lines 8-142. Variables: 0 `spotArray`, 1 `xOffsetGuess`, 2 `yOffsetGuess`, 3 `fnYAML`, 4 `tuningParamDict`, 5 `spotSepPix`, 6 `roiRadiusPix`, 7 `probeRotVecDeg`, 8 `nSubpixels`, 9 `nSteps`, 10 `stepSize`, 11 `nIter`, 12 `ny`, 13 `nx`, 14 `costFuncMat`, 15 `xOffsetEst`, 16 `yOffsetEst`, 17 `iter_`, 18 `xOffsetVec`, 19 `yOffsetVec`, 20 `iy`, 21 `yOffset`, 22 `ix`, 23 `xOffset`, 24 `roiMask`, 25 `iRot`, 26 `rotDeg`, 27 `rotRad`, 28 `xProbePlusCoord`, 29 `xProbeMinusCoord`. -/
def p33_calc_star_location_from_spots : Fn where
  name := "occastro.occastro.calc_star_location_from_spots"
  params := 4
  body :=
    .call [] 59 [[0], [], []] <|  -- 69: twoD_array
    .call [] 62 [[1], [], []] <|  -- 70: real_scalar
    .alloc 1 <|  -- 70: xOffsetGuess is a scalar, string or boolean
    .call [] 62 [[2], [], []] <|  -- 71: real_scalar
    .alloc 2 <|  -- 71: yOffsetGuess is a scalar, string or boolean
    .call [] 67 [[3], [], []] <|  -- 72: string
    .alloc 3 <|  -- 72: fnYAML is a scalar, string or boolean
    .call [4] 92 [[3], []] <|  -- 74: loadyaml
    .bind 5 [4] <|  -- 75: spotSepPix = tuningParamDict['spotSepPix']
    .bind 6 [4] <|  -- 76: roiRadiusPix = tuningParamDict['roiRadiusPix']
    .bind 7 [4] <|  -- 77: probeRotVecDeg = tuningParamDict['probeRotVecDeg']
    .bind 8 [4] <|  -- 78: nSubpixels = tuningParamDict['nSubpixels']
    .bind 9 [4] <|  -- 79: nSteps = tuningParamDict['nSteps']
    .bind 10 [4] <|  -- 80: stepSize = tuningParamDict['stepSize']
    .bind 11 [4] <|  -- 81: nIter = tuningParamDict['nIter']
    .call [] 56 [[5], [], []] <|  -- 83: real_positive_scalar
    .alloc 5 <|  -- 83: spotSepPix is a scalar, string or boolean
    .call [] 56 [[6], [], []] <|  -- 84: real_positive_scalar
    .alloc 6 <|  -- 84: roiRadiusPix is a scalar, string or boolean
    .call [] 58 [[7], [], []] <|  -- 85: oneD_array
    .call [] 64 [[8], [], []] <|  -- 86: positive_scalar_integer
    .alloc 8 <|  -- 86: nSubpixels is a scalar, string or boolean
    .call [] 64 [[9], [], []] <|  -- 87: positive_scalar_integer
    .alloc 9 <|  -- 87: nSteps is a scalar, string or boolean
    .call [] 56 [[10], [], []] <|  -- 88: real_positive_scalar
    .alloc 10 <|  -- 88: stepSize is a scalar, string or boolean
    .call [] 64 [[11], [], []] <|  -- 89: positive_scalar_integer
    .alloc 11 <|  -- 89: nIter is a scalar, string or boolean
    .alloc 12 <|  -- 91: ny, nx = spotArray.shape
    .alloc 13 <|  -- 91: ny, nx = spotArray.shape
    .alloc 14 <|  -- 92: costFuncMat = np.zeros((nSteps, nSteps))
    .alloc 15 <|  -- 93: xOffsetEst = 0
    .alloc 16 <|  -- 94: yOffsetEst = 0
    .loop (  -- 96: for iter_ in range(nIter):
      .alloc 17 <|  -- 96: for iter_ in range(nIter):
      .alloc 18 <|  -- 98: xOffsetVec = np.arange(nSteps) * stepSize - (nSteps - 1) / 2
      .alloc 19 <|  -- 102: yOffsetVec = np.arange(nSteps) * stepSize - (nSteps - 1) / 2
      .loop (  -- 107: for iy, yOffset in enumerate(yOffsetVec):
        .bind 20 [19] <|  -- 107: for iy, yOffset in enumerate(yOffsetVec):
        .bind 21 [19] <|  -- 107: for iy, yOffset in enumerate(yOffsetVec):
        .loop (  -- 109: for ix, xOffset in enumerate(xOffsetVec):
          .bind 22 [18] <|  -- 109: for ix, xOffset in enumerate(xOffsetVec):
          .bind 23 [18] <|  -- 109: for ix, xOffset in enumerate(xOffsetVec):
          .alloc 24 <|  -- 112: roiMask = np.zeros((ny, nx))
          .loop (  -- 113: for iRot, rotDeg in enumerate(probeRotVecDeg):
            .bind 25 [7] <|  -- 113: for iRot, rotDeg in enumerate(probeRotVecDeg):
            .bind 26 [7] <|  -- 113: for iRot, rotDeg in enumerate(probeRotVecDeg):
            .alloc 27 <|  -- 115: rotRad = np.radians(rotDeg)
            .alloc 28 <|  -- 116: xProbePlusCoord = np.array([np.sin(rotRad) * spotSepPix + yO
            .write 27 <|  -- 119: rotRad += np.pi
            .alloc 29 <|  -- 120: xProbeMinusCoord = np.array([np.sin(rotRad) * spotSepPix + y
            .call [30] 108 [[13], [12], [6], [28], [28], [8], []] <|  -- 124: circle
            .write 24 <|  -- 124: roiMask += shapes.circle(nx, ny, roiRadiusPix, xProbePlusCoo
            .call [31] 108 [[13], [12], [6], [29], [29], [8], []] <|  -- 128: circle
            .write 24 <|  -- 128: roiMask += shapes.circle(nx, ny, roiRadiusPix, xProbeMinusCo
            .done) <|
          .write 14 <|  -- 133: costFuncMat[iy, ix] = np.sum(roiMask * spotArray)
          .done) <|
        .done) <|
      .call [15, 16] 80 [[18], [19], [14], []] <|  -- 135: find_optimum_2d
      .done) <|
    .ret [15, 16]  -- 142: return (xOffsetEst, yOffsetEst)

/-- `calc_spot_separation`, `coralign/occastro/occastro.py` lines 145-274. Variables: 0 `spotArray`, 1 `xOffset`, 2 `yOffset`, 3 `fnYAML`, 4 `tuningParamDict`, 5 `spotSepGuessPix`, 6 `roiRadiusPix`, 7 `probeRotVecDeg`, 8 `nSubpixels`, 9 `nSteps`, 10 `stepSize`, 11 `nIter`, 12 `ny`, 13 `nx`, 14 `costFuncVec`, 15 `spotSepEst`, 16 `iter_`, 17 `spotSepVec`, 18 `iSep`, 19 `spotSep`, 20 `roiMask`, 21 `iRot`, 22 `rotDeg`, 23 `rotRad`, 24 `xProbePlusCoord`, 25 `xProbeMinusCoord`, 28 `bestInd`. -/
def p34_calc_spot_separation : Fn where
  name := "occastro.occastro.calc_spot_separation"
  params := 4
  body :=
    .call [] 59 [[0], [], []] <|  -- 208: twoD_array
    .call [] 62 [[1], [], []] <|  -- 209: real_scalar
    .alloc 1 <|  -- 209: xOffset is a scalar, string or boolean
    .call [] 62 [[2], [], []] <|  -- 210: real_scalar
    .alloc 2 <|  -- 210: yOffset is a scalar, string or boolean
    .call [] 67 [[3], [], []] <|  -- 211: string
    .alloc 3 <|  -- 211: fnYAML is a scalar, string or boolean
    .call [4] 92 [[3], []] <|  -- 213: loadyaml
    .bind 5 [4] <|  -- 214: spotSepGuessPix = tuningParamDict['spotSepGuessPix']
    .bind 6 [4] <|  -- 215: roiRadiusPix = tuningParamDict['roiRadiusPix']
    .bind 7 [4] <|  -- 216: probeRotVecDeg = tuningParamDict['probeRotVecDeg']
    .bind 8 [4] <|  -- 217: nSubpixels = tuningParamDict['nSubpixels']
    .bind 9 [4] <|  -- 218: nSteps = tuningParamDict['nSteps']
    .bind 10 [4] <|  -- 219: stepSize = tuningParamDict['stepSize']
    .bind 11 [4] <|  -- 220: nIter = tuningParamDict['nIter']
    .call [] 56 [[5], [], []] <|  -- 222: real_positive_scalar
    .alloc 5 <|  -- 222: spotSepGuessPix is a scalar, string or boolean
    .call [] 56 [[6], [], []] <|  -- 223: real_positive_scalar
    .alloc 6 <|  -- 223: roiRadiusPix is a scalar, string or boolean
    .call [] 58 [[7], [], []] <|  -- 224: oneD_array
    .call [] 64 [[8], [], []] <|  -- 225: positive_scalar_integer
    .alloc 8 <|  -- 225: nSubpixels is a scalar, string or boolean
    .call [] 64 [[9], [], []] <|  -- 226: positive_scalar_integer
    .alloc 9 <|  -- 226: nSteps is a scalar, string or boolean
    .call [] 56 [[10], [], []] <|  -- 227: real_positive_scalar
    .alloc 10 <|  -- 227: stepSize is a scalar, string or boolean
    .call [] 64 [[11], [], []] <|  -- 228: positive_scalar_integer
    .alloc 11 <|  -- 228: nIter is a scalar, string or boolean
    .alloc 12 <|  -- 230: ny, nx = spotArray.shape
    .alloc 13 <|  -- 230: ny, nx = spotArray.shape
    .alloc 14 <|  -- 231: costFuncVec = np.zeros((nSteps,))
    .bind 15 [5] <|  -- 232: spotSepEst = spotSepGuessPix
    .loop (  -- 234: for iter_ in range(nIter):
      .alloc 16 <|  -- 234: for iter_ in range(nIter):
      .alloc 17 <|  -- 236: spotSepVec = np.arange(nSteps) * stepSize - (nSteps - 1) / 2
      .loop (  -- 240: for iSep, spotSep in enumerate(spotSepVec):
        .bind 18 [17] <|  -- 240: for iSep, spotSep in enumerate(spotSepVec):
        .bind 19 [17] <|  -- 240: for iSep, spotSep in enumerate(spotSepVec):
        .alloc 20 <|  -- 243: roiMask = np.zeros((ny, nx))
        .loop (  -- 244: for iRot, rotDeg in enumerate(probeRotVecDeg):
          .bind 21 [7] <|  -- 244: for iRot, rotDeg in enumerate(probeRotVecDeg):
          .bind 22 [7] <|  -- 244: for iRot, rotDeg in enumerate(probeRotVecDeg):
          .alloc 23 <|  -- 246: rotRad = np.radians(rotDeg)
          .alloc 24 <|  -- 247: xProbePlusCoord = np.array([np.sin(rotRad) * spotSep + yOffs
          .write 23 <|  -- 250: rotRad += np.pi
          .alloc 25 <|  -- 251: xProbeMinusCoord = np.array([np.sin(rotRad) * spotSep + yOff
          .call [26] 108 [[13], [12], [6], [24], [24], [8], []] <|  -- 255: circle
          .write 20 <|  -- 255: roiMask += shapes.circle(nx, ny, roiRadiusPix, xProbePlusCoo
          .call [27] 108 [[13], [12], [6], [25], [25], [8], []] <|  -- 259: circle
          .write 20 <|  -- 259: roiMask += shapes.circle(nx, ny, roiRadiusPix, xProbeMinusCo
          .done) <|
        .write 14 <|  -- 264: costFuncVec[iSep] = np.sum(roiMask * spotArray)
        .done) <|
      .branch (  -- 268: if iter_ == 0 and nIter > 1:
        .alloc 28 <|  -- 269: bestInd = np.argmax(costFuncVec)
        .bind 15 [17] <|  -- 270: spotSepEst = spotSepVec[bestInd]
        .done)
        (
        .call [15] 79 [[17], [14]] <|  -- 272: find_optimum_1d
        .done) <|
      .done) <|
    .ret [15]  -- 274: return spotSepEst

/-- `platesolv`, `coralign/platesolv/platesolv.py` lines 20-154. Variables: 0 `img`, 1 `guess_img`, 2 `pixper_guess`, 3 `yaml_param_file`, 4 `consts`, 5 `wid`, 6 `n_samp`, 7 `pix_per_arr`, 8 `pixperpupil`, 9 `imft_image_reference`, 10 `resid_norm_arr`, 11 `pix_per`, 13 `trial_img`, 14 `max_val`, 15 `resid_norm`, 16 `pix_interp`, 17 `func`, 18 `func_eval`, 19 `best_fit`. -/
def p35_platesolv : Fn where
  name := "platesolv.platesolv.platesolv"
  params := 4
  body :=
    .call [] 59 [[0], [], []] <|  -- 76: twoD_array
    .call [] 59 [[1], [], []] <|  -- 77: twoD_array
    .call [] 56 [[2], [], []] <|  -- 78: real_positive_scalar
    .alloc 2 <|  -- 78: pixper_guess is a scalar, string or boolean
    .branch (  -- 85: if yaml_param_file is None:
      .alloc 3 <|  -- 86: yaml_param_file = os.path.join(LOCAL_PATH, 'defaults', 'plat
      .done)
      (
      .done) <|
    .call [4] 92 [[3], []] <|  -- 88: loadyaml
    .alloc 5 <|  -- 102: wid = pixper_guess * consts['ps_wid']
    .bind 6 [4] <|  -- 105: n_samp = consts['n_trials']
    .alloc 7 <|  -- 108: pix_per_arr = np.arange(pixper_guess - wid, pixper_guess + w
    .alloc 8 <|  -- 114: pixperpupil = np.max(guess_img.shape)
    .call [9] 99 [[1], [], [2], [8]] <|  -- 117: do_imft
    .alloc 10 <|  -- 121: resid_norm_arr = []
    .loop (  -- 124: for pix_per in pix_per_arr:
      .bind 11 [7] <|  -- 124: for pix_per in pix_per_arr:
      .call [12] 97 [[9], [], [11], [8]] <|  -- 127: do_mft
      .bind 13 [12] <|  -- 127: trial_img = np.real(do_mft(imft_image_reference, guess_img.s
      .alloc 14 <|  -- 132: max_val = np.percentile(np.real(img), consts['percentile_val
      .write 13 <|  -- 133: trial_img *= max_val / np.percentile(np.real(trial_img), con
      .alloc 15 <|  -- 142: resid_norm = np.std(np.real(trial_img - img) / np.amax(guess
      .write 10 <|  -- 143: resid_norm_arr.append(resid_norm)
      .bind 10 [10, 15] <|  -- 143: resid_norm_arr.append(resid_norm)
      .done) <|
    .alloc 16 <|  -- 146: pix_interp = np.arange(np.amin(pix_per_arr), np.amax(pix_per
    .bind 17 [7, 10] <|  -- 148: func = interp1d(pix_per_arr, resid_norm_arr, kind='cubic')
    .bind 18 [16, 17] <|  -- 149: func_eval = func(pix_interp)
    .bind 19 [16] <|  -- 152: best_fit = pix_interp[np.where(func_eval == np.amin(func_eva
    .ret [19, 7, 10]  -- 154: return (best_fit, pix_per_arr, resid_norm_arr)

/-- `compute_upsampled_dft`, `coralign/psffit/psffit.py` lines 26-77. Variables: 0 `image_dft`, 1 `upsampled_region_size`, 2 `upsample_factor`, 3 `axis_offsets`, 4 `dim_properties`, 5 `n_items`, 6 `ups_size`, 7 `ax_offset`, 8 `kernel`. -/
def p36_compute_upsampled_dft : Fn where
  name := "psffit.psffit.compute_upsampled_dft"
  params := 4
  body :=
    .branch (  -- 54: if axis_offsets is None:
      .alloc 3 <|  -- 55: axis_offsets = [0] * image_dft.ndim
      .done)
      (
      .done) <|
    .branch (  -- 60: if not hasattr(upsampled_region_size, '__iter__'):
      .alloc 1 <|  -- 61: upsampled_region_size = [upsampled_region_size] * image_dft.
      .done)
      (
      .done) <|
    .call [] 38 [[0], [1], [2], [3]] <|  -- 64: compute_upsampled_dft_input_check
    .bind 4 [1, 3] <|  -- 68: dim_properties = list(zip(image_dft.shape, upsampled_region_
    .loop (  -- 72: for n_items, ups_size, ax_offset in dim_properties[::-1]:
      .bind 5 [4] <|  -- 72: for n_items, ups_size, ax_offset in dim_properties[::-1]:
      .bind 6 [4] <|  -- 72: for n_items, ups_size, ax_offset in dim_properties[::-1]:
      .bind 7 [4] <|  -- 72: for n_items, ups_size, ax_offset in dim_properties[::-1]:
      .alloc 8 <|  -- 73: kernel = (np.arange(ups_size) - ax_offset)[:, None] * np.fft
      .alloc 8 <|  -- 75: kernel = np.exp(-1.0 * (2.0 * np.pi * 1j) * kernel)
      .alloc 0 <|  -- 76: image_dft = np.tensordot(kernel, image_dft, axes=(1, -1))
      .done) <|
    .ret [0]  -- 77: return image_dft

/-- `psffit`, `coralign/psffit/psffit.py` lines 80-194. Variables: 0 `source_image`, 1 `target_image`, 2 `config_file`, 3 `constants_config`, 4 `upsample_factor`, 5 `src_freq`, 6 `target_freq`, 7 `image_product`, 8 `cross_correlation`, 9 `maxima`, 10 `axis_size`, 11 `midpoints`, 12 `shifts`, 13 `upsampled_region_size`, 14 `dftshift`, 15 `normalization`, 16 `sample_region_offset`, 18 `guess_img`, 19 `threshmap`, 20 `tvec`, 21 `gvec`, 22 `amplitude`. -/
def p37_psffit : Fn where
  name := "psffit.psffit.psffit"
  params := 3
  body :=
    .call [] 39 [[0], [1], [2]] <|  -- 119: psffit_input_check
    .call [3] 92 [[2], []] <|  -- 122: loadyaml
    .bind 4 [3] <|  -- 123: upsample_factor = constants_config['upsample_factor']
    .alloc 5 <|  -- 126: src_freq = np.fft.fftn(source_image)
    .alloc 6 <|  -- 127: target_freq = np.fft.fftn(target_image)
    .alloc 7 <|  -- 130: image_product = src_freq * target_freq.conj()
    .alloc 8 <|  -- 131: cross_correlation = np.fft.ifftn(image_product)
    .alloc 9 <|  -- 134: maxima = np.unravel_index(np.argmax(np.abs(cross_correlation
    .alloc 11 <|  -- 136: midpoints = np.array([np.fix(axis_size / 2) for axis_size in
    .alloc 12 <|  -- 140: shifts = np.array(maxima, dtype=np.float64)
    .write 12 <|  -- 141: shifts[shifts > midpoints] -= np.array(src_freq.shape)[shift
    .branch (  -- 145: if upsample_factor != 1:
      .alloc 12 <|  -- 148: shifts = np.round(shifts * upsample_factor) / upsample_facto
      .alloc 13 <|  -- 151: upsampled_region_size = np.ceil(upsample_factor * constants_
      .alloc 14 <|  -- 155: dftshift = np.fix(upsampled_region_size / 2.0)
      .alloc 4 <|  -- 156: upsample_factor = np.array(upsample_factor, dtype=np.float64
      .alloc 15 <|  -- 157: normalization = src_freq.size * upsample_factor ** 2.0
      .alloc 16 <|  -- 160: sample_region_offset = dftshift - shifts * upsample_factor
      .call [17] 36 [[7], [13], [4], [16]] <|  -- 161: compute_upsampled_dft
      .bind 8 [17] <|  -- 161: cross_correlation = compute_upsampled_dft(image_product.conj
      .write 8 <|  -- 166: cross_correlation /= normalization
      .alloc 9 <|  -- 169: maxima = np.unravel_index(np.argmax(np.abs(cross_correlation
      .alloc 9 <|  -- 171: maxima = np.array(maxima, dtype=np.float64) - dftshift
      .alloc 12 <|  -- 172: shifts = shifts + maxima / upsample_factor
      .done)
      (
      .done) <|
    .bind 18 [0] <|  -- 175: guess_img = ndimage.shift(source_image, -1.0 * shifts)
    .alloc 19 <|  -- 179: threshmap = target_image > constants_config['amp_thresh'] * 
    .bind 20 [1] <|  -- 186: tvec = target_image[threshmap].ravel()
    .bind 21 [18] <|  -- 187: gvec = guess_img[threshmap].ravel()
    .alloc 22 <|  -- 188: amplitude = gvec.T @ tvec / (gvec.T @ gvec)
    .alloc 12 <|  -- 192: shifts = [-shifts[0], -shifts[1]]
    .ret [12, 22]  -- 194: return (shifts, amplitude)

/-- `compute_upsampled_dft_input_check`, `coralign/psffit/psffit.py` lines 197-234. Variables: 0 `image_dft`, 1 `upsampled_region_size`, 2 `upsample_factor`, 3 `axis_offsets`. -/
def p38_compute_upsampled_dft_input_check : Fn where
  name := "psffit.psffit.compute_upsampled_dft_input_check"
  params := 4
  body :=
    .done

/-- `psffit_input_check`, `coralign/psffit/psffit.py` lines 237-279. Variables: 0 `source_image`, 1 `target_image`, 2 `config_file`, 3 `master_files`. -/
def p39_psffit_input_check : Fn where
  name := "psffit.psffit.psffit_input_check"
  params := 3
  body :=
    .call [3] 92 [[2], []] <|  -- 258: loadyaml
    .done

/-- `fit_shaped_pupil_mask_offsets`, `coralign/pupil/maskfit.py` lines 30-133. Variables: 0 `imageUnmasked`, 1 `imageMasked`, 2 `offsetGain`, 3 `fnMaskParams`, 4 `fnTuningParams`, 5 `xOffsetPupil`, 6 `yOffsetPupil`, 7 `diamPupil`, 8 `magAtMask`, 9 `clockDegMask`, 10 `xOffsetSPM`, 11 `yOffsetSPM`, 12 `data_path`, 13 `debug`, 14 `sh0`, 15 `sh1`, 16 `xOffsetTotal`, 17 `yOffsetTotal`, 18 `xOffsetEst`, 19 `yOffsetEst`. -/
def p40_fit_shaped_pupil_mask_offsets : Fn where
  name := "pupil.maskfit.fit_shaped_pupil_mask_offsets"
  params := 14
  body :=
    .call [] 59 [[0], [], []] <|  -- 97: twoD_array
    .call [] 59 [[1], [], []] <|  -- 98: twoD_array
    .alloc 14 <|  -- 99: sh0 = imageUnmasked.shape
    .alloc 15 <|  -- 100: sh1 = imageMasked.shape
    .call [] 56 [[2], [], []] <|  -- 103: real_positive_scalar
    .alloc 2 <|  -- 103: offsetGain is a scalar, string or boolean
    .call [] 67 [[3], [], []] <|  -- 104: string
    .alloc 3 <|  -- 104: fnMaskParams is a scalar, string or boolean
    .call [] 67 [[4], [], []] <|  -- 105: string
    .alloc 4 <|  -- 105: fnTuningParams is a scalar, string or boolean
    .call [] 62 [[6], [], []] <|  -- 106: real_scalar
    .alloc 6 <|  -- 106: yOffsetPupil is a scalar, string or boolean
    .call [] 62 [[5], [], []] <|  -- 107: real_scalar
    .alloc 5 <|  -- 107: xOffsetPupil is a scalar, string or boolean
    .call [] 56 [[7], [], []] <|  -- 108: real_positive_scalar
    .alloc 7 <|  -- 108: diamPupil is a scalar, string or boolean
    .call [] 56 [[8], [], []] <|  -- 109: real_positive_scalar
    .alloc 8 <|  -- 109: magAtMask is a scalar, string or boolean
    .call [] 62 [[9], [], []] <|  -- 110: real_scalar
    .alloc 9 <|  -- 110: clockDegMask is a scalar, string or boolean
    .call [] 62 [[10], [], []] <|  -- 111: real_scalar
    .alloc 10 <|  -- 111: xOffsetSPM is a scalar, string or boolean
    .call [] 62 [[11], [], []] <|  -- 112: real_scalar
    .alloc 11 <|  -- 112: yOffsetSPM is a scalar, string or boolean
    .call [] 67 [[12], [], []] <|  -- 113: string
    .alloc 12 <|  -- 113: data_path is a scalar, string or boolean
    .alloc 0 <|  -- 118: imageUnmasked = scipy.ndimage.shift(imageUnmasked, [yOffsetS
    .alloc 16 <|  -- 124: xOffsetTotal = xOffsetPupil + xOffsetSPM
    .alloc 17 <|  -- 125: yOffsetTotal = yOffsetPupil + yOffsetSPM
    .call [18, 19] 41 [[0], [1], [2], [3], [4], [16], [17], [7], [8], [9], [12], []] <|  -- 127: fit_pupil_mask_offsets
    .ret [18, 19]  -- 133: return (xOffsetEst, yOffsetEst)

/-- `fit_pupil_mask_offsets`, `coralign/pupil/maskfit.py` lines 136-271. Variables: 0 `imageUnmasked`, 1 `imageMasked`, 2 `offsetGain`, 3 `fnMaskParams`, 4 `fnTuningParams`, 5 `xOffsetPupil`, 6 `yOffsetPupil`, 7 `diamPupil`, 8 `magAtMask`, 9 `clockDegMask`, 10 `data_path`, 11 `debug`, 12 `sh0`, 13 `sh1`, 14 `imageShape`, 15 `inp`, 16 `nPadFFT`, 17 `nFocusCrop`, 18 `nPhaseSteps`, 19 `dPixel`, 20 `nIterOuterLoop`, 21 `nIterInnerLoop`, 22 `percentileForImageNorm`, 23 `diamHighResMaskRef`, 24 `fnMaskRefHighRes`, 25 `maskRefHighRes`, 26 `normFactorUnmasked`, 28 `ampUnmasked`, 29 `normFactorMasked`, 31 `ampMasked`, 32 `diamMask`, 33 `xOffsetEst`, 34 `yOffsetEst`, 35 `iter_`, 36 `maskRef`, 37 `arraySim`, 38 `xOffsetPupilRound`, 39 `yOffsetPupilRound`, 40 `xCenterPupil`, 41 `yCenterPupil`, 42 `ampMaskedRecenter`, 43 `arraySimRecenter`, 44 `yOffsetDelta`, 45 `xOffsetDelta`. -/
def p41_fit_pupil_mask_offsets : Fn where
  name := "pupil.maskfit.fit_pupil_mask_offsets"
  params := 12
  body :=
    .call [] 59 [[0], [], []] <|  -- 184: twoD_array
    .call [] 59 [[1], [], []] <|  -- 185: twoD_array
    .alloc 12 <|  -- 186: sh0 = imageUnmasked.shape
    .alloc 13 <|  -- 187: sh1 = imageMasked.shape
    .call [] 56 [[2], [], []] <|  -- 190: real_positive_scalar
    .alloc 2 <|  -- 190: offsetGain is a scalar, string or boolean
    .call [] 67 [[3], [], []] <|  -- 191: string
    .alloc 3 <|  -- 191: fnMaskParams is a scalar, string or boolean
    .call [] 67 [[4], [], []] <|  -- 192: string
    .alloc 4 <|  -- 192: fnTuningParams is a scalar, string or boolean
    .call [] 62 [[6], [], []] <|  -- 193: real_scalar
    .alloc 6 <|  -- 193: yOffsetPupil is a scalar, string or boolean
    .call [] 62 [[5], [], []] <|  -- 194: real_scalar
    .alloc 5 <|  -- 194: xOffsetPupil is a scalar, string or boolean
    .call [] 56 [[7], [], []] <|  -- 195: real_positive_scalar
    .alloc 7 <|  -- 195: diamPupil is a scalar, string or boolean
    .call [] 56 [[8], [], []] <|  -- 196: real_positive_scalar
    .alloc 8 <|  -- 196: magAtMask is a scalar, string or boolean
    .call [] 62 [[9], [], []] <|  -- 197: real_scalar
    .alloc 9 <|  -- 197: clockDegMask is a scalar, string or boolean
    .call [] 67 [[10], [], []] <|  -- 198: string
    .alloc 10 <|  -- 198: data_path is a scalar, string or boolean
    .alloc 14 <|  -- 200: imageShape = np.shape(imageUnmasked)
    .call [15] 92 [[4], []] <|  -- 206: loadyaml
    .bind 16 [15] <|  -- 207: nPadFFT = inp['nPadFFT']
    .bind 17 [15] <|  -- 208: nFocusCrop = inp['nFocusCrop']
    .bind 18 [15] <|  -- 209: nPhaseSteps = inp['nPhaseSteps']
    .bind 19 [15] <|  -- 210: dPixel = inp['dPixel']
    .bind 20 [15] <|  -- 211: nIterOuterLoop = inp['nIterOuterLoop']
    .bind 21 [15] <|  -- 212: nIterInnerLoop = inp['nIterInnerLoop']
    .bind 22 [15] <|  -- 213: percentileForImageNorm = inp['percentileForImageNorm']
    .call [15] 92 [[3], []] <|  -- 216: loadyaml
    .bind 23 [15] <|  -- 217: diamHighResMaskRef = inp['diamHighResMaskRef']
    .bind 24 [15] <|  -- 218: fnMaskRefHighRes = inp['fnMaskRefHighRes']
    .alloc 25 <|  -- 219: maskRefHighRes = fits.getdata(os.path.join(data_path, fnMask
    .call [27] 52 [[0], []] <|  -- 223: ampthresh
    .call [26] 51 [[0], [27], [22]] <|  -- 222: compute_norm_factor
    .alloc 0 <|  -- 225: imageUnmasked = imageUnmasked / normFactorUnmasked
    .write 0 <|  -- 226: imageUnmasked[imageUnmasked < 0] = 0
    .alloc 28 <|  -- 227: ampUnmasked = np.sqrt(imageUnmasked)
    .call [30] 52 [[1], []] <|  -- 230: ampthresh
    .call [29] 51 [[1], [30], [22]] <|  -- 229: compute_norm_factor
    .alloc 1 <|  -- 232: imageMasked = imageMasked / normFactorMasked
    .write 1 <|  -- 233: imageMasked[imageMasked < 0] = 0
    .alloc 31 <|  -- 234: ampMasked = np.sqrt(imageMasked)
    .bind 32 [7] <|  -- 238: diamMask = diamPupil
    .alloc 33 <|  -- 240: xOffsetEst = 0
    .alloc 34 <|  -- 241: yOffsetEst = 0
    .loop (  -- 242: for iter_ in range(nIterOuterLoop):
      .alloc 35 <|  -- 242: for iter_ in range(nIterOuterLoop):
      .call [36] 29 [[25], [9], [], [], [], [], []] <|  -- 244: rotate_shift_downsample_amplitude_mask
      .call [36] 104 [[36], [14], []] <|  -- 248: pad_crop
      .alloc 37 <|  -- 249: arraySim = ampUnmasked * maskRef
      .alloc 38 <|  -- 252: xOffsetPupilRound = int(np.round(xOffsetPupil))
      .alloc 39 <|  -- 253: yOffsetPupilRound = int(np.round(yOffsetPupil))
      .alloc 40 <|  -- 254: xCenterPupil = imageShape[1] // 2 + xOffsetPupilRound
      .alloc 41 <|  -- 255: yCenterPupil = imageShape[0] // 2 + yOffsetPupilRound
      .call [42] 105 [[31], [16], [41], [40]] <|  -- 256: offcenter_crop
      .call [43] 105 [[37], [16], [41], [40]] <|  -- 258: offcenter_crop
      .call [44, 45] 48 [[42], [43], [32], [18], [19], [16], [17], [21], [], [], []] <|  -- 264: compute_lateral_offsets
      .write 33 <|  -- 268: xOffsetEst += offsetGain * xOffsetDelta
      .write 34 <|  -- 269: yOffsetEst += offsetGain * yOffsetDelta
      .done) <|
    .ret [33, 34]  -- 271: return (xOffsetEst, yOffsetEst)

/-- `fit_z_induced_spm_shear`, `coralign/pupil/maskfit.py` lines 274-372. Variables: 0 `ampUnpoked0`, 1 `phUnpoked0`, 2 `phPoked0`, 3 `ampUnpoked1`, 4 `phUnpoked1`, 5 `phPoked1`, 6 `fnConfig`, 7 `debug`, 8 `shape0`, 9 `shape1`, 10 `phDiff0`, 11 `swMask0`, 12 `phDiff1`, 13 `swMask1`, 14 `shift_computed`, 15 `_`, 16 `xOffset`, 17 `yOffset`. -/
def p42_fit_z_induced_spm_shear : Fn where
  name := "pupil.maskfit.fit_z_induced_spm_shear"
  params := 8
  body :=
    .call [] 59 [[0], [], []] <|  -- 331: twoD_array
    .call [] 59 [[1], [], []] <|  -- 332: twoD_array
    .call [] 59 [[2], [], []] <|  -- 333: twoD_array
    .call [] 59 [[3], [], []] <|  -- 334: twoD_array
    .call [] 59 [[4], [], []] <|  -- 335: twoD_array
    .call [] 59 [[5], [], []] <|  -- 336: twoD_array
    .call [] 67 [[6], [], []] <|  -- 337: string
    .alloc 6 <|  -- 337: fnConfig is a scalar, string or boolean
    .alloc 8 <|  -- 340: shape0 = ampUnpoked0.shape
    .alloc 9 <|  -- 345: shape1 = ampUnpoked1.shape
    .alloc 10 <|  -- 358: phDiff0 = phPoked0 - phUnpoked0
    .call [10, 11] 113 [[10], [0], [], [], [], [], []] <|  -- 359: unwrap
    .call [10] 14 [[10], [11]] <|  -- 360: remove_piston_tip_tilt
    .alloc 12 <|  -- 362: phDiff1 = phPoked1 - phUnpoked1
    .call [12, 13] 113 [[12], [3], [], [], [], [], []] <|  -- 363: unwrap
    .call [12] 14 [[12], [13]] <|  -- 364: remove_piston_tip_tilt
    .call [12] 104 [[12], [8], []] <|  -- 365: pad_crop
    .call [13] 104 [[13], [8], []] <|  -- 366: pad_crop
    .call [14, 15] 37 [[], [], [6]] <|  -- 368: psffit
    .bind 16 [14] <|  -- 369: xOffset = shift_computed[1]
    .bind 17 [14] <|  -- 370: yOffset = shift_computed[0]
    .ret [16, 17]  -- 372: return (xOffset, yOffset)

/-- `fit_lyot_stop_mag_clocking`, `coralign/pupil/maskfit.py` lines 375-618. Variables: 0 `imageUnmasked`, 1 `imageMasked`, 2 `xOffsetPupil`, 3 `yOffsetPupil`, 4 `fnMaskParams`, 5 `fnOffsetParams`, 6 `fnLyotCalib`, 7 `data_path`, 8 `debug`, 9 `sh0`, 10 `sh1`, 11 `inp`, 12 `clockMaxDeg`, 13 `nClock`, 14 `deltaAmpMax`, 15 `diamPupil`, 16 `magShrinkFac`, 17 `deltaMag`, 18 `nMag`, 19 `nIterMag`, 20 `diamHighResMaskRef`, 21 `fnMaskRefHighRes`, 22 `OD_LS`, 23 `nPadFFT`, 24 `nFocusCrop`, 25 `nPhaseSteps`, 26 `dPixel`, 27 `percentileForImageNorm`, 28 `maskRefHighRes`, 29 `normFacUnmasked`, 31 `ampUnmasked`, 32 `normFacMasked`, 33 `ampMasked`, 34 `xOffset0`, 35 `yOffset0`, 36 `clockDegEst`, 37 `imageShape`, 38 `maskLyotRef0`, 41 `magEst0`, 42 `maskLyotRef1`, 43 `ampRef1`, 44 `diamBeamEst`, 45 `diamMaskEst`, 46 `xOffset1`, 47 `yOffset1`, 48 `ampMaskedCrop`, 49 `ampRef1Crop`, 50 `yOffset2`, 51 `xOffset2`, 52 `clockEst`, 53 `magEst`, 54 `iter_`, 55 `magVec`, 56 `overlapVec`, 57 `im`, 58 `mag`, 59 `pupilRef`, 60 `normFacRef`, 62 `pupilRefNorm`, 63 `compMatrix`, 64 `bestInd`, 65 `polyCoefs`. -/
def p43_fit_lyot_stop_mag_clocking : Fn where
  name := "pupil.maskfit.fit_lyot_stop_mag_clocking"
  params := 9
  body :=
    .call [] 59 [[0], [], []] <|  -- 452: twoD_array
    .call [] 59 [[1], [], []] <|  -- 453: twoD_array
    .alloc 9 <|  -- 454: sh0 = imageUnmasked.shape
    .alloc 10 <|  -- 455: sh1 = imageMasked.shape
    .call [] 62 [[2], [], []] <|  -- 458: real_scalar
    .alloc 2 <|  -- 458: xOffsetPupil is a scalar, string or boolean
    .call [] 62 [[3], [], []] <|  -- 459: real_scalar
    .alloc 3 <|  -- 459: yOffsetPupil is a scalar, string or boolean
    .call [11] 92 [[6], []] <|  -- 461: loadyaml
    .bind 12 [11] <|  -- 462: clockMaxDeg = inp['clockMaxDeg']
    .bind 13 [11] <|  -- 463: nClock = inp['nClock']
    .bind 14 [11] <|  -- 464: deltaAmpMax = inp['deltaAmpMax']
    .bind 15 [11] <|  -- 465: diamPupil = inp['diamPupil']
    .bind 16 [11] <|  -- 466: magShrinkFac = inp['magShrinkFac']
    .bind 17 [11] <|  -- 467: deltaMag = inp['deltaMag']
    .bind 18 [11] <|  -- 468: nMag = inp['nMag']
    .bind 19 [11] <|  -- 469: nIterMag = inp['nIterMag']
    .call [] 56 [[12], [], []] <|  -- 470: real_positive_scalar
    .alloc 12 <|  -- 470: clockMaxDeg is a scalar, string or boolean
    .call [] 64 [[13], [], []] <|  -- 471: positive_scalar_integer
    .alloc 13 <|  -- 471: nClock is a scalar, string or boolean
    .call [] 56 [[14], [], []] <|  -- 472: real_positive_scalar
    .alloc 14 <|  -- 472: deltaAmpMax is a scalar, string or boolean
    .call [] 56 [[15], [], []] <|  -- 473: real_positive_scalar
    .alloc 15 <|  -- 473: diamPupil is a scalar, string or boolean
    .call [] 56 [[16], [], []] <|  -- 476: real_positive_scalar
    .alloc 16 <|  -- 476: magShrinkFac is a scalar, string or boolean
    .call [] 56 [[17], [], []] <|  -- 479: real_positive_scalar
    .alloc 17 <|  -- 479: deltaMag is a scalar, string or boolean
    .call [] 64 [[18], [], []] <|  -- 480: positive_scalar_integer
    .alloc 18 <|  -- 480: nMag is a scalar, string or boolean
    .call [] 64 [[19], [], []] <|  -- 481: positive_scalar_integer
    .alloc 19 <|  -- 481: nIterMag is a scalar, string or boolean
    .call [] 67 [[7], [], []] <|  -- 482: string
    .alloc 7 <|  -- 482: data_path is a scalar, string or boolean
    .call [11] 92 [[4], []] <|  -- 484: loadyaml
    .bind 20 [11] <|  -- 485: diamHighResMaskRef = inp['diamHighResMaskRef']
    .bind 21 [11] <|  -- 486: fnMaskRefHighRes = inp['fnMaskRefHighRes']
    .bind 22 [11] <|  -- 487: OD_LS = inp['OD_LS']
    .call [11] 92 [[5], []] <|  -- 489: loadyaml
    .bind 23 [11] <|  -- 490: nPadFFT = inp['nPadFFT']
    .bind 24 [11] <|  -- 491: nFocusCrop = inp['nFocusCrop']
    .bind 25 [11] <|  -- 492: nPhaseSteps = inp['nPhaseSteps']
    .bind 26 [11] <|  -- 493: dPixel = inp['dPixel']
    .bind 27 [11] <|  -- 494: percentileForImageNorm = inp['percentileForImageNorm']
    .alloc 28 <|  -- 496: maskRefHighRes = fits.getdata(os.path.join(data_path, fnMask
    .call [30] 52 [[0], []] <|  -- 509: ampthresh
    .call [29] 51 [[0], [30], [27]] <|  -- 508: compute_norm_factor
    .alloc 0 <|  -- 511: imageUnmasked = imageUnmasked / normFacUnmasked
    .write 0 <|  -- 512: imageUnmasked[imageUnmasked < 0] = 0
    .alloc 31 <|  -- 513: ampUnmasked = np.sqrt(imageUnmasked)
    .bind 32 [29] <|  -- 515: normFacMasked = normFacUnmasked
    .alloc 1 <|  -- 516: imageMasked = imageMasked / normFacMasked
    .write 1 <|  -- 517: imageMasked[imageMasked < 0] = 0
    .alloc 33 <|  -- 518: ampMasked = np.sqrt(imageMasked)
    .alloc 34 <|  -- 521: xOffset0 = 0
    .alloc 35 <|  -- 522: yOffset0 = 0
    .alloc 36 <|  -- 523: clockDegEst = 0
    .alloc 37 <|  -- 524: imageShape = np.shape(imageUnmasked)
    .call [38] 29 [[28], [36], [], [], [], [], []] <|  -- 525: rotate_shift_downsample_amplitude_mask
    .call [38] 104 [[38], [37], []] <|  -- 529: pad_crop
    .call [39] 52 [[1], []] <|  -- 535: ampthresh
    .call [40] 52 [[0], []] <|  -- 536: ampthresh
    .alloc 41 <|  -- 535: magEst0 = np.sqrt(np.sum(ampMasked[ampthresh(imageMasked)]) 
    .call [42] 29 [[28], [36], [], [], [], [], []] <|  -- 540: rotate_shift_downsample_amplitude_mask
    .call [42] 104 [[42], [37], []] <|  -- 544: pad_crop
    .alloc 43 <|  -- 545: ampRef1 = maskLyotRef1 * ampUnmasked
    .alloc 44 <|  -- 554: diamBeamEst = magEst0 * diamPupil
    .alloc 45 <|  -- 555: diamMaskEst = magEst0 * diamPupil * OD_LS
    .call [46, 47] 49 [[33], [45], []] <|  -- 556: coarsely_locate_pupil_offset
    .call [48] 105 [[33], [], [], []] <|  -- 558: offcenter_crop
    .call [49] 105 [[43], [], [], []] <|  -- 561: offcenter_crop
    .call [50, 51] 48 [[48], [49], [44], [25], [26], [23], [24], [], [], [], []] <|  -- 564: compute_lateral_offsets
    .call [52] 47 [[33], [44], [28], [20], [], [], [12], [13], [27], [14], []] <|  -- 574: compute_clocking
    .bind 53 [41] <|  -- 580: magEst = magEst0
    .loop (  -- 582: for iter_ in range(nIterMag):
      .alloc 54 <|  -- 582: for iter_ in range(nIterMag):
      .alloc 55 <|  -- 583: magVec = magEst + magShrinkFac * np.linspace(-deltaMag, delt
      .alloc 56 <|  -- 584: overlapVec = np.zeros((nMag,))
      .loop (  -- 586: for im, mag in enumerate(magVec):
        .bind 57 [55] <|  -- 586: for im, mag in enumerate(magVec):
        .bind 58 [55] <|  -- 586: for im, mag in enumerate(magVec):
        .call [59] 29 [[28], [52], [], [], [], [], []] <|  -- 588: rotate_shift_downsample_amplitude_mask
        .call [59] 104 [[59], [], []] <|  -- 592: pad_crop
        .alloc 59 <|  -- 593: pupilRef = pupilRef ** 2
        .call [61] 52 [[59], []] <|  -- 595: ampthresh
        .call [60] 51 [[59], [61], [27]] <|  -- 595: compute_norm_factor
        .alloc 62 <|  -- 597: pupilRefNorm = pupilRef / normFacRef
        .alloc 63 <|  -- 598: compMatrix = np.abs(ampMasked - pupilRefNorm) < deltaAmpMax
        .write 56 <|  -- 599: overlapVec[im] = np.sum(compMatrix)
        .done) <|
      .branch (  -- 602: if iter_ == 0 and nIterMag > 1:
        .alloc 64 <|  -- 603: bestInd = np.argmax(overlapVec)
        .bind 53 [55] <|  -- 604: magEst = magVec[bestInd]
        .done)
        (
        .alloc 56 <|  -- 611: overlapVec = overlapVec - np.max(overlapVec)
        .alloc 65 <|  -- 612: polyCoefs = np.polyfit(magVec, overlapVec ** 2, 2)
        .branch (  -- 613: if polyCoefs[0] == 0:
          .alloc 53 <|  -- 614: magEst = 1.0
          .done)
          (
          .alloc 53 <|  -- 616: magEst = -polyCoefs[1] / (2 * polyCoefs[0])
          .done) <|
        .done) <|
      .done) <|
    .ret [53, 52]  -- 618: return (magEst, clockEst)

/-- `fit_unmasked_pupil`, `coralign/pupil/pupilfit.py` lines 30-147. Variables: 0 `pupil`, 1 `fn_tuning`, 2 `fn_pupil_ellipse_fitting`, 3 `data_path`, 4 `debug`, 5 `inp`, 6 `nIterOffsets`, 7 `nPadFFT`, 8 `nFocusCrop`, 9 `nPhaseSteps`, 10 `dPixel`, 11 `clockDegMax`, 12 `nClock`, 13 `fnMaskRefHighRes`, 14 `diamHighRes`, 15 `rotRef`, 16 `flipxRef`, 17 `padFacRef`, 18 `deltaAmpMax`, 19 `percentileForImageNorm`, 20 `zeroPaddingForHighResMask`, 22 `diamEst`, 23 `xOffsetCoarse`, 24 `yOffsetCoarse`, 25 `xOffsetRef`, 26 `yOffsetRef`, 27 `maskRefHighRes`, 28 `pupilRef`, 29 `yOffset`, 30 `xOffset`, 32 `nPad`, 33 `maskRefHighResPad`, 34 `clockEst`. -/
def p44_fit_unmasked_pupil : Fn where
  name := "pupil.pupilfit.fit_unmasked_pupil"
  params := 5
  body :=
    .call [] 59 [[0], [], []] <|  -- 74: twoD_array
    .call [] 57 [[0], [], []] <|  -- 75: real_array
    .call [] 67 [[1], [], []] <|  -- 76: string
    .alloc 1 <|  -- 76: fn_tuning is a scalar, string or boolean
    .call [] 67 [[2], [], []] <|  -- 77: string
    .alloc 2 <|  -- 77: fn_pupil_ellipse_fitting is a scalar, string or boolean
    .call [] 67 [[3], [], []] <|  -- 79: string
    .alloc 3 <|  -- 79: data_path is a scalar, string or boolean
    .call [5] 92 [[1], []] <|  -- 81: loadyaml
    .bind 6 [5] <|  -- 82: nIterOffsets = inp['nIterOffsets']
    .bind 7 [5] <|  -- 83: nPadFFT = inp['nPadFFT']
    .bind 8 [5] <|  -- 84: nFocusCrop = inp['nFocusCrop']
    .bind 9 [5] <|  -- 85: nPhaseSteps = inp['nPhaseSteps']
    .bind 10 [5] <|  -- 86: dPixel = inp['dPixel']
    .bind 11 [5] <|  -- 87: clockDegMax = inp['clockDegMax']
    .bind 12 [5] <|  -- 88: nClock = inp['nClock']
    .bind 13 [5] <|  -- 89: fnMaskRefHighRes = inp['fnMaskRefHighRes']
    .bind 14 [5] <|  -- 90: diamHighRes = inp['diamHighRes']
    .bind 15 [5] <|  -- 91: rotRef = inp['rotRef']
    .bind 16 [5] <|  -- 92: flipxRef = inp['flipxRef']
    .bind 17 [5] <|  -- 93: padFacRef = inp['padFacRef']
    .bind 18 [5] <|  -- 94: deltaAmpMax = inp['deltaAmpMax']
    .bind 19 [5] <|  -- 95: percentileForImageNorm = inp['percentileForImageNorm']
    .bind 20 [5] <|  -- 96: zeroPaddingForHighResMask = inp['zeroPaddingForHighResMask']
    .call [] 64 [[6], [], []] <|  -- 98: positive_scalar_integer
    .alloc 6 <|  -- 98: nIterOffsets is a scalar, string or boolean
    .call [] 64 [[7], [], []] <|  -- 99: positive_scalar_integer
    .alloc 7 <|  -- 99: nPadFFT is a scalar, string or boolean
    .call [] 64 [[8], [], []] <|  -- 100: positive_scalar_integer
    .alloc 8 <|  -- 100: nFocusCrop is a scalar, string or boolean
    .call [] 64 [[9], [], []] <|  -- 101: positive_scalar_integer
    .alloc 9 <|  -- 101: nPhaseSteps is a scalar, string or boolean
    .call [] 56 [[10], [], []] <|  -- 102: real_positive_scalar
    .alloc 10 <|  -- 102: dPixel is a scalar, string or boolean
    .call [] 56 [[11], [], []] <|  -- 103: real_positive_scalar
    .alloc 11 <|  -- 103: clockDegMax is a scalar, string or boolean
    .call [] 64 [[12], [], []] <|  -- 104: positive_scalar_integer
    .alloc 12 <|  -- 104: nClock is a scalar, string or boolean
    .call [] 56 [[14], [], []] <|  -- 107: real_positive_scalar
    .alloc 14 <|  -- 107: diamHighRes is a scalar, string or boolean
    .call [] 62 [[15], [], []] <|  -- 108: real_scalar
    .alloc 15 <|  -- 108: rotRef is a scalar, string or boolean
    .call [] 68 [[16], [], []] <|  -- 109: boolean
    .alloc 16 <|  -- 109: flipxRef is a scalar, string or boolean
    .call [] 56 [[17], [], []] <|  -- 110: real_positive_scalar
    .alloc 17 <|  -- 110: padFacRef is a scalar, string or boolean
    .call [] 63 [[18], [], []] <|  -- 111: real_nonnegative_scalar
    .alloc 18 <|  -- 111: deltaAmpMax is a scalar, string or boolean
    .call [] 56 [[19], [], []] <|  -- 112: real_positive_scalar
    .alloc 19 <|  -- 112: percentileForImageNorm is a scalar, string or boolean
    .call [] 63 [[20], [], []] <|  -- 114: real_nonnegative_scalar
    .alloc 20 <|  -- 114: zeroPaddingForHighResMask is a scalar, string or boolean
    .call [21] 52 [[0], []] <|  -- 119: ampthresh
    .alloc 0 <|  -- 119: pupil = ampthresh(pupil).astype(float)
    .call [22, 23, 24] 82 [[0], [2]] <|  -- 120: fit_ellipse
    .alloc 25 <|  -- 124: xOffsetRef = 0
    .alloc 26 <|  -- 125: yOffsetRef = 0
    .alloc 27 <|  -- 126: maskRefHighRes = fits.getdata(os.path.join(data_path, fnMask
    .call [28] 29 [[27], [15], [], [25], [26], [17], [16]] <|  -- 127: rotate_shift_downsample_amplitude_mask
    .call [28] 104 [[28], [7], []] <|  -- 130: pad_crop
    .call [29, 30] 48 [[0], [28], [22], [9], [10], [7], [8], [6], [], [23], [24]] <|  -- 133: compute_lateral_offsets
    .call [31] 95 [[]] <|  -- 139: ceil_even
    .alloc 32 <|  -- 139: nPad = int(ceil_even(np.max(maskRefHighRes.shape) + zeroPadd
    .call [33] 104 [[27], [32], []] <|  -- 141: pad_crop
    .call [34] 47 [[0], [22], [33], [14], [30], [29], [11], [12], [19], [18], []] <|  -- 143: compute_clocking
    .ret [30, 29, 34, 22]  -- 147: return (xOffset, yOffset, clockEst, diamEst)

/-- `fit_unmasked_pupil_old`, `coralign/pupil/pupilfit.py` lines 150-277. Variables: 0 `pupilAmp`, 1 `fn_tuning`, 2 `inp`, 3 `nBeamNom`, 4 `nBin`, 5 `nPadFFT`, 6 `nFocusCrop`, 7 `nPhaseSteps`, 8 `dPixel`, 9 `clockDegMax`, 10 `nClock`, 11 `fnMaskRefNomRes`, 12 `fnMaskRefHighRes`, 13 `diamHighRes`, 14 `deltaAmpMax`, 15 `percentileForImageNorm`, 16 `zeroPaddingForHighResMask`, 17 `localpath`, 18 `maskRefNomRes`, 19 `maskRefHighRes`, 20 `ampBool`, 21 `amp`, 22 `pupilMeas`, 23 `pupilRef`, 24 `normFacMeas`, 26 `normFacRef`, 28 `pupilMeasNorm`, 29 `pupilRefNorm`, 32 `diamEst0`, 33 `xOffset0`, 34 `yOffset0`, 35 `clockEst0`, 36 `yOffset1`, 37 `xOffset1`, 39 `nPad`, 40 `maskRefHighResPad`, 41 `clockEst1`. -/
def p45_fit_unmasked_pupil_old : Fn where
  name := "pupil.pupilfit.fit_unmasked_pupil_old"
  params := 2
  body :=
    .call [] 59 [[0], [], []] <|  -- 179: twoD_array
    .call [2] 92 [[1], []] <|  -- 181: loadyaml
    .bind 3 [2] <|  -- 182: nBeamNom = inp['nBeamNom']
    .bind 4 [2] <|  -- 183: nBin = inp['nBin']
    .bind 5 [2] <|  -- 184: nPadFFT = inp['nPadFFT']
    .bind 6 [2] <|  -- 185: nFocusCrop = inp['nFocusCrop']
    .bind 7 [2] <|  -- 186: nPhaseSteps = inp['nPhaseSteps']
    .bind 8 [2] <|  -- 187: dPixel = inp['dPixel']
    .bind 9 [2] <|  -- 188: clockDegMax = inp['clockDegMax']
    .bind 10 [2] <|  -- 189: nClock = inp['nClock']
    .bind 11 [2] <|  -- 190: fnMaskRefNomRes = inp['fnMaskRefNomRes']
    .bind 12 [2] <|  -- 191: fnMaskRefHighRes = inp['fnMaskRefHighRes']
    .bind 13 [2] <|  -- 192: diamHighRes = inp['diamHighRes']
    .bind 14 [2] <|  -- 193: deltaAmpMax = inp['deltaAmpMax']
    .bind 15 [2] <|  -- 194: percentileForImageNorm = inp['percentileForImageNorm']
    .bind 16 [2] <|  -- 195: zeroPaddingForHighResMask = inp['zeroPaddingForHighResMask']
    .call [] 63 [[14], [], []] <|  -- 219: real_nonnegative_scalar
    .alloc 14 <|  -- 219: deltaAmpMax is a scalar, string or boolean
    .call [] 56 [[15], [], []] <|  -- 220: real_positive_scalar
    .alloc 15 <|  -- 220: percentileForImageNorm is a scalar, string or boolean
    .call [] 63 [[16], [], []] <|  -- 222: real_nonnegative_scalar
    .alloc 16 <|  -- 222: zeroPaddingForHighResMask is a scalar, string or boolean
    .alloc 17 <|  -- 226: localpath = os.path.dirname(os.path.abspath(__file__))
    .alloc 18 <|  -- 227: maskRefNomRes = fits.getdata(os.path.join(localpath, fnMaskR
    .alloc 19 <|  -- 228: maskRefHighRes = fits.getdata(os.path.join(localpath, fnMask
    .call [20] 52 [[0], [4]] <|  -- 232: ampthresh
    .alloc 21 <|  -- 233: amp = ampBool.astype(float)
    .alloc 22 <|  -- 238: pupilMeas = np.abs(pupilAmp)
    .alloc 23 <|  -- 239: pupilRef = np.abs(maskRefNomRes)
    .call [25] 52 [[22], []] <|  -- 241: ampthresh
    .call [24] 51 [[22], [25], [15]] <|  -- 241: compute_norm_factor
    .call [27] 52 [[23], []] <|  -- 243: ampthresh
    .call [26] 51 [[23], [27], [15]] <|  -- 243: compute_norm_factor
    .alloc 28 <|  -- 245: pupilMeasNorm = pupilMeas / normFacMeas
    .alloc 29 <|  -- 246: pupilRefNorm = pupilRef / normFacRef
    .call [30] 52 [[28], []] <|  -- 249: ampthresh
    .call [31] 52 [[29], []] <|  -- 250: ampthresh
    .alloc 32 <|  -- 248: diamEst0 = nBeamNom * np.sqrt(np.sum(pupilMeasNorm[ampthresh
    .alloc 33 <|  -- 254: xOffset0 = 0
    .alloc 34 <|  -- 255: yOffset0 = 0
    .alloc 35 <|  -- 256: clockEst0 = 0
    .call [23] 29 [[19], [35], [], [33], [34], [], []] <|  -- 257: rotate_shift_downsample_amplitude_mask
    .call [23] 104 [[23], [5], []] <|  -- 260: pad_crop
    .call [36, 37] 48 [[21], [23], [32], [7], [8], [5], [6], [], [], [], []] <|  -- 262: compute_lateral_offsets
    .call [38] 95 [[]] <|  -- 269: ceil_even
    .alloc 39 <|  -- 269: nPad = int(ceil_even(np.max(maskRefHighRes.shape) + zeroPadd
    .call [40] 104 [[19], [39], []] <|  -- 272: pad_crop
    .call [41] 47 [[22], [32], [40], [13], [37], [36], [9], [10], [15], [14], []] <|  -- 273: compute_clocking
    .ret [37, 36, 41, 32]  -- 277: return (xOffset1, yOffset1, clockEst1, diamEst0)

/-- `fit_pupil_zernikes`, `coralign/pupil/pupilfit.py` lines 280-416. Variables: 0 `wfe`, 1 `amp`, 2 `fn_pupil_fit_params`, 3 `fn_ellipse_fit_params`, 4 `bMask`, 5 `Z_noll_max`, 6 `mask_selem`, 7 `data_path`, 8 `xOffset`, 9 `yOffset`, 10 `_`, 11 `diamEst`, 12 `Zvec`, 14 `wfe_res_ptt`, 16 `wfe_res`. -/
def p46_fit_pupil_zernikes : Fn where
  name := "pupil.pupilfit.fit_pupil_zernikes"
  params := 8
  body :=
    .call [] 59 [[0], [], []] <|  -- 356: twoD_array
    .call [] 57 [[0], [], []] <|  -- 357: real_array
    .call [] 59 [[1], [], []] <|  -- 358: twoD_array
    .call [] 57 [[1], [], []] <|  -- 359: real_array
    .branch (  -- 360: if bMask is not None:
      .call [] 59 [[4], [], []] <|  -- 361: twoD_array
      .call [] 57 [[4], [], []] <|  -- 362: real_array
      .done)
      (
      .done) <|
    .call [] 64 [[5], [], []] <|  -- 365: positive_scalar_integer
    .alloc 5 <|  -- 365: Z_noll_max is a scalar, string or boolean
    .branch (  -- 366: if Z_noll_max < 3:
      .alloc 5 <|  -- 368: Z_noll_max = 3
      .done)
      (
      .done) <|
    .branch (  -- 369: if mask_selem is not None:
      .call [] 59 [[6], [], []] <|  -- 370: twoD_array
      .call [] 57 [[6], [], []] <|  -- 371: real_array
      .done)
      (
      .done) <|
    .call [] 67 [[2], [], []] <|  -- 372: string
    .alloc 2 <|  -- 372: fn_pupil_fit_params is a scalar, string or boolean
    .call [] 67 [[3], [], []] <|  -- 373: string
    .alloc 3 <|  -- 373: fn_ellipse_fit_params is a scalar, string or boolean
    .call [] 67 [[7], [], []] <|  -- 374: string
    .alloc 7 <|  -- 374: data_path is a scalar, string or boolean
    .call [8, 9, 10, 11] 44 [[1], [2], [3], [7], []] <|  -- 377: fit_unmasked_pupil
    .branch (  -- 383: if bMask is None:
      .call [4] 52 [[1], []] <|  -- 385: ampthresh
      .branch (  -- 386: if mask_selem is not None:
        .alloc 4 <|  -- 387: bMask = binary_erosion(bMask, structure=mask_selem)
        .done)
        (
        .done) <|
      .done)
      (
      .done) <|
    .call [12] 103 [[0], [4], [5], [11], [8], [9]] <|  -- 390: fit_zernikes
    .call [13] 102 [[], [12], [8], [9], [11], []] <|  -- 393: gen_zernikes
    .alloc 14 <|  -- 393: wfe_res_ptt = wfe - bMask * gen_zernikes(np.array([1, 2, 3])
    .call [15] 102 [[], [12], [8], [9], [11], []] <|  -- 397: gen_zernikes
    .alloc 16 <|  -- 397: wfe_res = wfe - bMask * gen_zernikes(np.arange(1, 1 + Z_noll
    .bind 17 [4, 8, 9, 11, 14, 16] <|  -- 403: return (Zvec, {'bMask': bMask, 'wfe_res_ptt': wfe_res_ptt, '
    .ret [12, 17]  -- 403: return (Zvec, {'bMask': bMask, 'wfe_res_ptt': wfe_res_ptt, '

/-- `compute_clocking`, `coralign/pupil/util.py` lines 12-129. Variables: 0 `ampMeas`, 1 `diamBeamAtMask`, 2 `maskRefHighRes`, 3 `diamHighRes`, 4 `xOffset`, 5 `yOffset`, 6 `clockDegMax`, 7 `nClock`, 8 `percentileForNorm`, 9 `deltaAmpMax`, 10 `useAmpthresh`, 11 `clockVec`, 12 `padFac`, 13 `normFacMeas`, 15 `ampNorm`, 16 `overlapVec`, 17 `ic`, 18 `clockDeg`, 19 `pupilRef`, 20 `normFacRef`, 22 `pupilRefNorm`, 23 `compMatrix`, 24 `ampBool`, 25 `pupilRefBool`, 26 `polyCoefs`, 27 `clockEst`. -/
def p47_compute_clocking : Fn where
  name := "pupil.util.compute_clocking"
  params := 11
  body :=
    .call [] 59 [[0], [], []] <|  -- 70: twoD_array
    .call [] 56 [[1], [], []] <|  -- 71: real_positive_scalar
    .alloc 1 <|  -- 71: diamBeamAtMask is a scalar, string or boolean
    .call [] 59 [[2], [], []] <|  -- 72: twoD_array
    .call [] 56 [[3], [], []] <|  -- 73: real_positive_scalar
    .alloc 3 <|  -- 73: diamHighRes is a scalar, string or boolean
    .call [] 62 [[4], [], []] <|  -- 74: real_scalar
    .alloc 4 <|  -- 74: xOffset is a scalar, string or boolean
    .call [] 62 [[5], [], []] <|  -- 75: real_scalar
    .alloc 5 <|  -- 75: yOffset is a scalar, string or boolean
    .call [] 62 [[6], [], []] <|  -- 76: real_scalar
    .alloc 6 <|  -- 76: clockDegMax is a scalar, string or boolean
    .call [] 64 [[7], [], []] <|  -- 77: positive_scalar_integer
    .alloc 7 <|  -- 77: nClock is a scalar, string or boolean
    .call [] 63 [[8], [], []] <|  -- 78: real_nonnegative_scalar
    .alloc 8 <|  -- 78: percentileForNorm is a scalar, string or boolean
    .call [] 63 [[9], [], []] <|  -- 79: real_nonnegative_scalar
    .alloc 9 <|  -- 79: deltaAmpMax is a scalar, string or boolean
    .alloc 11 <|  -- 84: clockVec = np.linspace(-clockDegMax, clockDegMax, nClock)
    .alloc 12 <|  -- 85: padFac = 1
    .alloc 0 <|  -- 87: ampMeas = np.abs(ampMeas)
    .branch (  -- 88: if not useAmpthresh:
      .call [14] 52 [[], []] <|  -- 89: ampthresh
      .call [13] 51 [[0], [14], [8]] <|  -- 89: compute_norm_factor
      .alloc 15 <|  -- 91: ampNorm = ampMeas / normFacMeas
      .alloc 16 <|  -- 92: overlapVec = np.zeros((nClock,))
      .loop (  -- 93: for ic, clockDeg in enumerate(clockVec):
        .bind 17 [11] <|  -- 93: for ic, clockDeg in enumerate(clockVec):
        .bind 18 [11] <|  -- 93: for ic, clockDeg in enumerate(clockVec):
        .call [19] 29 [[2], [18], [], [4], [5], [12], []] <|  -- 95: rotate_shift_downsample_amplitude_mask
        .call [19] 104 [[19], [], []] <|  -- 97: pad_crop
        .call [21] 52 [[19], []] <|  -- 99: ampthresh
        .call [20] 51 [[19], [21], [8]] <|  -- 99: compute_norm_factor
        .alloc 22 <|  -- 101: pupilRefNorm = pupilRef / normFacRef
        .alloc 23 <|  -- 102: compMatrix = np.abs(ampNorm - pupilRefNorm) < deltaAmpMax
        .write 16 <|  -- 103: overlapVec[ic] = np.sum(compMatrix)
        .done) <|
      .done)
      (
      .call [24] 52 [[], []] <|  -- 106: ampthresh
      .alloc 16 <|  -- 107: overlapVec = np.zeros((nClock,))
      .loop (  -- 108: for ic, clockDeg in enumerate(clockVec):
        .bind 17 [11] <|  -- 108: for ic, clockDeg in enumerate(clockVec):
        .bind 18 [11] <|  -- 108: for ic, clockDeg in enumerate(clockVec):
        .call [19] 29 [[2], [18], [], [4], [5], [12], []] <|  -- 110: rotate_shift_downsample_amplitude_mask
        .call [19] 104 [[19], [], []] <|  -- 112: pad_crop
        .call [25] 52 [[19], []] <|  -- 114: ampthresh
        .write 16 <|  -- 115: overlapVec[ic] = np.sum(ampBool == pupilRefBool)
        .done) <|
      .done) <|
    .alloc 16 <|  -- 122: overlapVec = overlapVec - np.max(overlapVec)
    .alloc 26 <|  -- 123: polyCoefs = np.polyfit(clockVec, overlapVec ** 2, 2)
    .branch (  -- 124: if polyCoefs[0] == 0:
      .alloc 27 <|  -- 125: clockEst = 0.0
      .done)
      (
      .alloc 27 <|  -- 127: clockEst = -polyCoefs[1] / (2 * polyCoefs[0])
      .done) <|
    .ret [27]  -- 129: return clockEst

/-- `compute_lateral_offsets`, `coralign/pupil/util.py` lines 132-338. Variables: 0 `arrayMeas`, 1 `arrayRef`, 2 `diamEst`, 3 `nPhaseSteps`, 4 `dPixel`, 5 `nPadFFT`, 6 `nFocusCrop`, 7 `nIter`, 8 `useCoarse`, 9 `xOffsetCoarse`, 10 `yOffsetCoarse`, 11 `arrayRefPad`, 12 `EfocRef`, 13 `EfocRefCrop`, 14 `arrayMeasRecenter`, 15 `Efoc`, 16 `EfocCrop`, 17 `xis`, 18 `etas`, 19 `XIS`, 20 `ETAS`, 21 `XIScrop`, 22 `ETAScrop`, 23 `deltaVec0`, 24 `deltaX`, 25 `deltaY`, 26 `dPixelNew`, 27 `iter_`, 28 `deltaVecX`, 29 `deltaVecY`, 30 `costMat`, 31 `ix`, 32 `iy`, 33 `phaseTT`, 34 `bestInds`, 35 `xSol`, 36 `ySol`, 37 `xOffsetFine`, 38 `yOffsetFine`. -/
def p48_compute_lateral_offsets : Fn where
  name := "pupil.util.compute_lateral_offsets"
  params := 11
  body :=
    .call [] 59 [[0], [], []] <|  -- 191: twoD_array
    .call [] 57 [[0], [], []] <|  -- 192: real_array
    .call [] 59 [[1], [], []] <|  -- 193: twoD_array
    .call [] 57 [[1], [], []] <|  -- 194: real_array
    .call [] 56 [[2], [], []] <|  -- 195: real_positive_scalar
    .alloc 2 <|  -- 195: diamEst is a scalar, string or boolean
    .call [] 64 [[3], [], []] <|  -- 196: positive_scalar_integer
    .alloc 3 <|  -- 196: nPhaseSteps is a scalar, string or boolean
    .call [] 56 [[4], [], []] <|  -- 197: real_positive_scalar
    .alloc 4 <|  -- 197: dPixel is a scalar, string or boolean
    .call [] 64 [[5], [], []] <|  -- 198: positive_scalar_integer
    .alloc 5 <|  -- 198: nPadFFT is a scalar, string or boolean
    .call [] 64 [[6], [], []] <|  -- 199: positive_scalar_integer
    .alloc 6 <|  -- 199: nFocusCrop is a scalar, string or boolean
    .call [] 68 [[8], [], []] <|  -- 200: boolean
    .alloc 8 <|  -- 200: useCoarse is a scalar, string or boolean
    .call [] 64 [[7], [], []] <|  -- 201: positive_scalar_integer
    .alloc 7 <|  -- 201: nIter is a scalar, string or boolean
    .branch (  -- 204: if useCoarse:
      .call [9, 10] 49 [[0], [2], []] <|  -- 205: coarsely_locate_pupil_offset
      .done)
      (
      .done) <|
    .alloc 9 <|  -- 209: xOffsetCoarse = int(np.round(xOffsetCoarse))
    .alloc 10 <|  -- 210: yOffsetCoarse = int(np.round(yOffsetCoarse))
    .call [11] 104 [[1], [5], []] <|  -- 223: pad_crop
    .alloc 12 <|  -- 224: EfocRef = np.fft.fftshift(np.fft.fft2(np.fft.ifftshift(array
    .call [13] 104 [[12], [6], []] <|  -- 226: pad_crop
    .call [14] 105 [[0], [5], [], []] <|  -- 233: offcenter_crop
    .alloc 15 <|  -- 237: Efoc = np.fft.fftshift(np.fft.fft2(np.fft.ifftshift(arrayMea
    .call [16] 104 [[15], [6], []] <|  -- 239: pad_crop
    .alloc 17 <|  -- 283: xis = np.arange(-nPadFFT / 2, nPadFFT / 2) / nPadFFT
    .bind 18 [17] <|  -- 284: etas = xis
    .alloc 19 <|  -- 285: [XIS, ETAS] = np.meshgrid(xis, etas)
    .alloc 20 <|  -- 285: [XIS, ETAS] = np.meshgrid(xis, etas)
    .call [21] 104 [[19], [6], []] <|  -- 286: pad_crop
    .call [22] 104 [[20], [6], []] <|  -- 287: pad_crop
    .alloc 23 <|  -- 289: deltaVec0 = np.linspace(-(nPhaseSteps - 1) / 2, (nPhaseSteps
    .alloc 24 <|  -- 291: deltaX = 0
    .alloc 25 <|  -- 292: deltaY = 0
    .bind 26 [4] <|  -- 293: dPixelNew = dPixel
    .loop (  -- 295: for iter_ in range(nIter):
      .alloc 27 <|  -- 295: for iter_ in range(nIter):
      .branch (  -- 297: if iter_ > 1:
        .alloc 26 <|  -- 298: dPixelNew = dPixelNew / 2.0
        .done)
        (
        .done) <|
      .alloc 23 <|  -- 300: deltaVec0 = np.linspace(-(nPhaseSteps - 1) / 2, (nPhaseSteps
      .alloc 28 <|  -- 303: deltaVecX = deltaVec0 + deltaX
      .alloc 29 <|  -- 304: deltaVecY = deltaVec0 + deltaY
      .alloc 30 <|  -- 305: costMat = np.zeros((nPhaseSteps, nPhaseSteps))
      .loop (  -- 306: for ix in range(nPhaseSteps):
        .alloc 31 <|  -- 306: for ix in range(nPhaseSteps):
        .loop (  -- 307: for iy in range(nPhaseSteps):
          .alloc 32 <|  -- 307: for iy in range(nPhaseSteps):
          .alloc 33 <|  -- 308: phaseTT = np.exp(2 * np.pi * 1j * (deltaVecX[ix] * XIScrop +
          .write 30 <|  -- 310: costMat[iy, ix] = np.sum(np.abs(EfocCrop * phaseTT - EfocRef
          .done) <|
        .done) <|
      .branch (  -- 323: if iter_ == 0 and nIter > 1:
        .alloc 34 <|  -- 324: bestInds = np.unravel_index(np.argmin(costMat), costMat.shap
        .bind 35 [28] <|  -- 325: xSol = deltaVecX[bestInds[1]]
        .bind 36 [29] <|  -- 326: ySol = deltaVecY[bestInds[0]]
        .done)
        (
        .call [35, 36] 80 [[28], [29], [30], []] <|  -- 329: find_optimum_2d
        .done) <|
      .alloc 37 <|  -- 332: xOffsetFine = xOffsetCoarse + xSol
      .alloc 38 <|  -- 333: yOffsetFine = yOffsetCoarse + ySol
      .bind 24 [35] <|  -- 335: deltaX = xSol
      .bind 25 [36] <|  -- 336: deltaY = ySol
      .done) <|
    .ret [38, 37]  -- 338: return (yOffsetFine, xOffsetFine)

/-- `coarsely_locate_pupil_offset`, `coralign/pupil/util.py` lines 341-404. Variables: 0 `pupil_image`, 1 `n_points_beam`, 2 `shrink_factor`, 3 `pixel_count_y`, 4 `pixel_count_x`, 5 `search_radius`, 6 `search_step_size`, 7 `x_offset_start`, 8 `y_offset_start`, 9 `x_offset_est`, 10 `y_offset_est`, 11 `_`. -/
def p49_coarsely_locate_pupil_offset : Fn where
  name := "pupil.util.coarsely_locate_pupil_offset"
  params := 3
  body :=
    .call [] 59 [[0], [], []] <|  -- 374: twoD_array
    .call [] 57 [[0], [], []] <|  -- 375: real_array
    .call [] 56 [[1], [], []] <|  -- 376: real_positive_scalar
    .alloc 1 <|  -- 376: n_points_beam is a scalar, string or boolean
    .call [] 56 [[2], [], []] <|  -- 377: real_positive_scalar
    .alloc 2 <|  -- 377: shrink_factor is a scalar, string or boolean
    .alloc 3 <|  -- 381: pixel_count_y, pixel_count_x = pupil_image.shape
    .alloc 4 <|  -- 381: pixel_count_y, pixel_count_x = pupil_image.shape
    .alloc 5 <|  -- 382: search_radius = np.max((pixel_count_x // 2, pixel_count_y //
    .alloc 6 <|  -- 383: search_step_size = max(1, int(np.floor(n_points_beam / shrin
    .alloc 7 <|  -- 384: x_offset_start = 0
    .alloc 8 <|  -- 385: y_offset_start = 0
    .loop (  -- 387: while not search_step_size == 0:
      .call [9, 10, 11] 50 [[0], [1], [7], [8], [5], [6]] <|  -- 389: coarsely_locate_pupil_offset_once
      .bind 7 [9] <|  -- 392: x_offset_start = x_offset_est
      .bind 8 [10] <|  -- 393: y_offset_start = y_offset_est
      .alloc 5 <|  -- 395: search_radius = 2 * search_step_size
      .branch (  -- 397: if search_step_size == 1:
        .alloc 6 <|  -- 398: search_step_size = 0
        .done)
        (
        .alloc 6 <|  -- 400: search_step_size = int(search_step_size / float(shrink_facto
        .branch (  -- 401: if search_step_size < 1:
          .alloc 6 <|  -- 402: search_step_size = 1
          .done)
          (
          .done) <|
        .done) <|
      .done) <|
    .ret [9, 10]  -- 404: return (x_offset_est, y_offset_est)

/-- `coarsely_locate_pupil_offset_once`, `coralign/pupil/util.py` lines 407-501. Variables: 0 `pupil_image`, 1 `n_points_beam`, 2 `x_offset_start`, 3 `y_offset_start`, 4 `search_radius`, 5 `search_step_size`, 6 `pixel_count_y`, 7 `pixel_count_x`, 8 `center_index_x`, 9 `center_index_y`, 10 `xs`, 11 `ys`, 12 `x_offsets`, 13 `y_offsets`, 14 `n_offsets`, 15 `overlap_matrix`, 16 `ix`, 17 `x_offset`, 18 `iy`, 19 `y_offset`, 20 `XS`, 21 `YS`, 22 `RS`, 23 `ROI`, 24 `indices_of_max`, 25 `x_offset_estimate`, 26 `y_offset_estimate`. -/
def p50_coarsely_locate_pupil_offset_once : Fn where
  name := "pupil.util.coarsely_locate_pupil_offset_once"
  params := 6
  body :=
    .call [] 59 [[0], [], []] <|  -- 453: twoD_array
    .call [] 57 [[0], [], []] <|  -- 454: real_array
    .call [] 56 [[1], [], []] <|  -- 455: real_positive_scalar
    .alloc 1 <|  -- 455: n_points_beam is a scalar, string or boolean
    .call [] 66 [[2], [], []] <|  -- 456: scalar_integer
    .alloc 2 <|  -- 456: x_offset_start is a scalar, string or boolean
    .call [] 66 [[3], [], []] <|  -- 457: scalar_integer
    .alloc 3 <|  -- 457: y_offset_start is a scalar, string or boolean
    .call [] 64 [[4], [], []] <|  -- 458: positive_scalar_integer
    .alloc 4 <|  -- 458: search_radius is a scalar, string or boolean
    .call [] 64 [[5], [], []] <|  -- 459: positive_scalar_integer
    .alloc 5 <|  -- 459: search_step_size is a scalar, string or boolean
    .alloc 6 <|  -- 463: pixel_count_y, pixel_count_x = pupil_image.shape
    .alloc 7 <|  -- 463: pixel_count_y, pixel_count_x = pupil_image.shape
    .alloc 8 <|  -- 464: center_index_x = pixel_count_x // 2
    .alloc 9 <|  -- 465: center_index_y = pixel_count_y // 2
    .alloc 10 <|  -- 466: xs = np.arange(np.ceil(-pixel_count_x / 2.0), np.ceil(pixel_
    .alloc 11 <|  -- 468: ys = np.arange(np.ceil(-pixel_count_y / 2.0), np.ceil(pixel_
    .alloc 12 <|  -- 471: x_offsets = np.arange(-search_radius, search_radius + 1, sea
    .bind 13 [12] <|  -- 473: y_offsets = x_offsets
    .alloc 14 <|  -- 474: n_offsets = x_offsets.size
    .alloc 15 <|  -- 475: overlap_matrix = np.zeros((n_offsets, n_offsets))
    .loop (  -- 476: for ix in range(n_offsets):
      .alloc 16 <|  -- 476: for ix in range(n_offsets):
      .bind 17 [12] <|  -- 477: x_offset = x_offsets[ix]
      .branch (  -- 478: if x_offset + x_offset_start + center_index_x >= 0 or x_offs
        .loop (  -- 481: for iy in range(n_offsets):
          .alloc 18 <|  -- 481: for iy in range(n_offsets):
          .bind 19 [13] <|  -- 482: y_offset = y_offsets[iy]
          .branch (  -- 483: if y_offset + y_offset_start + center_index_y >= 0 or y_offs
            .alloc 20 <|  -- 487: [XS, YS] = np.meshgrid(xs - x_offset - x_offset_start, ys - 
            .alloc 21 <|  -- 487: [XS, YS] = np.meshgrid(xs - x_offset - x_offset_start, ys - 
            .alloc 22 <|  -- 489: RS = np.sqrt(XS ** 2 + YS ** 2)
            .alloc 23 <|  -- 490: ROI = np.zeros((pixel_count_y, pixel_count_x), dtype=int)
            .write 23 <|  -- 491: ROI[RS <= n_points_beam / 2.0] = 1
            .write 15 <|  -- 492: overlap_matrix[iy, ix] = np.sum(pupil_image[ROI == 1])
            .done)
            (
            .done) <|
          .done) <|
        .done)
        (
        .done) <|
      .done) <|
    .alloc 24 <|  -- 494: indices_of_max = np.unravel_index(np.argmax(overlap_matrix, 
    .alloc 25 <|  -- 498: x_offset_estimate = x_offsets[indices_of_max[1]] + x_offset_
    .alloc 26 <|  -- 499: y_offset_estimate = y_offsets[indices_of_max[0]] + y_offset_
    .ret [25, 26, 15]  -- 501: return (x_offset_estimate, y_offset_estimate, overlap_matrix

/-- `compute_norm_factor`, `coralign/pupil/util.py` lines 504-547. Variables: 0 `unnorm_image`, 1 `software_mask`, 2 `percentile_for_norm`, 3 `is_mask_all_zeros`, 4 `norm_factor`. -/
def p51_compute_norm_factor : Fn where
  name := "pupil.util.compute_norm_factor"
  params := 3
  body :=
    .call [] 59 [[0], [], []] <|  -- 524: twoD_array
    .call [] 57 [[0], [], []] <|  -- 525: real_array
    .call [] 59 [[1], [], []] <|  -- 526: twoD_array
    .call [] 57 [[1], [], []] <|  -- 527: real_array
    .call [] 62 [[2], [], []] <|  -- 536: real_scalar
    .alloc 2 <|  -- 536: percentile_for_norm is a scalar, string or boolean
    .alloc 3 <|  -- 540: is_mask_all_zeros = np.sum(software_mask) == 0
    .branch (  -- 541: if not is_mask_all_zeros:
      .alloc 4 <|  -- 542: norm_factor = np.percentile(unnorm_image[software_mask == 1]
      .done)
      (
      .raises) <|  -- 545: raise
    .ret [4]  -- 547: return norm_factor

/-- `ampthresh`, `coralign/util/ampthresh.py` lines 7-65. Variables: 0 `pupilMap`, 1 `nBin`, 2 `pupilMaptmp`, 3 `Icount`, 4 `IbinEdges`, 5 `bV`, 6 `binCenter`, 7 `binVal`, 8 `thresh`, 9 `boolMask`. -/
def p52_ampthresh : Fn where
  name := "util.ampthresh.ampthresh"
  params := 2
  body :=
    .call [] 59 [[0], [], []] <|  -- 29: twoD_array
    .call [] 64 [[1], [], []] <|  -- 30: positive_scalar_integer
    .alloc 1 <|  -- 30: nBin is a scalar, string or boolean
    .branch (  -- 32: if np.any(np.iscomplex(pupilMap)):
      .alloc 2 <|  -- 33: pupilMaptmp = np.abs(pupilMap)
      .bind 0 [2] <|  -- 34: pupilMap = pupilMaptmp
      .done)
      (
      .done) <|
    .alloc 3 <|  -- 40: Icount, IbinEdges = np.histogram(pupilMap, bins=nBin)
    .alloc 4 <|  -- 40: Icount, IbinEdges = np.histogram(pupilMap, bins=nBin)
    .alloc 5 <|  -- 43: bV = np.logical_and(Icount[1:-1] <= Icount[:-2], Icount[1:-1
    .alloc 6 <|  -- 47: binCenter = 0.5 * (IbinEdges[:-1] + IbinEdges[1:])
    .bind 7 [6] <|  -- 50: binVal = binCenter[1:-1][bV]
    .branch (  -- 57: if np.size(binVal) > 0:
      .bind 8 [7] <|  -- 58: thresh = binVal[0]
      .done)
      (
      .raises) <|  -- 60: raise
    .alloc 9 <|  -- 63: boolMask = pupilMap > thresh
    .ret [9]  -- 65: return boolMask

/-- `center_of_energy`, `coralign/util/center.py` lines 6-46. Variables: 0 `image_array`, 1 `rows`, 2 `cols`, 3 `energies`, 4 `total_energy`, 5 `weights`, 6 `row_values`, 7 `col_values`, 8 `avg_row`, 9 `avg_col`. -/
def p53_center_of_energy : Fn where
  name := "util.center.center_of_energy"
  params := 1
  body :=
    .call [] 59 [[0], [], []] <|  -- 25: twoD_array
    .call [] 57 [[0], [], []] <|  -- 26: real_array
    .alloc 1 <|  -- 29: rows, cols = np.nonzero(image_array)
    .alloc 2 <|  -- 29: rows, cols = np.nonzero(image_array)
    .bind 3 [0] <|  -- 32: energies = image_array[np.nonzero(image_array)]
    .alloc 4 <|  -- 35: total_energy = np.sum(energies)
    .alloc 5 <|  -- 38: weights = energies / total_energy
    .alloc 6 <|  -- 41: row_values = rows * weights
    .alloc 7 <|  -- 42: col_values = cols * weights
    .alloc 8 <|  -- 43: avg_row = np.sum(row_values)
    .alloc 9 <|  -- 44: avg_col = np.sum(col_values)
    .ret [9, 8]  -- 46: return (avg_col, avg_row)

/-- `_checkname`, `coralign/util/check.py` lines 17-24. Variables: 0 `vname`. -/
def p54_checkname : Fn where
  name := "util.check._checkname"
  params := 1
  body :=
    .done

/-- `_checkexc`, `coralign/util/check.py` lines 27-37. Variables: 0 `vexc`. -/
def p55_checkexc : Fn where
  name := "util.check._checkexc"
  params := 1
  body :=
    .done

/-- `real_positive_scalar`, `coralign/util/check.py` lines 40-62. Variables: 0 `var`, 1 `vname`, 2 `vexc`. -/
def p56_real_positive_scalar : Fn where
  name := "util.check.real_positive_scalar"
  params := 3
  body :=
    .call [] 54 [[1]] <|  -- 53: _checkname
    .call [] 55 [[2]] <|  -- 54: _checkexc
    .ret [0]  -- 62: return var

/-- `real_array`, `coralign/util/check.py` lines 65-86. Variables: 0 `var`, 1 `vname`, 2 `vexc`. -/
def p57_real_array : Fn where
  name := "util.check.real_array"
  params := 3
  body :=
    .call [] 54 [[1]] <|  -- 78: _checkname
    .call [] 55 [[2]] <|  -- 79: _checkexc
    .bind 0 [0] <|  -- 81: var = np.array(var, copy=False)
    .ret [0]  -- 86: return var

/-- `oneD_array`, `coralign/util/check.py` lines 89-110. Variables: 0 `var`, 1 `vname`, 2 `vexc`. -/
def p58_oneD_array : Fn where
  name := "util.check.oneD_array"
  params := 3
  body :=
    .call [] 54 [[1]] <|  -- 102: _checkname
    .call [] 55 [[2]] <|  -- 103: _checkexc
    .bind 0 [0] <|  -- 105: var = np.array(var, copy=False)
    .ret [0]  -- 110: return var

/-- `twoD_array`, `coralign/util/check.py` lines 113-134. Variables: 0 `var`, 1 `vname`, 2 `vexc`. -/
def p59_twoD_array : Fn where
  name := "util.check.twoD_array"
  params := 3
  body :=
    .call [] 54 [[1]] <|  -- 126: _checkname
    .call [] 55 [[2]] <|  -- 127: _checkexc
    .bind 0 [0] <|  -- 129: var = np.array(var, copy=False)
    .ret [0]  -- 134: return var

/-- `twoD_square_array`, `coralign/util/check.py` lines 137-161. Variables: 0 `var`, 1 `vname`, 2 `vexc`. -/
def p60_twoD_square_array : Fn where
  name := "util.check.twoD_square_array"
  params := 3
  body :=
    .call [] 54 [[1]] <|  -- 150: _checkname
    .call [] 55 [[2]] <|  -- 151: _checkexc
    .bind 0 [0] <|  -- 153: var = np.array(var, copy=False)
    .ret [0]  -- 161: return var

/-- `threeD_array`, `coralign/util/check.py` lines 164-185. Variables: 0 `var`, 1 `vname`, 2 `vexc`. -/
def p61_threeD_array : Fn where
  name := "util.check.threeD_array"
  params := 3
  body :=
    .call [] 54 [[1]] <|  -- 177: _checkname
    .call [] 55 [[2]] <|  -- 178: _checkexc
    .bind 0 [0] <|  -- 180: var = np.array(var, copy=False)
    .ret [0]  -- 185: return var

/-- `real_scalar`, `coralign/util/check.py` lines 189-209. Variables: 0 `var`, 1 `vname`, 2 `vexc`. -/
def p62_real_scalar : Fn where
  name := "util.check.real_scalar"
  params := 3
  body :=
    .call [] 54 [[1]] <|  -- 202: _checkname
    .call [] 55 [[2]] <|  -- 203: _checkexc
    .ret [0]  -- 209: return var

/-- `real_nonnegative_scalar`, `coralign/util/check.py` lines 212-234. Variables: 0 `var`, 1 `vname`, 2 `vexc`. -/
def p63_real_nonnegative_scalar : Fn where
  name := "util.check.real_nonnegative_scalar"
  params := 3
  body :=
    .call [] 54 [[1]] <|  -- 225: _checkname
    .call [] 55 [[2]] <|  -- 226: _checkexc
    .ret [0]  -- 234: return var

/-- `positive_scalar_integer`, `coralign/util/check.py` lines 237-259. Variables: 0 `var`, 1 `vname`, 2 `vexc`. -/
def p64_positive_scalar_integer : Fn where
  name := "util.check.positive_scalar_integer"
  params := 3
  body :=
    .call [] 54 [[1]] <|  -- 250: _checkname
    .call [] 55 [[2]] <|  -- 251: _checkexc
    .ret [0]  -- 259: return var

/-- `nonnegative_scalar_integer`, `coralign/util/check.py` lines 262-284. Variables: 0 `var`, 1 `vname`, 2 `vexc`. -/
def p65_nonnegative_scalar_integer : Fn where
  name := "util.check.nonnegative_scalar_integer"
  params := 3
  body :=
    .call [] 54 [[1]] <|  -- 275: _checkname
    .call [] 55 [[2]] <|  -- 276: _checkexc
    .ret [0]  -- 284: return var

/-- `scalar_integer`, `coralign/util/check.py` lines 287-307. Variables: 0 `var`, 1 `vname`, 2 `vexc`. -/
def p66_scalar_integer : Fn where
  name := "util.check.scalar_integer"
  params := 3
  body :=
    .call [] 54 [[1]] <|  -- 300: _checkname
    .call [] 55 [[2]] <|  -- 301: _checkexc
    .ret [0]  -- 307: return var

/-- `string`, `coralign/util/check.py` lines 310-328. Variables: 0 `var`, 1 `vname`, 2 `vexc`. -/
def p67_string : Fn where
  name := "util.check.string"
  params := 3
  body :=
    .call [] 54 [[1]] <|  -- 323: _checkname
    .call [] 55 [[2]] <|  -- 324: _checkexc
    .ret [0]  -- 328: return var

/-- `boolean`, `coralign/util/check.py` lines 331-349. Variables: 0 `var`, 1 `vname`, 2 `vexc`. -/
def p68_boolean : Fn where
  name := "util.check.boolean"
  params := 3
  body :=
    .call [] 54 [[1]] <|  -- 344: _checkname
    .call [] 55 [[2]] <|  -- 345: _checkexc
    .ret [0]  -- 349: return var

/-- `dictionary`, `coralign/util/check.py` lines 352-370. Variables: 0 `var`, 1 `vname`, 2 `vexc`. -/
def p69_dictionary : Fn where
  name := "util.check.dictionary"
  params := 3
  body :=
    .call [] 54 [[1]] <|  -- 365: _checkname
    .call [] 55 [[2]] <|  -- 366: _checkexc
    .ret [0]  -- 370: return var

/-- `combine`, `coralign/util/combine_crop.py` lines 13-40. Variables: 0 `frame`, 1 `bp`, 2 `out`. -/
def p70_combine : Fn where
  name := "util.combine_crop.combine"
  params := 2
  body :=
    .call [] 59 [[0], [], []] <|  -- 30: twoD_array
    .call [] 59 [[1], [], []] <|  -- 31: twoD_array
    .alloc 2 <|  -- 37: out = frame.copy().astype('float')
    .write 2 <|  -- 38: out[bp] = np.nan
    .ret [2]  -- 40: return out

/-- `crop`, `coralign/util/combine_crop.py` lines 43-82. Variables: 0 `frame`, 1 `lower_row`, 2 `lower_col`, 3 `row_width`, 4 `col_width`, 5 `excerpt`, 6 `erow`, 7 `ecol`, 8 `out`. -/
def p71_crop : Fn where
  name := "util.combine_crop.crop"
  params := 5
  body :=
    .call [] 59 [[0], [], []] <|  -- 63: twoD_array
    .call [] 65 [[1], [], []] <|  -- 64: nonnegative_scalar_integer
    .alloc 1 <|  -- 64: lower_row is a scalar, string or boolean
    .call [] 65 [[2], [], []] <|  -- 65: nonnegative_scalar_integer
    .alloc 2 <|  -- 65: lower_col is a scalar, string or boolean
    .call [] 64 [[3], [], []] <|  -- 66: positive_scalar_integer
    .alloc 3 <|  -- 66: row_width is a scalar, string or boolean
    .call [] 64 [[4], [], []] <|  -- 67: positive_scalar_integer
    .alloc 4 <|  -- 67: col_width is a scalar, string or boolean
    .bind 5 [0] <|  -- 73: excerpt = frame[lower_row:lower_row + row_width, lower_col:l
    .alloc 6 <|  -- 77: erow, ecol = excerpt.shape
    .alloc 7 <|  -- 77: erow, ecol = excerpt.shape
    .alloc 8 <|  -- 79: out = np.full((row_width, col_width), np.nan)
    .write 8 <|  -- 80: out[:erow, :ecol] = excerpt
    .ret [8]  -- 82: return out

/-- `dmhtoph`, `coralign/util/dmhtoph.py` lines 14-167. Variables: 0 `nrow`, 1 `ncol`, 2 `dmin`, 3 `nact`, 4 `inf_func`, 5 `ppact_d`, 6 `ppact_cx`, 7 `ppact_cy`, 8 `dx`, 9 `dy`, 10 `thact`, 11 `flipx`, 12 `arr0`, 13 `carr0`, 14 `npix`, 15 `xyin`, 16 `interpolator`, 17 `mppa`, 18 `N`, 19 `nxyres`, 20 `xout`, 21 `yout`, 22 `X`, 23 `Y`, 24 `interp_inds`, 25 `sind`, 26 `s0`, 27 `dmrot`, 28 `surface`. -/
def p72_dmhtoph : Fn where
  name := "util.dmhtoph.dmhtoph"
  params := 12
  body :=
    .call [] 64 [[0], [], []] <|  -- 95: positive_scalar_integer
    .alloc 0 <|  -- 95: nrow is a scalar, string or boolean
    .call [] 64 [[1], [], []] <|  -- 96: positive_scalar_integer
    .alloc 1 <|  -- 96: ncol is a scalar, string or boolean
    .call [] 59 [[2], [], []] <|  -- 97: twoD_array
    .call [] 64 [[3], [], []] <|  -- 98: positive_scalar_integer
    .alloc 3 <|  -- 98: nact is a scalar, string or boolean
    .call [] 64 [[5], [], []] <|  -- 99: positive_scalar_integer
    .alloc 5 <|  -- 99: ppact_d is a scalar, string or boolean
    .call [] 59 [[4], [], []] <|  -- 100: twoD_array
    .call [] 56 [[6], [], []] <|  -- 101: real_positive_scalar
    .alloc 6 <|  -- 101: ppact_cx is a scalar, string or boolean
    .call [] 56 [[7], [], []] <|  -- 102: real_positive_scalar
    .alloc 7 <|  -- 102: ppact_cy is a scalar, string or boolean
    .call [] 62 [[8], [], []] <|  -- 103: real_scalar
    .alloc 8 <|  -- 103: dx is a scalar, string or boolean
    .call [] 62 [[9], [], []] <|  -- 104: real_scalar
    .alloc 9 <|  -- 104: dy is a scalar, string or boolean
    .call [] 62 [[10], [], []] <|  -- 105: real_scalar
    .alloc 10 <|  -- 105: thact is a scalar, string or boolean
    .alloc 12 <|  -- 123: arr0 = np.zeros(((nact - 1) * ppact_d + 1, (nact - 1) * ppac
    .write 12 <|  -- 124: arr0[::ppact_d, ::ppact_d] = dmin
    .alloc 13 <|  -- 126: carr0 = scipy.signal.convolve(arr0, inf_func, mode='full')
    .alloc 14 <|  -- 127: npix = carr0.shape[0]
    .alloc 15 <|  -- 131: xyin = (np.arange(npix) - (npix - 1) / 2) / ppact_d
    .bind 16 [13, 15] <|  -- 132: interpolator = scipy.interpolate.RectBivariateSpline(xyin, x
    .bind 17 [6, 7] <|  -- 136: mppa = max(ppact_cx, ppact_cy)
    .alloc 18 <|  -- 137: N = inf_func.shape[0]
    .alloc 19 <|  -- 139: nxyres = int(np.ceil(np.sqrt(2) * (nact + N / ppact_d) * mpp
    .branch (  -- 140: if nxyres % 2 == 0:
      .write 19 <|  -- 141: nxyres += 1
      .done)
      (
      .done) <|
    .alloc 20 <|  -- 145: xout = (np.arange(nxyres) - nxyres // 2) / ppact_cx
    .alloc 21 <|  -- 146: yout = (np.arange(nxyres) - nxyres // 2) / ppact_cy
    .alloc 22 <|  -- 147: X, Y = np.meshgrid(xout, yout)
    .alloc 23 <|  -- 147: X, Y = np.meshgrid(xout, yout)
    .alloc 24 <|  -- 151: interp_inds = np.logical_and(np.logical_and(X >= min(xyin), 
    .bind 25 [16, 22, 23] <|  -- 156: sind = interpolator(Y[interp_inds], X[interp_inds], grid=Fal
    .alloc 26 <|  -- 157: s0 = np.zeros((nxyres, nxyres))
    .write 26 <|  -- 158: s0[interp_inds] = sind
    .branch (  -- 161: if flipx:
      .bind 26 [26] <|  -- 162: s0 = np.fliplr(s0)
      .done)
      (
      .done) <|
    .alloc 27 <|  -- 164: dmrot = scipy.ndimage.rotate(s0, -thact, reshape=False)
    .alloc 28 <|  -- 165: surface = scipy.ndimage.shift(dmrot, [dy, dx])
    .call [29] 104 [[28], [0, 1], []] <|  -- 167: pad_crop
    .ret [29]  -- 167: return pad_crop(surface, (nrow, ncol))

/-- `dmh_to_volts`, `coralign/util/dmhtoph.py` lines 171-199. Variables: 0 `gainmap`, 1 `dmh`, 2 `lam`. -/
def p73_dmh_to_volts : Fn where
  name := "util.dmhtoph.dmh_to_volts"
  params := 3
  body :=
    .call [] 59 [[0], [], []] <|  -- 190: twoD_array
    .call [] 57 [[0], [], []] <|  -- 191: real_array
    .call [] 59 [[1], [], []] <|  -- 192: twoD_array
    .call [] 57 [[1], [], []] <|  -- 193: real_array
    .call [] 56 [[2], [], []] <|  -- 194: real_positive_scalar
    .alloc 2 <|  -- 194: lam is a scalar, string or boolean
    .alloc 3 <|  -- 199: return dmh * lam / (2.0 * np.pi) / gainmap
    .ret [3]  -- 199: return dmh * lam / (2.0 * np.pi) / gainmap

/-- `volts_to_dmh`, `coralign/util/dmhtoph.py` lines 202-230. Variables: 0 `gainmap`, 1 `volts`, 2 `lam`. -/
def p74_volts_to_dmh : Fn where
  name := "util.dmhtoph.volts_to_dmh"
  params := 3
  body :=
    .call [] 59 [[0], [], []] <|  -- 221: twoD_array
    .call [] 57 [[0], [], []] <|  -- 222: real_array
    .call [] 59 [[1], [], []] <|  -- 223: twoD_array
    .call [] 57 [[1], [], []] <|  -- 224: real_array
    .call [] 56 [[2], [], []] <|  -- 225: real_positive_scalar
    .alloc 2 <|  -- 225: lam is a scalar, string or boolean
    .alloc 3 <|  -- 230: return volts / lam * (2.0 * np.pi) * gainmap
    .ret [3]  -- 230: return volts / lam * (2.0 * np.pi) * gainmap

/-- `probe`, `coralign/util/dmshapes.py` lines 10-97. Variables: 0 `nact`, 1 `dact`, 2 `xcenter`, 3 `ycenter`, 4 `clock`, 5 `height`, 6 `ximin`, 7 `ximax`, 8 `etamin`, 9 `etamax`, 10 `phase`, 11 `xx0`, 12 `yy0`, 13 `rclock`, 14 `xx`, 15 `yy`, 16 `wx`, 17 `wy`, 18 `fx`, 19 `fy`, 20 `ddm`. -/
def p75_probe : Fn where
  name := "util.dmshapes.probe"
  params := 11
  body :=
    .call [] 64 [[0], [], []] <|  -- 62: positive_scalar_integer
    .alloc 0 <|  -- 62: nact is a scalar, string or boolean
    .call [] 56 [[1], [], []] <|  -- 63: real_positive_scalar
    .alloc 1 <|  -- 63: dact is a scalar, string or boolean
    .call [] 62 [[2], [], []] <|  -- 64: real_scalar
    .alloc 2 <|  -- 64: xcenter is a scalar, string or boolean
    .call [] 62 [[3], [], []] <|  -- 65: real_scalar
    .alloc 3 <|  -- 65: ycenter is a scalar, string or boolean
    .call [] 62 [[4], [], []] <|  -- 66: real_scalar
    .alloc 4 <|  -- 66: clock is a scalar, string or boolean
    .call [] 56 [[5], [], []] <|  -- 67: real_positive_scalar
    .alloc 5 <|  -- 67: height is a scalar, string or boolean
    .call [] 62 [[6], [], []] <|  -- 68: real_scalar
    .alloc 6 <|  -- 68: ximin is a scalar, string or boolean
    .call [] 62 [[7], [], []] <|  -- 69: real_scalar
    .alloc 7 <|  -- 69: ximax is a scalar, string or boolean
    .call [] 62 [[8], [], []] <|  -- 70: real_scalar
    .alloc 8 <|  -- 70: etamin is a scalar, string or boolean
    .call [] 62 [[9], [], []] <|  -- 71: real_scalar
    .alloc 9 <|  -- 71: etamax is a scalar, string or boolean
    .call [] 62 [[10], [], []] <|  -- 72: real_scalar
    .alloc 10 <|  -- 72: phase is a scalar, string or boolean
    .alloc 11 <|  -- 79: xx0, yy0 = np.meshgrid(np.arange(nact) - (nact - 1.0) / 2.0 
    .alloc 12 <|  -- 79: xx0, yy0 = np.meshgrid(np.arange(nact) - (nact - 1.0) / 2.0 
    .alloc 13 <|  -- 81: rclock = clock * np.pi / 180.0
    .alloc 14 <|  -- 82: xx = xx0 * np.cos(rclock) - yy0 * np.sin(rclock)
    .alloc 15 <|  -- 83: yy = xx0 * np.sin(rclock) + yy0 * np.cos(rclock)
    .alloc 16 <|  -- 87: wx = dact / float(ximax - ximin)
    .alloc 17 <|  -- 88: wy = dact / float(etamax - etamin)
    .alloc 18 <|  -- 89: fx = (ximin + ximax) / 2.0
    .alloc 19 <|  -- 90: fy = (etamin + etamax) / 2.0
    .alloc 20 <|  -- 92: ddm = height * np.sinc(xx / wx) * np.sinc(yy / wy)
    .write 20 <|  -- 94: ddm /= wx * wy
    .write 20 <|  -- 96: ddm *= 2 * np.sin(2.0 * np.pi * (xx * fx + yy * fy) / dact +
    .ret [20]  -- 97: return ddm

/-- `sine`, `coralign/util/dmshapes.py` lines 100-137. Variables: 0 `nact`, 1 `dact`, 2 `amplitude`, 3 `phase`, 4 `freqx`, 5 `freqy`, 6 `xx`, 7 `yy`, 8 `sphase`, 9 `ddm`. -/
def p76_sine : Fn where
  name := "util.dmshapes.sine"
  params := 6
  body :=
    .call [] 64 [[0], [], []] <|  -- 123: positive_scalar_integer
    .alloc 0 <|  -- 123: nact is a scalar, string or boolean
    .call [] 56 [[1], [], []] <|  -- 124: real_positive_scalar
    .alloc 1 <|  -- 124: dact is a scalar, string or boolean
    .call [] 56 [[2], [], []] <|  -- 125: real_positive_scalar
    .alloc 2 <|  -- 125: amplitude is a scalar, string or boolean
    .call [] 62 [[3], [], []] <|  -- 126: real_scalar
    .alloc 3 <|  -- 126: phase is a scalar, string or boolean
    .call [] 62 [[4], [], []] <|  -- 127: real_scalar
    .alloc 4 <|  -- 127: freqx is a scalar, string or boolean
    .call [] 62 [[5], [], []] <|  -- 128: real_scalar
    .alloc 5 <|  -- 128: freqy is a scalar, string or boolean
    .alloc 6 <|  -- 131: xx, yy = np.meshgrid(np.arange(nact) - (nact - 1.0) / 2.0, n
    .alloc 7 <|  -- 131: xx, yy = np.meshgrid(np.arange(nact) - (nact - 1.0) / 2.0, n
    .alloc 8 <|  -- 135: sphase = 2.0 * np.pi * (xx * freqx + yy * freqy) / dact
    .alloc 9 <|  -- 136: ddm = amplitude * np.sin(sphase + phase * np.pi / 180.0)
    .ret [9]  -- 137: return ddm

/-- `grid`, `coralign/util/dmshapes.py` lines 140-217. Variables: 0 `nact`, 1 `xspace`, 2 `yspace`, 3 `xoffset`, 4 `yoffset`, 5 `pokesize`, 6 `ddm`. -/
def p77_grid : Fn where
  name := "util.dmshapes.grid"
  params := 6
  body :=
    .call [] 64 [[0], [], []] <|  -- 198: positive_scalar_integer
    .alloc 0 <|  -- 198: nact is a scalar, string or boolean
    .call [] 64 [[1], [], []] <|  -- 199: positive_scalar_integer
    .alloc 1 <|  -- 199: xspace is a scalar, string or boolean
    .call [] 64 [[2], [], []] <|  -- 200: positive_scalar_integer
    .alloc 2 <|  -- 200: yspace is a scalar, string or boolean
    .call [] 65 [[3], [], []] <|  -- 201: nonnegative_scalar_integer
    .alloc 3 <|  -- 201: xoffset is a scalar, string or boolean
    .call [] 65 [[4], [], []] <|  -- 202: nonnegative_scalar_integer
    .alloc 4 <|  -- 202: yoffset is a scalar, string or boolean
    .call [] 62 [[5], [], []] <|  -- 203: real_scalar
    .alloc 5 <|  -- 203: pokesize is a scalar, string or boolean
    .alloc 6 <|  -- 215: ddm = np.zeros((nact, nact))
    .write 6 <|  -- 216: ddm[yoffset::yspace, xoffset::xspace] += pokesize
    .ret [6]  -- 217: return ddm

/-- `zernike`, `coralign/util/dmshapes.py` lines 220-253. Variables: 0 `nact`, 1 `dact`, 2 `zernsize`, 3 `order`, 4 `xx`, 5 `yy`, 7 `ddm`. -/
def p78_zernike : Fn where
  name := "util.dmshapes.zernike"
  params := 4
  body :=
    .call [] 64 [[0], [], []] <|  -- 244: positive_scalar_integer
    .alloc 0 <|  -- 244: nact is a scalar, string or boolean
    .call [] 56 [[1], [], []] <|  -- 245: real_positive_scalar
    .alloc 1 <|  -- 245: dact is a scalar, string or boolean
    .call [] 62 [[2], [], []] <|  -- 246: real_scalar
    .alloc 2 <|  -- 246: zernsize is a scalar, string or boolean
    .call [] 64 [[3], [], []] <|  -- 247: positive_scalar_integer
    .alloc 3 <|  -- 247: order is a scalar, string or boolean
    .alloc 4 <|  -- 250: xx, yy = np.meshgrid(np.arange(nact) - (nact - 1.0) / 2.0, n
    .alloc 5 <|  -- 250: xx, yy = np.meshgrid(np.arange(nact) - (nact - 1.0) / 2.0, n
    .call [6] 101 [[4], [5], [], [3]] <|  -- 252: xyzern
    .alloc 7 <|  -- 252: ddm = zernsize * nollzernikes.xyzern(xx, yy, dact / 2.0, [or
    .ret [7]  -- 253: return ddm[0]

/-- `find_optimum_1d`, `coralign/util/findopt.py` lines 14-46. Variables: 0 `xVec`, 1 `arrayToFit`, 2 `orderOfFit`, 3 `p0`, 4 `p1`, 5 `_`, 6 `xOpt`. -/
def p79_find_optimum_1d : Fn where
  name := "util.findopt.find_optimum_1d"
  params := 2
  body :=
    .call [] 58 [[0], [], []] <|  -- 30: oneD_array
    .call [] 58 [[1], [], []] <|  -- 31: oneD_array
    .alloc 2 <|  -- 35: orderOfFit = 2
    .alloc 3 <|  -- 36: p0, p1, _ = np.polyfit(xVec, arrayToFit, orderOfFit)
    .alloc 4 <|  -- 36: p0, p1, _ = np.polyfit(xVec, arrayToFit, orderOfFit)
    .alloc 5 <|  -- 36: p0, p1, _ = np.polyfit(xVec, arrayToFit, orderOfFit)
    .alloc 6 <|  -- 44: xOpt = -p1 / (2 * p0)
    .ret [6]  -- 46: return xOpt

/-- `find_optimum_2d`, `coralign/util/findopt.py` lines 49-133. Variables: 0 `xVec`, 1 `yVec`, 2 `arrayToFit`, 3 `mask`, 4 `nx`, 5 `ny`, 6 `maskBool`, 7 `nPix`, 8 `X`, 9 `Y`, 10 `f0`, 11 `f1`, 12 `f2`, 13 `f3`, 14 `f4`, 15 `f5`, 16 `A`, 17 `y`, 18 `temp`, 19 `coeffs`, 20 `a`, 21 `b`, 22 `c`, 23 `d`, 24 `e`, 25 `x_denominator`, 26 `y_denominator`, 27 `xBest`, 28 `yBest`. -/
def p80_find_optimum_2d : Fn where
  name := "util.findopt.find_optimum_2d"
  params := 4
  body :=
    .call [] 58 [[0], [], []] <|  -- 78: oneD_array
    .call [] 58 [[1], [], []] <|  -- 79: oneD_array
    .call [] 59 [[2], [], []] <|  -- 80: twoD_array
    .call [] 59 [[3], [], []] <|  -- 81: twoD_array
    .alloc 4 <|  -- 84: nx = len(xVec)
    .alloc 5 <|  -- 85: ny = len(yVec)
    .alloc 6 <|  -- 91: maskBool = np.asarray(mask).astype(bool)
    .alloc 7 <|  -- 92: nPix = np.sum(mask.astype(int))
    .alloc 8 <|  -- 95: [X, Y] = np.meshgrid(xVec, yVec)
    .alloc 9 <|  -- 95: [X, Y] = np.meshgrid(xVec, yVec)
    .alloc 10 <|  -- 96: f0 = X ** 2
    .alloc 11 <|  -- 97: f1 = X * Y
    .alloc 12 <|  -- 98: f2 = Y ** 2
    .bind 13 [8] <|  -- 99: f3 = X
    .bind 14 [9] <|  -- 100: f4 = Y
    .alloc 15 <|  -- 101: f5 = np.ones((ny, nx))
    .alloc 16 <|  -- 104: A = np.concatenate((f0[maskBool].reshape((nPix, 1)), f1[mask
    .alloc 17 <|  -- 110: y = arrayToFit[maskBool].flatten()
    .alloc 18 <|  -- 111: temp = np.linalg.lstsq(A, y, rcond=None)
    .bind 19 [18] <|  -- 112: coeffs = temp[0]
    .bind 20 [19] <|  -- 119: a, b, c, d, e = coeffs[0:5]
    .bind 21 [19] <|  -- 119: a, b, c, d, e = coeffs[0:5]
    .bind 22 [19] <|  -- 119: a, b, c, d, e = coeffs[0:5]
    .bind 23 [19] <|  -- 119: a, b, c, d, e = coeffs[0:5]
    .bind 24 [19] <|  -- 119: a, b, c, d, e = coeffs[0:5]
    .alloc 25 <|  -- 122: x_denominator = b * b - 4.0 * a * c
    .alloc 26 <|  -- 123: y_denominator = 2 * c
    .alloc 27 <|  -- 130: xBest = (2.0 * c * d - e * b) / (b * b - 4.0 * a * c)
    .alloc 28 <|  -- 131: yBest = -(b * xBest + e) / (2 * c)
    .ret [27, 28]  -- 133: return (xBest, yBest)

/-- `fit_circle`, `coralign/util/fit_shapes.py` lines 15-82. Variables: 0 `image`, 1 `min_radius`, 2 `max_radius`, 3 `edge_sigma`, 4 `edges`, 5 `hough_radii`, 6 `hough_res`, 7 `accums`, 8 `cx`, 9 `cy`, 10 `radii`, 11 `radiusEst`, 12 `xCenterEst`, 13 `yCenterEst`, 14 `xOffsetEst`, 15 `yOffsetEst`. -/
def p81_fit_circle : Fn where
  name := "util.fit_shapes.fit_circle"
  params := 4
  body :=
    .call [] 59 [[0], [], []] <|  -- 50: twoD_array
    .call [] 57 [[0], [], []] <|  -- 51: real_array
    .call [] 64 [[1], [], []] <|  -- 52: positive_scalar_integer
    .alloc 1 <|  -- 52: min_radius is a scalar, string or boolean
    .call [] 64 [[2], [], []] <|  -- 53: positive_scalar_integer
    .alloc 2 <|  -- 53: max_radius is a scalar, string or boolean
    .call [] 56 [[3], [], []] <|  -- 54: real_positive_scalar
    .alloc 3 <|  -- 54: edge_sigma is a scalar, string or boolean
    .call [0] 52 [[0], []] <|  -- 62: ampthresh
    .alloc 4 <|  -- 63: edges = canny(image, sigma=edge_sigma, low_threshold=0.2, hi
    .alloc 5 <|  -- 68: hough_radii = np.arange(min_radius, max_radius + 1, dtype=in
    .alloc 6 <|  -- 69: hough_res = hough_circle(edges, hough_radii)
    .alloc 7 <|  -- 72: accums, cx, cy, radii = hough_circle_peaks(hough_res, hough_
    .alloc 8 <|  -- 72: accums, cx, cy, radii = hough_circle_peaks(hough_res, hough_
    .alloc 9 <|  -- 72: accums, cx, cy, radii = hough_circle_peaks(hough_res, hough_
    .alloc 10 <|  -- 72: accums, cx, cy, radii = hough_circle_peaks(hough_res, hough_
    .bind 11 [10] <|  -- 75: radiusEst = radii[0]
    .bind 12 [8] <|  -- 76: xCenterEst = cx[0]
    .bind 13 [9] <|  -- 77: yCenterEst = cy[0]
    .alloc 14 <|  -- 79: xOffsetEst = xCenterEst - image.shape[1] // 2
    .alloc 15 <|  -- 80: yOffsetEst = yCenterEst - image.shape[0] // 2
    .ret [14, 15, 11]  -- 82: return (xOffsetEst, yOffsetEst, radiusEst)

/-- `fit_ellipse`, `coralign/util/fit_shapes.py` lines 85-158. Variables: 0 `pupil_image`, 1 `fn_pupil_ellipse_fitting`, 2 `paramDict`, 3 `nIterDilateErode`, 4 `padFactor`, 5 `nMax`, 7 `pupilOut`, 8 `struct`, 9 `pupilDilated`, 10 `contours`, 11 `hierarchy`, 12 `cnt`, 13 `ellipse`, 14 `xc`, 15 `yc`, 16 `a`, 17 `b`, 18 `diamEst`, 19 `xCenterEst`, 20 `yCenterEst`, 21 `xOffsetEst`, 22 `yOffsetEst`. -/
def p82_fit_ellipse : Fn where
  name := "util.fit_shapes.fit_ellipse"
  params := 2
  body :=
    .call [] 59 [[0], [], []] <|  -- 115: twoD_array
    .call [] 57 [[0], [], []] <|  -- 116: real_array
    .call [2] 92 [[1], []] <|  -- 118: loadyaml
    .bind 3 [2] <|  -- 119: nIterDilateErode = paramDict['nIterDilateErode']
    .bind 4 [2] <|  -- 120: padFactor = paramDict['padFactor']
    .alloc 5 <|  -- 122: nMax = int(np.ceil(padFactor * max(pupil_image.shape)))
    .call [0] 104 [[0], [5], []] <|  -- 123: pad_crop
    .call [6] 52 [[0], []] <|  -- 124: ampthresh
    .alloc 0 <|  -- 124: pupil_image = ampthresh(pupil_image).astype(float)
    .branch (  -- 127: if nIterDilateErode == 0:
      .bind 7 [0] <|  -- 128: pupilOut = pupil_image
      .done)
      (
      .alloc 8 <|  -- 130: struct = generate_binary_structure(2, 2)
      .alloc 9 <|  -- 131: pupilDilated = binary_dilation(pupil_image, structure=struct
      .alloc 7 <|  -- 133: pupilOut = binary_erosion(pupilDilated, structure=struct, it
      .done) <|
    .alloc 7 <|  -- 139: pupilOut = np.array(pupilOut, dtype=np.uint8)
    .alloc 10 <|  -- 140: contours, hierarchy = cv2.findContours(pupilOut, cv2.RETR_TR
    .alloc 11 <|  -- 140: contours, hierarchy = cv2.findContours(pupilOut, cv2.RETR_TR
    .bind 12 [10] <|  -- 142: cnt = contours[0]
    .alloc 13 <|  -- 143: ellipse = cv2.fitEllipse(cnt)
    .bind 14 [13] <|  -- 145: xc = ellipse[0][0]
    .bind 15 [13] <|  -- 146: yc = ellipse[0][1]
    .alloc 16 <|  -- 147: a = ellipse[1][0] / 2
    .alloc 17 <|  -- 148: b = ellipse[1][1] / 2
    .alloc 18 <|  -- 151: diamEst = 2 * np.max([a, b])
    .bind 19 [14] <|  -- 152: xCenterEst = xc
    .bind 20 [15] <|  -- 153: yCenterEst = yc
    .alloc 21 <|  -- 155: xOffsetEst = xCenterEst - pupilOut.shape[1] // 2
    .alloc 22 <|  -- 156: yOffsetEst = yCenterEst - pupilOut.shape[0] // 2
    .ret [18, 21, 22]  -- 158: return (diamEst, xOffsetEst, yOffsetEst)

/-- `fit_surf_to_dm`, `coralign/util/fit_surf_to_dm.py` lines 12-45. Variables: 0 `surf`, 1 `act_effect`, 2 `sr`, 3 `sc`, 4 `ar`, 5 `ac`, 6 `x`. -/
def p83_fit_surf_to_dm : Fn where
  name := "util.fit_surf_to_dm.fit_surf_to_dm"
  params := 2
  body :=
    .call [] 59 [[0], [], []] <|  -- 35: twoD_array
    .alloc 2 <|  -- 38: sr, sc = surf.shape
    .alloc 3 <|  -- 38: sr, sc = surf.shape
    .alloc 4 <|  -- 39: ar, ac = act_effect.shape
    .alloc 5 <|  -- 39: ar, ac = act_effect.shape
    .alloc 6 <|  -- 44: x = scipy.sparse.linalg.spsolve(act_effect, surf.ravel())
    .ret [6]  -- 45: return np.reshape(x, surf.shape)

/-- `build_prefilter`, `coralign/util/fit_surf_to_dm.py` lines 48-105. Variables: 0 `nrow`, 1 `ncol`, 2 `inf_func`, 3 `ppa_in`, 4 `act_effect`, 5 `ppa_out`, 6 `inf_func_actres`, 7 `single_poke`, 8 `j`, 9 `dm_surface`. -/
def p84_build_prefilter : Fn where
  name := "util.fit_surf_to_dm.build_prefilter"
  params := 4
  body :=
    .call [] 64 [[0], [], []] <|  -- 82: positive_scalar_integer
    .alloc 0 <|  -- 82: nrow is a scalar, string or boolean
    .call [] 64 [[1], [], []] <|  -- 83: positive_scalar_integer
    .alloc 1 <|  -- 83: ncol is a scalar, string or boolean
    .call [] 59 [[2], [], []] <|  -- 84: twoD_array
    .call [] 56 [[3], [], []] <|  -- 85: real_positive_scalar
    .alloc 3 <|  -- 85: ppa_in is a scalar, string or boolean
    .alloc 4 <|  -- 89: act_effect = scipy.sparse.lil_matrix((nrow * ncol, nrow * nc
    .alloc 5 <|  -- 92: ppa_out = 1.0
    .call [6] 85 [[2], [3], [5]] <|  -- 93: resample_inf_func
    .alloc 7 <|  -- 95: single_poke = np.zeros((nrow, ncol))
    .loop (  -- 97: for j in range(nrow * ncol):
      .alloc 8 <|  -- 97: for j in range(nrow * ncol):
      .write 7 <|  -- 98: single_poke.ravel()[j] = 1
      .alloc 9 <|  -- 99: dm_surface = convolve(single_poke, inf_func_actres, mode='co
      .write 7 <|  -- 101: single_poke.ravel()[j] = 0
      .write 4 <|  -- 102: act_effect[j, :] = dm_surface.ravel()
      .done) <|
    .alloc 10 <|  -- 105: return act_effect.tocsr()
    .ret [10]  -- 105: return act_effect.tocsr()

/-- `resample_inf_func`, `coralign/util/fit_surf_to_dm.py` lines 108-153. Variables: 0 `inf_func`, 1 `ppa_in`, 2 `ppa_out`, 3 `nr0`, 4 `nc0`, 5 `r0`, 6 `c0`, 7 `nr1`, 8 `nc1`, 9 `r1`, 10 `c1`, 11 `interp_spline`, 12 `inf_func_actres`. -/
def p85_resample_inf_func : Fn where
  name := "util.fit_surf_to_dm.resample_inf_func"
  params := 3
  body :=
    .call [] 59 [[0], [], []] <|  -- 131: twoD_array
    .call [] 56 [[1], [], []] <|  -- 132: real_positive_scalar
    .alloc 1 <|  -- 132: ppa_in is a scalar, string or boolean
    .call [] 56 [[2], [], []] <|  -- 133: real_positive_scalar
    .alloc 2 <|  -- 133: ppa_out is a scalar, string or boolean
    .branch (  -- 135: if not ppa_in == ppa_out:
      .alloc 3 <|  -- 137: nr0, nc0 = inf_func.shape
      .alloc 4 <|  -- 137: nr0, nc0 = inf_func.shape
      .alloc 5 <|  -- 138: r0 = np.linspace(-(nr0 - 1.0) / 2.0, (nr0 - 1.0) / 2.0, nr0)
      .alloc 6 <|  -- 139: c0 = np.linspace(-(nc0 - 1.0) / 2.0, (nc0 - 1.0) / 2.0, nc0)
      .alloc 7 <|  -- 143: nr1 = int(2 * np.floor(0.5 * nr0 * ppa_out / ppa_in) + 1)
      .alloc 8 <|  -- 144: nc1 = int(2 * np.floor(0.5 * nc0 * ppa_out / ppa_in) + 1)
      .alloc 9 <|  -- 146: r1 = np.linspace(-(nr1 - 1) / 2.0, (nr1 - 1) / 2.0, nr1) / p
      .alloc 10 <|  -- 147: c1 = np.linspace(-(nc1 - 1) / 2.0, (nc1 - 1) / 2.0, nc1) / p
      .bind 11 [0, 5, 6] <|  -- 148: interp_spline = RectBivariateSpline(r0, c0, inf_func)
      .bind 12 [9, 10, 11] <|  -- 149: inf_func_actres = interp_spline(r1, c1)
      .done)
      (
      .bind 12 [0] <|  -- 151: inf_func_actres = inf_func
      .done) <|
    .ret [12]  -- 153: return inf_func_actres

/-- `do_fft`, `coralign/util/fresnelprop.py` lines 11-32. Variables: 0 `e`, 1 `temp`. -/
def p86_do_fft : Fn where
  name := "util.fresnelprop.do_fft"
  params := 1
  body :=
    .call [] 59 [[0], [], []] <|  -- 30: twoD_array
    .alloc 1 <|  -- 31: temp = np.fft.fftshift(np.fft.fft2(np.fft.ifftshift(e)))
    .ret [1]  -- 32: return temp

/-- `do_ifft`, `coralign/util/fresnelprop.py` lines 35-56. Variables: 0 `e`, 1 `temp`. -/
def p87_do_ifft : Fn where
  name := "util.fresnelprop.do_ifft"
  params := 1
  body :=
    .call [] 59 [[0], [], []] <|  -- 54: twoD_array
    .alloc 1 <|  -- 55: temp = np.fft.fftshift(np.fft.ifft2(np.fft.ifftshift(e)))
    .ret [1]  -- 56: return temp

/-- `fresnelprop`, `coralign/util/fresnelprop.py` lines 59-122. Variables: 0 `e`, 1 `lam`, 2 `z`, 3 `nxfresnel`, 4 `pixpermeter`, 5 `nSamplesMin`, 6 `fresnelrange`, 7 `xxf`, 8 `yyf`, 9 `rrf`, 10 `fp`, 11 `efresnel`, 12 `fefresnel`, 13 `efresnel2`. -/
def p88_fresnelprop : Fn where
  name := "util.fresnelprop.fresnelprop"
  params := 5
  body :=
    .call [] 59 [[0], [], []] <|  -- 87: twoD_array
    .call [] 56 [[1], [], []] <|  -- 88: real_positive_scalar
    .alloc 1 <|  -- 88: lam is a scalar, string or boolean
    .call [] 62 [[2], [], []] <|  -- 89: real_scalar
    .alloc 2 <|  -- 89: z is a scalar, string or boolean
    .call [] 64 [[3], [], []] <|  -- 90: positive_scalar_integer
    .alloc 3 <|  -- 90: nxfresnel is a scalar, string or boolean
    .call [] 56 [[4], [], []] <|  -- 91: real_positive_scalar
    .alloc 4 <|  -- 91: pixpermeter is a scalar, string or boolean
    .alloc 4 <|  -- 94: pixpermeter = float(pixpermeter)
    .alloc 1 <|  -- 95: lam = float(lam)
    .alloc 2 <|  -- 96: z = float(z)
    .branch (  -- 99: if z == 0:
      .ret [0])  -- 100: return e
      (
      .done) <|
    .alloc 5 <|  -- 102: nSamplesMin = int(np.ceil(lam * np.abs(z) * pixpermeter ** 2
    .alloc 6 <|  -- 108: fresnelrange = np.arange(nxfresnel) - nxfresnel // 2
    .alloc 7 <|  -- 109: xxf, yyf = np.meshgrid(fresnelrange, fresnelrange)
    .alloc 8 <|  -- 109: xxf, yyf = np.meshgrid(fresnelrange, fresnelrange)
    .alloc 9 <|  -- 110: rrf = np.hypot(xxf, yyf)
    .alloc 10 <|  -- 115: fp = np.exp(-1j * np.pi * lam * z * (rrf * (pixpermeter / nx
    .call [11] 104 [[0], [3], []] <|  -- 118: pad_crop
    .call [12] 86 [[11]] <|  -- 119: do_fft
    .write 12 <|  -- 120: fefresnel *= fp
    .call [13] 87 [[12]] <|  -- 121: do_ifft
    .call [14] 104 [[13], [], []] <|  -- 122: pad_crop
    .ret [14]  -- 122: return pad_crop(efresnel2, e.shape)

/-- `get_fp`, `coralign/util/fresnelprop.py` lines 125-175. Variables: 0 `lam`, 1 `z`, 2 `nxfresnel`, 3 `pixpermeter`, 4 `nSamplesMin`, 5 `fresnelrange`, 6 `xxf`, 7 `yyf`, 8 `rrf`. -/
def p89_get_fp : Fn where
  name := "util.fresnelprop.get_fp"
  params := 4
  body :=
    .call [] 56 [[0], [], []] <|  -- 152: real_positive_scalar
    .alloc 0 <|  -- 152: lam is a scalar, string or boolean
    .call [] 62 [[1], [], []] <|  -- 153: real_scalar
    .alloc 1 <|  -- 153: z is a scalar, string or boolean
    .call [] 64 [[2], [], []] <|  -- 154: positive_scalar_integer
    .alloc 2 <|  -- 154: nxfresnel is a scalar, string or boolean
    .call [] 56 [[3], [], []] <|  -- 155: real_positive_scalar
    .alloc 3 <|  -- 155: pixpermeter is a scalar, string or boolean
    .alloc 3 <|  -- 158: pixpermeter = float(pixpermeter)
    .alloc 0 <|  -- 159: lam = float(lam)
    .alloc 1 <|  -- 160: z = float(z)
    .alloc 4 <|  -- 162: nSamplesMin = int(np.ceil(lam * np.abs(z) * pixpermeter ** 2
    .alloc 5 <|  -- 168: fresnelrange = np.arange(nxfresnel) - nxfresnel // 2
    .alloc 6 <|  -- 169: xxf, yyf = np.meshgrid(fresnelrange, fresnelrange)
    .alloc 7 <|  -- 169: xxf, yyf = np.meshgrid(fresnelrange, fresnelrange)
    .alloc 8 <|  -- 170: rrf = np.hypot(xxf, yyf)
    .alloc 9 <|  -- 175: return np.exp(-1j * np.pi * lam * z * (rrf * (pixpermeter / 
    .ret [9]  -- 175: return np.exp(-1j * np.pi * lam * z * (rrf * (pixpermeter / 

/-- `fresnelprop_fp`, `coralign/util/fresnelprop.py` lines 178-221. Variables: 0 `e`, 1 `z`, 2 `nxfresnel`, 3 `fp`, 4 `efresnel`, 5 `fefresnel`, 6 `efresnel2`. -/
def p90_fresnelprop_fp : Fn where
  name := "util.fresnelprop.fresnelprop_fp"
  params := 4
  body :=
    .call [] 59 [[0], [], []] <|  -- 207: twoD_array
    .call [] 62 [[1], [], []] <|  -- 208: real_scalar
    .alloc 1 <|  -- 208: z is a scalar, string or boolean
    .call [] 64 [[2], [], []] <|  -- 209: positive_scalar_integer
    .alloc 2 <|  -- 209: nxfresnel is a scalar, string or boolean
    .call [] 59 [[3], [], []] <|  -- 210: twoD_array
    .branch (  -- 213: if z == 0:
      .ret [0])  -- 214: return e
      (
      .done) <|
    .call [4] 104 [[0], [2], []] <|  -- 217: pad_crop
    .call [5] 86 [[4]] <|  -- 218: do_fft
    .write 5 <|  -- 219: fefresnel *= fp
    .call [6] 87 [[5]] <|  -- 220: do_ifft
    .call [7] 104 [[6], [], []] <|  -- 221: pad_crop
    .ret [7]  -- 221: return pad_crop(efresnel2, e.shape)

/-- `get_crop_lower`, `coralign/util/get_crop_lower.py` lines 8-51. Variables: 0 `row_center`, 1 `col_center`, 2 `row_width`, 3 `col_width`, 4 `bound`, 5 `lower_row`, 6 `lower_col`. -/
def p91_get_crop_lower : Fn where
  name := "util.get_crop_lower.get_crop_lower"
  params := 5
  body :=
    .call [] 65 [[0], [], []] <|  -- 37: nonnegative_scalar_integer
    .alloc 0 <|  -- 37: row_center is a scalar, string or boolean
    .call [] 65 [[1], [], []] <|  -- 38: nonnegative_scalar_integer
    .alloc 1 <|  -- 38: col_center is a scalar, string or boolean
    .call [] 64 [[2], [], []] <|  -- 39: positive_scalar_integer
    .alloc 2 <|  -- 39: row_width is a scalar, string or boolean
    .call [] 64 [[3], [], []] <|  -- 40: positive_scalar_integer
    .alloc 3 <|  -- 40: col_width is a scalar, string or boolean
    .call [] 68 [[4], [], []] <|  -- 41: boolean
    .alloc 4 <|  -- 41: bound is a scalar, string or boolean
    .alloc 5 <|  -- 43: lower_row = row_center - row_width // 2
    .alloc 6 <|  -- 44: lower_col = col_center - col_width // 2
    .branch (  -- 46: if bound:
      .bind 5 [5] <|  -- 47: lower_row = max(lower_row, 0)
      .bind 6 [6] <|  -- 48: lower_col = max(lower_col, 0)
      .done)
      (
      .done) <|
    .ret [5, 6]  -- 51: return (lower_row, lower_col)

/-- `loadyaml`, `coralign/util/loadyaml.py` lines 8-41. Variables: 0 `path`, 1 `custom_exception`, 2 `f`, 3 `raw_data`. -/
def p92_loadyaml : Fn where
  name := "util.loadyaml.loadyaml"
  params := 2
  body :=
    .alloc 2 <|  -- 28: with open(path) as f:
    .alloc 3 <|  -- 29: raw_data = yaml.safe_load(f)
    .ret [3]  -- 41: return raw_data

/-- `rms`, `coralign/util/math.py` lines 7-11. Variables: 0 `arrayIn`. -/
def p93_rms : Fn where
  name := "util.math.rms"
  params := 1
  body :=
    .call [] 57 [[0], [], []] <|  -- 9: real_array
    .alloc 1 <|  -- 11: return np.sqrt(np.mean(arrayIn ** 2))
    .ret [1]  -- 11: return np.sqrt(np.mean(arrayIn ** 2))

/-- `ceil_odd`, `coralign/util/math.py` lines 14-33. Variables: 0 `x_in`, 1 `x_out`. -/
def p94_ceil_odd : Fn where
  name := "util.math.ceil_odd"
  params := 1
  body :=
    .call [] 62 [[0], [], []] <|  -- 28: real_scalar
    .alloc 0 <|  -- 28: x_in is a scalar, string or boolean
    .alloc 1 <|  -- 30: x_out = int(np.ceil(x_in))
    .branch (  -- 31: if x_out % 2 == 0:
      .write 1 <|  -- 32: x_out += 1
      .done)
      (
      .done) <|
    .ret [1]  -- 33: return x_out

/-- `ceil_even`, `coralign/util/math.py` lines 36-52. Variables: 0 `x_in`. -/
def p95_ceil_even : Fn where
  name := "util.math.ceil_even"
  params := 1
  body :=
    .call [] 62 [[0], [], []] <|  -- 50: real_scalar
    .alloc 0 <|  -- 50: x_in is a scalar, string or boolean
    .alloc 1 <|  -- 52: return int(2 * np.ceil(0.5 * x_in))
    .ret [1]  -- 52: return int(2 * np.ceil(0.5 * x_in))

/-- `cart2pol`, `coralign/util/math.py` lines 55-85. Variables: 0 `x`, 1 `y`, 2 `rho`, 3 `theta`. -/
def p96_cart2pol : Fn where
  name := "util.math.cart2pol"
  params := 2
  body :=
    .branch (  -- 73: if type(x) == np.ndarray and type(y) == np.ndarray:
      .call [] 57 [[0], [], []] <|  -- 74: real_array
      .call [] 57 [[1], [], []] <|  -- 75: real_array
      .done)
      (
      .call [] 62 [[0], [], []] <|  -- 79: real_scalar
      .alloc 0 <|  -- 79: x is a scalar, string or boolean
      .call [] 62 [[1], [], []] <|  -- 80: real_scalar
      .alloc 1 <|  -- 80: y is a scalar, string or boolean
      .done) <|
    .alloc 2 <|  -- 82: rho = np.sqrt(x ** 2 + y ** 2)
    .alloc 3 <|  -- 83: theta = np.arctan2(y, x)
    .ret [2, 3]  -- 85: return (rho, theta)

/-- `do_mft`, `coralign/util/mft.py` lines 10-64. Variables: 0 `e`, 1 `outshape`, 2 `pixperlod`, 3 `pixperpupil`, 4 `index`, 5 `dim`, 6 `row`, 7 `drow`, 8 `col`, 9 `dcol`, 11 `rowpp`, 13 `colpp`, 14 `rowmult`, 15 `colmult`, 16 `temp`. -/
def p97_do_mft : Fn where
  name := "util.mft.do_mft"
  params := 4
  body :=
    .call [] 59 [[0], [], []] <|  -- 36: twoD_array
    .call [] 56 [[2], [], []] <|  -- 37: real_positive_scalar
    .alloc 2 <|  -- 37: pixperlod is a scalar, string or boolean
    .call [] 56 [[3], [], []] <|  -- 38: real_positive_scalar
    .alloc 3 <|  -- 38: pixperpupil is a scalar, string or boolean
    .loop (  -- 43: for index, dim in enumerate(outshape):
      .bind 4 [1] <|  -- 43: for index, dim in enumerate(outshape):
      .bind 5 [1] <|  -- 43: for index, dim in enumerate(outshape):
      .call [] 64 [[5], [], []] <|  -- 44: positive_scalar_integer
      .alloc 5 <|  -- 44: dim is a scalar, string or boolean
      .done) <|
    .call [6, 7] 100 [[], []] <|  -- 52: _interval
    .call [8, 9] 100 [[], []] <|  -- 53: _interval
    .call [10] 100 [[], [1]] <|  -- 56: _interval
    .bind 11 [10] <|  -- 56: rowpp = _interval(outshape[0] / pixperlod, outshape[0])[0]
    .call [12] 100 [[], [1]] <|  -- 57: _interval
    .bind 13 [12] <|  -- 57: colpp = _interval(outshape[1] / pixperlod, outshape[1])[0]
    .alloc 14 <|  -- 60: rowmult = np.exp(-2.0 * np.pi * 1j * np.outer(rowpp, row))
    .alloc 15 <|  -- 61: colmult = np.exp(-2.0 * np.pi * 1j * np.outer(col, colpp))
    .alloc 16 <|  -- 63: temp = np.dot(np.dot(rowmult, e), colmult) * drow * dcol
    .ret [16]  -- 64: return temp

/-- `do_offcenter_mft`, `coralign/util/mft.py` lines 67-144. Variables: 0 `e`, 1 `outshape`, 2 `pixperlod`, 3 `pixperpupil`, 4 `pupilShape`, 5 `yxLowerLeft`, 6 `index`, 7 `dim`, 8 `row`, 9 `drow`, 10 `col`, 11 `dcol`, 12 `rowcrop`, 13 `colcrop`, 15 `rowpp`, 17 `colpp`, 18 `rowmult`, 19 `colmult`. -/
def p98_do_offcenter_mft : Fn where
  name := "util.mft.do_offcenter_mft"
  params := 6
  body :=
    .call [] 59 [[0], [], []] <|  -- 97: twoD_array
    .call [] 56 [[2], [], []] <|  -- 98: real_positive_scalar
    .alloc 2 <|  -- 98: pixperlod is a scalar, string or boolean
    .call [] 56 [[3], [], []] <|  -- 99: real_positive_scalar
    .alloc 3 <|  -- 99: pixperpupil is a scalar, string or boolean
    .loop (  -- 104: for index, dim in enumerate(outshape):
      .bind 6 [1] <|  -- 104: for index, dim in enumerate(outshape):
      .bind 7 [1] <|  -- 104: for index, dim in enumerate(outshape):
      .call [] 64 [[7], [], []] <|  -- 105: positive_scalar_integer
      .alloc 7 <|  -- 105: dim is a scalar, string or boolean
      .done) <|
    .loop (  -- 113: for index, dim in enumerate(pupilShape):
      .bind 6 [4] <|  -- 113: for index, dim in enumerate(pupilShape):
      .bind 7 [4] <|  -- 113: for index, dim in enumerate(pupilShape):
      .call [] 64 [[7], [], []] <|  -- 114: positive_scalar_integer
      .alloc 7 <|  -- 114: dim is a scalar, string or boolean
      .done) <|
    .loop (  -- 122: for index, dim in enumerate(yxLowerLeft):
      .bind 6 [5] <|  -- 122: for index, dim in enumerate(yxLowerLeft):
      .bind 7 [5] <|  -- 122: for index, dim in enumerate(yxLowerLeft):
      .call [] 65 [[7], [], []] <|  -- 123: nonnegative_scalar_integer
      .alloc 7 <|  -- 123: dim is a scalar, string or boolean
      .done) <|
    .call [8, 9] 100 [[], [4]] <|  -- 129: _interval
    .call [10, 11] 100 [[], [4]] <|  -- 130: _interval
    .bind 12 [8] <|  -- 133: rowcrop = row[yxLowerLeft[0]:yxLowerLeft[0] + e.shape[0]]
    .bind 13 [10] <|  -- 134: colcrop = col[yxLowerLeft[1]:yxLowerLeft[1] + e.shape[1]]
    .call [14] 100 [[], [1]] <|  -- 137: _interval
    .bind 15 [14] <|  -- 137: rowpp = _interval(outshape[0] / pixperlod, outshape[0])[0]
    .call [16] 100 [[], [1]] <|  -- 138: _interval
    .bind 17 [16] <|  -- 138: colpp = _interval(outshape[1] / pixperlod, outshape[1])[0]
    .alloc 18 <|  -- 141: rowmult = np.exp(-2.0 * np.pi * 1j * np.outer(rowpp, rowcrop
    .alloc 19 <|  -- 142: colmult = np.exp(-2.0 * np.pi * 1j * np.outer(colcrop, colpp
    .alloc 20 <|  -- 144: return np.dot(np.dot(rowmult, e), colmult) * drow * dcol
    .ret [20]  -- 144: return np.dot(np.dot(rowmult, e), colmult) * drow * dcol

/-- `do_imft`, `coralign/util/mft.py` lines 147-200. Variables: 0 `e`, 1 `outshape`, 2 `pixperlod`, 3 `pixperpupil`, 4 `index`, 5 `dim`, 6 `row`, 7 `drow`, 8 `col`, 9 `dcol`, 11 `rowpp`, 13 `colpp`, 14 `rowmult`, 15 `colmult`, 16 `temp`. -/
def p99_do_imft : Fn where
  name := "util.mft.do_imft"
  params := 4
  body :=
    .call [] 59 [[0], [], []] <|  -- 173: twoD_array
    .call [] 56 [[2], [], []] <|  -- 174: real_positive_scalar
    .alloc 2 <|  -- 174: pixperlod is a scalar, string or boolean
    .call [] 56 [[3], [], []] <|  -- 175: real_positive_scalar
    .alloc 3 <|  -- 175: pixperpupil is a scalar, string or boolean
    .loop (  -- 180: for index, dim in enumerate(outshape):
      .bind 4 [1] <|  -- 180: for index, dim in enumerate(outshape):
      .bind 5 [1] <|  -- 180: for index, dim in enumerate(outshape):
      .call [] 64 [[5], [], []] <|  -- 181: positive_scalar_integer
      .alloc 5 <|  -- 181: dim is a scalar, string or boolean
      .done) <|
    .alloc 2 <|  -- 188: pixperlod = float(pixperlod)
    .call [6, 7] 100 [[], []] <|  -- 190: _interval
    .call [8, 9] 100 [[], []] <|  -- 191: _interval
    .call [10] 100 [[], [1]] <|  -- 192: _interval
    .bind 11 [10] <|  -- 192: rowpp = _interval(outshape[0] / pixperpupil, outshape[0])[0]
    .call [12] 100 [[], [1]] <|  -- 193: _interval
    .bind 13 [12] <|  -- 193: colpp = _interval(outshape[1] / pixperpupil, outshape[1])[0]
    .alloc 14 <|  -- 196: rowmult = np.exp(2.0 * np.pi * 1j * np.outer(rowpp, row))
    .alloc 15 <|  -- 197: colmult = np.exp(2.0 * np.pi * 1j * np.outer(col, colpp))
    .alloc 16 <|  -- 199: temp = np.dot(np.dot(rowmult, e), colmult) * drow * dcol
    .ret [16]  -- 200: return temp

/-- `_interval`, `coralign/util/mft.py` lines 204-221. Variables: 0 `width`, 1 `npts`, 2 `dx`, 3 `x`. -/
def p100_interval : Fn where
  name := "util.mft._interval"
  params := 2
  body :=
    .call [] 56 [[0], [], []] <|  -- 216: real_positive_scalar
    .alloc 0 <|  -- 216: width is a scalar, string or boolean
    .call [] 64 [[1], [], []] <|  -- 217: positive_scalar_integer
    .alloc 1 <|  -- 217: npts is a scalar, string or boolean
    .alloc 2 <|  -- 219: dx = width / npts
    .alloc 3 <|  -- 220: x = np.arange(-(npts // 2), npts - npts // 2) * dx
    .ret [3, 2]  -- 221: return (x, dx)

/-- `xyzern`, `coralign/util/nollzernikes.py` lines 9-134. Variables: 0 `x`, 1 `y`, 2 `prad`, 3 `orders`, 4 `index`, 5 `order`, 6 `r`, 7 `th`, 8 `ra`, 9 `tha`, 10 `moa`, 11 `nr`, 12 `nmo`, 13 `np1`, 14 `ntermsn`, 15 `m`, 16 `n`, 17 `mmax`, 18 `nmax`, 19 `rpow`, 20 `i`, 21 `sincos`, 22 `zpoly`, 23 `rp`, 24 `kmax`, 25 `rnum`, 26 `rden`, 27 `k`, 28 `nc`, 29 `outarray`. -/
def p101_xyzern : Fn where
  name := "util.nollzernikes.xyzern"
  params := 4
  body :=
    .call [] 59 [[0], [], []] <|  -- 57: twoD_array
    .call [] 59 [[1], [], []] <|  -- 58: twoD_array
    .call [] 56 [[2], [], []] <|  -- 59: real_positive_scalar
    .alloc 2 <|  -- 59: prad is a scalar, string or boolean
    .loop (  -- 63: for index, order in enumerate(orders):
      .bind 4 [3] <|  -- 63: for index, order in enumerate(orders):
      .bind 5 [3] <|  -- 63: for index, order in enumerate(orders):
      .call [] 64 [[5], [], []] <|  -- 64: positive_scalar_integer
      .alloc 5 <|  -- 64: order is a scalar, string or boolean
      .done) <|
    .alloc 6 <|  -- 71: r = np.hypot(x, y) / float(prad)
    .alloc 7 <|  -- 72: th = np.arctan2(y, x)
    .alloc 8 <|  -- 75: ra = np.array(r, ndmin=1).ravel()
    .alloc 9 <|  -- 76: tha = np.array(th, ndmin=1).ravel()
    .alloc 10 <|  -- 77: moa = np.array(orders, ndmin=1).ravel()
    .alloc 11 <|  -- 79: nr = len(ra)
    .alloc 12 <|  -- 80: nmo = len(moa)
    .alloc 13 <|  -- 81: np1 = (np.ceil((np.sqrt(1.0 + 8.0 * moa) - 1.0) / 2.0) + 0.5
    .alloc 14 <|  -- 84: ntermsn = np1 * (np1 - 1) // 2
    .alloc 15 <|  -- 85: m = (moa - ntermsn - (np1 + 1) % 2) // 2 * 2 + (np1 + 1) % 2
    .alloc 16 <|  -- 86: n = np1 - 1
    .alloc 17 <|  -- 89: mmax = m.max()
    .alloc 18 <|  -- 90: nmax = n.max()
    .alloc 19 <|  -- 92: rpow = np.zeros((nmax + 1, nr)) + 1.0
    .loop (  -- 93: for i in range(1, nmax + 1):
      .alloc 20 <|  -- 93: for i in range(1, nmax + 1):
      .write 19 <|  -- 94: rpow[i, :] = rpow[i - 1, :] * ra
      .done) <|
    .alloc 21 <|  -- 96: sincos = np.zeros((mmax + 1, 2, nr)) + 1.0
    .loop (  -- 97: for i in range(1, mmax + 1):
      .alloc 20 <|  -- 97: for i in range(1, mmax + 1):
      .write 21 <|  -- 98: sincos[i, 0, :] = np.cos(i * tha)
      .write 21 <|  -- 99: sincos[i, 1, :] = np.sin(i * tha)
      .done) <|
    .alloc 22 <|  -- 103: zpoly = np.zeros((nmo, nr))
    .loop (  -- 104: for i in range(nmo):
      .alloc 20 <|  -- 104: for i in range(nmo):
      .alloc 23 <|  -- 105: rp = np.zeros(nr)
      .alloc 24 <|  -- 106: kmax = (n[i] - m[i]) // 2
      .alloc 25 <|  -- 107: rnum = np.zeros(kmax + 1)
      .alloc 26 <|  -- 108: rden = np.zeros((3, kmax + 1))
      .write 25 <|  -- 109: rnum[kmax] = scipy.special.gamma(n[i] - kmax + 1) * (-1) ** 
      .write 26 <|  -- 110: rden[0, 0] = 1.0
      .write 26 <|  -- 111: rden[1, kmax] = scipy.special.gamma((n[i] + m[i]) // 2 - kma
      .write 26 <|  -- 112: rden[2, kmax] = scipy.special.gamma((n[i] - m[i]) // 2 - kma
      .loop (  -- 113: for k in range(1, kmax + 1):
        .alloc 27 <|  -- 113: for k in range(1, kmax + 1):
        .write 25 <|  -- 114: rnum[kmax - k] = rnum[kmax - k + 1] * -(n[i] - (kmax - k))
        .write 26 <|  -- 115: rden[0, k] = rden[0, k - 1] * k
        .write 26 <|  -- 116: rden[1, kmax - k] = rden[1, kmax - k + 1] * ((n[i] + m[i]) /
        .write 26 <|  -- 117: rden[2, kmax - k] = rden[2, kmax - k + 1] * ((n[i] - m[i]) /
        .done) <|
      .loop (  -- 119: for k in range(kmax + 1):
        .alloc 27 <|  -- 119: for k in range(kmax + 1):
        .write 23 <|  -- 120: rp += rnum[k] / rden[:, k].prod(axis=0) * rpow[n[i] - 2 * k,
        .done) <|
      .write 22 <|  -- 122: zpoly[i, :] = rp * sincos[m[i], moa[i] % 2, :]
      .done) <|
    .alloc 28 <|  -- 126: nc = np.array([np.sqrt(2 * (n[i] + 1)) if m[i] != 0 else np.
    .alloc 29 <|  -- 129: outarray = np.empty((len(orders), x.shape[0], x.shape[1]))
    .loop (  -- 130: for i in range(nmo):
      .alloc 20 <|  -- 130: for i in range(nmo):
      .write 29 <|  -- 131: outarray[i, :, :] = nc[i] * np.reshape(zpoly[i, :], x.shape)
      .done) <|
    .ret [29]  -- 134: return outarray

/-- `gen_zernikes`, `coralign/util/nollzernikes.py` lines 137-186. Variables: 0 `zernIndVec`, 1 `zernCoefVec`, 2 `x_offset`, 3 `y_offset`, 4 `nBeam`, 5 `nArray`, 6 `x`, 7 `y`, 8 `xx`, 9 `yy`, 10 `zernCube`, 11 `zernAbMap`, 12 `ii`. -/
def p102_gen_zernikes : Fn where
  name := "util.nollzernikes.gen_zernikes"
  params := 6
  body :=
    .call [] 58 [[0], [], []] <|  -- 164: oneD_array
    .call [] 58 [[1], [], []] <|  -- 165: oneD_array
    .call [] 62 [[2], [], []] <|  -- 168: real_scalar
    .alloc 2 <|  -- 168: x_offset is a scalar, string or boolean
    .call [] 62 [[3], [], []] <|  -- 169: real_scalar
    .alloc 3 <|  -- 169: y_offset is a scalar, string or boolean
    .call [] 56 [[4], [], []] <|  -- 170: real_positive_scalar
    .alloc 4 <|  -- 170: nBeam is a scalar, string or boolean
    .call [] 64 [[5], [], []] <|  -- 171: positive_scalar_integer
    .alloc 5 <|  -- 171: nArray is a scalar, string or boolean
    .branch (  -- 173: if nArray == int(1000000.0):
      .alloc 5 <|  -- 174: nArray = int(2 * np.ceil(0.5 * (nBeam + 1 + np.max((np.abs(x
      .done)
      (
      .done) <|
    .alloc 6 <|  -- 177: x = np.arange(nArray, dtype=np.float64) - nArray // 2 - x_of
    .alloc 7 <|  -- 178: y = np.arange(nArray, dtype=np.float64) - nArray // 2 - y_of
    .alloc 8 <|  -- 179: xx, yy = np.meshgrid(x, y)
    .alloc 9 <|  -- 179: xx, yy = np.meshgrid(x, y)
    .call [10] 101 [[8], [9], [], [0]] <|  -- 181: xyzern
    .alloc 11 <|  -- 182: zernAbMap = np.zeros([nArray, nArray], dtype=np.float64)
    .loop (  -- 183: for ii in range(zernIndVec.size):
      .alloc 12 <|  -- 183: for ii in range(zernIndVec.size):
      .write 11 <|  -- 184: zernAbMap += zernCoefVec[ii] * np.squeeze(zernCube[ii, :, :]
      .done) <|
    .ret [11]  -- 186: return zernAbMap

/-- `fit_zernikes`, `coralign/util/nollzernikes.py` lines 189-269. Variables: 0 `wfe`, 1 `usablePixelMap`, 2 `maxNollZern`, 3 `nBeam`, 4 `dxPupil`, 5 `dyPupil`, 6 `nx`, 7 `ny`, 8 `xcFit`, 9 `ycFit`, 10 `x`, 11 `y`, 12 `xx`, 13 `yy`, 14 `r`, 15 `t`, 16 `rVec`, 17 `tVec`, 18 `usablePixelMapRavel`, 19 `usablePixelVec`, 20 `nPix`, 21 `ab`, 22 `orders`, 23 `zernCube`, 24 `iZern`, 25 `zernCoefVec`. -/
def p103_fit_zernikes : Fn where
  name := "util.nollzernikes.fit_zernikes"
  params := 6
  body :=
    .call [] 59 [[0], [], []] <|  -- 222: twoD_array
    .call [] 57 [[0], [], []] <|  -- 223: real_array
    .call [] 59 [[1], [], []] <|  -- 224: twoD_array
    .call [] 57 [[1], [], []] <|  -- 225: real_array
    .call [] 64 [[2], [], []] <|  -- 229: positive_scalar_integer
    .alloc 2 <|  -- 229: maxNollZern is a scalar, string or boolean
    .call [] 56 [[3], [], []] <|  -- 230: real_positive_scalar
    .alloc 3 <|  -- 230: nBeam is a scalar, string or boolean
    .call [] 62 [[4], [], []] <|  -- 231: real_scalar
    .alloc 4 <|  -- 231: dxPupil is a scalar, string or boolean
    .call [] 62 [[5], [], []] <|  -- 232: real_scalar
    .alloc 5 <|  -- 232: dyPupil is a scalar, string or boolean
    .alloc 6 <|  -- 234: nx = wfe.shape[1]
    .alloc 7 <|  -- 235: ny = wfe.shape[0]
    .alloc 8 <|  -- 237: xcFit = int(nx / 2) + dxPupil
    .alloc 9 <|  -- 238: ycFit = int(ny / 2) + dyPupil
    .alloc 10 <|  -- 240: x = np.arange(nx, dtype=np.float64) - xcFit
    .alloc 11 <|  -- 241: y = np.arange(ny, dtype=np.float64) - ycFit
    .alloc 12 <|  -- 242: xx, yy = np.meshgrid(x, y)
    .alloc 13 <|  -- 242: xx, yy = np.meshgrid(x, y)
    .alloc 14 <|  -- 243: r = np.sqrt(xx ** 2 + yy ** 2) / (nBeam / 2.0)
    .alloc 15 <|  -- 244: t = np.arctan2(yy, xx)
    .bind 16 [14] <|  -- 248: rVec = r.ravel()
    .bind 17 [15] <|  -- 249: tVec = t.ravel()
    .bind 0 [0] <|  -- 250: wfe = wfe.ravel()
    .bind 18 [1] <|  -- 251: usablePixelMapRavel = usablePixelMap.ravel()
    .alloc 19 <|  -- 252: usablePixelVec = usablePixelMapRavel != 0
    .alloc 20 <|  -- 253: nPix = int(nx * ny)
    .bind 16 [16] <|  -- 254: rVec = rVec[usablePixelVec]
    .bind 17 [17] <|  -- 255: tVec = tVec[usablePixelVec]
    .bind 0 [0] <|  -- 256: wfe = wfe[usablePixelVec]
    .alloc 20 <|  -- 258: nPix = len(rVec)
    .alloc 21 <|  -- 259: ab = np.zeros([nPix, maxNollZern], dtype=np.float64)
    .write 21 <|  -- 260: ab[:, 0] = 1.0
    .alloc 22 <|  -- 262: orders = np.arange(maxNollZern) + 1
    .call [23] 101 [[12], [13], [], [22]] <|  -- 263: xyzern
    .loop (  -- 264: for iZern in range(zernCube.shape[0]):
      .alloc 24 <|  -- 264: for iZern in range(zernCube.shape[0]):
      .write 21 <|  -- 265: ab[:, iZern] = zernCube[iZern, :, :].ravel()[usablePixelVec]
      .done) <|
    .alloc 25 <|  -- 267: zernCoefVec = np.linalg.lstsq(ab, wfe, rcond=None)[0]
    .ret [25]  -- 269: return zernCoefVec

/-- `pad_crop`, `coralign/util/pad_crop.py` lines 10-70. Variables: 0 `arr0`, 1 `outsize`, 2 `extrapval`, 3 `sh0`, 4 `sh1`, 5 `out`, 6 `xneg`, 7 `xpos`, 8 `yneg`, 9 `ypos`, 10 `slice0`, 11 `slice1`. -/
def p104_pad_crop : Fn where
  name := "util.pad_crop.pad_crop"
  params := 3
  body :=
    .call [] 59 [[0], [], []] <|  -- 40: twoD_array
    .call [] 62 [[2], [], []] <|  -- 41: real_scalar
    .alloc 2 <|  -- 41: extrapval is a scalar, string or boolean
    .alloc 3 <|  -- 43: sh0 = arr0.shape
    .bind 4 [1] <|  -- 44: sh1 = outsize
    .call [] 64 [[4], [], []] <|  -- 52: positive_scalar_integer
    .call [] 64 [[4], [], []] <|  -- 53: positive_scalar_integer
    .alloc 5 <|  -- 55: out = extrapval * np.ones(outsize)
    .alloc 5 <|  -- 56: out = np.array(out, dtype=arr0.dtype)
    .alloc 6 <|  -- 58: xneg = min(sh0[1] // 2, sh1[1] // 2)
    .alloc 7 <|  -- 59: xpos = min(sh0[1] - sh0[1] // 2, sh1[1] - sh1[1] // 2)
    .alloc 8 <|  -- 60: yneg = min(sh0[0] // 2, sh1[0] // 2)
    .alloc 9 <|  -- 61: ypos = min(sh0[0] - sh0[0] // 2, sh1[0] - sh1[0] // 2)
    .alloc 10 <|  -- 63: slice0 = (slice(sh0[0] // 2 - yneg, sh0[0] // 2 + ypos), sli
    .alloc 11 <|  -- 65: slice1 = (slice(sh1[0] // 2 - yneg, sh1[0] // 2 + ypos), sli
    .write 5 <|  -- 68: out[slice1] = arr0[slice0]
    .ret [5]  -- 70: return out

/-- `offcenter_crop`, `coralign/util/pad_crop.py` lines 73-159. Variables: 0 `arrayIn`, 1 `pixel_count_across`, 2 `output_center_y`, 3 `output_center_x`, 4 `y_center`, 5 `x_center`, 6 `pixel_count_y`, 7 `pixel_count_x`, 8 `x_pad_pre`, 9 `x_pad_post`, 10 `x_pad`, 11 `y_pad_pre`, 12 `y_pad_post`, 13 `y_pad`, 14 `padded_image`, 15 `buffer_`, 16 `recentered_image`. -/
def p105_offcenter_crop : Fn where
  name := "util.pad_crop.offcenter_crop"
  params := 4
  body :=
    .call [] 59 [[0], [], []] <|  -- 110: twoD_array
    .call [] 64 [[1], [], []] <|  -- 111: positive_scalar_integer
    .alloc 1 <|  -- 111: pixel_count_across is a scalar, string or boolean
    .call [] 62 [[2], [], []] <|  -- 113: real_scalar
    .alloc 2 <|  -- 113: output_center_y is a scalar, string or boolean
    .call [] 62 [[3], [], []] <|  -- 114: real_scalar
    .alloc 3 <|  -- 114: output_center_x is a scalar, string or boolean
    .alloc 4 <|  -- 116: y_center = int(np.round(output_center_y))
    .alloc 5 <|  -- 117: x_center = int(np.round(output_center_x))
    .alloc 6 <|  -- 118: [pixel_count_y, pixel_count_x] = arrayIn.shape
    .alloc 7 <|  -- 118: [pixel_count_y, pixel_count_x] = arrayIn.shape
    .alloc 8 <|  -- 121: x_pad_pre = 0
    .alloc 9 <|  -- 122: x_pad_post = 0
    .branch (  -- 123: if np.ceil(-pixel_count_across / 2.0) + x_center < 0:
      .alloc 8 <|  -- 124: x_pad_pre = np.abs(np.ceil(-pixel_count_across / 2.0) + x_ce
      .done)
      (
      .done) <|
    .branch (  -- 125: if np.ceil(pixel_count_across / 2.0) + x_center > pixel_coun
      .alloc 9 <|  -- 126: x_pad_post = np.ceil(pixel_count_across / 2.0) + x_center - 
      .done)
      (
      .done) <|
    .alloc 10 <|  -- 128: x_pad = int(np.max((x_pad_pre, x_pad_post)))
    .alloc 11 <|  -- 131: y_pad_pre = 0
    .alloc 12 <|  -- 132: y_pad_post = 0
    .branch (  -- 133: if np.ceil(-pixel_count_across / 2.0) + y_center < 0:
      .alloc 11 <|  -- 134: y_pad_pre = np.abs(np.ceil(-pixel_count_across / 2.0) + y_ce
      .done)
      (
      .done) <|
    .branch (  -- 135: if np.ceil(pixel_count_across / 2.0) + y_center > pixel_coun
      .alloc 12 <|  -- 136: y_pad_post = np.ceil(pixel_count_across / 2.0) + y_center - 
      .done)
      (
      .done) <|
    .alloc 13 <|  -- 138: y_pad = int(np.max((y_pad_pre, y_pad_post)))
    .call [14] 104 [[0], [], []] <|  -- 140: pad_crop
    .write 5 <|  -- 143: x_center += x_pad
    .write 4 <|  -- 144: y_center += y_pad
    .branch (  -- 147: if pixel_count_across % 2 == 1:
      .alloc 15 <|  -- 148: buffer_ = 1
      .done)
      (
      .alloc 15 <|  -- 150: buffer_ = 0
      .done) <|
    .bind 16 [14] <|  -- 152: recentered_image = padded_image[y_center - pixel_count_acros
    .ret [16]  -- 159: return recentered_image

/-- `quadrant_energy_balance`, `coralign/util/quad.py` lines 8-83. Variables: 0 `image_array`, 1 `x_origin`, 2 `y_origin`, 3 `radius`, 4 `norm_image_array`, 5 `num_rows`, 6 `num_columns`, 9 `originRow`, 10 `originColumn`, 11 `x_in`, 12 `y_in`, 13 `x`, 14 `y`, 15 `rho`, 16 `theta`, 17 `mask`, 18 `q1`, 19 `q2`, 20 `q3`, 21 `q4`, 22 `counts_q1`, 23 `counts_q2`, 24 `counts_q3`, 25 `counts_q4`, 26 `dim_x_diff`, 27 `dim_y_diff`. -/
def p106_quadrant_energy_balance : Fn where
  name := "util.quad.quadrant_energy_balance"
  params := 4
  body :=
    .call [] 59 [[0], [], []] <|  -- 38: twoD_array
    .call [] 57 [[0], [], []] <|  -- 39: real_array
    .call [] 63 [[3], [], []] <|  -- 40: real_nonnegative_scalar
    .alloc 3 <|  -- 40: radius is a scalar, string or boolean
    .call [] 65 [[1], [], []] <|  -- 41: nonnegative_scalar_integer
    .alloc 1 <|  -- 41: x_origin is a scalar, string or boolean
    .call [] 65 [[2], [], []] <|  -- 42: nonnegative_scalar_integer
    .alloc 2 <|  -- 42: y_origin is a scalar, string or boolean
    .alloc 4 <|  -- 44: norm_image_array = image_array / np.sum(image_array)
    .alloc 5 <|  -- 46: num_rows, num_columns = norm_image_array.shape
    .alloc 6 <|  -- 46: num_rows, num_columns = norm_image_array.shape
    .bind 7 [2] <|  -- 53: originRow, originColumn = (y_origin, x_origin)
    .bind 8 [1] <|  -- 53: originRow, originColumn = (y_origin, x_origin)
    .bind 9 [7] <|  -- 53: originRow, originColumn = (y_origin, x_origin)
    .bind 10 [8] <|  -- 53: originRow, originColumn = (y_origin, x_origin)
    .alloc 11 <|  -- 55: x_in = np.linspace(-originColumn, num_columns - originColumn
    .alloc 12 <|  -- 57: y_in = np.linspace(-originRow, num_rows - originRow - 1, num
    .alloc 13 <|  -- 60: x, y = np.meshgrid(x_in, y_in)
    .alloc 14 <|  -- 60: x, y = np.meshgrid(x_in, y_in)
    .call [15, 16] 96 [[13], [14]] <|  -- 62: cart2pol
    .alloc 17 <|  -- 64: mask = rho <= radius
    .alloc 18 <|  -- 70: q1 = np.logical_and(np.logical_and(x >= 0, y >= 0), mask)
    .alloc 19 <|  -- 71: q2 = np.logical_and(np.logical_and(x <= 0, y >= 0), mask)
    .alloc 20 <|  -- 72: q3 = np.logical_and(np.logical_and(x >= 0, y <= 0), mask)
    .alloc 21 <|  -- 73: q4 = np.logical_and(np.logical_and(x <= 0, y <= 0), mask)
    .alloc 22 <|  -- 75: counts_q1 = np.sum(norm_image_array[q1 == True])
    .alloc 23 <|  -- 76: counts_q2 = np.sum(norm_image_array[q2 == True])
    .alloc 24 <|  -- 77: counts_q3 = np.sum(norm_image_array[q3 == True])
    .alloc 25 <|  -- 78: counts_q4 = np.sum(norm_image_array[q4 == True])
    .alloc 26 <|  -- 80: dim_x_diff = counts_q1 + counts_q3 - (counts_q2 + counts_q4)
    .alloc 27 <|  -- 81: dim_y_diff = counts_q1 + counts_q2 - (counts_q3 + counts_q4)
    .ret [26, 27]  -- 83: return (dim_x_diff, dim_y_diff)

/-- `simple_pupil`, `coralign/util/shapes.py` lines 8-76. Variables: 0 `nx`, 1 `ny`, 2 `xOffset`, 3 `yOffset`, 4 `diamInner`, 5 `diamOuter`, 6 `strutAngles`, 7 `strutWidth`, 8 `nSubpixels`, 9 `pupil`, 11 `height`, 12 `strutAngle`, 13 `strutAngleRad`, 14 `xOffsetStrut`, 15 `yOffsetStrut`. -/
def p107_simple_pupil : Fn where
  name := "util.shapes.simple_pupil"
  params := 9
  body :=
    .call [] 64 [[0], [], []] <|  -- 39: positive_scalar_integer
    .alloc 0 <|  -- 39: nx is a scalar, string or boolean
    .call [] 64 [[1], [], []] <|  -- 40: positive_scalar_integer
    .alloc 1 <|  -- 40: ny is a scalar, string or boolean
    .call [] 62 [[2], [], []] <|  -- 41: real_scalar
    .alloc 2 <|  -- 41: xOffset is a scalar, string or boolean
    .call [] 62 [[3], [], []] <|  -- 42: real_scalar
    .alloc 3 <|  -- 42: yOffset is a scalar, string or boolean
    .call [] 63 [[4], [], []] <|  -- 43: real_nonnegative_scalar
    .alloc 4 <|  -- 43: diamInner is a scalar, string or boolean
    .call [] 56 [[5], [], []] <|  -- 44: real_positive_scalar
    .alloc 5 <|  -- 44: diamOuter is a scalar, string or boolean
    .call [] 58 [[6], [], []] <|  -- 45: oneD_array
    .call [] 63 [[7], [], []] <|  -- 46: real_nonnegative_scalar
    .alloc 7 <|  -- 46: strutWidth is a scalar, string or boolean
    .call [] 64 [[8], [], []] <|  -- 47: positive_scalar_integer
    .alloc 8 <|  -- 47: nSubpixels is a scalar, string or boolean
    .call [9] 108 [[0], [1], [], [2], [3], [8], []] <|  -- 52: circle
    .branch (  -- 56: if diamInner > 0:
      .call [10] 108 [[0], [1], [], [2], [3], [8], []] <|  -- 57: circle
      .write 9 <|  -- 57: pupil *= circle(nx, ny, diamInner / 2, xOffset, yOffset, nSu
      .done)
      (
      .done) <|
    .branch (  -- 61: if len(strutAngles) > 0 and strutWidth > 0:
      .alloc 11 <|  -- 64: height = 0.6 * diamOuter
      .loop (  -- 66: for strutAngle in strutAngles:
        .bind 12 [6] <|  -- 66: for strutAngle in strutAngles:
        .alloc 13 <|  -- 68: strutAngleRad = strutAngle * np.pi / 180
        .alloc 14 <|  -- 69: xOffsetStrut = xOffset + np.cos(strutAngleRad) * height / 2
        .alloc 15 <|  -- 70: yOffsetStrut = yOffset + np.sin(strutAngleRad) * height / 2
        .call [16] 110 [[0], [1], [11], [7], [14], [15], [12], [8], []] <|  -- 72: rectangle
        .write 9 <|  -- 72: pupil *= rectangle(nx, ny, height, strutWidth, xOffsetStrut,
        .done) <|
      .done)
      (
      .done) <|
    .ret [9]  -- 76: return pupil

/-- `circle`, `coralign/util/shapes.py` lines 79-160. Variables: 0 `nx`, 1 `ny`, 2 `radius`, 3 `xOffset`, 4 `yOffset`, 5 `nSubpixels`, 6 `isDark`, 7 `x`, 8 `y`, 9 `dx`, 10 `X`, 11 `Y`, 12 `RHO`, 13 `halfWindowWidth`, 14 `mask`, 15 `grayInds`, 16 `dxHighRes`, 17 `xUp`, 18 `Xup`, 19 `Yup`, 20 `subpixelArray`, 21 `iInterior`, 22 `xCenter`, 23 `yCenter`, 24 `RHOHighRes`, 25 `pixelValue`. -/
def p108_circle : Fn where
  name := "util.shapes.circle"
  params := 7
  body :=
    .call [] 64 [[0], [], []] <|  -- 106: positive_scalar_integer
    .alloc 0 <|  -- 106: nx is a scalar, string or boolean
    .call [] 64 [[1], [], []] <|  -- 107: positive_scalar_integer
    .alloc 1 <|  -- 107: ny is a scalar, string or boolean
    .call [] 56 [[2], [], []] <|  -- 108: real_positive_scalar
    .alloc 2 <|  -- 108: radius is a scalar, string or boolean
    .call [] 62 [[3], [], []] <|  -- 109: real_scalar
    .alloc 3 <|  -- 109: xOffset is a scalar, string or boolean
    .call [] 62 [[4], [], []] <|  -- 110: real_scalar
    .alloc 4 <|  -- 110: yOffset is a scalar, string or boolean
    .call [] 64 [[5], [], []] <|  -- 111: positive_scalar_integer
    .alloc 5 <|  -- 111: nSubpixels is a scalar, string or boolean
    .branch (  -- 113: if nx % 2 == 0:
      .alloc 7 <|  -- 114: x = np.linspace(-nx / 2.0, nx / 2.0 - 1, nx) - xOffset
      .done)
      (
      .branch (  -- 115: if nx % 2 == 1:
        .alloc 7 <|  -- 116: x = np.linspace(-(nx - 1) / 2.0, (nx - 1) / 2.0, nx) - xOffs
        .done)
        (
        .done) <|
      .done) <|
    .branch (  -- 118: if ny % 2 == 0:
      .alloc 8 <|  -- 119: y = np.linspace(-ny / 2.0, ny / 2.0 - 1, ny) - yOffset
      .done)
      (
      .branch (  -- 120: if ny % 2 == 1:
        .alloc 8 <|  -- 121: y = np.linspace(-(ny - 1) / 2.0, (ny - 1) / 2.0, ny) - yOffs
        .done)
        (
        .done) <|
      .done) <|
    .alloc 9 <|  -- 123: dx = x[1] - x[0]
    .alloc 10 <|  -- 124: [X, Y] = np.meshgrid(x, y)
    .alloc 11 <|  -- 124: [X, Y] = np.meshgrid(x, y)
    .alloc 12 <|  -- 125: RHO = np.sqrt(X * X + Y * Y)
    .alloc 13 <|  -- 127: halfWindowWidth = np.sqrt(2.0) * dx
    .alloc 14 <|  -- 128: mask = -1 * np.ones(RHO.shape)
    .write 14 <|  -- 129: mask[np.abs(RHO) < radius - halfWindowWidth] = 1
    .write 14 <|  -- 130: mask[np.abs(RHO) > radius + halfWindowWidth] = 0
    .alloc 15 <|  -- 131: grayInds = np.array(np.nonzero(mask == -1))
    .alloc 16 <|  -- 134: dxHighRes = 1.0 / float(nSubpixels)
    .alloc 17 <|  -- 135: xUp = np.linspace(-(nSubpixels - 1) / 2.0, (nSubpixels - 1) 
    .alloc 18 <|  -- 137: [Xup, Yup] = np.meshgrid(xUp, xUp)
    .alloc 19 <|  -- 137: [Xup, Yup] = np.meshgrid(xUp, xUp)
    .alloc 20 <|  -- 139: subpixelArray = np.zeros((nSubpixels, nSubpixels))
    .loop (  -- 144: for iInterior in range(grayInds.shape[1]):
      .alloc 21 <|  -- 144: for iInterior in range(grayInds.shape[1]):
      .alloc 20 <|  -- 146: subpixelArray = 0 * subpixelArray
      .bind 22 [10] <|  -- 148: xCenter = X[grayInds[0, iInterior], grayInds[1, iInterior]]
      .bind 23 [11] <|  -- 149: yCenter = Y[grayInds[0, iInterior], grayInds[1, iInterior]]
      .alloc 24 <|  -- 150: RHOHighRes = np.sqrt((Xup + xCenter) ** 2 + (Yup + yCenter) 
      .write 20 <|  -- 153: subpixelArray[RHOHighRes <= radius] = 1
      .alloc 25 <|  -- 154: pixelValue = np.sum(subpixelArray) / float(nSubpixels * nSub
      .write 14 <|  -- 155: mask[grayInds[0, iInterior], grayInds[1, iInterior]] = pixel
      .done) <|
    .branch (  -- 157: if isDark:
      .alloc 14 <|  -- 158: mask = 1.0 - mask
      .done)
      (
      .done) <|
    .ret [14]  -- 160: return mask

/-- `ellipse`, `coralign/util/shapes.py` lines 163-256. Variables: 0 `nx`, 1 `ny`, 2 `rx`, 3 `ry`, 4 `rot`, 5 `xOffset`, 6 `yOffset`, 7 `nSubpixels`, 8 `isDark`, 9 `rotRad`, 10 `x`, 11 `y`, 12 `X`, 13 `Y`, 14 `dx`, 15 `radius`, 16 `RHO`, 17 `halfWindowWidth`, 18 `mask`, 19 `grayInds`, 20 `dxUp`, 21 `xUp`, 22 `Xup`, 23 `Yup`, 24 `subpixel`, 25 `iInterior`, 26 `xCenter`, 27 `yCenter`, 28 `RHOup`, 29 `pixelValue`. -/
def p109_ellipse : Fn where
  name := "util.shapes.ellipse"
  params := 9
  body :=
    .call [] 64 [[0], [], []] <|  -- 193: positive_scalar_integer
    .alloc 0 <|  -- 193: nx is a scalar, string or boolean
    .call [] 64 [[1], [], []] <|  -- 194: positive_scalar_integer
    .alloc 1 <|  -- 194: ny is a scalar, string or boolean
    .call [] 56 [[2], [], []] <|  -- 195: real_positive_scalar
    .alloc 2 <|  -- 195: rx is a scalar, string or boolean
    .call [] 56 [[3], [], []] <|  -- 196: real_positive_scalar
    .alloc 3 <|  -- 196: ry is a scalar, string or boolean
    .call [] 62 [[4], [], []] <|  -- 197: real_scalar
    .alloc 4 <|  -- 197: rot is a scalar, string or boolean
    .call [] 62 [[5], [], []] <|  -- 198: real_scalar
    .alloc 5 <|  -- 198: xOffset is a scalar, string or boolean
    .call [] 62 [[6], [], []] <|  -- 199: real_scalar
    .alloc 6 <|  -- 199: yOffset is a scalar, string or boolean
    .call [] 64 [[7], [], []] <|  -- 200: positive_scalar_integer
    .alloc 7 <|  -- 200: nSubpixels is a scalar, string or boolean
    .alloc 9 <|  -- 202: rotRad = np.pi / 180.0 * rot
    .branch (  -- 204: if nx % 2 == 0:
      .alloc 10 <|  -- 205: x = np.linspace(-nx / 2.0, nx / 2.0 - 1, nx) - xOffset
      .done)
      (
      .branch (  -- 206: if nx % 2 == 1:
        .alloc 10 <|  -- 207: x = np.linspace(-(nx - 1) / 2.0, (nx - 1) / 2.0, nx) - xOffs
        .done)
        (
        .done) <|
      .done) <|
    .branch (  -- 209: if ny % 2 == 0:
      .alloc 11 <|  -- 210: y = np.linspace(-ny / 2.0, ny / 2.0 - 1, ny) - yOffset
      .done)
      (
      .branch (  -- 211: if ny % 2 == 1:
        .alloc 11 <|  -- 212: y = np.linspace(-(ny - 1) / 2.0, (ny - 1) / 2.0, ny) - yOffs
        .done)
        (
        .done) <|
      .done) <|
    .alloc 12 <|  -- 214: [X, Y] = np.meshgrid(x, y)
    .alloc 13 <|  -- 214: [X, Y] = np.meshgrid(x, y)
    .alloc 14 <|  -- 215: dx = x[1] - x[0]
    .alloc 15 <|  -- 216: radius = 0.5
    .alloc 16 <|  -- 218: RHO = 0.5 * np.sqrt(1 / rx ** 2 * (np.cos(rotRad) * X + np.s
    .alloc 17 <|  -- 223: halfWindowWidth = np.max(np.abs((RHO[1, 0] - RHO[0, 0], RHO[
    .alloc 18 <|  -- 225: mask = -1 * np.ones(RHO.shape)
    .write 18 <|  -- 226: mask[np.abs(RHO) < radius - halfWindowWidth] = 1
    .write 18 <|  -- 227: mask[np.abs(RHO) > radius + halfWindowWidth] = 0
    .alloc 19 <|  -- 228: grayInds = np.array(np.nonzero(mask == -1))
    .alloc 20 <|  -- 231: dxUp = dx / float(nSubpixels)
    .alloc 21 <|  -- 232: xUp = np.linspace(-(nSubpixels - 1) / 2.0, (nSubpixels - 1) 
    .alloc 22 <|  -- 233: [Xup, Yup] = np.meshgrid(xUp, xUp)
    .alloc 23 <|  -- 233: [Xup, Yup] = np.meshgrid(xUp, xUp)
    .alloc 24 <|  -- 235: subpixel = np.zeros((nSubpixels, nSubpixels))
    .loop (  -- 237: for iInterior in range(grayInds.shape[1]):
      .alloc 25 <|  -- 237: for iInterior in range(grayInds.shape[1]):
      .alloc 24 <|  -- 239: subpixel = 0 * subpixel
      .bind 26 [12] <|  -- 241: xCenter = X[grayInds[0, iInterior], grayInds[1, iInterior]]
      .bind 27 [13] <|  -- 242: yCenter = Y[grayInds[0, iInterior], grayInds[1, iInterior]]
      .alloc 28 <|  -- 243: RHOup = 0.5 * np.sqrt(1 / rx ** 2 * (np.cos(rotRad) * (Xup +
      .write 24 <|  -- 249: subpixel[RHOup <= radius] = 1
      .alloc 29 <|  -- 250: pixelValue = np.sum(subpixel) / float(nSubpixels ** 2)
      .write 18 <|  -- 251: mask[grayInds[0, iInterior], grayInds[1, iInterior]] = pixel
      .done) <|
    .branch (  -- 253: if isDark:
      .alloc 18 <|  -- 254: mask = 1.0 - mask
      .done)
      (
      .done) <|
    .ret [18]  -- 256: return mask

/-- `rectangle`, `coralign/util/shapes.py` lines 259-366. Variables: 0 `nx`, 1 `ny`, 2 `width`, 3 `height`, 4 `xOffset`, 5 `yOffset`, 6 `rot`, 7 `nSubpixels`, 8 `isDark`, 9 `x`, 10 `y`, 11 `dx`, 12 `X`, 13 `Y`, 14 `RHO`, 15 `THETA`, 16 `halfWindowWidth`, 17 `mask`, 18 `rotRad`, 19 `inside`, 20 `outside`, 21 `grayInds`, 22 `dxHighRes`, 23 `xUp`, 24 `Xup`, 25 `Yup`, 26 `iInterior`, 27 `subpixelArray`, 28 `xCenter`, 29 `yCenter`, 30 `RHOHighRes`, 31 `THETAHighRes`, 32 `pixelValue`. -/
def p110_rectangle : Fn where
  name := "util.shapes.rectangle"
  params := 9
  body :=
    .call [] 64 [[0], [], []] <|  -- 293: positive_scalar_integer
    .alloc 0 <|  -- 293: nx is a scalar, string or boolean
    .call [] 64 [[1], [], []] <|  -- 294: positive_scalar_integer
    .alloc 1 <|  -- 294: ny is a scalar, string or boolean
    .call [] 56 [[2], [], []] <|  -- 295: real_positive_scalar
    .alloc 2 <|  -- 295: width is a scalar, string or boolean
    .call [] 56 [[3], [], []] <|  -- 296: real_positive_scalar
    .alloc 3 <|  -- 296: height is a scalar, string or boolean
    .call [] 62 [[4], [], []] <|  -- 297: real_scalar
    .alloc 4 <|  -- 297: xOffset is a scalar, string or boolean
    .call [] 62 [[5], [], []] <|  -- 298: real_scalar
    .alloc 5 <|  -- 298: yOffset is a scalar, string or boolean
    .call [] 62 [[6], [], []] <|  -- 299: real_scalar
    .alloc 6 <|  -- 299: rot is a scalar, string or boolean
    .call [] 64 [[7], [], []] <|  -- 300: positive_scalar_integer
    .alloc 7 <|  -- 300: nSubpixels is a scalar, string or boolean
    .call [] 68 [[8], [], []] <|  -- 301: boolean
    .alloc 8 <|  -- 301: isDark is a scalar, string or boolean
    .branch (  -- 303: if nx % 2 == 0:
      .alloc 9 <|  -- 304: x = np.linspace(-nx / 2.0, nx / 2.0 - 1, nx) - xOffset
      .done)
      (
      .branch (  -- 305: if nx % 2 == 1:
        .alloc 9 <|  -- 306: x = np.linspace(-(nx - 1) / 2.0, (nx - 1) / 2.0, nx) - xOffs
        .done)
        (
        .done) <|
      .done) <|
    .branch (  -- 308: if ny % 2 == 0:
      .alloc 10 <|  -- 309: y = np.linspace(-ny / 2.0, ny / 2.0 - 1, ny) - yOffset
      .done)
      (
      .branch (  -- 310: if ny % 2 == 1:
        .alloc 10 <|  -- 311: y = np.linspace(-(ny - 1) / 2.0, (ny - 1) / 2.0, ny) - yOffs
        .done)
        (
        .done) <|
      .done) <|
    .alloc 11 <|  -- 313: dx = x[1] - x[0]
    .alloc 12 <|  -- 314: [X, Y] = np.meshgrid(x, y)
    .alloc 13 <|  -- 314: [X, Y] = np.meshgrid(x, y)
    .call [14, 15] 96 [[12], [13]] <|  -- 315: cart2pol
    .alloc 16 <|  -- 318: halfWindowWidth = np.sqrt(2.0) * dx
    .alloc 17 <|  -- 319: mask = -1 * np.ones(RHO.shape)
    .alloc 18 <|  -- 320: rotRad = rot * np.pi / 180
    .alloc 19 <|  -- 321: inside = np.logical_and(np.logical_and(np.logical_and(RHO * 
    .alloc 20 <|  -- 326: outside = np.logical_or(np.logical_or(np.logical_or(RHO * np
    .write 17 <|  -- 331: mask[inside] = 1
    .write 17 <|  -- 332: mask[outside] = 0
    .alloc 21 <|  -- 334: grayInds = np.array(np.nonzero(mask == -1))
    .alloc 22 <|  -- 337: dxHighRes = 1.0 / float(nSubpixels)
    .alloc 23 <|  -- 338: xUp = np.linspace(-(nSubpixels - 1) / 2.0, (nSubpixels - 1) 
    .alloc 24 <|  -- 340: [Xup, Yup] = np.meshgrid(xUp, xUp)
    .alloc 25 <|  -- 340: [Xup, Yup] = np.meshgrid(xUp, xUp)
    .loop (  -- 344: for iInterior in range(grayInds.shape[1]):
      .alloc 26 <|  -- 344: for iInterior in range(grayInds.shape[1]):
      .alloc 27 <|  -- 346: subpixelArray = np.zeros((nSubpixels, nSubpixels))
      .bind 28 [12] <|  -- 348: xCenter = X[grayInds[0, iInterior], grayInds[1, iInterior]]
      .bind 29 [13] <|  -- 349: yCenter = Y[grayInds[0, iInterior], grayInds[1, iInterior]]
      .call [30, 31] 96 [[], []] <|  -- 350: cart2pol
      .alloc 19 <|  -- 353: inside = np.logical_and(np.logical_and(np.logical_and(RHOHig
      .write 27 <|  -- 358: subpixelArray[inside] = 1
      .alloc 32 <|  -- 360: pixelValue = np.sum(subpixelArray) / float(nSubpixels * nSub
      .write 17 <|  -- 361: mask[grayInds[0, iInterior], grayInds[1, iInterior]] = pixel
      .done) <|
    .branch (  -- 363: if isDark:
      .alloc 17 <|  -- 364: mask = 1.0 - mask
      .done)
      (
      .done) <|
    .ret [17]  -- 366: return mask

/-- `rect_proper`, `coralign/util/shapes.py` lines 369-532. Variables: 0 `nx`, 1 `ny`, 2 `width`, 3 `height`, 4 `xOffset`, 5 `yOffset`, 6 `rot`, 7 `nSubpixels`, 8 `isDark`, 9 `sampling`, 10 `ngrid`, 11 `mag`, 12 `xcpix`, 13 `ycpix`, 14 `xradpix`, 15 `yradpix`, 16 `angle_rad`, 17 `xp0`, 18 `yp0`, 19 `nvert`, 20 `xp`, 21 `yp`, 22 `image`, 23 `left`, 24 `leftnext`, 25 `right`, 26 `rightnext`, 27 `imin`, 28 `imax`, 29 `ypix`, 30 `ysub`, 31 `y`, 32 `leftdy`, 33 `leftdx`, 34 `xleft`, 35 `rightdy`, 36 `rightdx`, 37 `xright`, 38 `xleftpix`, 39 `xrightpix`. -/
def p111_rect_proper : Fn where
  name := "util.shapes.rect_proper"
  params := 9
  body :=
    .call [] 64 [[0], [], []] <|  -- 405: positive_scalar_integer
    .alloc 0 <|  -- 405: nx is a scalar, string or boolean
    .call [] 64 [[1], [], []] <|  -- 406: positive_scalar_integer
    .alloc 1 <|  -- 406: ny is a scalar, string or boolean
    .call [] 56 [[2], [], []] <|  -- 407: real_positive_scalar
    .alloc 2 <|  -- 407: width is a scalar, string or boolean
    .call [] 56 [[3], [], []] <|  -- 408: real_positive_scalar
    .alloc 3 <|  -- 408: height is a scalar, string or boolean
    .call [] 62 [[4], [], []] <|  -- 409: real_scalar
    .alloc 4 <|  -- 409: xOffset is a scalar, string or boolean
    .call [] 62 [[5], [], []] <|  -- 410: real_scalar
    .alloc 5 <|  -- 410: yOffset is a scalar, string or boolean
    .call [] 62 [[6], [], []] <|  -- 411: real_scalar
    .alloc 6 <|  -- 411: rot is a scalar, string or boolean
    .call [] 64 [[7], [], []] <|  -- 412: positive_scalar_integer
    .alloc 7 <|  -- 412: nSubpixels is a scalar, string or boolean
    .call [] 68 [[8], [], []] <|  -- 413: boolean
    .alloc 8 <|  -- 413: isDark is a scalar, string or boolean
    .alloc 9 <|  -- 415: sampling = 1
    .alloc 10 <|  -- 416: ngrid = np.max([nx, ny])
    .bind 11 [7] <|  -- 417: mag = nSubpixels
    .alloc 12 <|  -- 420: xcpix = xOffset / sampling + ngrid // 2
    .alloc 13 <|  -- 421: ycpix = yOffset / sampling + ngrid // 2
    .alloc 14 <|  -- 424: xradpix = 0.5 * width / sampling
    .alloc 15 <|  -- 425: yradpix = 0.5 * height / sampling
    .alloc 16 <|  -- 428: angle_rad = rot * np.pi / 180.0
    .alloc 17 <|  -- 430: xp0 = np.array([-xradpix, -xradpix, xradpix, xradpix])
    .alloc 18 <|  -- 431: yp0 = np.array([-yradpix, yradpix, yradpix, -yradpix])
    .alloc 19 <|  -- 432: nvert = 4
    .alloc 20 <|  -- 434: xp = xp0 * np.cos(angle_rad) - yp0 * np.sin(angle_rad) + xcp
    .alloc 21 <|  -- 435: yp = xp0 * np.sin(angle_rad) + yp0 * np.cos(angle_rad) + ycp
    .alloc 22 <|  -- 437: image = np.zeros([ngrid, ngrid], dtype=float)
    .alloc 23 <|  -- 439: left = np.where(yp == np.min(yp))
    .bind 23 [23] <|  -- 440: left = left[0][np.where(xp[left] == np.min(xp[left]))[0]]
    .bind 23 [23] <|  -- 441: left = left[0]
    .branch (  -- 443: if left != nvert - 1:
      .alloc 24 <|  -- 444: leftnext = left + 1
      .done)
      (
      .alloc 24 <|  -- 446: leftnext = 0
      .done) <|
    .bind 25 [23] <|  -- 448: right = left
    .branch (  -- 449: if right != 0:
      .alloc 26 <|  -- 450: rightnext = right - 1
      .done)
      (
      .alloc 26 <|  -- 452: rightnext = nvert - 1
      .done) <|
    .branch (  -- 454: if int(np.round(np.min(yp))) < 0:
      .alloc 27 <|  -- 455: imin = 0
      .done)
      (
      .alloc 27 <|  -- 457: imin = int(np.round(np.min(yp)))
      .done) <|
    .branch (  -- 459: if int(np.round(np.max(yp))) + 1 >= ngrid:
      .bind 28 [10] <|  -- 460: imax = ngrid
      .done)
      (
      .alloc 28 <|  -- 462: imax = int(np.round(np.max(yp))) + 1
      .done) <|
    .loop (  -- 464: for ypix in range(imin, imax):
      .alloc 29 <|  -- 464: for ypix in range(imin, imax):
      .loop (  -- 465: for ysub in range(0, mag):
        .alloc 30 <|  -- 465: for ysub in range(0, mag):
        .alloc 31 <|  -- 466: y = ypix - 0.5 + (0.5 + ysub) / mag
        .branch (  -- 468: if y < yp[left]:
          .exit)  -- 469: continue
          (
          .done) <|
        .branch (  -- 470: if y > np.max(yp):
          .exit)  -- 471: break
          (
          .done) <|
        .branch (  -- 473: if y >= yp[leftnext]:
          .bind 23 [24] <|  -- 474: left = leftnext
          .branch (  -- 475: if left != nvert - 1:
            .alloc 24 <|  -- 476: leftnext = left + 1
            .done)
            (
            .alloc 24 <|  -- 478: leftnext = 0
            .done) <|
          .done)
          (
          .done) <|
        .branch (  -- 480: if y >= yp[rightnext]:
          .bind 25 [26] <|  -- 481: right = rightnext
          .branch (  -- 482: if right != 0:
            .alloc 26 <|  -- 483: rightnext = right - 1
            .done)
            (
            .alloc 26 <|  -- 485: rightnext = nvert - 1
            .done) <|
          .done)
          (
          .done) <|
        .alloc 32 <|  -- 487: leftdy = yp[leftnext] - yp[left]
        .branch (  -- 488: if leftdy != 0:
          .alloc 33 <|  -- 489: leftdx = xp[leftnext] - xp[left]
          .alloc 34 <|  -- 490: xleft = leftdx / leftdy * (y - yp[left]) + xp[left]
          .done)
          (
          .bind 34 [20] <|  -- 492: xleft = xp[left]
          .done) <|
        .alloc 35 <|  -- 494: rightdy = yp[rightnext] - yp[right]
        .branch (  -- 495: if rightdy != 0:
          .alloc 36 <|  -- 496: rightdx = xp[rightnext] - xp[right]
          .alloc 37 <|  -- 497: xright = rightdx / rightdy * (y - yp[right]) + xp[right]
          .done)
          (
          .bind 37 [20] <|  -- 499: xright = xp[right]
          .done) <|
        .alloc 38 <|  -- 501: xleftpix = int(np.round(xleft))
        .alloc 39 <|  -- 502: xrightpix = int(np.round(xright))
        .branch (  -- 504: if xleftpix != xrightpix:
          .branch (  -- 505: if xleftpix >= 0 and xleftpix < ngrid:
            .write 22 <|  -- 506: image[ypix, xleftpix] = image[ypix, xleftpix] + mag * (xleft
            .done)
            (
            .done) <|
          .branch (  -- 508: if xrightpix >= 0 and xrightpix < ngrid:
            .write 22 <|  -- 509: image[ypix, xrightpix] = image[ypix, xrightpix] + mag * (xri
            .done)
            (
            .done) <|
          .branch (  -- 511: if xrightpix - xleftpix > 1 and xleftpix + 1 < ngrid and (xr
            .branch (  -- 512: if xleftpix + 1 < 0:
              .alloc 27 <|  -- 513: imin = 0
              .done)
              (
              .alloc 27 <|  -- 515: imin = xleftpix + 1
              .done) <|
            .branch (  -- 517: if xrightpix > ngrid:
              .bind 28 [10] <|  -- 518: imax = ngrid
              .done)
              (
              .bind 28 [39] <|  -- 520: imax = xrightpix
              .done) <|
            .write 22 <|  -- 521: image[ypix, imin:imax] = image[ypix, imin:imax] + mag
            .done)
            (
            .done) <|
          .done)
          (
          .branch (  -- 523: if xleftpix >= 0 and xleftpix < ngrid:
            .write 22 <|  -- 524: image[ypix, xleftpix] = image[ypix, xleftpix] + mag * (xrigh
            .done)
            (
            .done) <|
          .done) <|
        .done) <|
      .done) <|
    .alloc 22 <|  -- 527: image = image / float(mag) ** 2
    .call [22] 104 [[22], [0, 1], []] <|  -- 528: pad_crop
    .branch (  -- 529: if isDark:
      .alloc 22 <|  -- 530: image = 1.0 - image
      .done)
      (
      .done) <|
    .ret [22]  -- 532: return image

/-- `annular_segments`, `coralign/util/shapes.py` lines 535-680. Variables: 0 `nSeg`, 1 `rInPix`, 2 `rOutPix`, 3 `nx`, 4 `ny`, 5 `xOffset`, 6 `yOffset`, 7 `angOpen`, 8 `angRot`, 9 `nSubpixels`, 10 `dTheta`, 11 `angOpenRad`, 12 `angRotRad`, 13 `dThetaRad`, 14 `x`, 15 `y`, 16 `dx`, 17 `X`, 18 `Y`, 19 `RHOS`, 20 `THETAS0`, 21 `THETAS`, 22 `THETAS180`, 23 `halfWindowWidth`, 24 `mask`, 25 `area1`, 26 `area0`, 27 `grayInds`, 28 `dxHighRes`, 29 `xUp`, 30 `Xup`, 31 `Yup`, 32 `subpixelArray`, 33 `iInterior`, 34 `xCenter`, 35 `yCenter`, 36 `RHOHighRes`, 37 `THETASHighRes0`, 38 `THETASHighRes`, 39 `THETASHighRes180`, 40 `edgeRegion`, 41 `pixelValue`. -/
def p112_annular_segments : Fn where
  name := "util.shapes.annular_segments"
  params := 11
  body :=
    .call [] 64 [[0], [], []] <|  -- 573: positive_scalar_integer
    .alloc 0 <|  -- 573: nSeg is a scalar, string or boolean
    .call [] 56 [[1], [], []] <|  -- 576: real_positive_scalar
    .alloc 1 <|  -- 576: rInPix is a scalar, string or boolean
    .call [] 56 [[2], [], []] <|  -- 577: real_positive_scalar
    .alloc 2 <|  -- 577: rOutPix is a scalar, string or boolean
    .call [] 64 [[3], [], []] <|  -- 578: positive_scalar_integer
    .alloc 3 <|  -- 578: nx is a scalar, string or boolean
    .call [] 64 [[4], [], []] <|  -- 579: positive_scalar_integer
    .alloc 4 <|  -- 579: ny is a scalar, string or boolean
    .call [] 62 [[5], [], []] <|  -- 580: real_scalar
    .alloc 5 <|  -- 580: xOffset is a scalar, string or boolean
    .call [] 62 [[6], [], []] <|  -- 581: real_scalar
    .alloc 6 <|  -- 581: yOffset is a scalar, string or boolean
    .call [] 63 [[7], [], []] <|  -- 582: real_nonnegative_scalar
    .alloc 7 <|  -- 582: angOpen is a scalar, string or boolean
    .call [] 62 [[8], [], []] <|  -- 583: real_scalar
    .alloc 8 <|  -- 583: angRot is a scalar, string or boolean
    .call [] 64 [[9], [], []] <|  -- 584: positive_scalar_integer
    .alloc 9 <|  -- 584: nSubpixels is a scalar, string or boolean
    .call [] 63 [[10], [], []] <|  -- 585: real_nonnegative_scalar
    .alloc 10 <|  -- 585: dTheta is a scalar, string or boolean
    .alloc 11 <|  -- 588: angOpenRad = angOpen * np.pi / 180
    .alloc 12 <|  -- 589: angRotRad = angRot * np.pi / 180
    .alloc 13 <|  -- 590: dThetaRad = dTheta * np.pi / 180
    .branch (  -- 593: if nx % 2 == 0:
      .alloc 14 <|  -- 594: x = np.linspace(-nx / 2.0, nx / 2.0 - 1, nx) - xOffset
      .done)
      (
      .branch (  -- 595: if nx % 2 == 1:
        .alloc 14 <|  -- 596: x = np.linspace(-(nx - 1) / 2.0, (nx - 1) / 2.0, nx) - xOffs
        .done)
        (
        .done) <|
      .done) <|
    .branch (  -- 597: if ny % 2 == 0:
      .alloc 15 <|  -- 598: y = np.linspace(-ny / 2.0, ny / 2.0 - 1, ny) - yOffset
      .done)
      (
      .branch (  -- 599: if ny % 2 == 1:
        .alloc 15 <|  -- 600: y = np.linspace(-(ny - 1) / 2.0, (ny - 1) / 2.0, ny) - yOffs
        .done)
        (
        .done) <|
      .done) <|
    .alloc 16 <|  -- 601: dx = x[1] - x[0]
    .alloc 17 <|  -- 602: [X, Y] = np.meshgrid(x, y)
    .alloc 18 <|  -- 602: [X, Y] = np.meshgrid(x, y)
    .alloc 19 <|  -- 603: RHOS = np.sqrt(X * X + Y * Y)
    .alloc 20 <|  -- 604: THETAS0 = np.arctan2(Y, X)
    .alloc 21 <|  -- 605: THETAS = np.angle(np.exp(1j * (THETAS0 - angRotRad)))
    .alloc 22 <|  -- 606: THETAS180 = np.angle(np.exp(1j * (THETAS0 - angRotRad - np.p
    .alloc 23 <|  -- 609: halfWindowWidth = np.sqrt(2.0) * dx
    .alloc 24 <|  -- 610: mask = -1 * np.ones(RHOS.shape)
    .branch (  -- 611: if nSeg == 1:
      .branch (  -- 612: if angRot < 360:
        .alloc 25 <|  -- 613: area1 = (RHOS < rOutPix - halfWindowWidth) & (RHOS > rInPix 
        .write 24 <|  -- 617: mask[area1] = 1
        .alloc 26 <|  -- 618: area0 = (RHOS > rOutPix + halfWindowWidth) | (RHOS < rInPix 
        .write 24 <|  -- 622: mask[area0] = 0
        .alloc 27 <|  -- 623: grayInds = np.array(np.nonzero(mask == -1))
        .done)
        (
        .done) <|
      .done)
      (
      .branch (  -- 625: if nSeg == 2:
        .branch (  -- 626: if angRot < 360:
          .alloc 25 <|  -- 627: area1 = (RHOS < rOutPix - halfWindowWidth) & (RHOS > rInPix 
          .write 24 <|  -- 633: mask[area1] = 1
          .alloc 26 <|  -- 634: area0 = (RHOS > rOutPix + halfWindowWidth) | (RHOS < rInPix 
          .write 24 <|  -- 640: mask[area0] = 0
          .alloc 27 <|  -- 641: grayInds = np.array(np.nonzero(mask == -1))
          .done)
          (
          .done) <|
        .done)
        (
        .done) <|
      .done) <|
    .alloc 28 <|  -- 644: dxHighRes = 1.0 / float(nSubpixels)
    .alloc 29 <|  -- 645: xUp = np.linspace(-(nSubpixels - 1) / 2.0, (nSubpixels - 1) 
    .alloc 30 <|  -- 647: [Xup, Yup] = np.meshgrid(xUp, xUp)
    .alloc 31 <|  -- 647: [Xup, Yup] = np.meshgrid(xUp, xUp)
    .alloc 32 <|  -- 651: subpixelArray = np.zeros((nSubpixels, nSubpixels))
    .loop (  -- 652: for iInterior in range(grayInds.shape[1]):
      .alloc 33 <|  -- 652: for iInterior in range(grayInds.shape[1]):
      .alloc 32 <|  -- 654: subpixelArray = 0 * subpixelArray
      .bind 34 [17] <|  -- 656: xCenter = X[grayInds[0, iInterior], grayInds[1, iInterior]]
      .bind 35 [18] <|  -- 657: yCenter = Y[grayInds[0, iInterior], grayInds[1, iInterior]]
      .alloc 36 <|  -- 658: RHOHighRes = np.sqrt((Xup + xCenter) ** 2 + (Yup + yCenter) 
      .alloc 37 <|  -- 659: THETASHighRes0 = np.arctan2(Yup + yCenter, Xup + xCenter)
      .alloc 38 <|  -- 660: THETASHighRes = np.angle(np.exp(1j * (THETASHighRes0 - angRo
      .alloc 39 <|  -- 661: THETASHighRes180 = np.angle(np.exp(1j * (THETASHighRes0 - an
      .branch (  -- 664: if nSeg == 1:
        .alloc 40 <|  -- 665: edgeRegion = (RHOHighRes <= rOutPix) & (RHOHighRes >= rInPix
        .done)
        (
        .branch (  -- 669: if nSeg == 2:
          .alloc 40 <|  -- 670: edgeRegion = (RHOHighRes <= rOutPix) & (RHOHighRes >= rInPix
          .done)
          (
          .done) <|
        .done) <|
      .write 32 <|  -- 676: subpixelArray[edgeRegion] = 1
      .alloc 41 <|  -- 677: pixelValue = np.sum(subpixelArray) / float(nSubpixels * nSub
      .write 24 <|  -- 678: mask[grayInds[0, iInterior], grayInds[1, iInterior]] = pixel
      .done) <|
    .ret [24]  -- 680: return mask

/-- `unwrap`, `coralign/util/unwrap.py` lines 15-118. Variables: 0 `phase`, 1 `amplitude`, 2 `nbin`, 3 `fill_value`, 4 `min_size`, 5 `use_mask`, 6 `bMask`, 7 `bMaskThresh`, 8 `invmask`, 9 `phase_mask`, 10 `phase_unwrapped`. -/
def p113_unwrap : Fn where
  name := "util.unwrap.unwrap"
  params := 7
  body :=
    .call [] 59 [[0], [], []] <|  -- 59: twoD_array
    .call [] 59 [[1], [], []] <|  -- 60: twoD_array
    .call [] 64 [[2], [], []] <|  -- 71: positive_scalar_integer
    .alloc 2 <|  -- 71: nbin is a scalar, string or boolean
    .call [] 62 [[3], [], []] <|  -- 74: real_scalar
    .alloc 3 <|  -- 74: fill_value is a scalar, string or boolean
    .call [] 64 [[4], [], []] <|  -- 75: positive_scalar_integer
    .alloc 4 <|  -- 75: min_size is a scalar, string or boolean
    .branch (  -- 79: if not bMask is None:
      .call [] 59 [[6], [], []] <|  -- 80: twoD_array
      .done)
      (
      .done) <|
    .branch (  -- 85: if bMask is None:
      .branch (  -- 86: if use_mask:
        .call [7] 52 [[1], [2]] <|  -- 88: ampthresh
        .alloc 6 <|  -- 92: bMask = skimage.morphology.remove_small_objects(bMaskThresh,
        .done)
        (
        .alloc 6 <|  -- 96: bMask = np.ones(phase.shape, dtype=bool)
        .done) <|
      .done)
      (
      .done) <|
    .alloc 8 <|  -- 103: invmask = np.logical_not(bMask)
    .bind 9 [0, 8] <|  -- 107: phase_mask = np.ma.array(phase, mask=invmask)
    .alloc 10 <|  -- 108: phase_unwrapped = unwrap_phase(phase_mask)
    .write 10 <|  -- 112: phase_unwrapped[invmask] = fill_value
    .alloc 10 <|  -- 116: phase_unwrapped = np.array(phase_unwrapped)
    .ret [10, 6]  -- 118: return (phase_unwrapped, bMask)

/-- `unwrap_segments`, `coralign/util/unwrap.py` lines 128-248. Variables: 0 `phase`, 1 `amplitude`, 2 `nbin`, 3 `fill_value`, 4 `min_size`, 5 `use_mask`, 6 `bMask`, 7 `selem`, 8 `bMaskThresh`, 9 `bMaskErode`, 10 `ny`, 11 `nx`, 12 `x`, 13 `y`, 14 `X`, 15 `Y`, 16 `interp`, 17 `phase_interp`, 18 `invmask`, 19 `phase_unwrap`, 20 `_`. -/
def p114_unwrap_segments : Fn where
  name := "util.unwrap.unwrap_segments"
  params := 8
  body :=
    .call [] 59 [[0], [], []] <|  -- 180: twoD_array
    .call [] 59 [[1], [], []] <|  -- 181: twoD_array
    .call [] 64 [[2], [], []] <|  -- 192: positive_scalar_integer
    .alloc 2 <|  -- 192: nbin is a scalar, string or boolean
    .call [] 62 [[3], [], []] <|  -- 195: real_scalar
    .alloc 3 <|  -- 195: fill_value is a scalar, string or boolean
    .call [] 64 [[4], [], []] <|  -- 196: positive_scalar_integer
    .alloc 4 <|  -- 196: min_size is a scalar, string or boolean
    .branch (  -- 200: if not bMask is None:
      .call [] 59 [[6], [], []] <|  -- 201: twoD_array
      .done)
      (
      .done) <|
    .branch (  -- 205: if not selem is None:
      .call [] 59 [[7], [], []] <|  -- 206: twoD_array
      .done)
      (
      .done) <|
    .branch (  -- 210: if bMask is None:
      .branch (  -- 211: if use_mask:
        .call [8] 52 [[1], [2]] <|  -- 213: ampthresh
        .alloc 6 <|  -- 217: bMask = skimage.morphology.remove_small_objects(bMaskThresh,
        .done)
        (
        .alloc 6 <|  -- 221: bMask = np.ones(phase.shape, dtype=bool)
        .done) <|
      .done)
      (
      .done) <|
    .branch (  -- 224: if not selem is None:
      .alloc 9 <|  -- 225: bMaskErode = binary_erosion(bMask, structure=selem)
      .done)
      (
      .alloc 9 <|  -- 228: bMaskErode = bMask.copy()
      .done) <|
    .alloc 10 <|  -- 231: ny, nx = phase.shape
    .alloc 11 <|  -- 231: ny, nx = phase.shape
    .alloc 12 <|  -- 232: x = np.arange(nx) - nx // 2
    .alloc 13 <|  -- 233: y = np.arange(ny) - ny // 2
    .alloc 14 <|  -- 234: X, Y = np.meshgrid(x, y)
    .alloc 15 <|  -- 234: X, Y = np.meshgrid(x, y)
    .bind 16 [0, 14, 15] <|  -- 235: interp = NearestNDInterpolator(list(zip(X[bMaskErode], Y[bMa
    .alloc 17 <|  -- 238: phase_interp = phase.copy()
    .alloc 18 <|  -- 239: invmask = np.logical_not(bMaskErode)
    .write 17 <|  -- 240: phase_interp[invmask] = interp(X[invmask], Y[invmask])
    .call [19, 20] 113 [[17], [1], [], [], [], [], []] <|  -- 243: unwrap
    .write 19 <|  -- 246: phase_unwrap[np.logical_not(bMaskErode)] = fill_value
    .ret [19, 9]  -- 248: return (phase_unwrap, bMaskErode)

/-- All functions of the package; a `call` names its callee by its place in this list. -/
def package : List Fn :=
  [p0_gen_coords,
   p1_gen_rectangle,
   p2_gen_annulus,
   p3_gen_annular_sector,
   p4_gen_bowtie,
   p5_gen_dark_hole_from_yaml,
   p6_flatten,
   p7_gen_split_wfe,
   p8_smooth_surface,
   p9_conv_surf_to_dm_cmd,
   p10_phase_cost_function,
   p11_calc_software_mask,
   p12_calc_translation_clocking,
   p13_calc_scale,
   p14_remove_piston_tip_tilt,
   p15_bound_value,
   p16_calc_offset_quadratic,
   p17_calc_offset_linear,
   p18_calc_bowtie_offsets_from_spots,
   p19_calc_offset_from_spots,
   p20_compute_starting_commands_for_flight,
   p21_compute_gainmap,
   p22_compute_delta_height_map_from_command_maps,
   p23_compute_commands_for_height_map,
   p24_compute_heights_for_command_map,
   p25_compute_gain_cube_from_height_cube,
   p26_compute_diff_and_mean_of_vector,
   p27_verify_vector_has_unique_values,
   p28_verify_vector_is_presorted,
   p29_rotate_shift_downsample_amplitude_mask,
   p30_gen_hlc_occulter,
   p31_calc_complex_occulter,
   p32_solver,
   p33_calc_star_location_from_spots,
   p34_calc_spot_separation,
   p35_platesolv,
   p36_compute_upsampled_dft,
   p37_psffit,
   p38_compute_upsampled_dft_input_check,
   p39_psffit_input_check,
   p40_fit_shaped_pupil_mask_offsets,
   p41_fit_pupil_mask_offsets,
   p42_fit_z_induced_spm_shear,
   p43_fit_lyot_stop_mag_clocking,
   p44_fit_unmasked_pupil,
   p45_fit_unmasked_pupil_old,
   p46_fit_pupil_zernikes,
   p47_compute_clocking,
   p48_compute_lateral_offsets,
   p49_coarsely_locate_pupil_offset,
   p50_coarsely_locate_pupil_offset_once,
   p51_compute_norm_factor,
   p52_ampthresh,
   p53_center_of_energy,
   p54_checkname,
   p55_checkexc,
   p56_real_positive_scalar,
   p57_real_array,
   p58_oneD_array,
   p59_twoD_array,
   p60_twoD_square_array,
   p61_threeD_array,
   p62_real_scalar,
   p63_real_nonnegative_scalar,
   p64_positive_scalar_integer,
   p65_nonnegative_scalar_integer,
   p66_scalar_integer,
   p67_string,
   p68_boolean,
   p69_dictionary,
   p70_combine,
   p71_crop,
   p72_dmhtoph,
   p73_dmh_to_volts,
   p74_volts_to_dmh,
   p75_probe,
   p76_sine,
   p77_grid,
   p78_zernike,
   p79_find_optimum_1d,
   p80_find_optimum_2d,
   p81_fit_circle,
   p82_fit_ellipse,
   p83_fit_surf_to_dm,
   p84_build_prefilter,
   p85_resample_inf_func,
   p86_do_fft,
   p87_do_ifft,
   p88_fresnelprop,
   p89_get_fp,
   p90_fresnelprop_fp,
   p91_get_crop_lower,
   p92_loadyaml,
   p93_rms,
   p94_ceil_odd,
   p95_ceil_even,
   p96_cart2pol,
   p97_do_mft,
   p98_do_offcenter_mft,
   p99_do_imft,
   p100_interval,
   p101_xyzern,
   p102_gen_zernikes,
   p103_fit_zernikes,
   p104_pad_crop,
   p105_offcenter_crop,
   p106_quadrant_energy_balance,
   p107_simple_pupil,
   p108_circle,
   p109_ellipse,
   p110_rectangle,
   p111_rect_proper,
   p112_annular_segments,
   p113_unwrap,
   p114_unwrap_segments]

end Coralign.Memory
