# Formal model of nasa-jpl/coralign in Lean 4

## Layout

* `lean/Verif/Base/` - Python exceptions as values, 1-D/2-D arrays, numpy slices, rounding.
* `lean/Verif/Model/` - the model, one file per source module. Every definition cites file and lines.
* `lean/Verif/Spec/` - small independent specifications used in statements.
* `lean/Verif/Lemmas/` - helper lemmas.
* `lean/Verif/Props/` - property theorems, with examples that meet their hypotheses (beside the theorem, in the `*Cases` module of the same name, or in `Cases1`, `Cases2`, ...).

## Modelling conventions

* Floating point numbers are modelled as exact real (or complex) numbers, except in C21, C98, C99, C100, C101, C102 and C103, where every operation is rounded to the
  nearest double (`Base/Double`).
  NaN is modelled only where the code produces or tests it on purpose (`combine`, `crop`, `check`).
* Exceptions are values of `Except PyExc`.
* Arrays are `Arr2 a`: a row count, a column count and a function on `Fin nr -> Fin nc`, so equality is numpy equality
  (same shape, same pixels) and no out-of-range read can be expressed.
* Third-party numerical routines (`lstsq`, `polyfit`, `interp1d`, splines, `unwrap_phase`, sparse solve) are parameters;
  theorems state the contract they need as explicit hypotheses.
* Type checks on arguments (`check.*`) are modelled in `Model/Check.lean` over a universe of Python values. In the other
  modules arguments are already typed, and only the value-dependent checks (sign, shape) are modelled as branches.

## Trusted base

* The Lean 4.33.0 kernel, which checks every proof, and Mathlib as installed (its theorems are checked by the same kernel).
* Axioms: every theorem in `MANIFEST.json` depends on at most `propext`, `Classical.choice` and `Quot.sound`. No axiom is added, no
  proof is left open and no compiled code is trusted.
* The reading of the Python code. `/repo` was read as text; nothing was run. Each definition in `Model/` cites the lines it models and
  names its simplifications, so that the reading can be checked line by line.
* `tools/memgen.py`, which translates the source into the array programs of C90 by the rules at the head of `Model/MemProgs.lean`. The
  generated module is committed and cites a source line on every line, so it can also be read against the source without the tool.
* The contracts of the third-party routines listed below. They are fields of structures or hypotheses of theorems, never axioms. A
  concrete instance beside each structure shows that the contract can be met.
* Python and numpy semantics as written in `Base/`: slices with negative and out-of-range bounds, slice assignment, `round` half to even,
  `np.percentile`, `np.histogram`, binary erosion and dilation with a structuring element, `fftshift`, `argmax` (first maximum).

What is idealised: floating point is replaced by exact real or complex arithmetic, so nothing is claimed about rounding error, overflow or
results that depend on the last bit (for instance `np.arange` with an inexact step). The exceptions are the radial order of a Zernike
index, an integer computed from a square root (C21), the circle mask and the helpers `ceil_odd` and `ceil_even` (C98), the height/voltage conversions and command updates (C99), the sampling numbers of `gen_hlc_occulter` (C100), the plate scales and interpolation grid of `platesolv` (C101), the sampling criterion of `fresnelprop` and `get_fp` (C103), and the rectangles and annuli of `darkhole.py` (C102): there every operation is rounded
to the nearest double, ties to even, with gradual underflow (`Base/Double`); overflow, NaN and the sign of zero are still left out. Signed zeros, NaN and infinity exist only where the
code makes or tests them on purpose. Running time and concurrent use are not modelled. In all models but one arrays are values; which
arrays share memory and which are written in place is the subject of C90.

## What is modelled

| source file | model | left out |
|---|---|---|
| `util/pad_crop.py` | `Model/PadCrop` | dtype handling (arrays are typed) |
| `util/combine_crop.py`, `util/get_crop_lower.py` | `Model/CombineCrop` | - |
| `util/check.py` | `Model/Check`, over a universe of Python values | exception classes that cannot be built from one string |
| `util/math.py`, `util/center.py`, `util/quad.py` | `Model/Math`, `Model/Center`, `Model/Quad`; `ceil_odd`, `ceil_even` also in double precision: `Model/ShapesDouble`; `center_of_energy`, `rms` in double precision with any order of summation: `Model/CenterDouble`; `quadrant_energy_balance` likewise: `Model/QuadDouble` | signed zero |
| `util/ampthresh.py`, `util/findopt.py` | `Model/AmpThresh`, `Model/AmpThreshC`, `Model/FindOpt` | - |
| `util/mft.py`, `util/fresnelprop.py` | `Model/Mft`, `Model/MftDouble`, `Model/Fft`, `Model/Fresnel`, `Model/FresnelDouble` | - |
| `util/nollzernikes.py` | `Model/Zernike`, `Model/ZernikeFloat`, `Model/ZernikeDouble` | - |
| `util/shapes.py` | `Model/Shapes`, `Model/RectProper`; `circle` also in double precision: `Model/ShapesDouble` | - |
| `util/dmshapes.py`, `util/dmhtoph.py`, `util/fit_surf_to_dm.py` | `Model/DmShapes`, `Model/Dmhtoph`, `Model/FitSurf`; the conversions between heights and volts also in double precision: `Model/VoltsDouble` | - |
| `util/fit_shapes.py`, `util/unwrap.py`, `util/loadyaml.py` | `Model/FitShapes`, `Model/Unwrap`, `Model/LoadYaml` | contour, edge and unwrapping routines (contracts) |
| `util/debug.py` | not modelled | it only plots |
| `buildmodel/darkhole.py` | `Model/DarkHole`, `Model/DarkHoleDouble` | - |
| `conjugate/conjugate.py` | `Model/Conjugate`; the last step also in double precision: `Model/VoltsDouble`, and with zero gains: `Model/ZeroGain` | reading the YAML and FITS files |
| `dmreg/dmreg.py`, `dmreg/dr_util.py` | `Model/DmReg`, `Model/SoftwareMask`, `Model/DrUtil` | reading the YAML and FITS files |
| `focalfit/focalfit.py`, `focalfit/ff_util.py` | `Model/FocalFit`, `Model/FfUtil` | reading the YAML file; NaN of a negative discriminant |
| `gainmap/gainmap.py`, `gainmap/gm_util.py` | `Model/GainMap` | broadcasting between unequal shapes |
| `maskgen/maskgen.py`, `maskgen/util/thinfilm.py`, `maskgen/materialdata` | `Model/MaskGen`, `Model/HlcOcculter`, `Model/ThinFilm`, `Model/Materials`; the sampling numbers also in double precision: `Model/HlcDouble`, `Model/MaskDouble` | - |
| `occastro/occastro.py` | `Model/OccAstro`, `Model/GridSearch` | reading the YAML file |
| `platesolv/platesolv.py` | `Model/PlateSolv`, `Model/PlateSolvDouble` | reading the YAML and FITS files |
| `psffit/psffit.py` | `Model/PsfFit` | reading the YAML file |
| `pupil/util.py` | `Model/Lateral`, `Model/MaskFit`, `Model/PupilSearch`, `Model/PupilSearchDouble`, `Model/CoarseOnceDouble` | - |
| `pupil/maskfit.py`, `pupil/pupilfit.py` | `Model/MaskFit`, `Model/SpmShear`, `Model/PupilFit` | plots behind the debug switch |
| all of the above but `util/debug.py` | `Model/MemProgs` over `Model/Memory`: the array reads, writes, calls and returns of every function | what is written; conditions and loop counts are unconstrained |
| `center_of_energy`, `quadrant_energy_balance`, `rms`, `compute_norm_factor`, `psffit`, `coarsely_locate_pupil_offset_once` on frames with NaN pixels | `Model/BadPixels` | infinities |
| `calc_offset_from_spots`, `calc_bowtie_offsets_from_spots`, `calc_star_location_from_spots`, `calc_spot_separation`, `ampthresh` on frames with NaN pixels | `Model/BadPixelsFocal` | infinities; the least-squares routine on NaN samples raises or returns NaN (a parameter) |
| `calc_software_mask`, `calc_translation_clocking`, `calc_scale`, `platesolv` on maps with NaN pixels | `Model/BadPixelsDm` | infinities; the least-squares routine on NaN samples raises or returns NaN, and `dmhtoph` at a NaN registration gives anything (parameters) |
| `rms`, `center_of_energy`, `quadrant_energy_balance`, the amplitude of `psffit`, the mask of `compute_clocking` on integer arrays | `Model/IntImages` | - |
| `matlab/*.m` | `Model/Matlab`, `Model/MatlabYaml` | `ToDoTestFocalfit.m`, a test script; the class `Check`, which is not in the repository |

In every file the type checks made through `check.*` are proved once, in C07, and the arguments of the modelled function are typed
accordingly; checks on values and shapes are branches of the model.

## Contracts of external routines

| routine | structure | what is assumed |
|---|---|---|
| `np.linalg.lstsq`, `np.polyfit` | `Solver` | the answer minimises the sum of squared residuals; nothing is said about which minimiser |
| `scipy.sparse.linalg.spsolve` | `SpSolve` | solves non-singular systems |
| `scipy.interpolate.RectBivariateSpline` | `Spline` | passes through its samples and is linear in them |
| the same outside its rectangle | `ClampSpline` | the point is moved to the edge of the rectangle |
| `scipy.interpolate.interp1d`, cubic, with bounds check | `CubicInterp` | refuses fewer than four or repeated nodes and outside queries, passes through its nodes |
| the same, between its nodes (C31, C32 where named) | `Reproduces` | data from one polynomial of degree at most three is interpolated by that polynomial |
| `scipy.interpolate.interp1d`, cubic | `Interp1d` | passes through its nodes, scales with the ordinates |
| `scipy.ndimage.rotate(reshape=False)` | `Rotate` | keeps the shape, is linear, does nothing for angle 0 |
| the same at pixel centres | `Rotate.Exact` | reads the pixel found by turning the output position; only theorems about the direction of a rotation assume it |
| `scipy.ndimage.shift` | `Shift` | keeps the shape, is linear, moves pixels for whole-pixel shifts |
| `RectBivariateSpline`, `rotate`, `shift`, in C123 only | `Spline.Symmetric`, `Rotate.Symmetric`, `Shift.Symmetric` | a mirrored or transposed input, with the angle or shift mirrored alike, gives the mirrored or transposed output, in exact arithmetic; instances are given |
| `astropy.convolution.convolve` with a box | `BoxSmooth` | keeps the shape, keeps zero, keeps values between bounds on either side of zero |
| `scipy.optimize.fminbound` | `FminBound` | returns a point of the interval |
| `skimage.restoration.unwrap_phase` | `Unwrapper` | changes usable pixels by whole turns |
| the same, for C132 | `FollowsGentle` | right differences between adjacent usable pixels wherever the true phase changes by less than half a turn between adjacent usable pixels; met by `refUnwrapper` |
| `scipy.interpolate.NearestNDInterpolator` (C132) | `TakesNearest` | the value at one of the nearest pixels of the mask; met by `refNearest` |
| `skimage.morphology.remove_small_objects` | `SmallRemover` | only removes pixels |
| OpenCV contour and ellipse finder, Canny and Hough | plain parameters | nothing, unless a theorem states it |
| IEEE rounding to double, in C21 | `Rounding` | monotone, exact on half-integers up to 2^51, relative error at most 2^-53 from 1 upwards; `Rounding.binary64`, the rounding itself, is proved to meet it |
| every external routine, in C90 | `Model/MemProgs` | does not write into its arguments; the ones the tool lists as `NEW` return no view of them |
| the file system and `yaml.safe_load` | `FileEnv` | nothing: every call may return or raise anything |
| MATLAB's `str2num` and its rule for field names | `YamlEnv` | names are not empty and made of letters, digits and underscores |

`np.fft`, `np.interp`, `np.percentile`, `np.histogram`, `np.argmax`, binary morphology, convolution
with the disc kernel and linear `interp1d` are modelled concretely, not assumed.

## Where the code departs from its properties

Each item is proved about the model with a concrete witness. The claim concerned is marked partial in `MANIFEST.json`, with what does hold.

| claim | finding | theorem |
|---|---|---|
| C07 | NaN passes the positive and non-negative checks | `C07_real_positive_scalar_accepts_nan` |
| C07 | a name given as bytes raises TypeError instead of the caller's exception; under numpy 2 lists and tuples raise ValueError | `C07_bytes_name_raises_typeError`, `C07_numpy2_rejects_lists` |
| C11 | pixels on the quadrant axes are counted twice; the checks of the origin exchange rows and columns | `C11_axis_counted_twice`, `C11_origin_checks_swapped` |
| C29 | a slightly decreasing command vector passes the ordering check | `C29_accepts_unsorted` |
| C31, C33 | gain-map functions never work for a non-square actuator grid | `C31_nonsquare_never_works`, `C33_nonsquare_never_works` |
| C31 | between the reference points heights and commands do not convert back into each other unless the actuator is linear | `C31_round_trip_drifts` |
| C32 | for heights that decrease with the command, the clipping discards the request | `C32_decreasing_ignores_request` |
| C32 | the clipped heights can still be converted into commands outside the calibrated commands, because the cubic interpolant overshoots | `C32_overshoot` |
| C38 | `ellipse` renders some edge pixels by their centre only, also for turned ellipses centred in large arrays | `C38_ellipse_not_exact`, `C38_turned_not_exact` |
| C96 | the same `ellipse` is rendered differently in arrays of different sizes | `C96_ellipse_depends_on_array` |
| C39 | `annular_segments` with a rotation of 360 degrees or more crashes on an unbound variable | `C39_full_turn_crashes` |
| C43 | a DM probe can exceed the requested height | `C43_probe_exceeds_height` |
| C45 | `fit_surf_to_dm` inverts the influence function turned by half a turn | `C45_asymmetric_fails` |
| C46 | the centre pixel of a dark-hole sector depends on the clocking; an empty list gives floats | `C46_apex_depends_on_clocking`, `C46_empty_is_float` |
| C57 | with several clocking iterations and a shrink factor, the DM registration drifts away from the optimum | `C57_more_iterations_worse` |
| C58 | the starting guess of the star location is never added back | `C58_depends_on_guess` |
| C63 | the pupil-mask shear fit refuses data sets of different shapes and accepts broadcastable ones | `C63_different_shapes_rejected`, `C63_broadcast_accepted` |
| C65 | the default array of `gen_zernikes` allows for half of what an offset needs and clips displaced beams | `C65_default_array_clips`, `C65_offsets` |
| C67 | the angular padding of `annular_segments` is too small near the centre | `C67_padding_too_small` |
| C71 | the BK7 substrate names pass the check and then always raise | `C71_bk7_never_available` |
| C72 | in total reflection from an exactly real substrate the growing evanescent wave is used | `C72_total_reflection_branch` |
| C75 | the DM scale search exchanges rows and columns of a non-square image; the call does not see anything outside the largest centred square | `C75_nonsquare_counterexample`, `C75_blind` |
| C87 | `conv_surf_to_dm_cmd` undoes flip, rotation and offset in the order in which `dmhtoph` applies them, not in reverse | `C87_flip_offset_fails`, `C87_turn_offset_fails` |
| C91 | the clocking search compares the measured wavefront with the bare surface, so a wrong angle can fit noise-free data better than the true one | `C91_clocking_prefers_wrong_angle` |
| C92 | a dark spot counts as `2⁻⁵²` units of light and the fits refuse curvatures below absolute limits, so the answers depend on the units of the image | `C92_dark_spot`, `C92_dark_spot_flips`, `C92_faint` |
| C93 | an indented remark, or a line without a colon, makes a settings file unreadable for the MATLAB reader | `C93_indented_remark_fails`, `C93_no_colon_fails` |
| C98 | ceil_even of the smallest positive double is 0 | `C98_ceil_even_tiny` |
| C100 | a valid occulter design is refused with TypeError because its magnification, exactly 1, rounds to 1 + 2^-52 | `C100_refused` |
| C101 | with the package's parameters and a guess of 2.5 pixels `platesolv` always raises ValueError: the last interpolation point rounds to beyond the last plate scale; for 2.25 pixels it tries an eleventh plate scale | `C101_fails`, `C101_extra_trial` |
| C103 | at 650 nm, 0.3 m and 100000 pixels per metre `fresnelprop` refuses fields of 1950 samples, which meet its own criterion: the product rounds up past 1950; at 660 nm, 0.5 m and 10000 pixels per metre it accepts 33 samples where slightly more are needed | `C103_sufficient_array_refused`, `C103_insufficient_array_accepted` |
| C105 | with the default `upsample_factor` of 200 a scene of diagonal waves moved by 1/400 of a pixel is registered with an error of more than 2/200 of a pixel | `C105_tilted_fails` |
| C106 | `rotate_shift_downsample_amplitude_mask` by a factor of 186 averages over a disc that has lost its four rim pixels, because 1/(1/186) rounds to less than 186 | `C106_rim_lost` |
| C106 | a 525 x 525 mask downsampled by 105 comes out 10 x 10 instead of 8 x 8, because 525*(1/105) rounds to more than 5 | `C106_larger` |
| C107 | `xyzern` loses all accuracy at high orders: mode 991 (order 44) is 14 % too large at the rim of the pupil in double precision, although every factorial it starts from is exact. | `C107_high_orders_fail` |
| C108 | `center_of_energy` of an image with negative pixels (for example after subtracting a background) can answer NaN although the exact total energy is not zero: `[2^53, 1, -2^53]`. | `C108_negative_fails` |
| C113 | one NaN pixel (as `combine` writes for a bad pixel) in either image and `psffit` reports a shift of exactly 3/4 pixel in both axes with the packaged parameters, whatever the images show | `C113_psffit_fails`, `C113_psffit_default` |
| C113 | the coarse pupil search reports the first candidate whose disc covers a NaN pixel, wherever the pupil is | `C113_coarse_fails` |
| C113 | a NaN phase in the bright area and `calc_software_mask` applies no phase limit at all (if the least-squares routine returns NaN): the mask contains the bad pixel and every dead actuator | `C113_mask_fails` |
| C114 | `rms` squares integer arrays in their own type: a `uint16` array never has an rms above 256, a uniform `uint16` frame of 256 counts has rms 0, a uniform `int16` frame of 200 counts NaN | `C114_rms_fails`, `C114_rms_uniform_fails` |
| C114 | `psffit` multiplies integer frames in their own type: in `uint16` frames a star of 400 counts has 0.3616 times the amplitude of one of 200 counts | `C114_amplitude_fails` |
| C114 | `compute_clocking` refuses a `uint8` amplitude image with 16 counts in the pupil as uniform | `C114_mask_fails` |
| C115 | a piston of half a turn between the two phase maps changes the clocking found by `calc_translation_clocking` from 10 to more than 12 degrees: the phase is wrapped before the piston is removed | `C115_piston_fails` |
| C115 | NaN in a pixel that is not usable makes the whole registration NaN (or raises) | `C115_unusable_nan_fails`, `C113_registration`, `C113_scale` |
| C120 | `find_optimum_2d` tests only the curvature along axis 0: samples of `x^2 + x y` are refused with `QuadraticException`, the same samples with rows and columns exchanged give the stationary point | `C120_exchange_refused` |
| C47, C121 | `flatten` divides by the gain of dead actuators too: an actuator that does not move has gain zero in the map of `compute_gainmap`, and its command becomes NaN, for every phase and also when the mirrors are not used | `C47_zero_gain_fails`, `C121_stuck_fails` |
| C128 | `compute_gainmap` continues the line through the two outermost slopes up to the ends of the reference commands, so an actuator that rises throughout can get a negative gain there | `C128_wrong_sign` |
| C129 | Stretching a small circle along a diagonal with `ellipse` darkens a pixel next to its centre (consequence of C38) | `C129_ellipse_fails` |
| C131 | At normal incidence `calc_complex_occulter` with `pol = 2` returns a reflection coefficient of zero for every stack, because TE and TM amplitudes are averaged with opposite sign conventions | `C131_mean_reflection_zero`, `C131_reflection_fails` |
| C134 | When the stated diameter exceeds the pupil, `coarsely_locate_pupil_offset` takes the first of many equally good offsets, above the pupil, instead of the middle one | `C134_wrong_size` |
| C134 | On an over-subtracted picture, with all pixels negative, `coarsely_locate_pupil_offset` does not return the centre, since a beam that misses the picture collects more | `C134_negative_ground` |

Smaller observations that do not contradict a claim: `center_of_energy` of a blank image answers the corner pixel (0, 0) instead of NaN (`C10_blank`); the clocking search ignores `rotRef`, `flipxRef` and `padFacRef`; the upper end of the
plate-scale range is never tried (C84); `fit_pupil_zernikes` always refuses a non-square wavefront (C82); the Lyot stop fit does not
compound its shrink factor (C78); a dark satellite spot is given the weight 2^-52 (C28); outside their tables the metals keep the end value
without a warning (C89); five functions can return one of the caller's arrays instead of a new one (C90); the occulting mask is placed relative to its own corner pixel and `rOccLamD` is not checked (C85); at an exact critical angle the thin-film solver divides by zero, so C34, C35, C69, C70 and C72
exclude it; the Lyot stop fit compares measured amplitudes with a squared reference (C78).

## Testing the theorems

`seeded/LOG.jsonl` records edits of the model that imitate realistic bugs, made in a scratch copy outside `/verif`. For each it gives the
definition, the edit, the claim that becomes false, the theorems that failed and the theorems that were tightened because they did not.

## Plan per property

| id | property | how it is modelled and proved |
|---|---|---|
| C01 | pad_crop keeps the centre pixel registered | Arr2 model with numpy slice read/assign; exact pixel formula proved from the slice arithmetic for all shapes. |
| C02 | Chained pad_crop calls are order independent | From C01: result depends only on the intersection of centred windows; induction on the chain and on List.Perm. |
| C03 | pad_crop round trip | Corollary of C01. |
| C04 | offcenter_crop returns the requested window of the infinite zero-extended image | Model rounding (half to even), the four pad branches, pad_crop call, slice; omega on the index arithmetic. |
| C05 | Bad-pixel combine and crop | NaN-extended pixel type; slices as in C01; composition by pixel extensionality. |
| C06 | get_crop_lower centres the crop | Integer arithmetic. |
| C07 | Input validators accept exactly their documented class and raise the caller's exception | Inductive PyVal universe, every validator modelled branch by branch incl. the string concatenation that can itself raise. |
| C08 | ceil_odd and ceil_even are least upper bounds in their parity class | Model over the reals with Int.ceil; IsLeast statement. |
| C09 | rms and polar conversion are exact | Reals; Complex.arg for arctan2; Minkowski for subadditivity. |
| C10 | center_of_energy is the energy-weighted mean position | Finite sums over Fin; ordered-field bounds. |
| C11 | Quadrant energy balance | Finite sums; symmetry via involutive reindexing. Swapped bound check and double-counted axis recorded as findings. |
| C12 | Amplitude threshold mask | Histogram of a list of reals, first-interior-minimum search, mask comparison. |
| C13 | 1-D optimum is exact on parabolas | polyfit modelled as any least-squares minimiser (contract), vertex formula and epsilon test modelled; the minimiser is unique with three distinct abscissae. |
| C14 | 2-D optimum is exact on quadratic surfaces | lstsq modelled as any least-squares minimiser; vertex formula modelled; the minimiser is unique on a mask that determines a quadratic. |
| C15 | Phase unwrapping masks | External unwrapper/erosion/interpolator are parameters; wrapper modelled. |
| C16 | Off-centre MFT equals MFT of the embedded array | Complex exponential sums; reindexing of the embedded support. |
| C17 | do_fft and do_ifft are mutually inverse for every shape | DFT as explicit root-of-unity sums, shifts as index maps; orthogonality of characters. |
| C18 | MFT is linear and matches the FFT at matched sampling | Explicit sums. |
| C19 | FFT energy conservation (Parseval) | Orthogonality of characters. |
| C20 | Fresnel propagation is a unitary one-parameter group | Composition of C17 with pointwise multiplication by unimodular phase. |
| C21 | Noll indexing is a bijection onto valid Zernike modes | Real sqrt/ceil formula shown equal to triangular-number inversion; parity arithmetic. |
| C22 | Zernike radial polynomials are right for every order | In-place recurrence as fold; closed form by induction; value at 1 by a binomial identity. |
| C23 | gen_zernikes is linear and centred | Finite sums over a list. |
| C24 | fit_zernikes inverts gen_zernikes | lstsq contract + injectivity; modes are polynomials of degree d along rows and columns, so an expansion vanishing on d+1 rows and columns vanishes everywhere and by C88 has no coefficients. |
| C25 | remove_piston_tip_tilt is the plane-removing projection | lstsq contract; projection theorem on the masked pixels. |
| C26 | bound_value is the clamp | Direct case analysis over the reals. |
| C27 | Spot-ratio offset solvers | Reals, sqrt algebra. |
| C28 | Stellar-offset estimate is bounded and signed correctly | ROI masks from C36; full decision logic. |
| C29 | Reference command vectors are validated | Lists of reals; uniqueness + allclose(sort). |
| C30 | Gain cube integrates back to the height cube | Telescoping sum. |
| C31 | Height/command conversion is consistent | interp1d as parameter with the interpolation/bounds contract; between the nodes, exactness on cubic data. |
| C32 | Starting commands never leave the calibrated range | Clamp arithmetic + bounds contract. |
| C33 | Gain map recovers a linear actuator's gain | Concrete model of linear interpolation with extrapolation. |
| C34 | Thin-film solver conserves energy | Complex 2x2 transfer matrices, energy flux conserved by each lossless layer (propagating or evanescent), induction over layers. |
| C35 | Thin-film solver depends only on the optical structure | Matrix identities, induction. |
| C36 | circle is exactly the sub-pixel area fraction | Real geometry: sub-pixel offset < sqrt2/2 so the shortcut is sound. Area bound: in a closed convex figure each line of N mid-points is counted to within one, and Fubini integrates the error (Lemmas/Area.lean). |
| C37 | rectangle is exactly the sub-pixel area fraction | As C36 in rotated coordinates. |
| C38 | ellipse values are sub-pixel area fractions | Range and complement proved; exactness refuted by witness, proved under an explicit window bound (_partial). |
| C39 | annular_segments values and openings | Range; unbound-variable branch modelled as an exception. |
| C40 | simple_pupil stays a transmission and obscurations only remove light | Product of range-limited masks. |
| C41 | DM grid pokes exactly the requested lattice | Index arithmetic. |
| C42 | DM sine amplitude | Reals, |cos|<=1. |
| C43 | DM probe amplitude and quadrature | Reals. |
| C44 | Height and voltage conversions are inverse | Field arithmetic elementwise. |
| C45 | fit_surf_to_dm inverts the influence operator | Matrix of pokes; linear solve as contract; transposition finding. |
| C46 | Dark-hole mask is the union of its shapes | Lists of shapes, fold of or; Complex.arg periodicity. |
| C47 | Dead-actuator reassignment conserves stroke | Elementwise case analysis. |
| C48 | Flattening applies exactly the requested correction | Model/Conjugate.lean: flatten as a composition of its stages; sums of surfaces pointwise on the usable pixels, bounds through the clamp, the smoothing and the reset |
| C49 | The DM stroke split is optimal | Norm inequality and intermediate value theorem. |
| C50 | gen_split_wfe partitions the fitted wavefront | Sum splitting over ranges of modes. |
| C51 | Coarse pupil search terminates | Well-founded recursion on the step. In double precision (`Model/PupilSearchDouble`): a double above 1 is at least 1 + 2^-52, so one rounding cannot undo the division. |
| C52 | Coarse pupil search returns the best grid offset | argmax over a finite grid. In double precision (`Model/CoarseOnceDouble`): sums of whole counts below 2^53 are exact in any order, and a rounded distance is compared correctly with a clear radius. |
| C53 | Normalisation factor is an in-range percentile | np.percentile linear interpolation on the sorted list. |
| C54 | PSF registration | Cross-correlation in closed form over signed frequencies; argmax is its peak at both stages. Shift theorem and orthogonality for the DFT, strict triangle inequality for the correlation peak at the pixel and the upsampled stage; least squares in one unknown. |
| C55 | Upsampled DFT agrees with the DFT | Explicit sums; reindexing of the fftfreq order. |
| C56 | DM software mask only contains safe pixels | Binary erosion modelled concretely. |
| C57 | DM registration converges on quadratic costs | Loop as iteration with an abstract cost; negation by witness for shrink<1. |
| C58 | Star location estimate includes the guess | Loop over abstract cost; negation by witness. |
| C59 | loadyaml failure contract | Environment outcome as an inductive type. |
| C60 | Mask downsampling keeps the mask: even square output, whole-pixel shifts and disc means | Model padding, rotation, convolution with the disc kernel and spline sampling; contracts for rotation and spline (exact at nodes); at0 algebra for the whole plane; direction of the rotation against Spec.AppearsAt from the contract Rotate.Exact. |
| C61 | MATLAB port computes the same values as the Python code | MATLAB functions modelled separately (1-based), equality proved. |
| C62 | dmhtoph surface is linear, correctly shaped and correctly placed | Model/Dmhtoph; linearity through the contracts of spline, rotate and shift; the facesheet as an explicit sum over actuators; placement through the exact reading of rotate at pixel centres (Base/RotateExact), with the working array shown to cover the turned mirror. |
| C63 | Pupil-mask shear fit accepts every consistent data set and returns the shear | Shape checks and numpy broadcasting modelled; negation for sets of different shapes and for single-row images; recovery from C15, C25 and C54. |
| C64 | Lateral offset search finds the minimiser of a quadratic mismatch | Model of the transform, the phase ramp and the loop; mismatch defined separately on centred pixels; exact on paraboloids; fixed point by the symmetry of the least-squares fit under reflection. |
| C65 | Default Zernike array contains the beam | Integer/real arithmetic; exact condition on the offsets; negation by witness. |
| C66 | Gray-scale masks are symmetric | Reindexing. |
| C67 | annular_segments is the sub-pixel area fraction of the segments | Polar geometry; exactness where the angular window is wide enough, counterexample near the centre. |
| C68 | DM Zernike pattern is the Noll polynomial centred on the mirror | Reuses the xyzern model and C22. |
| C69 | Thin-film solver never creates energy | Normal energy flux is non-increasing through each passive layer; induction over layers. |
| C70 | Thin-film transmission is reciprocal | Reversal exchanges the diagonal of the characteristic matrix. |
| C71 | Occulter coefficients are physical and cellwise | C69 and C72 for each cell; the matching problem of the named stack is the specification; BK7 names always raise (finding). |
| C72 | Thin-film coefficients solve the field-matching problem | Separate plane-wave specification; total reflection uses the growing branch (finding, limit theorem). |
| C73 | Spot separation search finds the separation of maximal light | Loop over the light inside the spot regions (area-weighted discs in a separate specification), exact on parabolas. |
| C74 | DM scale search returns the best scale | Loop over relative scale changes with the real cost (dmhtoph surface, piston/tip/tilt removed); exact on paraboloids, rejection theorem. |
| C75 | Scale search simulates the phase on the image's own grid | True for square images; the code swaps rows and columns, negation by a 3 x 5 witness. |
| C76 | Mask clocking is independent of exposure and exact on tents | Model of both modes; matching pixels counted by a separate specification; vertex of the least-squares parabola through squared deficits; bias formula when the best angle is not a trial angle (finding). |
| C77 | Mask offset fits accumulate gain times measured displacement, ignore exposure, and rest on the true mask | Loop invariant over the rounds, percentile and threshold scale laws of C12/C53, the fixed point of C64, the shift law of C60. |
| C78 | The Lyot stop magnification fit answers the vertex of the measured overlap curve and ignores exposure | Split the function into start, rounds and finish; loop invariant over the rounds; vertex of the least-squares parabola of a tent's squared deficits; threshold and percentile scale laws of C12/C53; a fully evaluated scene (13 x 13 images, 23 x 23 mask) shows the hypotheses are met. |
| C79 | The ellipse fit moves with the pupil, ignores exposure and padding, and fills narrow struts only | Model padding, thresholding, iterated dilation and erosion; the contour and ellipse finder is a parameter. Induction on the iterations gives the set-level description of the closing; shift laws follow from it. |
| C80 | The circle fit answers the most prominent circle about the centre pixel | The Canny and Hough steps of scikit-image are a parameter; the rest by unfolding, the affine invariance of ampthresh (C12) and a list extensionality argument for the radii. |
| C81 | Unmasked pupil fit | Model/PupilFit.lean on top of the ellipse fit, the lateral search and the clocking search; pupil_iff lists the steps of a successful call, C64, C76, C79/C80 give each of them |
| C82 | Zernike fit over a fitted pupil | Model/PupilFit.lean: fitPupilZernikes on the models of fit_unmasked_pupil, ampthresh, erosion, fit_zernikes and gen_zernikes; C24 and the closed form of gen_zernikes give the maps |
| C83 | Older unmasked pupil fit | Model/PupilFit.lean: fitUnmaskedPupilOld, with the coarse search bounded by fuel as in C48; C12, C53, C60, C64, C76 give the steps |
| C84 | Plate scale search | Model/PlateSolv.lean over the matrix Fourier transforms of C18; the interpolation routine is a parameter; C18 as sums gives the resampled image, matched sampling the exact case, a 2 x 2 star the inexact one |
| C85 | Generated occulting mask | Model/HlcOcculter.lean on top of the thin-film, mask and Fourier models; Lemmas/BandSample.lean puts inverse transform, crop and transform in closed form (a band-limited interpolation kernel); orthogonality of the centred exponentials gives mean, constants and equal sampling; the bare-substrate transmission is computed from the characteristic matrix |
| C86 | Scan-converted rectangle | Model/RectProper.lean follows the scan statement by statement. Invariant over the sub-rows: the left and right corners are those whose edges meet the current line (two monotone chains from the lowest corner); the chord then equals the section of the rectangle, and the shares given to the pixels are the exact overlaps. Areas by Fubini (Lemmas/Area.lean). |
| C87 | Surface fitting and surface modelling use the same registration | Spec/Registration says where a mirror point appears; both functions are shown to use it when the parts of the registration commute; counterexamples for flip with offset, flip with clocking, clocking with offset, and flip with an even number of columns. |
| C88 | Zernike polynomials are orthonormal over the pupil, so coefficients are RMS amplitudes | Radial orthogonality from an alternating binomial sum (Lagrange interpolation at 0..K), angular orthogonality from product-to-sum formulas, polar coordinates for the disc; Riemann sums over the lattice points of the disc for the sampled maps. |
| C89 | Refractive indices follow the material data | the data files as exact tables, np.interp as a recursive function on them; induction on the table; monotonicity of each Sellmeier term. |
| C90 | Calls leave the caller's arrays alone, and results do not alias them | Memory model (numbered buffers, variables refer to buffers), one array program per function generated from the source by tools/memgen.py (Model/MemProgs), nondeterministic big-step semantics that may raise anywhere (Model/Memory). A checker computes which arguments each variable may share memory with; its soundness is proved by induction on executions (Lemmas/MemSound), the checker runs in the kernel on all programs (Props/Memory), and histories are by induction. |
| C91 | On noise-free data the true registration fits best | Model the measured phase (difference, wrapping, plane removal) and the three misfits. From the plane-removal theorems of C25 the measured phase equals the simulated one at the truth, so the misfit vanishes. The clocking misfit uses the surface instead of twice the surface without piston, tip and tilt: prove what remains, and exhibit a mirror for which a wrong clocking fits better. |
| C92 | Satellite-spot measurements do not depend on the units or the exposure of the image | The light in a region of interest is linear in the image, so spot ratios and fitted vertices are unchanged; for the searches prove by induction over the iterations that an answer is unchanged when the image is made brighter, from the characterisation of the fits as vertices of least-squares surfaces (C13, C14 on arbitrary data). The code has absolute thresholds (2^-52 for a dark spot, curvature limits in the fits): exhibit images whose answer changes sign or disappears in other units. |
| C93 | The MATLAB settings reader gives every key its last value | Text as lists of characters, str2num and the field-name rule as parameters; induction over the lines. An indented remark or a line without a colon makes every file unreadable. |
| C94 | Flattening cancels the wavefront in the package's own model of the mirrors | Compose C48 (what flatten asks of the surfaces), C45/C87 (the commands make the surface at the actuators) and C62 (dmhtoph shows the facesheet where an actuator appears); the command change enters linearly, so the old commands drop out. Partial because C87 fails for registrations whose flip, turn and offset do not commute. |
| C95 | Generated shapes are centred where they were asked for | Compose the pixel-exact descriptions of the shapes (C36, C37, C38, C40, C86) with the models of the measuring functions: the image is invariant under the half-turn about the requested centre, a bijection of the pixels of the plane, so the moments and the quadrant sums balance. |
| C96 | The picture of a shape does not depend on the array it is drawn in | From the pixel-exact descriptions (IsImage) of each generator, and C01 for pad_crop. For ellipse it is false, because the width of the refined edge is estimated at the corner of the array: witness and a _partial theorem for centred ellipses. |
| C97 | Bad arguments are refused with the promised exception, and good ones are not refused | The models of these functions return Python exceptions as values; for each one an equivalence between 'returns', 'raises TypeError', 'raises ValueError', … and a condition on the arguments written without reference to the code (Props/Refusals to Props/Refusals6). The grid loops are handled by a lemma saying that a grid is filled iff every cell can be computed. |
| C98 | What double precision does to a circle mask and to the even and odd ceilings | binary64 rounding is defined from the binary logarithm (Base/Double) and proved monotone, odd, idempotent, exact on 53-bit numbers and accurate to 2^-53. circle is modelled again with a rounding after every operation (Model/ShapesDouble); its axes are proved exact up to the subtraction of the offset, the error of a computed distance is bounded by 2^-53 (8(|x|+|y|)+12), and the shortcut for pixels far from the edge is proved never to matter. The counts on both sides then follow by inclusion of sets of sub-pixels (Props/Double). |
| C99 | What double precision does to voltages and focus steps | `double` (Base/Double) after every operation, in Python's order (Model/VoltsDouble). Away from underflow a rounding is a factor 1 + d with d at most 2^-53 in size (Base/DoubleRel); six such factors are within 2^-50 of one. Monotonicity and oddness from those of `double`. Inexactness by evaluating the doubles for h = 7. |
| C100 | Rounding does not change whether or how finely an occulter is sampled | Model/HlcDouble rounds every operation of lines 249-265 and then runs the steps of C85. A chain of n roundings is a factor between (1 - 2^-53)^n and its inverse (Base/DoubleProd, closed under products and quotients); the pixel counts and the magnification carry at most seven, which is one part in 2^50. A count clear of integers keeps its floor; the magnification is then below 1 before its last rounding, and rounding is monotone. Partial because an integer count can be reached with a magnification one unit above 1 (C100_refused). |
| C101 | Rounding does not make the plate scale search fail or leave its range | Model/PlateSolvDouble rounds the half width, the ends, the step, the length and every value np.arange fills in, and adds the two refusals of interp1d. The k-th value of an arange is within 5k + 11 units of the exact one (arangeValue_close); that gives the plate scales, their number, their order and the grid; a grid clear of the last plate scale by that much stays below it. The two counterexamples are computed bit by bit with double_eq_of_near. |
| C102 | What double precision does to dark-hole rectangles and annuli | gen_rectangle and gen_annulus are modelled again with a rounding after every operation, on the coordinates and radii already used for circle (C98). Containment follows from the monotonicity of rounding, the margins from its error bound, exactness on binary fractions from a lower bound on the distance of a square root from a whole number. Two concrete masks show that pixels on the edge do change. Sectors and bowties are not included: arctan2 is not correctly rounded. |
| C103 | Rounding does not change which fields the Fresnel propagation accepts | `nSamplesMin` with every product rounded (`Model/FresnelDouble`), the field itself in exact arithmetic. Error of three roundings from `Base/DoubleProd`; the decision is unchanged unless the size is within one part in 2^50 of the least one. Monotonicity of rounding gives the shorter, reversed and larger cases. Two counterexamples with 650 nm and 660 nm. |
| C104 | Fresnel propagation multiplies every plane wave by its paraxial phase | Props/FresnelWaves on the model of Model/Fresnel: the spectrum of the padded field is compared frequency by frequency with the paraxial factor of a specification; plane waves are eigenvectors because their transform is a single entry. |
| C105 | psffit registers images to within 1/upsample_factor of a pixel | The correlation is a positive factor times the correlation of the scene with itself at the remaining shift (from the exact sampling theorem of C54). If that falls off along both axes, the best whole pixel is within half a pixel, the nearest fine sample lies in the refined region as soon as the padding factor exceeds 1, and the best sample is the nearest one: half a fine sample of error, better than promised. For other scenes false: a scene of diagonal waves with the default configuration is registered with more than twice the promised error (cosine bounds, remainders modulo 3200). |
| C106 | Rounding changes neither the picture nor the size of a downsampled mask | Model/MaskDouble.lean: the function with every float operation that decides a size, the extent of the disc or a position rounded to the nearest double. Proof: away from whole quotients one rounding cannot move the sum past an odd number (C106_whole_factor_partial); positions and disc are exact when the double reciprocal is, and an output array large enough holds the whole picture whatever its size (C106_downsample_partial); C106_contains bounds the size from below for all arguments; C106_rim_lost and C106_larger are the two ways rounding shows. |
| C107 | Zernike polynomials are computed accurately in double precision | Model the recurrence for the factorials, the powers, the sum and the final products with every operation rounded to double precision (`Model/ZernikeDouble`). Closed forms of the rounded recurrence by an invariant over the loop; relative error of each coefficient by counting roundings; absolute error of powers, terms and sum by induction. Exactness up to order 18 because all intermediate products divide a factorial below 2^53. The failure at order 44 by evaluating the rounded recurrence on rationals in the kernel (`Base/DoubleEval`). |
| C108 | Rounding and summation order barely move the centre of energy and the rms | A summation is an arbitrary binary tree over a permutation of the terms with a rounding at every node (Base/DoubleSum). Model/CenterDouble rounds the quotients and products too. Relative errors compose by a multiplicative error calculus; convexity carries them through sums of non-negative terms. The failure for negative pixels is a concrete row. |
| C109 | Quadrant balances are accurate in double precision, in every order of summation | Round every operation of the model of quadrant_energy_balance; sums are arbitrary rounded trees as in C108. Squares of integer offsets are exact, monotonicity of rounding and the spacing of square roots of integers decide the disc, and the multiplicative error calculus carries the errors of the quotients and sums to the balances. |
| C110 | Matrix Fourier transforms in double precision | Base/DoubleDot models a dot product routine as any tree of rounded additions over products that are rounded or fused, and bounds its error for signed and complex data. Model/MftDouble rounds every operation of util/mft.py, with np.dot and np.exp as parameters. Coordinates carry at most three relative roundings, phases nine; the two matrix products and the two scalings multiply the growth factors, and an exponential bound collects them. Overflow is not modelled. |
| C111 | psffit in the presence of noise | The correlation is linear in the target, equals the pixel-by-pixel overlap at whole shifts (orthogonality of the phases), and is bounded by Schwarz's inequality and Parseval at all shifts; C54's theorem that psffit returns the peak of the noisy correlation then bounds what the noise can do. |
| C112 | Noise in the data moves the estimates by a bounded, stated amount | Props/NoiseGain: moments and disc energies are linear in the image; order statistics are monotone and shift with the data; least-squares fits are orthogonal projections, so fitted values and residuals are nonexpansive. Props/NoiseVertex and Props/NoiseSpots: the same for the vertex of a fitted surface and, through one-sided growth of the calibration curve, for the offsets from satellite spots. Props/GainMapUse: the gain map is a blend of two slopes with weights between -1 and 2. |
| C113 | A bad pixel is never turned into a plausible measurement | Pixels are numbers or NaN, NaN absorbs in sums and products, compares false, and np.argmax prefers the first NaN. Each function is modelled again over such pixels; on frames without NaN the new models are proved to agree with the old ones. |
| C114 | Integer images give the same answers as the same pixel values stored as floats | Integer types as widths with two's complement wrapping of squares and inner products; np.sum in 64 bits. Bounds on 64-bit sums from the number of pixels; explicit overflowing frames of every size. |
| C115 | DM registration looks only at the change of phase at the usable pixels | Two data sets with the same wrapped changes up to a plane on the mask give the same measured difference (residual of the least-squares plane), hence the same run. Counterexamples: a saddle with a piston of half a turn; NaN in an unusable pixel (C113). |
| C116 | Where and how bright things land in the focal plane of a matrix Fourier transform | Specification focalField: the Fourier integral sum as a function of real coordinates in lambda/D. Tilt, displacement, padding, conjugation and transposition by reindexing the sum; energy from the matched FFT and Parseval after zero padding. |
| C117 | Rolled, mirrored, transposed and conjugated fields through the centred FFT and the Fresnel propagator | The angular-spectrum operator is rewritten as a convolution with a periodic kernel; the kernel is even and symmetric because the phase factor depends on the squared distance from the centre frequency. |
| C118 | Symmetries of the PSF registration | The product of the transforms changes by a constant factor, or the correlation is the old one at a reversed, moved or exchanged shift (shift theorem, conjugation, reindexing of the signed frequencies). For the first part argmax is unchanged by a positive factor at both stages; for the second a unique maximum, carried along by the change, is what C54's peak theorem must return. |
| C119 | Mirrored, turned, rotated and rescaled Zernike maps and fits | From C22_xyzern and C23_centred (values are sums of the polynomial specification) and the parity of cos and sin: reflection, half turn, rotation and scaling of `mode`; for fits, the mirrored least-squares problem is carried back through the bijection of usable pixels and uniqueness (`basis_independent`) gives the coefficients. |
| C120 | Optimum and centre of energy follow the axes of the data | The misfit of a parabola or surface on moved, reversed, stretched or exchanged axes is the misfit of the transformed polynomial, so best fits go to best fits (`BestParabola`, `BestSurface`); C13_best_fit and C14_best_fit then compare the vertices. The exchange of axes is proved as `C120_exchanged_2d_partial` with the counterexample `C120_exchange_refused`. Moments of reflected images for center_of_energy. |
| C121 | Every command sent to an actuator is a number, whatever its gain | dmh_to_volts and the last steps of flatten are modelled again with numpy's division (Model/ZeroGain); the result is proved to be that of Model/Conjugate with the commands of zero-gain actuators replaced by not-a-number, so the commands are numbers exactly where the gain is not zero. A stuck actuator has gain zero by C33. |
| C122 | Flattening comes to rest | Props/FlattenRest.lean. A small specification (illuminated pixels, independent modes, obedient response) on top of the model of flatten. The least-squares fit of the obedient phase is the first fit less the removed modes, by uniqueness of the fit when the modes are independent; the surfaces sent to the mirrors are then zero, and zero surfaces give zero volts through a regular influence matrix; the rounded number of steps of the focus mechanism is zero because what remains is less than half a step. Induction over the calls. |
| C123 | Mirrored, transposed and turned mirrors | Props/DmSymmetry.lean, with the contracts of Base/Symmetric.lean: the interpolating spline, the rotation and the shift of scipy treat both directions of an axis and both axes alike (met by concrete instances). Each step (spread pokes, convolution, camera grid, crop; resampled influence, matrix of unit pokes, solution) is shown to commute with the symmetry; the solution by renumbering the actuators of a regular system. |
| C124 | Mirrored, transposed and turned measurements | List of mirrorings and transpositions acting on arrays; the residual of the fit of a plane is the only map with three properties that are kept by an exchange, the histogram depends on the pixels only up to a permutation, erosion with a square element commutes with exchanges; the misfits follow from C123. |
| C125 | Mirrored and transposed patterns | The regions of C46, C36, C37 and C40 are sets of points, which are mirrored and transposed with their arguments; sub-pixel grids are symmetric; the images follow pixel by pixel from the exactness theorems. DM shapes and padding directly from the model. |
| C126 | An angle is a direction | Props/Directions: every angle enters through sine, cosine or np.angle(np.exp(1j t)), so each function is periodic in it; sums over directions and products over struts do not depend on the order. Partial: annular_segments fails from 360 degrees on (C126_segments_refused). |
| C127 | Actuators do not influence each other in the gain-map routines, and the gain carries the right units | Invert each routine (a call that returned filled every cell) and compare the two cells. C127_heights_local, _commands_local, _delta_local, _starting_local, _gain_local; C127_gain_units from the closed form of the gain map in Lemmas/GainMapForm. |
| C128 | An actuator that rises with the command has a positive gain | C128_between_midpoints_partial (holds between the middles of the first and last reference intervals), C128_in_range_partial (anywhere within the reference commands the slopes' range is left by less than its own width), C128_wrong_sign (the full property is false: heights 0, 1, 11 at commands 0, 1, 2 give a negative gain at command 0). |
| C129 | A larger shape covers everything a smaller one does | Props/Nesting: the exactness theorems (C36, C37, C38, C40, C67) turn each image into the fraction of sub-pixels in the shape, which is monotone in the shape; the mask theorems of C41-C44 do the same for the regions. The failing ellipse is C38_turned_not_exact against the exact small circle. |
| C130 | The unit of length does not matter | Props/UnitOfLength: the two calls are shown equal as results, exceptions included, by pushing the factor through each model; the complex square root of the solver commutes with positive factors. |
| C131 | At normal incidence the polarisation does not matter | Props/NormalIncidence: at normal incidence each TM factor of the transfer matrix is n1/n2 times the TE factor with the signs of the off-diagonal entries reversed, so the whole matrix is too (induction over the layers). C131_mean_reflection_zero and C131_reflection_fails record the violation. |
| C132 | Unwrapping recovers a gently varying phase, and separated segments stay together | Contract of unwrap_phase: right differences between adjacent unmasked pixels when the true phase changes by less than half a turn there; contract of NearestNDInterpolator: the value at a nearest mask pixel. Induction along chains of adjacent pixels; the filled map is a wrapped copy of the true phase at the nearest site, gentle by the triangle inequality. Reference routines meeting both contracts are constructed, and a two-segment example on which unwrap alone leaves a turn. |
| C133 | A noisy pupil is still recognised | The first non-empty bin after the second (least index) is preceded by empty bins, so the first interior minimum of the histogram is just below it; pixels beyond the second bin climb bin by bin to it. The noise bound gives the width and the gap. A parametric six-pixel picture shows the order of the bound. |
| C134 | The coarse-to-fine pupil search finds the centre of an ideal pupil exactly | The light collected is proportional to the number of pixels in the overlap of two discs whose whole-pixel radii differ by at most one; reflections along rows, columns and diagonals show that the overlap shrinks with distance, so that a round with step s ends at most 2s from the centre on each axis, which is the radius of the next round; induction over the rounds. The last round has step 1 and its maximum lies within the difference of the whole-pixel radii (`C134_near_size`), so is unique if they agree. Noise below half a pixel cannot change the order of two counts. Props/CoarseDouble repeats the induction with rounded steps; Props/CoarseAllDouble shows that sums of counts and the comparison of distances are exact, so that the fully rounded search is the same function. Props/CoarseGround adds a ground: each grid offset is compared with the one next to the centre on its own side, which loses no more pixels over the edge. |
