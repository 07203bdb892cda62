{
 "C07": [
  "partial",
  "Exact behaviour of all fourteen validators is proved. The full property is false of the code: NaN passes the positive and non-negative checks (C07_real_positive_scalar_accepts_nan), bytes names raise TypeError (C07_bytes_name_raises_typeError), and under numpy 2 lists/tuples raise ValueError (C07_numpy2_rejects_lists)."
 ],
 "C100": [
  "partial",
  "The full claim is false of the code: C100_refused proves it refuses a valid design. Proved for counts clear of integers or computed exactly."
 ],
 "C101": [
  "partial",
  "false of the code for grids whose last point is within rounding of the last plate scale (C101_fails, default parameters, guess 2.5) and the number of trials may be one more (C101_extra_trial); C101_outcome holds for every search of ordinary size, C101_accepts_partial for grids clear of the end"
 ],
 "C103": [
  "partial",
  "The full property fails for sizes within one part in 2^50 of the criterion: C103_sufficient_array_refused (650 nm, 0.3 m, 100000 pixels per metre, 1950 samples suffice and are refused) and C103_insufficient_array_accepted. Proved for all other sizes."
 ],
 "C105": [
  "partial",
  "proved, to half a fine sample, for scenes whose correlation with themselves falls off along both axes; C105_tilted_fails exhibits a positive scene on which the default configuration misses the promised accuracy by more than a factor of two"
 ],
 "C106": [
  "partial",
  "The full property fails: rounding removes the rim of the disc for some even factors (C106_rim_lost, smallest 186) and enlarges the output when the factor divides the padded side (C106_larger). Proved for whole factors with exact double reciprocal; the spline is only known at its nodes, so positions off the nodes by a rounding error are not covered."
 ],
 "C107": [
  "partial",
  "Error law proved for all modes up to order 150; accuracy is false at high orders (counterexample proved)."
 ],
 "C108": [
  "partial",
  "The relative error bound holds for images without negative pixels; with negative pixels it is false (C108_negative_fails): cancellation can make the computed total zero."
 ],
 "C11": [
  "partial",
  "Axis pixels are counted twice (C11_axis_counted_twice) and the origin checks are swapped for non-square images (C11_origin_checks_swapped); what holds is in the other theorems."
 ],
 "C113": [
  "partial",
  "The shift of psffit (C113_psffit_fails, C113_psffit_default), the coarse pupil search (C113_coarse_fails) and the software mask with a least-squares routine that returns NaN (C113_mask_fails) turn a bad pixel into a plausible answer; the other estimators are proved to answer NaN."
 ],
 "C114": [
  "partial",
  "rms, the amplitude of psffit and the mask of the clocking fit overflow (C114_rms_fails, C114_rms_uniform_fails, C114_amplitude_fails, C114_mask_fails); they are right while the squares and inner products fit the type."
 ],
 "C115": [
  "partial",
  "A piston that moves changes across half a turn alters the answer (C115_piston_fails) and NaN at an unusable pixel destroys it (C115_unusable_nan_fails)."
 ],
 "C120": [
  "partial",
  "Exchanging rows and columns can turn an answer of find_optimum_2d into a refusal (proved counterexample C120_exchange_refused): only the curvature along axis 0 is tested. Proved when neither fit is refused, or when both curvatures are above the resolution."
 ],
 "C121": [
  "partial",
  "The code violates the claim: commands are numbers exactly where the gain is not zero (C121_numbers_partial); C121_stuck_fails shows that a stuck actuator with its measured gain is commanded NaN. That the others are unaffected is proved in full (C121_others)."
 ],
 "C29": [
  "partial",
  "Uniqueness is exact; the ordering check accepts exactly the increasing vectors only when values are separated by more than its tolerance (C29_sorted_iff_partial), and C29_accepts_unsorted exhibits a decreasing vector that passes."
 ],
 "C31": [
  "partial",
  "All clauses are proved for square actuator grids; the clause about every grid shape is refuted by C31_nonsquare_never_works (row and column tests exchanged). Between the reference points the round trip is exact for linear actuators and C31_round_trip_drifts shows that it is not for others."
 ],
 "C32": [
  "partial",
  "Proved for square grids with heights increasing in the command; C32_decreasing_ignores_request shows the clipping discards the request for decreasing heights. The clause about the returned commands is proved for linear actuators; C32_overshoot refutes it for curved calibrations."
 ],
 "C33": [
  "partial",
  "Proved for square grids (even for quadratic actuators); C33_nonsquare_never_works refutes other shapes."
 ],
 "C38": [
  "partial",
  "Range, complement and the values of pixels wholly inside or outside are proved for every input (C38_ellipse_range, C38_ellipse_pixels: each pixel is the fraction or is rendered by its centre); equality with the area fraction, and the distance from the area, are proved under an explicit condition on the edge window (in particular for every unrotated ellipse centred in a square array at least as wide as the sub-pixel count, C38_centred_partial, and for displaced ones in arrays of any shape, C38_displaced_partial), and equality is refuted in general by C38_ellipse_not_exact and, for turned ellipses centred in large arrays, by C38_turned_not_exact."
 ],
 "C39": [
  "partial",
  "Range proved; a rotation of 360 degrees or more is accepted by the checks and then crashes (C39_full_turn_crashes): the code tests the rotation where it means the opening angle."
 ],
 "C43": [
  "partial",
  "Linearity, phase, translation, parity and the sharp bound are proved; the documented bound by height holds only for probed rectangles of at most half the dact x dact square (C43_probe_below_height_partial), and fails otherwise (C43_probe_exceeds_height)."
 ],
 "C45": [
  "partial",
  "Proved for odd-sized influence functions unchanged by a half turn, sampled at a whole number of pixels per actuator, with a non-singular poke matrix. In general the fit inverts the transposed (half-turned) influence operator (C45_turned_influence), and C45_asymmetric_fails is a machine-checked counterexample to the full claim."
 ],
 "C46": [
  "partial",
  "Union, order independence, acceptance, half-turn symmetry and periodicity are proved. Two deviations keep it partial: the centre pixel of a sector of inner radius 0 depends on the clocking (C46_apex_depends_on_clocking), and an empty shape list returns floats instead of booleans (C46_empty_is_float)."
 ],
 "C47": [
  "partial",
  "The code violates the claim for dead actuators whose gain is zero: flatten replaces their command by NaN (C47_zero_gain_fails). Proved for dead actuators of non-zero gain; the conservation of stroke is proved in full where the gains are not zero."
 ],
 "C57": [
  "partial",
  "Proved for one clocking iteration per round, or a shrink factor of 1. For several clocking iterations with a smaller shrink factor the claim is false: C57_clocking_drift gives the exact answer and C57_more_iterations_worse a concrete run."
 ],
 "C58": [
  "partial",
  "Proved that the answer is the stellar offset minus the starting guess; C58_depends_on_guess is a machine-checked counterexample to the full claim (the guess is never added back)."
 ],
 "C63": [
  "partial",
  "Accepting is proved for data sets of one common shape, rejecting for images of at least two rows and columns, and the shear is exact. The full claim is false: C63_different_shapes_rejected (second poked phase is compared with the first set's shape) and C63_broadcast_accepted (numpy broadcasting)."
 ],
 "C65": [
  "partial",
  "Without offsets the size is the smallest even one that holds the beam (C65_smallest_partial). C65_offsets says exactly for which offsets every beam is held: the code allows for half of what an offset needs. With both offsets below one pixel every pixel centre of the beam is still in the array (C65_default_array_partial); in general the property is false (C65_default_array_clips)."
 ],
 "C67": [
  "partial",
  "Pixels wholly inside or outside are proved right for every input (C67_pixels: each pixel is the fraction or is rendered by its centre). The whole image is exact when the annulus starts far enough from its centre for the padding, ten pixels for the default (C67_large_partial), and any pixel whose sub-pixels are seen within the padding is exact (C67_exact_partial); equality is refuted close to the centre by C67_padding_too_small."
 ],
 "C71": [
  "partial",
  "Everything but the last clause is proved; the BK7 substrate names pass the check and then always raise (C71_bk7_never_available). Material data enter as parameters with stated bounds; C89 shows that the package's own data meet them."
 ],
 "C72": [
  "partial",
  "Proved with the code's branch of the transmitted wave. Beyond the critical angle with an exactly real substrate index that branch is the growing evanescent wave, so the phase of r is the conjugate of the physical one (C72_total_reflection_branch)."
 ],
 "C75": [
  "partial",
  "Proved for square images; C75_nonsquare_blank, C75_nonsquare_counterexample and, at the level of the call, C75_blind show that it fails for other shapes."
 ],
 "C87": [
  "partial",
  "Proved for registrations whose parts commute (no clocking and no x offset across a flip, or neither flip nor offset), odd-sized surfaces and influence functions unchanged by half a turn, with every actuator on a pixel. The code undoes flip, rotation and offset in the order in which dmhtoph applies them instead of the reverse order: C87_flip_offset_fails, C87_flip_turn_fails, C87_turn_offset_fails and C87_even_fails are machine-checked counterexamples to the full claim."
 ],
 "C91": [
  "partial",
  "Proved for the translation and scale searches, and for the clocking search when the true surface has no piston, tip or tilt over the usable pixels and no other clocking brings more of it there. In general it is false: the clocking search compares the measured wavefront with the surface (not doubled, planes not removed), and C91_clocking_prefers_wrong_angle is a machine-checked counterexample."
 ],
 "C92": [
  "partial",
  "Proved for the offset estimates when the spots are all lit or all dark, and for the searches when the image is made brighter (so two exposures that both give an answer give the same one). In general it is false: a dark spot counts as 2^-52 units of light whatever the units (C92_dark_spot, C92_dark_spot_flips), and the fits refuse curvatures below an absolute limit, so the star is not found in a faint copy of the same image (C92_faint)."
 ],
 "C93": [
  "partial",
  "Holds for files whose remarks start in the first column or follow a value. An indented remark, and a line without a colon, make the whole file unreadable (C93_indented_remark_fails, C93_no_colon_fails). A # inside a value always ends it."
 ],
 "C94": [
  "partial",
  "proved for registrations whose flip, rotation and offset commute and whose actuators are centred on pixels; for the others the commands are placed wrongly (C87_flip_offset_fails, C87_flip_turn_fails, C87_turn_offset_fails), so the property is false of the code"
 ],
 "C96": [
  "partial",
  "Proved for circle, rectangle, rect_proper, annular_segments and simple_pupil. For ellipse it is false (C96_ellipse_depends_on_array: the edge window is estimated at the corner of the array); for ellipse it is proved between arrays in which one step at the first corner covers a sub-pixel (C96_ellipse_steps_partial), such as unrotated ellipses centred in square arrays at least as wide as the sub-pixel count (C96_ellipse_partial)."
 ],
 "C126": [
  "partial",
  "annular_segments raises UnboundLocalError for every angRot >= 360, so adding a turn can turn an accepted call into a failing one (C126_segments_refused); below 360 degrees, and for all other functions, the claim is proved in full. Exact arithmetic: rounding of the angles themselves is not modelled here."
 ],
 "C128": [
  "partial",
  "fails near the ends of the reference commands, where the gain is extrapolated: C128_wrong_sign gives a rising actuator with a negative gain at its lowest reference command"
 ],
 "C129": [
  "partial",
  "C129_ellipse_partial assumes the window condition of C38 on both ellipses and C129_segments_partial the distance condition of C67; without the first the property is false (C129_ellipse_fails)."
 ],
 "C131": [
  "partial",
  "Holds for powers and transmissions (C131_solver, C131_transmission, C131_mask); the reflection coefficients violate it (C131_mean_reflection_zero, C131_reflection_fails)."
 ]
}