{
 "claims": [
  {
   "property": "C01",
   "status": "proved",
   "theorems": [
    "Coralign.Props.C01_pad_crop_registered",
    "Coralign.Props.C01_pad_crop_rejects"
   ],
   "note": ""
  },
  {
   "property": "C02",
   "status": "proved",
   "theorems": [
    "Coralign.Props.C02_chain_order_irrelevant",
    "Coralign.Props.C02_chain_collapses"
   ],
   "note": ""
  },
  {
   "property": "C03",
   "status": "proved",
   "theorems": [
    "Coralign.Props.C03_pad_then_crop",
    "Coralign.Props.C03_same_shape_is_copy"
   ],
   "note": ""
  },
  {
   "property": "C04",
   "status": "proved",
   "theorems": [
    "Coralign.Props.C04_offcenter_crop_window",
    "Coralign.Props.C04_offcenter_crop_rejects",
    "Coralign.Props.C04_offcenter_crop_outside"
   ],
   "note": ""
  },
  {
   "property": "C05",
   "status": "proved",
   "theorems": [
    "Coralign.Props.C05_combine",
    "Coralign.Props.C05_combine_rejects",
    "Coralign.Props.C05_crop",
    "Coralign.Props.C05_crop_rejects",
    "Coralign.Props.C05_crop_type_errors",
    "Coralign.Props.C05_crop_crop"
   ],
   "note": ""
  },
  {
   "property": "C06",
   "status": "proved",
   "theorems": [
    "Coralign.Props.C06_get_crop_lower",
    "Coralign.Props.C06_get_crop_lower_bound",
    "Coralign.Props.C06_crop_contains_center",
    "Coralign.Props.C06_get_crop_lower_rejects"
   ],
   "note": ""
  },
  {
   "property": "C07",
   "status": "partial",
   "theorems": [
    "Coralign.Props.C07_real_scalar",
    "Coralign.Props.C07_scalar_integer",
    "Coralign.Props.C07_positive_scalar_integer",
    "Coralign.Props.C07_nonnegative_scalar_integer",
    "Coralign.Props.C07_string",
    "Coralign.Props.C07_boolean",
    "Coralign.Props.C07_dictionary",
    "Coralign.Props.C07_real_positive_scalar_partial",
    "Coralign.Props.C07_real_nonnegative_scalar_partial",
    "Coralign.Props.C07_real_positive_scalar_accepts_nan",
    "Coralign.Props.C07_rank_array",
    "Coralign.Props.C07_numpy2_arrays",
    "Coralign.Props.C07_not_an_array",
    "Coralign.Props.C07_real_array",
    "Coralign.Props.C07_twoD_square_array",
    "Coralign.Props.C07_numpy2_rejects_lists",
    "Coralign.Props.C07_bad_name",
    "Coralign.Props.C07_bad_exception",
    "Coralign.Props.C07_bytes_name_raises_typeError"
   ],
   "note": "Exact behaviour of all fourteen validators is proved. The full property is false of the code: NaN passes the positive and non-negative checks (C07_real_positive_scalar_accepts_nan), bytes names raise TypeError (C07_bytes_name_raises_typeError), and under numpy 2 lists/tuples raise ValueError (C07_numpy2_rejects_lists)."
  },
  {
   "property": "C08",
   "status": "proved",
   "theorems": [
    "Coralign.Props.C08_ceil_odd",
    "Coralign.Props.C08_ceil_even"
   ],
   "note": ""
  },
  {
   "property": "C09",
   "status": "proved",
   "theorems": [
    "Coralign.Props.C09_rms_sq",
    "Coralign.Props.C09_rms_nonneg",
    "Coralign.Props.C09_rms_smul",
    "Coralign.Props.C09_rms_add_le",
    "Coralign.Props.C09_rms_eq_zero",
    "Coralign.Props.C09_cart2pol",
    "Coralign.Props.C09_cart2pol_array"
   ],
   "note": ""
  },
  {
   "property": "C10",
   "status": "proved",
   "theorems": [
    "Coralign.Props.C10_weighted_mean",
    "Coralign.Props.C10_zero_total",
    "Coralign.Props.C10_blank",
    "Coralign.Props.C10_scale",
    "Coralign.Props.C10_translate",
    "Coralign.Props.C10_inside"
   ],
   "note": ""
  },
  {
   "property": "C11",
   "status": "partial",
   "theorems": [
    "Coralign.Props.C11_mirror_x",
    "Coralign.Props.C11_mirror_y",
    "Coralign.Props.C11_symmetric",
    "Coralign.Props.C11_half_planes_partial",
    "Coralign.Props.C11_axis_counted_twice",
    "Coralign.Props.C11_origin_checks_partial",
    "Coralign.Props.C11_origin_checks_square",
    "Coralign.Props.C11_origin_checks_swapped"
   ],
   "note": "Axis pixels are counted twice (C11_axis_counted_twice) and the origin checks are swapped for non-square images (C11_origin_checks_swapped); what holds is in the other theorems."
  },
  {
   "property": "C12",
   "status": "proved",
   "theorems": [
    "Coralign.Props.C12_threshold_mask",
    "Coralign.Props.C12_error_iff",
    "Coralign.Props.C12_affine_invariant",
    "Coralign.Props.C12_rearrangement",
    "Coralign.Props.C12_histogram_partition",
    "Coralign.Props.C12_two_level",
    "Coralign.Props.C12_modulus",
    "Coralign.Props.C12_phase_free",
    "Coralign.Props.C12_real_keeps_sign"
   ],
   "note": ""
  },
  {
   "property": "C13",
   "status": "proved",
   "theorems": [
    "Coralign.Props.C13_parabola_vertex",
    "Coralign.Props.C13_vertex_is_optimum",
    "Coralign.Props.C13_length_mismatch",
    "Coralign.Props.C13_best_fit",
    "Coralign.Props.C13_best_exists",
    "Coralign.Props.C13_units"
   ],
   "note": ""
  },
  {
   "property": "C14",
   "status": "proved",
   "theorems": [
    "Coralign.Props.C14_stationary_point",
    "Coralign.Props.C14_shape_mismatch",
    "Coralign.Props.C14_best_fit",
    "Coralign.Props.C14_best_exists",
    "Coralign.Props.C14_units"
   ],
   "note": ""
  },
  {
   "property": "C15",
   "status": "proved",
   "theorems": [
    "Coralign.Props.C15_unwrap",
    "Coralign.Props.C15_unwrap_returns",
    "Coralign.Props.C15_unwrap_rejects",
    "Coralign.Props.C15_segments"
   ],
   "note": ""
  },
  {
   "property": "C16",
   "status": "proved",
   "theorems": [
    "Coralign.Props.C16_offcenter_equals_embedded",
    "Coralign.Props.C16_offcenter_rejects",
    "Coralign.Props.C16_offcenter_type_error"
   ],
   "note": ""
  },
  {
   "property": "C17",
   "status": "proved",
   "theorems": [
    "Coralign.Props.C17_centred_transform",
    "Coralign.Props.C17_ifft_fft",
    "Coralign.Props.C17_fft_ifft"
   ],
   "note": ""
  },
  {
   "property": "C18",
   "status": "proved",
   "theorems": [
    "Coralign.Props.C18_mft_sum",
    "Coralign.Props.C18_imft_sum",
    "Coralign.Props.C18_mft_rejects",
    "Coralign.Props.C18_linear",
    "Coralign.Props.C18_matched_fft",
    "Coralign.Props.C18_mft_inverts_imft",
    "Coralign.Props.C18_imft_inverts_mft",
    "Coralign.Props.C18_type_error"
   ],
   "note": ""
  },
  {
   "property": "C19",
   "status": "proved",
   "theorems": [
    "Coralign.Props.C19_parseval",
    "Coralign.Props.C19_parseval_inverse"
   ],
   "note": ""
  },
  {
   "property": "C20",
   "status": "proved",
   "theorems": [
    "Coralign.Props.C20_zero_distance",
    "Coralign.Props.C20_composition",
    "Coralign.Props.C20_reversible",
    "Coralign.Props.C20_energy_conserved",
    "Coralign.Props.C20_energy_never_grows",
    "Coralign.Props.C20_error_contract",
    "Coralign.Props.C20_two_step_path",
    "Coralign.Props.C20_get_fp_accepts",
    "Coralign.Props.C20_linear",
    "Coralign.Props.C20_small_grid_silently_crops"
   ],
   "note": ""
  },
  {
   "property": "C21",
   "status": "proved",
   "theorems": [
    "Coralign.Props.C21_float",
    "Coralign.Props.C21_valid",
    "Coralign.Props.C21_table",
    "Coralign.Props.C21_injective",
    "Coralign.Props.C21_surjective",
    "Coralign.Props.C21_documented_modes"
   ],
   "note": ""
  },
  {
   "property": "C22",
   "status": "proved",
   "theorems": [
    "Coralign.Props.C22_tilts",
    "Coralign.Props.C22_coefficients",
    "Coralign.Props.C22_radial",
    "Coralign.Props.C22_xyzern",
    "Coralign.Props.C22_piston",
    "Coralign.Props.C22_rejects"
   ],
   "note": ""
  },
  {
   "property": "C23",
   "status": "proved",
   "theorems": [
    "Coralign.Props.C23_centred",
    "Coralign.Props.C23_crop_consistent",
    "Coralign.Props.C23_order_independent",
    "Coralign.Props.C23_like_terms_add",
    "Coralign.Props.C23_linear"
   ],
   "note": ""
  },
  {
   "property": "C24",
   "status": "proved",
   "theorems": [
    "Coralign.Props.C24_least_squares",
    "Coralign.Props.C24_exact_recovery",
    "Coralign.Props.C24_round_trip",
    "Coralign.Props.C24_determined",
    "Coralign.Props.C24_inverts"
   ],
   "note": ""
  },
  {
   "property": "C25",
   "status": "proved",
   "theorems": [
    "Coralign.Props.C25_residual",
    "Coralign.Props.C25_plane_invariant",
    "Coralign.Props.C25_identity",
    "Coralign.Props.C25_idempotent",
    "Coralign.Props.C25_shape_mismatch"
   ],
   "note": ""
  },
  {
   "property": "C26",
   "status": "proved",
   "theorems": [
    "Coralign.Props.C26_bound_value",
    "Coralign.Props.C26_negative_bound",
    "Coralign.Props.C26_laws"
   ],
   "note": ""
  },
  {
   "property": "C27",
   "status": "proved",
   "theorems": [
    "Coralign.Props.C27_quadratic_root",
    "Coralign.Props.C27_linear_root",
    "Coralign.Props.C27_ratio_one",
    "Coralign.Props.C27_inverse_negates",
    "Coralign.Props.C27_rejects",
    "Coralign.Props.C27_quadratic_strictMono",
    "Coralign.Props.C27_linear_strictMono"
   ],
   "note": ""
  },
  {
   "property": "C28",
   "status": "proved",
   "theorems": [
    "Coralign.Props.C28_estimate",
    "Coralign.Props.C28_bounded",
    "Coralign.Props.C28_sign",
    "Coralign.Props.C28_flag",
    "Coralign.Props.C28_monotone",
    "Coralign.Props.C28_brighter",
    "Coralign.Props.C28_half_turn",
    "Coralign.Props.C28_rejects",
    "Coralign.Props.C28_bowtie_estimate",
    "Coralign.Props.C28_bowtie_sign",
    "Coralign.Props.C28_bowtie_rejects"
   ],
   "note": ""
  },
  {
   "property": "C29",
   "status": "partial",
   "theorems": [
    "Coralign.Props.C29_unique",
    "Coralign.Props.C29_sorted_accepted",
    "Coralign.Props.C29_sorted_iff_partial",
    "Coralign.Props.C29_accepts_unsorted",
    "Coralign.Props.C29_diff_mean",
    "Coralign.Props.C29_only_valueError"
   ],
   "note": "Uniqueness is exact; the ordering check accepts exactly the increasing vectors only when values are separated by more than its tolerance (C29_sorted_iff_partial), and C29_accepts_unsorted exhibits a decreasing vector that passes."
  },
  {
   "property": "C30",
   "status": "proved",
   "theorems": [
    "Coralign.Props.C30_gain_integrates",
    "Coralign.Props.C30_linear",
    "Coralign.Props.C30_mismatch"
   ],
   "note": ""
  },
  {
   "property": "C31",
   "status": "partial",
   "theorems": [
    "Coralign.Props.C31_reference_points_partial",
    "Coralign.Props.C31_no_extrapolation",
    "Coralign.Props.C31_delta_partial",
    "Coralign.Props.C31_nonsquare_never_works",
    "Coralign.Props.C31_cubic_heights_partial",
    "Coralign.Props.C31_linear_round_trip_partial",
    "Coralign.Props.C31_round_trip_drifts"
   ],
   "note": "All clauses are proved for square actuator grids; the clause about every grid shape is refuted by C31_nonsquare_never_works (row and column tests exchanged). Between the reference points the round trip is exact for linear actuators and C31_round_trip_drifts shows that it is not for others."
  },
  {
   "property": "C32",
   "status": "partial",
   "theorems": [
    "Coralign.Props.C32_starting_commands_partial",
    "Coralign.Props.C32_decreasing_ignores_request",
    "Coralign.Props.C32_linear_partial",
    "Coralign.Props.C32_overshoot"
   ],
   "note": "Proved for square grids with heights increasing in the command; C32_decreasing_ignores_request shows the clipping discards the request for decreasing heights. The clause about the returned commands is proved for linear actuators; C32_overshoot refutes it for curved calibrations."
  },
  {
   "property": "C33",
   "status": "partial",
   "theorems": [
    "Coralign.Props.C33_quadratic_actuator_partial",
    "Coralign.Props.C33_midpoint_partial",
    "Coralign.Props.C33_nonsquare_never_works"
   ],
   "note": "Proved for square grids (even for quadratic actuators); C33_nonsquare_never_works refutes other shapes."
  },
  {
   "property": "C34",
   "status": "proved",
   "theorems": [
    "Coralign.Props.C34_lossless_energy"
   ],
   "note": ""
  },
  {
   "property": "C35",
   "status": "proved",
   "theorems": [
    "Coralign.Props.C35_split_layer",
    "Coralign.Props.C35_zero_layer",
    "Coralign.Props.C35_uniform"
   ],
   "note": ""
  },
  {
   "property": "C36",
   "status": "proved",
   "theorems": [
    "Coralign.Props.C36_area",
    "Coralign.Props.C36_circle_exact",
    "Coralign.Props.C36_circle_rejects",
    "Coralign.Props.C36_circle_range"
   ],
   "note": ""
  },
  {
   "property": "C37",
   "status": "proved",
   "theorems": [
    "Coralign.Props.C37_area",
    "Coralign.Props.C37_rectangle_exact",
    "Coralign.Props.C37_rectangle_rejects"
   ],
   "note": ""
  },
  {
   "property": "C38",
   "status": "partial",
   "theorems": [
    "Coralign.Props.C38_displaced_partial",
    "Coralign.Props.C38_turned_not_exact",
    "Coralign.Props.C38_round_partial",
    "Coralign.Props.C38_ellipse_pixels",
    "Coralign.Props.C38_area_partial",
    "Coralign.Props.C38_centred_partial",
    "Coralign.Props.C38_ellipse_range",
    "Coralign.Props.C38_ellipse_exact_partial",
    "Coralign.Props.C38_ellipse_not_exact"
   ],
   "note": "Range, complement and the values of pixels wholly inside or outside are proved for every input (C38_ellipse_range, C38_ellipse_pixels: each pixel is the fraction or is rendered by its centre); equality with the area fraction, and the distance from the area, are proved under an explicit condition on the edge window (in particular for every unrotated ellipse centred in a square array at least as wide as the sub-pixel count, C38_centred_partial, and for displaced ones in arrays of any shape, C38_displaced_partial), and equality is refuted in general by C38_ellipse_not_exact and, for turned ellipses centred in large arrays, by C38_turned_not_exact."
  },
  {
   "property": "C39",
   "status": "partial",
   "theorems": [
    "Coralign.Props.C39_range",
    "Coralign.Props.C39_full_turn_crashes"
   ],
   "note": "Range proved; a rotation of 360 degrees or more is accepted by the checks and then crashes (C39_full_turn_crashes): the code tests the rotation where it means the opening angle."
  },
  {
   "property": "C40",
   "status": "proved",
   "theorems": [
    "Coralign.Props.C40_pupil_exact",
    "Coralign.Props.C40_pupil_bounds",
    "Coralign.Props.C40_pupil_dark"
   ],
   "note": ""
  },
  {
   "property": "C41",
   "status": "proved",
   "theorems": [
    "Coralign.Props.C41_grid_lattice",
    "Coralign.Props.C41_grid_partition",
    "Coralign.Props.C41_grid_rejects"
   ],
   "note": ""
  },
  {
   "property": "C42",
   "status": "proved",
   "theorems": [
    "Coralign.Props.C42_sine_total",
    "Coralign.Props.C42_sine_bounded",
    "Coralign.Props.C42_sine_phase",
    "Coralign.Props.C42_sine_linear",
    "Coralign.Props.C42_sine_period",
    "Coralign.Props.C42_sine_odd",
    "Coralign.Props.C42_sine_value"
   ],
   "note": ""
  },
  {
   "property": "C43",
   "status": "partial",
   "theorems": [
    "Coralign.Props.C43_probe_total",
    "Coralign.Props.C43_probe_bounded",
    "Coralign.Props.C43_probe_below_height_partial",
    "Coralign.Props.C43_probe_exceeds_height",
    "Coralign.Props.C43_probe_phase",
    "Coralign.Props.C43_probe_linear",
    "Coralign.Props.C43_probe_translates",
    "Coralign.Props.C43_probe_parity",
    "Coralign.Props.C43_superposition"
   ],
   "note": "Linearity, phase, translation, parity and the sharp bound are proved; the documented bound by height holds only for probed rectangles of at most half the dact x dact square (C43_probe_below_height_partial), and fails otherwise (C43_probe_exceeds_height)."
  },
  {
   "property": "C44",
   "status": "proved",
   "theorems": [
    "Coralign.Props.C44_round_trip",
    "Coralign.Props.C44_units",
    "Coralign.Props.C44_superposition",
    "Coralign.Props.C44_rejects"
   ],
   "note": ""
  },
  {
   "property": "C45",
   "status": "partial",
   "theorems": [
    "Coralign.Props.C45_reproduces_partial",
    "Coralign.Props.C45_round_trip_partial",
    "Coralign.Props.C45_turned_influence",
    "Coralign.Props.C45_regular_of_local",
    "Coralign.Props.C45_asymmetric_fails",
    "Coralign.Props.C45_rejects"
   ],
   "note": "Proved for odd-sized influence functions unchanged by a half turn, sampled at a whole number of pixels per actuator, with a non-singular poke matrix. In general the fit inverts the transposed (half-turned) influence operator (C45_turned_influence), and C45_asymmetric_fails is a machine-checked counterexample to the full claim."
  },
  {
   "property": "C46",
   "status": "partial",
   "theorems": [
    "Coralign.Props.C46_union_partial",
    "Coralign.Props.C46_accepts_iff",
    "Coralign.Props.C46_order_irrelevant",
    "Coralign.Props.C46_empty_is_float",
    "Coralign.Props.C46_bowtie_is_annulus",
    "Coralign.Props.C46_clocking_period",
    "Coralign.Props.C46_bowtie_half_turn_clocking",
    "Coralign.Props.C46_bowtie_point_symmetric",
    "Coralign.Props.C46_apex_depends_on_clocking"
   ],
   "note": "Union, order independence, acceptance, half-turn symmetry and periodicity are proved. Two deviations keep it partial: the centre pixel of a sector of inner radius 0 depends on the clocking (C46_apex_depends_on_clocking), and an empty shape list returns floats instead of booleans (C46_empty_is_float)."
  },
  {
   "property": "C47",
   "status": "partial",
   "theorems": [
    "Coralign.Props.C47_dead_unchanged_partial",
    "Coralign.Props.C47_stroke_conserved",
    "Coralign.Props.C47_zero_gain_fails"
   ],
   "note": "The code violates the claim for dead actuators whose gain is zero: flatten replaces their command by NaN (C47_zero_gain_fails). Proved for dead actuators of non-zero gain; the conservation of stroke is proved in full where the gains are not zero."
  },
  {
   "property": "C48",
   "status": "proved",
   "theorems": [
    "Coralign.Props.C48_dms_unused",
    "Coralign.Props.C48_fcm",
    "Coralign.Props.C48_coefs",
    "Coralign.Props.C48_returns",
    "Coralign.Props.C48_surfaces"
   ],
   "note": ""
  },
  {
   "property": "C49",
   "status": "proved",
   "theorems": [
    "Coralign.Props.C49_zero_is_best",
    "Coralign.Props.C49_balance",
    "Coralign.Props.C49_unimodal",
    "Coralign.Props.C49_split_balanced",
    "Coralign.Props.C49_rejects"
   ],
   "note": ""
  },
  {
   "property": "C50",
   "status": "proved",
   "theorems": [
    "Coralign.Props.C50_sum",
    "Coralign.Props.C50_parts",
    "Coralign.Props.C50_accepts_iff"
   ],
   "note": ""
  },
  {
   "property": "C51",
   "status": "proved",
   "theorems": [
    "Coralign.Props.C51_terminates",
    "Coralign.Props.C51_rejects",
    "Coralign.Props.C51_double",
    "Coralign.Props.C51_double_same"
   ],
   "note": ""
  },
  {
   "property": "C52",
   "status": "proved",
   "theorems": [
    "Coralign.Props.C52_clear_beam",
    "Coralign.Props.C52_double",
    "Coralign.Props.C52_exposure",
    "Coralign.Props.C52_search_exposure",
    "Coralign.Props.C52_best",
    "Coralign.Props.C52_matrix",
    "Coralign.Props.C52_rejects",
    "Coralign.Props.C52_ideal_pupil",
    "Coralign.Props.C52_may_leave_image"
   ],
   "note": ""
  },
  {
   "property": "C53",
   "status": "proved",
   "theorems": [
    "Coralign.Props.C53_percentile",
    "Coralign.Props.C53_range",
    "Coralign.Props.C53_extremes",
    "Coralign.Props.C53_monotone",
    "Coralign.Props.C53_scale",
    "Coralign.Props.C53_rejects",
    "Coralign.Props.C53_interpolated"
   ],
   "note": ""
  },
  {
   "property": "C54",
   "status": "proved",
   "theorems": [
    "Coralign.Props.C54_pixel",
    "Coralign.Props.C54_subpixel",
    "Coralign.Props.C54_amplitude",
    "Coralign.Props.C54_amplitude_exact",
    "Coralign.Props.C54_pixel_any_mean",
    "Coralign.Props.C54_subpixel_any_mean",
    "Coralign.Props.C54_accepts",
    "Coralign.Props.C54_fractional",
    "Coralign.Props.C54_fractional_wide",
    "Coralign.Props.C54_peak"
   ],
   "note": ""
  },
  {
   "property": "C55",
   "status": "proved",
   "theorems": [
    "Coralign.Props.C55_agrees",
    "Coralign.Props.C55_plain",
    "Coralign.Props.C55_offset",
    "Coralign.Props.C55_linear",
    "Coralign.Props.C55_accepts_iff",
    "Coralign.Props.C55_between"
   ],
   "note": ""
  },
  {
   "property": "C56",
   "status": "proved",
   "theorems": [
    "Coralign.Props.C56_only_safe_pixels",
    "Coralign.Props.C56_erosion_monotone",
    "Coralign.Props.C56_threshold_monotone",
    "Coralign.Props.C56_plane_invariant",
    "Coralign.Props.C56_rejects"
   ],
   "note": ""
  },
  {
   "property": "C57",
   "status": "partial",
   "theorems": [
    "Coralign.Props.C57_registration_partial",
    "Coralign.Props.C57_clocking_drift",
    "Coralign.Props.C57_rejects",
    "Coralign.Props.C57_more_iterations_worse"
   ],
   "note": "Proved for one clocking iteration per round, or a shrink factor of 1. For several clocking iterations with a smaller shrink factor the claim is false: C57_clocking_drift gives the exact answer and C57_more_iterations_worse a concrete run."
  },
  {
   "property": "C58",
   "status": "partial",
   "theorems": [
    "Coralign.Props.C58_relative_partial",
    "Coralign.Props.C58_depends_on_guess"
   ],
   "note": "Proved that the answer is the stellar offset minus the starting guess; C58_depends_on_guess is a machine-checked counterexample to the full claim (the guess is never added back)."
  },
  {
   "property": "C59",
   "status": "proved",
   "theorems": [
    "Coralign.Props.C59_returns",
    "Coralign.Props.C59_custom_exception",
    "Coralign.Props.C59_other_exceptions",
    "Coralign.Props.C59_total",
    "Coralign.Props.C59_closes"
   ],
   "note": ""
  },
  {
   "property": "C60",
   "status": "proved",
   "theorems": [
    "Coralign.Props.C60_accepts",
    "Coralign.Props.C60_rejects",
    "Coralign.Props.C60_even_square",
    "Coralign.Props.C60_downsample",
    "Coralign.Props.C60_shift",
    "Coralign.Props.C60_linear",
    "Coralign.Props.C60_turned",
    "Coralign.Props.C60_downsample_whole"
   ],
   "note": ""
  },
  {
   "property": "C61",
   "status": "proved",
   "theorems": [
    "Coralign.Props.C61_bound_value",
    "Coralign.Props.C61_linear",
    "Coralign.Props.C61_quadratic",
    "Coralign.Props.C61_circle",
    "Coralign.Props.C61_from_spots",
    "Coralign.Props.C61_target_ignored"
   ],
   "note": ""
  },
  {
   "property": "C62",
   "status": "proved",
   "theorems": [
    "Coralign.Props.C62_placed",
    "Coralign.Props.C62_placed_centred",
    "Coralign.Props.C62_shape",
    "Coralign.Props.C62_linear",
    "Coralign.Props.C62_facesheet",
    "Coralign.Props.C62_outside",
    "Coralign.Props.C62_facesheet_centred",
    "Coralign.Props.C62_single_poke",
    "Coralign.Props.C62_piston"
   ],
   "note": ""
  },
  {
   "property": "C63",
   "status": "partial",
   "theorems": [
    "Coralign.Props.C63_accepts_partial",
    "Coralign.Props.C63_different_shapes_rejected",
    "Coralign.Props.C63_shape_errors",
    "Coralign.Props.C63_rejects_partial",
    "Coralign.Props.C63_recovers_shear",
    "Coralign.Props.C63_recovers_shear_upsampled",
    "Coralign.Props.C63_broadcast_accepted"
   ],
   "note": "Accepting is proved for data sets of one common shape, rejecting for images of at least two rows and columns, and the shear is exact. The full claim is false: C63_different_shapes_rejected (second poked phase is compared with the first set's shape) and C63_broadcast_accepted (numpy broadcasting)."
  },
  {
   "property": "C64",
   "status": "proved",
   "theorems": [
    "Coralign.Props.C64_quadratic",
    "Coralign.Props.C64_rejects",
    "Coralign.Props.C64_true_displacement",
    "Coralign.Props.C64_odd_bias",
    "Coralign.Props.C64_fixed_point",
    "Coralign.Props.C64_rest"
   ],
   "note": ""
  },
  {
   "property": "C65",
   "status": "partial",
   "theorems": [
    "Coralign.Props.C65_default_array_partial",
    "Coralign.Props.C65_default_array_clips",
    "Coralign.Props.C65_smallest_partial",
    "Coralign.Props.C65_offsets"
   ],
   "note": "Without offsets the size is the smallest even one that holds the beam (C65_smallest_partial). C65_offsets says exactly for which offsets every beam is held: the code allows for half of what an offset needs. With both offsets below one pixel every pixel centre of the beam is still in the array (C65_default_array_partial); in general the property is false (C65_default_array_clips)."
  },
  {
   "property": "C66",
   "status": "proved",
   "theorems": [
    "Coralign.Props.C66_circle_symmetric",
    "Coralign.Props.C66_rectangle_symmetric"
   ],
   "note": ""
  },
  {
   "property": "C67",
   "status": "partial",
   "theorems": [
    "Coralign.Props.C67_exact_partial",
    "Coralign.Props.C67_padding_too_small",
    "Coralign.Props.C67_pixels",
    "Coralign.Props.C67_large_partial"
   ],
   "note": "Pixels wholly inside or outside are proved right for every input (C67_pixels: each pixel is the fraction or is rendered by its centre). The whole image is exact when the annulus starts far enough from its centre for the padding, ten pixels for the default (C67_large_partial), and any pixel whose sub-pixels are seen within the padding is exact (C67_exact_partial); equality is refuted close to the centre by C67_padding_too_small."
  },
  {
   "property": "C68",
   "status": "proved",
   "theorems": [
    "Coralign.Props.C68_dm_zernike",
    "Coralign.Props.C68_dm_zernike_linear"
   ],
   "note": ""
  },
  {
   "property": "C69",
   "status": "proved",
   "theorems": [
    "Coralign.Props.C69_passive_energy"
   ],
   "note": ""
  },
  {
   "property": "C70",
   "status": "proved",
   "theorems": [
    "Coralign.Props.C70_reciprocity"
   ],
   "note": ""
  },
  {
   "property": "C71",
   "status": "partial",
   "theorems": [
    "Coralign.Props.C71_stack",
    "Coralign.Props.C71_amplitudes_unique",
    "Coralign.Props.C71_occulter_bounded",
    "Coralign.Props.C71_occulter_convention",
    "Coralign.Props.C71_occulter_cellwise",
    "Coralign.Props.C71_bk7_never_available"
   ],
   "note": "Everything but the last clause is proved; the BK7 substrate names pass the check and then always raise (C71_bk7_never_available). Material data enter as parameters with stated bounds; C89 shows that the package's own data meet them."
  },
  {
   "property": "C72",
   "status": "partial",
   "theorems": [
    "Coralign.Props.C72_scattering_partial",
    "Coralign.Props.C72_total_reflection_branch"
   ],
   "note": "Proved with the code's branch of the transmitted wave. Beyond the critical angle with an exactly real substrate index that branch is the growing evanescent wave, so the phase of r is the conjugate of the physical one (C72_total_reflection_branch)."
  },
  {
   "property": "C73",
   "status": "proved",
   "theorems": [
    "Coralign.Props.C73_separation",
    "Coralign.Props.C73_rejects"
   ],
   "note": ""
  },
  {
   "property": "C74",
   "status": "proved",
   "theorems": [
    "Coralign.Props.C74_scale",
    "Coralign.Props.C74_rejects"
   ],
   "note": ""
  },
  {
   "property": "C75",
   "status": "partial",
   "theorems": [
    "Coralign.Props.C75_square_partial",
    "Coralign.Props.C75_nonsquare_blank",
    "Coralign.Props.C75_blind",
    "Coralign.Props.C75_nonsquare_counterexample"
   ],
   "note": "Proved for square images; C75_nonsquare_blank, C75_nonsquare_counterexample and, at the level of the call, C75_blind show that it fails for other shapes."
  },
  {
   "property": "C76",
   "status": "proved",
   "theorems": [
    "Coralign.Props.C76_exposure",
    "Coralign.Props.C76_recovers",
    "Coralign.Props.C76_symmetric",
    "Coralign.Props.C76_off_grid_bias",
    "Coralign.Props.C76_rejects",
    "Coralign.Props.C76_answer",
    "Coralign.Props.C76_background"
   ],
   "note": ""
  },
  {
   "property": "C77",
   "status": "proved",
   "theorems": [
    "Coralign.Props.C77_exposure",
    "Coralign.Props.C77_rejects",
    "Coralign.Props.C77_rounds",
    "Coralign.Props.C77_gain",
    "Coralign.Props.C77_matched_gain",
    "Coralign.Props.C77_fixed_point",
    "Coralign.Props.C77_whole_shear",
    "Coralign.Props.C77_no_shear"
   ],
   "note": ""
  },
  {
   "property": "C78",
   "status": "proved",
   "theorems": [
    "Coralign.Props.C78_exposure",
    "Coralign.Props.C78_rejects",
    "Coralign.Props.C78_search",
    "Coralign.Props.C78_recovers",
    "Coralign.Props.C78_limits"
   ],
   "note": ""
  },
  {
   "property": "C79",
   "status": "proved",
   "theorems": [
    "Coralign.Props.C79_fit",
    "Coralign.Props.C79_exposure",
    "Coralign.Props.C79_shift",
    "Coralign.Props.C79_fills",
    "Coralign.Props.C79_border"
   ],
   "note": ""
  },
  {
   "property": "C80",
   "status": "proved",
   "theorems": [
    "Coralign.Props.C80_fit",
    "Coralign.Props.C80_exposure",
    "Coralign.Props.C80_rejects"
   ],
   "note": ""
  },
  {
   "property": "C81",
   "status": "proved",
   "theorems": [
    "Coralign.Props.C81_shift_clock",
    "Coralign.Props.C81_answer",
    "Coralign.Props.C81_rejects",
    "Coralign.Props.C81_exposure",
    "Coralign.Props.C81_bright_pixels",
    "Coralign.Props.C81_clock_reference",
    "Coralign.Props.C81_shift",
    "Coralign.Props.C81_recovers"
   ],
   "note": ""
  },
  {
   "property": "C82",
   "status": "proved",
   "theorems": [
    "Coralign.Props.C82_refusals",
    "Coralign.Props.C82_residuals",
    "Coralign.Props.C82_exact",
    "Coralign.Props.C82_square_only",
    "Coralign.Props.C82_mask",
    "Coralign.Props.C82_mask_refusals",
    "Coralign.Props.C82_orders",
    "Coralign.Props.C82_exposure",
    "Coralign.Props.C82_determined"
   ],
   "note": ""
  },
  {
   "property": "C83",
   "status": "proved",
   "theorems": [
    "Coralign.Props.C83_answer",
    "Coralign.Props.C83_diameter",
    "Coralign.Props.C83_area",
    "Coralign.Props.C83_exposure",
    "Coralign.Props.C83_rejects",
    "Coralign.Props.C83_recovers"
   ],
   "note": ""
  },
  {
   "property": "C84",
   "status": "proved",
   "theorems": [
    "Coralign.Props.C84_answer",
    "Coralign.Props.C84_range",
    "Coralign.Props.C84_exposure",
    "Coralign.Props.C84_perfect",
    "Coralign.Props.C84_self",
    "Coralign.Props.C84_accepts",
    "Coralign.Props.C84_rejects",
    "Coralign.Props.C84_guess_not_exact"
   ],
   "note": ""
  },
  {
   "property": "C85",
   "status": "proved",
   "theorems": [
    "Coralign.Props.C85_accepts",
    "Coralign.Props.C85_answer",
    "Coralign.Props.C85_bare_nonzero",
    "Coralign.Props.C85_substrate",
    "Coralign.Props.C85_uniform",
    "Coralign.Props.C85_clear",
    "Coralign.Props.C85_full_cover",
    "Coralign.Props.C85_scale",
    "Coralign.Props.C85_mean",
    "Coralign.Props.C85_exact",
    "Coralign.Props.C85_wavelength",
    "Coralign.Props.C85_rejects"
   ],
   "note": ""
  },
  {
   "property": "C86",
   "status": "proved",
   "theorems": [
    "Coralign.Props.C86_exact",
    "Coralign.Props.C86_rejects",
    "Coralign.Props.C86_range",
    "Coralign.Props.C86_inside_outside",
    "Coralign.Props.C86_turns",
    "Coralign.Props.C86_area",
    "Coralign.Props.C86_rectangle"
   ],
   "note": ""
  },
  {
   "property": "C87",
   "status": "partial",
   "theorems": [
    "Coralign.Props.C87_reproduces_partial",
    "Coralign.Props.C87_round_trip_partial",
    "Coralign.Props.C87_flip_offset_fails",
    "Coralign.Props.C87_flip_turn_fails",
    "Coralign.Props.C87_turn_offset_fails",
    "Coralign.Props.C87_even_fails"
   ],
   "note": "Proved for registrations whose parts commute (no clocking and no x offset across a flip, or neither flip nor offset), odd-sized surfaces and influence functions unchanged by half a turn, with every actuator on a pixel. The code undoes flip, rotation and offset in the order in which dmhtoph applies them instead of the reverse order: C87_flip_offset_fails, C87_flip_turn_fails, C87_turn_offset_fails and C87_even_fails are machine-checked counterexamples to the full claim."
  },
  {
   "property": "C88",
   "status": "proved",
   "theorems": [
    "Coralign.Props.C88_orthonormal",
    "Coralign.Props.C88_coefficient",
    "Coralign.Props.C88_rms",
    "Coralign.Props.C88_zero_mean",
    "Coralign.Props.C88_sampled"
   ],
   "note": ""
  },
  {
   "property": "C89",
   "status": "proved",
   "theorems": [
    "Coralign.Props.C89_tabulated",
    "Coralign.Props.C89_between",
    "Coralign.Props.C89_outside",
    "Coralign.Props.C89_metals",
    "Coralign.Props.C89_dispersion",
    "Coralign.Props.C89_formulas",
    "Coralign.Props.C89_occulter",
    "Coralign.Props.C89_mask"
   ],
   "note": ""
  },
  {
   "property": "C90",
   "status": "proved",
   "theorems": [
    "Coralign.Props.C90_arguments_unchanged",
    "Coralign.Props.C90_results_new",
    "Coralign.Props.C90_results_accounted",
    "Coralign.Props.C90_results_independent",
    "Coralign.Props.C90_history"
   ],
   "note": ""
  },
  {
   "property": "C91",
   "status": "partial",
   "theorems": [
    "Coralign.Props.C91_translation",
    "Coralign.Props.C91_scale",
    "Coralign.Props.C91_clocking_partial",
    "Coralign.Props.C91_clocking_prefers_wrong_angle",
    "Coralign.Props.C91_scale_either_parity"
   ],
   "note": "Proved for the translation and scale searches, and for the clocking search when the true surface has no piston, tip or tilt over the usable pixels and no other clocking brings more of it there. In general it is false: the clocking search compares the measured wavefront with the surface (not doubled, planes not removed), and C91_clocking_prefers_wrong_angle is a machine-checked counterexample."
  },
  {
   "property": "C92",
   "status": "partial",
   "theorems": [
    "Coralign.Props.C92_offset_partial",
    "Coralign.Props.C92_bowtie_partial",
    "Coralign.Props.C92_dark_spot",
    "Coralign.Props.C92_dark_spot_flips",
    "Coralign.Props.C92_star_partial",
    "Coralign.Props.C92_separation_partial",
    "Coralign.Props.C92_faint"
   ],
   "note": "Proved for the offset estimates when the spots are all lit or all dark, and for the searches when the image is made brighter (so two exposures that both give an answer give the same one). In general it is false: a dark spot counts as 2^-52 units of light whatever the units (C92_dark_spot, C92_dark_spot_flips), and the fits refuse curvatures below an absolute limit, so the star is not found in a faint copy of the same image (C92_faint)."
  },
  {
   "property": "C93",
   "status": "partial",
   "theorems": [
    "Coralign.Props.C93_reads_partial",
    "Coralign.Props.C93_order_partial",
    "Coralign.Props.C93_indented_remark_fails",
    "Coralign.Props.C93_no_colon_fails"
   ],
   "note": "Holds for files whose remarks start in the first column or follow a value. An indented remark, and a line without a colon, make the whole file unreadable (C93_indented_remark_fails, C93_no_colon_fails). A # inside a value always ends it."
  },
  {
   "property": "C94",
   "status": "partial",
   "theorems": [
    "Coralign.Props.C94_cancels_partial",
    "Coralign.Props.C94_dead_partial"
   ],
   "note": "proved for registrations whose flip, rotation and offset commute and whose actuators are centred on pixels; for the others the commands are placed wrongly (C87_flip_offset_fails, C87_flip_turn_fails, C87_turn_offset_fails), so the property is false of the code"
  },
  {
   "property": "C95",
   "status": "proved",
   "theorems": [
    "Coralign.Props.C95_circle",
    "Coralign.Props.C95_rectangle",
    "Coralign.Props.C95_ellipse",
    "Coralign.Props.C95_rect_proper",
    "Coralign.Props.C95_pupil",
    "Coralign.Props.C95_circle_found"
   ],
   "note": ""
  },
  {
   "property": "C96",
   "status": "partial",
   "theorems": [
    "Coralign.Props.C96_ellipse_steps_partial",
    "Coralign.Props.C96_circle",
    "Coralign.Props.C96_rectangle",
    "Coralign.Props.C96_rect_proper",
    "Coralign.Props.C96_pupil",
    "Coralign.Props.C96_annular",
    "Coralign.Props.C96_ellipse_depends_on_array",
    "Coralign.Props.C96_ellipse_partial"
   ],
   "note": "Proved for circle, rectangle, rect_proper, annular_segments and simple_pupil. For ellipse it is false (C96_ellipse_depends_on_array: the edge window is estimated at the corner of the array); for ellipse it is proved between arrays in which one step at the first corner covers a sub-pixel (C96_ellipse_steps_partial), such as unrotated ellipses centred in square arrays at least as wide as the sub-pixel count (C96_ellipse_partial)."
  },
  {
   "property": "C97",
   "status": "proved",
   "theorems": [
    "Coralign.Props.C97_ellipse",
    "Coralign.Props.C97_annular",
    "Coralign.Props.C97_probe",
    "Coralign.Props.C97_sine",
    "Coralign.Props.C97_dmh_to_volts",
    "Coralign.Props.C97_volts_to_dmh",
    "Coralign.Props.C97_quadrant",
    "Coralign.Props.C97_circle",
    "Coralign.Props.C97_rectangle",
    "Coralign.Props.C97_pupil",
    "Coralign.Props.C97_dmhtoph",
    "Coralign.Props.C97_find_optimum_1d",
    "Coralign.Props.C97_find_optimum_2d",
    "Coralign.Props.C97_heights",
    "Coralign.Props.C97_commands",
    "Coralign.Props.C97_gain_map",
    "Coralign.Props.C97_dh_rectangle",
    "Coralign.Props.C97_dh_annulus",
    "Coralign.Props.C97_dh_sector",
    "Coralign.Props.C97_dh_bowtie",
    "Coralign.Props.C97_xyzern",
    "Coralign.Props.C97_gen_zernikes",
    "Coralign.Props.C97_fit_zernikes",
    "Coralign.Props.C97_split_wfe",
    "Coralign.Props.C97_phase_cost",
    "Coralign.Props.C97_smooth_surface",
    "Coralign.Props.C97_reassign",
    "Coralign.Props.C97_flatten",
    "Coralign.Props.C97_resample",
    "Coralign.Props.C97_build_prefilter",
    "Coralign.Props.C97_fit_surf",
    "Coralign.Props.C97_conv_surf",
    "Coralign.Props.C97_get_fp",
    "Coralign.Props.C97_fresnelprop",
    "Coralign.Props.C97_fresnelprop_fp",
    "Coralign.Props.C97_upsampled_dft",
    "Coralign.Props.C97_psffit",
    "Coralign.Props.C97_dark_hole_entry",
    "Coralign.Props.C97_dark_hole",
    "Coralign.Props.C97_unwrap",
    "Coralign.Props.C97_unwrap_segments",
    "Coralign.Props.C97_lateral",
    "Coralign.Props.C97_lyot",
    "Coralign.Props.C97_thin_film",
    "Coralign.Props.C97_grid",
    "Coralign.Props.C97_dm_zernike",
    "Coralign.Props.C97_fit_circle",
    "Coralign.Props.C97_spm_shear",
    "Coralign.Props.C97_flatten_steps",
    "Coralign.Props.C97_delta_heights",
    "Coralign.Props.C97_starting_commands",
    "Coralign.Props.C97_platesolv"
   ],
   "note": ""
  },
  {
   "property": "C98",
   "status": "proved",
   "theorems": [
    "Coralign.Props.C98_circle",
    "Coralign.Props.C98_circle_clear",
    "Coralign.Props.C98_range",
    "Coralign.Props.C98_monotone",
    "Coralign.Props.C98_mirror",
    "Coralign.Props.C98_ceil_odd",
    "Coralign.Props.C98_ceil_even",
    "Coralign.Props.C98_ceil_even_tiny",
    "Coralign.Props.C98_circle_dyadic"
   ],
   "note": ""
  },
  {
   "property": "C99",
   "status": "proved",
   "theorems": [
    "Coralign.Props.C99_round_trip",
    "Coralign.Props.C99_accurate",
    "Coralign.Props.C99_round_trip_inexact",
    "Coralign.Props.C99_monotone",
    "Coralign.Props.C99_dead_exact",
    "Coralign.Props.C99_focus_kept",
    "Coralign.Props.C99_focus"
   ],
   "note": ""
  },
  {
   "property": "C100",
   "status": "partial",
   "theorems": [
    "Coralign.Props.C100_outcome",
    "Coralign.Props.C100_accepts_partial",
    "Coralign.Props.C100_refused"
   ],
   "note": "The full claim is false of the code: C100_refused proves it refuses a valid design. Proved for counts clear of integers or computed exactly."
  },
  {
   "property": "C101",
   "status": "partial",
   "theorems": [
    "Coralign.Props.C101_outcome",
    "Coralign.Props.C101_accepts_partial",
    "Coralign.Props.C101_fails",
    "Coralign.Props.C101_extra_trial"
   ],
   "note": "false of the code for grids whose last point is within rounding of the last plate scale (C101_fails, default parameters, guess 2.5) and the number of trials may be one more (C101_extra_trial); C101_outcome holds for every search of ordinary size, C101_accepts_partial for grids clear of the end"
  },
  {
   "property": "C102",
   "status": "proved",
   "theorems": [
    "Coralign.Props.C102_rectangle",
    "Coralign.Props.C102_rectangle_exact",
    "Coralign.Props.C102_annulus",
    "Coralign.Props.C102_annulus_exact",
    "Coralign.Props.C102_annulus_monotone",
    "Coralign.Props.C102_annulus_mirror",
    "Coralign.Props.C102_edge",
    "Coralign.Props.C102_rectangle_edge",
    "Coralign.Props.C102_refusals"
   ],
   "note": ""
  },
  {
   "property": "C103",
   "status": "partial",
   "theorems": [
    "Coralign.Props.C103_same_outcome_partial",
    "Coralign.Props.C103_get_fp_partial",
    "Coralign.Props.C103_accepted_is_sampled",
    "Coralign.Props.C103_exact_products_accept",
    "Coralign.Props.C103_shorter_accepted",
    "Coralign.Props.C103_reversible",
    "Coralign.Props.C103_larger_accepted",
    "Coralign.Props.C103_two_step",
    "Coralign.Props.C103_sufficient_array_refused",
    "Coralign.Props.C103_insufficient_array_accepted"
   ],
   "note": "The full property fails for sizes within one part in 2^50 of the criterion: C103_sufficient_array_refused (650 nm, 0.3 m, 100000 pixels per metre, 1950 samples suffice and are refused) and C103_insufficient_array_accepted. Proved for all other sizes."
  },
  {
   "property": "C104",
   "status": "proved",
   "theorems": [
    "Coralign.Props.C104_spectrum",
    "Coralign.Props.C104_plane_wave",
    "Coralign.Props.C104_get_fp",
    "Coralign.Props.C104_supplied_factor",
    "Coralign.Props.C104_padded"
   ],
   "note": ""
  },
  {
   "property": "C105",
   "status": "partial",
   "theorems": [
    "Coralign.Props.C105_accuracy_partial",
    "Coralign.Props.C105_tilted_fails"
   ],
   "note": "proved, to half a fine sample, for scenes whose correlation with themselves falls off along both axes; C105_tilted_fails exhibits a positive scene on which the default configuration misses the promised accuracy by more than a factor of two"
  },
  {
   "property": "C106",
   "status": "partial",
   "theorems": [
    "Coralign.Props.C106_whole_factor_partial",
    "Coralign.Props.C106_contains",
    "Coralign.Props.C106_downsample_partial",
    "Coralign.Props.C106_rim_lost",
    "Coralign.Props.C106_larger"
   ],
   "note": "The full property fails: rounding removes the rim of the disc for some even factors (C106_rim_lost, smallest 186) and enlarges the output when the factor divides the padded side (C106_larger). Proved for whole factors with exact double reciprocal; the spline is only known at its nodes, so positions off the nodes by a rounding error are not covered."
  },
  {
   "property": "C107",
   "status": "partial",
   "theorems": [
    "Coralign.Props.C107_radial",
    "Coralign.Props.C107_sample_partial",
    "Coralign.Props.C107_low_orders_partial",
    "Coralign.Props.C107_exact",
    "Coralign.Props.C107_high_orders_fail"
   ],
   "note": "Error law proved for all modes up to order 150; accuracy is false at high orders (counterexample proved)."
  },
  {
   "property": "C108",
   "status": "partial",
   "theorems": [
    "Coralign.Props.C108_center",
    "Coralign.Props.C108_center_any_order",
    "Coralign.Props.C108_single_pixel",
    "Coralign.Props.C108_rms",
    "Coralign.Props.C108_negative_fails"
   ],
   "note": "The relative error bound holds for images without negative pixels; with negative pixels it is false (C108_negative_fails): cancellation can make the computed total zero."
  },
  {
   "property": "C109",
   "status": "proved",
   "theorems": [
    "Coralign.Props.C109_disc",
    "Coralign.Props.C109_rim",
    "Coralign.Props.C109_short_radius",
    "Coralign.Props.C109_balance"
   ],
   "note": ""
  },
  {
   "property": "C110",
   "status": "proved",
   "theorems": [
    "Coralign.Props.C110_mft",
    "Coralign.Props.C110_imft",
    "Coralign.Props.C110_offcenter"
   ],
   "note": ""
  },
  {
   "property": "C111",
   "status": "proved",
   "theorems": [
    "Coralign.Props.C111_near_peak",
    "Coralign.Props.C111_pixel",
    "Coralign.Props.C111_subpixel"
   ],
   "note": ""
  },
  {
   "property": "C112",
   "status": "proved",
   "theorems": [
    "Coralign.Props.C112_gain_map",
    "Coralign.Props.C112_center",
    "Coralign.Props.C112_center_bound",
    "Coralign.Props.C112_quadrants",
    "Coralign.Props.C112_norm",
    "Coralign.Props.C112_ptt",
    "Coralign.Props.C112_zernikes",
    "Coralign.Props.C112_vertex",
    "Coralign.Props.C112_spot_offset",
    "Coralign.Props.C112_bowtie_offset",
    "Coralign.Props.C112_vertex_2d"
   ],
   "note": ""
  },
  {
   "property": "C113",
   "status": "partial",
   "theorems": [
    "Coralign.Props.C113_center",
    "Coralign.Props.C113_center_numbers",
    "Coralign.Props.C113_quadrants",
    "Coralign.Props.C113_quadrants_numbers",
    "Coralign.Props.C113_rms",
    "Coralign.Props.C113_norm",
    "Coralign.Props.C113_psffit_fails",
    "Coralign.Props.C113_psffit_numbers",
    "Coralign.Props.C113_psffit_default",
    "Coralign.Props.C113_coarse_fails",
    "Coralign.Props.C113_coarse_numbers",
    "Coralign.Props.C113_registration",
    "Coralign.Props.C113_scale",
    "Coralign.Props.C113_registration_numbers",
    "Coralign.Props.C113_scale_numbers",
    "Coralign.Props.C113_mask_amplitude",
    "Coralign.Props.C113_mask_phase",
    "Coralign.Props.C113_mask_fails",
    "Coralign.Props.C113_mask_outside",
    "Coralign.Props.C113_platesolv",
    "Coralign.Props.C113_platesolv_numbers",
    "Coralign.Props.C113_platesolv_answers",
    "Coralign.Props.C113_offset",
    "Coralign.Props.C113_offset_numbers",
    "Coralign.Props.C113_bowtie",
    "Coralign.Props.C113_bowtie_numbers",
    "Coralign.Props.C113_separation",
    "Coralign.Props.C113_star",
    "Coralign.Props.C113_separation_outcome",
    "Coralign.Props.C113_star_outcome",
    "Coralign.Props.C113_separation_numbers",
    "Coralign.Props.C113_star_numbers",
    "Coralign.Props.C113_ampthresh",
    "Coralign.Props.C113_ampthresh_numbers"
   ],
   "note": "The shift of psffit (C113_psffit_fails, C113_psffit_default), the coarse pupil search (C113_coarse_fails) and the software mask with a least-squares routine that returns NaN (C113_mask_fails) turn a bad pixel into a plausible answer; the other estimators are proved to answer NaN."
  },
  {
   "property": "C114",
   "status": "partial",
   "theorems": [
    "Coralign.Props.C114_rms_partial",
    "Coralign.Props.C114_rms_fails",
    "Coralign.Props.C114_rms_uniform_fails",
    "Coralign.Props.C114_center",
    "Coralign.Props.C114_quadrants",
    "Coralign.Props.C114_amplitude_partial",
    "Coralign.Props.C114_amplitude_fails",
    "Coralign.Props.C114_mask_partial",
    "Coralign.Props.C114_mask_fails"
   ],
   "note": "rms, the amplitude of psffit and the mask of the clocking fit overflow (C114_rms_fails, C114_rms_uniform_fails, C114_amplitude_fails, C114_mask_fails); they are right while the squares and inner products fit the type."
  },
  {
   "property": "C115",
   "status": "partial",
   "theorems": [
    "Coralign.Props.C115_registration_partial",
    "Coralign.Props.C115_scale_partial",
    "Coralign.Props.C115_piston_fails",
    "Coralign.Props.C115_unusable_nan_fails"
   ],
   "note": "A piston that moves changes across half a turn alters the answer (C115_piston_fails) and NaN at an unusable pixel destroys it (C115_unusable_nan_fails)."
  },
  {
   "property": "C116",
   "status": "proved",
   "theorems": [
    "Coralign.Props.C116_sampled",
    "Coralign.Props.C116_zoom",
    "Coralign.Props.C116_tilt",
    "Coralign.Props.C116_moved",
    "Coralign.Props.C116_moved_crop",
    "Coralign.Props.C116_padded",
    "Coralign.Props.C116_conjugate",
    "Coralign.Props.C116_brightest",
    "Coralign.Props.C116_energy",
    "Coralign.Props.C116_adjoint",
    "Coralign.Props.C116_transposed"
   ],
   "note": ""
  },
  {
   "property": "C117",
   "status": "proved",
   "theorems": [
    "Coralign.Props.C117_fft_rolled",
    "Coralign.Props.C117_fft_tilted",
    "Coralign.Props.C117_rolled",
    "Coralign.Props.C117_upside_down",
    "Coralign.Props.C117_transposed",
    "Coralign.Props.C117_left_right",
    "Coralign.Props.C117_conjugated"
   ],
   "note": ""
  },
  {
   "property": "C118",
   "status": "proved",
   "theorems": [
    "Coralign.Props.C118_clear",
    "Coralign.Props.C118_exchanged",
    "Coralign.Props.C118_moved",
    "Coralign.Props.C118_half_turned",
    "Coralign.Props.C118_upside_down",
    "Coralign.Props.C118_transposed",
    "Coralign.Props.C118_together",
    "Coralign.Props.C118_gains",
    "Coralign.Props.C118_copies_are_clear"
   ],
   "note": ""
  },
  {
   "property": "C119",
   "status": "proved",
   "theorems": [
    "Coralign.Props.C119_rotated",
    "Coralign.Props.C119_zoom",
    "Coralign.Props.C119_upside_down",
    "Coralign.Props.C119_half_turned",
    "Coralign.Props.C119_left_right",
    "Coralign.Props.C119_fit_upside_down",
    "Coralign.Props.C119_fit_half_turned"
   ],
   "note": ""
  },
  {
   "property": "C120",
   "status": "partial",
   "theorems": [
    "Coralign.Props.C120_moved_1d",
    "Coralign.Props.C120_stretched_1d",
    "Coralign.Props.C120_constant_1d",
    "Coralign.Props.C120_order_1d",
    "Coralign.Props.C120_moved_2d",
    "Coralign.Props.C120_stretched_2d",
    "Coralign.Props.C120_constant_2d",
    "Coralign.Props.C120_exchanged_2d_partial",
    "Coralign.Props.C120_exchange_refused",
    "Coralign.Props.C120_upside_down",
    "Coralign.Props.C120_transposed",
    "Coralign.Props.C120_left_right",
    "Coralign.Props.C120_sum"
   ],
   "note": "Exchanging rows and columns can turn an answer of find_optimum_2d into a refusal (proved counterexample C120_exchange_refused): only the curvature along axis 0 is tested. Proved when neither fit is refused, or when both curvatures are above the resolution."
  },
  {
   "property": "C121",
   "status": "partial",
   "theorems": [
    "Coralign.Props.C121_others",
    "Coralign.Props.C121_volts",
    "Coralign.Props.C121_numbers_partial",
    "Coralign.Props.C121_stuck_fails"
   ],
   "note": "The code violates the claim: commands are numbers exactly where the gain is not zero (C121_numbers_partial); C121_stuck_fails shows that a stuck actuator with its measured gain is commanded NaN. That the others are unaffected is proved in full (C121_others)."
  },
  {
   "property": "C122",
   "status": "proved",
   "theorems": [
    "Coralign.Props.C122_at_rest",
    "Coralign.Props.C122_settles",
    "Coralign.Props.C122_history",
    "Coralign.Props.C122_enough_pixels"
   ],
   "note": ""
  },
  {
   "property": "C123",
   "status": "proved",
   "theorems": [
    "Coralign.Props.C123_flipx",
    "Coralign.Props.C123_mirrored",
    "Coralign.Props.C123_transposed",
    "Coralign.Props.C123_quarter_turn",
    "Coralign.Props.C123_half_turn",
    "Coralign.Props.C123_fit_mirrored",
    "Coralign.Props.C123_fit_transposed"
   ],
   "note": ""
  },
  {
   "property": "C124",
   "status": "proved",
   "theorems": [
    "Coralign.Props.C124_piston_tip_tilt",
    "Coralign.Props.C124_amplitude_mask",
    "Coralign.Props.C124_software_mask",
    "Coralign.Props.C124_quadrants_transposed",
    "Coralign.Props.C124_registration",
    "Coralign.Props.C124_rewired"
   ],
   "note": ""
  },
  {
   "property": "C125",
   "status": "proved",
   "theorems": [
    "Coralign.Props.C125_dark_hole",
    "Coralign.Props.C125_sine",
    "Coralign.Props.C125_probe",
    "Coralign.Props.C125_grid_transposed",
    "Coralign.Props.C125_grid_mirrored",
    "Coralign.Props.C125_pad_crop_transposed",
    "Coralign.Props.C125_pad_crop_mirrored",
    "Coralign.Props.C125_offcenter_crop_transposed",
    "Coralign.Props.C125_circle",
    "Coralign.Props.C125_rectangle",
    "Coralign.Props.C125_pupil",
    "Coralign.Props.C125_ellipse_transposed"
   ],
   "note": ""
  },
  {
   "property": "C126",
   "status": "partial",
   "theorems": [
    "Coralign.Props.C126_rectangle",
    "Coralign.Props.C126_rect_proper",
    "Coralign.Props.C126_ellipse",
    "Coralign.Props.C126_segments_partial",
    "Coralign.Props.C126_pair_partial",
    "Coralign.Props.C126_segments_refused",
    "Coralign.Props.C126_sector",
    "Coralign.Props.C126_bowtie",
    "Coralign.Props.C126_probe",
    "Coralign.Props.C126_sine",
    "Coralign.Props.C126_offset",
    "Coralign.Props.C126_bowtie_offsets",
    "Coralign.Props.C126_star",
    "Coralign.Props.C126_separation",
    "Coralign.Props.C126_pupil"
   ],
   "note": "annular_segments raises UnboundLocalError for every angRot >= 360, so adding a turn can turn an accepted call into a failing one (C126_segments_refused); below 360 degrees, and for all other functions, the claim is proved in full. Exact arithmetic: rounding of the angles themselves is not modelled here."
  },
  {
   "property": "C127",
   "status": "proved",
   "theorems": [
    "Coralign.Props.C127_heights_local",
    "Coralign.Props.C127_commands_local",
    "Coralign.Props.C127_delta_local",
    "Coralign.Props.C127_starting_local",
    "Coralign.Props.C127_gain_local",
    "Coralign.Props.C127_gain_units"
   ],
   "note": ""
  },
  {
   "property": "C128",
   "status": "partial",
   "theorems": [
    "Coralign.Props.C128_between_midpoints_partial",
    "Coralign.Props.C128_in_range_partial",
    "Coralign.Props.C128_wrong_sign"
   ],
   "note": "fails near the ends of the reference commands, where the gain is extrapolated: C128_wrong_sign gives a rising actuator with a negative gain at its lowest reference command"
  },
  {
   "property": "C129",
   "status": "partial",
   "theorems": [
    "Coralign.Props.C129_circle",
    "Coralign.Props.C129_rectangle",
    "Coralign.Props.C129_ellipse_partial",
    "Coralign.Props.C129_ellipse_fails",
    "Coralign.Props.C129_segments_partial",
    "Coralign.Props.C129_pupil",
    "Coralign.Props.C129_regions",
    "Coralign.Props.C129_dark_hole"
   ],
   "note": "C129_ellipse_partial assumes the window condition of C38 on both ellipses and C129_segments_partial the distance condition of C67; without the first the property is false (C129_ellipse_fails)."
  },
  {
   "property": "C130",
   "status": "proved",
   "theorems": [
    "Coralign.Props.C130_fresnelprop",
    "Coralign.Props.C130_get_fp",
    "Coralign.Props.C130_product",
    "Coralign.Props.C130_solver",
    "Coralign.Props.C130_occulter",
    "Coralign.Props.C130_mask",
    "Coralign.Props.C130_volts",
    "Coralign.Props.C130_flatten"
   ],
   "note": ""
  },
  {
   "property": "C131",
   "status": "partial",
   "theorems": [
    "Coralign.Props.C131_solver",
    "Coralign.Props.C131_transmission",
    "Coralign.Props.C131_mean_reflection_zero",
    "Coralign.Props.C131_reflection_fails",
    "Coralign.Props.C131_mask"
   ],
   "note": "Holds for powers and transmissions (C131_solver, C131_transmission, C131_mask); the reflection coefficients violate it (C131_mean_reflection_zero, C131_reflection_fails)."
  },
  {
   "property": "C132",
   "status": "proved",
   "theorems": [
    "Coralign.Props.C132_piston",
    "Coralign.Props.C132_unwrap",
    "Coralign.Props.C132_segments",
    "Coralign.Props.C132_slope",
    "Coralign.Props.C132_unwrap_alone"
   ],
   "note": ""
  },
  {
   "property": "C133",
   "status": "proved",
   "theorems": [
    "Coralign.Props.C133_groups",
    "Coralign.Props.C133_noise",
    "Coralign.Props.C133_too_noisy",
    "Coralign.Props.C133_pupil_fit",
    "Coralign.Props.C133_zernike_fit",
    "Coralign.Props.C133_circle_fit",
    "Coralign.Props.C133_software_mask"
   ],
   "note": ""
  },
  {
   "property": "C134",
   "status": "proved",
   "theorems": [
    "Coralign.Props.C134_all_double",
    "Coralign.Props.C134_photo_double",
    "Coralign.Props.C134_double",
    "Coralign.Props.C134_near_size",
    "Coralign.Props.C134_noisy",
    "Coralign.Props.C134_finds_centre",
    "Coralign.Props.C134_wrong_size",
    "Coralign.Props.C134_ground",
    "Coralign.Props.C134_negative_ground",
    "Coralign.Props.C134_ground_double",
    "Coralign.Props.C134_lateral_ground",
    "Coralign.Props.C134_photo",
    "Coralign.Props.C134_old_fit",
    "Coralign.Props.C134_lateral",
    "Coralign.Props.C134_offsets"
   ],
   "note": ""
  }
 ]
}
