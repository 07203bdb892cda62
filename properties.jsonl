{"id": "C01", "title": "pad_crop keeps the centre pixel registered", "statement": "For every 2-D array and every requested output shape, pad_crop returns an array of exactly that shape in which the pixel at signed offset k from the centre pixel (index n//2) equals the input pixel at the same signed offset when the input has one, and extrapval (cast to the input dtype) otherwise. An outsize that is not two positive integers raises TypeError and never returns.", "quantifier": "all 2-D arrays (all shapes, even and odd, any element type), all outsize pairs, all extrapval", "why_tests_cant": "There are four parity combinations per axis and padding/cropping may be mixed across axes; a test fixes finitely many shapes.", "anchors": ["coralign/util/pad_crop.py:pad_crop"]}
{"id": "C02", "title": "Chained pad_crop calls are order independent", "statement": "Chaining pad_crop through any list of intermediate shapes and then to a final shape gives the same array for every ordering of the intermediate shapes, and equals the single direct call whenever no intermediate shape crops below both the input and the final shape in an axis.", "quantifier": "all arrays, all finite lists of intermediate shapes and all their permutations, all final shapes", "why_tests_cant": "Quantifies over unbounded chains and all permutations; off-by-one registration errors only show up for particular parity sequences.", "anchors": ["coralign/util/pad_crop.py:pad_crop"]}
{"id": "C03", "title": "pad_crop round trip", "statement": "Padding a non-empty array to any shape at least as large in both axes and cropping back to the original shape returns the original array unchanged.", "quantifier": "all arrays, all larger shapes, all extrapval", "why_tests_cant": "All parity combinations and sizes.", "anchors": ["coralign/util/pad_crop.py:pad_crop"]}
{"id": "C04", "title": "offcenter_crop returns the requested window of the infinite zero-extended image", "statement": "offcenter_crop(arr, n, yc, xc) always returns an n x n array whose (i, j) pixel is the pixel of arr at row round(yc)-n//2+i, column round(xc)-n//2+j when that lies in arr, and 0 otherwise, for centres anywhere inside or outside the array (halves round to even).", "quantifier": "all arrays, all real centres (inside, on the edge and outside), all positive output sizes", "why_tests_cant": "The padding logic has separate low/high-edge branches per axis and window can lie wholly outside.", "anchors": ["coralign/util/pad_crop.py:offcenter_crop"]}
{"id": "C05", "title": "Bad-pixel combine and crop", "statement": "combine(frame, bp) has NaN exactly at bad pixels and the frame value elsewhere; crop(frame, lower, shape) returns the given-shape window starting at lower with NaN wherever the window leaves the frame, raises ValueError exactly when lower is at or beyond the frame's extent, and cropping a crop equals one crop at the summed offset whenever the second window lies within the first.", "quantifier": "all frames and bad-pixel maps, all lower corners and sizes", "why_tests_cant": "Window overlap cases in both axes; composition law over all pairs of nested windows.", "anchors": ["coralign/util/combine_crop.py:combine", "coralign/util/combine_crop.py:crop"]}
{"id": "C06", "title": "get_crop_lower centres the crop", "statement": "The lower corner returned by get_crop_lower puts the requested centre at index width//2 of the crop on each axis, and with the non-negative option it is the clipped value max(0, .) and never negative.", "quantifier": "all integer centres and widths", "why_tests_cant": "Parity and sign of every centre/width pair.", "anchors": ["coralign/util/get_crop_lower.py:get_crop_lower"]}
{"id": "C07", "title": "Input validators accept exactly their documented class and raise the caller's exception", "statement": "Each check.* function returns its argument unchanged when the argument is in the documented class, and otherwise raises exactly the exception class passed by the caller; a malformed name or exception argument raises CheckException before the value is looked at.", "quantifier": "all Python values (scalars of every kind, strings, containers, arrays of every dtype and rank), all names, all exception classes", "why_tests_cant": "The input domain is the whole dynamic value space; the behaviour on NaN, bool and bytes names is not covered.", "anchors": ["coralign/util/check.py"]}
{"id": "C08", "title": "ceil_odd and ceil_even are least upper bounds in their parity class", "statement": "ceil_odd(x) is the least odd integer >= x and ceil_even(x) the least even integer >= x.", "quantifier": "all real x", "why_tests_cant": "Real argument; behaviour at and around every integer.", "anchors": ["coralign/util/math.py:ceil_odd", "coralign/util/math.py:ceil_even"]}
{"id": "C09", "title": "rms and polar conversion are exact", "statement": "rms(x)^2 times the number of elements equals the sum of squares; rms is non-negative, absolutely homogeneous, subadditive and zero only for the zero array. cart2pol returns (rho, theta) with rho>=0, -pi<theta<=pi and rho cos theta = x, rho sin theta = y.", "quantifier": "all arrays, all real coordinates", "why_tests_cant": "Real-valued continuum of inputs and all array sizes.", "anchors": ["coralign/util/math.py:rms", "coralign/util/math.py:cart2pol"]}
{"id": "C10", "title": "center_of_energy is the energy-weighted mean position", "statement": "For an image with non-zero total, the two outputs are the weighted mean column (x) and row (y); for non-negative images they lie inside the array; they are unchanged by scaling the image and move by exactly (dx, dy) when the image content is translated by whole pixels. An image whose positive and negative pixels cancel gives NaN or infinities. A blank image is not refused: it gives (0, 0), the corner pixel.", "quantifier": "all images with non-zero sum, all scale factors, all integer translations", "why_tests_cant": "Unbounded shapes and all pixel values.", "anchors": ["coralign/util/center.py:center_of_energy"]}
{"id": "C11", "title": "Quadrant energy balance", "statement": "The balance outputs are zero for images mirror-symmetric about the origin pixel, change sign when the image is mirrored, and the energies are those of the closed half planes; origins inside the image are accepted and those outside rejected.", "quantifier": "all images and all origins", "why_tests_cant": "All shapes including non-square; all origins.", "anchors": ["coralign/util/quad.py"]}
{"id": "C12", "title": "Amplitude threshold mask", "statement": "ampthresh returns a mask that is True exactly where the map exceeds one threshold strictly between the extreme pixel values, so the dimmest pixel is never and the brightest always selected; the mask is invariant under positive scaling and offset of the map and under any rearrangement of pixels; ValueError is raised if no interior histogram minimum exists. For a complex map the mask is that of its modulus, whatever the phases, unless all pixels are real and some of them negative.", "quantifier": "all real and complex maps, all bin counts, all affine rescalings, all pixel permutations, all phases", "why_tests_cant": "Histogram edge cases for all data sets.", "anchors": ["coralign/util/ampthresh.py:ampthresh"]}
{"id": "C13", "title": "1-D optimum is exact on parabolas", "statement": "For any samples with at least three distinct abscissae, find_optimum_1d returns the vertex of the parabola that fits the samples best in the least-squares sense - in particular the vertex of the parabola the samples lie on, if they do - when its curvature is not negligible; with curvature below machine epsilon it raises QuadraticException. Multiplying the samples by a factor of magnitude at least one does not change an answer. Abscissae and samples of different lengths raise ValueError.", "quantifier": "all sample sets of any size, all parabolas, all factors", "why_tests_cant": "Every number and position of samples.", "anchors": ["coralign/util/findopt.py:find_optimum_1d"]}
{"id": "C14", "title": "2-D optimum is exact on quadratic surfaces", "statement": "For any array on any mask whose points determine a quadratic, find_optimum_2d returns the stationary point of the quadratic surface that fits the masked points best in the least-squares sense - in particular the stationary point of the surface the samples lie on, if they do - or raises QuadraticException when that surface is too flat. Multiplying the array by a factor of magnitude at least one does not change an answer. Inconsistent shapes raise ValueError.", "quantifier": "all grids, arrays, masks, quadratic surfaces and factors", "why_tests_cant": "Every mask and every surface.", "anchors": ["coralign/util/findopt.py:find_optimum_2d"]}
{"id": "C15", "title": "Phase unwrapping masks", "statement": "unwrap and unwrap_segments return arrays of the input shape, equal to fill_value at every pixel outside the returned mask, and a supplied mask (bMask) overrides the amplitude-derived one.", "quantifier": "all phase/amplitude arrays, masks and third-party unwrapping results", "why_tests_cant": "Must hold whatever the external unwrapper returns.", "anchors": ["coralign/util/unwrap.py:unwrap", "coralign/util/unwrap.py:unwrap_segments"]}
{"id": "C16", "title": "Off-centre MFT equals MFT of the embedded array", "statement": "do_offcenter_mft of a sub-array with given centre offsets equals do_mft of the full array that contains it surrounded by zeros, for every output shape and sampling. It raises TypeError exactly for samplings, output sizes or pupil sizes that are not positive and for negative corner coordinates, and ValueError when the sub-array does not fit at its corner.", "quantifier": "all sub-arrays, embeddings, output shapes, samplings", "why_tests_cant": "Complex sums over all sizes and offsets.", "anchors": ["coralign/util/mft.py:do_offcenter_mft", "coralign/util/mft.py:do_mft"]}
{"id": "C17", "title": "do_fft and do_ifft are mutually inverse for every shape", "statement": "do_ifft(do_fft(E)) = E and do_fft(do_ifft(E)) = E for every complex array, even, odd or mixed sizes.", "quantifier": "all complex 2-D arrays of all shapes", "why_tests_cant": "Odd sizes make fftshift and ifftshift differ; must hold for all sizes.", "anchors": ["coralign/util/fresnelprop.py:do_fft", "coralign/util/fresnelprop.py:do_ifft"]}
{"id": "C18", "title": "MFT is linear and matches the FFT at matched sampling", "statement": "do_mft and do_imft are linear; at matched sampling (output N with N = pixperlod*pixperpupil) do_mft equals the centred FFT up to the 1/pixperpupil^2 scale, and do_imft inverts do_mft. Both raise TypeError exactly for samplings or output sizes that are not positive and for inputs without pixels.", "quantifier": "all arrays, sizes and samplings", "why_tests_cant": "All sizes and complex data.", "anchors": ["coralign/util/mft.py:do_mft", "coralign/util/mft.py:do_imft", "coralign/util/mft.py:_interval"]}
{"id": "C19", "title": "FFT energy conservation (Parseval)", "statement": "The summed squared modulus of do_fft(E) is the number of pixels times that of E.", "quantifier": "all complex arrays of all shapes", "why_tests_cant": "All sizes and data.", "anchors": ["coralign/util/fresnelprop.py:do_fft"]}
{"id": "C20", "title": "Fresnel propagation is a unitary one-parameter group", "statement": "On a full-size grid: propagating by z=0 is the identity, by z1 then z2 equals by z1+z2, by z then -z restores the field, and total energy is conserved; fresnelprop equals the two-step get_fp / fresnelprop_fp path; sampling violations raise instead of returning.", "quantifier": "all fields, distances, wavelengths, sizes", "why_tests_cant": "Continuum of distances; all field values.", "anchors": ["coralign/util/fresnelprop.py:fresnelprop", "coralign/util/fresnelprop.py:get_fp", "coralign/util/fresnelprop.py:fresnelprop_fp"]}
{"id": "C21", "title": "Noll indexing is a bijection onto valid Zernike modes", "statement": "For every index j>=1 the order n and azimuthal frequency m used are those of Noll's table: m<=n, n-m even, n(n+1)/2 < j <= (n+1)(n+2)/2, frequencies increasing along each row of equal n; distinct indices give distinct (n, m, cos/sin) modes and every valid mode has an index; even j is cosine and odd j sine when m>0. The order computed in double precision is the exact one for every index up to 2^47.", "quantifier": "all positive integers j; all roundings meeting the IEEE contract", "why_tests_cant": "Unbounded index.", "anchors": ["coralign/util/nollzernikes.py:xyzern"]}
{"id": "C22", "title": "Zernike radial polynomials are right for every order", "statement": "xyzern returns, for every list of indices and every grid, the normalised Zernike polynomials of Noll's table at every point: the coefficients produced by the in-place recurrence equal the closed factorial formula for every (n, m), so the radial polynomial equals 1 at the unit radius; Zernike 1 is identically 1 and Zernikes 2 and 3 are the tilts 2x/prad and 2y/prad.", "quantifier": "all valid (n, m)", "why_tests_cant": "Unbounded polynomial order.", "anchors": ["coralign/util/nollzernikes.py:xyzern"]}
{"id": "C23", "title": "gen_zernikes is linear and centred", "statement": "gen_zernikes is linear in the coefficients, independent of the order in which modes are listed, and adds like terms; its array is centred on pixel n//2 so that crops agree with fit_zernikes coordinates.", "quantifier": "all mode lists, coefficients, beam sizes, array sizes", "why_tests_cant": "All lists of modes.", "anchors": ["coralign/util/nollzernikes.py:gen_zernikes"]}
{"id": "C24", "title": "fit_zernikes inverts gen_zernikes", "statement": "If a wavefront equals a Zernike expansion on the usable pixels and the fitted modes are linearly independent there, fit_zernikes returns exactly the expansion's coefficients; they are independent whenever the usable pixels contain all crossings of d+1 rows and d+1 columns, where d is the radial order of the last fitted mode. In general the residual is no larger than that of any other coefficients.", "quantifier": "all masks, mode lists and coefficients", "why_tests_cant": "All masks and mode counts.", "anchors": ["coralign/util/nollzernikes.py:fit_zernikes"]}
{"id": "C25", "title": "remove_piston_tip_tilt is the plane-removing projection", "statement": "The result is zero outside the mask, is unchanged by adding any plane to the input, is idempotent, has zero mean and zero x/y moments on the mask, and is the identity on masked maps orthogonal to planes.", "quantifier": "all arrays, masks, planes", "why_tests_cant": "All masks, including degenerate ones where plane coefficients are not unique.", "anchors": ["coralign/dmreg/dr_util.py:remove_piston_tip_tilt"]}
{"id": "C26", "title": "bound_value is the clamp", "statement": "bound_value(x, m) lies in [-m, m], equals x when x does, and is the nearest point of the interval otherwise; it is odd, monotone, idempotent and non-expansive.", "quantifier": "all real x, all m>=0", "why_tests_cant": "Continuum.", "anchors": ["coralign/focalfit/ff_util.py:bound_value"]}
{"id": "C27", "title": "Spot-ratio offset solvers", "statement": "For ratio r>=1 calc_offset_quadratic returns the non-negative root of c2 x^2 + c1 x + 1 = r and calc_offset_linear that of c1 x + 1 = r; replacing r by 1/r negates the answer; r=1 gives 0; the answer is strictly increasing in r; non-positive r raises ValueError.", "quantifier": "all positive coefficients and ratios", "why_tests_cant": "Continuum of ratios and coefficients.", "anchors": ["coralign/focalfit/ff_util.py:calc_offset_quadratic", "coralign/focalfit/ff_util.py:calc_offset_linear"]}
{"id": "C28", "title": "Stellar-offset estimate is bounded and signed correctly", "statement": "calc_offset_from_spots and calc_bowtie_offsets_from_spots never return a magnitude larger than maxStep, return 0 when the measured ratio equals the target ratio, never divide by zero even for dark or negative spot sums, and the former flips sign exactly with the mask-inside/outside flag; the answer increases with the intensity of a lit plus spot until it is clipped.", "quantifier": "all images, masks, tuning parameters", "why_tests_cant": "All images incl. zero and negative sums.", "anchors": ["coralign/focalfit/focalfit.py:calc_offset_from_spots", "coralign/focalfit/focalfit.py:calc_bowtie_offsets_from_spots"]}
{"id": "C29", "title": "Reference command vectors are validated", "statement": "A command vector passes validation only if its values are unique and increasing; any other vector raises ValueError.", "quantifier": "all real vectors", "why_tests_cant": "All vectors of all lengths; tolerance effects.", "anchors": ["coralign/gainmap/gm_util.py:verify_vector_has_unique_values", "coralign/gainmap/gm_util.py:verify_vector_is_presorted", "coralign/gainmap/gm_util.py:compute_diff_and_mean_of_vector"]}
{"id": "C30", "title": "Gain cube integrates back to the height cube", "statement": "Summing gain times command step from the first slice reproduces every later height slice exactly; a height cube linear in the command gives that constant gain; a slice-count mismatch raises ValueError.", "quantifier": "all height cubes and valid command vectors", "why_tests_cant": "All slice counts.", "anchors": ["coralign/gainmap/gm_util.py:compute_gain_cube_from_height_cube"]}
{"id": "C31", "title": "Height/command conversion is consistent", "statement": "At the reference commands compute_heights_for_command_map returns the stored heights and compute_commands_for_height_map returns the stored commands; an actuator whose height is a cubic polynomial of the command has that height at every command in range, and for linear actuators the two conversions undo each other at every command in range; delta heights are antisymmetric and additive along any path of command maps; commands outside the reference range raise instead of extrapolating; the maps work for every actuator-grid shape whose cube has the same rows and columns.", "quantifier": "all cubes, command maps and shapes", "why_tests_cant": "All shapes including non-square, all interpolants with the interpolation property.", "anchors": ["coralign/gainmap/gm_util.py:compute_heights_for_command_map", "coralign/gainmap/gm_util.py:compute_commands_for_height_map", "coralign/gainmap/gm_util.py:compute_delta_height_map_from_command_maps"]}
{"id": "C32", "title": "Starting commands never leave the calibrated range", "statement": "compute_starting_commands_for_flight clips each actuator's height to that actuator's calibrated range, so the final conversion never raises an out-of-range error, and heights already in range are not altered; the commands it returns lie between the first and the last reference command (for a linear actuator: the flat command plus the requested height over the gain, clipped to the reference commands).", "quantifier": "all flat maps, delta maps, cubes", "why_tests_cant": "All actuators and values.", "anchors": ["coralign/gainmap/gainmap.py:compute_starting_commands_for_flight"]}
{"id": "C33", "title": "Gain map recovers a linear actuator's gain", "statement": "For an actuator whose height is linear in command compute_gainmap returns its slope for every requested command, inside or outside the sampled mid-points; in general the gain at a mid-point is the stored finite-difference gain.", "quantifier": "all slopes, command vectors, requested commands", "why_tests_cant": "Continuum.", "anchors": ["coralign/gainmap/gainmap.py:compute_gainmap"]}
{"id": "C34", "title": "Thin-film solver conserves energy", "statement": "For lossless layers (real indices), reflectance plus transmittance is exactly 1 for any number of layers, any thicknesses, any wavelength, any angle of incidence below 90 degrees (including frustrated and total internal reflection, but not an angle that is exactly the critical angle of one of the media, where the code divides by zero) and both polarisations.", "quantifier": "all stacks of any depth, all positive real indices and thicknesses, all angles except exact critical ones", "why_tests_cant": "Unbounded stack depth.", "anchors": ["coralign/maskgen/util/thinfilm.py:solver"]}
{"id": "C35", "title": "Thin-film solver depends only on the optical structure", "statement": "Inserting a zero-thickness layer of any index, or splitting a layer into adjacent sublayers of the same index, leaves r, t, R and T unchanged; a uniform medium gives r=0, R=0, T=1 and t equal to the pure propagation phase of the total thickness.", "quantifier": "all stacks, all splits, all angles except exact critical ones", "why_tests_cant": "Unbounded stack depth.", "anchors": ["coralign/maskgen/util/thinfilm.py:solver"]}
{"id": "C36", "title": "circle is exactly the sub-pixel area fraction", "statement": "For every array size, radius, offset and sub-pixel count, each pixel of circle equals the fraction of its sub-pixel centres within the radius: the shortcut that skips pixels away from the edge never changes a value. It is therefore within 2/nSubpixels of the area of the disc in the pixel.", "quantifier": "all pixels, sizes, radii, offsets, sub-pixel counts", "why_tests_cant": "Every real offset and radius.", "anchors": ["coralign/util/shapes.py:circle"]}
{"id": "C37", "title": "rectangle is exactly the sub-pixel area fraction", "statement": "Each pixel of rectangle equals the fraction of sub-pixel centres inside the rotated rectangle; isDark gives the complement. It is therefore within 2/nSubpixels of the area of the rectangle in the pixel.", "quantifier": "all sizes, rotations, offsets", "why_tests_cant": "Continuum of rotations and offsets.", "anchors": ["coralign/util/shapes.py:rectangle"]}
{"id": "C38", "title": "ellipse values are sub-pixel area fractions", "statement": "Every pixel of ellipse lies in [0,1] and equals the fraction of sub-pixel centres inside the ellipse, within 2/nSubpixels of the area of the ellipse in it; it is 1 for a pixel wholly inside the ellipse and 0 for one wholly outside. isDark gives the complement.", "quantifier": "all sizes, axes, rotations, offsets", "why_tests_cant": "The edge-window heuristic depends on the corner pixel geometry.", "anchors": ["coralign/util/shapes.py:ellipse"]}
{"id": "C39", "title": "annular_segments values and openings", "statement": "annular_segments lies in [0,1], is 0 outside the outer and inside the inner radius windows, and returns an array for every accepted opening and rotation angle. (Which value each pixel has is the subject of C67.)", "quantifier": "all radii, angles, segment counts", "why_tests_cant": "Continuum of angles.", "anchors": ["coralign/util/shapes.py:annular_segments"]}
{"id": "C40", "title": "simple_pupil stays a transmission and obscurations only remove light", "statement": "Each pixel of simple_pupil is the product of the clear fractions of the outer disc, the central obscuration and every strut; hence it is in [0,1], never larger than the clear outer disc, 0 inside the central obscuration and beyond the outer radius, and every further strut can only lower it.", "quantifier": "all sizes and strut counts", "why_tests_cant": "All strut numbers and positions.", "anchors": ["coralign/util/shapes.py:simple_pupil"]}
{"id": "C41", "title": "DM grid pokes exactly the requested lattice", "statement": "grid pokes actuator (i,j) iff i = yoffset mod yspace and j = xoffset mod xspace; the patterns over all offsets partition the actuators so their sum is the uniform poke.", "quantifier": "all DM sizes, spacings, offsets", "why_tests_cant": "All sizes and spacings, incl. non-dividing ones.", "anchors": ["coralign/util/dmshapes.py:grid"]}
{"id": "C42", "title": "DM sine amplitude", "statement": "sine moves the actuator at column x and row y from the middle of the grid by amplitude * sin(2 pi (freqx x + freqy y)/dact + phase); so it is bounded by its amplitude in absolute value, negated by a 180 degree phase change, and linear in amplitude.", "quantifier": "all frequencies, phases, sizes", "why_tests_cant": "Continuum.", "anchors": ["coralign/util/dmshapes.py:sine"]}
{"id": "C43", "title": "DM probe amplitude and quadrature", "statement": "probe is the superposition with equal weights of the sines whose frequencies fill the rectangle from ximin to ximax and etamin to etamax, about (xcenter, ycenter) and turned by clock: at every actuator it is 2 height/dact^2 times the integral of those sines over the rectangle. It is linear in its height scale, is bounded by it, and opposite phases give opposite probes.", "quantifier": "all probe parameters", "why_tests_cant": "Continuum.", "anchors": ["coralign/util/dmshapes.py:probe"]}
{"id": "C44", "title": "Height and voltage conversions are inverse", "statement": "volts_to_dmh(dmh_to_volts(h)) = h and conversely for every non-zero gain map, elementwise, and both preserve shape and superposition.", "quantifier": "all maps", "why_tests_cant": "All shapes/values.", "anchors": ["coralign/util/dmhtoph.py:dmh_to_volts", "coralign/util/dmhtoph.py:volts_to_dmh"]}
{"id": "C45", "title": "fit_surf_to_dm inverts the influence operator", "statement": "The commands returned by fit_surf_to_dm reproduce the requested surface when each is multiplied by the influence function and summed.", "quantifier": "all DM sizes, surfaces and influence functions", "why_tests_cant": "All sizes and influence functions.", "anchors": ["coralign/util/fit_surf_to_dm.py:fit_surf_to_dm", "coralign/util/fit_surf_to_dm.py:build_prefilter"]}
{"id": "C46", "title": "Dark-hole mask is the union of its shapes", "statement": "gen_dark_hole_from_yaml returns a boolean nRows x nCols mask that is True exactly where at least one listed shape covers the pixel, independent of the order of shapes; a bowtie is invariant under half-turn about its centre and equals an annulus when the opening reaches 180 degrees; a sector turns with its clocking modulo 360.", "quantifier": "all shape lists, sizes, parameters", "why_tests_cant": "Unbounded lists; continuum of parameters.", "anchors": ["coralign/buildmodel/darkhole.py"]}
{"id": "C47", "title": "Dead-actuator reassignment conserves stroke", "statement": "In flatten, commands of dead actuators on either DM are left unchanged and the total requested stroke (DM1+DM2) at every actuator position is conserved wherever at least one of the two actuators is alive.", "quantifier": "all dead-actuator maps and stroke maps", "why_tests_cant": "All maps including overlapping dead actuators.", "anchors": ["coralign/conjugate/conjugate.py:flatten"]}
{"id": "C48", "title": "Flattening applies exactly the requested correction", "statement": "At every usable pixel the two DM phases sum to the low-order plus high-order wavefront regardless of the split factor; outside the pupil neither mirror is asked for more than inside it, and without the high orders the correction there is the fitted modes limited to their range over the pupil, half on each mirror; without useDMs both DM commands are returned unchanged (when the poke matrices are invertible, so that a zero surface needs no stroke, and no gain is zero, see C121); without useFCM the focus-mechanism command is returned unchanged, with it the returned command is the nearest integer step.", "quantifier": "all wavefronts, split factors, flags", "why_tests_cant": "Continuum of split factors; all flag combinations.", "anchors": ["coralign/conjugate/conjugate.py:flatten"]}
{"id": "C49", "title": "The DM stroke split is optimal", "statement": "When the low-order RMS does not exceed the high-order RMS, split factor 0 minimises the phase cost; otherwise some factor in [0,1] gives both DMs equal RMS (cost 0).", "quantifier": "all pairs of wavefront maps", "why_tests_cant": "Continuum; every map size.", "anchors": ["coralign/conjugate/conjugate.py:phase_cost_function", "coralign/conjugate/conjugate.py:flatten"]}
{"id": "C50", "title": "gen_split_wfe partitions the fitted wavefront", "statement": "The component maps returned by gen_split_wfe sum to the same full Zernike expansion whether or not the focus mechanism is used, for every maximum Zernike order that returns.", "quantifier": "all coefficient vectors and orders, both flags", "why_tests_cant": "Unbounded order.", "anchors": ["coralign/conjugate/conjugate.py:gen_split_wfe"]}
{"id": "C51", "title": "Coarse pupil search terminates", "statement": "coarsely_locate_pupil_offset terminates for every image of more than one pixel, every positive beam size and every shrink factor greater than 1, evaluating strictly smaller integer steps each round and finishing at step 1; other arguments are refused. The same holds in double precision, with both divisions by the shrink factor rounded: every double above 1, however close, makes the steps strictly decrease, and for whole beam sizes and whole shrink factors the rounds, steps and estimate are those of exact arithmetic.", "quantifier": "all images, beam sizes, shrink factors > 1", "why_tests_cant": "Termination for all inputs.", "anchors": ["coralign/pupil/util.py:coarsely_locate_pupil_offset"]}
{"id": "C52", "title": "Coarse pupil search returns the best grid offset", "statement": "coarsely_locate_pupil_offset_once returns an offset on its search grid (within the search radius of the starting point) whose overlap is at least that of every other grid offset, the first one in row-major order on ties. For images of photon counts, such as masks, and a beam size whose circle passes clear of pixels (every whole or half number), the round computed in double precision returns the same estimates and matrix as exact arithmetic, in whatever order the pixels are added. Multiplying all pixels by a positive factor changes neither the estimates of a round nor the outcome of the whole search; the matrix is multiplied by the factor.", "quantifier": "all images, radii, steps", "why_tests_cant": "All images.", "anchors": ["coralign/pupil/util.py:coarsely_locate_pupil_offset_once"]}
{"id": "C53", "title": "Normalisation factor is an in-range percentile", "statement": "compute_norm_factor reads the selected pixels, in increasing order, at position (N - 1) p / 100, interpolating linearly between neighbours; it lies between the smallest and largest selected pixel, is non-decreasing in the percentile and scales with the image.", "quantifier": "all images, masks, percentiles", "why_tests_cant": "All multisets of pixels.", "anchors": ["coralign/pupil/util.py:compute_norm_factor"]}
{"id": "C54", "title": "PSF registration", "statement": "For any two images psffit returns the peak of their cross-correlation: the whole-pixel shift of largest correlation among all whole-pixel shifts, refined with a whole upsampling factor to the largest on the fine grid about it. Hence, when the target is a positive multiple of a cyclic whole-pixel translation of the source, it returns exactly that translation, as a signed shift in [-N/2, N/2): without upsampling for every source that no translation maps to itself or its negative, and with any whole upsampling factor for every source whose spectrum does not vanish at neighbouring low frequencies; and when both images sample the same band-limited scene, moved by a fraction of a pixel that lies on the fine grid searched, it returns exactly that fraction, up to whole turns of the image. The returned amplitude always minimises the squared residual over the thresholded pixels, and is the exact multiple when no bright pixel wraps around.", "quantifier": "all images, translations, upsampling factors", "why_tests_cant": "All images and translations, fractional ones too.", "anchors": ["coralign/psffit/psffit.py:psffit"]}
{"id": "C55", "title": "Upsampled DFT agrees with the DFT", "statement": "compute_upsampled_dft with factor 1, full region and zero offset is the plain 2-D DFT of its argument, and it is linear; the region offset moves the sampled frequencies by exactly that many samples. Between whole frequencies, every sample is the Fourier sum over index offsets from -(n // 2) to (n - 1) // 2, the middle entry of an even axis counting as the most negative.", "quantifier": "all arrays, sizes, offsets, upsampling factors", "why_tests_cant": "All sizes.", "anchors": ["coralign/psffit/psffit.py:compute_upsampled_dft"]}
{"id": "C56", "title": "DM software mask only contains safe pixels", "statement": "Each pixel of calc_software_mask is True only if its whole erosion neighbourhood passed the amplitude threshold and the phase change there, once its best-fitting plane is removed, lies within the phase threshold; more erosion never adds pixels. Adding a plane (piston, tip, tilt) to either phase map never changes the mask.", "quantifier": "all maps, erosion counts", "why_tests_cant": "Unbounded erosion counts, all maps.", "anchors": ["coralign/dmreg/dmreg.py:calc_software_mask"]}
{"id": "C57", "title": "DM registration converges on quadratic costs", "statement": "If the misregistration cost is exactly quadratic in each parameter, every iteration of the clocking (and translation) search returns the cost's minimiser, for any shrink factor and iteration count.", "quantifier": "all quadratic costs, search vectors, iteration counts, shrink factors", "why_tests_cant": "Unbounded iteration counts, continuum of costs.", "anchors": ["coralign/dmreg/dmreg.py:calc_translation_clocking"]}
{"id": "C58", "title": "Star location estimate includes the guess", "statement": "calc_star_location_from_spots returns the stellar offset from the array's centre pixel, i.e. for a cost minimised at offset o from the array centre the answer does not depend on the starting guess.", "quantifier": "all images and guesses", "why_tests_cant": "Continuum.", "anchors": ["coralign/occastro/occastro.py:calc_star_location_from_spots"]}
{"id": "C59", "title": "loadyaml failure contract", "statement": "loadyaml either returns the parsed document or raises exactly the custom exception for unreadable, undecodable or malformed files.", "quantifier": "all file contents and filesystem outcomes", "why_tests_cant": "All failure modes of the environment.", "anchors": ["coralign/util/loadyaml.py:loadyaml"]}
{"id": "C60", "title": "Mask downsampling keeps the mask: even square output, whole-pixel shifts and disc means", "statement": "rotate_shift_downsample_amplitude_mask accepts exactly the documented arguments and returns a square array of even size, large enough for the shifted mask. It is linear in the mask. With no rotation, magnification 1 and whole-pixel offsets the output is the (optionally mirrored) mask moved by exactly those offsets about the centre pixel. With magnification 1/k the value of each output pixel, at every place of the plane, is the mean of the mask over the disc of diameter k about the corresponding point, whenever the padding is wide enough for the mask. With a rotation, the mean over the disc about a point of the mask lands on the output pixel at which that point appears after a mirror (if asked), a counterclockwise turn about the centre pixel by the given angle, the reduction and the shift, in that order.", "quantifier": "all masks, mask sizes, rotations, magnifications, offsets and padding factors; for the pixel law all k, angles, whole-pixel offsets and points whose disc stays inside the padded array", "why_tests_cant": "Continuum of masks and parameters and unbounded sizes.", "anchors": ["coralign/maskgen/maskgen.py:rotate_shift_downsample_amplitude_mask"]}
{"id": "C61", "title": "MATLAB port computes the same values as the Python code", "statement": "bound_value, calc_offset_linear, calc_offset_quadratic and circle in matlab/ return the same numbers as their Python counterparts on all valid inputs; calc_offset_from_spots does so when the target ratio is 1.", "quantifier": "all valid inputs", "why_tests_cant": "Two languages; continuum of inputs.", "anchors": ["matlab/bound_value.m", "matlab/calc_offset_linear.m", "matlab/calc_offset_quadratic.m", "matlab/circle.m", "matlab/calc_offset_from_spots.m"]}
{"id": "C62", "title": "dmhtoph surface is linear, correctly shaped and correctly placed", "statement": "The DM surface from dmhtoph is linear in the actuator heights and has exactly the requested shape, given linear interpolation and rotation primitives; a single poke contributes the influence function at that actuator; the facesheet appears reversed left to right when flipx is set, then turned counterclockwise by thact about the centre of the array, then moved by (dx, dy), for every angle.", "quantifier": "all command maps, influence functions, samplings, registrations (offset, clocking angle, flip) and output shapes, and all interpolation, rotation and shift routines that meet their stated contracts", "why_tests_cant": "registrations range over real angles and offsets and command maps over all real arrays; tests compare a few registrations with stored images", "anchors": ["coralign/util/dmhtoph.py:dmhtoph"]}
{"id": "C63", "title": "Pupil-mask shear fit accepts every consistent data set and returns the shear", "statement": "fit_z_induced_spm_shear accepts all inputs where each data set is self-consistent in shape and rejects the rest. When the second set's unwrapped phase change (without piston, tip and tilt) is the first's translated by x columns and y rows, it returns (x, y).", "quantifier": "all shapes, all phase changes and translations", "why_tests_cant": "All shape combinations.", "anchors": ["coralign/pupil/maskfit.py:fit_z_induced_spm_shear"]}
{"id": "C64", "title": "Lateral offset search finds the minimiser of a quadratic mismatch", "statement": "Whenever the mismatch between the focal-plane fields of the two pupils is a quadratic of the displacement at the displacements tried, compute_lateral_offsets returns the minimiser of that mismatch added to the coarse offset, for every number of iterations; for an even padded size a pupil that is an exactly displaced copy has mismatch 0 at its displacement; and a pupil that is the reference times a positive factor, seen from the coarse offset, is never moved: the answer is the coarse offset or an exception.", "quantifier": "all pupil arrays, paddings, grids, steps and iteration counts", "why_tests_cant": "Unbounded iterations.", "anchors": ["coralign/pupil/util.py:compute_lateral_offsets"]}
{"id": "C65", "title": "Default Zernike array contains the beam", "statement": "When gen_zernikes chooses the array size, it is the smallest even size that holds the whole beam, for every beam diameter and offset.", "quantifier": "all beam sizes and offsets", "why_tests_cant": "Continuum.", "anchors": ["coralign/util/nollzernikes.py:gen_zernikes"]}
{"id": "C66", "title": "Gray-scale masks are symmetric", "statement": "On arrays of odd size with zero offset, circle is invariant under left-right and up-down reflection (and under transposition when square); rectangle is invariant under the half-turn for every rotation and under both reflections when it is not rotated.", "quantifier": "all odd sizes, radii", "why_tests_cant": "All sizes.", "anchors": ["coralign/util/shapes.py:circle", "coralign/util/shapes.py:rectangle"]}
{"id": "C67", "title": "annular_segments is the sub-pixel area fraction of the segments", "statement": "Each pixel of annular_segments equals the fraction of its sub-pixel centres that lie between the inner and outer radius and within half the opening angle of a segment axis. In particular it is 1 for a pixel wholly inside the segments and 0 for one wholly outside.", "quantifier": "all array sizes, radii, opening angles, rotations, offsets, sub-pixel counts", "why_tests_cant": "The angular edge window must be wide enough for every pixel distance from the centre, a continuum.", "anchors": ["coralign/util/shapes.py:annular_segments"]}
{"id": "C68", "title": "DM Zernike pattern is the Noll polynomial centred on the mirror", "statement": "dmshapes.zernike returns zernsize times the Noll Zernike polynomial of the requested order on the actuator grid, with the beam of diameter dact centred on the middle of the grid; it is proportional to zernsize and raises TypeError for non-positive sizes, beams and orders.", "quantifier": "all actuator counts, beam diameters, sizes and orders", "why_tests_cant": "Every order and every grid size.", "anchors": ["coralign/util/dmshapes.py:zernike"]}
{"id": "C69", "title": "Thin-film solver never creates energy", "statement": "For layers and substrates that do not amplify (complex index n - ik with k >= 0) and non-negative thicknesses, R >= 0, T >= 0 and R + T <= 1, so |r| <= 1 and |t| <= 1, for any number of layers, any wavelength, angle and both polarisations.", "quantifier": "all stacks of any depth, all passive complex indices, all thicknesses, wavelengths, all angles except exact critical ones", "why_tests_cant": "Unbounded stack depth and continuous parameters.", "anchors": ["coralign/maskgen/util/thinfilm.py:solver"]}
{"id": "C70", "title": "Thin-film transmission is reciprocal", "statement": "Sending light backwards through the same stack along the refracted ray gives the same complex transmission coefficient and the same transmittance, also through absorbing layers.", "quantifier": "all stacks of any depth with transparent outer media, all angles related by Snell's law except exact critical ones", "why_tests_cant": "Unbounded stack depth.", "anchors": ["coralign/maskgen/util/thinfilm.py:solver"]}
{"id": "C71", "title": "Occulter coefficients are physical and cellwise", "statement": "calc_complex_occulter returns, for every list of layer thicknesses fitting below the reference height, one transmission and one reflection coefficient per cell, each of modulus at most 1. They are the amplitudes of the stack of a vacuum gap up to the reference height, PMGI, nickel, titanium and the substrate, for TE or TM light or the mean of the two as pol asks. The coefficients of a cell depend only on that cell's thicknesses; the two phase conventions give complex conjugates; every substrate name accepted by the argument check works.", "quantifier": "all wavelengths, angles, thickness lists, polarisation choices", "why_tests_cant": "Lists of any length and continuous parameters.", "anchors": ["coralign/maskgen/util/thinfilm.py:calc_complex_occulter"]}
{"id": "C72", "title": "Thin-film coefficients solve the field-matching problem", "statement": "The reflection and transmission coefficients are the unique amplitudes for which the plane waves of every medium match at every interface, with a transmitted wave that travels, or when evanescent decays, away from the stack.", "quantifier": "all stacks of any depth, all passive indices, wavelengths, all angles except exact critical ones", "why_tests_cant": "Unbounded stack depth.", "anchors": ["coralign/maskgen/util/thinfilm.py:solver"]}
{"id": "C73", "title": "Spot separation search finds the separation of maximal light", "statement": "calc_spot_separation returns the separation at which the light inside the spot regions is stationary whenever that light is a parabola of the separation at the separations tried, for any number of iterations, and raises TypeError for out-of-range tuning parameters.", "quantifier": "all images, spot directions, radii, steps, iteration counts", "why_tests_cant": "Continuum of images and unbounded iteration counts.", "anchors": ["coralign/occastro/occastro.py:calc_spot_separation"]}
{"id": "C74", "title": "DM scale search returns the best scale", "statement": "calc_scale returns the pixels-per-actuator pair that minimises the misfit between measured and simulated phase whenever that misfit is a quadratic function of the relative scale changes at the scales tried, for any shrink factor and number of iterations, and raises ValueError when shapes disagree or tuning parameters are out of range.", "quantifier": "all square phase images, masks, commands, calibrations, tuning parameters", "why_tests_cant": "Continuum of images and unbounded iteration counts.", "anchors": ["coralign/dmreg/dmreg.py:calc_scale"]}
{"id": "C75", "title": "Scale search simulates the phase on the image's own grid", "statement": "The phase that calc_scale compares with the measured phase is twice the surface that dmhtoph gives on the pixel grid of the image, for every image shape, square or not.", "quantifier": "all image shapes, DM commands, offsets, clockings and scales", "why_tests_cant": "Must hold for every shape; the shipped tests only use square images.", "anchors": ["coralign/dmreg/dmreg.py:calc_scale"]}
{"id": "C76", "title": "Mask clocking is independent of exposure and exact on tents", "statement": "compute_clocking returns the vertex of the parabola fitted by least squares to the squared deficits of the matching counts below their largest, or 0 if that parabola is flat; so only differences between the counts matter. It returns the same angle for any two complex fields whose moduli are proportional. If the number of matching pixels falls off linearly on both sides of one of the trial angles, that angle is returned exactly, in both modes. If rotating either way by the same amount matches equally well the answer is 0. Out-of-range arguments raise TypeError.", "quantifier": "all fields, reference masks, diameters, offsets, angle ranges, numbers of trial angles, percentiles and tolerances, both modes", "why_tests_cant": "Continuum of fields and masks and an unbounded number of trial angles.", "anchors": ["coralign/pupil/util.py:compute_clocking", "coralign/pupil/util.py:compute_norm_factor"]}
{"id": "C77", "title": "Mask offset fits accumulate gain times measured displacement, ignore exposure, and rest on the true mask", "statement": "fit_pupil_mask_offsets starts from (0, 0) and after each of its rounds adds the gain times the displacement which the lateral search finds between the masked image and the prediction made from the unmasked image and the reference mask at the current estimate. Multiplying either image by a positive exposure factor changes nothing. If the search finds a fixed fraction of the remaining error in each round, the error shrinks geometrically; with a matched gain the true offset is returned exactly for any number of rounds. If the masked image is the unmasked image seen through the reference in its place, the answer is (0, 0) or QuadraticException. A whole-pixel shear in fit_shaped_pupil_mask_offsets acts as moving the unmasked image and the pupil offsets by that shear. Images of different shapes raise ValueError, non-positive gain, diameter or magnification TypeError.", "quantifier": "all images, reference masks, gains, pupil offsets, diameters, magnifications, clockings, tuning parameters and numbers of rounds", "why_tests_cant": "Continuum of images and masks, an unbounded number of rounds and any least-squares solver.", "anchors": ["coralign/pupil/maskfit.py:fit_pupil_mask_offsets", "coralign/pupil/maskfit.py:fit_shaped_pupil_mask_offsets"]}
{"id": "C78", "title": "The Lyot stop magnification fit answers the vertex of the measured overlap curve and ignores exposure", "statement": "fit_lyot_stop_mag_clocking starts from the magnification whose square is the ratio of the light of the masked image to that of the masked reference over the unmasked pupil. The stop is taken to be centred at the given pupil centre plus the displacement that compute_lateral_offsets finds, in two iterations, between the masked amplitude and the unmasked amplitude seen through the reference stop at that first magnification, both cropped about the pixel which the coarse search for the stop's outer disc finds. The clocking is the one compute_clocking finds for the stop at that place. In each round it counts, for every magnification on an evenly spaced grid about the current estimate, the pixels where the predicted amplitude agrees with the measured one within the tolerance. In the first of several rounds it moves to the grid magnification with the largest count; in every other round it moves to the vertex of the least-squares parabola through the squared deficits of all grid points, or to 1 if that parabola is flat. The half-width of the grid is magShrinkFac times deltaMag in every round. Multiplying both images by the same positive exposure factor changes nothing. If the count falls off linearly and symmetrically on both sides of a grid magnification, that one is returned exactly, whatever the number of rounds. If the count does not depend on the magnification, 1 is returned in place of the current estimate. Invalid inputs raise the documented exceptions.", "quantifier": "all images, reference masks, offsets, clockings, tolerances, grids, diameters and numbers of rounds", "why_tests_cant": "Continuum of images, masks and tuning parameters, an unbounded number of rounds and any least-squares solver.", "anchors": ["coralign/pupil/maskfit.py:fit_lyot_stop_mag_clocking"]}
{"id": "C79", "title": "The ellipse fit moves with the pupil, ignores exposure and padding, and fills narrow struts only", "statement": "fit_ellipse pads the image with zeros to a square of ceil(padFactor * longest side) pixels, thresholds it, dilates and erodes the mask nIter times, and reports the longer full axis of the ellipse found in the result and its centre relative to the centre pixel, x along columns and y along rows. Multiplying the image by a positive factor changes nothing. The same clean pupil moved by whole pixels, in an image of any other shape, brightness and padding factor, gives the same diameter and offsets moved by exactly those pixels, as long as the padded array leaves nIter pixels of room and the contour finder sees only the shape. With that room no pupil pixel is lost, nothing farther than nIter pixels away is added, struts up to 2*nIter pixels wide are filled, and a place within nIter of the middle of an open square of 2*nIter+1 pixels is not. Without it, no pixel within nIter of the border of the padded array is ever left in the mask.", "quantifier": "all images, shapes, brightnesses, shifts, padding factors, numbers of iterations and contour finders", "why_tests_cant": "Continuum of images and unbounded sizes and iteration counts; the ellipse finder of OpenCV is arbitrary.", "anchors": ["coralign/util/fit_shapes.py:fit_ellipse"]}
{"id": "C80", "title": "The circle fit answers the most prominent circle about the centre pixel", "statement": "fit_circle thresholds the image and reports the first circle that the Hough search over the whole radii from min_radius to max_radius, both included, finds in it: its centre relative to the centre pixel, x along columns and y along rows, and its radius. Multiplying the image by a positive factor or adding a constant background changes nothing. Non-positive radii or edge width raise TypeError; max_radius not above min_radius, or an image that cannot be thresholded, raises ValueError.", "quantifier": "all images, radii, edge widths and circle finders", "why_tests_cant": "Continuum of images, unbounded sizes and radii, arbitrary edge and Hough finder.", "anchors": ["coralign/util/fit_shapes.py:fit_circle"]}
{"id": "C81", "title": "Unmasked pupil fit", "statement": "fit_unmasked_pupil checks its tuning before any work and fails if a value is out of range. Its answer depends on the pupil only through the set of bright pixels, so neither the exposure nor a uniform background matters, and moving the bright pixels by whole pixels inside the image moves the fitted offsets by as much and leaves diameter and (under an angle-by-angle match that moves along) clocking alone. If the bright pixels lie where the ellipse puts the reference mask, the fitted offsets are those of the ellipse, and the clocking is the vertex of the match when the counts fall off linearly around one tried angle or is zero when they are symmetric. The clocking is found against the mask without the rotation, flip and padding given for the lateral reference, so those never change it.", "quantifier": "all pupil images, tunings, masks, exposures, whole-pixel shifts, ellipse finders, splines, rotations and least-squares solvers meeting their contracts", "why_tests_cant": "tests fit one measured pupil and compare with one recorded answer", "anchors": ["coralign/pupil/pupilfit.py:fit_unmasked_pupil"]}
{"id": "C82", "title": "Zernike fit over a fitted pupil", "statement": "fit_pupil_zernikes on a square wavefront returns max(3, Z_noll_max) coefficients, with the offsets and diameter of fit_unmasked_pupil on the amplitude. Both residual maps are the wavefront outside the mask; on the mask they are the wavefront less the first three and less all the fitted terms, and no coefficients leave a smaller squared residual there. A wavefront that is a combination of the fitted modes on the mask, independent there, is recovered exactly whatever it is elsewhere; independence holds as soon as the mask contains all crossings of d+1 rows and d+1 columns, where d is the radial order of the last mode. Without a mask the pixels used are the bright ones whose neighbours under the structuring element are bright; a given mask is used as is. A wavefront with different numbers of rows and columns, both above one, is always refused.", "quantifier": "all wavefronts, amplitudes, masks, structuring elements, orders and tunings", "why_tests_cant": "tests use one amplitude and one wavefront; optimality and recovery range over all of them", "anchors": ["coralign/pupil/pupilfit.py:fit_pupil_zernikes"]}
{"id": "C83", "title": "Older unmasked pupil fit", "statement": "fit_unmasked_pupil_old returns as diameter the nominal diameter times the square root of the ratio of the light in the bright pixels of the amplitude to that of the nominal mask, each in units of the percentile of its own bright pixels; for uniform pupils this is the ratio of the numbers of bright pixels. Neither exposure, of the amplitude or of the nominal mask, matters. If the coarse search ends on a pixel and the mismatch about it is a paraboloid, the offsets are that pixel plus the centre of the paraboloid, and the clocking is the trial angle about which the match falls off linearly, or zero for a symmetric match. Tuning parameters out of range never lead to an answer.", "quantifier": "all real amplitudes, tunings, masks, exposures, splines, rotations and least-squares solvers meeting their contracts", "why_tests_cant": "tests run one simulated pupil with one tuning file", "anchors": ["coralign/pupil/pupilfit.py:fit_unmasked_pupil_old"]}
{"id": "C84", "title": "Plate scale search", "statement": "platesolv tries the plate scales pixper_guess*(1 - ps_wid), then in steps of 2*pixper_guess*ps_wid/n_trials as long as pixper_guess*(1 + ps_wid) is not reached, and returns them with, for each, the standard deviation over the pixels of the difference between the simulated image resampled at that plate scale, rescaled to the percentile of the recorded image, and the recorded image, in units of the brightest simulated pixel. best_fit lists the points of the interpolation grid at which the curve through these misfits is lowest, and is empty if a misfit is not a number. Consequently nothing above pixper_guess*(1 + ps_wid - 2*ps_wid/n_trials) is ever tried or returned, although the documentation promises +/- ps_wid. The exposures of the two images do not matter. A misfit vanishes exactly if the two images differ by the same amount in every pixel; for square images at one pixel per resolution element it vanishes at the guess when the recorded image is the simulated one at another exposure, but not at two pixels per resolution element. For a positive search width the search answers exactly for a positive guess, images of one shape with pixels, 0 < ps_wid < 1, more than three trials, a percentile in [0, 100] and a positive interpolation step; a non-positive guess, different shapes and missing parameters raise PlateSolvException.", "quantifier": "all real images, guesses, parameter files, exposures and interpolation routines through their nodes and linear in the ordinates", "why_tests_cant": "tests compare one simulated pair of images for a few plate scales", "anchors": ["coralign/platesolv/platesolv.py:platesolv"]}
{"id": "C85", "title": "Generated occulting mask", "statement": "gen_hlc_occulter returns an array of the requested shape. It starts from the transmission calc_complex_occulter reports pixel by pixel for the design (metals below the PMGI only, bare substrate elsewhere), relative to that of the design's corner pixel. The difference from 1 is rotated, shifted and downsampled (C60) by a factor between M/(M+1) and 1 to M samples across, and these are resampled in the Fourier domain to E samples across the same extent, so that the sampling goes from that of the design to exactly that requested; E is the least whole number of output pixels not below 2 * rOccLamD * ppl * minOversizeFacForFFT. Outside the central E x E pixels the output is exactly 1. The Fourier step keeps the mean and leaves a constant alone; when the two samplings are in the ratio M : E, without rotation and for offsets of whole design pixels, the output is the Fourier resampling of the shifted design itself. A design without PMGI gives 1 everywhere; so does one whose whole (odd, square) file is covered by one thickness of PMGI, because the mask is relative to its own corner. Bare substrate never has zero transmission. scaleWithWavelength multiplies the output sampling by lam0/lam and does nothing else. With indices in range the call succeeds exactly for documented arguments, a positive occulter radius (not checked; zero raises ZeroDivisionError), at least one intermediate sample and a padded design of at least four pixels; other arguments raise TypeError.", "quantifier": "all designs (any shape and thickness map), wavelengths, angles, polarisation choices, samplings, rotations, offsets and output shapes, all material tables with refractive indices in range, all spline and rotation routines meeting their contracts", "why_tests_cant": "tests compare one design at two wavelengths with stored arrays", "anchors": ["coralign/maskgen/maskgen.py:gen_hlc_occulter"]}
{"id": "C86", "title": "Scan-converted rectangle", "statement": "rect_proper returns an ny x nx array in which every pixel is the mean, over the centre lines of its nSubpixels horizontal strips, of the exact length of the line inside the rectangle of the given width, height, centre offset and counter-clockwise rotation (one minus that when isDark). This holds for every angle, whichever corner is the lowest and also when two corners are, and for rectangles that leave the array on any side. Hence every value is in [0, 1] and within 1/nSubpixels of the area of the rectangle in the pixel; a pixel wholly inside is exactly 1 and one not met exactly 0; a half turn changes nothing, a quarter turn is the same as exchanging width and height; and the result differs from rectangle by at most 1/nSubpixels. The call fails, with TypeError, exactly when a size, length or sub-pixel count is not positive; a single row or column is accepted.", "quantifier": "all array sizes, real widths, heights, offsets and rotations, all sub-pixel counts, both tones", "why_tests_cant": "the edge-following scan has a different path for every angle, offset and size; tests try a handful", "anchors": ["coralign/util/shapes.py:rect_proper"]}
{"id": "C87", "title": "Surface fitting and surface modelling use the same registration", "statement": "conv_surf_to_dm_cmd and dmhtoph, given the same registration (offset, clocking, flip), agree on where the actuators are: the surface that dmhtoph makes of the commands returned for a surface is that surface at every actuator, and the commands are recovered from the surface that dmhtoph makes of them.", "quantifier": "all surfaces, command maps, influence functions and registrations for which actuators fall on pixels", "why_tests_cant": "the test suite fits with unflipped, unrotated or centred mirrors; the order of flip, rotation and translation only matters for combinations of them", "anchors": ["coralign/conjugate/conjugate.py:conv_surf_to_dm_cmd", "coralign/util/dmhtoph.py:dmhtoph"]}
{"id": "C88", "title": "Zernike polynomials are orthonormal over the pupil, so coefficients are RMS amplitudes", "statement": "The mean over the circular pupil of the product of the values that xyzern returns for two Noll orders is one if the orders are equal and zero otherwise. Hence the mean square of a wavefront given by Zernike coefficients is the sum of their squares, each coefficient is the mean of the wavefront times its mode, every mode but piston averages to zero, and the mean square over the beam pixels of the map returned by gen_zernikes tends to the sum of the squared coefficients as the beam is sampled more finely.", "quantifier": "all pairs of Noll orders, all pupil radii, all finite sets of orders and all coefficients", "why_tests_cant": "Infinitely many polynomial pairs, and an integral over a continuum of points.", "anchors": ["coralign/util/nollzernikes.py:xyzern", "coralign/util/nollzernikes.py:gen_zernikes"]}
{"id": "C89", "title": "Refractive indices follow the material data", "statement": "At a wavelength in one of the metal tables calc_complex_occulter uses the published index and extinction of titanium and nickel; between neighbouring tabulated wavelengths it uses the straight line between them, and outside a table the nearest end value, without any exception. Hence the metals always have positive index and extinction, within the range of the tables. Fused silica obeys Sellmeier's equation and PMGI Cauchy's with the published coefficients, at the wavelength in microns. The indices of fused silica (0.12 to 6.4 microns) and PMGI fall as the wavelength grows and are never below 1. So in that range occulter cells are physical, and gen_hlc_occulter accepts exactly the documented arguments, with no assumption on the materials.", "quantifier": "all wavelengths (real numbers), all thickness lists, angles and polarisations", "why_tests_cant": "The wavelength is a real number; a test sees a few wavelengths only.", "anchors": ["coralign/maskgen/util/thinfilm.py:calc_complex_occulter", "coralign/maskgen/materialdata/titanium_data_from_PBJohnsonAndRWChristy1974.txt", "coralign/maskgen/materialdata/nickel_data_from_Palik_via_Bala_wvlNM_n_k.txt", "coralign/maskgen/materialdata/fused_silica_Sellmeier_coefficients_from_Corning_website.txt"]}
{"id": "C90", "title": "Calls leave the caller's arrays alone, and results do not alias them", "statement": "No function of the package changes an array that existed before the call: however the call ends, with a result or with an exception raised at any point, every such array has the same contents afterwards, and the same holds after any sequence of calls. Apart from a short list, every returned array is new, so overwriting a result never changes an argument and overwriting an argument never changes a result. The exceptions: fresnelprop and fresnelprop_fp may return the field itself (zero distance), unwrap and fit_pupil_zernikes may return the mask they were given, resample_inf_func may return its input (equal samplings), compute_upsampled_dft its input (an array without axes), and the validation functions return what they validated.", "quantifier": "every function of the package (util/debug.py excepted), every arguments (any of which may be the same array), every path through the branches and loops, every point where an exception can interrupt the call, every sequence of calls", "why_tests_cant": "a test checks one path for one input; an in-place write through a view on a rarely taken branch, or before an exception, would go unseen", "anchors": ["coralign/util/unwrap.py:unwrap", "coralign/util/fresnelprop.py:fresnelprop", "coralign/util/combine_crop.py:combine", "coralign/conjugate/conjugate.py:flatten", "coralign/pupil/maskfit.py", "coralign/util/shapes.py", "coralign (all functions)"]}
{"id": "C91", "title": "On noise-free data the true registration fits best", "statement": "Give calc_translation_clocking or calc_scale noise-free phases: on every usable pixel the change of phase is twice the change of the surface that dmhtoph gives for the true registration, plus any piston, tip and tilt, up to whole turns, the change being within half a turn. Then the misfit that each search minimises is least at the true registration: it is zero there for the translation search and for the scale search (mirror not reversed, as calc_scale assumes; or wired either way round when the commands and the influence function are the same counted from either side, as its documentation recommends), and no other clocking gives a smaller misfit in the clocking search.", "quantifier": "all noise-free data sets, DM commands, influence functions, masks, calibrations, trial registrations", "why_tests_cant": "A continuum of surfaces and registrations; the shipped tests use one pattern on which the error in the clocking misfit does not show.", "anchors": ["coralign/dmreg/dmreg.py:calc_translation_clocking", "coralign/dmreg/dmreg.py:calc_scale"]}
{"id": "C92", "title": "Satellite-spot measurements do not depend on the units or the exposure of the image", "statement": "Multiplying every pixel of the image by the same positive factor (other units, another exposure time) changes neither the star-mask offset of calc_offset_from_spots, nor the offsets of calc_bowtie_offsets_from_spots, nor the position found by calc_star_location_from_spots, nor the separation found by calc_spot_separation.", "quantifier": "all images, all positive factors, all acceptable tunings, all guesses and numbers of iterations", "why_tests_cant": "A test uses images in one system of units; the dependence shows only where an absolute threshold is crossed.", "anchors": ["coralign/focalfit/focalfit.py:calc_offset_from_spots", "coralign/focalfit/focalfit.py:calc_bowtie_offsets_from_spots", "coralign/occastro/occastro.py:calc_star_location_from_spots", "coralign/occastro/occastro.py:calc_spot_separation", "coralign/util/findopt.py:find_optimum_1d", "coralign/util/findopt.py:find_optimum_2d"]}
{"id": "C93", "title": "The MATLAB settings reader gives every key its last value", "statement": "ReadYaml in matlab/ returns, for every key set in a settings file, the last value written for it, as a number where MATLAB can convert it and as text otherwise, and nothing for other keys. White space, empty lines, remarks and (when no key is set twice) the order of the lines do not matter.", "quantifier": "all settings files: any number of lines, any keys, values, remarks and white space", "why_tests_cant": "The files are unbounded texts.", "anchors": ["matlab/ReadYaml.m:ReadYaml"]}
{"id": "C94", "title": "Flattening cancels the wavefront in the package's own model of the mirrors", "statement": "When flatten uses the deformable mirrors, take the surfaces that the package's own mirror model (volts_to_dmh, then dmhtoph) predicts for the commands before and after. At every pupil pixel that shows an actuator of both mirrors, the measured phase minus twice the change of the two surfaces is exactly what flatten was told to leave: the fitted piston, tip and tilt (and focus if the focus mechanism takes it), or, when only low modes are corrected, the phase without the corrected modes. Stroke of dead actuators is taken over by the other mirror without changing the sum, as long as no position is dead on both mirrors.", "quantifier": "all phase and amplitude maps, all old commands, gains, wavelengths, tie maps and flags, all mirror sizes and influence functions for which the fit is regular, all pupil pixels that show an actuator", "why_tests_cant": "A test of flatten checks a few maps by refitting; that sign, factor of two, orientation and units agree between the fitting path and the modelling path must hold for every map and registration.", "anchors": ["coralign/conjugate/conjugate.py:flatten", "coralign/conjugate/conjugate.py:conv_surf_to_dm_cmd", "coralign/util/dmhtoph.py:dmhtoph", "coralign/util/dmhtoph.py:volts_to_dmh"]}
{"id": "C95", "title": "Generated shapes are centred where they were asked for", "statement": "For a circle, ellipse, rectangle (both implementations, any rotation), or simple_pupil without struts or with struts in opposite pairs, that lies wholly inside the array at x and y offsets that are multiples of half a pixel, center_of_energy of the generated image is exactly (nx//2 + xOffset, ny//2 + yOffset) unless the image is blank; when that point is a pixel, quadrant_energy_balance about it returns (0, 0) for every radius. A circle of radius at least 1.5 pixels is never blank.", "quantifier": "all array sizes of either parity, shape sizes, rotations, half-pixel offsets, sub-pixel counts, radii of the balance disc", "why_tests_cant": "A test checks some sizes and offsets, to a tolerance; the claim is exact agreement of the centring conventions of the generators and of the measuring functions for all sizes of both parities.", "anchors": ["coralign/util/shapes.py:circle", "coralign/util/shapes.py:ellipse", "coralign/util/shapes.py:rectangle", "coralign/util/shapes.py:rect_proper", "coralign/util/shapes.py:simple_pupil", "coralign/util/center.py:center_of_energy", "coralign/util/quad.py:quadrant_energy_balance"]}
{"id": "C96", "title": "The picture of a shape does not depend on the array it is drawn in", "statement": "For circle, rectangle, rect_proper, ellipse, annular_segments and simple_pupil: changing the offsets by whole pixels moves the picture by as many pixels and changes nothing else, and drawing in a smaller array gives the same result as drawing in a larger one (of any parity) and cropping it with pad_crop.", "quantifier": "all array sizes and parities, shape parameters, real offsets, whole-pixel displacements, sub-pixel counts", "why_tests_cant": "Relates the outputs of two or three calls for every pair of array sizes and every real offset; the code works with separate linspace axes for even and odd sizes.", "anchors": ["coralign/util/shapes.py:circle", "coralign/util/shapes.py:ellipse", "coralign/util/shapes.py:rectangle", "coralign/util/shapes.py:rect_proper", "coralign/util/shapes.py:simple_pupil", "coralign/util/shapes.py:annular_segments", "coralign/util/pad_crop.py:pad_crop"]}
{"id": "C97", "title": "Bad arguments are refused with the promised exception, and good ones are not refused", "statement": "For each of these functions the arguments alone decide whether the call returns or raises, and which exception it raises: circle, rectangle, ellipse, annular_segments, simple_pupil, probe, sine, dmh_to_volts, volts_to_dmh, dmhtoph, find_optimum_1d and 2d, quadrant_energy_balance, compute_heights_for_command_map, compute_commands_for_height_map, compute_gainmap, the dark-hole rectangle, annulus, sector and bowtie, xyzern, gen_zernikes, fit_zernikes, gen_split_wfe, phase_cost_function, smooth_surface and the reassignment of dead actuators. A size, radius, count or wavelength that must be positive and is not, a shape mismatch, an empty range or an argument outside its range is refused with the exception the code names (TypeError or ValueError), nothing within the documented domain is refused, and the few undocumented refusals (IndexError for an image with a one-pixel axis, UnboundLocalError for annular segments rotated by 360 degrees or more, IndexError for a focus-mechanism split with fewer than four modes) happen exactly there. The same holds for resampling an influence function, building a coupling matrix, fitting a surface, converting a surface to commands, Fresnel propagation (ValueError exactly when the array has fewer samples than the distance needs), a transfer function of the wrong size, the upsampled transform, psffit, a dark-hole file (KeyError for a missing key, ValueError for an unknown shape or an inside-out annulus, in the order of the entries), unwrap, the thin-film solver, actuator grids, Zernike mirror shapes, circle fits, height differences and starting commands, and platesolv. flatten raises ValueError for a command array that is not square and for a non-positive wavelength, diameter or setting, whatever else is passed. For the optimum finders the only other outcome is QuadraticException.", "quantifier": "all argument values of the right numeric type, including all array shapes; for the height and command conversions all square maps, all increasing reference commands and every interpolator meeting its contract", "why_tests_cant": "A test can show that one bad value is refused and one good value accepted; that every value on the right side of every limit is accepted and every other refused, with the same exception, is a statement about all values, and an off-by-one in a limit or a swapped comparison shows only at the limit itself.", "anchors": ["coralign/util/shapes.py: circle, ellipse, rectangle, annular_segments, simple_pupil", "coralign/util/dmshapes.py: probe, sine", "coralign/util/dmhtoph.py: dmhtoph, dmh_to_volts, volts_to_dmh", "coralign/util/findopt.py: find_optimum_1d, find_optimum_2d", "coralign/util/quad.py: quadrant_energy_balance", "coralign/gainmap/gm_util.py, coralign/gainmap/gainmap.py", "coralign/buildmodel/darkhole.py", "coralign/util/nollzernikes.py: xyzern, gen_zernikes, fit_zernikes", "coralign/conjugate/conjugate.py: gen_split_wfe, phase_cost_function, smooth_surface, flatten", "coralign/util/fresnelprop.py", "coralign/psffit/psffit.py", "coralign/util/unwrap.py", "coralign/platesolv/platesolv.py", "coralign/util/fit_surf_to_dm.py, coralign/util/fit_shapes.py", "coralign/pupil/maskfit.py: lateral offsets, Lyot stop, fit_spm_shear", "coralign/maskgen/util: thin-film solver"]}
{"id": "C98", "title": "What double precision does to a circle mask and to the even and odd ceilings", "statement": "With every operation rounded to the nearest double, as the computer does it: for sizes and offsets whose sum S is at most 2^40 and at most 2^53 sub-pixels per pixel, shapes.circle returns at every pixel the double nearest to c / N^2 (with isDark, one minus that, rounded), where c is a count of sub-pixel centres that includes every centre more than S / 2^50 inside the circle and none more than S / 2^50 outside; a pixel with no centre that close to the edge has the double nearest to the exact fraction. If the number of sub-pixels is a power of two and the radius and the offsets are binary fractions of moderate size, the mask is the exact one, boundary included. The values lie in [0, 1]. A larger radius never lowers any pixel, mirroring the offset mirrors the mask and exchanging the axes transposes it, all to the last bit. ceil_odd(x) is the least odd integer not below x for every double; so is ceil_even(x) the least even integer, for every double except the smallest positive one, 2^-1074, for which it returns 0.", "quantifier": "all array sizes, radii, offsets and sub-pixel counts within the stated bounds, all pixels, all finite doubles (no overflow)", "why_tests_cant": "A test compares a few masks at a few sizes; rounding errors depend on every bit of the radius and of the offsets.", "anchors": ["coralign/util/shapes.py:circle", "coralign/util/math.py:ceil_odd", "coralign/util/math.py:ceil_even"]}
{"id": "C99", "title": "What double precision does to voltages and focus steps", "statement": "With every operation rounded to IEEE double precision as Python performs it, dmh_to_volts and volts_to_dmh undo each other up to one part in 2^50 (but not exactly) and are each within one part in 2^50 of the exact formula; where the gain is not zero a higher demand never gets a lower voltage, opposite demands get opposite voltages, and an actuator of which no height is asked keeps its command to the last bit; flatten's focus-mechanism command is within half a step of the exact answer up to rounding errors of that size, and is the nearest step unless the exact answer is that close to the middle between two steps.", "quantifier": "all gain maps and wavelengths between 2^-100 and 2^100 in size, all heights and voltages that are zero or between 2^-500 and 2^500, all old commands", "why_tests_cant": "A test compares a few values with a tolerance; it cannot bound the accumulated rounding error of every input or show that order and zeros survive every rounding.", "anchors": ["coralign/util/dmhtoph.py:dmh_to_volts", "coralign/util/dmhtoph.py:volts_to_dmh", "coralign/conjugate/conjugate.py:flatten"]}
{"id": "C100", "title": "Rounding does not change whether or how finely an occulter is sampled", "statement": "With the sampling numbers rounded to IEEE double precision as Python computes them, gen_hlc_occulter accepts every set of valid arguments that exact arithmetic accepts, uses the same numbers of output pixels and intermediate samples, and gives the mask of the exact formula for a magnification and offsets within a few units in the last place of the exact ones. Proved when neither pixel count is within one part in 2^50 of an integer or when the count is computed without rounding; in general the call either answers or raises TypeError. For some valid arguments, all of them doubles, exact arithmetic gives a magnification of 1, double precision gives 1 + 2^-52, and the call refuses with TypeError.", "quantifier": "all layer thickness maps, optical constants in range, shapes and offsets, all calibration and design scalars between 2^-40 and 2^40", "why_tests_cant": "Whether a ceiling, a floor or a comparison with 1 goes the wrong way depends on the last bit of a chain of roundings; a test sees the few designs it loads.", "anchors": ["coralign/maskgen/maskgen.py:gen_hlc_occulter", "coralign/maskgen/maskgen.py:rotate_shift_downsample_amplitude_mask"]}
{"id": "C101", "title": "Rounding does not make the plate scale search fail or leave its range", "statement": "When the bounds of the search, the plate scales and the interpolation grid of platesolv are computed in double precision, a search of ordinary size either raises ValueError or returns the requested number of plate scales or one more, each equal to the one of exact arithmetic up to a few units of 2^-52 of the guess per step, with their misfits and the points of the rounded interpolation grid at which the curve is lowest; the grid stays within the plate scales and leaves no gap before the last one. If no point of the exact grid comes within rounding of the last plate scale the call does return. Full statement: every search accepted in exact arithmetic returns in double precision and tries the number of plate scales asked for. That is false: with the package's parameter file and a guess of 2.5 pixels the call always raises ValueError because the last interpolation point rounds to beyond the last plate scale, and for a guess of 2.25 pixels eleven plate scales are tried instead of ten, the last outside the range.", "quantifier": "all images, guesses between 2^-40 and 2^40, search widths between 2^-10 and 255/256, 4 to 65536 trials and interpolation steps between 2^-40 of the guess and the guess", "why_tests_cant": "the failure depends on the last bits of the guess: most guesses work, and a test at a few guesses says nothing about the others", "anchors": ["coralign/platesolv/platesolv.py: platesolv"]}
{"id": "C102", "title": "What double precision does to dark-hole rectangles and annuli", "statement": "With every operation rounded to the nearest double: gen_rectangle marks every pixel of the exact rectangle, and a pixel it marks in excess is outside a side by at most one part in 2^51 of the half side. gen_annulus, for sizes and offsets whose sum S is at most 2^40, marks every pixel whose distance from the centre is within both radii by S / 2^50 or more, and marks no pixel farther than S / 2^50 outside them. Where the offsets, sides and radii are binary fractions of moderate size both masks are the exact ones, edges included. Widening the range of radii never loses a pixel, mirroring the offset mirrors the annulus, and exchanging the axes transposes it, all to the last bit. On the edge rounding does decide: an annulus whose radii are the double nearest to the square root of 13 has the pixel at (2, 3), which lies on neither exact circle, and a rectangle of width 2 centred 2^-60 pixels off has a pixel that the exact one has not. What is refused is as in exact arithmetic: sizes or sides that are not positive, negative radii, and an inner radius larger than the outer.", "quantifier": "all array sizes, offsets, sides and radii in the stated ranges", "why_tests_cant": "Rounding errors depend on every bit of the parameters; only a bound over the continuum of offsets and radii says which pixels can differ.", "anchors": ["coralign/buildmodel/darkhole.py:gen_coords", "coralign/buildmodel/darkhole.py:gen_rectangle", "coralign/buildmodel/darkhole.py:gen_annulus"]}
{"id": "C103", "title": "Rounding does not change which fields the Fresnel propagation accepts", "statement": "Computing the least number of samples of the angular-spectrum criterion in double precision does not change which fields `fresnelprop` and `get_fp` accept: every field at least as large as wavelength times distance times the square of the pixels per metre is accepted, and every smaller one is refused. Whatever is accepted meets the criterion to one part in 2^50 on both axes; when the product of wavelength and distance and the square of the pixels per metre are themselves doubles nothing sufficient is refused; accepted fields stay accepted for shorter distances, for the opposite direction and for larger arrays, and the two-step path through `get_fp` accepts whatever the direct path accepts, with the same result.", "quantifier": "all fields, all wavelengths, distances and samplings between 2^-40 and 2^40 in either direction, all grid sizes", "why_tests_cant": "The decision hangs on the last bit of a product of three inputs; a handful of wavelengths and distances does not meet the cases where it is wrong, and cannot show that all others are right.", "anchors": ["coralign/util/fresnelprop.py: fresnelprop, get_fp, fresnelprop_fp"]}
{"id": "C104", "title": "Fresnel propagation multiplies every plane wave by its paraxial phase", "statement": "Whenever fresnelprop(e, lam, z, nxfresnel, pixpermeter) returns, the field it returns is the one obtained by centring e in an nxfresnel by nxfresnel array of zeros, multiplying the component of the array's spectrum with k periods down and l periods across by exp(-i*pi*lam*z*(fy^2+fx^2)), with fy = k*pixpermeter/nxfresnel and fx = l*pixpermeter/nxfresnel cycles per metre, and cutting out e's own window, centre pixel on centre pixel. In particular a sampled plane wave of an n by n grid comes out as itself times that factor. get_fp returns exactly these factors, zero frequency at pixel nxfresnel//2 of both axes, and fresnelprop_fp multiplies the spectrum by whatever array of the grid's size it is given.", "quantifier": "every complex field of any size, wavelength, distance of either sign, grid size, pixel density and frequency of the grid", "why_tests_cant": "A test propagates a few fields over a few distances; a wrong scale of the frequency axis, a wrong sign or a shifted zero frequency still conserves energy, composes and reverses, and only shows for particular frequencies, grid parities and distances.", "anchors": ["coralign/util/fresnelprop.py: fresnelprop, get_fp, fresnelprop_fp"]}
{"id": "C105", "title": "psffit registers images to within 1/upsample_factor of a pixel", "statement": "psffit_parms.yaml promises that images will be registered to within 1/upsample_factor of a pixel. So if the target is a brightness times a band-limited scene moved by any real number of pixels along each axis, and the source is the scene itself, the shift psffit returns is within 1/upsample_factor of a pixel of the true one along both axes, up to whole turns of the image.", "quantifier": "every image size, band-limited scene, brightness, real shift along both axes, whole upsampling factor of at least 2 and padding factor", "why_tests_cant": "The tests move a round spot by a few amounts. Whether the strongest fine sample is the one nearest the true shift depends on the shape of the scene's correlation and on where the shift falls between the fine samples, in both axes at once.", "anchors": ["coralign/psffit/psffit.py: psffit, compute_upsampled_dft", "coralign/psffit/defaults/psffit_parms.yaml: upsample_factor"]}
{"id": "C106", "title": "Rounding changes neither the picture nor the size of a downsampled mask", "statement": "rotate_shift_downsample_amplitude_mask computes the padded side, the output side, the averaging disc and the sampling positions in double precision. For a magnification 1/k with k a whole number, whole offsets and no rotation, the output, read as zero outside its array, is everywhere the mean of the mask over the disc of one output pixel, exactly as in exact arithmetic, and the output array is the same; for any magnification in (0, 1] and any offsets the output is square, even-sized, holds the whole offset mask, and has a first row and column of zeros. The first part holds if the double reciprocal of the double nearest to 1/k is k (every k up to 97 but 49 and 93), up to the width of the margin of zeros, which is the same unless k divides the padded side. Otherwise rounding shows: for k = 186 the disc loses its four rim pixels, and a 525 x 525 mask downsampled by 105 comes out 10 x 10 instead of 8 x 8.", "quantifier": "All masks, spline and rotation routines; for the size every magnification, rotation, offset up to 2^40 and padding with a padded side up to 2^40; for the picture every whole factor up to 2^20 with an exact double reciprocal, whole offsets up to 2^20 and paddings that leave room for the disc.", "why_tests_cant": "Whether a product of doubles lands just above or below a whole number depends on the factor; a test tries a handful of factors out of a million.", "anchors": ["coralign/maskgen/maskgen.py: rotate_shift_downsample_amplitude_mask", "coralign/util/math_util.py: ceil_odd, ceil_even", "coralign/util/pad_crop.py: pad_crop"]}
{"id": "C107", "title": "Zernike polynomials are computed accurately in double precision", "statement": "The samples of the Zernike modes that xyzern computes in floating point are the true values of Noll's polynomials up to a rounding error with an explicit bound: for every mode of radial order n up to 150, every point inside the pupil and every pupil radius, the error is at most (37 n + 246) 2^-53 times the normalisation times the sum of the moduli of the radial coefficients. For the first 36 modes this is below 3e-11 and for the first 190 below 1e-6. Up to radial order 18 the radial coefficients carry no rounding error at all and the radial polynomial at the rim is exactly one. The full property, an accurate value for every mode the function accepts, is false: the coefficients alternate in sign and grow, and for mode 991 (order 44, frequency 0) the value at the rim comes out 14 % too large.", "quantifier": "all Noll indices up to radial order 150, all pupil radii, all points inside the pupil, all implementations of gamma, hypot, arctan2, cos and sin within a few units in the last place", "why_tests_cant": "A test compares a few low modes at a few points; it cannot bound the accumulated rounding over a continuum of points and all modes, and it does not reach the orders where cancellation destroys the result.", "anchors": ["coralign/util/nollzernikes.py: xyzern"]}
{"id": "C108", "title": "Rounding and summation order barely move the centre of energy and the rms", "statement": "For every image without negative pixels (each pixel zero or of ordinary magnitude, at least one lit), the centre of energy that center_of_energy computes in double precision differs from the exact first moment by at most (2d+2)*2^-52 relatively, in whichever order numpy adds the terms, where d is the largest number of additions any term goes through; without knowledge of the order that is 2n*2^-52 image widths for n lit pixels. A single lit pixel is located exactly, whatever its sign. rms of any real array with entries of ordinary magnitude has a relative error of at most (d+3)*2^-52. With negative pixels the first claim fails: the row 2^53, 1, -2^53 has total energy 1, but summed from left to right it gives NaN.", "quantifier": "every image size, every pixel data without negative values, every order and bracketing of the summations, with every intermediate result rounded to double precision", "why_tests_cant": "numpy's pairwise and blocked summation orders depend on array length, memory layout and the CPU's vector width; a test only sees the order of the machine it runs on and a few images.", "anchors": ["coralign/util/center.py:center_of_energy", "coralign/util/math.py:rms"]}
{"id": "C109", "title": "Quadrant balances are accurate in double precision, in every order of summation", "statement": "For every image without negative pixels (each pixel zero or of ordinary magnitude, at least one lit) and every origin and radius that quadrant_energy_balance accepts, the two balances computed in double precision differ from the exact ones by at most (8d+11)*2^-52, in whichever order numpy adds, where d is the largest number of additions any term goes through. The pixels taken for the disc are exactly those within the radius unless the radius is itself the rounded distance of a pixel just outside; every radius with at most 25 significant bits is free of that ambiguity, and a radius computed as the distance of a pixel always includes that pixel.", "quantifier": "every image size up to 2^25 by 2^25 with at most 2^40 pixels, every pixel data without negative values, every accepted origin and radius, every order and bracketing of the summations", "why_tests_cant": "the summation order depends on the machine and array layout, and whether a rim pixel falls inside the disc depends on the rounding of one square root among all possible radii.", "anchors": ["coralign/util/quad.py:quadrant_energy_balance", "coralign/util/math.py:cart2pol"]}
{"id": "C110", "title": "Matrix Fourier transforms in double precision", "statement": "Calculated in double precision, do_mft, do_imft and do_offcenter_mft return arrays of the requested shape whose every sample differs from the exact Fourier sum (the one C16 and C18 state) by at most (8 D + 34 + 60 W)/2^52 times the sum of the magnitudes of the field divided by the square of its sampling, plus 2^-800. D is the largest number of additions one product goes through in the matrix products (at most twice the longer side of the field, fewer with pairwise or blocked addition), and W is the largest number of turns of the phase across the arrays, output length times pupil length over pixperlod times pixperpupil. This holds whatever order np.dot adds in, with or without fused multiply-add, and for any complex exponential good to four units in the last place. For an off-centre crop the additions counted are those of the crop and the turns those of the full pupil.", "quantifier": "every complex field of at most 2^50 samples, every output shape, every pixperlod and pixperpupil between 2^-100 and 2^100, every crop position, every order of summation and every exponential routine within the stated accuracy, with D and W at most 2^40", "why_tests_cant": "A test compares with one tolerance on a few fields and one BLAS; the error bound must hold for every field, shape, sampling and addition order.", "anchors": ["coralign/util/mft.py: do_mft", "coralign/util/mft.py: do_imft", "coralign/util/mft.py: do_offcenter_mft", "coralign/util/mft.py: _interval"]}
{"id": "C111", "title": "psffit in the presence of noise", "statement": "Whatever noise is added to the target, psffit's whole-pixel estimate correlates with the clean target to within 2 times (norm of the source) times (norm of the noise) of the best whole-pixel shift, and its refined estimate to within the same amount of the best fine sample about it (norm: root of the sum of squared pixels). Hence, when the clean target is a positive multiple of the source translated cyclically by whole pixels, and the overlap of the source with itself drops by more than that amount, relative to the brightness, at every other whole-pixel shift, psffit without upsampling returns exactly the translation, and with upsampling a shift within half the refined region of it; and exactly the translation when the correlation also drops by that amount at every other fine sample of the region.", "quantifier": "all source images, targets, noise patterns, image sizes, translations, brightnesses, whole upsampling factors and paddings", "why_tests_cant": "A test adds a few noise patterns; the guarantee is for every pattern of a given strength, including one made to mislead the search.", "anchors": ["coralign/psffit/psffit.py:psffit", "coralign/psffit/psffit.py:compute_upsampled_dft"]}
{"id": "C112", "title": "Noise in the data moves the estimates by a bounded, stated amount", "statement": "Let an arbitrary disturbance w be added to the data. center_of_energy moves by exactly the moment of w about the undisturbed centre divided by the disturbed energy, hence on a non-negative image by at most the array size times the disturbed fraction of the energy. Both outputs of quadrant_energy_balance move by at most four times that fraction. compute_norm_factor moves by at most the largest disturbance of a selected pixel, whatever happens outside the mask. remove_piston_tip_tilt moves its output, in the sum of squares, by no more than w inside the mask. fit_zernikes moves the fitted wavefront on the usable pixels by no more than w there, and its coefficients by no more than the norm of w divided by the smallest gain of the modes on those pixels. find_optimum_1d on a disturbed parabola succeeds and returns a vertex within an explicit bound of the true one, as long as the curvature exceeds the noise divided by the smallest gain of the sample positions. find_optimum_2d on a disturbed quadratic surface likewise, for a surface that curves up, or down, by at least lambda in every direction. calc_offset_from_spots moves by at most omega (P + M) / (c1 m^2), where P and M are the light in the two spots, omega bounds the disturbance inside either spot, m is the light each spot keeps and c1 is the linear calibration coefficient; calc_bowtie_offsets_from_spots by half the same expression with the light of all four spots, on each axis. compute_gainmap moves the gain of an actuator whose calibrated heights are disturbed by at most eps by at most 6 eps/D for commands within the reference commands, and by at most 2 eps/D between the middles of the first and last reference interval, where D is the smallest step of the reference commands.", "quantifier": "every image size, image, disturbance, mask, percentile, origin and radius; every number of Zernike modes, beam diameter and offset; every sample list and parabola; every routine that solves linear least squares; every spot geometry and valid tuning; every calibration and command within its range", "why_tests_cant": "Tests add one noise realisation to one image; the bound has to hold for every disturbance of every image.", "anchors": ["coralign/util/center.py: center_of_energy", "coralign/util/quad.py: quadrant_energy_balance", "coralign/pupil/util.py: compute_norm_factor", "coralign/dmreg/dr_util.py: remove_piston_tip_tilt", "coralign/util/nollzernikes.py: fit_zernikes", "coralign/util/findopt.py: find_optimum_1d"]}
{"id": "C113", "title": "A bad pixel is never turned into a plausible measurement", "statement": "combine and crop mark bad and missing pixels with NaN. An estimator that is given a frame with such a pixel either does not use that pixel or answers NaN; it never answers a number that ignores the rest of the frame. This holds for center_of_energy (any NaN pixel makes both coordinates NaN), quadrant_energy_balance (any NaN pixel makes both balances NaN, even outside the disc), rms, and compute_norm_factor (NaN if a selected pixel is NaN; NaN pixels outside the mask have no effect). It also holds for calc_offset_from_spots and calc_bowtie_offsets_from_spots (a NaN pixel anywhere in the frame, even outside the regions of interest, makes every offset NaN), for calc_star_location_from_spots and calc_spot_separation (NaN, or the exception of the least-squares routine) and for ampthresh (it raises). It holds for calc_translation_clocking and calc_scale (a NaN pixel anywhere in either phase map, usable or not, makes every estimate NaN or raises) and for platesolv (no best fit, all residuals NaN). calc_software_mask raises on a NaN amplitude and ignores NaN phases outside the bright area. It fails for psffit: with one NaN pixel in either image the reported shift is a constant of the configuration, 3/4 pixel in both axes with the packaged parameters, whatever the images show; only the amplitude is NaN, and only if the bad pixel is in the target. It fails for the coarse pupil search: the estimate is the first candidate position whose disc covers a bad pixel, wherever the light is. It fails for calc_software_mask when a phase is NaN in the bright area and the least-squares routine returns NaN instead of raising: the phase limit then excludes nothing, so the mask contains the bad pixel and every dead actuator.", "quantifier": "every image size, image and set of NaN pixels; every origin, radius, mask, percentile; every upsampling, padding and threshold of psffit; every interpolation routine; every beam diameter, start, search radius and step of the pupil search; every spot tuning and trial grid; every DM calibration, command, tuning and mask of the registration; every plate scale configuration", "why_tests_cant": "The tests use frames without bad pixels; the claim is about every position of the bad pixels in every frame.", "anchors": ["coralign/util/combine_crop.py: combine, crop", "coralign/util/center.py: center_of_energy", "coralign/util/quad.py: quadrant_energy_balance", "coralign/util/math.py: rms", "coralign/pupil/util.py: compute_norm_factor, coarsely_locate_pupil_offset_once", "coralign/psffit/psffit.py: psffit, compute_upsampled_dft", "coralign/focalfit/focalfit.py: calc_offset_from_spots, calc_bowtie_offsets_from_spots", "coralign/occastro/occastro.py: calc_star_location_from_spots, calc_spot_separation", "coralign/util/ampthresh.py: ampthresh", "coralign/dmreg/dmreg.py: calc_software_mask, calc_translation_clocking, calc_scale", "coralign/platesolv/platesolv.py: platesolv"]}
{"id": "C114", "title": "Integer images give the same answers as the same pixel values stored as floats", "statement": "The functions that accept an image of any real type answer for an integer array (a raw detector frame) what they answer for the same values as floats. This holds for center_of_energy and quadrant_energy_balance, for every integer type of up to 32 bits and up to 2^31 pixels. It holds for rms, for the amplitude of psffit and for the mask from which the clocking search starts only as long as the squares, respectively the inner products, still fit the integer type. Beyond that it fails: the rms of an unsigned array never exceeds the root of 2 to the number of bits (16 for uint8, 256 for uint16); a uniform uint16 frame of 256 counts has rms 0 and a uniform int16 frame of 200 counts has rms NaN; psffit finds a star of 400 counts to be 0.3616 times as bright as one of 200 counts in uint16 frames; a uint8 amplitude image with 16 counts in the pupil is refused as uniform.", "quantifier": "every integer type (number of bits, signed or not), image size and image; every origin and radius; every threshold", "why_tests_cant": "The tests use float arrays; overflow depends on the type, the brightness and the number of pixels together.", "anchors": ["coralign/util/math.py: rms", "coralign/util/center.py: center_of_energy", "coralign/util/quad.py: quadrant_energy_balance", "coralign/psffit/psffit.py: psffit", "coralign/pupil/util.py: compute_clocking"]}
{"id": "C115", "title": "DM registration looks only at the change of phase at the usable pixels", "statement": "calc_translation_clocking and calc_scale depend on the phase-retrieval data only through the change of phase modulo full turns, up to piston, tip and tilt, at the pixels of usablePixelMap. The amplitudes, the values at other pixels, full turns of phase and the calibration of the mirror that is not registered have no effect on the answer or on the exception raised. It fails for a piston (or tip, tilt) that moves the change of phase across half a turn in some pixels, because the phase is wrapped before the piston is removed, and for NaN at pixels that are not usable, because the mask is applied by multiplication.", "quantifier": "all phase and amplitude maps, usable-pixel masks, commands, calibrations, tuning parameters, wavelengths; every spline, rotation, shift and least-squares routine meeting its contract", "why_tests_cant": "The claim compares all pairs of data sets that agree at the usable pixels.", "anchors": ["coralign/dmreg/dmreg.py: calc_translation_clocking, calc_scale", "coralign/dmreg/dr_util.py: remove_piston_tip_tilt"]}
{"id": "C116", "title": "Where and how bright things land in the focal plane of a matrix Fourier transform", "statement": "The output of do_mft samples one continuous focal-plane field: pixel (k, l) off the centre pixel is that field k/pixperlod by l/pixperlod lambda/D off axis, whatever the output shape, so two calls with different shapes or samplings agree wherever they sample the same place. A wavefront tilt of a by b waves per pupil diameter moves the whole field by a by b lambda/D towards larger indices, for every real tilt, and by whole pixels when a*pixperlod and b*pixperlod are whole. Placing the pupil elsewhere in the array (or giving do_offcenter_mft another corner) leaves every pixel's brightness and turns its phase by one wave per diameter moved and lambda/D off axis. Zero padding with pad_crop changes nothing. Conjugating the pupil conjugates the field and turns it half a turn about the centre pixel, so a pupil without phase has a centrally symmetric brightness. No pixel is brighter than the summed moduli of the pupil over pixperpupil squared, which a pupil without phase reaches in the centre pixel. Over one period of the focal plane the summed brightness per (lambda/D)^2 equals that per pupil area. do_imft is the adjoint of do_mft for every pair of shapes. Transposing the pupil transposes the output.", "quantifier": "every pupil field, output shape, sampling, real tilt, displacement and padded size", "why_tests_cant": "The statements range over all fields, all real tilts and all shapes; a centring error of one pixel in even or odd sizes, or an error of sign, shows only for some of them.", "anchors": ["coralign/util/mft.py: do_mft, do_offcenter_mft, do_imft", "coralign/util/pad_crop.py: pad_crop"]}
{"id": "C117", "title": "Rolled, mirrored, transposed and conjugated fields through the centred FFT and the Fresnel propagator", "statement": "Rolling a field (np.roll by any whole numbers) changes only the phases of do_fft, each sample by its cycles per array times the roll; tilting a field by whole waves across the array rolls do_fft by that many pixels. Propagating a rolled field on its own grid gives the propagated field rolled. Propagating a field mirrored about its centre row or centre column gives the propagated field mirrored, on the array's own grid for every size and on any larger grid when the mirrored axis is odd. Propagating a transposed field gives the propagated field transposed, and propagating a conjugated field by -z gives the conjugate of the field propagated by z, for every shape and grid. In each case the transformed call is refused exactly when the original is, with the same exception.", "quantifier": "every field, roll, wavelength, distance, sampling and grid size", "why_tests_cant": "Needs all fields and all sizes; a frequency grid off by half a pixel, or not symmetric for even sizes, breaks it only for some.", "anchors": ["coralign/util/fresnelprop.py: do_fft, do_ifft, fresnelprop"]}
{"id": "C118", "title": "Symmetries of the PSF registration", "statement": "psffit treats its two images and the two axes alike. (1) For all images: moving source and target together by whole pixels (with wrap-around) and multiplying each by any non-zero factor leaves the returned shift exactly as it was; multiplying source and target by positive factors a and b multiplies the amplitude ratio by b/a. (2) For images whose registration has one clear answer (a best whole pixel and, when upsampling by a whole factor, a best fine sample inside the refined region) the answer is that one, up to whole turns of the image, and: exchanging source and target reverses the shift; moving source and target by different whole pixels changes it by the difference; turning both images by half a turn reverses it; turning both upside down reverses the row shift only (with upsampling, for an odd number of rows); transposing both exchanges row and column shift. A target which is a moved copy of a source with content at the lowest frequencies has a clear answer.", "quantifier": "all image sizes, all pairs of real images, all gains, all whole-pixel displacements, all configurations with a whole upsampling factor (any real one for the first part)", "why_tests_cant": "The statements compare the results of two runs for every pair of images and every displacement; a test compares a few pairs.", "anchors": ["coralign/psffit/psffit.py:psffit", "coralign/psffit/psffit.py:compute_upsampled_dft"]}
{"id": "C119", "title": "Mirrored, turned, rotated and rescaled Zernike maps and fits", "statement": "The Zernike functions have the symmetries of the polynomials they are named after. xyzern on coordinates rotated by any angle gives, for the cosine and the sine mode of one radial order and azimuthal frequency m, the combination of the two unrotated maps turned by m times the angle. xyzern with all coordinates and the radius multiplied by a positive factor gives the same maps. gen_zernikes with the signs of the sine coefficients and of the row offset changed gives the same map turned upside down about its centre pixel; with the signs of the odd-radial-order coefficients and of both offsets changed, the map turned by half a turn; with both and the sign of the column offset changed, the map mirrored left to right; always with the same size. fit_zernikes on a wavefront and mask of usable pixels turned upside down (or by half a turn) about the centre pixel, with the offsets changed accordingly, returns the same coefficients with the corresponding signs changed, whenever the usable pixels contain a grid of more rows and columns than the largest radial order fitted.", "quantifier": "every coordinate arrays, radius, rotation angle, positive factor and pair of modes; every list of modes and real coefficients, offsets, beam diameter and array size gen_zernikes accepts; every wavefront, mask, number of modes, beam and offsets of fit_zernikes with a determined fit", "why_tests_cant": "Tests compare a few modes at a few pixels; a sign or an axis error shows up only in particular modes, and the symmetry has to hold for every mode, coefficient, offset and size.", "anchors": ["coralign/util/nollzernikes.py: xyzern, gen_zernikes, fit_zernikes"]}
{"id": "C120", "title": "Optimum and centre of energy follow the axes of the data", "statement": "find_optimum_1d and find_optimum_2d find a place, so their answers follow the axes: moving the coordinates along either axis, or reversing the direction of either, does exactly the same to the answer and does not change whether the data are refused; other units along either axis give the same position when neither fit is refused; a constant added to the data, or another order of the one-dimensional samples, changes nothing; and exchanging rows and columns (with the coordinate vectors) exchanges the two coordinates of the answer. center_of_energy of an image turned upside down, mirrored or transposed is the reflected or exchanged position, and the centre of the sum of two images is the energy-weighted mean of their centres. The full property does not hold for the exchange of rows and columns in find_optimum_2d: only the curvature along the rows is tested, so samples of x^2 + x y are refused with QuadraticException while the same samples with rows and columns exchanged give the stationary point.", "quantifier": "every abscissae with three distinct values, every coordinate vectors and mask whose points determine a quadratic, every data, displacement, direction, non-zero unit factors, constants; every image that is not blank (every image for the exchange), over any field", "why_tests_cant": "Tests use one parabola on one grid; a sign, an exchanged axis or a test of only one of the two curvatures shows only for particular data, and the symmetry has to hold for all data, also noisy ones.", "anchors": ["coralign/util/findopt.py: find_optimum_1d, find_optimum_2d", "coralign/util/center.py: center_of_energy"]}
{"id": "C121", "title": "Every command sent to an actuator is a number, whatever its gain", "statement": "dmh_to_volts gives a finite voltage for every actuator and flatten a finite command, also for stuck actuators, whose gain in the map computed by compute_gainmap is zero; an actuator of gain zero changes neither whether flatten returns nor what it returns for the other actuators.", "quantifier": "all gain maps, heights, wavelengths, reference cubes, wavefronts, tie maps and flags", "why_tests_cant": "The packaged calibration files have no zero gains, so no test divides by one; which actuators get a number is a statement about every gain map.", "anchors": ["coralign/util/dmhtoph.py: dmh_to_volts", "coralign/conjugate/conjugate.py: flatten", "coralign/gainmap/gainmap.py: compute_gainmap"]}
{"id": "C122", "title": "Flattening comes to rest", "statement": "Let the instrument obey: the phase measured after a call of flatten is, on the illuminated pixels, what that call was told to leave (the Zernike modes that are not corrected, plus the remainder above the last fitted mode when only the low orders are corrected; everything when the mirrors are not used), less the focus that the focus mechanism has taken away by moving whole steps. Then a second call, given the commands and the phase that the first one left, changes no actuator of either mirror and no step of the focus mechanism, and the same holds for every later call: commands and phase stay for ever as they are after the first. In particular, on a phase that is a combination of uncorrected modes, flatten returns the commands unchanged and reports exactly the coefficients of that combination. This needs the fitted modes to be independent on the illuminated pixels, for which d+1 rows by d+1 columns of illuminated pixels suffice when the modes are of degree at most d.", "quantifier": "all amplitude and phase maps, pupil diameters and offsets, calibrations with regular influence functions and non-zero gains, tie maps, all settings of the three flags, all starting commands, and histories of any length (maps exactly 1000000 pixels wide are excepted: fit_zernikes takes that number as a flag)", "why_tests_cant": "A test runs a few iterations on a few phases; that an iteration once at rest never drifts, whatever the phase, flags and calibration, is a statement about all histories.", "anchors": ["coralign/conjugate/conjugate.py:flatten", "coralign/conjugate/conjugate.py:gen_split_wfe", "coralign/conjugate/conjugate.py:conv_surf_to_dm_cmd", "coralign/util/nollzernikes.py:fit_zernikes"]}
{"id": "C123", "title": "Mirrored, transposed and turned mirrors", "statement": "The model of the mirror surface and the fit of commands have no preferred direction. dmhtoph with flipx set the other way, with commands and influence function mirrored left to right, gives exactly the same answer (surface or exception), for every registration. Mirrored commands and influence function with the rotation and the shift along the rows reversed give the surface mirrored about the centre pixel; transposed ones with the two pixel scales, the two shifts and the two sizes exchanged and the rotation reversed give exactly the transposed surface; turned by a quarter or a half turn, with scales and shifts turned along and the rotation kept, they give the surface turned about the centre pixel. Likewise conv_surf_to_dm_cmd fits a mirrored surface of odd size with mirrored commands and a transposed surface with transposed commands, when the calibration is mirrored or transposed along and the influence matrix is regular. All pixels are meant, also those between actuators.", "quantifier": "all commands, influence functions, sizes, pixel scales, shifts, rotations and flips", "why_tests_cant": "A test uses a few commands, usually symmetric ones with equal scales and no shift, for which an exchanged axis or sign does not show.", "anchors": ["coralign/util/dmhtoph.py:dmhtoph", "coralign/conjugate/conjugate.py:conv_surf_to_dm_cmd", "coralign/util/fit_surf_to_dm.py:fit_surf_to_dm", "coralign/util/fit_surf_to_dm.py:build_prefilter", "coralign/util/fit_surf_to_dm.py:resample_inf_func"]}
{"id": "C124", "title": "Mirrored, transposed and turned measurements", "statement": "The measurements have no preferred direction. For a phase map or amplitude mirrored, transposed or turned by quarter turns, in any combination, remove_piston_tip_tilt, ampthresh and calc_software_mask answer exactly the mirrored, transposed or turned result, or raise the same exception; quadrant_energy_balance of a transposed image with exchanged offsets gives the two balances exchanged. For a data set mirrored (odd number of columns) or transposed (mirror not reversed), with the commands and the DM calibration mirrored or transposed along, the measured change of phase is the mirrored or transposed one, and the misfits minimised by calc_translation_clocking are the same functions of the mirrored or transposed trial registration (shift reversed or exchanged, clocking reversed). Counting the columns of actuators from the other side (gain map, influence function, commands mirrored and flipx set the other way) does not change the answer of calc_translation_clocking at all.", "quantifier": "all images, masks, data sets, calibrations, commands, trial registrations and sequences of mirrorings and transpositions", "why_tests_cant": "An exchanged axis, an off-by-one in a mirrored coordinate or a threshold that depends on the order of the pixels shows only on asymmetric images of suitable sizes; tests use a few images, mostly square ones.", "anchors": ["coralign/dmreg/dr_util.py:remove_piston_tip_tilt", "coralign/util/ampthresh.py:ampthresh", "coralign/dmreg/dmreg.py:calc_software_mask", "coralign/dmreg/dmreg.py:calc_translation_clocking", "coralign/util/quad.py:quadrant_energy_balance"]}
{"id": "C125", "title": "Mirrored and transposed patterns", "statement": "The pattern generators have no preferred direction. A dark hole whose entries are all mirrored (offset along the rows reversed, less one pixel for an even number of columns; clocking to 180 degrees minus it) or transposed (sizes, offsets, width and height exchanged; clocking to 90 degrees minus it) is the mirrored or transposed dark hole, when no sector or bowtie reaches in to its apex. The same holds, pixel for pixel including the grey edges, for circle, rectangle and simple_pupil with any struts, and under transposition for ellipse. On the DM, sine, probe and grid with the corresponding arguments exchanged or reversed give the transposed or mirrored commands; pad_crop and offcenter_crop commute with transposition and pad_crop with mirroring when both numbers of columns are even or both odd. The transposed calls of sine, probe, grid, ellipse, pad_crop and offcenter_crop refuse the same arguments with the same exception.", "quantifier": "all sizes, lists of shapes, offsets, angles, frequencies, spacings, sub-pixel counts and arrays", "why_tests_cant": "An exchanged axis or an off-by-one of the centre pixel shows only for suitable parities and asymmetric arguments; a test looks at a few.", "anchors": ["coralign/buildmodel/darkhole.py:gen_dark_hole_from_yaml", "coralign/util/shapes.py:circle", "coralign/util/shapes.py:rectangle", "coralign/util/shapes.py:ellipse", "coralign/util/shapes.py:simple_pupil", "coralign/util/dmshapes.py:sine", "coralign/util/dmshapes.py:probe", "coralign/util/dmshapes.py:grid", "coralign/util/pad_crop.py:pad_crop", "coralign/util/pad_crop.py:offcenter_crop"]}
{"id": "C126", "title": "An angle is a direction", "statement": "Adding whole turns (multiples of 360 degrees) to an angle changes no result: the rotation of rectangle, rect_proper, ellipse and annular_segments, the clocking of gen_annular_sector and gen_bowtie, the clocking and phase of probe, the phase of sine, the probe direction of calc_offset_from_spots and both angles of calc_bowtie_offsets_from_spots. Half turns change nothing for the shapes with that symmetry (rectangle, ellipse, two opposite annular segments, bowtie) and for the probe directions of calc_star_location_from_spots and calc_spot_separation. The order in which probe directions or the struts of simple_pupil are listed changes nothing.", "quantifier": "every array size, geometry, tuning, image and angle, every number of turns of either sign, every list of directions and every reordering of it; every least-squares routine", "why_tests_cant": "Angles are unbounded and lists of directions arbitrary; a test tries a few angles within one turn.", "anchors": ["coralign/util/shapes.py:rectangle", "coralign/util/shapes.py:rect_proper", "coralign/util/shapes.py:ellipse", "coralign/util/shapes.py:annular_segments", "coralign/util/shapes.py:simple_pupil", "coralign/buildmodel/darkhole.py:gen_annular_sector", "coralign/buildmodel/darkhole.py:gen_bowtie", "coralign/util/dmshapes.py:probe", "coralign/util/dmshapes.py:sine", "coralign/focalfit/focalfit.py:calc_offset_from_spots", "coralign/focalfit/focalfit.py:calc_bowtie_offsets_from_spots", "coralign/occastro/occastro.py:calc_star_location_from_spots", "coralign/occastro/occastro.py:calc_spot_separation"]}
{"id": "C127", "title": "Actuators do not influence each other in the gain-map routines, and the gain carries the right units", "statement": "In compute_heights_for_command_map, compute_commands_for_height_map, compute_delta_height_map_from_command_maps, compute_starting_commands_for_flight and compute_gainmap, what is returned for an actuator depends only on the values given for that actuator and on its own calibration curve: changing the commands, requests or calibrations of other actuators (including requests that get clipped), or even the size of the arrays, does not change it. If the commands are re-expressed on a scale s*c+t (s>0) and an actuator's heights as a*h+b, its gain is multiplied by exactly a/s.", "quantifier": "all command, height and request maps, all reference cubes and command vectors for which the calls return, every interpolator meeting scipy's contract, every actuator, every change of scale and zero point", "why_tests_cant": "Independence of all other actuators' values and calibrations is a statement about pairs of arbitrary inputs.", "anchors": ["coralign/gainmap/gm_util.py: compute_heights_for_command_map, compute_commands_for_height_map, compute_delta_height_map_from_command_maps", "coralign/gainmap/gainmap.py: compute_starting_commands_for_flight, compute_gainmap"]}
{"id": "C128", "title": "An actuator that rises with the command has a positive gain", "statement": "If an actuator's calibrated height increases from every reference command to the next, compute_gainmap gives it a positive gain at every command within the reference commands; more precisely the gain lies between the least and greatest average slope of its calibration.", "quantifier": "all strictly increasing reference command vectors with at least three entries, all calibration curves, all commands within the reference commands", "why_tests_cant": "The gain is a piecewise blend of neighbouring slopes; whether it keeps their sign must hold for every curve and command, and it fails only near the ends.", "anchors": ["coralign/gainmap/gainmap.py: compute_gainmap", "coralign/gainmap/gm_util.py: compute_gain_cube_from_height_cube, compute_diff_and_mean_of_vector"]}
{"id": "C129", "title": "A larger shape covers everything a smaller one does", "statement": "Making a generated shape larger never removes light or pixels. A disc, rectangle, ellipse or set of annular segments with larger dimensions and the same centre and direction is at no pixel darker than the smaller one; drawn as obscurations, at no pixel brighter. A telescope pupil with a larger central obscuration, wider struts or further struts is at no pixel brighter. The mask of a dark-hole region contains that of every region inside it - smaller extent, narrower opening, one sector of a bowtie, a sector or bowtie of the full annulus - and a dark-hole specification each of whose shapes is inside a shape of another one gives a mask inside that of the other, so that adding a shape never removes a pixel. ellipse violates this: stretching a small circle along a diagonal can darken a pixel next to its centre.", "quantifier": "for all array sizes, sampling, centre offsets, rotations and pairs of nested sizes, for all lists of strut angles and for all lists of valid dark-hole shapes", "why_tests_cant": "nesting is a relation between every pair of parameter sets and every pixel; tests compare one shape with one stored value, and the failing ellipses are those whose antialiasing window is too narrow at one pixel", "anchors": ["coralign/util/shapes.py: simple_pupil, circle, rectangle, ellipse, annular_segments", "coralign/buildmodel/darkhole.py: gen_rectangle, gen_annulus, gen_annular_sector, gen_bowtie, gen_dark_hole_from_yaml"]}
{"id": "C130", "title": "The unit of length does not matter", "statement": "The routines that take lengths compute with them only as ratios, so giving every length in another unit - nanometres for metres, and pixels per nanometre for pixels per metre - changes nothing, neither the result nor the exception raised. This holds for the Fresnel propagators (wavelength, distance, pixels per metre), in which wavelength and distance moreover enter only as their product; for the thin-film solver and the occulter coefficients (thicknesses, reference height, wavelength; the materials having the same indices at the renamed wavelength); for gen_hlc_occulter (wavelengths, thickness map, metal thicknesses and sampling of the design); for the conversions between heights and voltages (wavelength and gains, zero gains included); and for flatten (wavelength, pitch and gains of both mirrors, focus per step).", "quantifier": "for all positive conversion factors and for all arguments of these routines, valid or not", "why_tests_cant": "a forgotten or doubled conversion is invisible to tests written in one unit; the property relates two calls for every factor and every argument", "anchors": ["coralign/util/fresnelprop.py: fresnelprop, get_fp, fresnelprop_fp", "coralign/maskgen/util/thinfilm.py: solver, calc_complex_occulter", "coralign/maskgen/maskgen.py: gen_hlc_occulter", "coralign/util/dmhtoph.py: dmh_to_volts, volts_to_dmh", "coralign/conjugate/conjugate.py: flatten, conv_surf_to_dm_cmd"]}
{"id": "C131", "title": "At normal incidence the polarisation does not matter", "statement": "Light that falls on the mask at right angles has no plane of incidence, so TE, TM and their mean must give the same answers. For solver the reflected and transmitted powers are indeed the same, and the transmitted amplitudes too when the substrate is transparent; hence the transmissions of all cells from calc_complex_occulter, and the masks from gen_hlc_occulter, do not depend on pol. The reflection coefficients violate it: the two polarisations have opposite signs, and the mean asked for with pol = 2 is zero for every stack, even for one that reflects nearly everything.", "quantifier": "for all stacks of passive layers, thicknesses, wavelengths, phase conventions, occulter designs and choices of polarisation, at incidence angle zero", "why_tests_cant": "it relates the three polarisation choices for every stack; the tests compare a few transmissions with stored values and never look at a reflection coefficient", "anchors": ["coralign/maskgen/util/thinfilm.py: solver, calc_complex_occulter", "coralign/maskgen/maskgen.py: gen_hlc_occulter"]}
{"id": "C132", "title": "Unwrapping recovers a gently varying phase, and separated segments stay together", "statement": "If the measured phase is a wrapped copy of a phase that changes by less than half a turn between adjacent pixels of the mask, unwrap returns that phase plus one whole number of turns on every connected part of the mask. unwrap_segments does so for the whole pupil, with the same number of turns for all separate segments, provided no pixel is farther than D from the eroded mask and the phase differs by less than half a turn between any two pixels of that mask at most 2D+1 apart (for example a slope of at most L radians per pixel with L(2D+1) < pi). Hence two measurements of one phase that differ by a piston come out with the same shape: the results differ by the piston and one whole number of turns. Without the bridging of unwrap_segments this fails: unwrap can leave a whole turn between two segments on the same data.", "quantifier": "all phase and amplitude maps, true phases, masks with any number of segments of any shape, structuring elements and gap widths; every unwrapping routine that is right between adjacent pixels and every nearest-neighbour interpolator", "why_tests_cant": "the number of turns between segments depends on the wrapping, on the shapes of all segments and on the order in which the external routine visits the pixels; a test sees one of each", "anchors": ["coralign/util/unwrap.py:unwrap", "coralign/util/unwrap.py:unwrap_segments"]}
{"id": "C133", "title": "A noisy pupil is still recognised", "statement": "If a two-level picture of a pupil has errors of at most 1/(2(nBin+2)) of the contrast in every pixel (1/46 with the default 21 bins), ampthresh returns exactly the pupil, for every number of bins from 3 up. More generally, if every pixel lies in the lowest histogram bin or beyond the second one, the mask consists of the latter, however they are spread. The bound is of the right order: for every number of bins from 4 up there is a pupil with errors of 5/(4 nBin - 5) of the contrast whose mask contains background pixels. Consequently two such pictures of the same pupil, with different exposures and different noise, give identical results in fit_unmasked_pupil, fit_pupil_zernikes, fit_circle and calc_software_mask.", "quantifier": "all pupils with at least one pixel inside and one outside, all levels, all errors within the bound, all numbers of bins", "why_tests_cant": "the threshold is the first minimum of a histogram of all pixels, so it depends on every error in every pixel; a test draws one sample of the noise", "anchors": ["coralign/util/ampthresh.py:ampthresh", "coralign/pupil/pupilfit.py:fit_unmasked_pupil", "coralign/pupil/pupilfit.py:fit_pupil_zernikes", "coralign/util/fit_shapes.py:fit_circle", "coralign/dmreg/dmreg.py:calc_software_mask"]}
{"id": "C134", "title": "The coarse-to-fine pupil search finds the centre of an ideal pupil exactly", "statement": "For a picture that is uniformly bright in a disc of the stated diameter lying anywhere in the picture and dark elsewhere, coarsely_locate_pupil_offset returns the exact centre of the disc, for every diameter, picture size, position and shrink factor above 1, although each round tries only a sparse grid of offsets around the previous answer. The stated diameter need not be exact: the answer is the same whenever the stated radius has as many whole pixels as that of the disc, and is off by at most one pixel on each axis when they differ by one and the shrink factor is at least 2. The centre is still found with the step sizes computed in double precision, and if the picture is in error by less than half a bright pixel in all. With a shrink factor of at least 2 it is also found on a uniformly lit ground, however bright, although trial discs that reach over the edge of the picture collect less of the ground; a ground so negative that all pixels are negative defeats the search. For photon counts and masks and a beam size whose circle passes clear of pixels it holds with every operation in double precision and whatever order the pixels are added in. In a photograph of a disc on a uniform ground with an error in every pixel of at most one part in 2(nBin+2) of the contrast, the search of the mask that ampthresh finds returns the centre exactly, and so fit_unmasked_pupil_old starts its fine search there. Hence compute_lateral_offsets with useCoarse=True starts from the true centre (also on a lit ground), and with the same pupil at the centre as reference it returns the true offsets or QuadraticException. If the stated diameter is larger than the pupil the answer may be off by the difference of the radii.", "quantifier": "all pictures of at least two pixels along an axis, real diameters of the disc and of the beam, brightnesses, pixel positions of the centre, shrink factors above 1, and pixel errors with total less than half a bright pixel; photographs with bounded pixel errors of any sign and any number of bins from 3", "why_tests_cant": "the grid of each round depends on the answer of the round before; a wrong turn in any round would lose the pupil, and only for some combination of size, position and shrink factor out of infinitely many", "anchors": ["coralign/pupil/util.py: coarsely_locate_pupil_offset, coarsely_locate_pupil_offset_once, compute_lateral_offsets"]}
