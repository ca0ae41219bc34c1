{"id": "C01", "title": "Parallel runs equal serial runs under every thread schedule", "statement": "For every forward model, fit and prediction that takes a `parallel` flag, the returned array is the same (bit for bit, with no appeal to associativity of +) for parallel=True and parallel=False, whatever the interleaving of the loop iterations, even when each `out[i] += v` is split into a load and a store.", "quantifier": "every number of computation points and sources, every kernel value, every interleaving of the prange iterations at load/store granularity, every floating-point addition operator", "why_tests_cant": "A test observes one schedule of one thread pool; the number of interleavings is exponential.", "anchors": ["src/harmonica/_forward/point.py: point_gravity, _cartesian/_spherical loops", "src/harmonica/_forward/prisms/gravity.py: jit_prism_gravity", "src/harmonica/_forward/prisms/magnetic.py", "src/harmonica/_forward/dipole.py", "src/harmonica/_forward/tesseroid_gravity.py", "src/harmonica/_equivalent_sources/utils.py: jacobian, predict"]}
{"id": "C02", "title": "Superposition: forward models are additive and order independent in the sources", "statement": "The field of a list of sources equals the sum of the fields of any split of that list, does not depend on the order of the sources, scales linearly with the physical property, and is zero for an empty list; holds for point masses, prisms, tesseroids, dipoles, magnetic prisms and ellipsoids.", "quantifier": "all source lists, all computation points, all kernels, all permutations and splits", "why_tests_cant": "Unbounded number of sources and splits.", "anchors": ["src/harmonica/_forward/point.py: point_gravity", "src/harmonica/_forward/prisms/gravity.py: prism_gravity", "src/harmonica/_forward/prisms/magnetic.py: prism_magnetic", "src/harmonica/_forward/dipole.py: dipole_magnetic", "src/harmonica/_forward/tesseroid_gravity.py: tesseroid_gravity", "src/harmonica/_forward/ellipsoids/gravity.py: ellipsoid_gravity"]}
{"id": "C03", "title": "Discarding null sources never changes the result and keeps properties aligned", "statement": "prism_gravity, prism_magnetic and tesseroid_gravity drop exactly the bodies with zero volume or zero density/magnetization; the survivors keep their own density in order, and the returned field is the one that would be obtained without dropping. A zero-thickness tesseroid is harmless whatever way the density is given.", "quantifier": "all lists of bodies and densities", "why_tests_cant": "The alignment of two filtered arrays must hold for every pattern of null bodies.", "anchors": ["src/harmonica/_forward/prisms/gravity.py: _discard_null_prisms", "src/harmonica/_forward/prisms/magnetic.py: _discard_null_prisms", "src/harmonica/_forward/_tesseroid_utils.py: _discard_null_tesseroids", "src/harmonica/_forward/tesseroid_gravity.py: tesseroid_gravity"]}
{"id": "C04", "title": "Field names, signs and units of the gravity forward models", "statement": "For every `field` string: an unrecognised name raises ValueError and nothing is computed; a recognised name returns the SI upward-kernel sum multiplied by exactly the documented sign (downward components are minus the upward ones, g_zz is not flipped) and unit factor (1 for potential, 1e5 mGal for accelerations, 1e9 Eotvos for tensor components). In prism_gravity and tesseroid_gravity an unrecognised `field` is reported before any other problem of the arguments.", "quantifier": "all strings, all inputs, both coordinate systems of point_gravity", "why_tests_cant": "The set of strings is infinite and the precedence of errors depends on combinations of wrong inputs.", "anchors": ["src/harmonica/_forward/point.py: point_gravity, get_kernel", "src/harmonica/_forward/prisms/gravity.py: prism_gravity, FIELDS", "src/harmonica/_forward/tesseroid_gravity.py: tesseroid_gravity", "src/harmonica/_forward/prisms/layer.py: DatasetAccessorPrismLayer.gravity"]}
{"id": "C05", "title": "field='b' agrees with b_e, b_n, b_u, in nT, and is linear in the magnetization", "statement": "dipole_magnetic and prism_magnetic with field 'b' return exactly the triple of arrays returned for 'b_e','b_n','b_u' on the same input, all multiplied by 1e9; unknown fields raise ValueError; scaling or adding magnetizations scales or adds the field.", "quantifier": "all sources, magnetizations, points and field strings", "why_tests_cant": "Requires agreement of separately written loops on all inputs.", "anchors": ["src/harmonica/_forward/dipole.py: dipole_magnetic", "src/harmonica/_forward/prisms/magnetic.py: prism_magnetic"]}
{"id": "C06", "title": "Prism validation accepts exactly the well ordered prisms", "statement": "check_prisms (run by prism_gravity and prism_magnetic) raises ValueError iff some prism has west>east, south>north or bottom>top; prisms with equal bounds are accepted.", "quantifier": "all lists of prisms", "why_tests_cant": "Boundary behaviour over all lists of reals.", "anchors": ["src/harmonica/_forward/prisms/utils.py: check_prisms"]}
{"id": "C07", "title": "Mismatched source/property sizes are always rejected", "statement": "Every forward model raises ValueError when the number of masses/densities/magnetization vectors differs from the number of sources, unless checks are disabled; no computation reads past the end of a property array.", "quantifier": "all sizes of every array involved, including each magnetization component separately", "why_tests_cant": "Only particular mismatch combinations are tried by unit tests.", "anchors": ["src/harmonica/_forward/point.py: point_gravity", "src/harmonica/_forward/dipole.py: _check_dipoles_and_magnetic_moments", "src/harmonica/_forward/prisms/magnetic.py: _run_sanity_checks", "src/harmonica/_forward/prisms/gravity.py: prism_gravity", "src/harmonica/_forward/tesseroid_gravity.py: tesseroid_gravity"]}
{"id": "C08", "title": "Output has the broadcast shape of the coordinates and each entry is the field at its own point", "statement": "For coordinates of mutually broadcastable shapes the output has the broadcast shape and entry i is the field at the i-th broadcast computation point.", "quantifier": "all triples of broadcastable coordinate arrays", "why_tests_cant": "All shapes; unit tests only use equal shapes.", "anchors": ["src/harmonica/_forward/point.py: point_gravity", "src/harmonica/_forward/prisms/gravity.py: prism_gravity", "src/harmonica/_forward/dipole.py: dipole_magnetic", "src/harmonica/_equivalent_sources/cartesian.py: EquivalentSources.predict", "src/harmonica/_spherical_harmonics/igrf.py: IGRF14.predict"]}
{"id": "C09", "title": "Singular-point warning is raised exactly when a point is singular for the requested tensor component", "statement": "prism_gravity warns for a tensor component iff some computation point lies on one of the prism edges/vertices on which that component is not defined (edges parallel to the documented directions, end points included), and never for other fields.", "quantifier": "all points, prisms and fields", "why_tests_cant": "The condition is a measure-zero geometric set.", "anchors": ["src/harmonica/_forward/prisms/gravity.py: _check_singular_points and the _any_singular_point_* helpers"]}
{"id": "C10", "title": "distance() is the Euclidean distance in every coordinate system", "statement": "distance in cartesian, spherical and geodetic systems equals the Euclidean distance of the corresponding 3D points; hence non-negative, symmetric, triangle inequality, invariant to adding 360 degrees of longitude; unknown systems raise ValueError.", "quantifier": "all pairs of points, all ellipsoids", "why_tests_cant": "Real-valued identities over the whole domain.", "anchors": ["src/harmonica/_forward/utils.py: distance, distance_cartesian, distance_spherical, distance_spherical_core, distance_geodetic, geodetic_distance_core, check_coordinate_system"]}
{"id": "C11", "title": "Spherical point-mass acceleration is the radial derivative of the potential", "statement": "At every observation point different from the source, point_gravity g_z in spherical coordinates is minus the derivative with respect to the observation radius of the potential returned for the same source.", "quantifier": "all observation points and sources not coincident", "why_tests_cant": "Differential identity.", "anchors": ["src/harmonica/_forward/point.py: potential_spherical, gravity_u_spherical"]}
{"id": "C12", "title": "Tesseroid validation accepts exactly the documented tesseroids and never changes the body", "statement": "_check_tesseroids accepts a list iff each tesseroid satisfies the documented list of conditions, and the returned boundaries describe the same set of points modulo 360 degrees of longitude, with west<=east and width <= 360.", "quantifier": "all lists of tesseroids", "why_tests_cant": "All real boundaries, wrap-around cases.", "anchors": ["src/harmonica/_forward/_tesseroid_utils.py: _check_tesseroids, _longitude_continuity"]}
{"id": "C13", "title": "Any longitude interval may be written in either longitude convention", "statement": "A tesseroid whose west boundary is numerically greater than its east one and that crosses the 0/360 or -180/180 meridian is accepted (the documented meaning of longitude continuity).", "quantifier": "all (west,east) pairs in [-180,360] with west>east", "why_tests_cant": "All wrap-around pairs.", "anchors": ["src/harmonica/_forward/_tesseroid_utils.py: _longitude_continuity, _check_tesseroids"]}
{"id": "C14", "title": "Points inside a tesseroid are always detected", "statement": "For validated tesseroids, tesseroid_gravity raises ValueError iff some computation point lies strictly inside some tesseroid, longitudes being compared modulo 360 degrees.", "quantifier": "all real longitudes (any number of turns), latitudes, radii, all validated tesseroids", "why_tests_cant": "Infinite families of equivalent longitudes.", "anchors": ["src/harmonica/_forward/_tesseroid_utils.py: check_points_outside_tesseroids, _check_points_outside_tesseroids"]}
{"id": "C15", "title": "Splitting a tesseroid is an exact partition", "statement": "The pieces pushed by _split_tesseroid cover the original tesseroid exactly once (half-open), share its hull and keep its total volume.", "quantifier": "all tesseroids and all n_lon,n_lat,n_rad >= 1", "why_tests_cant": "All sizes and split counts.", "anchors": ["src/harmonica/_forward/_tesseroid_utils.py: _split_tesseroid"]}
{"id": "C16", "title": "Adaptive discretization terminates, is memory safe, partitions the tesseroid and meets the distance-size criterion", "statement": "For every point, tesseroid, distance-size ratio, stack size and output size, the algorithm terminates; it either raises OverflowError or returns small tesseroids that partition the input, keep its volume and all satisfy distance/size >= ratio; it never writes outside the stack or the output array.", "quantifier": "all points, tesseroids, ratios, stack sizes, output sizes, both values of radial_discretization", "why_tests_cant": "Termination and partition for unbounded recursion depth.", "anchors": ["src/harmonica/_forward/_tesseroid_utils.py: _adaptive_discretization"]}
{"id": "C17", "title": "GLQ point masses lie inside the tesseroid, carry positive mass and the exact radial-longitudinal mass", "statement": "Each point mass generated for a tesseroid of positive density lies strictly inside it and has positive mass; total mass is exact in the radial and longitudinal directions (the error is only the two point rule for cos(latitude), which misses less than x^4/150 of the mass, x half of the latitudinal extent in radians, and never exceeds it); the effect is linear in density and the variable density rule agrees with the constant density rule for constant functions.", "quantifier": "all tesseroids, densities, kernels and node/weight sets", "why_tests_cant": "All real boundaries.", "anchors": ["src/harmonica/_forward/_tesseroid_utils.py: gauss_legendre_quadrature, glq_nodes_weights", "src/harmonica/_forward/_tesseroid_variable_density.py: gauss_legendre_quadrature_variable_density"]}
{"id": "C18", "title": "Density-based discretization terminates and partitions the tesseroid radially", "statement": "For every continuous density function the algorithm terminates for any bounded scalar minimiser that returns a point of the interval; the output partitions [bottom, top] radially, keeps horizontal boundaries and every piece satisfies max_diff*size_ratio <= 0.1.", "quantifier": "all continuous densities, all tesseroids with bottom<top, all minimisers that return a point in bounds and its value", "why_tests_cant": "Termination of an optimiser-driven loop over all continuous functions.", "anchors": ["src/harmonica/_forward/_tesseroid_variable_density.py: density_based_discretization, _density_based_discretization, density_minmax, maximum_absolute_diff, straight_line"]}
{"id": "C19", "title": "Prism/tesseroid layers put the top above the bottom: top=max, bottom=min of surface and reference", "statement": "After building a layer or calling update_top_bottom, top is the pointwise maximum and bottom the pointwise minimum of surface and reference, for any numeric dtype of the inputs; the inputs are not modified; wrong shapes raise ValueError.", "quantifier": "all surfaces and references (scalar or array), all dtypes", "why_tests_cant": "All arrays and dtype combinations.", "anchors": ["src/harmonica/_forward/prisms/layer.py: prism_layer, update_top_bottom", "src/harmonica/_forward/tesseroid_layer.py: tesseroid_layer, update_top_bottom"]}
{"id": "C20", "title": "Layer elements tile the layer region", "statement": "For a regular grid of coordinates, neighbouring elements share a face, the union of elements is the region reported by `boundaries`, each element is centred on its grid node, every element is well ordered (west<east, south<north), and get_prism/get_tesseroid return the same element as the full conversion. The shape is (northings, eastings) and the size the number of elements.", "quantifier": "all regular grids, ascending or descending", "why_tests_cant": "All grid sizes, spacings and orientations.", "anchors": ["src/harmonica/_forward/prisms/layer.py: boundaries, _get_prism_horizontal_boundaries, _to_prisms, get_prism", "src/harmonica/_forward/tesseroid_layer.py"]}
{"id": "C21", "title": "Layer gravity equals the gravity of its prisms", "statement": "prism_layer.gravity equals prism_gravity on the prisms of the layer with non-NaN, non-zero density, non-NaN top/bottom and thickness not below the threshold.", "quantifier": "all layers, densities with NaNs and zeros, thresholds, fields", "why_tests_cant": "All NaN/zero patterns.", "anchors": ["src/harmonica/_forward/prisms/layer.py: gravity, _forward_gravity_prism_layer"]}
{"id": "C22", "title": "Tesseroid layers accept a longitude grid iff its tesseroids do not overlap", "statement": "tesseroid_layer raises ValueError iff the tesseroids built on the given longitude coordinates would overlap around the globe.", "quantifier": "all regular longitude axes", "why_tests_cant": "All spacings and sizes; boundary case of an exact global cover.", "anchors": ["src/harmonica/_forward/tesseroid_layer.py: _check_overlap, tesseroid_layer"]}
{"id": "C23", "title": "Tesseroid layer gravity uses each element with its own density, skipping NaN and thin ones only", "statement": "tesseroid_layer.gravity calls the tesseroid forward model with exactly the elements whose top, bottom and density are not NaN and whose thickness is not below the threshold, each paired with its own density, and returns what it returns.", "quantifier": "all layers and NaN patterns", "why_tests_cant": "Alignment over all mask patterns.", "anchors": ["src/harmonica/_forward/tesseroid_layer.py: gravity, _get_nonans_mask, _to_tesseroids, _discard_thin_tesseroids"]}
{"id": "C24", "title": "Equivalent sources: predict is the Jacobian applied to the coefficients and is linear in them", "statement": "predict(coordinates) = jacobian(coordinates, points_) @ coefs_; it is linear in coefs_ and each entry is the sum of coefs divided by Euclidean distance.", "quantifier": "all coordinates, sources and coefficients; cartesian and spherical", "why_tests_cant": "All sizes.", "anchors": ["src/harmonica/_equivalent_sources/utils.py: jacobian, predict", "src/harmonica/_equivalent_sources/cartesian.py: predict, jacobian, greens_func_cartesian", "src/harmonica/_equivalent_sources/spherical.py: greens_func_spherical"]}
{"id": "C25", "title": "Equivalent sources are placed at the documented positions", "statement": "Without user points, sources are below the (block averaged) data by exactly depth_ (or relative_depth in radius); an invalid depth (0 or a string different from 'default') raises ValueError; user points are used unchanged.", "quantifier": "all data coordinates and depths", "why_tests_cant": "All inputs.", "anchors": ["src/harmonica/_equivalent_sources/cartesian.py: __init__, _build_points, fit", "src/harmonica/_equivalent_sources/spherical.py: fit"]}
{"id": "C26", "title": "Gradient boosting keeps residue = data - predict(coefs) after every window", "statement": "For every sequence of windows, any shuffle and any least squares solver, after k windows the recorded rmse_per_iteration_[k] is the RMS of data minus the prediction of the coefficients accumulated so far; sources in no window keep coefficient zero; a single window reproduces the plain equivalent sources fit.", "quantifier": "all window sequences with duplicate-free index windows, all solvers, all data", "why_tests_cant": "Induction over an unbounded number of windows.", "anchors": ["src/harmonica/_equivalent_sources/gradient_boosted.py: _gradient_boosting, fit"]}
{"id": "C27", "title": "Gradient boosting windows stay paired and cover the data", "statement": "After shuffling and dropping empty windows, each data window is still paired with the source window of the same spatial window, none is empty, and a data set small enough for a single window uses all data and all sources.", "quantifier": "all window lists, all shuffles", "why_tests_cant": "All permutations.", "anchors": ["src/harmonica/_equivalent_sources/gradient_boosted.py: _create_windows"]}
{"id": "C28", "title": "estimate_required_memory is the size of the largest Jacobian that fit would build", "statement": "The returned number of bytes equals n_data*n_sources*itemsize of the (largest) Jacobian that fit would allocate for the same coordinates and the same estimator.", "quantifier": "all estimators (with and without user points), all coordinates", "why_tests_cant": "All configurations.", "anchors": ["src/harmonica/_equivalent_sources/cartesian.py: estimate_required_memory", "src/harmonica/_equivalent_sources/gradient_boosted.py: estimate_required_memory", "src/harmonica/_equivalent_sources/spherical.py: estimate_required_memory"]}
{"id": "C29", "title": "estimate_required_memory never changes what a fitted estimator predicts", "statement": "In any history of fit / estimate_required_memory / predict calls, predict uses the sources and coefficients of the last fit.", "quantifier": "all finite histories of calls", "why_tests_cant": "Unbounded histories.", "anchors": ["src/harmonica/_equivalent_sources/gradient_boosted.py: estimate_required_memory", "src/harmonica/_equivalent_sources/cartesian.py", "src/harmonica/_equivalent_sources/spherical.py"]}
{"id": "C30", "title": "Fit with a square non-singular Jacobian and no damping interpolates the data", "statement": "If the least squares solver satisfies the normal equations and the Jacobian is injective on sources and square, predict at the data points returns the data exactly, for Cartesian and spherical sources.", "quantifier": "all data sets and positive weights", "why_tests_cant": "Real-valued identity.", "anchors": ["src/harmonica/_equivalent_sources/cartesian.py: fit, predict"]}
{"id": "C31", "title": "Predictions do not depend on the dtype of the coordinates", "statement": "Passing integer-valued coordinates as integer arrays gives the same predictions as passing them as floats.", "quantifier": "all integer coordinates", "why_tests_cant": "All dtype combinations.", "anchors": ["src/harmonica/_equivalent_sources/spherical.py: predict", "src/harmonica/_equivalent_sources/cartesian.py: predict"]}
{"id": "C32", "title": "Filters are linear, keep the grid geometry and only depend on the padded grid", "statement": "apply_filter is linear in the grid values; the output has the dimension names, shape and dimensional coordinates of the input; non-dimensional coordinates are kept unless drop_coords; a unit filter returns the grid unchanged; padding and unpadding cancel.", "quantifier": "all grids, filters, pad widths and modes", "why_tests_cant": "All grid sizes.", "anchors": ["src/harmonica/filters/_utils.py: apply_filter", "src/harmonica/filters/_fft.py: fft, ifft"]}
{"id": "C33", "title": "Upward continuations compose by adding heights and never amplify", "statement": "Continuing by h1 and then by h2 (no padding) equals continuing by h1+h2; height 0 is the identity; for h>=0 no wavenumber is amplified and the mean is preserved.", "quantifier": "all regular grids with increasing coordinates, all heights", "why_tests_cant": "Semigroup law over all grids.", "anchors": ["src/harmonica/filters/_filters.py: upward_continuation_kernel", "src/harmonica/_transformations.py: upward_continuation"]}
{"id": "C34", "title": "Gaussian low-pass plus high-pass is the identity", "statement": "gaussian_lowpass(g,w) + gaussian_highpass(g,w) = g for every grid, wavelength and padding; the low-pass response is in (0,1], 1 at zero wavenumber and exp(-1/2) at the cutoff, decreasing in |k|.", "quantifier": "all regular grids with increasing coordinates, wavelengths that are not zero and paddings", "why_tests_cant": "All grids.", "anchors": ["src/harmonica/filters/_filters.py: gaussian_lowpass_kernel, gaussian_highpass_kernel", "src/harmonica/_transformations.py"]}
{"id": "C35", "title": "Derivative filters compose, satisfy Laplace's equation and have the sign of the spatial derivative", "statement": "Order-n kernels are the n-th powers of the order-1 kernels; second derivatives along easting, northing and upward sum to zero; the upward derivative kernel is the height derivative of the upward continuation kernel; the easting kernel multiplies a plane wave by its spatial derivative factor.", "quantifier": "all wavenumbers and orders", "why_tests_cant": "All real wavenumbers.", "anchors": ["src/harmonica/filters/_filters.py: derivative_upward_kernel, derivative_easting_kernel, derivative_northing_kernel"]}
{"id": "C36", "title": "Reduction to the pole follows its definition, is the identity at the pole, and accepts the documented defaults", "statement": "Away from zero wavenumber the filter is 1/(Theta_m Theta_f); the zero wavenumber is set to 0; with vertical field and magnetization every non-zero wavenumber is passed unchanged; omitting the magnetization angles is the same as passing the field's angles.", "quantifier": "all angles and wavenumbers, all regular grids with increasing coordinates", "why_tests_cant": "All real angles.", "anchors": ["src/harmonica/filters/_filters.py: reduction_to_pole_kernel", "src/harmonica/_transformations.py: reduction_to_pole"]}
{"id": "C37", "title": "Arguments passed by the caller are never modified by a transformation", "statement": "Transformations leave the caller's pad_kwargs dictionary unchanged, so re-using one dictionary for several grids pads each grid by 25% of its own size.", "quantifier": "all sequences of transformations sharing a dictionary", "why_tests_cant": "History property.", "anchors": ["src/harmonica/filters/_utils.py: apply_filter", "src/harmonica/_transformations.py"]}
{"id": "C38", "title": "Total gradient amplitude and tilt are the documented functions of the gradient", "statement": "total_gradient_amplitude is the Euclidean norm of the gradient (non-negative, invariant under sign change of the grid and rotation of the gradient); the tilt is in [-pi/2, pi/2], is invariant to positive scaling, odd under sign change, and its tangent is vertical over horizontal gradient.", "quantifier": "all regular grids with increasing coordinates", "why_tests_cant": "All real values.", "anchors": ["src/harmonica/_transformations.py: total_gradient_amplitude, tilt_angle"]}
{"id": "C39", "title": "Grids that cannot be transformed are rejected before any computation", "statement": "A grid that is not two-dimensional or that contains a NaN raises ValueError in every FFT based transformation; the check refuses no other grid, and every regular grid with increasing coordinates is accepted (with valid arguments); invalid derivative methods raise ValueError.", "quantifier": "all grids", "why_tests_cant": "All shapes and NaN positions.", "anchors": ["src/harmonica/filters/_utils.py: grid_sanity_checks", "src/harmonica/_transformations.py: derivative_easting, derivative_northing"]}
{"id": "C40", "title": "Magnetic vector and angle representations are mutually inverse", "statement": "magnetic_vec_to_angles(magnetic_angles_to_vec(I,inc,dec)) = (I,inc,dec) for I>0, |inc|<90, dec in (-180,180]; magnetic_angles_to_vec(magnetic_vec_to_angles(v)) = v for every vector; the intensity is the norm; positive inclination points down; degrees and radians outputs agree.", "quantifier": "all vectors and angles", "why_tests_cant": "All real values and quadrants.", "anchors": ["src/harmonica/_utils.py: magnetic_angles_to_vec, magnetic_vec_to_angles"]}
{"id": "C41", "title": "Total field anomaly is the projection of the anomalous field", "statement": "total_field_anomaly is linear in the field, bounded by its norm, equals the norm when parallel, and approximates |F+B|-|F| to second order: 0 <= |F+B|-|F| - TFA <= |B|^2/(2|F|).", "quantifier": "all fields and directions", "why_tests_cant": "All real values.", "anchors": ["src/harmonica/_utils.py: total_field_anomaly"]}
{"id": "C42", "title": "Bouguer correction is the signed infinite slab attraction", "statement": "bouguer_correction is 2*pi*G*rho*h*1e5 with crust density on land and (crust-water) density at sea, is continuous and monotone in topography, zero at zero, and acts elementwise.", "quantifier": "all topographies and densities with crust >= water", "why_tests_cant": "All real values.", "anchors": ["src/harmonica/_gravity_corrections.py: bouguer_correction"]}
{"id": "C43", "title": "Airy Moho balances the mass of the column", "statement": "isostatic_moho_airy returns the depth for which the column of layers, basement and root has the same mass as the reference column, for every list of layers; with no load it returns the reference depth; works for any numeric dtype.", "quantifier": "all numbers of layers, thicknesses, densities, basements", "why_tests_cant": "All layer lists and dtypes.", "anchors": ["src/harmonica/_isostasy.py: isostatic_moho_airy"]}
{"id": "C44", "title": "Euler deconvolution recovers the exact source", "statement": "If the data satisfy Euler's homogeneity equation for a source position and base level and the normal matrix is invertible, fit returns exactly that position and base level, and the covariance is zero; structural index 0 is rejected.", "quantifier": "all data sets of any size", "why_tests_cant": "All sizes and positions.", "anchors": ["src/harmonica/_euler_methods.py: EulerDeconvolution"]}
{"id": "C45", "title": "Euler inversion Newton step solves the linearised constrained problem", "statement": "Each step makes the linearised Euler equations hold exactly, and the exact solution (zero residuals and satisfied Euler equations) is a fixed point; the loop runs at most max_iterations steps, with a warning iff it did not converge. Four weights are needed: with any other number of them fit raises an exception.", "quantifier": "all data sets, weights, iterates, max_iterations", "why_tests_cant": "Unbounded iterations and sizes.", "anchors": ["src/harmonica/_euler_methods.py: EulerInversion._fit, _newton_step, _parameter_jacobian, _data_jacobian_diagonals, _eulers_equation"]}
{"id": "C46", "title": "Euler inversion selects the structural index with the smallest data misfit", "statement": "For a sequence of structural indices the reported structural_index_, location_, base_level_ and covariance_ are those of the same candidate, the first one minimising the misfit; the misfit is the documented weighted norm. An empty sequence, or one with a zero, is refused with ValueError.", "quantifier": "all candidate sequences", "why_tests_cant": "All sequences.", "anchors": ["src/harmonica/_euler_methods.py: EulerInversion.fit"]}
{"id": "C47", "title": "Oasis Montaj header decoding reads every documented field at its byte position", "statement": "Decoding the 512-byte header written from a set of field values returns those values.", "quantifier": "all field values", "why_tests_cant": "All byte strings.", "anchors": ["src/harmonica/_io/oasis_montaj_grd.py: _read_header"]}
{"id": "C48", "title": "Oasis Montaj grids are placed at the right coordinates for both vector orderings", "statement": "Entry (northing i, easting j) of the loaded grid is the file element of that node, for KX=1 and KX=-1, with coordinates origin + index*spacing; a wrong number of elements raises ValueError; an invalid ordering raises.", "quantifier": "all shapes, spacings, origins and data", "why_tests_cant": "All shapes.", "anchors": ["src/harmonica/_io/oasis_montaj_grd.py: load_oasis_montaj_grid, _build_coordinates, _check_ordering"]}
{"id": "C49", "title": "Unsupported Oasis Montaj element types are rejected cleanly", "statement": "Every (element size, sign flag) combination is either decoded with the documented type or rejected with NotImplementedError.", "quantifier": "all integers for size and sign flag", "why_tests_cant": "All integer pairs.", "anchors": ["src/harmonica/_io/oasis_montaj_grd.py: _get_data_type, _check_sign_flag"]}
{"id": "C50", "title": "Dummy values become NaN and only dummies do; the rest are rescaled by the header factors", "statement": "An element of the loaded grid is NaN iff the raw element is a dummy of its data type (or already NaN); otherwise it is raw/data_factor + base_value.", "quantifier": "all data types and values", "why_tests_cant": "All values.", "anchors": ["src/harmonica/_io/oasis_montaj_grd.py: _remove_dummies, DUMMIES, load_oasis_montaj_grid"]}
{"id": "C51", "title": "Compressed grids decompress to the concatenation of their blocks", "statement": "For a compressed file laid out as the format describes, decompressing returns the concatenated uncompressed blocks in order.", "quantifier": "all numbers and sizes of blocks, any lossless codec", "why_tests_cant": "All block layouts.", "anchors": ["src/harmonica/_io/oasis_montaj_grd.py: _decompress_grid"]}
{"id": "C52", "title": "Rotated grids keep distances, and zero rotation is the unrotated grid", "statement": "Coordinates of a rotated grid are the unrotated offsets rotated by the header angle about the origin: distances between nodes are preserved, the origin is fixed, and angle 0 reproduces the plain coordinates.", "quantifier": "all shapes, spacings, angles", "why_tests_cant": "All angles.", "anchors": ["src/harmonica/_io/oasis_montaj_grd.py: _build_rotated_coordinates"]}
{"id": "C53", "title": "ICGEM header parsing recovers the metadata written in the file", "statement": "For every header made of `key value` lines, a blank line, an attributes line, a units line and end_of_head, parsing returns exactly those keys, values, attributes and units; with usecols, attributes and units remain aligned with the kept columns.", "quantifier": "all headers and column selections", "why_tests_cant": "All headers.", "anchors": ["src/harmonica/_io/icgem_gdf.py: _read_gdf_file"]}
{"id": "C54", "title": "ICGEM grids attach every value to its own latitude and longitude", "statement": "For every regular grid file, the value at (latitude i, longitude j) of the returned dataset is the file value on the row with that latitude and longitude; latitudes of a north-to-south file come out ascending.", "quantifier": "all grid shapes and values", "why_tests_cant": "All shapes.", "anchors": ["src/harmonica/_io/icgem_gdf.py: load_icgem_gdf"]}
{"id": "C55", "title": "Malformed ICGEM files raise OSError", "statement": "Files that miss required metadata, have inconsistent attribute/unit counts, no latitude/longitude columns, or a grid size inconsistent with the declared shape or area raise OSError.", "quantifier": "all metadata dictionaries", "why_tests_cant": "All metadata combinations.", "anchors": ["src/harmonica/_io/icgem_gdf.py: _check_gdf_integrity, load_icgem_gdf"]}
{"id": "C56", "title": "IGRF coefficients interpolate the table and are continuous in time", "statement": "At each epoch the coefficients equal the table; between epochs they are the linear interpolation (between the two neighbouring values); they are continuous across epochs; after the last epoch they follow the secular variation; dates outside the valid range raise ValueError.", "quantifier": "all dates without a time zone (those with one raise TypeError) and all coefficient tables with 5-year epochs; degrees up to 13", "why_tests_cant": "All dates.", "anchors": ["src/harmonica/_spherical_harmonics/igrf.py: interpolate_coefficients"]}
{"id": "C57", "title": "The IGRF synthesis computes the spherical harmonic gradient", "statement": "The recursion for cos/sin of multiples of longitude is exact, the radial factor is (R/r)^(n+2), and the three components returned are the documented double sums for every min/max degree; adding disjoint degree ranges adds the fields.", "quantifier": "all points, coefficients and degree ranges", "why_tests_cant": "All degrees.", "anchors": ["src/harmonica/_spherical_harmonics/igrf.py: spherical_harmonics_magnetic_field"]}
{"id": "C58", "title": "IGRF14.grid returns the same field as IGRF14.predict on the grid nodes", "statement": "For every region, shape and height (scalar or one height per node) the gridded field at each node equals predict at that node.", "quantifier": "all grids and height arrays", "why_tests_cant": "All grids.", "anchors": ["src/harmonica/_spherical_harmonics/igrf.py: IGRF14.grid, IGRF14.predict, spherical_harmonics_magnetic_field_grid"]}
{"id": "C59", "title": "Conversion of the field from geocentric to geodetic components is a rotation", "statement": "vector_spherical_to_geodetic keeps the easting component and the norm, is the identity where the two latitudes agree and is inverted by swapping the latitudes.", "quantifier": "all vectors and latitudes", "why_tests_cant": "All real values.", "anchors": ["src/harmonica/_spherical_harmonics/igrf.py: vector_spherical_to_geodetic"]}
{"id": "C60", "title": "Associated Legendre functions equal their definition", "statement": "associated_legendre returns (1-x^2)^(m/2) d^m/dx^m P_n(x) with P_n given by Rodrigues' formula, for every degree, order and x in [-1,1].", "quantifier": "all n, m<=n, x", "why_tests_cant": "All degrees.", "anchors": ["src/harmonica/_spherical_harmonics/legendre.py: associated_legendre"]}
{"id": "C61", "title": "Schmidt and fully normalized functions are the documented multiples of the unnormalized ones", "statement": "associated_legendre_schmidt = S_n^m P_n^m and associated_legendre_full = N_n^m P_n^m with the documented factorial factors; the internal 1e-280 scaling cancels.", "quantifier": "all degrees >= 1, orders and x", "why_tests_cant": "All degrees.", "anchors": ["src/harmonica/_spherical_harmonics/legendre.py: associated_legendre_schmidt, associated_legendre_full, _rescale"]}
{"id": "C62", "title": "Legendre derivative routines return derivatives with respect to colatitude, iterable to any order", "statement": "The *_derivative functions return d/dtheta of the corresponding functions of cos(theta); applying them k times gives the k-th derivative as documented.", "quantifier": "all degrees, orders, angles and iteration counts", "why_tests_cant": "All degrees and orders.", "anchors": ["src/harmonica/_spherical_harmonics/legendre.py: associated_legendre_derivative, associated_legendre_schmidt_derivative, associated_legendre_full_derivative"]}
{"id": "C63", "title": "Sorting the semiaxes of an ellipsoid does not change the body", "statement": "For every order of the semiaxes a,b,c, rotating into the sorted frame maps the ellipsoid with semiaxes (a,b,c) onto the one with sorted semiaxes: the matrix is a proper rotation and the quadratic forms agree.", "quantifier": "all positive semiaxes, including ties", "why_tests_cant": "All orderings and ties.", "anchors": ["src/harmonica/_forward/ellipsoids/utils.py: get_semiaxes_rotation_matrix, check_semiaxes_sorted"]}
{"id": "C64", "title": "calculate_lambda returns the largest root of the confocal ellipsoid equation", "statement": "For every point outside the ellipsoid (a>=b>=c>0), the returned lambda is >=0 and satisfies x^2/(a^2+l)+y^2/(b^2+l)+z^2/(c^2+l)=1, and it is the only such number greater than -c^2.", "quantifier": "all points and semiaxes; prolate, oblate and triaxial branches", "why_tests_cant": "Real algebraic identity with a trigonometric cubic solution.", "anchors": ["src/harmonica/_forward/ellipsoids/utils.py: calculate_lambda"]}
{"id": "C65", "title": "The closed-form elliptic integrals are the integrals of the confocal family", "statement": "For prolate and oblate ellipsoids the returned functions A,B,C of lambda have derivative -1/((e^2+lambda) R(lambda)) and vanish at infinity; for every shape A+B+C = 2/R(lambda).", "quantifier": "all semiaxes and lambda >= 0", "why_tests_cant": "Differential identities.", "anchors": ["src/harmonica/_forward/ellipsoids/utils.py: get_elliptical_integrals, _get_elliptical_integrals_*, get_derivatives_of_elliptical_integrals"]}
{"id": "C66", "title": "Ellipsoid shape dispatch is total and consistent", "statement": "For all sorted positive semiaxes exactly one of the sphere/prolate/oblate/triaxial branches is taken and none of the internal ValueErrors or divisions by zero can occur; unsorted semiaxes are rejected.", "quantifier": "all positive a>=b>=c", "why_tests_cant": "All real triples including near ties.", "anchors": ["src/harmonica/_forward/ellipsoids/utils.py: is_almost_a_sphere, is_almost_prolate, is_almost_oblate, get_elliptical_integrals"]}
{"id": "C67", "title": "Demagnetization tensors: unit trace inside, symmetric and traceless outside", "statement": "The internal demagnetization tensor is diagonal with trace 1; the external one is symmetric with trace 0 at every external point; for a sphere inside it is I/3.", "quantifier": "all semiaxes and points", "why_tests_cant": "All real values.", "anchors": ["src/harmonica/_forward/ellipsoids/magnetic.py: get_demagnetization_tensor_internal, get_demagnetization_tensor_external, _spatial_deriv_lambda"]}
{"id": "C68", "title": "Magnetization of an ellipsoid is self-consistent", "statement": "The magnetization used satisfies M = chi (H0 - N M) + M_r for every susceptibility (scalar or tensor), external field and remanence.", "quantifier": "all susceptibility tensors for which the system is solvable", "why_tests_cant": "All tensors.", "anchors": ["src/harmonica/_forward/ellipsoids/magnetic.py: get_magnetisation"]}
{"id": "C69", "title": "Ellipsoid gravity: unit/sign, skipping of densityless bodies, symmetry and surface continuity", "statement": "ellipsoid_gravity sums the attraction of exactly the bodies with a density, returns mGal with g_z downward, does not depend on the order of bodies; the field is odd about the centre and continuous across the surface; a sphere attracts as a point mass outside.", "quantifier": "all lists of ellipsoids and points", "why_tests_cant": "All lists.", "anchors": ["src/harmonica/_forward/ellipsoids/gravity.py: ellipsoid_gravity, _compute_gravity_ellipsoid"]}
{"id": "C70", "title": "Ellipsoid objects never hold invalid properties, whatever the history of assignments", "statement": "After any sequence of constructions and attribute assignments (failed ones included), a, b, c are positive, density/susceptibility/remanence have valid types and shapes, and a failed assignment leaves the object unchanged.", "quantifier": "all finite histories of attribute assignments", "why_tests_cant": "Unbounded histories.", "anchors": ["src/harmonica/_forward/ellipsoids/ellipsoids.py: Ellipsoid"]}
{"id": "C71", "title": "Rotation matrices are proper rotations with the documented angles", "statement": "get_rotation_matrix(yaw,pitch,roll) is orthogonal with determinant one; zero angles give the identity; yaw rotates east towards north, positive pitch lifts the nose; every proper rotation is reached by some angles. The semiaxes a, b and c of an ellipsoid point where its own yaw, pitch and roll take the easting, northing and upward axes.", "quantifier": "all angles", "why_tests_cant": "All real angles.", "anchors": ["src/harmonica/_forward/utils.py: get_rotation_matrix", "src/harmonica/_forward/ellipsoids/ellipsoids.py: rotation_matrix"]}
{"id": "C72", "title": "Prism vertices for visualization are the eight corners in VTK voxel order, once each", "statement": "The vertex array lists for each prism its eight corners exactly once, in the documented order, each prism in its own block.", "quantifier": "all lists of prisms", "why_tests_cant": "All lists.", "anchors": ["src/harmonica/visualization/_prism.py: _prisms_boundaries_to_vertices"]}
{"id": "C73", "title": "IGRF coefficients are loaded once and predictions do not depend on call history", "statement": "Any sequence of predict/grid/coefficients accesses returns what a fresh object with the same date would return.", "quantifier": "all finite histories of accesses", "why_tests_cant": "Unbounded histories.", "anchors": ["src/harmonica/_spherical_harmonics/igrf.py: IGRF14.coefficients"]}
{"id": "C74", "title": "Horizontal finite-difference derivatives are exact on affine grids and linear", "statement": "derivative_easting/northing with finite differences return the exact slope for every affine grid at every node and are linear in the grid values; order n is n applications. On samples of a function with bounded second and third derivatives along the axis, the error is at most M3/6 times the product of the spacings on both sides inside of the grid and M2/2 times the spacing on its edges.", "quantifier": "all grid sizes >= 2 and coordinates", "why_tests_cant": "All sizes.", "anchors": ["src/harmonica/_transformations.py: derivative_easting, derivative_northing, _get_dataarray_coordinate"]}
{"id": "C75", "title": "Euler deconvolution is equivariant", "statement": "Translating all coordinates translates the estimated location_ and changes nothing else; multiplying the data by a nonzero factor keeps the location and multiplies the base level; adding a constant to the field adds it to the base level; the order of the observations does not matter.", "quantifier": "all data sets, translations, factors, constants and permutations", "why_tests_cant": "Quantifies over all data sets and transformations.", "anchors": ["src/harmonica/_euler_methods.py: EulerDeconvolution.fit"]}
{"id": "C76", "title": "Equivalent sources reject inconsistent shapes without side effects", "statement": "fit of the three equivalent source classes raises ValueError when the shapes of coordinates, data and weights do not agree, and leaves every attribute of the estimator as it was.", "quantifier": "all arrays and estimator states", "why_tests_cant": "All combinations of shapes and previous states.", "anchors": ["src/harmonica/_equivalent_sources/cartesian.py: EquivalentSources.fit", "src/harmonica/_equivalent_sources/gradient_boosted.py: EquivalentSourcesGB.fit", "src/harmonica/_equivalent_sources/spherical.py: EquivalentSourcesSph.fit"]}
{"id": "C77", "title": "load_igrf returns the contents of the coefficient file", "statement": "For every file in the classic format (three lines of comments, a line with the years, rows 'g|h degree order value-per-year secular-variation'), load_igrf returns the years of the header, each value at its epoch, degree and order, and each secular variation; coefficients without a row are zero. A row with a word that is no number, an unknown first word, a degree or order above 13 or below -14 or a number of values that is neither one nor the number of years is never loaded: an error is raised.", "quantifier": "all files, years and sets of rows with degrees and orders up to 13", "why_tests_cant": "Unbounded number of rows, epochs and layouts of white space.", "anchors": ["src/harmonica/_spherical_harmonics/igrf.py: load_igrf"]}
{"id": "C78", "title": "The gravity of ellipsoids obeys Poisson's equation", "statement": "The field computed by ellipsoid_gravity is differentiable at every point that is not on a surface, its derivatives are symmetric (there is a potential) and its divergence is -4 pi G times the sum of the densities of the bodies that contain the point; the demagnetization tensors of ellipsoid_magnetic are these derivatives divided by -4 pi G rho (Poisson's relation).", "quantifier": "all lists of bodies whose semiaxes are not almost equal without being equal, and all points not on a surface", "why_tests_cant": "A differential identity at every point.", "anchors": ["src/harmonica/_forward/ellipsoids/gravity.py: ellipsoid_gravity", "src/harmonica/_forward/ellipsoids/magnetic.py: get_demagnetization_tensor_internal, get_demagnetization_tensor_external"]}
{"id": "C79", "title": "The gravity of an ellipsoid is that of its mass, up to an explicit bound", "statement": "Outside of a body with semiaxes between k and K the component of the gravity towards its center is between G m r/(r^2+K^2-k^2)^(3/2) and G m r/(r^2-K^2+k^2)^(3/2), with the mass m = 4/3 pi a b c rho.", "quantifier": "all bodies whose semiaxes are not almost equal without being equal, and all external points with r^2 > K^2-k^2", "why_tests_cant": "All distances up to infinity.", "anchors": ["src/harmonica/_forward/ellipsoids/gravity.py: ellipsoid_gravity"]}
{"id": "C80", "title": "The magnetic field of an ellipsoid satisfies the boundary conditions", "statement": "Inside a body the field is constant; outside it is continuous up to the surface; across the surface the normal component of B and the tangential component of B/mu0 - M are continuous.", "quantifier": "all bodies whose semiaxes are not almost equal without being equal, inducing fields and surface points", "why_tests_cant": "Every point of a surface.", "anchors": ["src/harmonica/_forward/ellipsoids/magnetic.py: ellipsoid_magnetic, get_demagnetization_tensor_internal, get_demagnetization_tensor_external"]}
{"id": "C81", "title": "A magnetized sphere is a dipole", "statement": "For a sphere with isotropic susceptibility x and remanence Mr the field of ellipsoid_magnetic outside is that of a dipole at its center with moment V (x H0 + Mr)/(1 + x/3), and 2/3 mu0 times the magnetization inside.", "quantifier": "all spheres, susceptibilities over -1, remanences, inducing fields and points", "why_tests_cant": "All real values.", "anchors": ["src/harmonica/_forward/ellipsoids/magnetic.py: ellipsoid_magnetic"]}
{"id": "C82", "title": "The magnetic field of ellipsoids is linear in the inducing field and the remanences", "statement": "For fixed geometries and susceptibilities, ellipsoid_magnetic of a linear combination of inducing fields and remanent magnetizations is the linear combination of the results.", "quantifier": "all lists of bodies, factors, inducing fields and remanences", "why_tests_cant": "All linear combinations.", "anchors": ["src/harmonica/_forward/ellipsoids/magnetic.py: ellipsoid_magnetic, get_magnetisation"]}
{"id": "C83", "title": "get_surface and to_pyvista return points of the surface", "statement": "Ellipsoid.get_surface returns arrays with lat_size rows and lon_size columns whose points are all on the surface of the body; the last column is equal to the first one and the first and last rows are the ends of the third semiaxis. No point of the surface is further from them than the diagonal of the semiaxes times the steps in longitude and latitude. The points of the mesh of to_pyvista are on the surface too: they are the images of points of the unit sphere, of which every point of the surface has one.", "quantifier": "all bodies and sizes", "why_tests_cant": "All sizes and bodies.", "anchors": ["src/harmonica/_forward/ellipsoids/ellipsoids.py: Ellipsoid.get_surface, Ellipsoid.to_pyvista"]}
{"id": "C84", "title": "The fields of an ellipsoid depend on the body, not on its description", "statement": "Two ellipsoids that are the same set of points (exchanged semiaxes with other angles, angles that differ by half turns, any angles for spheres) with the same density have the same gravity; with the same susceptibility tensor and remanence in space they have the same magnetic field.", "quantifier": "all pairs of descriptions of a body whose semiaxes are not almost equal without being equal, and all points", "why_tests_cant": "All pairs of descriptions.", "anchors": ["src/harmonica/_forward/ellipsoids/gravity.py: ellipsoid_gravity", "src/harmonica/_forward/ellipsoids/magnetic.py: ellipsoid_magnetic", "src/harmonica/_forward/ellipsoids/utils.py: get_semiaxes_rotation_matrix"]}
{"id": "C85", "title": "A constant density function is the same as a list of equal densities", "statement": "tesseroid_gravity with a density function that always returns the same nonzero value returns for the same tesseroids and points as with a list that repeats that value, and returns the same array: the discretization by density leaves every tesseroid as it is.", "quantifier": "all nonempty lists of tesseroids with volume, computation points, fields and nonzero constants; any bounded minimiser", "why_tests_cant": "All lists of tesseroids; the two calls take different code paths (variable density loop and quadrature).", "anchors": ["src/harmonica/_forward/tesseroid_gravity.py: tesseroid_gravity", "src/harmonica/_forward/_tesseroid_variable_density.py: density_based_discretization, gauss_legendre_quadrature_variable_density"]}
{"id": "C86", "title": "A progress bar changes nothing but the bar", "statement": "Every forward model that takes progressbar ends with it as without it: same exception or same arrays, serial or parallel. The bar has the number of computation points as its length and is full at the end. If numba_progress is missing, asking for a bar raises ImportError for the inputs for which the call would return; not asking for it never does.", "quantifier": "all inputs, all interleavings, library installed or not", "why_tests_cant": "All interleavings of the threads that share the counter; all inputs.", "anchors": ["src/harmonica/_forward/utils.py: initialize_progressbar", "src/harmonica/_forward/prisms/gravity.py: prism_gravity", "src/harmonica/_forward/prisms/magnetic.py: prism_magnetic", "src/harmonica/_forward/dipole.py: dipole_magnetic", "src/harmonica/_forward/prisms/layer.py: DatasetAccessorPrismLayer.gravity", "src/harmonica/_forward/tesseroid_gravity.py: tesseroid_gravity"]}
{"id": "C87", "title": "Grids of Cartesian equivalent sources", "statement": "EquivalentSources.grid (and EquivalentSourcesGB.grid) of fitted sources, for eastings and northings given as 1d arrays or as a meshgrid with an upward for every node, returns a dataset with those coordinates, whose value in row i and column j is the field of the fitted sources at the (projected) easting j and northing i and the upward of that node. The arguments upward, shape, region and spacing raise ValueError, other extra arguments are ignored with one FutureWarning, arrays that are no grid and sources that were not fitted raise ValueError; scatter is not implemented.", "quantifier": "all grids, fitted sources, projections, names, extra arguments, and interleavings of the parallel prediction", "why_tests_cant": "All grids and projections; orientation mistakes show up only on grids that are neither square nor symmetric.", "anchors": ["src/harmonica/_equivalent_sources/cartesian.py: EquivalentSources.grid, EquivalentSources.scatter"]}
{"id": "C88", "title": "Profiles of equivalent sources", "statement": "EquivalentSources.profile returns size equally spaced points of the segment between the (projected) end points, the first and last of them the end points, with their distance to the first, the upward, the field of the fitted sources there and their coordinates projected back. A size that is not positive raises ValueError; extra_coords is ignored with one UserWarning; any other extra argument is a TypeError.", "quantifier": "all end points, sizes, upward, fitted sources, projections, names and extra arguments", "why_tests_cant": "All end points and sizes.", "anchors": ["src/harmonica/_equivalent_sources/cartesian.py: EquivalentSources.profile", "src/harmonica/_equivalent_sources/utils.py: pop_extra_coords"]}
{"id": "C89", "title": "Grids of spherical equivalent sources", "statement": "EquivalentSourcesSph.grid of fitted sources returns on every node the field of the fitted sources at that longitude, latitude and radius, whatever the dtype of the coordinates; it never projects: upward, shape, region and spacing raise ValueError and any other extra argument, projection included, is ignored with one FutureWarning. profile and scatter are not implemented.", "quantifier": "all grids, dtypes, fitted sources, names, extra arguments and interleavings", "why_tests_cant": "All grids and dtypes.", "anchors": ["src/harmonica/_equivalent_sources/spherical.py: EquivalentSourcesSph.grid, EquivalentSourcesSph.profile, EquivalentSourcesSph.scatter"]}
{"id": "C90", "title": "Symmetries of the gravity of tesseroids and of point masses in spherical coordinates", "statement": "Turning sources and computation points together around the axis of the poles by any angle, with the longitudes written in any of the accepted ways, does not change what tesseroid_gravity and the spherical point_gravity return, nor does adding whole turns to the computation points. Radii scaled by c scale the potential of the same densities by c^2 and g_z by c. The mirror images in a meridian and in the equator give the same fields.", "quantifier": "all tesseroids, densities, points, angles, scales, numbers of subdivisions and interleavings", "why_tests_cant": "The adaptive discretization decides by distances and sizes for every tesseroid and point; the angle is arbitrary, so that tesseroids cross the seam of the longitudes.", "anchors": ["src/harmonica/_forward/tesseroid_gravity.py: tesseroid_gravity", "src/harmonica/_forward/_tesseroid_utils.py: _adaptive_discretization, _tesseroid_dimensions, _split_tesseroid, _longitude_continuity", "src/harmonica/_forward/point.py: point_gravity"]}
{"id": "C91", "title": "Sign of the gravity of tesseroids and point masses", "statement": "Tesseroids with nonnegative densities never give a negative potential. At points that are not below the top of any of them g_z (positive downwards) is not negative either, and both are positive if some tesseroid has mass. Point masses in spherical coordinates that are not negative give no negative potential, and no negative g_z at points whose radius is not smaller.", "quantifier": "all tesseroids, densities, points and interleavings", "why_tests_cant": "Sums over an unbounded number of quadrature nodes and subdivisions.", "anchors": ["src/harmonica/_forward/tesseroid_gravity.py: tesseroid_gravity", "src/harmonica/_forward/point.py: point_gravity"]}
{"id": "C92", "title": "Metadata of the isostatic Moho", "statement": "When the result of isostatic_moho_airy is a DataArray it is named moho_depth and its attributes are isostasy = Airy, density_crust and density_mantle with the densities of crust and mantle as strings, and density_{name} with the density of every layer; every other attribute stays as it was; the values are those without metadata. Results of other types get none.", "quantifier": "all dictionaries of layers and all operands", "why_tests_cant": "All names of layers.", "anchors": ["src/harmonica/_isostasy.py: isostatic_moho_airy"]}
{"id": "C93", "title": "Equivalent sources do not depend on the frame of the coordinates", "statement": "Moving the data points (and the points of the sources, if the user gives them) by a translation or a horizontal rotation or reflection moves the sources and does not change the fitted coefficients of EquivalentSources; predictions at moved points are those at the original points; if fit raises, the moved fit raises the same. The same holds for EquivalentSourcesGB and translations, where the RMS of the iterations do not change either, and for EquivalentSourcesSph and turns around the axis of the poles with longitudes in any range.", "quantifier": "all data, weights, points, parameters, motions, grids and interleavings", "why_tests_cant": "All motions and data; what the external libraries return for moved points is an assumption in the hypotheses (neighbour distances, block medians and windows move with the points).", "anchors": ["src/harmonica/_equivalent_sources/cartesian.py: EquivalentSources.fit, EquivalentSources.predict", "src/harmonica/_equivalent_sources/gradient_boosted.py: EquivalentSourcesGB.fit", "src/harmonica/_equivalent_sources/spherical.py: EquivalentSourcesSph.fit, EquivalentSourcesSph.predict"]}
{"id": "C94", "title": "Equivalent sources are linear in the data", "statement": "If the three classes of equivalent sources fit data d1 and data d2 at the same points with the same weights (and, for EquivalentSourcesGB, the same random_state), they fit a*d1 + b*d2, and the predictions anywhere are a times the first predictions plus b times the second ones. The least squares solver must be linear in the data for a given system, as damped least squares is.", "quantifier": "all data, weights, points, parameters, factors, grids and interleavings", "why_tests_cant": "All data and factors; for gradient boosting through any number of windows.", "anchors": ["src/harmonica/_equivalent_sources/cartesian.py: EquivalentSources.fit, EquivalentSources.predict", "src/harmonica/_equivalent_sources/gradient_boosted.py: EquivalentSourcesGB._gradient_boosting", "src/harmonica/_equivalent_sources/spherical.py: EquivalentSourcesSph.fit"]}
{"id": "C95", "title": "Transformations follow the origin and the units of the coordinates", "statement": "For two grids with the same values, where the coordinates of the second one are the ones of the first one times c > 0 plus an offset on each axis, every grid transformation (with the continuation height and the wavelengths also multiplied by c) returns values that differ by the factor 1 / c**order, where order is the order of the derivative (1 for the total gradient amplitude, 0 for continuation, Gaussian filters, reduction to the pole and tilt). In particular the origin is irrelevant. NaN and exceptions are the same. Finite differences do so for coordinates of any spacing and c of any sign.", "quantifier": "all regular grids with increasing coordinates, all values, scales, offsets, transformations, orders, paddings and arguments (any coordinates for finite differences)", "why_tests_cant": "Tests use a few grids; this must hold for every spacing, origin and scale, and every padding.", "anchors": ["src/harmonica/_transformations.py: derivative_upward, derivative_easting, derivative_northing, upward_continuation, gaussian_lowpass, gaussian_highpass, reduction_to_pole, total_gradient_amplitude, tilt_angle", "src/harmonica/filters/_utils.py: apply_filter", "src/harmonica/filters/_filters.py"]}
{"id": "C96", "title": "Predictions of equivalent sources and potentials of point masses are harmonic", "statement": "What fitted EquivalentSources, EquivalentSourcesGB and EquivalentSourcesSph predict, and the potential that point_gravity returns in spherical coordinates, is one function of the position in space, whatever the arrays and shapes it is asked with. It satisfies Laplace's equation at every point that is not a source, and at a distance of at least d from all the sources its absolute value is at most the sum of the absolute values of the coefficients (G times the masses) over d.", "quantifier": "all sources, coefficients, masses, computation points, shapes and interleavings", "why_tests_cant": "Laplace's equation is a statement about derivatives at every point of space.", "anchors": ["src/harmonica/_equivalent_sources/cartesian.py: EquivalentSources.predict, greens_func_cartesian", "src/harmonica/_equivalent_sources/spherical.py: EquivalentSourcesSph.predict, greens_func_spherical", "src/harmonica/_forward/point.py: point_gravity, potential_spherical", "src/harmonica/_forward/utils.py: distance_cartesian, distance_spherical"]}
{"id": "C97", "title": "The IGRF field has neither divergence nor curl", "statement": "Seen as a function of longitude, colatitude and radius, the magnetic field that the spherical harmonic synthesis returns has derivatives, its divergence is zero and its curl is zero at every point outside the axis (sine of the colatitude over 1e-10), for every set of coefficients and every range of degrees: it is a magnetic field in a region without sources, not only a sum of the documented terms.", "quantifier": "all coefficients, minimum and maximum degrees, points outside the axis and at any radius different from zero, execution modes", "why_tests_cant": "a test compares values at some points with another implementation; divergence and curl involve derivatives at every point", "anchors": ["src/harmonica/_spherical_harmonics/igrf.py:spherical_harmonics_magnetic_field", "src/harmonica/_spherical_harmonics/legendre.py:associated_legendre_schmidt", "src/harmonica/_spherical_harmonics/legendre.py:associated_legendre_schmidt_derivative"]}
{"id": "C98", "title": "The magnetic field of ellipsoids has neither divergence nor curl", "statement": "The magnetic field returned by ellipsoid_magnetic is a differentiable function of the point outside the surfaces of the bodies, its divergence is zero and its curl is zero at every such point, inside and outside of the bodies, for any number of rotated bodies of any shape, susceptibilities and remanences: with the boundary conditions of C80 these are the equations of magnetostatics.", "quantifier": "all lists of ellipsoids with valid semiaxes and passive susceptibilities, inducing fields, and points that are not on a surface", "why_tests_cant": "involves the derivatives at every point of a field with several analytic branches (spheres, oblate, prolate, triaxial)", "anchors": ["src/harmonica/_forward/ellipsoids/magnetic.py:ellipsoid_magnetic", "src/harmonica/_forward/ellipsoids/magnetic.py:get_demagnetization_tensor_external"]}
{"id": "C99", "title": "Fields of ellipsoids follow motions, reflections and changes of scale of the bodies", "statement": "If all the ellipsoids are turned (or reflected), enlarged k times and moved together, the attraction computed by ellipsoid_gravity at the points turned, enlarged and moved in the same way is the original one turned in the same way and k times larger; the field computed by ellipsoid_magnetic, with the remanent magnetizations, the susceptibility tensors and the inducing field turned in the same way, is the original one turned in the same way with the same intensity. It does not matter by which semiaxes, angles and center the moved bodies are described, and such a description exists for every ellipsoid and every motion.", "quantifier": "Every list of ellipsoids with positive semiaxes (almost equal ones being equal) and any densities, passive susceptibilities and remanent magnetizations; every orthogonal matrix, positive factor and translation; every description of the images; every inducing field and every point.", "why_tests_cant": "Tests turn a body by a few angles and compare a few points; the relation is between two runs for every motion of the space and every equivalent description of the bodies.", "anchors": ["src/harmonica/_forward/ellipsoids/gravity.py: ellipsoid_gravity", "src/harmonica/_forward/ellipsoids/magnetic.py: ellipsoid_magnetic", "src/harmonica/_forward/ellipsoids/ellipsoids.py: Ellipsoid.rotation_matrix", "src/harmonica/_forward/utils.py: get_rotation_matrix"]}
{"id": "C100", "title": "Fitting equivalent sources never worsens the misfit", "statement": "With a solver whose solution has at most the misfit of zero coefficients (as least squares, damped or not, has), weights and damping that are not negative: after fit, the weighted sum of squares of data minus predict at the data points is at most that of the data, for Cartesian and spherical sources. For gradient-boosted sources each step does not increase the misfit of the data of its window, and with a single window and no weights the second and last value of rmse_ is at most the first, which is the root mean square of the data.", "quantifier": "all data sets, weights, dampings, windows and thread schedules", "why_tests_cant": "Inequality over all data and all windows.", "anchors": ["src/harmonica/_equivalent_sources/cartesian.py: fit, predict", "src/harmonica/_equivalent_sources/spherical.py: fit, predict", "src/harmonica/_equivalent_sources/gradient_boosted.py: fit, _gradient_boosting"]}
{"id": "C101", "title": "The order of the data does not matter to equivalent sources", "statement": "With a solver, block medians and mean neighbour distance that do not depend on the order of the data (each source keeps its coefficient): fitting the same data in another order (each value with its coordinates and weight), and in another shape, returns if the first fit does, with the same region_ and depth_, the sources in another order, and the same predictions everywhere.", "quantifier": "all data sets, permutations, shapes, weights, parameters and thread schedules, for Cartesian and spherical sources", "why_tests_cant": "All permutations of all data sets.", "anchors": ["src/harmonica/_equivalent_sources/cartesian.py: fit, predict", "src/harmonica/_equivalent_sources/spherical.py: fit, predict"]}
{"id": "C102", "title": "Sources below data at one height reproduce the data exactly", "statement": "With a solver of the normal equations, no damping and positive weights (if any): the sources that EquivalentSources places one below each data point (no points, no block_size) predict the data exactly at the data points, when these are different and at one height and depth_ is not zero. The same holds for EquivalentSourcesSph at one radius with relative_depth not zero and less than the radius, and for EquivalentSourcesGB with the default window size and at most 5000 data, where rmse_per_iteration_ ends in zero. With different heights it can fail: two points for which no coefficients reproduce the data are given.", "quantifier": "all sets of different points at one height, data, weights, depths and thread schedules", "why_tests_cant": "The Jacobian must be invertible for every set of points: positive definiteness of the inverse multiquadric kernel.", "anchors": ["src/harmonica/_equivalent_sources/cartesian.py: fit, predict, _build_points", "src/harmonica/_equivalent_sources/spherical.py: fit, predict", "src/harmonica/_equivalent_sources/gradient_boosted.py: fit"]}
{"id": "C103", "title": "Surveys can be computed in pieces", "statement": "The forward models (point masses, dipoles, prisms, layers of prisms, tesseroids, layers of tesseroids, ellipsoids), predict of equivalent sources and predict of IGRF14 treat the observation points one by one: a call on many points returns exactly when the call on each point alone returns, and then the value at each place is the one that the call on that point alone gives, whatever the other points are, in serial or in parallel.", "quantifier": "every list of points (not empty) in arrays of a common shape, every list of sources, field, coordinate system and flag, every schedule of the threads of both calls", "why_tests_cant": "the number of points, their order and the schedules are unbounded; tests compare a few points", "anchors": ["src/harmonica/_forward/point.py: point_gravity", "src/harmonica/_forward/dipole.py: dipole_magnetic", "src/harmonica/_forward/prisms/gravity.py: prism_gravity", "src/harmonica/_forward/prisms/magnetic.py: prism_magnetic", "src/harmonica/_forward/prisms/layer.py: DatasetAccessorPrismLayer.gravity", "src/harmonica/_forward/tesseroid_gravity.py: tesseroid_gravity", "src/harmonica/_forward/ellipsoids/gravity.py: ellipsoid_gravity", "src/harmonica/_forward/ellipsoids/magnetic.py: ellipsoid_magnetic", "src/harmonica/_equivalent_sources/cartesian.py: EquivalentSources.predict", "src/harmonica/_equivalent_sources/spherical.py: EquivalentSourcesSph.predict", "src/harmonica/_spherical_harmonics/igrf.py: IGRF14.predict"]}
{"id": "C104", "title": "The order of grid filters does not matter, and filters of the same kind combine", "statement": "Without padding, applying two of the grid transformations that filter with the FFT (upward derivative, easting and northing derivatives with method fft, upward continuation, gaussian low-pass and high-pass, reduction to the pole) gives the same grid in either order whenever there is no NaN. Upward derivatives of orders j and k one after the other are the derivative of order j + k, low-pass filters of wavelengths a and b are the one of wavelength sqrt(a^2 + b^2), and horizontal derivatives of orders j and k are the one of order j + k. The upward continuation and the low-pass filter keep the mean of the grid, and the other filters return zero mean; the gaussian filters do not increase its energy.", "quantifier": "all regular grids with increasing coordinates, pairs of filters and their arguments, orders and wavelengths", "why_tests_cant": "the statement is about all pairs of filters on grids of all sizes; the tests filter a few grids once", "anchors": ["src/harmonica/_transformations.py:derivative_upward", "src/harmonica/_transformations.py:derivative_easting", "src/harmonica/_transformations.py:derivative_northing", "src/harmonica/_transformations.py:upward_continuation", "src/harmonica/_transformations.py:gaussian_lowpass", "src/harmonica/_transformations.py:gaussian_highpass", "src/harmonica/_transformations.py:reduction_to_pole", "src/harmonica/filters/_utils.py:apply_filter"]}
{"id": "C105", "title": "The fields of point masses and dipoles are derivatives of one another", "statement": "For any point masses in Cartesian coordinates, every array point_gravity returns holds the values at the observation points of one function per field name. At every point that is not a mass these functions agree with each other in the documented units: g_e, g_n and -g_z (mGal) are 10^5 times the east, north and upward derivatives of the potential, the nine tensor components (E\u00f6tv\u00f6s) are 10^4 times the derivatives of g_e, g_n and g_z with downward derivatives for z, and g_ee + g_nn + g_zz = 0. The components dipole_magnetic returns, together or one by one, are those of one vector field whose derivatives at every point that is not a dipole form a symmetric matrix of trace zero (no curl, no divergence).", "quantifier": "all lists of point masses or dipoles, all observation points away from them, shapes of the arrays and schedules of the parallel loop", "why_tests_cant": "The relations are between derivatives at every point in space, and for every list of sources.", "anchors": ["src/harmonica/_forward/point.py: point_gravity, get_kernel, point_mass_cartesian", "src/harmonica/_forward/dipole.py: dipole_magnetic, _jit_dipole_magnetic_field_cartesian, _jit_dipole_magnetic_component_cartesian"]}
{"id": "C106", "title": "Euler's methods find a point mass from its computed fields", "statement": "Compute the potential or a component of the acceleration of one point mass with point_gravity, and its derivatives with the fields that hold them (the acceleration for the potential, a row of the tensor for a component), all at points away from the mass. With the derivatives in units per metre, upward positive, any constant added to the field, and structural index 1 for the potential or 2 for a component, EulerDeconvolution.fit returns the position of the mass and the constant whenever the derivatives and a constant are linearly independent over the points, and raises LinAlgError otherwise. EulerInversion.fit with at least one iteration and positive weights returns them too, with zero misfit.", "quantifier": "all positions and masses, base levels, lists of observation points away from the mass, shapes of arrays, schedules of the parallel loop, weights and settings", "why_tests_cant": "Exact recovery for every mass, position and set of points; it ties the signs, names and units of two modules together.", "anchors": ["src/harmonica/_euler_methods.py: EulerDeconvolution.fit, EulerInversion.fit", "src/harmonica/_forward/point.py: point_gravity"]}
{"id": "C107", "title": "Spheres computed as ellipsoids agree with point masses and dipoles", "statement": "For any bodies whose three semiaxes are equal, whatever their rotations, and observation points at a distance of every center of at least the radius, ellipsoid_gravity returns the same three arrays as point_gravity returns for g_e, g_n and g_z with masses of volume times density at the centers. With susceptibilities that are numbers over -1 (or not given) and any remanence, ellipsoid_magnetic returns the same three arrays as dipole_magnetic for \"b\" with dipoles at the centers whose moments are the volume times (x H0 + M_r)/(1 + x/3).", "quantifier": "all lists of spheres and of points outside of them or on their surfaces, shapes of the arrays, inducing fields and schedules of the parallel loops", "why_tests_cant": "Two independent implementations must agree on a continuum of bodies and points.", "anchors": ["src/harmonica/_forward/ellipsoids/gravity.py: ellipsoid_gravity", "src/harmonica/_forward/ellipsoids/magnetic.py: ellipsoid_magnetic", "src/harmonica/_forward/point.py: point_gravity", "src/harmonica/_forward/dipole.py: dipole_magnetic"]}
{"id": "C108", "title": "The FFT transformations act on one harmonic function above the grid", "statement": "For every regular grid, padding mode and padding width there is one function of space that is smooth, satisfies Laplace's equation, is bounded above the grid and periodic, takes the values of the grid at its nodes, and of which the transformations return exact samples: upward_continuation(h) returns its values at height h, and derivative_easting and derivative_northing (fft) and derivative_upward of any order return its derivatives at the nodes. As the height grows the continuation approaches one constant, the mean of the grid when it is not padded.", "quantifier": "all regular grids with increasing coordinates, all padding options, heights and orders", "why_tests_cant": "Existence of one function that explains every call at once, for every grid and height.", "anchors": ["src/harmonica/filters/_utils.py: apply_filter", "src/harmonica/filters/_filters.py: upward_continuation_kernel, derivative_easting_kernel, derivative_northing_kernel, derivative_upward_kernel", "src/harmonica/_transformations.py: upward_continuation, derivative_easting, derivative_northing, derivative_upward"]}
{"id": "C109", "title": "The reduction to the pole is the anomaly of the same sources with vertical directions", "statement": "For every regular grid, padding and pair of directions whose inclinations have nonzero sine there is one harmonic function of space, bounded above the grid, whose derivative along the magnetization and along the geomagnetic field equals the grid plus a constant (the mean, without padding), and reduction_to_pole returns its second vertical derivative.", "quantifier": "all regular grids with increasing coordinates, all padding options, all angles with nonzero sine of the inclinations", "why_tests_cant": "Holds for every grid and all real angles, as an identity between derivatives.", "anchors": ["src/harmonica/filters/_filters.py: reduction_to_pole_kernel", "src/harmonica/_transformations.py: reduction_to_pole", "src/harmonica/filters/_utils.py: apply_filter"]}
{"id": "C110", "title": "The potential of tesseroids is bounded by their mass over their distance", "statement": "For tesseroids with densities that are not negative, if all their points are at distances between lo > 0 and hi from an observation point, the value that tesseroid_gravity returns there for the potential is at most G M / lo and at least G M / hi but for a relative error below x^4/150, where M is the exact mass of the tesseroids and x half of their largest latitudinal extent in radians; so far away it is G M / R.", "quantifier": "every set of tesseroids (also crossing the zero meridian, of zero volume or of zero density), all densities >= 0, every set of observation points, every schedule, both discretizations, all bounds lo and hi", "why_tests_cant": "It relates the returned number to the exact mass of the bodies, for all the ways in which the adaptive discretization can divide them; tests compare a few tesseroids with shells.", "anchors": ["src/harmonica/_forward/tesseroid_gravity.py:tesseroid_gravity", "src/harmonica/_forward/_tesseroid_utils.py:gauss_legendre_quadrature", "src/harmonica/_forward/_tesseroid_utils.py:_adaptive_discretization"]}
{"id": "C111", "title": "Prism models with the same density have the same gravity", "statement": "Two sets of prisms that have the same total density at (almost) every point of space produce the same result of prism_gravity, for every field: cutting a prism in two by a plane, joining, reordering, overlapping prisms or adding prisms whose densities cancel changes nothing, also at observation points inside of the prisms (for the components of the tensor, outside of them). Moving the observation points and the prisms together by any vector changes nothing either.", "quantifier": "all observation arrays, all lists of prisms with ordered bounds and their densities, all pairs of lists with the same density, all cutting planes, all displacements, both execution modes", "why_tests_cant": "The number of ways of dividing a body into prisms is infinite; a test compares a few of them.", "anchors": ["src/harmonica/_forward/prisms/gravity.py: prism_gravity, _discard_null_prisms, jit_prism_gravity"]}
{"id": "C112", "title": "Gravity of prisms is bounded by mass over distance", "statement": "With densities that are not negative and every point of the prisms at a distance between lo and hi from the observation point, the potential that prism_gravity returns is between G M / hi and G M / lo, where M is the sum of density times volume; each component of the acceleration is at most G M / lo\u00b2 (in mGal) in absolute value, and where all prisms are lower than the observation point by at least depth, g_z is at least G M depth / hi\u00b3.", "quantifier": "all observation arrays, all lists of prisms with ordered bounds and non-negative densities, all bounds on the distances, both execution modes", "why_tests_cant": "Bounds for every geometry cannot be tested one by one.", "anchors": ["src/harmonica/_forward/prisms/gravity.py: prism_gravity, _discard_null_prisms, jit_prism_gravity"]}
{"id": "C113", "title": "Fields of prisms are derivatives of one another", "statement": "The results of prism_gravity at points outside of the prisms are values of one function per field; g_e, g_n and -g_z are the derivatives of the potential, the tensor components are the derivatives of the acceleration (symmetric, with the documented units and signs) and g_ee + g_nn + g_zz = 0. The components returned by prism_magnetic at points outside of the prisms are the values of one vector field without divergence nor curl.", "quantifier": "all lists of prisms with ordered bounds and densities or magnetizations, all observation points outside of them, both execution modes", "why_tests_cant": "Derivatives are limits over infinitely many points.", "anchors": ["src/harmonica/_forward/prisms/gravity.py: prism_gravity, _discard_null_prisms, jit_prism_gravity", "src/harmonica/_forward/prisms/magnetic.py: prism_magnetic"]}
{"id": "C114", "title": "Poisson's relation between gravity and magnetic fields of prisms", "statement": "When the magnetization of each prism is its density times one constant vector v, the field of prism_magnetic (nT) at points outside of the prisms equals mu0 / (4 pi G) times the gradient tensor that prism_gravity returns (E\u00f6tv\u00f6s) for the same prisms, applied to v, with a minus sign for the components that mix z (downwards) with easting or northing.", "quantifier": "all lists of prisms with ordered bounds and densities, all vectors v, all observation arrays outside of the prisms, both execution modes", "why_tests_cant": "Relates two functions for every geometry and every vector.", "anchors": ["src/harmonica/_forward/prisms/gravity.py: prism_gravity, _discard_null_prisms, jit_prism_gravity", "src/harmonica/_forward/prisms/magnetic.py: prism_magnetic"]}
{"id": "C115", "title": "The gravity of a prism layer is that of the body between its surface and its reference", "statement": "A layer made with prism_layer from a surface and a reference (a number or an array) produces, with its gravity method, the integral over the body between them: the density of each node over the cell around it, between the lower and the higher of surface and reference. Two layers on different grids that describe the same body (for instance a refined grid) have the same gravity, and cutting a layer in two by any surface between its bottom and its top gives two layers whose gravity adds up to that of the whole. Points may be inside of the layer, except for the components of the tensor.", "quantifier": "all regular grids with ascending coordinates, all surfaces, references and densities (NaNs in any of them for layers given by top and bottom), all non-negative thresholds, all fields, all observation arrays, both execution modes", "why_tests_cant": "Grids, surfaces and the ways of refining or cutting them are infinitely many.", "anchors": ["src/harmonica/_forward/prisms/layer.py: prism_layer, DatasetAccessorPrismLayer.gravity, _forward_gravity_prism_layer, update_top_bottom"]}
{"id": "C116", "title": "Prism models with the same magnetization have the same magnetic field", "statement": "Two sets of prisms that have the same total magnetization vector at (almost) every point of space produce the same result of prism_magnetic at points outside of them, for every field: cutting a prism by a plane, joining, reordering, overlapping prisms or adding prisms whose magnetizations cancel changes nothing. Moving the observation points and the prisms together changes nothing either. The result is the integral over space of the field of dipoles with that magnetization.", "quantifier": "all observation arrays, all pairs of lists of prisms with ordered bounds and the same magnetization, all cutting planes, all displacements, both execution modes", "why_tests_cant": "The number of ways of dividing a body into prisms is infinite; a test compares a few of them.", "anchors": ["src/harmonica/_forward/prisms/magnetic.py: prism_magnetic, _discard_null_prisms"]}
{"id": "C117", "title": "Point masses and dipoles do not depend on the orientation of the axes", "statement": "With observation points and sources (and the moments of dipoles) given in axes turned or mirrored by any orthogonal matrix, point_gravity returns the same potential, and the acceleration (g_e, g_n, -g_z), the gradient tensor and the magnetic field of dipole_magnetic are those of the original axes, transformed by the same matrix.", "quantifier": "all orthogonal matrices, all point masses and dipoles, all observation points that are not sources, both execution modes", "why_tests_cant": "There is a continuum of orientations; units, signs of z and the names of the tensor components must all agree.", "anchors": ["src/harmonica/_forward/point.py: point_gravity", "src/harmonica/_forward/dipole.py: dipole_magnetic"]}
{"id": "C118", "title": "Bodies of prisms do not depend on the orientation of the axes", "statement": "When one set of prisms has the density (magnetization) of another set seen from axes turned or mirrored by an orthogonal matrix (for instance quarter turns and mirrors of every prism), prism_gravity returns the same potential and the transformed acceleration and tensor, and prism_magnetic the transformed field. Points may be inside of the prisms for the potential and the acceleration.", "quantifier": "all orthogonal matrices, all pairs of lists of prisms with ordered bounds whose densities (magnetizations) correspond, all observation arrays, both execution modes", "why_tests_cant": "Infinitely many bodies, orientations and subdivisions.", "anchors": ["src/harmonica/_forward/prisms/gravity.py: prism_gravity", "src/harmonica/_forward/prisms/magnetic.py: prism_magnetic"]}
{"id": "C119", "title": "Grids of the IGRF without a shape and a spacing determine the field", "statement": "Without a shape and a spacing, IGRF14.grid uses the spacing of the sampling theorem for the maximum degree N: 180/(2N+2) degrees. For a region that goes around the Earth, the values at the nodes of a parallel determine the field at every longitude of that parallel. For the whole spherical Earth, they determine the field at every point and height: two dates whose grids agree give the same field everywhere.", "quantifier": "all dates, tables of coefficients, degrees, heights and first longitudes, all thread schedules", "why_tests_cant": "Infinitely many models and points; that 2N+3 parallels and 4N+4 meridians suffice for degree N is a theorem about polynomials.", "anchors": ["src/harmonica/_spherical_harmonics/igrf.py: IGRF14.grid, calculate_ideal_spacing"]}
{"id": "C120", "title": "The dataset of an IGRF grid says what it holds", "statement": "IGRF14.grid returns the coordinates of the nodes and variables b_east, b_north, b_up on (latitude, longitude) that hold at each node the components that predict returns there; units, directions, date, ellipsoid and the ranges of the coordinates (their least and greatest values) are those of the attributes. Arguments that are refused leave the object as it was.", "quantifier": "all regions, shapes, spacings, heights constant along parallels, dates and ellipsoids", "why_tests_cant": "All grids and histories.", "anchors": ["src/harmonica/_spherical_harmonics/igrf.py: IGRF14.grid"]}
{"id": "C121", "title": "The degree one part of the IGRF is the field of a dipole at the Earth's centre", "statement": "With min_degree = max_degree = 1, IGRF14.predict returns the east, north and up (normal to the ellipsoid) components of the field that dipole_magnetic computes, in geocentric Cartesian coordinates, for a single dipole at the origin whose moment is 4 pi R^3 / mu0 (g11, h11, g10) with the coefficients of the date in tesla and R = 6371.2 km.", "quantifier": "all dates, tables of coefficients, ellipsoids, lists of points away from the axis of rotation, thread schedules", "why_tests_cant": "Two unrelated pieces of code must agree on all points and coefficients; tests compare a few.", "anchors": ["src/harmonica/_spherical_harmonics/igrf.py: IGRF14.predict, spherical_harmonics_magnetic_field, vector_spherical_to_geodetic", "src/harmonica/_forward/dipole.py: dipole_magnetic"]}
{"id": "C122", "title": "IGRF predictions follow the date: linear between epochs, continuous everywhere", "statement": "For every point the field returned by IGRF14.predict changes at a constant rate between two epochs of the table (and after the last one, with the secular variation), and is a continuous function of the date in the whole range: no jumps at the epochs.", "quantifier": "all regular tables, dates, degree ranges, ellipsoids and points, all thread schedules", "why_tests_cant": "A continuum of dates and points; a jump at an epoch can be missed by any finite sample.", "anchors": ["src/harmonica/_spherical_harmonics/igrf.py: IGRF14.predict, interpolate_coefficients"]}
{"id": "C123", "title": "The Bouguer correction is the gravity of an infinite plate of prisms", "statement": "The g_z of prism_gravity, for wider and wider prisms between the topography and the ellipsoid (density of the crust on land, of the water minus the crust at sea), tends to bouguer_correction of that topography at every observation point over them. A prism that extends L around the point has it up to a relative error of 4 z / (pi L), with z the height over its base. On land no body within the plate, of at most the density of the crust, has a larger g_z.", "quantifier": "all topographies, densities, observation points above, sequences of prisms and sets of prisms in the plate", "why_tests_cant": "A limit over all prism sizes and a bound over all bodies.", "anchors": ["src/harmonica/_gravity_corrections.py: bouguer_correction", "src/harmonica/_forward/prisms/gravity.py: prism_gravity"]}
{"id": "C124", "title": "A wide region in isostatic equilibrium has no gravity", "statement": "Take the masses that distinguish a column (basement, layers, Moho) from the reference column as prisms over a rectangle: topography or missing crust, layers, root or antiroot. As the rectangle grows their g_z from prism_gravity tends to zero at all points above them if and only if their Moho is at the depth that isostatic_moho_airy returns for that column.", "quantifier": "all columns, layers of any number, densities, elements of the arrays, observation points above and growing sequences of rectangles", "why_tests_cant": "A limit over all region sizes, for all columns, and a uniqueness claim over all depths.", "anchors": ["src/harmonica/_isostasy.py: isostatic_moho_airy", "src/harmonica/_forward/prisms/gravity.py: prism_gravity"]}
{"id": "C125", "title": "The gravity over the sources gives their total mass", "statement": "The integral of g_z of point_gravity or prism_gravity over ever larger rectangles of a horizontal plane above all the sources tends to 2 pi G times their total mass (in mGal). For a rectangle that extends L around the sources it has it up to 8 z / L times G times the masses, with z the depth of each source under the plane.", "quantifier": "all sets of point masses and prisms below the plane, of any sign, and all sequences of growing rectangles", "why_tests_cant": "A limit of integrals over the plane, for all sets of sources.", "anchors": ["src/harmonica/_forward/point.py: point_gravity", "src/harmonica/_forward/prisms/gravity.py: prism_gravity"]}
{"id": "C126", "title": "No magnetic flux through a plane over the sources", "statement": "The flux of the field of dipole_magnetic or prism_magnetic (the integral of b_u) through ever larger rectangles of a horizontal plane above all the sources tends to zero, whatever their magnetization: there are no magnetic charges. For a rectangle that extends L around the sources it is at most a constant over L, given in terms of the moments.", "quantifier": "all sets of dipoles and prisms below the plane, of any magnetization, and all sequences of growing rectangles", "why_tests_cant": "A limit of integrals over the plane, for all sets of sources.", "anchors": ["src/harmonica/_forward/dipole.py: dipole_magnetic", "src/harmonica/_forward/prisms/magnetic.py: prism_magnetic"]}
{"id": "C127", "title": "Grid transformations have no preferred direction", "statement": "Swapping the axes of a grid (exchanging the easting and northing derivatives, and measuring the declinations from the other axis) swaps the axes of the result of every transformation. Mirroring a grid east-west or north-south (and its declinations) mirrors the result, with the opposite sign for odd derivatives along that direction. The same exceptions are raised.", "quantifier": "all regular grids with increasing coordinates, transformations, orders, methods, arguments (valid or not) and paddings (for mirrors: with the same width at both ends)", "why_tests_cant": "A relation between the results for all grids and all arguments, with the padding and the frequencies of both grids.", "anchors": ["src/harmonica/_transformations.py: derivative_easting, derivative_northing, derivative_upward, upward_continuation, gaussian_lowpass, gaussian_highpass, reduction_to_pole, total_gradient_amplitude, tilt_angle", "src/harmonica/filters/_utils.py: apply_filter", "src/harmonica/filters/_filters.py"]}
{"id": "C128", "title": "Filters do not depend on the position in the grid, and are reciprocal", "statement": "Without padding, moving the values around the grid (what leaves through one side enters through the opposite one) moves the result of every transformation that filters with the FFT. The sum of the product of a filtered grid with a second grid is the one of the first grid with the second filtered backwards: the same filter, with the opposite sign for odd horizontal derivatives and with opposite declinations for the reduction to the pole.", "quantifier": "all regular grids with increasing coordinates, displacements, filters and arguments (displacements: also the ones that raise)", "why_tests_cant": "A relation between the results for all pairs of grids and all displacements.", "anchors": ["src/harmonica/_transformations.py", "src/harmonica/filters/_utils.py: apply_filter", "src/harmonica/filters/_filters.py"]}
{"id": "C129", "title": "The representation of an ellipsoid shows what it is", "statement": "Two ellipsoids have the same repr() exactly if they have the same semiaxes, center, angles and density, and susceptibilities and remanent magnetizations that are both absent, equal numbers, or arrays that numpy prints the same (for the list of its attributes). repr() is a call of the class with the attributes by name: semiaxes, center, angles and those of density, susceptibility and remanent magnetization that are present.", "quantifier": "all pairs of ellipsoids whose attributes are numbers that Python prints apart", "why_tests_cant": "All pairs of objects, with any subset of the optional properties.", "anchors": ["src/harmonica/_forward/ellipsoids/ellipsoids.py: Ellipsoid.__repr__"]}
{"id": "C130", "title": "The order of the dimensions of the properties of a layer does not matter", "statement": "For xarray a variable with dimensions (easting, northing) is the same as its transpose. The gravity of a layer of prisms or tesseroids, and its export to pyvista, use every value of a property at its own element, whatever the order of the dimensions of the variable that holds it.", "quantifier": "all layers, properties, orders of dimensions, fields and thresholds", "why_tests_cant": "All shapes of layers and both orders of the dimensions.", "anchors": ["src/harmonica/_forward/prisms/layer.py: DatasetAccessorPrismLayer.gravity, to_pyvista, _forward_gravity_prism_layer", "src/harmonica/_forward/tesseroid_layer.py: gravity, _get_nonans_mask"]}
{"id": "C131", "title": "Euler's methods do not depend on the axes, the unit of the field or the order of the data", "statement": "Turning (or mirroring) and moving the axes, multiplying the field and its derivatives by a number other than zero, and reordering the observations changes the results of EulerDeconvolution and EulerInversion accordingly: the location is the moved location, the base level takes the factor, the covariance is that of the new position and base level, data_misfit_ takes the size of the factor, and the structural index, the warning about convergence and the exceptions are the same. For EulerInversion the axes that are mixed must have derivatives of the same weight. Adding a constant to the field adds it to the base level of EulerInversion and changes nothing else, if no test of convergence can succeed (tol is not positive) or there is at most one iteration: the first prediction, 0.9 times the field, depends on the constant, so the first test of convergence does.", "quantifier": "all surveys, rotations, translations, factors, permutations, weights, structural indices or sequences of them, settings, numbers of iterations and earlier results of the object", "why_tests_cant": "All rotations, all data and any number of iterations of the nonlinear inversion.", "anchors": ["src/harmonica/_euler_methods.py: EulerDeconvolution.fit, EulerInversion.fit, EulerInversion._fit, EulerInversion._newton_step"]}
{"id": "C132", "title": "A fit of Euler's methods that raises leaves the object as it was", "statement": "If fit of EulerDeconvolution or EulerInversion raises, the attributes of the object are those of before. If it does not raise, the results do not depend on earlier fits of the object.", "quantifier": "all data, weights, structural indices and sequences of them, settings and earlier results", "why_tests_cant": "All histories of fits and all points at which a fit can raise.", "anchors": ["src/harmonica/_euler_methods.py: EulerDeconvolution.fit, EulerInversion.fit, EulerInversion._fit"]}
{"id": "C133", "title": "Fields are bounded by mass or moment over a power of the distance", "statement": "At a distance of d or more of all the sources (of every point of every prism), the potential of point masses or prisms is at most G times the sum of the sizes of the masses over d, every component of the acceleration at most G M / d\u00b2 (in mGal), every component of the tensor at most 2 G M / d\u00b3 (in E\u00f6tv\u00f6s), and the magnitude of the magnetic field of dipoles or prisms at most mu_0 / (2 pi) times the sum of the magnitudes of the moments over d\u00b3 (in nT). Masses and densities can have any sign.", "quantifier": "all sources, magnitudes of any sign, observation points, distances, fields, serial and parallel execution", "why_tests_cant": "A bound for all sets of sources and all observation points.", "anchors": ["src/harmonica/_forward/point.py: point_gravity", "src/harmonica/_forward/prisms/gravity.py: prism_gravity", "src/harmonica/_forward/dipole.py: dipole_magnetic", "src/harmonica/_forward/prisms/magnetic.py: prism_magnetic"]}
{"id": "C134", "title": "Orders of derivatives: zero is the grid, negative orders give no numbers", "statement": "The derivatives of order zero return the grid, with both methods and any padding. A derivative of negative order never returns numbers: it raises or is NaN everywhere.", "quantifier": "all regular grids with increasing coordinates, integer orders, methods, paddings", "why_tests_cant": "All integer orders and all grids.", "anchors": ["src/harmonica/_transformations.py: derivative_upward, derivative_easting, derivative_northing", "src/harmonica/filters/_filters.py: derivative_upward_kernel, derivative_easting_kernel, derivative_northing_kernel"]}
{"id": "C135", "title": "Airy Moho of DataArrays by coordinates", "statement": "For DataArrays, isostatic_moho_airy matches the basement, the thicknesses, the densities and the reference depth by the labels of their coordinates, whatever the order of dimensions and labels: the value at a point is the one depth that balances the column of the values at that point. It returns a depth at every point of the basement.", "quantifier": "all numbers of layers, DataArrays with any dimensions and labels, all inner joins", "why_tests_cant": "All grids and labels.", "anchors": ["src/harmonica/_isostasy.py: isostatic_moho_airy"]}
{"id": "C136", "title": "Layers built from DataArrays match the coordinates", "statement": "When surface, reference and properties of prism_layer or tesseroid_layer are DataArrays, every element of the layer takes their values at its own coordinates, whatever the order of their dimensions and labels.", "quantifier": "all grids, labels and orders of dimensions, prisms and tesseroids", "why_tests_cant": "All labels of all DataArrays.", "anchors": ["src/harmonica/_forward/prisms/layer.py: prism_layer, DatasetAccessorPrismLayer.update_top_bottom", "src/harmonica/_forward/tesseroid_layer.py: tesseroid_layer, DatasetAccessorTesseroidLayer.update_top_bottom"]}
{"id": "C137", "title": "Fitted sources do not depend on the caller's arrays any more", "statement": "After fit has returned, the program may go on using and overwriting the arrays it passed (coordinates, points); predictions stay those of the sources fitted to the arrays as they were at the call.", "quantifier": "all contents of memory, all arguments (also the same array twice), all later sequences of new arrays and writes into the program's arrays, all three classes, all schedules", "why_tests_cant": "Every later write into every array.", "anchors": ["src/harmonica/_equivalent_sources/cartesian.py: EquivalentSources.fit, EquivalentSources.predict", "src/harmonica/_equivalent_sources/gradient_boosted.py: EquivalentSourcesGB.fit", "src/harmonica/_equivalent_sources/spherical.py: EquivalentSourcesSph.fit, EquivalentSourcesSph.predict"]}
{"id": "C138", "title": "Ellipsoids do not change with the caller's arrays and lists", "statement": "An attribute of an Ellipsoid keeps the value it was given, at construction or by assignment, until it is assigned again, whatever the program does with the arrays and lists it passed; and the object always keeps values of the documented types.", "quantifier": "all arguments (numbers, None, tuples, lists, arrays), all later sequences of assignments, new arrays and lists, and writes into those that the program holds", "why_tests_cant": "Every history of writes and assignments.", "anchors": ["src/harmonica/_forward/ellipsoids/ellipsoids.py: Ellipsoid.__init__, Ellipsoid.a, Ellipsoid.center, Ellipsoid.susceptibility, Ellipsoid.remanent_mag"]}
{"id": "C139", "title": "An IGRF14 object follows its attributes", "statement": "predict and grid of an IGRF14 object return what a new object with the present values of date, min_degree, max_degree and ellipsoid returns, whatever was called on and assigned to the object before.", "quantifier": "all files, objects and finite histories of calls, assignments of the four attributes and writes to the arrays that coefficients returns; all points, grids and thread schedules", "why_tests_cant": "Every history of calls and assignments.", "anchors": ["src/harmonica/_spherical_harmonics/igrf.py: IGRF14.__init__, IGRF14.coefficients, IGRF14.predict, IGRF14.grid, interpolate_coefficients"]}
{"id": "C140", "title": "A fit of equivalent sources forgets what was done before", "statement": "fit of the three equivalent source classes returns or raises, and sets the fitted attributes, as fit of a new object with the present parameters does, whatever was called on and assigned to the object before; parameters assigned after a fit do not change its sources and coefficients until the next fit.", "quantifier": "all finite histories of assignments of parameters, fits (also fits that raise), estimates of the memory and predictions; all data, solvers, shuffles and thread schedules", "why_tests_cant": "Every history of calls and assignments.", "anchors": ["src/harmonica/_equivalent_sources/cartesian.py: EquivalentSources.__init__, EquivalentSources.fit, EquivalentSources.estimate_required_memory, EquivalentSources.predict", "src/harmonica/_equivalent_sources/gradient_boosted.py: EquivalentSourcesGB.fit, EquivalentSourcesGB.estimate_required_memory", "src/harmonica/_equivalent_sources/spherical.py: EquivalentSourcesSph.fit, EquivalentSourcesSph.predict"]}
{"id": "C141", "title": "Confocal bodies attract alike and similar shells do not attract", "statement": "Outside of two confocal ellipsoids (same center and angles, squares of the semiaxes that differ by one number) with the same mass, ellipsoid_gravity is the same; with remanent magnetizations of the same moment and no susceptibility, ellipsoid_magnetic is the same (Maclaurin). Inside of two similar concentric ellipsoids with opposite densities (a shell and its cavity) ellipsoid_gravity is zero, and with opposite remanences ellipsoid_magnetic is zero (Newton).", "quantifier": "all semiaxes that are equal or clearly different, centers, angles, densities and remanences; all coordinate arrays outside of both bodies (inside of both bodies)", "why_tests_cant": "Every body and every point.", "anchors": ["src/harmonica/_forward/ellipsoids/gravity.py: ellipsoid_gravity", "src/harmonica/_forward/ellipsoids/magnetic.py: ellipsoid_magnetic", "src/harmonica/_forward/ellipsoids/utils.py: calculate_lambda, get_elliptical_integrals"]}
{"id": "C142", "title": "The error of tesseroid_gravity is bounded by the size of the tesseroids", "statement": "The potential and g_z returned by tesseroid_gravity for densities given as numbers (of any sign) differ from Newton's integrals over the bodies by at most the sum over the tesseroids of G |density| volume times diameter/distance^2 + x^4/(150 distance) for the potential and times 10^5 (2 diameter/distance^3 + x^4/(150 distance^2)) for g_z, where x is half of the latitudinal extent in radians; the diameter is at most the thickness plus the lengths of the sides at the top, so the errors go to zero when the bodies are split. For densities that are continuous functions of the radius the same holds with the largest density in the tesseroid and one more term for the change of the density in it.", "quantifier": "all lists of tesseroids (also across the antimeridian, with zero volume or zero density), all densities, all points outside of the bodies at which the call returns, both settings of parallel and of the radial discretization", "why_tests_cant": "Compares with an integral that has no closed form, for every model and point.", "anchors": ["src/harmonica/_forward/tesseroid_gravity.py: tesseroid_gravity", "src/harmonica/_forward/_tesseroid_utils.py: gauss_legendre_quadrature, _adaptive_discretization"]}
{"id": "C143", "title": "Energy of transformed grids", "statement": "Without padding, the sum of squares of the easting and northing derivatives computed with the FFT is at most the one of the upward derivative, and equal to it if both sizes of the grid are odd (with an even number of columns it may be zero while the one of the upward derivative is not); the sum of squares of the derivatives of any order is at most the one of the grid times the square of pi over the spacing (the sum of both squares for the upward derivative) to the order; the sums of squares of the Gaussian low-pass and high-pass filtered grids add up to at most the one of the grid; the sum of squares of a continued grid does not increase with the height displacement.", "quantifier": "all grids with increasing coordinates and at least two nodes along each dimension, all values, orders (natural numbers), wavelengths that are not zero, heights of any sign", "why_tests_cant": "Inequalities between sums over all nodes of two calls, for every size and values.", "anchors": ["src/harmonica/_transformations.py: derivative_easting, derivative_northing, derivative_upward, gaussian_lowpass, gaussian_highpass, upward_continuation", "src/harmonica/filters/_filters.py: derivative_upward_kernel, derivative_easting_kernel, derivative_northing_kernel, gaussian_lowpass_kernel, gaussian_highpass_kernel, upward_continuation_kernel", "src/harmonica/filters/_utils.py: apply_filter"]}
{"id": "C144", "title": "Tesseroids that fill spherical shells", "statement": "If a model of tesseroids with uniform densities fills concentric spherical shells (its density is that of the shells at almost every point of space, whatever the way the shells are cut), the potential and g_z that tesseroid_gravity returns at a point that is not at the radius of a shell are those of Newton's shell theorem: G times the mass of the shells below the point over the radius (over its square for g_z, in mGal), a constant potential and no attraction from the shells above it; the error is at most the one of the approximation of the bodies by point masses. A global grid of any number of tesseroids fills its shell, and for concentric layers of global grids the error of the potential above them is explicit in the number of cells.", "quantifier": "all lists of tesseroids and densities, all shells with 0 <= inner <= outer radius, all points outside of the shells, all sizes of the grids, serial and parallel runs", "why_tests_cant": "Compares the sum over all tesseroids, and all the ways of cutting a shell into tesseroids, with an integral over space.", "anchors": ["src/harmonica/_forward/tesseroid_gravity.py: tesseroid_gravity", "src/harmonica/_forward/_tesseroid_utils.py: gauss_legendre_quadrature, glq_nodes_weights, _adaptive_discretization"]}
{"id": "C145", "title": "Tesseroid models with the same density have the same gravity up to the errors of the quadrature", "statement": "Two models of tesseroids whose densities are equal at almost every point of space, whatever the way the body is cut into tesseroids, give the same potential and g_z at the same point, up to the sum of the errors of both approximations by point masses; the same holds if the second model and its point are the first ones after any rotation or reflection of the space around the center (also those that move the poles), so that no direction is preferred.", "quantifier": "all pairs of lists of tesseroids and densities, all points outside of the bodies, all linear isometries of the space, serial and parallel runs", "why_tests_cant": "Ranges over all the ways of describing one body and over all rotations.", "anchors": ["src/harmonica/_forward/tesseroid_gravity.py: tesseroid_gravity", "src/harmonica/_forward/_tesseroid_utils.py: gauss_legendre_quadrature, glq_nodes_weights, _adaptive_discretization"]}
{"id": "C146", "title": "The gravity of a layer of tesseroids is that of the body between its surface and its reference", "statement": "A layer made by tesseroid_layer whose longitudes do not complete a turn has, at any point outside of its columns, the potential and g_z of the body between its surface and its reference: the integral over the space of Newton's law with the density that is, around each node, the density of the node between the lower and the higher of surface and reference (without the columns that are NaN or thinner than the threshold), and zero outside of the region; the error is at most G (integral of the absolute value of the density) (extent of the columns / distance^2 + a term of fourth order in the spacing of the latitudes). So two layers on different grids for the same body agree up to both errors.", "quantifier": "all regular grids of longitudes and latitudes that do not complete a turn, surfaces, references, densities, NaNs, thresholds and points outside of the columns, serial and parallel runs", "why_tests_cant": "Ranges over all layers and points; the reference is an integral over the space.", "anchors": ["src/harmonica/_forward/tesseroid_layer.py: tesseroid_layer, DatasetAccessorTesseroidLayer.gravity", "src/harmonica/_forward/tesseroid_gravity.py: tesseroid_gravity"]}
{"id": "C147", "title": "Ellipsoids whose semiaxes are almost equal: error of the spheroid or sphere that the code uses", "statement": "When two semiaxes differ by less than one part in 1e5 without being equal the code takes the ellipsoid as a spheroid or a sphere. Whatever the semiaxes, the attraction returned by ellipsoid_gravity at any point is that of the bodies (Dirichlet's formula) within 1e-4 of the sum of the lengths of their attractions; the field returned by ellipsoid_magnetic (no susceptibility, or a number >= 0) is that of the bodies with their only self-consistent magnetizations within 6e-4 mu0 times the sum of the lengths of the magnetizations; the elliptic integrals and the elements of the internal demagnetization tensor are right within 1e-4 of their values, and the external tensor within 3e-4 as an operator.", "quantifier": "all lists of valid ellipsoids (any semiaxes, rotations, centers, densities, isotropic susceptibilities, remanences), inducing fields and points inside, outside and on the surface", "why_tests_cant": "Ranges over all semiaxes and points; C65, C67 and C69 are false there exactly, so only a bound can hold.", "anchors": ["src/harmonica/_forward/ellipsoids/gravity.py: ellipsoid_gravity", "src/harmonica/_forward/ellipsoids/magnetic.py: ellipsoid_magnetic", "src/harmonica/_forward/ellipsoids/utils.py: get_elliptical_integrals, is_almost_a_sphere, is_almost_prolate, is_almost_oblate", "src/harmonica/_forward/ellipsoids/magnetic.py: get_demagnetization_tensor_internal, get_demagnetization_tensor_external"]}
{"id": "C148", "title": "tesseroid_gravity runs out of memory only for points near the tesseroids", "statement": "If the points are at a distance of at least lo > 0 from every tesseroid, the tesseroids are valid and none is a complete turn, and 16 halvings of the sides in total make them shorter than lo over the distance-size ratio (1 for potential, 2.5 for g_z), tesseroid_gravity returns a value for every point: neither the checks nor the adaptive discretization raise an error; the number of small tesseroids of each one is at most 2 to the number of halvings. For the default discretization it is enough that the distance is not less than the ratio times the horizontal sides over 256. The same holds for density functions. In particular a model of global grids of tesseroids returns G M / R with an explicit error. The condition cannot be dropped: with the radial discretization, g_z at a point on the surface of a tesseroid (not wider than 180 degrees) raises an error, whatever the sizes of the arrays.", "quantifier": "all lists of valid tesseroids and densities (numbers or continuous functions of the radius), all points, both fields, radial discretization on and off, serial and parallel runs", "why_tests_cant": "Ranges over all models and points; the tests only use a few of them, and the limits of the stack and of the number of tesseroids are only found by users.", "anchors": ["src/harmonica/_forward/tesseroid_gravity.py: tesseroid_gravity", "src/harmonica/_forward/_tesseroid_utils.py: _adaptive_discretization, _split_tesseroid, _tesseroid_dimensions, _distance_tesseroid_point", "src/harmonica/_forward/_tesseroid_variable_density.py: density_based_discretization"]}
{"id": "C149", "title": "The gravity of ellipsoids is Newton's law", "statement": "ellipsoid_gravity returns at every point (inside, on the surface and outside of the bodies) the attraction of the matter of the bodies by Newton's law: the integral over space of G times the density times the unit vector to the element over the square of its distance, in mGal and with the last component downward, for any number of rotated bodies that may overlap. The integral converges everywhere. Two models with the same density at almost every point have the same gravity. When semiaxes are almost equal without being equal, the field is that of Newton's law within 1e-4 of the sum of the lengths of the attractions of the bodies.", "quantifier": "all lists of valid ellipsoids (any semiaxes, rotations, centers, densities, with or without them), all arrays of points", "why_tests_cant": "An identity between a closed form with elliptic integrals and a singular integral over the body for every triaxial body and every point; tests compare a few points with quadrature or with spheres.", "anchors": ["src/harmonica/_forward/ellipsoids/gravity.py: ellipsoid_gravity, _compute_gravity_ellipsoid", "src/harmonica/_forward/ellipsoids/utils.py: get_elliptical_integrals, calculate_lambda"]}
{"id": "C150", "title": "The magnetic field of ellipsoids is that of the dipoles of their matter", "statement": "ellipsoid_magnetic returns at every point that is not on a surface the field mu0 (M - grad phi): M is the magnetization at the point (zero outside of the bodies, the sum of those of the bodies that contain it) and phi is the scalar potential of the dipoles of all the matter, the integral of M . r / (4 pi r^3), which converges everywhere. Outside of the bodies the field is the integral of the fields of the dipoles, which converges. When the susceptibility of each body is isotropic, or more generally commutes with its demagnetization tensor, its magnetization satisfies at each of its points M = chi (H0 - grad phi_own) + M_r with the potential of its own dipoles.", "quantifier": "all lists of valid ellipsoids with passive susceptibilities (isotropic or tensors) and remanence, all inducing fields, all arrays of points", "why_tests_cant": "An identity between closed forms with elliptic integrals and singular integrals over the bodies, at every point and for every triaxial body; tests compare a few points with spheres and dipoles.", "anchors": ["src/harmonica/_forward/ellipsoids/magnetic.py: ellipsoid_magnetic, _single_ellipsoid_magnetic, get_magnetisation", "src/harmonica/_forward/ellipsoids/utils.py: get_elliptical_integrals, calculate_lambda, get_derivatives_of_elliptical_integrals"]}
{"id": "C151", "title": "Models of ellipsoids made of prisms converge to the ellipsoids", "statement": "The gravity that prism_gravity returns for a model of ellipsoids made of prisms (at almost every point the density of the prisms is that of the ellipsoids at some point at most eta away) differs from what ellipsoid_gravity returns by a bounded amount at all points, inside, outside and on the surfaces: for every length R at most G times the sum over the bodies of |density| (24 R + V (6 d + 2 d^3) / R^2), with the volume V and d = eta over the smallest semiaxis. So the gravity of cubes with the density of the ellipsoids at their centers converges to that of the ellipsoids, uniformly, when the side of the cubes tends to zero. Two models of prisms whose densities differ at most by D, in a region of volume v, differ in gravity at most by G D (24 R + v / R^2).", "quantifier": "all lists of valid ellipsoids (rotated, overlapping), all models of prisms that sample them, all sides of cubes, all points and schedules", "why_tests_cant": "A bound over all models, resolutions and points; a test compares one discretization with the analytic solution at some points.", "anchors": ["src/harmonica/_forward/prisms/gravity.py: prism_gravity", "src/harmonica/_forward/ellipsoids/gravity.py: ellipsoid_gravity"]}
{"id": "C152", "title": "Layers of prisms converge to the terrain they are made from", "statement": "A layer made with prism_layer from the values of the surface, the reference (a number or an array) and the density of a terrain at the nodes of a regular grid has a gravity (g_e, g_n, g_z) that is that of the terrain by Newton's law, at every point, inside or outside of it, with a bounded error: for every length R at most G (D (48 R + 2 (ds + dr) A / R^2) + dd (24 R + H A / R^2)), where A is the area of the region, D and H the largest density and thickness and ds, dr and dd how much surface, reference and density change inside of a cell. So for a continuous terrain the gravity of its layers converges to that of the terrain, uniformly over all points, when the numbers of cells grow.", "quantifier": "all terrains (measurable for the bound, continuous for the limit), regions, spacings, numbers of nodes, points and schedules", "why_tests_cant": "A limit over all resolutions, and a bound over all terrains and points; a test compares a layer with itself or with prisms at some points.", "anchors": ["src/harmonica/_forward/prisms/layer.py: prism_layer, DatasetAccessorPrismLayer.gravity"]}
{"id": "C153", "title": "Models of magnetized ellipsoids made of prisms converge to the ellipsoids", "statement": "Prisms that have the magnetization of ellipsoids (with their demagnetization; each component, at almost every point, is that of the ellipsoids at some point at most eta away) have the magnetic field of the ellipsoids outside of them: what prism_magnetic returns differs from what ellipsoid_magnetic returns at most by |mu0| / (pi r^3) times the sum over the bodies of (|M_e| + |M_n| + |M_u|) V (6 d + 2 d^3) at all points whose distance to bodies and prisms is not less than r, with the volume V and d = eta over the smallest semiaxis. So for cubes with the magnetization of the ellipsoids at their centers the field converges to that of the ellipsoids, uniformly over the points at some distance or more, when the side of the cubes tends to zero.", "quantifier": "all lists of valid ellipsoids (rotated, overlapping, with susceptibilities or tensors and remanent magnetizations), all inducing fields, all models of prisms that sample them, all sides of cubes, all points outside and schedules", "why_tests_cant": "A bound over all models, resolutions and points; a test compares one discretization with the analytic solution at some points.", "anchors": ["src/harmonica/_forward/prisms/magnetic.py: prism_magnetic", "src/harmonica/_forward/ellipsoids/magnetic.py: ellipsoid_magnetic"]}
{"id": "C154", "title": "The text of an ellipsoid shows what it is", "statement": "Two ellipsoids have the same str() exactly if they have the same semiaxes, center, angles, density and remanent magnetization, and susceptibilities that are both absent, equal numbers, or tensors that numpy prints the same. The text has one line for each attribute that is present, with its name, value and unit, in a fixed order, and a tensor on lines of its own.", "quantifier": "all pairs of ellipsoids whose attributes are numbers that Python prints apart", "why_tests_cant": "A statement about all pairs of objects: no two that differ print the same text, whatever is present or absent; a test compares the text of some objects.", "anchors": ["src/harmonica/_forward/ellipsoids/ellipsoids.py: Ellipsoid.__str__"]}
{"id": "C155", "title": "What thickness_threshold neglects in the gravity of a layer", "statement": "The g_e, g_n and g_z of a layer of prisms with a thickness_threshold differ from those without it, at every point, inside or outside, at most by 25 G d r (times 1e5, in mGal), with the largest density d of the neglected elements and the side r of the cube whose volume is the threshold times the area of the neglected elements. So the effect of the threshold tends to zero with it, uniformly over the points.", "quantifier": "all regular layers of at least 2 by 2 elements (also with NaNs in bottom, top or density), all thresholds >= 0, all points and schedules", "why_tests_cant": "A bound over all layers, thresholds and points; a test compares some sums.", "anchors": ["src/harmonica/_forward/prisms/layer.py: DatasetAccessorPrismLayer.gravity", "src/harmonica/_forward/prisms/layer.py: _forward_gravity_prism_layer"]}
{"id": "C156", "title": "Layers do not change with the caller's arrays", "statement": "After a layer was made or updated, what the program writes into its arrays does not change what the layer shows. Updating a layer with update_top_bottom is making it again with the new surface and reference: it raises when this raises, and otherwise shows the same; no other layer and no array of the program changes.", "quantifier": "all histories of making and updating layers of prisms and tesseroids that share arrays, and of writing into the arrays", "why_tests_cant": "A statement about all histories: the arrays shared by layers and caller are not visible in a single call.", "anchors": ["src/harmonica/_forward/prisms/layer.py: prism_layer", "src/harmonica/_forward/prisms/layer.py: DatasetAccessorPrismLayer.update_top_bottom", "src/harmonica/_forward/tesseroid_layer.py: tesseroid_layer", "src/harmonica/_forward/tesseroid_layer.py: DatasetAccessorTesseroidLayer.update_top_bottom"]}
{"id": "C157", "title": "The gravity of prisms, layers and ellipsoids is continuous everywhere, with a bound for its changes", "statement": "The components g_e, g_n and g_z of the gravity of prisms (also overlapping), of prism layers (with any thickness threshold) and of ellipsoids change continuously with the position of the observation point, also on the faces, edges and vertices and inside of the bodies. Between two points at the distance h they change at most by G D (72 R + 6144 n h + 96 V h / (2^n R)^3), with the largest absolute density D, the volume V of the bodies, any length R of at least 4 h and any number n: of the order of h log(1/h).", "quantifier": "all lists of ordered prisms, layers and lists of ellipsoids (of exact shapes), all pairs of points", "why_tests_cant": "A statement about all pairs of points; the faces, edges and vertices, where logarithms and arctangents of the kernels are singular, are sets no sample meets from all directions.", "anchors": ["src/harmonica/_forward/prisms/gravity.py: prism_gravity", "src/harmonica/_forward/prisms/layer.py: DatasetAccessorPrismLayer.gravity", "src/harmonica/_forward/ellipsoids/gravity.py: ellipsoid_gravity"]}
{"id": "C158", "title": "Errors of surface, reference and density of a layer change its gravity by a bounded amount", "statement": "When two prism layers are made on the same grid from surfaces, references and densities that differ at most by ds, dr and dd, with NaNs at the same nodes, the components of their gravity differ at any point, outside, on or inside of the layer, at most by 25 G (M rs + M rr + dd rh): M is the largest absolute density, rs, rr and rh are the sides of the cubes with the volumes 2 ds A, 2 dr A and H A, with the area A and the largest thickness H of the layer.", "quantifier": "all pairs of layers on the same regular grid, with NaNs, with numbers or arrays as references, all points", "why_tests_cant": "A statement about all pairs of inputs that are near, and about all points.", "anchors": ["src/harmonica/_forward/prisms/layer.py: prism_layer", "src/harmonica/_forward/prisms/layer.py: DatasetAccessorPrismLayer.gravity"]}
{"id": "C159", "title": "Errors of the data of equivalent sources are not amplified at the data points", "statement": "Two fits of the same equivalent sources, with the same weights and damping, to different data predict at the data points values whose weighted sum of squared differences is at most the one of the data: noise is never amplified there. A fit with more damping never has a smaller weighted misfit than a fit with less (None counts as zero).", "quantifier": "all Cartesian and spherical equivalent sources, data points, pairs of data, weights and dampings that are not negative, and all parallel schedules of the loops", "why_tests_cant": "A statement about all pairs of data and of dampings.", "anchors": ["src/harmonica/_equivalent_sources/cartesian.py: EquivalentSources.fit", "src/harmonica/_equivalent_sources/cartesian.py: EquivalentSources.predict", "src/harmonica/_equivalent_sources/spherical.py: EquivalentSourcesSph.fit", "src/harmonica/_equivalent_sources/spherical.py: EquivalentSourcesSph.predict"]}
{"id": "C160", "title": "Gravity of prisms is the gradient of their potential and bounded at every point", "statement": "At every point, outside of the prisms, inside, on their faces, edges and vertices, the components g_e, g_n and -g_z that prism_gravity returns are the derivatives of the potential that it returns (in mGal). They are at most 25 G D r everywhere, with the largest absolute density D of the body and the side r of a cube with the volume of the prisms, and the potential changes between any two points at most by 25 G D r times their distance.", "quantifier": "all lists of prisms with ordered bounds (which may overlap or be degenerate) and densities, all observation points, both execution modes", "why_tests_cant": "A limit at every point, also at points of the surface where the second derivatives don't exist, and a bound for all points.", "anchors": ["src/harmonica/_forward/prisms/gravity.py: prism_gravity"]}
{"id": "C161", "title": "Prisms can be replaced by point masses", "statement": "At a distance of r or more, what prism_gravity returns and what point_gravity returns for point masses with the masses of the prisms (density times volume), each at most d away from every point of its prism, differ at most by G M d / r^2 for the potential, 4 G M d / r^3 for the acceleration and 24 G M d / r^4 for the tensor (in the units of the fields), with the sum M of the absolute masses. So when every prism is divided into n^3 equal parts, the point masses at the centres of the parts have the fields of the prisms with an error that decreases as 1/n, uniformly over the points at some distance or more.", "quantifier": "all lists of prisms with ordered bounds and densities of any sign, all points near them, all n, all observation points at a distance of r or more, all ten fields, both execution modes", "why_tests_cant": "A bound for all bodies and points, and a limit: no finite number of divisions shows it.", "anchors": ["src/harmonica/_forward/prisms/gravity.py: prism_gravity", "src/harmonica/_forward/point.py: point_gravity"]}
{"id": "C162", "title": "Magnetized prisms can be replaced by dipoles", "statement": "At a distance of r or more, the field that prism_magnetic returns and the field that dipole_magnetic returns for dipoles with the moments of the prisms (magnetization times volume), each at most d away from every point of its prism, differ in each component at most by 24 mu0/(4 pi) S d / r^4 (in T, times 10^9 in nT), with the sum S of the absolute values of the components of the moments. So when every prism is divided into n^3 equal parts, the dipoles at the centres of the parts have the field of the prisms with an error that decreases as 1/n, uniformly over the points at some distance or more.", "quantifier": "all lists of prisms with ordered bounds and any magnetization vectors, all points near them, all n, all observation points at a distance of r or more, the three components, both execution modes", "why_tests_cant": "A bound for all bodies and points, and a limit: no finite number of divisions shows it.", "anchors": ["src/harmonica/_forward/prisms/magnetic.py: prism_magnetic", "src/harmonica/_forward/dipole.py: dipole_magnetic"]}
{"id": "C163", "title": "Predictions of equivalent sources are stable and have the far field of one source", "statement": "At distances of r or more from the sources, moving an observation point by t, every source by at most d and changing every coefficient by at most e changes what predict returns by at most S (t + d) / r^2 + N e / r, with the sum S of the absolute values of the N coefficients. Far away, when all sources are within D of some point, the prediction at a distance R > D from it is the sum of the coefficients over R, but for an error of at most S D / (R (R - D)).", "quantifier": "all lists of sources and coefficients, all changes of them, all observation points at a distance of r or more, all float dtypes, both execution modes, EquivalentSources, EquivalentSourcesGB and EquivalentSourcesSph (floating point longitudes)", "why_tests_cant": "A bound for all sources and all displacements at once; tests compare predictions at a few points.", "anchors": ["src/harmonica/_equivalent_sources/cartesian.py: EquivalentSources.predict", "src/harmonica/_equivalent_sources/spherical.py: EquivalentSourcesSph.predict"]}
{"id": "C164", "title": "Fields over a plane above the sources never exceed what they are on it", "statement": "Take a horizontal plane above all the sources. If a number M bounds the size of a field on the whole plane, it bounds it at every point above the plane: the potential, the three components of the acceleration and the six of the gradient tensor of prisms and of point masses, the three components of the magnetic field of prisms and of dipoles, the gravity and the magnetic field of ellipsoids, and the predictions of equivalent sources. So going up never makes an anomaly stronger than it is somewhere on the lower plane.", "quantifier": "all lists of prisms and densities, point masses, magnetized prisms, dipoles, valid ellipsoids (rotated, overlapping, magnetized in any inducing field) and equivalent sources with coefficients, all fields, all planes above the sources, all bounds, all points over the plane, both execution modes", "why_tests_cant": "It compares every point of a half space with a whole plane; tests evaluate finitely many points.", "anchors": ["src/harmonica/_forward/prisms/gravity.py: prism_gravity", "src/harmonica/_forward/point.py: point_gravity", "src/harmonica/_forward/prisms/magnetic.py: prism_magnetic", "src/harmonica/_forward/dipole.py: dipole_magnetic", "src/harmonica/_forward/ellipsoids/gravity.py: ellipsoid_gravity", "src/harmonica/_forward/ellipsoids/magnetic.py: ellipsoid_magnetic", "src/harmonica/_equivalent_sources/cartesian.py: EquivalentSources.predict"]}
{"id": "C165", "title": "Fields over a plane are known as well as on it, and equivalent sources continue them upward", "statement": "Take two fields that harmonica returns for sources under a horizontal plane: fields of prisms, point masses, magnetized prisms, dipoles, ellipsoids or equivalent sources, or any sums and multiples of them, total field anomalies among these. If the two differ at most by M on the plane, they differ at most by M at every point over it; if they are equal on the plane, they are equal over it, whatever the sources of each. So equivalent sources that fit a field on a plane within M predict it at all heights over the plane within M.", "quantifier": "all such fields and combinations, all planes above the sources of both, all errors M, all points over the plane, both execution modes", "why_tests_cant": "The fit on a whole plane and the error in a whole half space; tests compare a few points of a grid.", "anchors": ["src/harmonica/_equivalent_sources/cartesian.py: EquivalentSources.predict", "src/harmonica/_forward/prisms/gravity.py: prism_gravity", "src/harmonica/_forward/point.py: point_gravity", "src/harmonica/_forward/prisms/magnetic.py: prism_magnetic", "src/harmonica/_forward/dipole.py: dipole_magnetic", "src/harmonica/_forward/ellipsoids/gravity.py: ellipsoid_gravity", "src/harmonica/_forward/ellipsoids/magnetic.py: ellipsoid_magnetic", "src/harmonica/_utils.py: total_field_anomaly"]}
{"id": "C166", "title": "Outside a sphere or over an uneven surface, predictions and potentials are known as well as on it", "statement": "Take predictions of equivalent sources or potentials of point masses, in Cartesian or in spherical coordinates, or sums and multiples of them, and any closed region of space without any of the sources. If two of them differ at most by M on the boundary of the region, they differ at most by M everywhere in it; if they are equal on the boundary, they are equal in the region. So no prediction of EquivalentSourcesSph outside a sphere around the origin with all the sources inside is larger than the largest one on the sphere, and if the predictions fit the potential of point masses within M on the sphere they do so everywhere outside. Equivalent sources that fit a potential within M on a draped surface (any continuous height) over all the sources do so everywhere over it.", "quantifier": "all lists of sources and masses, all closed regions without them, all spheres, all continuous surfaces, all errors M, all points, both execution modes", "why_tests_cant": "The fit on a whole surface and the error in an unbounded region of any shape; tests compare a few points of a grid.", "anchors": ["src/harmonica/_equivalent_sources/spherical.py: EquivalentSourcesSph.predict", "src/harmonica/_equivalent_sources/cartesian.py: EquivalentSources.predict", "src/harmonica/_forward/point.py: point_gravity"]}
{"id": "C167", "title": "In a region without sources, or over an uneven surface, all fields are known as well as on its boundary", "statement": "Take any field that prism_gravity or point_gravity (Cartesian) returns, any component of the magnetic field that prism_magnetic or dipole_magnetic returns, any component of the fields that ellipsoid_gravity and ellipsoid_magnetic return, or predictions of EquivalentSources, or sums and multiples of them, and any closed region of space that no source has a point in. If two of them differ at most by M on the boundary of the region, they differ at most by M everywhere in it; if they are equal on the boundary, they are equal in the region. The same is true over a draped surface (any continuous height) with all the sources under it, so equivalent sources that fit any gravity field of prisms or of a prism layer, or any total field anomaly, within M on such a surface have it within M everywhere over it.", "quantifier": "all lists of sources of the seven kinds, all fields and components, all closed regions without sources, all continuous surfaces, all errors M, all points, both execution modes", "why_tests_cant": "The fit on a whole surface of any shape and the error at every point of an unbounded region; tests compare a few points of a grid, mostly at a constant height.", "anchors": ["src/harmonica/_forward/prisms/gravity.py: prism_gravity", "src/harmonica/_forward/prisms/magnetic.py: prism_magnetic", "src/harmonica/_forward/point.py: point_gravity", "src/harmonica/_forward/prisms/layer.py: DatasetAccessorPrismLayer.gravity", "src/harmonica/_forward/dipole.py: dipole_magnetic", "src/harmonica/_forward/ellipsoids/gravity.py: ellipsoid_gravity", "src/harmonica/_forward/ellipsoids/magnetic.py: ellipsoid_magnetic", "src/harmonica/_equivalent_sources/cartesian.py: EquivalentSources.predict", "src/harmonica/_utils.py: total_field_anomaly"]}
