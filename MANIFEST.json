{
 "claims": [
  {
   "property": "C01",
   "status": "proved",
   "theorems": [
    "Verif.EqSources.C01_jacobian",
    "Verif.EqSources.C01_predict",
    "Verif.EqSources.C01_predict_spherical",
    "Verif.Forward.C01_accumulation_loop",
    "Verif.Forward.C01_vector_loop",
    "Verif.Forward.C01_assignment_loop",
    "Verif.Forward.C01_shared_cell_would_race",
    "Verif.Forward.C01_point_gravity",
    "Verif.Forward.C01_dipole_magnetic",
    "Verif.Forward.C01_prism_gravity",
    "Verif.Forward.C01_prism_magnetic",
    "Verif.Igrf.C01_igrf_predict",
    "Verif.Igrf.C01_igrf_grid",
    "Verif.Survey.C01_tesseroid_layer_gravity",
    "Verif.Survey.C01_prism_layer_gravity",
    "Verif.EqSources.C01_fit",
    "Verif.EqSources.C01_fit_spherical",
    "Verif.EqSources.C01_fit_gradient_boosted",
    "Verif.Tesseroid.C01_tesseroid_gravity",
    "Verif.Tesseroid.C01_tesseroid_gravity_func"
   ],
   "note": "Point masses, dipoles, prisms (gravity and magnetic), tesseroids, layers of prisms and tesseroids, equivalent sources (Jacobian, predict, and the fits of the three classes, with any schedule of each window of the gradient boosting); the loop theorems hold for any number type and any +, so bitwise. IGRF14.predict and IGRF14.grid (both loops). The ellipsoid forward models have no parallel loops."
  },
  {
   "property": "C02",
   "status": "partial",
   "theorems": [
    "Verif.Ellipsoids.C02_ellipsoid_gravity",
    "Verif.Ellipsoids.C02_ellipsoid_density",
    "Verif.Ellipsoids.C02_ellipsoid_magnetic",
    "Verif.Ellipsoids.C02_ellipsoid_magnetic_order",
    "Verif.Forward.C02_point_gravity_split",
    "Verif.Forward.C02_point_gravity_perm",
    "Verif.Forward.C02_point_gravity_scale",
    "Verif.Forward.C02_point_gravity_empty",
    "Verif.Forward.C02_prism_gravity_split",
    "Verif.Forward.C02_prism_gravity_perm",
    "Verif.Forward.C02_prism_gravity_scale",
    "Verif.Forward.C02_dipole_magnetic_split",
    "Verif.Forward.C02_dipole_magnetic_perm",
    "Verif.Forward.C02_dipole_magnetic_linear",
    "Verif.Forward.C02_prism_magnetic_split",
    "Verif.Forward.C02_prism_magnetic_perm",
    "Verif.Forward.C02_dipole_magnetic_empty",
    "Verif.Forward.C02_prism_magnetic_empty",
    "Verif.Forward.C02_prism_gravity_empty",
    "Verif.Ellipsoids.C02_ellipsoid_none",
    "Verif.Tesseroid.C02_tesseroid_gravity_split",
    "Verif.Tesseroid.C02_tesseroid_gravity_perm",
    "Verif.Tesseroid.C02_tesseroid_gravity_scale",
    "Verif.Tesseroid.C02_tesseroid_gravity_empty",
    "Verif.Tesseroid.C02_tesseroid_gravity_func_split",
    "Verif.Tesseroid.C02_tesseroid_gravity_func_perm",
    "Verif.Tesseroid.C02_tesseroid_gravity_func_scale_partial",
    "Verif.Tesseroid.C02_not_func_scale_full"
   ],
   "note": "Every kind of source: point masses, dipoles, prisms (gravity and magnetics), tesseroids (values and functions), ellipsoids. Scaling of a density function is proved except when np.isclose, that has an absolute tolerance, takes the density for constant only before or only after the scaling (C02_tesseroid_gravity_func_scale_partial excludes it). The statement without the exclusion is false: C02_not_func_scale_full."
  },
  {
   "property": "C03",
   "status": "partial",
   "theorems": [
    "Verif.Forward.C03_prism_discard_exact",
    "Verif.Forward.C03_prism_gravity_no_loss",
    "Verif.Forward.C03_prism_magnetic_discard_exact",
    "Verif.Forward.C03_prism_magnetic_no_loss",
    "Verif.Tesseroid.C03_tesseroid_discard_exact",
    "Verif.Tesseroid.C03_tesseroid_null_has_no_mass",
    "Verif.Tesseroid.C03_null_tesseroid_with_function_raises",
    "Verif.Tesseroid.C03_tesseroid_gravity_no_loss_partial",
    "Verif.Tesseroid.C03_tesseroid_gravity_unchecked_partial"
   ],
   "note": "Prisms (gravity and magnetics) and tesseroids with density values; refuted for tesseroids with a density function (C03_null_tesseroid_with_function_raises)."
  },
  {
   "property": "C04",
   "status": "proved",
   "theorems": [
    "Verif.Forward.C04_point_gravity_cartesian",
    "Verif.Forward.C04_point_gravity_spherical",
    "Verif.Forward.C04_point_gravity_other_system",
    "Verif.Forward.C04_prism_gravity",
    "Verif.Forward.C04_prism_gravity_unknown_field",
    "Verif.Tesseroid.C04_tesseroid_gravity_unknown_field",
    "Verif.Tesseroid.C04_tesseroid_gravity",
    "Verif.Tesseroid.C04_tesseroid_gravity_func"
   ],
   "note": "Point masses, prisms and tesseroids, every field name."
  },
  {
   "property": "C05",
   "status": "proved",
   "theorems": [
    "Verif.Forward.C05_dipole_magnetic",
    "Verif.Forward.C05_prism_magnetic",
    "Verif.Forward.C05_vector_eq_components",
    "Verif.Forward.C05_dipole_b",
    "Verif.Forward.C05_prism_b",
    "Verif.Forward.C05_dipole_linear",
    "Verif.Forward.C05_prism_linear"
   ],
   "note": "choclo's vector kernel is assumed to agree with its component kernels and to be linear in the magnetization."
  },
  {
   "property": "C06",
   "status": "proved",
   "theorems": [
    "Verif.Forward.C06_check_prisms",
    "Verif.Forward.C06_prism_gravity_rejects",
    "Verif.Forward.C06_prism_magnetic_rejects"
   ],
   "note": "Both directions, plus rejection by both public functions."
  },
  {
   "property": "C07",
   "status": "partial",
   "theorems": [
    "Verif.Forward.C07_point_gravity_masses",
    "Verif.Forward.C07_prism_gravity_density",
    "Verif.Forward.C07_dipole_magnetic_moments",
    "Verif.Forward.C07_prism_magnetic_sizes",
    "Verif.Forward.C07_prism_magnetic_checked",
    "Verif.Forward.C07_prism_magnetic_index_error",
    "Verif.Forward.C07_dipole_reads_out_of_bounds",
    "Verif.Forward.C07_point_reads_out_of_bounds",
    "Verif.Forward.C07_no_out_of_bounds_partial",
    "Verif.Survey.C07_tesseroid_gravity_density"
   ],
   "note": "Rejections proved; the full property is false: dipole_magnetic and point_gravity read out of bounds for unchecked sizes (negation theorems), prism_magnetic raises IndexError instead of ValueError."
  },
  {
   "property": "C08",
   "status": "partial",
   "theorems": [
    "Verif.Ellipsoids.C08_sizes_ellipsoid_gravity",
    "Verif.Ellipsoids.C08_sizes_ellipsoid_magnetic",
    "Verif.Ellipsoids.C08_shapes_ellipsoid_gravity",
    "Verif.Ellipsoids.C08_shapes_ellipsoid_magnetic",
    "Verif.Forward.C08_point_gravity_partial",
    "Verif.Forward.C08_broadcast_not_honoured",
    "Verif.Forward.C08_broadcast_out_of_bounds",
    "Verif.Igrf.C08_igrf_partial",
    "Verif.Igrf.C08_igrf_errors",
    "Verif.Igrf.C08_shape_igrf",
    "Verif.Igrf.C08_igrf_not_full",
    "Verif.Igrf.C08_igrf_out_of_bounds",
    "Verif.Shapes.C08_shape_rule",
    "Verif.Shapes.C08_shape_point_gravity",
    "Verif.Shapes.C08_shape_prism_gravity",
    "Verif.Shapes.C08_shape_dipole_magnetic",
    "Verif.Shapes.C08_shape_prism_magnetic",
    "Verif.Shapes.C08_shape_tesseroid_gravity",
    "Verif.Shapes.C08_shape_ellipsoid_gravity",
    "Verif.Shapes.C08_shape_ellipsoid_magnetic",
    "Verif.Shapes.C08_shape_prism_layer",
    "Verif.Shapes.C08_shape_predict",
    "Verif.Shapes.C08_shape_predict_spherical",
    "Verif.Shapes.C08_size_point_gravity",
    "Verif.Shapes.C08_size_prism_gravity",
    "Verif.Shapes.C08_size_dipole_magnetic",
    "Verif.Shapes.C08_size_prism_magnetic",
    "Verif.Shapes.C08_size_tesseroid_gravity",
    "Verif.Shapes.C08_size_ellipsoid_gravity",
    "Verif.Shapes.C08_size_ellipsoid_magnetic",
    "Verif.Shapes.C08_size_prism_layer",
    "Verif.Shapes.C08_size_predict",
    "Verif.Shapes.C08_size_predict_spherical",
    "Verif.Survey.C08_shape_tesseroid_layer"
   ],
   "note": "Proved for coordinate arrays with as many elements as the result (C08_size_*, C08_point_gravity_partial) and, for IGRF14.predict, also when the latitude or the height is one number (C08_igrf_partial); the full statements C08_full and C08_igrf_full are refuted. For IGRF14.predict all other shapes raise ValueError (C08_igrf_errors), except one latitude with one height, which reads outside the arrays (C08_igrf_out_of_bounds). For all the forward models and predict: whatever the shapes of the coordinates, what is returned has the broadcast shape by the rule of numpy, and coordinates that cannot be broadcast raise ValueError (C08_shape_*)."
  },
  {
   "property": "C09",
   "status": "proved",
   "theorems": [
    "Verif.Forward.C09_warns_iff_singular",
    "Verif.Forward.C09_no_warning_unchecked"
   ],
   "note": "Against a geometric specification of edges as segments between vertices; choclo's edge predicates are modelled."
  },
  {
   "property": "C10",
   "status": "proved",
   "theorems": [
    "Verif.Distance.C10_distance_cartesian",
    "Verif.Distance.C10_distance_spherical",
    "Verif.Distance.C10_distance_geodetic",
    "Verif.Distance.C10_distance",
    "Verif.Distance.C10_metric",
    "Verif.Distance.C10_distance_longitude_periodic",
    "Verif.Distance.C10_distance_turns"
   ],
   "note": "Against Mathlib's Euclidean distance."
  },
  {
   "property": "C11",
   "status": "proved",
   "theorems": [
    "Verif.Forward.C11_gravity_u_spherical",
    "Verif.Forward.C11_point_gravity_spherical"
   ],
   "note": "HasDerivAt of the Newtonian potential and the API-level statement."
  },
  {
   "property": "C12",
   "status": "proved",
   "theorems": [
    "Verif.Tesseroid.C12_accepts_iff",
    "Verif.Tesseroid.C12_same_bodies",
    "Verif.Tesseroid.C12_idempotent"
   ],
   "note": "Both directions of acceptance, same bodies, idempotence."
  },
  {
   "property": "C13",
   "status": "partial",
   "theorems": [
    "Verif.Tesseroid.C13_not_all_arcs_accepted",
    "Verif.Tesseroid.C13_wrap_accepted_partial"
   ],
   "note": "C13_full is refuted; exact characterisation of the accepted arcs written with west > east."
  },
  {
   "property": "C14",
   "status": "partial",
   "theorems": [
    "Verif.Tesseroid.C14_seam_not_detected",
    "Verif.Tesseroid.C14_detects_inside_partial",
    "Verif.Tesseroid.C14_full_turn",
    "Verif.Tesseroid.C14_tesseroid_gravity_rejects"
   ],
   "note": "C14_full is refuted for complete turns (seam meridian); proved for narrower tesseroids, and exactly characterised for complete turns."
  },
  {
   "property": "C15",
   "status": "proved",
   "theorems": [
    "Verif.Tesseroid.C15_split_partition",
    "Verif.Tesseroid.C15_split_equal",
    "Verif.Tesseroid.C15_pushed"
   ],
   "note": "Partition stated pointwise; volumes as integrals."
  },
  {
   "property": "C16",
   "status": "partial",
   "theorems": [
    "Verif.Tesseroid.C16_terminates",
    "Verif.Tesseroid.C16_memory_safe",
    "Verif.Tesseroid.C16_partition",
    "Verif.Tesseroid.C16_criterion",
    "Verif.Tesseroid.C16_only_overflow_partial",
    "Verif.Tesseroid.C16_far_not_split",
    "Verif.Tesseroid.C16_full_turn_zero_division",
    "Verif.Tesseroid.C16_tesseroid_gravity_errors_partial"
   ],
   "note": "Termination, memory safety, partition and criterion proved for all inputs; 'only OverflowError' is false for complete turns (C16_full_turn_zero_division) and proved for proper tesseroids."
  },
  {
   "property": "C17",
   "status": "proved",
   "theorems": [
    "Verif.Tesseroid.C17_quadrature_is_point_masses",
    "Verif.Tesseroid.C17_variable_of_constant",
    "Verif.Tesseroid.C17_linear",
    "Verif.Tesseroid.C17_masses_inside",
    "Verif.Tesseroid.C17_total_mass",
    "Verif.Tesseroid.C17_mass_error"
   ],
   "note": "Total mass exact in radius and longitude, nodes inside, positive masses, linearity; the total is at most the mass of the tesseroid and misses less than x^4/150 of it, x half of the latitudinal extent in radians (C17_mass_error)."
  },
  {
   "property": "C18",
   "status": "proved",
   "theorems": [
    "Verif.Tesseroid.C18_terminates",
    "Verif.Tesseroid.C18_partition",
    "Verif.Tesseroid.C18_criterion",
    "Verif.Tesseroid.C18_tesseroid_gravity_ends"
   ],
   "note": "Termination by uniform continuity for any minimiser that stays in bounds; partition; criterion for an exact minimiser."
  },
  {
   "property": "C19",
   "status": "partial",
   "theorems": [
    "Verif.Layers.C19_top_bottom_partial",
    "Verif.Layers.C19_inputs_untouched",
    "Verif.Layers.C19_order",
    "Verif.Layers.C19_wrong_shape",
    "Verif.Layers.C19_not_all_dtypes",
    "Verif.Layers.C19_layer_partial",
    "Verif.Layers.C19_layer_wrong_shape",
    "Verif.Layers.C19_layer_rejects",
    "Verif.Layers.C19_all_dtypes",
    "Verif.Layers.C19_regular_coordinates",
    "Verif.Layers.C19_layer_irregular"
   ],
   "note": "Maximum/minimum proved whenever the values fit in the other array's dtype (always for float surfaces with scalar or float reference), inputs unmodified, order and rejections for all dtypes, and what every dtype stores (C19_all_dtypes); C19_full is refuted for integer arrays (values truncated)."
  },
  {
   "property": "C20",
   "status": "partial",
   "theorems": [
    "Verif.Layers.C20_rows",
    "Verif.Layers.C20_get_element",
    "Verif.Layers.C20_index_out_of_range",
    "Verif.Layers.C20_elements_partial",
    "Verif.Layers.C20_gap",
    "Verif.Layers.C20_boundaries_partial",
    "Verif.Layers.C20_tiling_partial",
    "Verif.Layers.C20_descending",
    "Verif.Layers.C20_size"
   ],
   "note": "Proved for ascending coordinates; C20_full (any direction) is refuted by C20_descending."
  },
  {
   "property": "C21",
   "status": "proved",
   "theorems": [
    "Verif.Layers.C21_layer_gravity",
    "Verif.Layers.C21_unknown_field",
    "Verif.Layers.C21_missing_density"
   ],
   "note": "choclo's kernels are assumed to vanish for prisms of zero thickness unless the threshold is positive."
  },
  {
   "property": "C22",
   "status": "partial",
   "theorems": [
    "Verif.Layers.C22_overlap_partial",
    "Verif.Layers.C22_not_full"
   ],
   "note": "C22_full is refuted in both directions (exact global cover rejected; descending overlapping longitudes accepted)."
  },
  {
   "property": "C23",
   "status": "proved",
   "theorems": [
    "Verif.Layers.C23_elements",
    "Verif.Layers.C23_missing_density",
    "Verif.Survey.C23_gravity"
   ],
   "note": "C23_gravity: the result (or exception) is the one of the model of tesseroid_gravity for the specified elements. C23_elements: the same for any forward model given as a parameter."
  },
  {
   "property": "C24",
   "status": "partial",
   "theorems": [
    "Verif.EqSources.C24_predict",
    "Verif.EqSources.C24_predict_spherical_partial",
    "Verif.EqSources.C24_jacobian",
    "Verif.EqSources.C24_matrix",
    "Verif.EqSources.C24_linear",
    "Verif.EqSources.C24_not_fitted",
    "Verif.EqSources.C24_not_spherical_integers",
    "Verif.EqSources.C24_matrix_spherical_partial",
    "Verif.EqSources.C24_linear_spherical_partial"
   ],
   "note": "Cartesian predict/Jacobian for all inputs, linearity, matrix form; spherical for longitudes in a floating dtype. The spherical class truncates predictions for integer longitudes (C24_not_spherical_integers)."
  },
  {
   "property": "C25",
   "status": "proved",
   "theorems": [
    "Verif.EqSources.C25_init",
    "Verif.EqSources.C25_fit",
    "Verif.EqSources.C25_fit_gradient_boosted",
    "Verif.EqSources.C25_fit_spherical"
   ],
   "note": "Constructor checks and the three fit methods; sources at the documented depths, user points unchanged."
  },
  {
   "property": "C26",
   "status": "proved",
   "theorems": [
    "Verif.EqSources.C26_boosting",
    "Verif.EqSources.C26_outside",
    "Verif.EqSources.C26_final",
    "Verif.EqSources.C26_single_window"
   ],
   "note": "Any solver, any schedule of the kernels, any windows without duplicates; single window equals the plain fit."
  },
  {
   "property": "C27",
   "status": "proved",
   "theorems": [
    "Verif.EqSources.C27_windows",
    "Verif.EqSources.C27_nonempty",
    "Verif.EqSources.C27_cover",
    "Verif.EqSources.C27_single"
   ],
   "note": "Pairs preserved for any permutation; empty pairs dropped; single window holds everything."
  },
  {
   "property": "C28",
   "status": "partial",
   "theorems": [
    "Verif.EqSources.C28_cartesian_partial",
    "Verif.EqSources.C28_spherical_partial",
    "Verif.EqSources.C28_gradient_boosted_partial",
    "Verif.EqSources.C28_not_full",
    "Verif.EqSources.C28_not_spherical_float32"
   ],
   "note": "Exact without user points (Cartesian, gradient boosted) and for eight byte longitudes (spherical); the full statement is refuted with user points (C28_not_full) and for float32 longitudes (C28_not_spherical_float32)."
  },
  {
   "property": "C29",
   "status": "partial",
   "theorems": [
    "Verif.EqSources.C29_estimate",
    "Verif.EqSources.C29_history_partial",
    "Verif.EqSources.C29_history_spherical_partial",
    "Verif.EqSources.C29_not_gradient_boosted",
    "Verif.EqSources.C29_not_full"
   ],
   "note": "Proved for Cartesian and spherical classes for all histories in which fits with consistent shapes return; refuted for EquivalentSourcesGB (C29_not_gradient_boosted) and for fits that raise in the solver (C29_not_full)."
  },
  {
   "property": "C30",
   "status": "proved",
   "theorems": [
    "Verif.EqSources.C30_interpolation",
    "Verif.EqSources.C30_spherical"
   ],
   "note": "The solver is assumed to satisfy the weighted normal equations; square non-singular distance matrix."
  },
  {
   "property": "C31",
   "status": "partial",
   "theorems": [
    "Verif.EqSources.C31_cartesian",
    "Verif.EqSources.C31_spherical_partial",
    "Verif.EqSources.C31_not_spherical_integers"
   ],
   "note": "Cartesian proved for all dtypes; spherical for float longitudes; refuted for integer longitudes (C31_not_spherical_integers)."
  },
  {
   "property": "C32",
   "status": "partial",
   "theorems": [
    "Verif.Filters.C32_geometry",
    "Verif.Filters.C32_identity_partial",
    "Verif.Filters.C32_linear_partial",
    "Verif.Filters.C32_padded",
    "Verif.Filters.C32_decreasing"
   ],
   "note": "Geometry for every successful call (C32_geometry); unit filter, linearity (paddings that are linear) and cancelling of padding for regular grids with increasing coordinates. Missing: decreasing coordinates, where the property is false of the model (C32_decreasing: rows come back reversed; this rests on the modelled behaviour of xrft, which is outside /repo)."
  },
  {
   "property": "C33",
   "status": "proved",
   "theorems": [
    "Verif.Filters.C33_compose",
    "Verif.Filters.C33_zero",
    "Verif.Filters.C33_mean",
    "Verif.Filters.C33_no_amplification",
    "Verif.Filters.C33_harmonic"
   ],
   "note": "Composition, mean and energy without padding (as stated), height zero with any padding; harmonics are continued exactly. Regular grids with increasing coordinates."
  },
  {
   "property": "C34",
   "status": "proved",
   "theorems": [
    "Verif.Filters.C34_complementary",
    "Verif.Filters.C34_response",
    "Verif.Filters.C34_cutoff"
   ],
   "note": "Sum of both filters for any padding and nonzero wavelength; response and cutoff."
  },
  {
   "property": "C35",
   "status": "proved",
   "theorems": [
    "Verif.Filters.C35_powers",
    "Verif.Filters.C35_laplace",
    "Verif.Filters.C35_height_derivative",
    "Verif.Filters.C35_height_derivative_kernel",
    "Verif.Filters.C35_harmonic"
   ],
   "note": "Powers, Laplace equation at grid level with any padding, height derivative at grid level, exact derivatives of harmonics of any order below Nyquist."
  },
  {
   "property": "C36",
   "status": "partial",
   "theorems": [
    "Verif.Filters.C36_kernel_partial",
    "Verif.Filters.C36_finite_partial",
    "Verif.Filters.C36_pole_partial",
    "Verif.Filters.C36_harmonic_partial",
    "Verif.Filters.C36_not_full_default",
    "Verif.Filters.C36_horizontal"
   ],
   "note": "Kernel, zero wavenumber, pole and harmonics proved for given magnetization angles. The documented default for the magnetization angles is false of the code: it raises TypeError (C36_not_full_default). C36_horizontal: all NaN for a horizontal field."
  },
  {
   "property": "C37",
   "status": "partial",
   "theorems": [
    "Verif.Filters.C37_unchanged_partial",
    "Verif.Filters.C37_not_full",
    "Verif.Filters.C37_default_width"
   ],
   "note": "False of the code when padding with a dictionary that lacks a key (C37_not_full); proved for complete dictionaries, None and pad=False."
  },
  {
   "property": "C38",
   "status": "proved",
   "theorems": [
    "Verif.Filters.C38_total_gradient",
    "Verif.Filters.C38_tilt",
    "Verif.Filters.C38_scaling"
   ],
   "note": "Norm, tilt range and tangent for any grid with derivatives; scaling and sign for linear paddings."
  },
  {
   "property": "C39",
   "status": "proved",
   "theorems": [
    "Verif.Filters.C39_rejects",
    "Verif.Filters.C39_accepts",
    "Verif.Filters.C39_method",
    "Verif.Filters.C39_sanity"
   ],
   "note": "Rejection of exactly the bad grids by the check (C39_sanity), acceptance of all regular grids, invalid methods. What xrft does with irregular grids is outside the model."
  },
  {
   "property": "C40",
   "status": "proved",
   "theorems": [
    "Verif.Utils.C40_angles_roundtrip",
    "Verif.Utils.C40_vertical_roundtrip",
    "Verif.Utils.C40_vector_roundtrip",
    "Verif.Utils.C40_meaning",
    "Verif.Utils.C40_radians"
   ],
   "note": "Angles to vector and back, both directions, degrees and radians, vertical vectors."
  },
  {
   "property": "C41",
   "status": "proved",
   "theorems": [
    "Verif.Utils.C41_projection",
    "Verif.Utils.C41_linear",
    "Verif.Utils.C41_bounded",
    "Verif.Utils.C41_parallel",
    "Verif.Utils.C41_second_order"
   ],
   "note": "With the sharp second order bound |B|^2/(2|F|)."
  },
  {
   "property": "C42",
   "status": "proved",
   "theorems": [
    "Verif.Utils.C42_value",
    "Verif.Utils.C42_function"
   ],
   "note": "Elementwise value with NaN."
  },
  {
   "property": "C43",
   "status": "partial",
   "theorems": [
    "Verif.Utils.C43_balance",
    "Verif.Utils.C43_no_load",
    "Verif.Utils.C43_returns_partial",
    "Verif.Utils.C43_integer_arrays_raise",
    "Verif.Utils.C43_not_all_dtypes",
    "Verif.Utils.C43_elements",
    "Verif.Utils.C43_exceptions",
    "Verif.Utils.C43_layer_shapes",
    "Verif.Utils.C43_second_layer_larger"
   ],
   "note": "Mass balance proved for every input for which the function returns; C43_full (returns for all dtypes) is refuted for integer arrays."
  },
  {
   "property": "C44",
   "status": "partial",
   "theorems": [
    "Verif.Euler.C44_not_full",
    "Verif.Euler.C44_init",
    "Verif.Euler.C44_shapes",
    "Verif.Euler.C44_singular",
    "Verif.Euler.C44_least_squares",
    "Verif.Euler.C44_exact_partial",
    "Verif.Euler.C44_few"
   ],
   "note": "Least squares for every data set; exact data give the exact position and base level. The covariance is zero unless there are exactly four data, where it is 0/0 (C44_not_full)."
  },
  {
   "property": "C45",
   "status": "proved",
   "theorems": [
    "Verif.Euler.C45_run",
    "Verif.Euler.C45_no_iterations",
    "Verif.Euler.C45_fixed_point",
    "Verif.Euler.C45_exact",
    "Verif.Euler.C45_four_weights",
    "Verif.Euler.C45_other_weights",
    "Verif.Euler.C45_weights_errors"
   ],
   "note": "C45_run describes every successful run with positive weights (steps characterised as the unique constrained minimiser of the linearised problem), C45_exact the exact data. Also: max_iterations = 0 raises UnboundLocalError; exact data always give the warning when tol <= 1."
  },
  {
   "property": "C46",
   "status": "partial",
   "theorems": [
    "Verif.Euler.C46_first_minimiser",
    "Verif.Euler.C46_total",
    "Verif.Euler.C46_scalar",
    "Verif.Euler.C46_refused",
    "Verif.Euler.C46_arrays",
    "Verif.Euler.C46_misfit_partial",
    "Verif.Euler.C46_not_full"
   ],
   "note": "Selection proved. The misfit uses squared weights, not the documented weighted norm: proved for weights 0 or 1, refuted otherwise (C46_not_full). data_misfit_ is not set for sequences (last conjunct of C46_first_minimiser)."
  },
  {
   "property": "C47",
   "status": "proved",
   "theorems": [
    "Verif.Oasis.C47_roundtrip",
    "Verif.Oasis.C47_attrs",
    "Verif.Oasis.C47_truncated",
    "Verif.Oasis.C47_doubles",
    "Verif.Oasis.C47_floats"
   ],
   "note": "Round trip for all values of the fields; attributes of every loaded grid; short headers raise ValueError."
  },
  {
   "property": "C48",
   "status": "proved",
   "theorems": [
    "Verif.Oasis.C48_values",
    "Verif.Oasis.C48_coordinates",
    "Verif.Oasis.C48_wrong_count",
    "Verif.Oasis.C48_incomplete_element",
    "Verif.Oasis.C48_ordering",
    "Verif.Oasis.C48_elements"
   ],
   "note": "End to end for every file: shape, place of every element, coordinates for finite origin and spacing, wrong counts, incomplete elements, other orderings."
  },
  {
   "property": "C49",
   "status": "partial",
   "theorems": [
    "Verif.Oasis.C49_supported",
    "Verif.Oasis.C49_partial",
    "Verif.Oasis.C49_not_full",
    "Verif.Oasis.C49_unbound",
    "Verif.Oasis.C49_rejected"
   ],
   "note": "The outcome for every pair of integers; the full statement is refuted: undefined sign flags end in UnboundLocalError (C49_not_full, C49_unbound)."
  },
  {
   "property": "C50",
   "status": "proved",
   "theorems": [
    "Verif.Oasis.C50_values",
    "Verif.Oasis.C50_infinite",
    "Verif.Oasis.C50_zero_factor"
   ],
   "note": "NaN iff dummy (or stored NaN), for nonzero finite factor and finite base value; integers and IEEE bits decoded in the model."
  },
  {
   "property": "C51",
   "status": "proved",
   "theorems": [
    "Verif.Oasis.C51_blocks",
    "Verif.Oasis.C51_load",
    "Verif.Oasis.C51_corrupt"
   ],
   "note": "For any codec; a compressed file loads as the plain file; rejected blocks raise."
  },
  {
   "property": "C52",
   "status": "proved",
   "theorems": [
    "Verif.Oasis.C52_coordinates",
    "Verif.Oasis.C52_distances",
    "Verif.Oasis.C52_dims"
   ],
   "note": "Coordinates of every loaded grid with finite header values, both orderings, including angle 0."
  },
  {
   "property": "C53",
   "status": "partial",
   "theorems": [
    "Verif.Icgem.C53_not_full",
    "Verif.Icgem.C53_usecols_partial",
    "Verif.Icgem.C53_roundtrip",
    "Verif.Icgem.C53_white_space"
   ],
   "note": "All headers and values, any selection of columns, except the units: with usecols the units of all the columns stay in the attributes (C53_not_full). int and float are parameters; np.loadtxt is modelled."
  },
  {
   "property": "C54",
   "status": "proved",
   "theorems": [
    "Verif.Icgem.C54_values",
    "Verif.Icgem.C54_ascending",
    "Verif.Icgem.C54_comments"
   ],
   "note": "Every regular grid with distinct column names that agrees with its header is read, each row at its node; any usecols with both coordinates."
  },
  {
   "property": "C55",
   "status": "partial",
   "theorems": [
    "Verif.Icgem.C55_not_full",
    "Verif.Icgem.C55_not_full_rows",
    "Verif.Icgem.C55_not_full_negative",
    "Verif.Icgem.C55_metadata_partial",
    "Verif.Icgem.C55_header_partial",
    "Verif.Icgem.C55_no_columns_partial",
    "Verif.Icgem.C55_columns",
    "Verif.Icgem.C55_area",
    "Verif.Icgem.C55_empty_value",
    "Verif.Icgem.C55_row_count",
    "Verif.Icgem.C55_not_a_number",
    "Verif.Icgem.C55_ragged",
    "Verif.Icgem.C55_no_data",
    "Verif.Icgem.C55_coordinates_not_read",
    "Verif.Icgem.C55_not_an_integer",
    "Verif.Icgem.C55_negative_counts"
   ],
   "note": "Classification for all metadata whose values can be read, for malformed headers and columns, and for the area. The full statement is refuted: a required key without value raises IndexError (C55_not_full), a wrong number of rows ValueError (C55_not_full_rows), a header with latitude_parallels -1 and a negative number of points is read without an error because numpy works out the negative size (C55_not_full_negative), a count that is not an integer raises ValueError (C55_not_an_integer), as do words that are not numbers and rows of different lengths (C55_not_a_number, C55_ragged)."
  },
  {
   "property": "C56",
   "status": "proved",
   "theorems": [
    "Verif.Igrf.C56_calendar",
    "Verif.Igrf.C56_epoch",
    "Verif.Igrf.C56_between",
    "Verif.Igrf.C56_secular_variation",
    "Verif.Igrf.C56_continuous",
    "Verif.Igrf.C56_out_of_range",
    "Verif.Igrf.C56_time_zone",
    "Verif.Igrf.C56_degree"
   ],
   "note": "Epochs, interpolation, secular variation (years of 365.25 days), one continuous function for the whole range, ValueError outside. Also: TypeError with a time zone, IndexError above degree 13."
  },
  {
   "property": "C57",
   "status": "proved",
   "theorems": [
    "Verif.Igrf.C57_synthesis",
    "Verif.Igrf.C57_gradient",
    "Verif.Igrf.C57_ranges",
    "Verif.Igrf.C57_predict",
    "Verif.Igrf.C57_predict_degrees"
   ],
   "note": "Colatitudes from pole to pole, max_degree >= 1 (with 0 the code accesses memory outside its arrays); any contents of the arrays and any interleaving. Gradient of the potential in the three directions."
  },
  {
   "property": "C58",
   "status": "partial",
   "theorems": [
    "Verif.Igrf.C58_not_full",
    "Verif.Igrf.C58_grid_partial"
   ],
   "note": "Proved for heights that are constant along each parallel; refuted otherwise (C58_not_full): the colatitude of the first column is used for the whole row."
  },
  {
   "property": "C59",
   "status": "proved",
   "theorems": [
    "Verif.Igrf.C59_norm",
    "Verif.Igrf.C59_identity",
    "Verif.Igrf.C59_inverse",
    "Verif.Igrf.C59_same_vector"
   ],
   "note": "C59_same_vector: both triples of components are those of the same vector."
  },
  {
   "property": "C60",
   "status": "proved",
   "theorems": [
    "Verif.Legendre.C60_associated_legendre"
   ],
   "note": "Every entry, for every degree, order and previous contents of the array."
  },
  {
   "property": "C61",
   "status": "proved",
   "theorems": [
    "Verif.Legendre.C61_degree_zero",
    "Verif.Legendre.C61_schmidt",
    "Verif.Legendre.C61_full"
   ],
   "note": "Degrees from one; with max_degree = 0 the code writes outside its arrays (C61_degree_zero)."
  },
  {
   "property": "C62",
   "status": "proved",
   "theorems": [
    "Verif.Legendre.C62_derivative",
    "Verif.Legendre.C62_schmidt_derivative",
    "Verif.Legendre.C62_full_derivative"
   ],
   "note": "Derivatives of every order, one sided at the poles."
  },
  {
   "property": "C63",
   "status": "proved",
   "theorems": [
    "Verif.Ellipsoids.C63_sorted",
    "Verif.Ellipsoids.C63_internal"
   ],
   "note": "Also the exactness of the internal test."
  },
  {
   "property": "C64",
   "status": "proved",
   "theorems": [
    "Verif.Ellipsoids.C64_lambda",
    "Verif.Ellipsoids.C64_surface",
    "Verif.Ellipsoids.C64_unsorted"
   ],
   "note": "The trigonometric solution of the cubic included; a division by zero or a root or arccosine out of its domain would be an error in the model."
  },
  {
   "property": "C65",
   "status": "partial",
   "theorems": [
    "Verif.Ellipsoids.C65_integrals_partial",
    "Verif.Ellipsoids.C65_calculus_partial",
    "Verif.Ellipsoids.C65_almost",
    "Verif.Ellipsoids.C65_not_full"
   ],
   "note": "The closed forms are the integrals of the confocal family for every shape (triaxial included, with ellipkinc and ellipeinc as the integrals that define them), unless two semiaxes are almost equal without being equal: there the code uses a spheroid (C65_almost) and the sum rule fails (C65_not_full); the error there is bounded in C147."
  },
  {
   "property": "C66",
   "status": "proved",
   "theorems": [
    "Verif.Ellipsoids.C66_integrals",
    "Verif.Ellipsoids.C66_shapes",
    "Verif.Ellipsoids.C66_total",
    "Verif.Ellipsoids.C66_other_shapes",
    "Verif.Ellipsoids.C66_unsorted"
   ],
   "note": "Every partial operation is an error of the model when out of its domain; none occurs for sorted positive semiaxes."
  },
  {
   "property": "C67",
   "status": "partial",
   "theorems": [
    "Verif.Ellipsoids.C67_internal",
    "Verif.Ellipsoids.C67_internal_value",
    "Verif.Ellipsoids.C67_sphere",
    "Verif.Ellipsoids.C67_symmetric",
    "Verif.Ellipsoids.C67_traceless_partial",
    "Verif.Ellipsoids.C67_traceless_sphere",
    "Verif.Ellipsoids.C67_not_full"
   ],
   "note": "Unit trace inside and symmetry outside for every ellipsoid; trace zero outside unless two semiaxes are almost equal without being equal, refuted there (C67_not_full); the error there is bounded in C147."
  },
  {
   "property": "C68",
   "status": "partial",
   "theorems": [
    "Verif.Ellipsoids.C68_total",
    "Verif.Ellipsoids.C68_general",
    "Verif.Ellipsoids.C68_value_partial",
    "Verif.Ellipsoids.C68_isotropic",
    "Verif.Ellipsoids.C68_diagonal",
    "Verif.Ellipsoids.C68_sphere",
    "Verif.Ellipsoids.C68_unique",
    "Verif.Ellipsoids.C68_not_full"
   ],
   "note": "Proved for susceptibilities that commute with the demagnetization tensor (isotropic, principal axes along the semiaxes, spheres). Refuted for the other tensors: the code solves (I + N chi) M = chi H0 + Mr instead of (I + chi N) (C68_not_full)."
  },
  {
   "property": "C69",
   "status": "partial",
   "theorems": [
    "Verif.Ellipsoids.C69_value",
    "Verif.Ellipsoids.C69_total",
    "Verif.Ellipsoids.C69_skip",
    "Verif.Ellipsoids.C69_order",
    "Verif.Ellipsoids.C69_single",
    "Verif.Ellipsoids.C69_odd",
    "Verif.Ellipsoids.C69_continuous_partial",
    "Verif.Ellipsoids.C69_not_full",
    "Verif.Ellipsoids.C69_sphere"
   ],
   "note": "Values for every list of bodies; total; oddness; continuity across the surface unless two semiaxes are almost equal without being equal, refuted there (C69_not_full); the error there is bounded in C147."
  },
  {
   "property": "C70",
   "status": "partial",
   "theorems": [
    "Verif.Ellipsoids.C70_history_partial",
    "Verif.Ellipsoids.C70_valid",
    "Verif.Ellipsoids.C70_failed",
    "Verif.Ellipsoids.C70_assigned",
    "Verif.Ellipsoids.C70_semiaxis",
    "Verif.Ellipsoids.C70_properties",
    "Verif.Ellipsoids.C70_construct",
    "Verif.Ellipsoids.C70_not_full",
    "Verif.Ellipsoids.C70_semiaxis_exceptions",
    "Verif.Ellipsoids.C70_property_exceptions",
    "Verif.Ellipsoids.C70_view"
   ],
   "note": "All histories. nan and arrays with one element are accepted as semiaxes (C70_not_full)."
  },
  {
   "property": "C71",
   "status": "proved",
   "theorems": [
    "Verif.Ellipsoids.C71_rotation",
    "Verif.Ellipsoids.C71_identity",
    "Verif.Ellipsoids.C71_yaw",
    "Verif.Ellipsoids.C71_pitch",
    "Verif.Ellipsoids.C71_roll",
    "Verif.Ellipsoids.C71_order",
    "Verif.Ellipsoids.C71_every_rotation",
    "Verif.Ellipsoids.C71_semiaxes",
    "Verif.Ellipsoids.C71_ends"
   ],
   "note": ""
  },
  {
   "property": "C72",
   "status": "proved",
   "theorems": [
    "Verif.Layers.C72_layer",
    "Verif.Utils.C72_vertices",
    "Verif.Utils.C72_corners",
    "Verif.Utils.C72_grid",
    "Verif.Utils.C72_multidimensional_property"
   ],
   "note": "Vertex order, corners, cells; alignment of properties for layers."
  },
  {
   "property": "C73",
   "status": "proved",
   "theorems": [
    "Verif.Igrf.C73_history"
   ],
   "note": "The file is a fixed input."
  },
  {
   "property": "C74",
   "status": "proved",
   "theorems": [
    "Verif.Filters.C74_affine",
    "Verif.Filters.C74_quadratic",
    "Verif.Filters.C74_linear",
    "Verif.Filters.C74_order",
    "Verif.Filters.C74_error"
   ],
   "note": "Affine exactness for distinct coordinates (even or not), linearity, composition of orders; parabolas exact in the interior; error bounds of second (edges: first) order for samples of smooth functions (C74_error)."
  },
  {
   "property": "C75",
   "status": "proved",
   "theorems": [
    "Verif.Euler.C75_translation",
    "Verif.Euler.C75_scaling",
    "Verif.Euler.C75_base_level",
    "Verif.Euler.C75_order"
   ],
   "note": "For the arrays after raveling."
  },
  {
   "property": "C76",
   "status": "proved",
   "theorems": [
    "Verif.EqSources.C76_shapes"
   ],
   "note": ""
  },
  {
   "property": "C77",
   "status": "proved",
   "theorems": [
    "Verif.Igrf.C77_round_trip",
    "Verif.Igrf.C77_blank_line",
    "Verif.Igrf.C77_not_a_number",
    "Verif.Igrf.C77_bad_variation",
    "Verif.Igrf.C77_unknown_key",
    "Verif.Igrf.C77_bad_row"
   ],
   "note": "int and float are parameters. A blank line raises IndexError (C77_blank_line). As numpy does, the code takes degrees and orders from -14 to -1 as counted from the end and uses a single value for all years, so that those rows are not refused."
  },
  {
   "property": "C78",
   "status": "proved",
   "theorems": [
    "Verif.Ellipsoids.C78_poisson",
    "Verif.Ellipsoids.C78_relation",
    "Verif.Ellipsoids.C78_gravity"
   ],
   "note": "For bodies whose semiaxes are not almost equal without being equal, as stated."
  },
  {
   "property": "C79",
   "status": "proved",
   "theorems": [
    "Verif.Ellipsoids.C79_far_field",
    "Verif.Ellipsoids.C79_gravity"
   ],
   "note": ""
  },
  {
   "property": "C80",
   "status": "proved",
   "theorems": [
    "Verif.Ellipsoids.C80_boundary",
    "Verif.Ellipsoids.C80_magnetic"
   ],
   "note": "For the magnetization that the code computes."
  },
  {
   "property": "C81",
   "status": "proved",
   "theorems": [
    "Verif.Ellipsoids.C81_dipole",
    "Verif.Ellipsoids.C81_sphere"
   ],
   "note": ""
  },
  {
   "property": "C82",
   "status": "proved",
   "theorems": [
    "Verif.Ellipsoids.C82_linear"
   ],
   "note": "For every shape and passive susceptibility (over -1, or a tensor with nonnegative quadratic form)."
  },
  {
   "property": "C83",
   "status": "proved",
   "theorems": [
    "Verif.Ellipsoids.C83_shape",
    "Verif.Ellipsoids.C83_on_surface",
    "Verif.Ellipsoids.C83_closed",
    "Verif.Ellipsoids.C83_pyvista",
    "Verif.Ellipsoids.C83_pyvista_onto",
    "Verif.Ellipsoids.C83_pyvista_surface",
    "Verif.Ellipsoids.C83_dense"
   ],
   "note": ""
  },
  {
   "property": "C84",
   "status": "proved",
   "theorems": [
    "Verif.Ellipsoids.C84_gravity",
    "Verif.Ellipsoids.C84_magnetic"
   ],
   "note": "For bodies whose semiaxes are not almost equal without being equal."
  },
  {
   "property": "C85",
   "status": "proved",
   "theorems": [
    "Verif.Tesseroid.C85_constant_function"
   ],
   "note": "For nonzero densities and tesseroids with volume; any minimiser that stays within bounds."
  },
  {
   "property": "C86",
   "status": "proved",
   "theorems": [
    "Verif.Progress.C86_initialize",
    "Verif.Progress.C86_loop",
    "Verif.Progress.C86_prism_gravity",
    "Verif.Progress.C86_dipole_magnetic",
    "Verif.Progress.C86_prism_magnetic",
    "Verif.Progress.C86_prism_layer_gravity",
    "Verif.Progress.C86_tesseroid_gravity",
    "Verif.Progress.C86_tesseroid_gravity_missing"
   ],
   "note": "numba_progress is modelled as an atomic counter. For tesseroid_gravity the missing library is noticed before errors of the discretization (C86_tesseroid_gravity_missing)."
  },
  {
   "property": "C87",
   "status": "proved",
   "theorems": [
    "Verif.EqSources.C87_grid",
    "Verif.EqSources.C87_deprecated",
    "Verif.EqSources.C87_ignored",
    "Verif.EqSources.C87_not_fitted",
    "Verif.EqSources.C87_scatter",
    "Verif.EqSources.C87_shapes",
    "Verif.EqSources.C87_data_names",
    "Verif.EqSources.C87_empty"
   ],
   "note": "verde's BaseGridder is modelled by what it does; its closeness test is any reflexive relation. profile of the spherical class is in C87_scatter too."
  },
  {
   "property": "C88",
   "status": "proved",
   "theorems": [
    "Verif.EqSources.C88_profile",
    "Verif.EqSources.C88_ends",
    "Verif.EqSources.C88_size",
    "Verif.EqSources.C88_extra_coords",
    "Verif.EqSources.C88_other_arguments"
   ],
   "note": "verde's profile_coordinates is modelled by what it does. The documentation says that other arguments are passed on, but every one is a TypeError (C88_other_arguments)."
  },
  {
   "property": "C89",
   "status": "partial",
   "theorems": [
    "Verif.EqSources.C89_grid_partial",
    "Verif.EqSources.C89_deprecated",
    "Verif.EqSources.C89_ignored",
    "Verif.EqSources.C89_not_full"
   ],
   "note": "Values for longitudes of floating point types; refuted for integers, whose predictions are truncated (C89_not_full). profile and scatter: C87_scatter."
  },
  {
   "property": "C90",
   "status": "proved",
   "theorems": [
    "Verif.Tesseroid.C90_rotation",
    "Verif.Tesseroid.C90_rotation_unchecked",
    "Verif.Tesseroid.C90_turns",
    "Verif.Tesseroid.C90_scale",
    "Verif.Tesseroid.C90_mirror_meridian",
    "Verif.Tesseroid.C90_mirror_equator",
    "Verif.Tesseroid.C90_point_gravity",
    "Verif.Tesseroid.C90_point_gravity_scale",
    "Verif.Tesseroid.C90_rotation_func",
    "Verif.Tesseroid.C90_mirror_equator_func",
    "Verif.Tesseroid.C90_mirror_meridian_func"
   ],
   "note": "Rotations and mirrors: constant densities and density functions; scale: constant densities. The mirror theorems assume that both calls return."
  },
  {
   "property": "C91",
   "status": "proved",
   "theorems": [
    "Verif.Tesseroid.C91_not_negative",
    "Verif.Tesseroid.C91_positive",
    "Verif.Tesseroid.C91_point_gravity"
   ],
   "note": ""
  },
  {
   "property": "C92",
   "status": "partial",
   "theorems": [
    "Verif.Utils.C92_values",
    "Verif.Utils.C92_layers",
    "Verif.Utils.C92_other_attributes",
    "Verif.Utils.C92_crust_mantle_partial",
    "Verif.Utils.C92_layer_named_crust"
   ],
   "note": "A layer named crust or mantle takes the place of the density of the crust or the mantle (C92_layer_named_crust); proved otherwise."
  },
  {
   "property": "C93",
   "status": "proved",
   "theorems": [
    "Verif.EqSources.C93_cartesian",
    "Verif.EqSources.C93_spherical",
    "Verif.EqSources.C93_gradient_boosted"
   ],
   "note": "In hypotheses: neighbour distances, block medians and rolling windows of moved points. Spherical predictions for longitudes of floating point types."
  },
  {
   "property": "C94",
   "status": "proved",
   "theorems": [
    "Verif.EqSources.C94_cartesian",
    "Verif.EqSources.C94_spherical",
    "Verif.EqSources.C94_gradient_boosted"
   ],
   "note": "In a hypothesis: the solver is linear in the data for a given system (shown for damped least squares in exact arithmetic). Spherical predictions for longitudes of floating point types."
  },
  {
   "property": "C95",
   "status": "proved",
   "theorems": [
    "Verif.Filters.C95_units",
    "Verif.Filters.C95_irregular"
   ],
   "note": "In a hypothesis: the values written by np.pad do not depend on the coordinates. Rests on the model of xrft."
  },
  {
   "property": "C96",
   "status": "proved",
   "theorems": [
    "Verif.EqSources.C96_cartesian",
    "Verif.EqSources.C96_spherical",
    "Verif.Forward.C96_point_potential"
   ],
   "note": "Spherical predictions for longitudes of floating point types (see C31)."
  },
  {
   "property": "C97",
   "status": "proved",
   "theorems": [
    "Verif.Igrf.C97_no_divergence_nor_curl"
   ],
   "note": "At points whose sine of the colatitude is at most 1e-10 the code sets the east component to zero and nothing is claimed. Components are the spherical ones of the kernel; C59 shows that predict only changes the frame of the vector."
  },
  {
   "property": "C98",
   "status": "proved",
   "theorems": [
    "Verif.Ellipsoids.C98_magnetic"
   ],
   "note": "Semiaxes that are almost equal are equal (Exact), as in C68; the branches for almost equal semiaxes are approximations."
  },
  {
   "property": "C99",
   "status": "proved",
   "theorems": [
    "Verif.Ellipsoids.C99_image_exists",
    "Verif.Ellipsoids.C99_gravity",
    "Verif.Ellipsoids.C99_magnetic"
   ],
   "note": "Images are stated as sets of points, so the description of the moved bodies is arbitrary. C99_image_exists gives one for every motion (it uses C71_every_rotation: the angles reach every rotation)."
  },
  {
   "property": "C100",
   "status": "proved",
   "theorems": [
    "Verif.EqSources.C100_window",
    "Verif.EqSources.C100_rmse",
    "Verif.EqSources.C100_cartesian",
    "Verif.EqSources.C100_spherical"
   ],
   "note": "Solver as a parameter with hypothesis NeverWorse; damped least squares in exact arithmetic satisfies it (Examples). The global misfit of boosting with several windows is not claimed: other windows' data may get worse."
  },
  {
   "property": "C101",
   "status": "proved",
   "theorems": [
    "Verif.EqSources.C101_cartesian",
    "Verif.EqSources.C101_spherical"
   ],
   "note": "Hypothesis OrderFree about the external functions; damped least squares in exact arithmetic satisfies it (Examples). Not claimed for the gradient-boosted class, whose windows are visited in an order drawn at random."
  },
  {
   "property": "C102",
   "status": "proved",
   "theorems": [
    "Verif.EqSources.C102_cartesian",
    "Verif.EqSources.C102_spherical",
    "Verif.EqSources.C102_gradient_boosted",
    "Verif.EqSources.C102_heights"
   ],
   "note": "C102_heights shows that one height is needed. Solver as in C30."
  },
  {
   "property": "C103",
   "status": "proved",
   "theorems": [
    "Verif.Survey.C103_point_gravity",
    "Verif.Survey.C103_prism_gravity",
    "Verif.Survey.C103_dipole_magnetic",
    "Verif.Survey.C103_prism_magnetic",
    "Verif.Survey.C103_tesseroid_gravity",
    "Verif.Survey.C103_tesseroid_gravity_function",
    "Verif.Survey.C103_prism_layer",
    "Verif.Survey.C103_predict",
    "Verif.Survey.C103_predict_spherical",
    "Verif.Survey.C103_ellipsoid_gravity",
    "Verif.Survey.C103_ellipsoid_magnetic",
    "Verif.Survey.C103_igrf_predict",
    "Verif.Survey.C103_tesseroid_layer"
   ],
   "note": "For coordinates in arrays of one common shape (other shapes: C08). Warnings are not part of the outcome. The ellipsoids are valid and, for magnetic fields, passive (C68, C69); predict of spherical equivalent sources is for coordinates of a float type (C29)."
  },
  {
   "property": "C104",
   "status": "partial",
   "theorems": [
    "Verif.Filters.C104_commute",
    "Verif.Filters.C104_upward_orders",
    "Verif.Filters.C104_lowpass_cascade",
    "Verif.Filters.C104_horizontal_orders_partial",
    "Verif.Filters.C104_not_full",
    "Verif.Filters.C104_mean",
    "Verif.Filters.C104_gaussian_energy"
   ],
   "note": "The full statement is false: on a grid with an even number of nodes along the axis, two horizontal derivatives of odd order lose the Nyquist frequency and the derivative of the sum of the orders does not (C104_not_full). C104_horizontal_orders_partial proves the orders add in every other case (odd number of nodes, or an even order). The rest of the statement is proved in full."
  },
  {
   "property": "C105",
   "status": "proved",
   "theorems": [
    "Verif.Forward.C105_point_gravity",
    "Verif.Forward.C105_dipole_magnetic"
   ],
   "note": "For any kernels that have the documented values of choclo.point and choclo.dipole away from the source (PointKernels.Newtonian, MagKernels.Dipole): the names, signs and units that harmonica adds are what the relations test."
  },
  {
   "property": "C106",
   "status": "proved",
   "theorems": [
    "Verif.Euler.C106_point_mass"
   ],
   "note": "Composition of the models of point_gravity and of the Euler methods; for kernels with the documented values of choclo.point. The covariance is zero except for exactly four data in EulerDeconvolution (see C44)."
  },
  {
   "property": "C107",
   "status": "proved",
   "theorems": [
    "Verif.Ellipsoids.C107_gravity",
    "Verif.Ellipsoids.C107_magnetic"
   ],
   "note": "For kernels with the documented values of choclo.point and choclo.dipole; composes the models of two pairs of forward functions."
  },
  {
   "property": "C108",
   "status": "proved",
   "theorems": [
    "Verif.Filters.C108_one_field",
    "Verif.Filters.C108_far"
   ],
   "note": "One smooth, harmonic, bounded, periodic field explains all calls with the same padding options; the horizontal derivatives with method=\"fft\" and any order (including the Nyquist frequencies)."
  },
  {
   "property": "C109",
   "status": "proved",
   "theorems": [
    "Verif.Filters.C109_potential"
   ],
   "note": "Directions given as inclination and declination; the derivative along a direction is the derivative of the field on a line."
  },
  {
   "property": "C110",
   "status": "proved",
   "theorems": [
    "Verif.Tesseroid.C110_potential_bounds",
    "Verif.Tesseroid.C110_far"
   ],
   "note": "For densities given as numbers. Far away (C110_far) for tesseroids below a radius b seen from a radius above it."
  },
  {
   "property": "C111",
   "status": "proved",
   "theorems": [
    "Verif.Forward.C111_same_density",
    "Verif.Forward.C111_cut",
    "Verif.Forward.C111_frame"
   ],
   "note": "For choclo.prism kernels that are the documented integrals of the fields of point masses over the prism (tensor: outside the prism)."
  },
  {
   "property": "C112",
   "status": "proved",
   "theorems": [
    "Verif.Forward.C112_mass_over_distance"
   ],
   "note": "For choclo.prism kernels that are the documented integrals of the fields of point masses over the prism."
  },
  {
   "property": "C113",
   "status": "proved",
   "theorems": [
    "Verif.Forward.C113_gravity",
    "Verif.Forward.C113_magnetic"
   ],
   "note": "For choclo.prism kernels that are the documented integrals over the prism of the fields of point masses and of dipoles."
  },
  {
   "property": "C114",
   "status": "proved",
   "theorems": [
    "Verif.Forward.C114_poisson"
   ],
   "note": "For choclo.prism kernels that are the documented integrals over the prism of the fields of point masses and of dipoles."
  },
  {
   "property": "C115",
   "status": "proved",
   "theorems": [
    "Verif.Layers.C115_body",
    "Verif.Layers.C115_same_body",
    "Verif.Layers.C115_stack",
    "Verif.Layers.C115_prism_layer"
   ],
   "note": "For choclo.prism kernels that are the documented integrals of the fields of point masses over the prism."
  },
  {
   "property": "C116",
   "status": "proved",
   "theorems": [
    "Verif.Forward.C116_body",
    "Verif.Forward.C116_same_magnetization",
    "Verif.Forward.C116_cut",
    "Verif.Forward.C116_frame"
   ],
   "note": "For choclo.prism kernels that are the documented integrals over the prism of the field of dipoles."
  },
  {
   "property": "C117",
   "status": "proved",
   "theorems": [
    "Verif.Forward.C117_point_gravity",
    "Verif.Forward.C117_dipole_magnetic"
   ],
   "note": "For choclo.point and choclo.dipole kernels that are the documented formulas away from the sources. Cartesian coordinates."
  },
  {
   "property": "C118",
   "status": "proved",
   "theorems": [
    "Verif.Forward.C118_prism_gravity",
    "Verif.Forward.C118_prism_magnetic"
   ],
   "note": "For choclo.prism kernels that are the documented integrals over the prism of the fields of point masses and of dipoles."
  },
  {
   "property": "C119",
   "status": "proved",
   "theorems": [
    "Verif.Igrf.C119_nodes",
    "Verif.Igrf.C119_given",
    "Verif.Igrf.C119_parallel",
    "Verif.Igrf.C119_determined"
   ],
   "note": "For a bordado.grid_coordinates that returns the documented nodes when the spacing divides the region. The field everywhere is determined for a spherical ellipsoid (geodetic latitude equal to spherical latitude); along parallels for any ellipsoid."
  },
  {
   "property": "C120",
   "status": "proved",
   "theorems": [
    "Verif.Igrf.C120_values",
    "Verif.Igrf.C120_attributes",
    "Verif.Igrf.C120_cache"
   ],
   "note": "bordado.grid_coordinates, the ISO format of dates and names are parameters; the checks of verde.make_xarray_grid are not modelled. Heights that vary along a parallel: see C58."
  },
  {
   "property": "C121",
   "status": "proved",
   "theorems": [
    "Verif.Igrf.C121_dipole"
   ],
   "note": "For the documented kernels of choclo.dipole. The cosine of the spherical latitude is at least 1e-10: nearer to the axis predict sets the east component to zero."
  },
  {
   "property": "C122",
   "status": "proved",
   "theorems": [
    "Verif.Igrf.C122_linear",
    "Verif.Igrf.C122_continuous"
   ],
   "note": "Dates without a time zone in the range of the table, which has an epoch every five years."
  },
  {
   "property": "C123",
   "status": "proved",
   "theorems": [
    "Verif.Forward.C123_plate",
    "Verif.Forward.C123_error",
    "Verif.Forward.C123_bound"
   ],
   "note": "For kernels of choclo.prism with their documented values (integrals over the prism)."
  },
  {
   "property": "C124",
   "status": "proved",
   "theorems": [
    "Verif.Forward.C124_compensated"
   ],
   "note": "For kernels of choclo.prism with their documented values (integrals over the prism), and layers of thickness zero or more."
  },
  {
   "property": "C125",
   "status": "proved",
   "theorems": [
    "Verif.Forward.C125_points",
    "Verif.Forward.C125_prisms"
   ],
   "note": "For kernels of choclo with their documented values."
  },
  {
   "property": "C126",
   "status": "proved",
   "theorems": [
    "Verif.Forward.C126_dipoles",
    "Verif.Forward.C126_prisms"
   ],
   "note": "For kernels of choclo with their documented values."
  },
  {
   "property": "C127",
   "status": "partial",
   "theorems": [
    "Verif.Filters.C127_swap",
    "Verif.Filters.C127_mirror_partial",
    "Verif.Filters.C127_mirror_north_partial",
    "Verif.Filters.C127_not_full"
   ],
   "note": "Mirrors: false for the reduction to the pole of grids with even numbers of rows and columns (C127_not_full: with inclination and declination of 45 degrees a checkerboard of 2 by 2 nodes becomes zero, and its mirror image with declination -45 is doubled), because only the real part of the filter at the Nyquist frequencies is kept; proved for everything else. Swapped axes: proved in full."
  },
  {
   "property": "C128",
   "status": "proved",
   "theorems": [
    "Verif.Filters.C128_shift",
    "Verif.Filters.C128_reciprocal"
   ],
   "note": "Displacements for every transformation that filters with the FFT; reciprocity for every filter and argument that does not raise."
  },
  {
   "property": "C129",
   "status": "proved",
   "theorems": [
    "Verif.Ellipsoids.C129_repr",
    "Verif.Ellipsoids.C129_call"
   ],
   "note": "The texts that Python and numpy print for numbers and arrays are parameters; C129_repr is about the list of texts before it is joined with commas, C129_call about the joined text."
  },
  {
   "property": "C130",
   "status": "partial",
   "theorems": [
    "Verif.Layers.C130_prisms_partial",
    "Verif.Layers.C130_prisms_transposed",
    "Verif.Layers.C130_prisms_out_of_bounds",
    "Verif.Layers.C130_not_full",
    "Verif.Layers.C130_tesseroids_partial",
    "Verif.Layers.C130_tesseroids_transposed",
    "Verif.Layers.C130_tesseroids_missing",
    "Verif.Layers.C130_pyvista"
   ],
   "note": "False for variables with dimensions (easting, northing), e.g. layer['density'] = (('easting', 'northing'), values): the accessors read .values in the order of the variable. In layers with as many eastings as northings every density is used on the other side of the diagonal (C130_prisms_transposed, C130_tesseroids_transposed, C130_pyvista, C130_not_full); with more northings than eastings the compiled loop reads past the end of the array (C130_prisms_out_of_bounds); tesseroid layers that are not square raise IndexError. Proved for the order (northing, easting), the one of the constructors."
  },
  {
   "property": "C131",
   "status": "proved",
   "theorems": [
    "Verif.Euler.C131_deconvolution",
    "Verif.Euler.C131_inversion",
    "Verif.Euler.C131_warning",
    "Verif.Euler.C131_base_level"
   ],
   "note": "Exact arithmetic. Units of length are not covered: the weights enter the step unsquared and the misfit squared (C46). For EulerInversion and constants with tol > 0 and more than one iteration only the first test of convergence can differ; that case is not proved."
  },
  {
   "property": "C132",
   "status": "partial",
   "theorems": [
    "Verif.Euler.C132_outcome",
    "Verif.Euler.C132_deconvolution",
    "Verif.Euler.C132_failed_partial",
    "Verif.Euler.C132_no_iterations",
    "Verif.Euler.C132_not_full",
    "Verif.Euler.C132_history"
   ],
   "note": "False for EulerInversion with max_iterations=0 and one structural index: location_ and base_level_ are set to the first estimate before the undefined cofactor raises UnboundLocalError, the other attributes stay those of an earlier fit (C132_no_iterations, C132_not_full). Proved otherwise. With a sequence of structural indices data_misfit_ of an earlier fit with one index remains (C132_history)."
  },
  {
   "property": "C133",
   "status": "proved",
   "theorems": [
    "Verif.Forward.C133_dipoles",
    "Verif.Forward.C133_prisms",
    "Verif.Forward.C133_point_masses",
    "Verif.Forward.C133_prism_gravity"
   ],
   "note": "Choclo's kernels are taken as the Newtonian and dipole fields and their integrals over the prism."
  },
  {
   "property": "C134",
   "status": "partial",
   "theorems": [
    "Verif.Filters.C134_natural",
    "Verif.Filters.C134_zero",
    "Verif.Filters.C134_negative_fft",
    "Verif.Filters.C134_negative_finite_diff",
    "Verif.Filters.C134_not_full"
   ],
   "note": "Negative orders: NaN everywhere with the FFT (C134_negative_fft). False with finite differences, the default of the horizontal derivatives: the loop over range(order) is empty and the grid comes back as if it were its derivative (C134_negative_finite_diff, C134_not_full)."
  },
  {
   "property": "C135",
   "status": "partial",
   "theorems": [
    "Verif.Utils.C135_balance",
    "Verif.Utils.C135_points",
    "Verif.Utils.C135_returns_partial",
    "Verif.Utils.C135_second_layer_other_grid",
    "Verif.Utils.C135_second_layer_other_dimension",
    "Verif.Utils.C135_integer_layers",
    "Verif.Utils.C135_points_lost",
    "Verif.Utils.C135_not_full"
   ],
   "note": "Balance at every point and exactly the points common to all the operands (C135_balance, C135_points). That every point of the basement gets a depth is false: points that are missing in another operand are dropped without an error (C135_points_lost), and layers with other labels than the first one raise (C135_second_layer_other_grid, C135_second_layer_other_dimension), as do layers of integers (C135_integer_layers); it holds for operands on the same grid (C135_returns_partial)."
  },
  {
   "property": "C136",
   "status": "partial",
   "theorems": [
    "Verif.Layers.C136_positions",
    "Verif.Layers.C136_same_coordinates_partial",
    "Verif.Layers.C136_transposed_rejected",
    "Verif.Layers.C136_transposed_square",
    "Verif.Layers.C136_not_full"
   ],
   "note": "Proved when the DataArrays have the dimensions and labels of the layer in the same order (C136_same_coordinates_partial). False otherwise: np.asarray drops the coordinates and values are taken by position (C136_positions), so that a grid with descending northings, or a transposed one of a square layer, is accepted and misplaced (C136_not_full, C136_transposed_square); transposed grids of other layers raise (C136_transposed_rejected)."
  },
  {
   "property": "C137",
   "status": "partial",
   "theorems": [
    "Verif.EqSources.C137_cartesian",
    "Verif.EqSources.C137_gradient_boosted",
    "Verif.EqSources.C137_spherical_partial",
    "Verif.EqSources.C137_spherical_not_full",
    "Verif.EqSources.C137_spherical_points"
   ],
   "note": "Proved for EquivalentSources and EquivalentSourcesGB, whose points_ are copies (C137_cartesian, C137_gradient_boosted). For EquivalentSourcesSph proved as long as the program does not write into contiguous arrays passed as longitude and latitude or as points (C137_spherical_partial). False without that: points_ are views of those arrays, so that changing a longitude after fit moves a source and changes predictions (C137_spherical_not_full, C137_spherical_points). Assumes that verde's n_1d_arrays and check_fit_input make no copies of contiguous arrays (see EqSources/ModelB.lean)."
  },
  {
   "property": "C138",
   "status": "partial",
   "theorems": [
    "Verif.Ellipsoids.C138_assignment_partial",
    "Verif.Ellipsoids.C138_construction_partial",
    "Verif.Ellipsoids.C138_types",
    "Verif.Ellipsoids.C138_not_full",
    "Verif.Ellipsoids.C138_center",
    "Verif.Ellipsoids.C138_negative_semiaxis"
   ],
   "note": "Proved for numbers, None, tuples and lists given as remanent_mag, and for other arrays and lists as long as the program does not write to them (C138_construction_partial, C138_assignment_partial); the physical properties have the documented types after every history (C138_types). False for arrays given as remanent_mag or susceptibility and lists given as center, which are kept by reference (C138_not_full, C138_center), and an array of one element given as semiaxis can be made negative (C138_negative_semiaxis)."
  },
  {
   "property": "C139",
   "status": "partial",
   "theorems": [
    "Verif.Igrf.C139_history",
    "Verif.Igrf.C139_assignments_partial",
    "Verif.Igrf.C139_write",
    "Verif.Igrf.C139_label",
    "Verif.Igrf.C139_not_full"
   ],
   "note": "Proved for histories in which, since the first use that could compute the coefficients, the date is not changed, max_degree is not raised and the arrays of coefficients are not written (C139_assignments_partial); without the condition on the date, the field is that of the date of the first use (C139_history). False for the others: a date assigned after the first use is ignored, a raised max_degree makes the compiled loops access memory outside their arrays, and a write changes the field (C139_not_full); the grid made after such an assignment of the date is labelled with the new date (C139_label)."
  },
  {
   "property": "C140",
   "status": "proved",
   "theorems": [
    "Verif.EqSources.C140_fit",
    "Verif.EqSources.C140_fit_gradient_boosted",
    "Verif.EqSources.C140_fit_spherical",
    "Verif.EqSources.C140_predict",
    "Verif.EqSources.C140_predict_gradient_boosted",
    "Verif.EqSources.C140_predict_spherical"
   ],
   "note": "The shuffle of the windows (random_state) is an input of fit. The predictions of EquivalentSourcesGB are kept until the next fit or estimate of the memory (C29_not_gradient_boosted). A fit that raises may leave attributes of both fits (C29_not_full)."
  },
  {
   "property": "C141",
   "status": "proved",
   "theorems": [
    "Verif.Ellipsoids.C141_confocal_gravity",
    "Verif.Ellipsoids.C141_confocal_magnetic",
    "Verif.Ellipsoids.C141_shell_gravity",
    "Verif.Ellipsoids.C141_shell_magnetic"
   ],
   "note": "As for C69 and C68, semiaxes that are almost equal (relative difference less than 1e-5) are equal."
  },
  {
   "property": "C142",
   "status": "proved",
   "theorems": [
    "Verif.Tesseroid.C142_potential",
    "Verif.Tesseroid.C142_g_z",
    "Verif.Tesseroid.C142_extent",
    "Verif.Tesseroid.C142_above",
    "Verif.Tesseroid.C142_potential_func",
    "Verif.Tesseroid.C142_g_z_func"
   ],
   "note": "For points outside of all bodies (a positive distance); functions of the radius with a minimiser that stays in its bounds."
  },
  {
   "property": "C143",
   "status": "proved",
   "theorems": [
    "Verif.Filters.C143_gradient",
    "Verif.Filters.C143_gradient_even",
    "Verif.Filters.C143_derivative_bounds",
    "Verif.Filters.C143_gaussian",
    "Verif.Filters.C143_continuation"
   ],
   "note": "Without padding; the equality for the gradient needs odd sizes, and C143_gradient_even shows that it fails with an even number of columns."
  },
  {
   "property": "C144",
   "status": "proved",
   "theorems": [
    "Verif.Tesseroid.C144_grid",
    "Verif.Tesseroid.C144_potential",
    "Verif.Tesseroid.C144_g_z",
    "Verif.Tesseroid.C144_global"
   ],
   "note": "The model works with real numbers; the error of the approximation by point masses is the bound of C142."
  },
  {
   "property": "C145",
   "status": "proved",
   "theorems": [
    "Verif.Tesseroid.C145_potential",
    "Verif.Tesseroid.C145_g_z"
   ],
   "note": "The errors are the bounds of C142; exact symmetries (rotations around the axis and changes of hemisphere) are in C90."
  },
  {
   "property": "C146",
   "status": "proved",
   "theorems": [
    "Verif.Survey.C146_potential",
    "Verif.Survey.C146_g_z",
    "Verif.Survey.C146_same_body",
    "Verif.Survey.C146_tesseroid_layer"
   ],
   "note": "Conditional on the call returning (a point too close to a column may exhaust the stack of the subdivision, which raises OverflowError). The bound is that of C142 with one distance and one extent for all columns."
  },
  {
   "property": "C147",
   "status": "proved",
   "theorems": [
    "Verif.Ellipsoids.C147_gravity",
    "Verif.Ellipsoids.C147_magnetic",
    "Verif.Ellipsoids.C147_tensors",
    "Verif.Ellipsoids.C147_integrals"
   ],
   "note": "Over the real numbers: the cancellation of the closed forms in floating point is outside the model."
  },
  {
   "property": "C148",
   "status": "proved",
   "theorems": [
    "Verif.Tesseroid.C148_pieces",
    "Verif.Tesseroid.C148_returns",
    "Verif.Tesseroid.C148_horizontal",
    "Verif.Tesseroid.C148_global",
    "Verif.Tesseroid.C148_returns_func",
    "Verif.Tesseroid.C148_touching",
    "Verif.Tesseroid.C148_touching_call"
   ],
   "note": "The refutation for points on the tesseroids is for g_z (ratio 2.5)."
  },
  {
   "property": "C149",
   "status": "proved",
   "theorems": [
    "Verif.Ellipsoids.C149_newton",
    "Verif.Ellipsoids.C149_converges",
    "Verif.Ellipsoids.C149_error",
    "Verif.Ellipsoids.C149_same_density"
   ],
   "note": "Exactly when no two semiaxes are almost equal without being equal, and within 1e-4 otherwise. Over the real numbers."
  },
  {
   "property": "C150",
   "status": "proved",
   "theorems": [
    "Verif.Ellipsoids.C150_potential",
    "Verif.Ellipsoids.C150_dipoles",
    "Verif.Ellipsoids.C150_magnetostatics"
   ],
   "note": "For bodies without almost equal semiaxes that are not equal (C147 bounds the error for the others). The magnetization of the bodies whose susceptibility does not commute with the demagnetization tensor is that of the equation of the code (see C68). Over the real numbers."
  },
  {
   "property": "C151",
   "status": "proved",
   "theorems": [
    "Verif.Ellipsoids.C151_prisms",
    "Verif.Ellipsoids.C151_stable",
    "Verif.Ellipsoids.C151_voxels"
   ],
   "note": "For bodies without almost equal semiaxes that are not equal, and kernels of choclo with their documented values (integrals over the prism). Over the real numbers."
  },
  {
   "property": "C152",
   "status": "proved",
   "theorems": [
    "Verif.Layers.C152_layer",
    "Verif.Layers.C152_converges"
   ],
   "note": "For ascending coordinates, without missing values or threshold, and kernels of choclo with their documented values (integrals over the prism). Over the real numbers."
  },
  {
   "property": "C153",
   "status": "proved",
   "theorems": [
    "Verif.Ellipsoids.C153_prisms",
    "Verif.Ellipsoids.C153_voxels"
   ],
   "note": "For bodies without almost equal semiaxes that are not equal and with susceptibilities over -1, or tensors with a quadratic form that is not negative, and kernels of choclo with their documented values (integrals over the prism). Over the real numbers."
  },
  {
   "property": "C154",
   "status": "proved",
   "theorems": [
    "Verif.Ellipsoids.C154_str",
    "Verif.Ellipsoids.C154_lines"
   ],
   "note": "The text itself is modelled, character by character; the texts that Python and numpy print for a number and a matrix are parameters (no spaces, commas, parentheses or ends of lines in the text of a number; no ends of lines in a line of a matrix). Objects of the class itself, not of subclasses with other names."
  },
  {
   "property": "C155",
   "status": "proved",
   "theorems": [
    "Verif.Layers.C155_threshold"
   ],
   "note": "For kernels of choclo with their documented values (integrals over the prism). Over the real numbers."
  },
  {
   "property": "C156",
   "status": "partial",
   "theorems": [
    "Verif.Layers.C156_make",
    "Verif.Layers.C156_heights_partial",
    "Verif.Layers.C156_shared",
    "Verif.Layers.C156_update",
    "Verif.Layers.C156_not_full"
   ],
   "note": "Proved for surfaces and references (C156_heights_partial) and for updates (C156_update). False for properties (C156_not_full): layers keep the arrays of their properties, so what is written into them changes the layers (C156_shared). That verde.make_xarray_grid and xarray.Dataset keep numpy arrays without copying them is an assumption about these libraries."
  },
  {
   "property": "C157",
   "status": "proved",
   "theorems": [
    "Verif.Ellipsoids.C157_prisms",
    "Verif.Ellipsoids.C157_continuous",
    "Verif.Ellipsoids.C157_ellipsoids",
    "Verif.Layers.C157_layer"
   ],
   "note": "C157_prisms and C157_layer assume choclo's documentation (K.Newtonian: the kernels are the integrals of those of point masses). Shapes of ellipsoids whose field is only approximate are covered by C149_error."
  },
  {
   "property": "C158",
   "status": "proved",
   "theorems": [
    "Verif.Layers.C158_layers"
   ],
   "note": "Assumes choclo's documentation (K.Newtonian). Surfaces and references of floats (integer arrays truncate, see C19)."
  },
  {
   "property": "C159",
   "status": "proved",
   "theorems": [
    "Verif.EqSources.C159_cartesian",
    "Verif.EqSources.C159_spherical",
    "Verif.EqSources.C159_damping",
    "Verif.EqSources.C159_damping_spherical"
   ],
   "note": "Assumes that verde's least_squares minimizes the weighted misfit plus the damping times the squares of the coefficients in units of scales that depend on the Jacobian only (LeastSquares), shown for damped least squares in exact arithmetic (lsEnv_leastSquares)."
  },
  {
   "property": "C160",
   "status": "proved",
   "theorems": [
    "Verif.Ellipsoids.C160_gradient",
    "Verif.Ellipsoids.C160_bound"
   ],
   "note": "Assumes choclo's documentation (K.Newtonian). C113 proves the derivatives, also of second order, outside of the prisms; second derivatives don't exist on the surface."
  },
  {
   "property": "C161",
   "status": "proved",
   "theorems": [
    "Verif.Forward.C161_pieces",
    "Verif.Forward.C161_converge"
   ],
   "note": "Assumes choclo's documentation of both kernels (K.Newtonian). The power of 1/n is that of the bound; centres make the error decrease as 1/n^2, which is not claimed."
  },
  {
   "property": "C162",
   "status": "proved",
   "theorems": [
    "Verif.Forward.C162_pieces",
    "Verif.Forward.C162_converge"
   ],
   "note": "Assumes choclo's documentation of both kernels (K.Magnetized, K.Dipole). The power of 1/n is that of the bound; centres make the error decrease as 1/n^2, which is not claimed."
  },
  {
   "property": "C163",
   "status": "proved",
   "theorems": [
    "Verif.EqSources.C163_cartesian",
    "Verif.EqSources.C163_spherical",
    "Verif.EqSources.C163_far"
   ],
   "note": "Distances between positions in space; integer longitudes of EquivalentSourcesSph are outside (C24 refutes them)."
  },
  {
   "property": "C164",
   "status": "proved",
   "theorems": [
    "Verif.Ellipsoids.C164_ellipsoid_gravity",
    "Verif.Ellipsoids.C164_ellipsoid_magnetic",
    "Verif.EqSources.C164_equivalent_sources",
    "Verif.Forward.C164_prisms",
    "Verif.Forward.C164_points",
    "Verif.Forward.C164_dipoles",
    "Verif.Forward.C164_magnetized"
   ],
   "note": "Kernels of choclo as documented: the fields of point masses and dipoles and their integrals over prisms. Ellipsoids without almost equal semiaxes that are not equal, with passive susceptibilities."
  },
  {
   "property": "C165",
   "status": "proved",
   "theorems": [
    "Verif.Continuation.C165_error",
    "Verif.Continuation.C165_unique",
    "Verif.Continuation.C165_continuation",
    "Verif.Continuation.C165_anomaly"
   ],
   "note": "Kernels of choclo as documented. Ellipsoids without almost equal semiaxes that are not equal, with passive susceptibilities. The fit on the whole plane, not only at the data, is a hypothesis."
  },
  {
   "property": "C166",
   "status": "proved",
   "theorems": [
    "Verif.Continuation.C166_error",
    "Verif.Continuation.C166_unique",
    "Verif.Continuation.C166_spherical",
    "Verif.Continuation.C166_sphere",
    "Verif.Continuation.C166_draped"
   ],
   "note": "Kernels of choclo as documented (Cartesian potentials only); longitudes of floating point types, as in C24. Of point masses only the potential; the other fields are covered for planes in C165 and for Cartesian regions in C167. The fit on the whole surface, not only at the data, is a hypothesis."
  },
  {
   "property": "C167",
   "status": "proved",
   "theorems": [
    "Verif.Continuation.C167_error",
    "Verif.Continuation.C167_unique",
    "Verif.Continuation.C167_draped",
    "Verif.Continuation.C167_prisms",
    "Verif.Continuation.C167_anomaly",
    "Verif.Continuation.C167_layer"
   ],
   "note": "Kernels of choclo as documented (those of prisms for ordered prisms and points outside them). Ellipsoids valid, passive and exact as in C165. Spherical coordinates only for potentials and predictions (C166). The fit on the whole surface, not only at the data, is a hypothesis."
  }
 ]
}