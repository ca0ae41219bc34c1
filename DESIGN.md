# Formal model of fatiando/harmonica in Lean 4

## Layout

* `lean/Verif/<Area>/Model.lean` – the model, function by function; every definition cites file and lines of `/repo`
  (paths are relative to `src/harmonica/`). Further model files: `ModelB.lean` etc. of an area,
  `Ellipsoids/Object*.lean`, `EqSources/Gridder.lean`.
* `lean/Verif/<Area>/Spec.lean` – the independent specification, when the property is not readable from the theorem alone.
* `lean/Verif/<Area>/Lemmas*.lean` (and `Boost`, `Frame`, `Dft`, `Waves`, `Geometry`, `Adaptive`, `GridLemmas`) – helper lemmas.
* `lean/Verif/<Area>/Props*.lean` – the property theorems (`C01_...`). `Examples.lean`, or the end of the Props files – concrete
  non-trivial cases that meet the hypotheses.
* `MANIFEST.json` maps properties to theorems; `seeded/LOG.jsonl` records the wrong programs tried against the theorems.

Theorems with the suffix `_partial` prove part of a property. When the code does not have the property, a theorem
`..._not_full`, `..._not_...` (or a refutation of a `Cxx_full` definition) proves the negation with a concrete witness, so that the full
statement stays in view.

## Trusted base

1. **Lean's kernel** (Lean 4.33.0) and the statements of the Mathlib definitions that the theorems mention.
2. **Axioms**: `#print axioms` of the 779 theorems of the manifest gives: 773 times `[propext, Classical.choice, Quot.sound]`,
   3 times `[propext, Quot.sound]`, once `[propext]`, twice none. There are no axioms of this project, no `sorry`, no
   `native_decide` and no `bv_decide`.
3. **The model**: that the definitions of the model files do what the cited lines of `/repo` do, up to the conventions and
   simplifications below. This is by reading: nothing was executed.
4. **The specifications**: the `Spec.lean` files and the statements of the theorems.
5. **Libraries outside `/repo`**: what is written about them in the section "External code".

## Conventions of the model

* Numbers are exact reals (`ℝ`); rounding, overflow and infinities are not modelled, except in the Oasis montaj reader, which
  decodes IEEE bits with infinities and NaN. Where a property is about *bitwise* equality (C01) the number type is abstract with
  an arbitrary, non associative `+`.
* numpy arrays are shape and list of elements in C order (`NdArray`), lists, or functions on `Fin n` where the shape is fixed; NaN is
  `none` of `Option ℝ` where the code inspects or produces it. Integer dtypes are modelled where behaviour depends on them
  (C19, C24, C28, C31, C43, C89).
* Exceptions are values (`Py α = Except PyErr α`); the texts of messages are not modelled. Errors raised by the interpreter
  (IndexError, UnboundLocalError, ZeroDivisionError, TypeError, KeyError, AttributeError) are modelled. Reads outside an array in
  compiled code, which numba does not check, return an arbitrary value (`Junk`).
* numba `prange` loops are lists of loads and stores per iteration, with a private register, interleaved by an arbitrary schedule
  (`Verif/Engine`); `Mode.Full` says that the schedule runs every iteration to its end.
* Divisions by zero and roots, logarithms and inverse trigonometric functions outside their domain are errors of the model in the
  ellipsoid code, NaN in the filters, and excluded by hypotheses elsewhere.
* Loops with `while` have a fuel; theorems show a fuel that suffices or hold for all of them.

## External code

| library | how it appears |
|---|---|
| choclo kernels (prisms, points, dipoles) | parameters; hypotheses where needed (C05: the vector kernel agrees with the component kernels and is linear; C21: a prism of zero thickness has zero field; C09: the edge predicates are written out; C105, C121, C125, C126, C133: the documented formulas of choclo.point and choclo.dipole away from the source; C111–C118, C123–C126, C133: the functions of choclo.prism are the integrals over the prism of those formulas, everywhere for the potential and the acceleration and outside the prism for the tensor and the magnetic field) |
| numpy broadcasting, boolean masks, fancy indexing, `linspace`, `isclose`, `median`, `meshgrid` | modelled by their documentation |
| `numpy.loadtxt`, `array.array`, `str` methods | modelled; `int` and `float` of a text are parameters |
| `zlib.decompress` | parameter |
| xarray, xrft 1.0 | modelled: DataArray with dims and coordinates, arithmetic of DataArrays by labels (inner join; in place without alignment), discrete Fourier transform as its defining sums, padding with arbitrary values |
| `numpy.polynomial.legendre.leggauss(2)` | its two nodes and weights |
| `scipy.optimize.minimize_scalar` | parameter; hypotheses: stays within bounds, or is exact |
| scipy `ellipkinc`, `ellipeinc` | the integrals that define them |
| scipy `Rotation.from_euler` | product of elementary rotations |
| `scipy.linalg.inv`, `numpy.linalg.solve` | exact inverse and solution, LinAlgError if singular |
| `verde.base.least_squares` | parameter; hypothesis for C30: solves the weighted normal equations |
| `verde.base.BaseGridder.grid/profile`, `profile_coordinates` | modelled by what they do with the arguments given (version 1.8) |
| `verde.base.n_1d_arrays`, `check_fit_input` | the shape checks and raveled arrays; C137: no copies of contiguous arrays |
| `verde.make_xarray_grid`, `xarray.Dataset` | the shape checks; C156: numpy arrays are kept as data variables without copying them |
| verde/bordado block averages and rolling windows | parameters |
| boule ellipsoids | parameter (the geodetic to spherical map) |
| `bordado.grid_coordinates` | parameter; hypothesis for C119: the documented nodes when the spacing divides the region |
| numba_progress | an atomic counter |
| pooch, xarray attributes, pyvista meshes, dask | not modelled (pyvista: the vertices and cells passed to it are; `ParametricEllipsoid` is a set of points of the unit sphere, stretched) |

## What is modelled, file by file

| file | modelled | not modelled |
|---|---|---|
| `_forward/point.py` | everything (fields, checks, loops, both coordinate systems) | |
| `_forward/dipole.py` | everything | the class of the exception for a number of moment arrays other than three with `disable_checks=True` (numba raises TypingError, the model ValueError) |
| `_forward/prisms/gravity.py`, `magnetic.py`, `utils.py` | everything, singular points and the progress bar included | texts |
| `_forward/prisms/layer.py`, `_forward/tesseroid_layer.py` | construction, `update_top_bottom`, checks, spacing, boundaries, conversion to elements, gravity, `dims`, `size`, `shape`, the order of the dimensions of the variables, which arrays of the caller are kept (`ModelE.lean`), DataArrays as arguments | attributes; assignment of variables by xarray |
| `_forward/_tesseroid_utils.py`, `_tesseroid_variable_density.py`, `tesseroid_gravity.py` | everything | |
| `_forward/utils.py` | distances, rotation matrix, progress bar | |
| `_forward/ellipsoids/*` | everything; `__repr__`, `__str__` (`ModelStr.lean`) and the points of the pyvista export in `ModelB.lean`; objects as state machines (`Object.lean`) | faces of the mesh |
| `_equivalent_sources/*` | constructors, fit, predict, jacobian, memory estimates, grid, profile, scatter, windows and boosting, which arrays of the caller are kept | coordinates after the third; attributes of the outputs; integer dtypes in gradient boosting |
| `_euler_methods.py` | everything | |
| `filters/*`, `_transformations.py` | everything | orders that are not integer; names and attributes |
| `_gravity_corrections.py`, `_isostasy.py`, `_utils.py` | all the functions, with the name and attributes of the Moho and the alignment of DataArrays by their labels | `get_harmonica_cache`; DataArrays mixed with numpy arrays or without coordinates |
| `_io/*` | everything | opening files |
| `_spherical_harmonics/*` | everything | download of the file |
| `visualization/_prism.py` | vertices, cells, alignment of properties | pyvista |

## Plan per property

| id | what is modelled | how it is proved |
|----|------------------|------------------|
| C01 | the double loops as per-iteration micro-operation lists; schedules as arbitrary interleavings | induction on the schedule |
| C02 | the loops as folds with abstract kernels, all forward models | list induction, permutation lemmas; the scaling of density functions where `isclose` does not interfere |
| C03 | null masks and filtered arrays | list induction; negation witness for density functions |
| C04 | dispatch tables on strings, sign and unit post-processing | case analysis on all strings |
| C05 | vector and component loops | list induction |
| C06 | `_check_prisms` | iff by list reasoning |
| C07 | size checks | iff; negation witness for unchecked components |
| C08 | broadcasting against ravel; the rule of numpy in `Shapes/Spec.lean` | partial theorem for coordinates with as many elements as the result (`Shapes/PropsB.lean`), negation witness; shape of the output for all shapes (`Shapes/Props.lean`); `IGRF14.predict` for any tuple of arrays (`Igrf/ModelC.lean`, `Igrf/PropsF.lean`) |
| C09 | the singular point predicates | iff with a geometric specification of edges |
| C10 | distance functions | trigonometric identities to Mathlib's Euclidean distance |
| C11 | spherical kernels | HasDerivAt |
| C12, C13 | `_check_tesseroids`, `_longitude_continuity` with real modulo | iff; intervals modulo 360; negation witness for C13 |
| C14 | point-in-tesseroid test | iff with existence of a number of turns; negation for complete turns |
| C15, C16 | split, stack machine with explicit stack and output memory | invariants, well-founded measure |
| C17 | quadrature loops | finite sums, polynomial exactness |
| C18 | queue loop with an arbitrary optimiser | partition invariant; termination from uniform continuity |
| C19 – C23 | layers with NaN and dtype tagged arrays | pointwise; negation witnesses for dtype, orientation, global grids |
| C24 – C31, C76 | equivalent source classes as state machines with an arbitrary solver | induction over windows and histories; negation witnesses |
| C32 – C39, C74 | filters over DataArrays with the discrete Fourier transform | character sums, exp and power identities |
| C40 – C43 | formula modules | real analysis, induction over layers |
| C44 – C46, C75 | Euler methods over Mathlib matrices | matrix algebra, minimisers of quadratic forms |
| C47 – C52 | Oasis montaj reader on byte lists | round trips, index arithmetic |
| C53 – C55 | ICGEM reader on lists of lines | round trips, classification of errors |
| C56 – C59, C73, C77 | IGRF: table, interpolation, synthesis loops, grid, cache | real algebra, gradient of the harmonic expansion, state machine |
| C60 – C62 | Legendre recurrences as the loops of the code | induction against Rodrigues' formula |
| C63, C71, C83 | semiaxes sorting, rotations, surface | matrices, case analysis on orders |
| C64 | the trigonometric solution of the cubic | Cardano identities, monotonicity of the confocal equation |
| C65, C66, C67 | closed forms per shape | derivatives and limits at infinity (fundamental theorem), sum rules |
| C68, C82 | linear system of the magnetization | matrix algebra, positivity |
| C69, C78, C79, C84 | gravity of ellipsoids | derivatives of the confocal integrals: Poisson equation; explicit far field bound; invariance under the descriptions of a body |
| C80, C81 | magnetic field of ellipsoids | jump conditions from the tensors; dipole of a sphere |
| C70 | objects with setters | invariant over all histories |
| C72 | vertices | explicit enumeration for every list |
| C85 | variable density path with a constant | the discretization is trivial, quadratures agree |
| C86 | the loops with the updates of the bar | projection of the extended machine on the plain one; invariant of the counter |
| C87 – C89 | `grid`, `profile`, `scatter` | index arithmetic of the meshgrid, polar form of the segment, reuse of C24 |
| C90, C91 | `tesseroid_gravity` and spherical `point_gravity` with their kernels | the subdivision commutes with the symmetry, sums over the pieces; positivity of kernels and weights |
| C92 | name and attributes of the isostatic Moho | lookups in an association list; negation witness |
| C93, C94 | `fit` and `predict` of the three classes of equivalent sources | the Jacobian and the predictions only depend on distances; induction over the windows |
| C95 | every transformation | frequencies scale inversely, kernels are homogeneous; finite differences are homogeneous |
| C96 | `predict` of the equivalent sources, spherical `point_gravity` | second derivatives of one over the distance, sums over the sources |
| C97 | magneticField (Igrf/Model) | C57_synthesis, Legendre's differential equation for the Schmidt functions, derivatives of each term (Igrf/PropsC) |
| C98 | ellipsoidMagnetic (Ellipsoids/Model) | second derivatives of the attraction are symmetric and its divergence is zero, so the derivatives of the external demagnetization tensor are symmetric in all indices and traceless (Ellipsoids/PropsH) |
| C99 | ellipsoid_gravity and ellipsoid_magnetic (C68, C69), get_rotation_matrix | scaling of the confocal parameter and of the elliptic integrals (change of variables), tensors conjugated by the orthogonal matrix, uniqueness of the magnetization, C84 for the description |
| C100 | fit/predict of the three classes | normal equations of the window; residual after the step is residual minus the prediction of the new coefficients |
| C101 | fit/predict of EquivalentSources and EquivalentSourcesSph | the Jacobian of permuted data is the permuted Jacobian; sums over sources do not depend on the order |
| C102 | fit/predict of the three classes | 1/sqrt(h²+r²) is a Gaussian integral of exp(-u² r²), which is positive semidefinite (power series of the inner product), and strictly so in the limit of large u |
| C103 | The models of C01-C06, C21, C24, C57, C68, C69 | OneByOne in Verif/Survey/Spec.lean says it without the models; closed forms of each function give both sides |
| C104 | apply_filter and the seven filters of Filters.Model | taking the real part keeps the Hermitian part of each kernel; these multiply, so filters commute |
| C105 | point_gravity and dipole_magnetic over choclo kernels that satisfy their documented formulas away from the source | `C105_point_gravity`, `C105_dipole_magnetic`: the derivatives of 1/R, 1/R³ and 1/R⁵ along the axes, product rule per source, sums over sources by induction, kernels replaced by the formulas in a neighbourhood of the point |
| C106 | point_gravity composed with EulerDeconvolution.fit and EulerInversion.fit | `C106_point_mass`: the documented kernels are homogeneous of degree minus the structural index (algebra with R² = x² + y² + z²), so the residual of Euler's equation is zero at the true parameters and C44/C45 apply |
| C107 | ellipsoid_gravity against point_gravity, ellipsoid_magnetic against dipole_magnetic | `C107_gravity`, `C107_magnetic`: C69_sphere and C81_dipole per body, sums over the bodies, units and signs of both functions |
| C108 | The FFT filters of Verif/Filters over the real and complex numbers | The Fourier sum of the padded grid, continued in three dimensions; derivatives of finite sums of exponentials |
| C109 | `reductionToPole` of Verif/Filters | Divides the Fourier coefficients of the grid by the responses of the two directional derivatives, which do not vanish |
| C110 | `tesseroidGravity` with its adaptive discretization and quadrature | partition into pieces with the same total volume, mass error of the quadrature on each (Taylor bounds), masses inside the pieces |
| C111 | `prismGravity` over kernels that are the integrals of point-mass fields over the prism | `C111_same_density`, `C111_cut`, `C111_frame`: discarded prisms contribute zero integrals, the sum of the integrals is the integral of the density, integrable because 1/R² is locally integrable; planes have measure zero; translation invariance |
| C112 | `prismGravity` over kernels that are the integrals of point-mass fields over the prism | `C112_mass_over_distance`: pointwise bounds of the kernels, integrated; the measure of the prism is its volume |
| C113 | `prismGravity` and `prismMagnetic` over kernels that are the integrals of point-mass and dipole fields | `C113_gravity`, `C113_magnetic`: differentiation under the integral sign with bounds from the distance to the prism |
| C114 | `prismGravity` and `prismMagnetic` over kernels that are the integrals of point-mass and dipole fields | `C114_poisson`: identity of the kernels of a dipole and of a point mass, linearity of the integral, sums over the prisms |
| C115 | `makeLayer` and `layerGravity` over kernels that are the integrals of point-mass fields over the prism | `C115_body`, `C115_same_body`, `C115_stack`, `C115_prism_layer`: C21 reduces the layer to its prisms, the sum of their densities equals the density of the body outside the vertical faces of the cells, which have measure zero |
| C116 | `prismMagnetic` over kernels that are the integrals of dipole fields over the prism | `C116_body`, `C116_same_magnetization`, `C116_cut`, `C116_frame`: linearity in the moment splits the field into three densities, each handled as in C111 |
| C117 | `pointGravity` and `dipoleMagnetic` over the documented kernels | `C117_point_gravity`, `C117_dipole_magnetic`: the kernels written with vectors and outer products, orthogonal matrices preserve dot products, linearity of the sums |
| C118 | `prismGravity` and `prismMagnetic` over kernels that are integrals over the prism | `C118_prism_gravity`, `C118_prism_magnetic`: orthogonal maps preserve volumes (determinant ±1), the kernels transform as vectors and tensors |
| C119 | `gridCall` (ModelB) with `bd.grid_coordinates` as a parameter (`RegularNodes`) | `C119_nodes`, `C119_given`, `C119_parallel`, `C119_determined`: trigonometric polynomials and combinations of Legendre functions have few zeros (roots of polynomials) |
| C120 | `gridCall` and `makeDataset` (ModelB) | `C120_values`, `C120_attributes`, `C120_cache`: from C58 |
| C121 | `predict` and `dipoleMagnetic` (the documented kernels of choclo.dipole as a hypothesis) | `C121_dipole`: closed form of the terms of degree 1 and rotation to the geodetic directions |
| C122 | `predict` on objects that only differ in their date | `C122_linear`, `C122_continuous`: the field is linear in the coefficients, and C56 |
| C123 | `prismGravity` and `bouguerCorrection` (kernels of choclo as integrals over the prism, as in C111) | `C123_plate`, `C123_error`, `C123_bound`: Fubini, the solid angle of a rectangle by the fundamental theorem of calculus, dominated convergence |
| C124 | `isostaticMohoAiry` and `prismGravity` (kernels of choclo as integrals over the prism, as in C111) | `C124_compensated`: limit of each plate (C123), induction over the layers, the balance of columns of C43 |
| C125 | `pointGravity` and `prismGravity` (kernels of choclo as documented, as in C105 and C111) | `C125_points`, `C125_prisms`: the integral over the plane and over the sources are exchanged (Fubini); solid angles of rectangles (C123); dominated convergence |
| C126 | `dipoleMagnetic` and `prismMagnetic` (kernels of choclo as documented, as in C105 and C116) | `C126_dipoles`, `C126_prisms`: the field of a dipole as a divergence in the plane, the fundamental theorem of calculus, bounds for the edges, Fubini |
| C127 | the whole of `_transformations.py` and `apply_filter`; what `np.pad` writes is a parameter that commutes with swaps and mirrors | `C127_swap`, `C127_mirror_partial`, `C127_mirror_north_partial`, `C127_not_full`: sums reindexed, opposite frequencies, induction on the order of finite differences; the north-south mirror as swap, mirror and swap |
| C128 | `applyFilter` and the kernels of `filters/_filters.py` | `C128_shift`, `C128_reciprocal`: periodicity of the harmonics, exchange of sums, Hermitian part of the kernels |
| C129 | `__repr__` with a printer of numbers as parameter | `C129_repr`, `C129_call`: case analysis on the optional attributes, the names of the attributes keep them apart |
| C130 | variables with the order of their dimensions and their `.values`; the loop of `gravity` without bound checks; masks of tesseroid layers | `C130_prisms_partial`, `C130_tesseroids_partial`, `C130_prisms_transposed`, `C130_prisms_out_of_bounds`, `C130_tesseroids_transposed`, `C130_tesseroids_missing`, `C130_pyvista`, `C130_not_full`: address arithmetic, reuse of C21, C23 and C72 |
| C131 | group of changes of a survey (SpecB.lean); the whole of `EulerInversion.fit` of C45 | `C131_deconvolution`, `C131_inversion`, `C131_warning`, `C131_base_level`: the normal matrices are conjugate; induction over the iterations |
| C132 | the attributes of the object in and out of every function (ModelC.lean) | `C132_outcome`, `C132_deconvolution`, `C132_failed_partial`, `C132_no_iterations`, `C132_history`, `C132_not_full`: case analysis, induction over the iterations for the cofactor |
| C133 | the forward models of C01–C05 with the Newtonian and dipole kernels | `C133_dipoles`, `C133_prisms`, `C133_point_masses`, `C133_prism_gravity`: Cauchy–Schwarz for each kernel, triangle inequality over the sources and the integrals (PropsO.lean) |
| C134 | the derivatives with integer orders (Filters/ModelB.lean) | `C134_natural`, `C134_zero`, `C134_negative_fft`, `C134_negative_finite_diff`, `C134_not_full`: the filter at zero frequency, which is a frequency of every grid (Filters/PropsJ.lean) |
| C135 | isostatic_moho_airy for DataArrays with dimensions and labels (Utils/ModelB.lean) | `C135_balance`, `C135_points`, `C135_returns_partial`, `C135_second_layer_other_grid`, `C135_second_layer_other_dimension`, `C135_integer_layers`, `C135_points_lost`, `C135_not_full`: induction over the layers, membership of labels under inner joins (Utils/PropsB.lean) |
| C136 | DataArrays with labels and order of dimensions as arguments of the layers (Layers/ModelD.lean) | `C136_same_coordinates_partial`, `C136_positions`, `C136_transposed_rejected`, `C136_transposed_square`, `C136_not_full`: indices of flattened arrays (Layers/PropsE.lean) |
| C137 | arrays with addresses in a memory; fit stores addresses of new arrays or of views; programs as sequences of new arrays, writes and fits (EqSources/ModelB.lean) | `C137_cartesian`, `C137_gradient_boosted`, `C137_spherical_partial`, `C137_spherical_not_full`, `C137_spherical_points`: induction over the later events (EqSources/PropsJ.lean) |
| C138 | the class with the arrays and lists of the program at addresses of a memory (Ellipsoids/ObjectB.lean) | `C138_construction_partial`, `C138_assignment_partial`, `C138_types`, `C138_not_full`, `C138_center`, `C138_negative_semiaxis`: induction over histories (Ellipsoids/PropsM.lean) |
| C139 | the object with its attributes assigned by the program and the cached arrays (Igrf/ModelD.lean) | `C139_history`, `C139_assignments_partial`, `C139_label`, `C139_write`, `C139_not_full`: induction over histories; the synthesis reads only the degrees up to the maximum (Igrf/PropsG.lean) |
| C140 | the object with its parameters assigned by the program (EqSources/ModelC.lean) | `C140_fit`, `C140_fit_gradient_boosted`, `C140_fit_spherical`, `C140_predict`, `C140_predict_gradient_boosted`, `C140_predict_spherical`: induction over histories; fit reads no attribute that it has not set (EqSources/PropsK.lean) |
| C141 | `ellipsoid_gravity` and `ellipsoid_magnetic` (Ellipsoids/Model.lean) | `C141_confocal_gravity`, `C141_confocal_magnetic`: the parameter of the confocal ellipsoid through the point moves with the semiaxes, translation of the variable of the elliptic integrals; `C141_shell_gravity`, `C141_shell_magnetic`: homogeneity of the integrals (Ellipsoids/PropsN.lean) |
| C142 | `tesseroid_gravity` (Tesseroid/Model.lean) | `C142_potential`, `C142_g_z`, `C142_extent`, `C142_above`: the eight masses of every piece are positive, inside of the body and have its mass up to x^4/150 (C17); the kernels change little inside of the body; integrals over the bodies by monotonicity (Tesseroid/PropsJ.lean); `C142_potential_func`, `C142_g_z_func`: functions of the radius (Tesseroid/PropsK.lean) |
| C143 | the transformations (Filters/Model.lean) | `C143_gradient`, `C143_gradient_even`, `C143_derivative_bounds`, `C143_gaussian`, `C143_continuation`: Parseval's identity and the Hermitian part of the kernels (Filters/PropsK.lean) |
| C144 | tesseroid_gravity (Tesseroid/Model.lean) | `C144_potential`, `C144_g_z`, `C144_grid`, `C144_global`: change of variables in spherical coordinates with Lebesgue measure, Newton's shell theorem by integration over spheres, and C142 (Tesseroid/Shell.lean, PropsL.lean) |
| C145 | tesseroid_gravity (Tesseroid/Model.lean) | `C145_potential`, `C145_g_z`: both calls are compared with one integral over the space (Tesseroid/Shell.lean, PropsM.lean) |
| C146 | tesseroid layers (Layers/Model.lean, Survey), tesseroid_gravity (Tesseroid/Model.lean) | `C146_potential`, `C146_g_z`, `C146_same_body`, `C146_tesseroid_layer`: the density of the elements is that of the body at almost every point (spherical coordinates are unique outside of the faces, which have measure zero), then C142 and C145 (Survey/PropsD.lean) |
| C147 | ellipsoid_gravity, ellipsoid_magnetic, the integrals and the tensors (Ellipsoids/Model.lean) | `C147_gravity`, `C147_magnetic`, `C147_tensors`, `C147_integrals`: the integrands of two ellipsoids with similar semiaxes are compared pointwise, the radius of the sphere is compared with the confocal ellipsoid of the point, and the errors are carried through the rotations and the system of the magnetization (Ellipsoids/LemmasJ.lean, PropsO.lean) |
| C148 | tesseroid_gravity and the adaptive discretization (Tesseroid/Model.lean) | `C148_pieces`, `C148_returns`, `C148_horizontal`, `C148_returns_func`, `C148_global`, `C148_touching`, `C148_touching_call`: an invariant of the stack with the number of halvings that each tesseroid may still need bounds the height of the stack and the number of results; a piece that has the point is always split (Tesseroid/PropsN.lean) |
| C149 | ellipsoid_gravity (Ellipsoids/Model.lean); Newton's law in Ellipsoids/SpecC.lean | `C149_newton`, `C149_converges`, `C149_error`, `C149_same_density`: integration along the rays from the point gives a Gaussian integral whose value is the elliptic integral (inside), and Ivory's theorem on corresponding points of confocal ellipsoids reduces the points outside to points inside (Ellipsoids/Polar.lean, NewtonInside.lean, NewtonOutside.lean, PropsP.lean) |
| C150 | ellipsoid_magnetic (Ellipsoids/Model.lean); dipoles, potential and magnetization in Ellipsoids/SpecC.lean | `C150_potential`, `C150_dipoles`, `C150_magnetostatics`: Poisson's relation between the potential of the dipoles and the attraction of C149, whose derivatives are the demagnetization tensor (C78), and derivation under the integral sign outside of the bodies (Ellipsoids/PropsQ.lean) |
| C151 | prism_gravity (Forward/Model.lean) and ellipsoid_gravity (Ellipsoids/Model.lean); models of prisms in Ellipsoids/SpecD.lean | `C151_prisms`, `C151_stable`, `C151_voxels`: both fields are Newton's integral (C111, C149); the densities differ only in shells about the surfaces, whose volume is known, and the attraction of a region is bounded by its volume (Ellipsoids/Voxels.lean, PropsR.lean) |
| C152 | prism_layer and its accessor (Layers/Model.lean); the terrain and its density in Layers/SpecB.lean, Newton's law in Ellipsoids/SpecC.lean | `C152_layer`, `C152_converges`: the gravity of the layer is that of its body (C115); its density differs from that of the terrain only near the surface and the reference, in sets of known volume, and by dd inside; the attraction of a region is bounded by its volume (Layers/PropsF.lean) |
| C153 | prism_magnetic (Forward/Model.lean) and ellipsoid_magnetic (Ellipsoids/Model.lean); models of prisms in Ellipsoids/SpecE.lean | `C153_prisms`, `C153_voxels`: both fields are the integral of the fields of dipoles (C113, C150); the magnetizations differ only in shells about the surfaces, whose volume is known (Ellipsoids/PropsS.lean) |
| C154 | Ellipsoid.__str__ (Ellipsoids/ModelStr.lean) | `C154_lines`, `C154_str`: the text is parsed from left to right; numbers end at the first space, comma, parenthesis or end of line (Ellipsoids/PropsT.lean) |
| C155 | DatasetAccessorPrismLayer.gravity (Layers/Model.lean) | `C155_threshold`: the densities with and without the threshold differ only in the neglected elements, whose volume is at most threshold times area; the attraction of a set of that volume is bounded by a ball plus the rest (Layers/PropsG.lean) |
| C156 | memory with addresses, layers as references, sessions (Layers/ModelE.lean) | `C156_make`, `C156_heights_partial`, `C156_update`, `C156_shared`, `C156_not_full`: invariant over all histories: top and bottom are arrays of the layer's own, properties are arrays of the program (Layers/PropsH.lean) |
| C157 | the models of C69, C149, C151 and C155 | `C157_prisms`, `C157_continuous`, `C157_ellipsoids`, `C157_layer`: the change of the kernel is bounded near the point by its size and on shells of doubled radii by the mean value theorem (Ellipsoids/PropsU.lean, Layers/PropsI.lean) |
| C158 | `makeLayer`, `layerGravity` | `C158_layers`: the densities of the layers differ only in slabs around the surface and the reference, and by dd between; the attraction of a region is bounded by that of a cube (Layers/PropsJ.lean) |
| C159 | `fit`, `predict`, `fitSph`, `predictSph` | `C159_cartesian`, `C159_spherical`: both solutions are optimal along the line to each other, so the difference of predictions is bounded by the one of the data; `C159_damping`, `C159_damping_spherical` exchange the two optima (EqSources/PropsL.lean) |
| C160 | `prismGravity` | `C160_gradient`, `C160_bound`: by Fubini the difference of the potential along a line is the integral of the attraction, which is continuous (C157); the attraction of a region is bounded by that of a ball (Ellipsoids/PropsV.lean) |
| C161 | `prismGravity`, `pointGravity` | `C161_pieces`, `C161_converge`: bound of the change of each kernel with the position of the mass; the density of the parts is that of the prisms almost everywhere (Forward/PropsP.lean) |
| C162 | `prismMagnetic`, `dipoleMagnetic` | `C162_pieces`, `C162_converge`: bound of the change of the field of a dipole with its position; integrals over the parts add up to those over the prisms (Forward/PropsQ.lean) |
| C163 | `predict`, `predictSph` | `C163_cartesian`, `C163_spherical`, `C163_far`: induction over the sources with a bound of the change of one over the distance (EqSources/PropsM.lean) |
| C164 | `prismGravity`, `pointGravity`, `prismMagnetic`, `dipoleMagnetic`, `ellipsoidGravity`, `ellipsoidMagnetic`, `predict` | `C164_prisms`, `C164_points`, `C164_dipoles`, `C164_magnetized`, `C164_ellipsoid_gravity`, `C164_ellipsoid_magnetic`, `C164_equivalent_sources`: the maximum principle for functions that satisfy Laplace's equation over the plane and vanish far away (Forward/Upward.lean), then difference quotients for the derivatives, C162 for magnetized prisms, and C151 and C153 for ellipsoids (Forward/PropsR.lean, Forward/PropsS.lean, Ellipsoids/PropsW.lean, EqSources/PropsN.lean) |
| C165 | the forward functions, `predict`, `totalFieldAnomaly` | `C165_error`, `C165_unique`, `C165_continuation`, `C165_anomaly`: the fields are uniform limits of functions that satisfy Laplace's equation and vanish far away, which sums and multiples keep (Forward/Upward.lean, Continuation/Props.lean) |
| C166 | `predict`, `predictSph`, `pointGravity` | `C166_error`, `C166_unique`, `C166_spherical`, `C166_sphere`, `C166_draped`: maximum principle for functions that satisfy Laplace's equation inside a closed region and vanish far away (Continuation/Region.lean, Continuation/PropsB.lean) |
| C167 | `prismGravity`, `pointGravity`, `prismMagnetic`, `dipoleMagnetic`, `ellipsoidGravity`, `ellipsoidMagnetic`, `predict`, `totalFieldAnomaly`, `layerGravity` | `C167_error`, `C167_unique`, `C167_draped`, `C167_prisms`, `C167_layer`, `C167_anomaly`: the fields are uniform limits, away from the sources, of functions that satisfy Laplace's equation and vanish far away (difference quotients of the potential, sums of dipoles, cubes for ellipsoids), and the maximum principle of C166 (Continuation/Away.lean, AwayB.lean, AwayC.lean, AwayD.lean, PropsC.lean, PropsD.lean) |

Every property is expressible in a model, so none is marked not applicable.

## What was found

The theorem in parentheses proves it of the model.

* `dipole_magnetic`: only the first component of the moments is compared with the number of dipoles, and
  `point_gravity`/`dipole_magnetic` with coordinates of different sizes read outside the arrays (`C07_dipole_reads_out_of_bounds`, C08).
  `IGRF14.predict` with arrays of longitude and one latitude and height does the same (`C08_igrf_out_of_bounds`); one
  longitude with several latitudes raises ValueError (`C08_igrf_not_full`).
* `prism_magnetic` raises IndexError, not ValueError, for components of different lengths (C07).
* A tesseroid without volume raises ZeroDivisionError together with a density function
  (`C03_null_tesseroid_with_function_raises`); an empty list with a function raises ValueError.
* Scaling a density function can change which functions are taken for constant, because `np.isclose` has an absolute tolerance: a thin peak of 1e-9 kg/m³ gives no field at all, and the same peak times 1e9 does (`C02_not_func_scale_full`).
* Longitudes written in the other convention can be rejected, and a tesseroid with west 360 and east 0 becomes empty (C13).
* A point inside a tesseroid of a complete turn is not detected on the seam meridian (C14), and the adaptive discretization then divides
  by zero (`C16_full_turn_zero_division`).
* Layers: integer surfaces or references truncate the other (C19); descending coordinates make elements with west > east (C20); tesseroid
  layers that cover the globe exactly are rejected, and descending overlapping ones accepted (C22). A property with dimensions
  (easting, northing) is read without transposing it: square layers use every density on the other side of the diagonal, and layers with more
  northings than eastings read past the end of the array (`C130_not_full`, `C130_prisms_out_of_bounds`).
* `EquivalentSourcesSph.predict` and `grid` truncate to integers for integer longitudes (C24, C31, `C89_not_full`); its `grid` ignores
  `projection` with only a FutureWarning.
* `estimate_required_memory` is wrong with user points and for float32 longitudes (C28), and of `EquivalentSourcesGB` it changes a fitted
  estimator (C29).
* `EquivalentSources.profile` says that other keyword arguments are passed on; every one is a TypeError (`C88_other_arguments`).
* Filters: grids with decreasing coordinates come back reversed (`C32_decreasing`, rests on the model of xrft); a dictionary of pad widths without a
  key is modified (C37); the documentation of the upward derivative says |k|^n, the code uses (-|k|)^n (documentation only).
* `reduction_to_pole` without magnetization angles raises TypeError (`C36_not_full_default`).
* `isostatic_moho_airy` raises for integer arrays, and for layers whose first array is smaller than a later one although they can be
  broadcast (C43, `C43_second_layer_larger`); a layer named "crust" or "mantle" overwrites an attribute (`C92_layer_named_crust`).
* Euler: covariance is 0/0 with four data (C44); the misfit uses squared weights (`C46_not_full`); `data_misfit_` is not set for sequences of
  structural indices; `max_iterations=0` raises UnboundLocalError after two attributes were set (C45, C132).
* Oasis montaj: undefined sign flags end in UnboundLocalError (`C49_unbound`). ICGEM: units of columns that were not read stay (C53);
  a key without value raises IndexError, a wrong number of rows ValueError (C55).
  A header with `latitude_parallels -1`, and the opposite of `longitude_parallels` as number of points, is
  read without an error: `reshape` works the size out (C55_negative_counts).
* IGRF: dates with a time zone raise TypeError; degrees over 13 IndexError; degree 0 writes outside arrays
  (`C61_degree_zero`); `grid` uses the colatitude of the first column for the whole row (`C58_not_full`); a blank line in the coefficient
  file raises IndexError (`C77_blank_line`). A date assigned to an object after its first use is ignored, but written in the
  attributes of the grids; a raised `max_degree` makes the loops access memory outside their arrays (`C139_not_full`, `C139_label`).
* Ellipsoids: the magnetization solves (I + Nχ) M = χ H₀ + Mᵣ instead of the documented (I + χN) (`C68_not_full`); almost equal semiaxes use a
  spheroid, which breaks the sum rule, the zero trace and continuity (`C65_not_full`, `C67_not_full`, `C69_not_full`); nan passes the checks of
  semiaxes (`C70_not_full`); coordinates that need broadcasting raise ValueError. `get_surface` documents its sizes the other way round
  (documentation only).
* Layers keep the arrays of their properties (not surface and reference): writing into them changes the layers (`C156_not_full`).
* `initialize_progressbar` documents its argument the other way round (documentation only).
