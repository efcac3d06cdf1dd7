# Formal model of kc-ml2/meent in Lean 4

meent is a rigorous coupled-wave (RCWA) solver with three backends (`on_numpy`, `on_jax`, `on_torch`).
The model is a shallow embedding. Each Python function becomes one Lean function that mirrors it branch
by branch. Python exceptions are values of `Except Err`. Every model definition cites the file and lines
it models.

## 1. Layout

Under `lean/Verif/`:

* `Model/*`: the code model. It contains no properties.
* `Spec/*`: small specifications that do not use the model's helpers (Fourier integral, Fresnel
  coefficients, plane waves, a painter for drawn layers, passivity, gradients, ...).
* `Lemmas/*`: helper lemmas and the concrete cases used to show that hypotheses can be met.
* `Props/Cxx*.lean`: the property theorems. Each file has `example`s that meet the hypotheses and
  `#print axioms` for its theorems.

## 2. What is modelled

| Lean file | code | what |
|----|----|----|
| `Model/Basic` | `on_numpy/emsolver/primitives.py` | `meeinv`, `inv`, `pinv`, `eig` as an oracle, principal square root, list indexing, exceptions |
| `Model/Fourier` | `on_numpy/emsolver/fourier_analysis.py`, `convolution_matrix.py` | `circulant`, `dfs2d`, `_cfs`, `cfs2d`, `to_conv_mat_raster_discrete`, `to_conv_mat_raster_continuous`, `to_conv_mat_vector` |
| `Model/Compress` | `convolution_matrix.py` | `cell_compression` |
| `Model/Transfer1D` | `transfer_method.py`, `_base.py` | `transfer_1d_1..4`, `solve_1d` |
| `Model/Transfer2D` | `transfer_method.py`, `_base.py` | `transfer_1d_conical_1..4`, `transfer_2d_1..4`, `solve_1d_conical`, `solve_2d` |
| `Model/Rcwa` | `rcwa.py`, `_base.py` | `get_kx_ky_vector`, dispatch, `conv_solve` |
| `Model/Field` | `field_distribution.py` | `field_dist_1d`, `field_dist_1d_conical`, `field_dist_2d`, `calculate_field`, `conv_solve_field` |
| `Model/Object` | `_base.py`, `rcwa.py`, `main.py` | constructor, every property setter, solves and fields as a state machine; `call_mee` |
| `Model/Vector` | `on_numpy/modeler/modeling.py` | `rectangle_no_approximation`, `rectangle` with all rotation branches, `ellipse`, `vector_per_layer_numeric`, `draw`, `modeling_vector_instruction` |
| `Model/Materials` | `modeling.py` | `warn_if_out_of_range`, `find_nk_index`, `put_refractive_index_in_ucell`, `read_material_table`, `read_table_comments`, `list_materials` |
| `Model/BackendMaterials` | `on_jax/modeler/modeling.py`, `on_torch/modeler/modeling.py` | `find_nk_index` of both, PyTorch's `put_refractive_index_in_ucell`, the missing method of JAX, `jnp.interp` (library) |
| `Model/Dispersion` | `dispersion.py` | every function: Sellmeier 1 and 2, Brendel-Bormann eV and cm, graphene, `evaluate`, `parse_header` |
| `Model/Torch` | `on_torch/emsolver/*` | wavevectors, `transfer_*`, solvers, dispatch, anisotropic cells |
| `Model/TorchPrimitives` | `on_torch/emsolver/primitives.py` | `meeinv` with its fallback, forward and backward of the pseudo-inverse and of the eigen-decomposition |
| `Model/TorchObject` | `on_torch/mee.py`, `on_torch/emsolver/_base.py`, `rcwa.py`, `on_torch/modeler/modeling.py` (constructor) | the PyTorch solver object: setters, constructor, `conv_solve(**kwargs)`, `calculate_field`, `conv_solve_field` as a state machine; tensors are their values, devices a label |
| `Model/Jax` | `on_jax/emsolver/*`, `on_jax/modeler/modeling.py` | `ellipse`, convolution matrices, `transfer_*`, the three solvers, `conv_solve`, `calculate_field`, with JAX's behaviour for singular inverses and out-of-range reads |
| `Model/JaxObject` | `on_jax/mee.py`, `on_jax/emsolver/_base.py`, `rcwa.py` | the JAX solver object: setters, constructor, `conv_solve(**kwargs)`, pytree flattening; NumPy's `conv_solve(**kwargs)` |
| `Model/JaxPrimitives` | `on_jax/emsolver/primitives.py`, `on_jax/optimizer/optimizer.py` | `eig_bwd`, the direction `fit` hands to the optimizer |
| `Model/Optimizer` | `on_torch/optimizer/optimizer.py`, `on_jax/optimizer/optimizer.py` | `grad`, `fit`, `meent_optimizer`, `_grad`; the optimizer and the derivative are parameters |
| `Model/Scattering` | `on_numpy/emsolver/smm_util.py`, `on_numpy/emsolver/scattering_method.py` | `A_B_matrices_half_space`, `A_B_matrices`, `S_layer`, `S_RT`, `RedhefferStar`, `construct_global_scatter`, `homogeneous_1D`, `scattering_1d_1`, `scattering_1d_2`, `scattering_1d_3` |
| `Model/Scattering2D` | the same | `P_Q_kz`, `scattering_2d_wv`, `homogeneous_module` |
| `Model/ScatteringSource` | the same | `K_matrix_cubic_2D`, `delta_vector`, `initial_conditions`, `scattering_2d_1`, `scattering_2d_3` |

`Model/Jax` shares with the NumPy model only the formula tables that read the same in both backends (wavevectors,
mode matrices, efficiencies, fields). JAX-only differences that are not theorems are listed in section 6.

### Number model

Arithmetic is exact: `complex128` and `complex64` are `ℂ`, `float64` and `float32` are `ℝ`.
Rounding, overflow and signed zeros are outside the model. Where the code divides by zero and every later
number becomes NaN, the model returns the error value `nan`. Python's `x ** 0.5` on complex arrays is the
principal square root (`Complex.cpow` with exponent 1/2).

### External calls

They are parameters of the model or are modelled by their definition.

* `numpy.linalg.eig`, `torch.linalg.eig`: an oracle returning `(λ, W)` with `A W = W diag λ`. Nothing is
  assumed about order, normalisation or linear independence. Theorems hold for every such oracle. Theorems
  that promise success state the extra assumption (a basis is returned) in the statement.
* `numpy.linalg.inv`: the matrix inverse; `LinAlgError` exactly on singular matrices.
* `numpy.linalg.pinv`: an oracle that agrees with the inverse on invertible matrices.
* `numpy.fft.fft`: its defining sum.
* `numpy.interp`, `numpy.linspace`, `bisect_left`, `list.index`, `str.split`, `str.strip`: their documented
  definitions.
* `scipy.special.wofz`, `scipy.integrate.quad`: parameters. Theorems that need their mathematical meaning
  take it as a hypothesis.
* `int(s)` and `float(s)` of a string: a parameter.

### Not modelled

* Floating-point rounding, precision selection, devices, JAX tracing and `jit`.
* The JAX and PyTorch copies of `scattering_method.py` and `smm_util.py`.
  No solver reaches either file: each raises or returns before using them when `connecting_algo='SMM'` (that behaviour is modelled).
  The functions of the NumPy files are modelled as functions a user can call.
* The commented-out drawing functions of `modeling.py` and the `debug` output of `ellipse`.
* The shape functions of the PyTorch backend apart from what they share with NumPy: they read the same and only pass the refractive
  index on, so the NumPy model stands for them. Drawing with indices of three components is modelled (`Model/Torch.lean`, C71).
* Plotting (`field_plot`) and printing (`print_materials`).
* File-system access: the material functions take the list of files with their lines.
* The update rules of `torch.optim` and `optax` and automatic differentiation, apart from the three hand-written derivative rules
  and the direction the JAX `fit` hands to its optimizer. C68 holds for every update rule and every derivative.

## 3. Property by property

The full English statements are in `properties.jsonl`. The table is the plan and its outcome.
"partial" means that the theorem named `_partial` covers part of the statement; the scope column says what
is missing. Where the code violates the statement, a theorem with `negation` or `violated` in its name
proves it from a concrete witness.

| id | property | status | what is modelled and how it is proved | theorems (namespace `Meent`) | scope |
|----|----|----|----|----|----|
| C01 | Energy conservation of the 1D TE/TM solver | proved | `solve_1d` over any list of layers. The Lorentz flux Im(S^H U) is conserved across one layer for every eigenbasis (case split on real and conjugate eigenvalue pairs, principal root); induction over layers; matched with incident, reflected and transmitted flux. | `C01_energy_1d` | Every successful lossless 1D TE/TM solve through conv_solve, exact arithmetic, any eigensolver; use_pinv=False (C41 covers use_pinv). |
| C02 | Energy conservation of the conical and 2D solvers | proved | `solve_1d_conical`, `solve_2d`. Same engine with the indefinite metric diag(-I, I) after the s/p rotation. | `C02_energy_conical_2d` | Total efficiency 1 for res, res_te_inc and res_tm_inc on every successful conical or 2D TMM solve of a lossless problem (use_pinv=False; exact inverses). |
| C03 | Passivity: absorbing layers never create power | proved | `solve_1d`. The flux has a sign derivative in depth when Im eps <= 0; monotone over layers; truncated convolution matrices inherit the sign of Im eps from the pixels (positive functionals of the pixel values). | `C03_passivity` | Raster layers, any eigensolver, both Fourier analyses. Assumes use_pinv = false and a lossless substrate. |
| C04 | Results do not depend on the eigensolver's choice of basis | proved | One layer step with two eigenpairs. An intertwiner W^-1 W' commutes with the propagation; F, G, T change by a common right factor; induction over layers. | `C04_eigenbasis`, `C04_eigenbasis_success` | Any two eigensolvers, all formulations and structures, use_pinv=False; plus transfer of success. |
| C05 | A zero-thickness layer is invisible | proved | Layer step with d = 0. X = I, and R, T are invariant under a common right factor of F, G, T. | `C05_zero_thickness` | Raster and vector structures, all three formulations, use_pinv=False; success of the longer stack implies success of the shorter one. |
| C06 | Splitting a layer changes nothing | proved | Two layer steps of one material against one. Composition law of the recursion. | `C06_split`, `C06_split_ok` | Both directions, raster and vector, all three formulations, use_pinv=False. |
| C07 | A layer made of the substrate material is invisible | partial | Layer step of a homogeneous layer on the substrate. B = 0 because q = i kz. Negation with an absorbing witness. With `use_pinv`: through C41. | `C07_substrate_layer_partial`, `C07_use_pinv_partial`, `C07_absorbing_negation` | Proved for every real substrate index, all solvers and structures, with use_pinv whenever no singular matrix is inverted. For an absorbing substrate the NumPy/JAX code violates the claim: C07_absorbing_negation gives a concrete witness; on PyTorch see C70. |
| C08 | Flat stacks reproduce Fresnel and only the specular order | partial | Homogeneous stacks, all solvers. All matrices diagonal; two-by-two Fresnel algebra against an independent Fresnel specification. | `C08_flat_specular`, `C08_fresnel_tetm_partial`, `C08_fresnel_conical_partial`, `C08_absorbing_negation`, `C08_torch_fresnel`, `C08_torch_success` | Specular-only is proved for every flat stack and formulation. Fresnel is proved for lossless substrates, including total internal reflection. For an absorbing substrate the claim is false of the NumPy/JAX code: C08_absorbing_negation exhibits a TM reflectance above 3. The PyTorch TE/TM solver obeys Fresnel for absorbing substrates too (C08_torch_fresnel). |
| C09 | Longitudinal wavenumbers lie on the physical branch | partial | kz of each backend. Half-plane properties of the principal root. Negation for the conjugated root of a complex index. | `C09_torch_1d`, `C09_torch_2d`, `C09_numpy_1d_partial`, `C09_numpy_2d_partial`, `C09_numpy_absorbing_negation`, `C09_torch_dispersion` | Proved for the PyTorch backend for every passive substrate, and for NumPy/JAX for a lossless substrate. For NumPy/JAX with an absorbing substrate the property is false (C09_numpy_absorbing_negation). |
| C10 | Polarization superposition | partial | `transfer_*_4` of both backends. Linearity of the final solve in its right-hand side. | `C10_superposition`, `C10_pure`, `C10_torch_partial`, `C10_torch_pure_partial`, `C10_torch_negation` | NumPy backend (JAX has the same algebra): proved. PyTorch: false (C10_torch_negation); C10_torch_partial says exactly which sign and conjugation each amplitude is off by, C10_torch_pure_partial that the efficiencies at pol 0 and 1 do agree. |
| C11 | Efficiencies are non-negative and evanescent orders carry none | proved | `transfer_*_4`. Sign of Re kz, evanescent kz purely imaginary; the bound 1 from C01/C02. | `C11_nonneg`, `C11_evanescent`, `C11_le_one` |  |
| C12 | phi=None and phi=0 agree for 1D gratings | proved | 1D against conical solver. Block diagonalisation at phi = 0. `C12_success` says exactly when the two can be solved: at phi = 0 each layer of the conical solver splits into a TE and a TM part with the eigenvalues of the 1D solver (`Lemmas/PhiSuccess.lean`), and the last linear system is singular exactly if one of its two parts is (`Lemmas/PhiRuns.lean`). PyTorch: both azimuths lead to the same calls. JAX: C57. | `C12_phi_zero`, `C12_phi_zero_amplitudes`, `C12_success`, `C12_from_zero`, `C12_torch`, `C12_jax` | All six efficiency arrays agree (real incidence index, psi as the pol setter leaves it); amplitudes agree for TE and differ by the constant i*n_top for TM, for any incidence index. C12_success: phi=0 is solved exactly if phi=None is solved for TE and TM and no order is along the normal (this exception is a finding, see C52). On PyTorch the two are the same calculation; on JAX the law carries over. |
| C13 | Conical and 2D solvers agree on 1D patterns | proved | Conical against 2D solver. Explicit change of basis between the two eigenproblems, then C04. | `C13_conical_eq_2d`, `C13_conical_eq_2d_success` | One-row raster (conical) against k>=2 identical rows (2D): equal results whenever both succeed; the 2D solve succeeds whenever the conical one does, for basis-returning eigensolvers. |
| C14 | Output arrays are indexed by diffraction order | proved | Index layout of every returned array. Arithmetic over all sizes. | `C14_efficiency_order`, `C14_flat_order`, `C14_conv_order`, `C14_injection` |  |
| C15 | Grating equation | proved | `get_kx_ky_vector`. Trigonometric identities and the principal root. | `C15_grating_equation`, `C15_specular` |  |
| C16 | Discrete Fourier convolution matrices hold the pattern's Fourier coefficients without aliasing | proved | `dfs2d`, `circulant`, `to_conv_mat_raster_discrete`. Finite sums and index arithmetic, no bound on size. | `C16_discrete_conv`, `C16_no_index_error`, `C16_no_alias` | Every raster layer, size, truncation and both enhanced_dfs values. |
| C17 | Lossless patterns give Hermitian convolution matrices | proved | `dfs2d`, `cfs2d`. Hermitian Toeplitz structure, inverse of a Hermitian matrix. | `C17_hermitian` | All three Fourier routes, real indices. |
| C18 | Homogeneous layers give scalar convolution matrices | proved | `dfs2d`, `cfs2d`. Geometric sums and telescoping. | `C18_homogeneous_discrete`, `C18_homogeneous_continuous`, `C18_homogeneous_vector` | Discrete, continuous and vector routes. |
| C19 | Continuous Fourier coefficients are the exact integrals | proved | `_cfs`, `cfs2d`. Interval integrals of exponentials, summation by parts. | `C19_coefficient`, `C19_vector_matrices`, `C19_raster_matrices` | Exact Fourier integrals for the coefficient function and for the matrices of drawn and raster layers (breakpoints in increasing order). |
| C20 | Raster refinement does not change continuous-Fourier results | proved | `cell_compression`. Induction over the pixel lists. | `C20_refinement` | Repeating pixels leaves the convolution matrices of the continuous path unchanged. |
| C21 | Both Fourier types see the same geometry | partial | Both convolution builders. Limit of Riemann sums; witness of the mirrored orientation. | `C21_discrete_limit`, `C21_negation`, `C21_symmetric_partial` | The claim is false: the continuous path flips the image along y (C21_negation). Proved: the limit of the discrete path, and the claim for images equal to their mirror image. |
| C22 | Solver dispatch follows the current settings | partial | Setters and dispatch of `rcwa.py` as a state machine. Case analysis over arbitrary histories. | `C22_choice_partial`, `C22_no_structure_partial`, `C22_none_negation`, `C22_rejected_negation` | The formulation chosen by every successful solve, in every state of the object, and ValueError when no structure was ever given are proved. After a structure was replaced by None the code raises AttributeError, and an array rejected for its dtype breaks a vector model still in place (both proved as counterexamples). |
| C23 | pol and psi always describe the same polarization in range | partial | `pol` and `psi` setters. Invariant by induction over histories; witness for psi out of range. | `C23_relation`, `C23_assign`, `C23_range_partial`, `C23_psi_negation` | psi = pi/2 (1 - pol) after every history and atomic rejection by the pol setter are proved in full. pol in [0,1] is proved for histories whose psi assignments lie in [0, pi/2]; the psi setter accepts psi = pi and leaves pol = -1 (counterexample proved). |
| C24 | fto, period and thickness normalisation | partial | `fto`, `period`, `thickness` setters. Case analysis on the assigned value. | `C24_fto_partial`, `C24_period_partial`, `C24_thickness_partial`, `C24_fto_readback_partial`, `C24_period_readback`, `C24_thickness_readback`, `C24_fto_negation`, `C24_period_negation`, `C24_thickness_negation` | Normal forms and read-back are proved. Counterexamples are proved for the rest: a rejected array leaves fto changed, period accepts three or no values and raises TypeError for a 0-d array, thickness keeps a 0-d array. |
| C25 | Backend selection | proved | `call_mee`. Case analysis under Python equality. | `C25_supported`, `C25_unsupported`, `C25_equal_numbers` | Dispatch on Python equality with 0, 1, 2; importing and constructing the solver classes is not modelled. |
| C26 | Solves are history independent | partial | Solver object as a state machine. Refinement: the output is a function of the current parameters. | `C26_history_partial`, `C26_repeat`, `C26_fields_partial`, `C26_fields_describe_partial`, `C26_failed_partial`, `C26_failed_negation`, `C26_pol_negation` | conv_solve depends on the current parameters only (histories without an array rejected for its dtype, structure given); solving twice gives the same; calculate_field after a solve gives the fields of that solve if nothing changed in between; after a solve that failed past the convolution matrices it raises. Assigning pol in between changes the fields, and a solve that fails before that point leaves the old fields in place (counterexamples proved). |
| C27 | Tangential fields are continuous | proved | `field_dist_*`. Boundary identities of the recursion, matched with the outside plane-wave fields. | `C27_continuous`, `C27_available` | TE/TM, conical and 2D fields of the NumPy backend (JAX has the same algebra) with plain inverses and non-zero cover index; at least two depth samples per layer are needed for a bottom sample. The PyTorch fields are the subject of C50. |
| C28 | Material tables are looked up with the absorbing sign | proved | `find_nk_index`, `np.interp`. List induction, convexity. | `C28_lookup`, `C28_exact`, `C28_between`, `C28_no_gain` | Lookup in a measured table: exact at table wavelengths, on the straight line between neighbours, end values outside; sign of k never turns into gain. |
| C29 | Out-of-range wavelength warning | proved | `warn_if_out_of_range`. Minimum and maximum over the wavelength list. | `C29_warns`, `C29_only` | A lookup warns exactly when a wavelength lies outside the range of the material. |
| C30 | Material names | partial | `find_nk_index` name handling. String lemmas. | `C30_case_partial`, `C30_real_case_partial`, `C30_real`, `C30_known`, `C30_precision`, `C30_suffix_negation` | Case of the name does not matter and __real gives the real part. The suffix itself is case-sensitive in the code; the negation is proved. |
| C31 | Material substitution in a ucell | partial | `put_refractive_index_in_ucell`. Induction over the material list. | `C31_pixel`, `C31_success`, `C31_local`, `C31_values_partial`, `C31_other_pixels`, `C31_zero_negation` | Substitution is pixelwise and touches only pixels holding listed indices. Pixels that match no index become 0 rather than staying as they are; the negation is proved. |
| C32 | Sellmeier evaluation | partial | `dispersion.py` formulas. Case analysis, list induction, half-plane facts about the square root. | `C32_formula1`, `C32_formula2`, `C32_order`, `C32_malformed`, `C32_unknown`, `C32_no_gain_partial`, `C32_incomplete`, `C32_gain_negation` | Sellmeier formulas, dispatch, malformed coefficients and unknown formulas. No gain for absorbing coefficients; Brendel-Bormann coefficients with a negative strength give gain (negation proved). wofz and quad are parameters with their mathematical meaning as hypotheses. |
| C33 | Dynamic graphene specs are validated | partial | `graphene_falkovsky`, `model_graphene_falkovsky` checks. Case analysis. | `C33_accepts_partial`, `C33_rejects`, `C33_conditions`, `C33_wavelengths`, `C33_overflow_negation` | Argument checks of graphene_falkovsky. Integers too large for a float raise OverflowError instead of ValueError (negation proved). |
| C34 | Material file headers | proved | `parse_header`, `read_material_table`. String and list induction. | `C34_closed_form`, `C34_loading`, `C34_stops`, `C34_values` | Header parsing of material files. |
| C35 | Vector objects paint in list order | proved | `vector_per_layer_numeric`, `draw`, `modeling_vector_instruction`. Induction over the object list against a painter specification. | `C35_paint`, `C35_exact`, `C35_success`, `C35_layers`, `C35_rectangle`, `C35_rectangle_right_angle` | For all layers of axis-aligned objects, including overlaps, shared edges and objects reaching outside; exact when no edges coincide. A rectangle turned by a multiple of 90 degrees covers exactly the turned rectangle. Ellipses enter through their boxes (C66). |
| C36 | Vector grid lines are sorted and end at the period | partial | Gridding phase of `vector_per_layer_numeric`. Sorted-insertion invariant; family of counterexamples. | `C36_grid_partial`, `C36_period`, `C36_negation` | Strictly ascending edges ending at the period when no two edges coincide; the last edge is always the period. Two objects side by side with a common edge give a descending pair of edges (negation proved for all such pairs). |
| C37 | Rotated rectangles are sliced completely | partial | `rectangle` with an angle. Interval covering; family of counterexamples. | `C37_cover_partial`, `C37_negation` | Complete when the triangles get at least as many splits as the parallelogram; otherwise a band at the bottom is missing (negation proved for all tilted rectangles). Angles within 1e-5 of a right angle are drawn unrotated. |
| C38 | Scale invariance | partial | `get_kx_ky_vector` and the solvers. Only k0 d and wavelength/period enter. Vector structures with duplicate edges at 0: a witness whose mean permittivity is zero at one scale and which solves at another. | `C38_scale`, `C38_scale_vector_partial`, `C38_scale_vector_negation` | Raster structures: proved in full, including exceptions. Vector structures: proved except when a slice after the first has its top or left edge exactly at 0, where the code nudges a duplicate edge by an absolute amount. For that case the negation is proved: a layer of two absorbing media that is solved as it stands and cannot be solved after rescaling. |
| C39 | Lateral translation invariance | proved | Both Fourier paths and all solvers. Conjugation by diagonal phases. | `C39_translation`, `C39_success`, `C39_amplitudes` | Rolling every layer raster by any integer number of pixels along x and y leaves all efficiencies unchanged (1D, conical, 2D; both Fourier analyses; any eigensolver), and success carries over. C39_amplitudes gives the phase of every amplitude. |
| C40 | NumPy and PyTorch report the same efficiencies | partial | PyTorch solvers against NumPy solvers. Matrix algebra relating the two formulations; witnesses where they differ. For phi exactly zero on a 1D grating, where NumPy takes the conical solver and PyTorch the TE/TM solver, C12 is used in between. | `C40_tetm_partial`, `C40_pure_partial`, `C40_psi`, `C40_phi_zero_partial`, `C40_mixed_negation`, `C40_absorbing_negation`, `C40_phi_zero_success` | Proved for lossless claddings: TE/TM solver, conical/2D at pol 0 or 1, phi=0 with success included, and at any angle up to psi -> pi - psi. False for mixed polarization (C40_mixed_negation) and for absorbing substrates (C40_absorbing_negation). |
| C41 | use_pinv only matters for singular matrices | proved | `meeinv` and everything above. Congruence. | `C41_use_pinv`, `C41_meeinv` | Full equality of everything the solve leaves behind. |
| C42 | Layer count mismatch | partial | Layer loop. Index error on one side; witness of silent truncation on the other. | `C42_rejects_surplus_thickness_partial`, `C42_ignores_surplus_layers`, `C42_violated` | The claim is false of the code: surplus layers are silently ignored (C42_violated, C42_ignores_surplus_layers). Proved half: surplus thicknesses are rejected. |
| C43 | Gradient of the matrix inverse | proved | `RobustPinv.backward`. Fréchet derivative of the inverse, uniqueness of gradients. | `C43_backward`, `C43_unique` | The backward pass of the PyTorch pseudo-inverse equals the gradient of inversion at every invertible matrix, and the gradient is unique. |
| C44 | list_materials agrees with the lookup | partial | `list_materials`. List induction against the lookup. | `C44_names`, `C44_ranges`, `C44_success_partial`, `C44_one_row_negation` | Names and ranges of the listing agree with lookup whenever the listing returns, and it returns when every material has a range. A one-row file makes it raise IndexError (negation proved). |
| C45 | Slices of a rotated rectangle are chords of it | partial | `rectangle` with an angle. Geometry of the four quadrant cases. | `C45_chord_partial`, `C45_negation` | Equal split counts: every slice is the chord at its middle height, for all four quadrants. With more splits of the triangles some slice lies outside the rectangle (negation proved). |
| C46 | Gradients through the PyTorch eigen-decomposition are right up to the stated broadening | proved | `Eig.backward`. Analytic perturbation of simple eigenvalues; explicit broadening error. | `C46_eigenvalues`, `C46_eigenvectors` | Exact gradient for losses of the eigenvalues; explicit error bound for normalisation-insensitive losses of the eigenvectors, zero when the broadening is zero. |
| C47 | Passivity of the conical and 2D solvers | proved | `solve_1d_conical`, `solve_2d`. Engine of C03 with the indefinite metric of C02. | `C47_passivity_conical_2d` | Raster layers on both Fourier paths, vector layers whose rectangles lie in the cell and share no edge coordinate. Assumes use_pinv = false and lossless claddings. |
| C48 | The reported fields satisfy Maxwell's equations | proved | `field_dist_1d`, `field_dist_1d_conical`, `field_dist_2d` and all they read. The spec (`Spec/Maxwell.lean`) states the six curl equations with honest derivatives in depth; mode combinations are differentiated, the z components eliminated, and the chain of layers followed as in C27. | `C48_maxwell` | Fields of conv_solve_field solve Maxwell's equations in every layer and match the reported waves; plain inverses, non-zero cover index. |
| C49 | The reported amplitudes are the one solution of the diffraction problem | proved | All three solvers. Existence from C48; uniqueness: every solution of the layer equations is a combination of the computed modes (complete because the mode matrices are inverted), induction over the layers carries the boundary conditions to the final linear system, whose matrix is invertible. | `C49_unique` | The reported amplitudes are exactly those for which the boundary value problem has a solution; transfer matrix method, plain inverses, non-zero cover index. |
| C50 | The PyTorch and NumPy backends return the same fields | proved | PyTorch `calculate_field` and `conv_solve_field` (Model/TorchField.lean) against the NumPy ones. The layer loops are linear in the solution vector, and the solution vectors agree up to a sign by the lemmas of C40; the tail (expansion, conjugation, signs) is then the mirrored convention component by component. | `C50_tetm`, `C50_pure`, `C50_psi` | Lossless claddings; mixed polarization against NumPy at pi - psi (the sign difference is the finding of C40). |
| C51 | Specular reflection is reciprocal | proved | All three solvers. Every convolution matrix is persymmetric (reversing the orders transposes it, Lemmas/Persym), so by Lorentz reciprocity (Lemmas/Lorentz: the antisymmetric flux of two solutions with opposite in-plane wavevectors is conserved through every layer and every interface) the solutions of C49 for theta and -theta have equal flux at the top and at the bottom. It vanishes at the bottom, where both are outgoing, and at the top it is the difference of the two specular amplitudes. Only the specular order can be exactly reciprocal under truncation: for another order the retained orders of the two runs differ. | `C51_reflection_tetm`, `C51_reflection`, `C51_reflection_psi` | TE/TM, conical and 2D; transfer matrix method, plain inverses, lossless cover |
| C52 | Normal incidence | partial | The `theta` setter, `varphi` in `transfer_2d_1` with 0/0 as NaN. NaN is traced through every step of the solve; it arises exactly when an order has no in-plane wave vector. | `C52_nan`, `C52_normal_partial`, `C52_order_negation` | NaN arises exactly when a kept order leaves along the surface normal; with theta = 0 none does, by the perturbation. Under oblique incidence an order can hit the normal exactly and the conical result is NaN (counterexample proved). |
| C53 | Direct transmission is reciprocal | proved | All three solvers. As in C51 the antisymmetric flux of the two solutions is conserved through the stack (the layers of the second run are those of the first in reverse order, with z reversed, which flips the sign of one pair of field components). At each end one of the solutions is outgoing, so the flux is the incident amplitude of one solution times the transmitted amplitude of the other; the efficiencies follow from C14's law and Snell's law. | `C53_transmission_tetm`, `C53_transmission`, `C53_transmission_psi` | TE/TM, conical and 2D; transfer matrix method, plain inverses, lossless claddings |
| C54 | A mirrored problem has the mirrored diffraction pattern | proved | All three solvers, both Fourier types of rasters. The Fourier coefficients of a reversed row are those of the row at the negated orders times a unit phase, so the mirrored convolution matrices are the original ones reindexed by the reversed orders and gauged by a shift. Reindexing the fields, with the sign each component takes under the mirror, turns a solution of the boundary value problem of C49 into one of the mirrored problem; uniqueness (C49) identifies it with what the code returns, and the law of the efficiencies (C14) is symmetric. The statement on symmetric structures combines it with C39. | `C54_mirror_tetm`, `C54_mirror`, `C54_symmetric_tetm`, `C54_symmetric` | Rasters with both Fourier types and all three solvers; use_pinv=false, algo TMM. |
| C55 | The convolution matrices of ordinary media exist | proved | Both Fourier types of rasters and vector structures. Turned by a common factor, the quadratic form of each Toeplitz matrix is a positive combination of the turned permittivities; it vanishes only for the zero vector because a trigonometric polynomial of the given degree cannot vanish on all samples (Vandermonde) or on an interval. Such forms are invertible and their inverses are again one-sided, which carries the argument through the mixed inverse rules and the inverse of the third matrix. Finitely many media with n > 0, k >= 0 are always one-sided. The ideal-metal exception is a computed example. | `C55_one_sided`, `C55_one_sided_vector`, `C55_ordinary`, `C55_ordinary_vector`, `C55_failure`, `C55_negation` | Rasters with both Fourier types, and vector structures under the geometry condition of C36. C55_negation shows that ideal metals (n = 0), which the English claim excludes, really have to be excluded: a passive grating of permittivities 1 and -1 raises LinAlgError. use_pinv = true is not covered here; it never raises. |
| C56 | Absorbing structures can always be solved, unless a layer has no basis of modes | proved | Each step keeps the state strictly passive: for every tangential field at the top of a layer the power flowing down exceeds what the rest of the structure returns (`StrictState`). The modes of an absorbing layer satisfy an overlap inequality (`StrictOverlap`), because the form of the permittivity has a strictly negative imaginary part (the convolution matrices are sections of a multiplication operator, `SideConv`). Hence the matrix `A` of every step and the final matrix have trivial kernels. Conversely a successful solve has inverted the eigenvector matrices. Constant absorption makes the TE mode matrix normal (spectral theorem). The lossless counterexample is a film at a guided mode, evaluated in closed form. | `C56_absorbing`, `C56_te`, `C56_films`, `C56_lossless_negation` | The claim is proved for absorbing layers, as an equivalence with the existence of a basis of modes. C56_lossless_negation shows that absorption cannot be dropped. |
| C57 | The JAX and the NumPy backend return the same results | partial | The JAX functions are modelled separately (`Model/Jax`). Each is related to its NumPy counterpart by a refinement: if one call returns a value, the other returns the same value (`Refines`, closed under sequencing and loops). NumPy to JAX holds without side conditions except the ignored `use_pinv`. JAX to NumPy needs every read to be in range, which holds for the enlarged cells and when there are enough layers. A different eigensolver is handled with C04. The three differences are concrete problems. | `C57_numpy_to_jax_partial`, `C57_numpy_to_jax_pinv_partial`, `C57_jax_to_numpy`, `C57_iff_partial`, `C57_other_eig`, `C57_fields`, `C57_pinv_negation`, `C57_extra_thickness_negation`, `C57_field_call_negation`, `C57_ellipse_negation` | Both directions proved for all problems in which use_pinv is not combined with the discrete transform of pixel structures, with at least one pixel, enough layers and at least three contour samples for every ellipse. In the remaining cases the backends do differ: four negations. |
| C58 | A JAX solver survives being passed through a JAX transformation | partial | The JAX object with its own setters, constructor, `conv_solve`, `_tree_flatten` and `_tree_unflatten` (`Model/JaxObject`). Two invariants of histories (`pol` follows `psi`, the period is never a single number; the modeling type fits the structure) show that each setter reproduces the attribute it is given. Two negations with concrete solvers. | `C58_round_trip_partial`, `C58_psi_negation`, `C58_pinv_negation` | Proved for every history, provided use_pinv is off, the polarization is in range, theta was not set to zero with a nonzero perturbation pending, and no rejected array was left in fto or ucell. The first two conditions are needed: two negations. |
| C59 | Parameters passed to conv_solve are the ones that are solved | partial | Every setter that succeeds assigns a value that does not depend on the object, so the constructor can be written out in closed form; one assignment then equals one replaced argument, and lists follow by induction. The NumPy call is modelled as it is: the line that would assign is commented out. | `C59_jax`, `C59_jax_persists`, `C59_numpy_negation`, `C63_kwargs` | Proved for JAX and PyTorch. NumPy violates the claim: negation. |
| C60 | The gradients of the JAX backend are gradients | proved | `eig_bwd` is the conjugate of the PyTorch rule applied to conjugated cotangents; C46 then gives the derivative along every curve. For real matrices the derivative of the curve is real and the real part suffices. The step of `fit`: the derivative of the loss along a direction is computed from the JAX gradient and bounded below by Cauchy–Schwarz. | `C60_eigenvalues`, `C60_eigenvectors`, `C60_step` | Exact for losses of the eigenvalues; error bound proportional to the perturbation otherwise, as in C46. |
| C61 | Gratings of transparent and absorbing layers can be solved when light can leave or is absorbed below | proved | Going up from the substrate, the state of the recursion is an admittance. A substrate in which every order propagates starts it with a strictly positive real part and an absorbing layer makes it so, a transparent layer preserves this, because its modes diagonalise a product of a positive definite and a Hermitian matrix and its real-exponent modes carry no power. So every matrix that has to be inverted is invertible. The converse follows from the shape of the recursion. Films of any number are worked out as a corollary. In the conical and 2D formulations the same argument runs with the exchange matrix of the two field components; undamped modes of transparent layers must carry power in the direction of their phase, which holds by itself in the conical formulation (the electric field along x and the rotated fields diagonalise definite forms) and is a hypothesis, no backward wave, in 2D. C61_conical_negation works out a film at which `Kx² - ε` is singular without any mode at cut-off. | `C61_stack`, `C61_layers`, `C61_films`, `C61_conical`, `C61_2d`, `C61_layers_2d`, `C61_films_conical`, `C61_films_2d`, `C61_conical_negation` | All three formulations. 1D and conical: necessary and sufficient. 2D: necessary, and sufficient without backward waves, which only transparent patterned layers can have. Films of any number as corollaries. C61_conical_negation shows the extra failures of the conical formulation. |
| C62 | On PyTorch the reported powers account for all light that the layers do not absorb, on absorbing substrates too | partial | The same invariant with the substrate's own admittance at the bottom; PyTorch uses the decaying branch (C09), for which its real part is positive. The power balance follows from the recursion's flux. The negation solves the bare surface in closed form for every absorbing index and compares `|T/n|² Re kz` with `|T|² Re(kz/n²)`. | `C62_torch`, `C62_films`, `C62_conical_negation`, `C62_tm` | Proved for 1D TE and TM. For conical and 2D calculations the code violates the claim (negation for every absorbing substrate index). |
| C63 | A PyTorch solver object's results depend on its current parameters only | partial | `Model/TorchObject` is a state machine: the attributes, the structure, the reported grating type and what the last solve stored. Each setter, the constructor and each call is a step. An invariant over all histories ties the raster/vector switch to the structure; a frame lemma shows that a solve changes only the last two components and reads none of them. | `C63_solve`, `C63_history_partial`, `C63_repeat`, `C63_kwargs`, `C63_field`, `C63_failed_partial`, `C63_period_negation`, `C63_rejected_negation`, `C63_failed_negation` | Solves return the solve of the readable parameters; histories, repetition, keyword arguments and fields are proved. The last sentence of the claim is false: rejected periods and arrays have effects (negations). C63_history_partial leaves out histories with a rejected array for this reason. C63_failed_partial: a solve that fails past the convolution matrices leaves no fields; one that fails earlier leaves the old ones (negation). |
| C64 | The three constructors accept the same keyword arguments and set the same attributes | partial | The constructors are computed symbolically: a NumPy constructor that returns determines every attribute, and the same values pass the JAX and PyTorch setters. The converse goes through the PyTorch setters one by one. | `C64_partial`, `C64_converse_partial`, `C64_period_negation`, `C64_device_negation`, `C64_default_negation` | Proved for calls that pass period and perturbation by name and leave device at its default. False for the defaults of period and perturbation and for device names (negations). |
| C65 | A script gives the same results with every backend | partial | A simulation: the embedding of a NumPy object into the PyTorch state machine commutes with every step of a script, up to the stored solve; likewise for JAX. The solve at the end then goes through C57 (JAX) and C40 (PyTorch). | `C65_attributes`, `C65_jax_partial`, `C65_torch_tetm_partial`, `C65_torch_pure_partial` | Attributes: proved for scripts without zero-dimensional periods, rejected arrays and polarizations just outside [0,1]. Results: JAX except use_pinv with the discrete transform, PyTorch for TE/TM and for pure polarization in conical and 2D calculations. Outside these cases the backends differ (C40, C57, C63 negations). |
| C66 | An ellipse instruction draws the ellipse | partial | `Model/Vector.ellipse` follows the code: sampled contour, highest point, roll, alternating left and right points, boxes of consecutive points. Turning the parameter so that 0 is the top gives the height as R cos z; the highest sample is within half a step of the top, and product formulas for differences of cosines give both the order of the points and, summed in closed form, the exact area of the strips. | `C66_strips`, `C66_boxes`, `C66_area`, `C66_area_tendsto`, `C66_top_negation`, `C66_unturned_negation`, `C66_default_negation`, `C66_two_negation`, `C66_samples`, `C66_jax` | Strips, boxes and area proved for at least three contour samples none of which is exactly at the top. In the other cases the code violates the claim: three negations. |
| C67 | Results depend smoothly on the design | proved | The modes of a layer enter the result only through the matrix exponential of the layer's coupling matrix (`Lemmas/Propagator`), which needs no eigenvectors. Convolution matrices are rational in the pixels (`Lemmas/SmoothConv`), the exponential and the final inverse are smooth (`Lemmas/Smooth`), so an explicit formula for the result is. For thicknesses the modes stay the same and every inverse of the recursion stays invertible nearby (`Lemmas/SmoothAll`). | `C67_smooth`, `C67_thickness`, `C67_total` | use_pinv=False. Pixel changes: the results of all nearby designs that can be solved are given by one smooth function; whether a nearby design can be solved is not claimed, since a changed pixel may make a coupling matrix defective. Thickness changes: nearby thicknesses can always be solved. |
| C68 | Gradients and training runs of the optimizers | partial | The object is a set of attributes; PyTorch leaves carry a flag and a reference to a gradient buffer that `backward` adds to in place, JAX attributes carry whether they are tracers. The loss, its derivative and the optimizer are arbitrary. Induction over the iterations shows that the loop is the iteration of `Spec.update`. Negations for `grad` in PyTorch, for a second `fit` with momentum and for a JAX solve that raises. Attributes that were not chosen and do not require gradients stay as they were. | `C68_torch_fit`, `C68_jax_fit`, `C68_backends`, `C68_fit_add`, `C68_torch_grad_partial`, `C68_torch_untouched`, `C68_jax_grad`, `C68_unknown`, `C68_torch_empty`, `C68_torch_grad_again_negation`, `C68_torch_grad_after_fit_negation`, `C68_fit_add_negation`, `C68_jax_failure_negation` | fit is proved exact on both backends. False: PyTorch grad adds to gradients left over from earlier calls of grad or fit and changes the result it returned before; a second fit does not continue the first when the optimizer has a state; a JAX grad whose solve raises leaves tracers in the object. |
| C69 | Energy laws on JAX and PyTorch, also for anisotropic pixels | partial | JAX: every successful JAX solve is a NumPy solve (C57), so the laws carry over. PyTorch: the PyTorch solve follows the NumPy recursion on the same matrices (C40). Anisotropic layers: each of the three matrices is the one of the isotropic raster of one component, so they exist (C55), are Hermitian or lossy, and the flux argument applies; `Spec.NoFallback` excludes singular matrices, and for absorbing layers it follows from the argument of C56. Structures that are nearly but not exactly isotropic and go to the conical solver are left out. `C69_dispatch` says which solver a raster with three components gets, with the tolerance of `torch.allclose`. | `C69_jax_energy`, `C69_jax_passive`, `C69_torch_energy`, `C69_torch_passive`, `C69_aniso_energy`, `C69_aniso_passive`, `C69_aniso_absorbing`, `C69_equal_components`, `C69_te`, `C69_tm`, `C69_dispatch`, `C69_torch_energy_zero`, `C69_torch_passive_zero` | Proved for JAX (every successful solve), for PyTorch on structures that NumPy solves (phi exactly zero included), and for anisotropic rasters when PyTorch does not fall back on a pseudo-inverse (proved not to happen for absorbing layers with a basis of modes). Missing: solves in which PyTorch falls back on a pseudo-inverse or replaces an eigenvalue below 1e-10, and nearly isotropic rows sent to the conical solver. |
| C70 | On PyTorch a layer of an absorbing substrate material is invisible | proved | The recursion without pseudo-inverses succeeds on both stacks (the power argument of C62). One step through substrate material maps the PyTorch start `G = i kz F` to an equivalent state, because `i kz` is the decaying root `sqrt(k^2 - n^2)` of the layer also for absorbing `n`; equivalent states give the same reflection (as in C07). The power bound of C62 then bounds the transmission. The conical and 2D solvers are left out. | `C70_torch_substrate_layer` | PyTorch, TE and TM. C07_absorbing_negation shows that NumPy and JAX violate the claim. |
| C71 | Vector shapes with indices of three components | proved | The boxes of a shape do not depend on its index, and neither does the grid, so painting commutes with taking a component; this reduces drawing to C35. The matrices of a layer then are those of its three components, Hermitian or dissipative by C17 and C03, and the energy arguments of C69 apply. Excluded as in C69: solves in which PyTorch falls back on a pseudo-inverse or replaces a tiny eigenvalue. | `C71_components`, `C71_paint`, `C71_same_components`, `C71_scalar`, `C71_matrices`, `C71_energy`, `C71_passive`, `C71_absorbing` | All layers, shapes and index mixtures; the energy claims exclude solves that fall back on a pseudo-inverse, as the statement says. |
| C72 | Symmetries of the physics on JAX and PyTorch | proved | JAX: by C57 a JAX solve is a NumPy solve, so C38, C39, C51, C53 and C54 apply. PyTorch: by C40 its efficiencies are those of NumPy at polarization angle `π - ψ` (at `ψ` in TE/TM); each law is stated on efficiencies only and holds on NumPy at that angle too. Hypotheses as in C40: NumPy solves the two problems, lossless claddings, in 2D no mode within the threshold of zero. | `C72_jax_translation`, `C72_jax_scale`, `C72_jax_reflection`, `C72_jax_transmission`, `C72_jax_mirror`, `C72_torch_translation`, `C72_torch_scale`, `C72_torch_reflection`, `C72_torch_transmission`, `C72_torch_mirror` | JAX: whenever both solves succeed. PyTorch: problems that NumPy solves, lossless claddings, in 2D no mode within the threshold of zero (see C40). |
| C73 | Planar multilayers obey the thin-film formula | proved | By C49 the reported amplitudes belong to a solution of Maxwell's equations in the stack. In a homogeneous layer the convolution matrices are multiples of the identity (C18), so the equations decouple into an s and a p system for each order; two first integrals of each give the characteristic matrix, and induction over the stack gives the product. Matching the plane waves outside in the zeroth order gives the formula; the denominator is nonzero because the transmitted amplitude satisfies an equation whose right side is nonzero. Other orders vanish by C08. The formula itself (`Spec/ThinFilm.lean`) is written with two-by-two matrices only. JAX by C57, PyTorch efficiencies by C40. For absorbing films success is proved too (C56). | `C73_amplitudes`, `C73_efficiencies`, `C73_jax`, `C73_torch`, `C73_absorbing` | NumPy, JAX: amplitudes and efficiencies; PyTorch: efficiencies, under the hypotheses of C40 (lossless claddings, modes away from zero in 2D). Lossless substrate throughout, as C08 shows that NumPy treats absorbing substrates wrongly. |
| C74 | R + T tells loss from gain | partial | `Spec/Gain.lean` says what occurs in a structure and what it shows to the light. The convolution matrices inherit the sign of the media: the Hermitian part of i times each matrix is semidefinite, and definite when a layer shows a strictly absorbing (amplifying) medium. Through one layer the power flux changes monotonically, strictly if definite and of positive thickness, for either sign of the definiteness; induction over the stack and the balance of the zeroth-order light give the sum (`Lemmas/Sign.lean`, `Lemmas/SignSpec.lean`). JAX and PyTorch follow from C57 and C40. The growth with thickness is refuted by the thin-film formula (C73) for a slab of index 3 + i. | `C74_loss`, `C74_strict_loss`, `C74_gain`, `C74_strict_gain`, `C74_diagnosis`, `C74_check`, `C74_jax`, `C74_torch`, `C74_thickness_negation` | Proved: the four laws for the sum of the efficiencies on NumPy, JAX and PyTorch, the diagnosis and the documented check. Refuted (C74_thickness_negation): the transmission through a slab with gain need not grow with its thickness; for index 3 + i it falls from one third of a wavelength to two thirds, and is below one, while the sum exceeds one. Left out on PyTorch as in C40: phi exactly zero on one-row rasters and 2D eigenvalues within 1e-20 of zero. |
| C75 | Material data decide loss and gain | partial | `Spec/Pipeline.lean` says which materials are safe, clear or flipped and what it means that a structure holds a filled array. The index of each kind of material has the right sign: interpolation keeps signs (C28), closed forms never return a negative real part (every formula ends in a square root) and no gain (C32), `__real` drops k (C30). C31 carries the signs to every pixel, C74 from the pixels to the sums. The claim about shipped materials is refuted with the first rows of `Al2O3_querry-e.txt` and a slab of 20 wavelengths, for every continuation of the table. | `C75_index`, `C75_safe`, `C75_clear`, `C75_flipped`, `C75_jax`, `C75_torch`, `C75_shipped_negation` | Proved for published, clear and flipped data on the three backends. The last sentence is false: C75_shipped_negation shows a shipped table (Al2O3_querry-e) with negative k that amplifies. |
| C76 | Material lookups agree on the three backends | partial | `Model/BackendMaterials.lean` models the JAX and PyTorch copies, with `jnp.interp` (a library function) written out. An ascending table splits at the wavelength into rows at or before it and rows after it; both interpolations are computed from that split and agree when neighbouring wavelengths are equal or more than JAX's epsilon apart and the last two rows are not two values at one wavelength. PyTorch calls NumPy; the substitution loops agree by induction. Refuted in two places: JAX objects have no put_refractive_index_in_ucell, and with two rows at the last wavelength JAX returns the first of them. | `C76_jax_partial`, `C76_torch`, `C76_put_torch`, `C76_put_jax_negation`, `C76_last_negation` | Closed forms, all tables on PyTorch, and tables that ascend with distinguishable rows on JAX. Two negations: JAX objects lack the substitution, and equal last wavelengths. Tables whose wavelengths descend somewhere (one shipped file) are not covered. |
| C77 | Textbook coatings come out as in the textbook | proved | Corollaries of C73, stated in `Spec/Coatings.lean` and about results calculated on any of the three backends (`Spec.Calculated`). Half-wave films have characteristic matrix plus or minus one, quarter-wave films an off-diagonal one, pairs a diagonal one whose powers are explicit; lossless films keep the diagonal real and the off-diagonal imaginary, which gives total reflection. That these stacks are solved follows from C61, now also proved for transparent stacks whose orders all propagate in the substrate. | `C77_absentee`, `C77_period`, `C77_quarter`, `C77_antireflection`, `C77_mirror`, `C77_mirror_limit`, `C77_total`, `C77_brewster` | NumPy, JAX (accepted structures) and PyTorch (where NumPy solves too, see C40). Total reflection and Brewster's angle at any azimuth. |
| C78 | Closed-form metals and graphene follow the published models | proved | `Spec/Oscillators.lean` writes the published models with Mathlib's normal distribution. SciPy is assumed to be right: `wofz` has its integral representation in the upper half plane, `quad` integrates integrable functions from 0 to 1000. Partial fractions and a change of variables turn the average of `1/(x^2 - a^2)` into the two Faddeeva terms of the code. For graphene the interband integrand is shown to be integrable (the occupation is locally Lipschitz although the code clips it); the clipped occupation is within `exp(-709)` of the exact one. Sheet response and onset need nothing about the quadrature. | `C78_metal`, `C78_crystal`, `C78_graphene`, `C78_sheet`, `C78_onset` | For materials whose oscillators have positive damping and width. SciPy's wofz and quad are assumed to compute the integrals they document. The interband integral of the code ends at 1000 eV, and so does the specification's. |
| C79 | Exchanging the x and y axes of a problem exchanges its diffraction pattern | partial | `Spec/Axes.lean` defines the exchanged problem. For layers that are a product of a function of x and a function of y both factorisation rules give Kronecker products, so the convolution matrices are exchanged (`Lemmas/AxesConv.lean`). Maxwell's equations, the waves outside and the incident wave are carried over by exchanging components (`Lemmas/Axes.lean`), and uniqueness (C49) identifies the answers. The theorem assumes that both problems are solved. Two negations use a checkerboard, which is its own image. In one it fails with every eigensolver for light in the plane of x and is solved in the plane of y. In the other both are solved: as a half-wave layer it reflects no TE light in the plane of x, and reflects some in the plane of y (`Lemmas/CellWave.lean` integrates Maxwell's equations in the layer). `Props/C79b.lean` carries the law over to JAX (C57) and PyTorch (C40). Open: success for separable layers. | `C79_exchange_partial`, `C79_negation`, `C79_efficiency_negation`, `C79_jax_partial`, `C79_torch_partial` | Efficiencies are exchanged if every layer is a product of a function of x and a function of y and both problems are solved, on NumPy, JAX and PyTorch. The claim is false for a checkerboard, its own image: C79_negation (solved only one way) and C79_efficiency_negation (solved both ways, different TE reflection). Open: success for separable layers. |
| C80 | Stacks of birefringent films obey the textbook formula on PyTorch | proved | `Spec/Crystal.lean` states refraction in a birefringent film and its two characteristic matrices. The convolution matrices of such films are multiples of the identity with three different factors (`Lemmas/Crystal.lean`); the textbook fields solve Maxwell's equations with them, so uniqueness (C49) gives the efficiencies (`Lemmas/CrystalSolve.lean`). `C80_absorbing` shows that no matrix is singular for absorbing films. | `C80_birefringent`, `C80_absorbing` | PyTorch only: the other backends take one index per pixel. C80_birefringent assumes that no singular matrix makes PyTorch use a pseudo-inverse; C80_absorbing proves this for absorbing films in TE and TM, and in 2D for films uniaxial about the normal. |
| C81 | Several periods in one cell leave the diffraction pattern unchanged | proved | `Spec/Tile.lean` states the larger cell and the relation between the results. The convolution matrices of the larger cell, restricted to the multiples, are those of the structure, and nothing couples the multiples to the other orders (`Lemmas/TileConv.lean`). The fields of the structure, placed at the multiples, therefore solve the larger problem (`Lemmas/Tile.lean`), and uniqueness (C49) says the solver returns them. | `C81_supercell`, `C81_jax`, `C81_torch` | NumPy, JAX and PyTorch (efficiencies). Discrete coefficients need an image with more than four times as many pixels as retained orders and enhanced_dfs off, otherwise the code repeats pixels by a factor that depends on the truncation. |
| C82 | Drawing objects leaves them as they were, and drawing again gives the same structure | partial | The objects as the gridding loop leaves them are part of the model. Without shared edges the loop changes nothing (invariant over the objects). In general the loop moves each edge by a bounded amount. A concrete pair of rectangles shows the change and its effect on the second drawing. | `C82_redraw_partial`, `C82_drift`, `C82_negation` | True when no two objects share an edge coordinate. False otherwise: the code writes the moved edges back (negation proved), by at most four parts in 1e14 per object (C82_drift). |
| C83 | Angles that mean the same give the same results | partial | The angles enter the model through the in-plane wave vector, the cosine of the polar angle and the right-hand side of the last linear system. Equality of the wave vectors gives equality of the whole computation, exceptions included. The polarization angle enters linearly. A layer-free problem, computed exactly, shows the effect of the cut-off of the polar angle at single-precision π/2. | `C83_direction_partial`, `C83_azimuth`, `C83_other_side`, `C83_psi`, `C83_psi_free`, `C83_negation`, `C83_negation_same`, `C83_jax_direction_partial`, `C83_jax_azimuth`, `C83_jax_psi`, `C83_jax_negation`, `C83_torch_direction`, `C83_torch_turn`, `C83_torch_psi` | Proved for polar angles below float32(pi/2) on NumPy and JAX, for all angles on PyTorch, and for all azimuths and polarization angles. False for larger polar angles on NumPy and JAX: C83_negation, C83_jax_negation. |
| C84 | The sampled fields carry the reported power | proved | `Spec/Poynting.lean` states the power of a sampled plane and what it means that fields account for the power. The samples of distinct orders are orthogonal sums over roots of unity, so the mean over a plane is a sum over orders (`Lemmas/Poynting.lean`). Maxwell's equations (C48) give its derivative with the depth, Poynting's theorem, whose sign follows from the convolution matrices; induction over the stack and the plane waves outside give the rest (`Lemmas/PoyntingEnds.lean`). On PyTorch the fields are mirror images of NumPy's (C50), and mirroring keeps the power. | `C84_account`, `C84_passive`, `C84_lossless`, `C84_torch_tetm`, `C84_torch` | NumPy (use_pinv=False) and, through C50, PyTorch between lossless claddings: TE/TM directly, conical and 2D at the polarization angle pi - psi. The mean runs over the samples without the last one of each axis, which repeats the first; real illumination, any substrate for the NumPy account. |
| C85 | Drawn structures may be moved, and only their pattern matters | proved | `Spec/Pattern.lean` states what it means that layers show the same periodic pattern. C35 and C36 make the drawn cell a step function of the pattern, C19 gives its convolution matrices as exact Fourier integrals, and the integral of a periodic function over a period does not depend on where it starts (`Lemmas/Pattern.lean`, `Lemmas/PatternDraw.lean`). The matrices are then conjugated by phases, as in C39. For rectangles that reach over the border (`Lemmas/PatternAnywhere.lean`) the painted matrix is unchanged by the move, its first and last rows and columns are the base index, and the sum of jumps in the Fourier coefficients takes the phase term by term. C57 and C40 carry the result to JAX and PyTorch (`Props/C85b.lean`). | `C85_pattern`, `C85_moved`, `C85_success`, `C85_anywhere`, `C85_jax`, `C85_torch` | use_pinv=False, objects without coinciding edges: patterns of objects inside the cell (NumPy), and rectangles moved to any place (NumPy with success; JAX when both solves return; PyTorch where C40 applies). |
| C86 | The sampled fields are samples of one function of position | proved | `Spec/FieldFunction.lean` says what it means that an array holds the samples of a function of layer, depth, y and x. The function is read off the layer loops by induction over the layers (`Lemmas/FieldFunction.lean`); its phases over a period come from the grating equation (C15), and the superposition from the linearity of the final system and of every layer. | `C86_function`, `C86_resolution`, `C86_edges`, `C86_superposition`, `C86_selection`, `C86_torch`, `C86_jax` | NumPy, JAX (on the structures of C57) and PyTorch (also anisotropic). The PyTorch fields are conjugated, so they pick up the opposite phase. |
| C87 | The fields are determined by the problem and move with the structure | proved | The arrays sample solutions of Maxwell's equations (C48). Such a solution is determined by its tangential parts at the top: in each layer by uniqueness for linear differential equations, from layer to layer by continuity (`Lemmas/FieldUnique.lean`). The amplitudes at the top are those reported, which do not depend on the eigensolver (C04). For a moved structure the orders of the solution times the phases of the move solve the moved problem (`Lemmas/FieldMoved.lean`), and these phases amount to a translation by the grating equation. `Spec/FieldMoved.lean` defines the translated fields. | `C87_eigensolver`, `C87_pixels`, `C87_drawings`, `C87_anywhere`, `C87_jax` | Plain inverses. The moved problem and the original one are assumed to be solved; C39_success and C85_success give this. The fields of the TE/TM, conical and two-dimensional solvers are covered. |
| C88 | The fields do not depend on how the stack is cut into layers | proved | The arrays sample solutions of Maxwell's equations determined by the problem (C48, C87). A solution in a layer, restricted to its upper part and read from the cut on in its lower part, solves the stack with the layer cut; leaving out a layer of thickness zero leaves a solution (`Lemmas/FieldStack.lean`). The reported amplitudes agree by C05 and C06. `Spec/FieldStack.lean` says which point of the old stack a point of the new one is. | `C88_cut`, `C88_zero` | All raster and drawn stacks, TE/TM, conical and 2D solvers, any eigensolvers; thicknesses of the two parts are nonnegative and not both zero. |
| C89 | Several periods in a cell have the fields of one period, repeated | proved | The amplitudes of the orders of a solution, placed at the corresponding orders of the larger cell with zeros elsewhere, solve the problem of the larger cell (C81). The sum over the orders at a point is the same sum. Uniqueness (C49, C87) makes this the sampled solution (`Lemmas/FieldTile.lean`). | `C89_supercell` | Rasters; TE/TM, conical and 2D solvers; same conditions on the Fourier coefficients as C81. |
| C90 | Mirrored structures have mirrored fields | proved | Reversing the orders of a solution and giving its components the signs of the mirror image gives a solution of the mirrored problem (C54). The sum over the reversed orders at a point is the original sum at the mirrored point. Uniqueness (C49, C87) makes this the sampled solution (`Lemmas/FieldMirror.lean`). `Spec/FieldMirror.lean` defines the mirror image of a field. | `C90_mirror` | Raster structures with continuous Fourier coefficients; TE, TM, conical and 2D. With discrete coefficients the mirrored image is also displaced by a pixel. |
| C91 | The fields of PyTorch and JAX follow the same rules | proved | By C50 the samples of PyTorch are those of NumPy, conjugated and mirrored, so they are samples of the conjugated and mirrored functions (`Lemmas/TorchFieldFunction.lean`). The rules C87, C88 and C89 then carry over. For JAX the solves agree (C57), so that C88, C89 and C90 apply. `Spec/TorchFieldFunction.lean` defines the functions behind the PyTorch arrays. | `C91_tetm`, `C91_vector`, `C91_eigensolver_tetm`, `C91_eigensolver`, `C91_cut_tetm`, `C91_cut`, `C91_supercell_tetm`, `C91_supercell`, `C91_jax_cut`, `C91_jax_supercell`, `C91_jax_mirror` | PyTorch under the conditions of C50; JAX for the problems it solves. |
| C92 | Rescaling all lengths leaves the field arrays as they are | proved | The scaled solve leaves behind the same matrices and amplitudes, and layer records with the thickness multiplied by the factor (`Lemmas/ScaleField.lean`, induction over the layers, including exceptions). The exponentials of the field loops contain lengths only in products with the wavenumber, so every sample is the same. For JAX the solves agree (C57). | `C92_scale`, `C92_scale_vector`, `C92_jax` | Equality of the whole arrays, including exceptions. Vector structures need that no slice after the first begins at coordinate 0; C38_scale_vector_negation shows why. |
| C93 | Scattering matrices describe the stack | proved | The specification says which waves a dictionary relates and how tangential fields continue through a layer. Each function is proved equivalent to its part of that description by block elimination, and the stack follows by induction over the layers. Independence of the gap and of cuts follows because the description fixes the matrix. | `C93_star`, `C93_star_assoc`, `C93_stack`, `C93_gap`, `C93_cut` | All matrices, all lists of layers, exact inverses; success of the inversions is the hypothesis. |
| C94 | Global scattering matrix of a list of elements | partial | Direct from the model, which keeps the difference between a dictionary and the pair that RedhefferStar returns. Lists of three or more elements violate the statement. | `C94_global_partial`, `C94_global_negation` | Lists of one or two elements. Lists of three or more always fail: C94_global_negation. |
| C95 | Scattering matrices and transfer matrices agree | proved | Each step of the transfer loop is shown to continue the tangential fields through one layer, so the amplitudes of the solver are waves around the stack. By C93 the scattering matrix maps the incident wave to the same amplitudes. The half spaces agree because away from grazing the replaced zeros do not occur. The efficiency formulas are compared last. | `C95_smm_tmm`, `C95_energy` | NumPy, exact inverses. Success of both computations is the hypothesis; grazing orders are excluded. |
| C96 | Modes of the 2D scattering functions solve Maxwell's equations | partial | The product of P and Q is computed blockwise and equals the matrix of the 2D solver, so the eigensolver receives the same matrix. The curl equations are equivalent to two matrix equations, which follow from the eigenvector law. For half spaces the first equation holds column by column exactly when no zero on the diagonal of Q was replaced. | `C96_layer_maxwell`, `C96_layer_solver`, `C96_half_space_partial`, `C96_half_space_negation` | Layers: complete. Half spaces: orders with wave numbers along both axes; the others violate the statement (C96_half_space_negation). |
| C97 | Scattering matrices conserve power for every illumination | proved | By C93 the waves around the stack continue through every layer. The power flux through a lossless layer is constant and through an absorbing one it does not grow, which are the lemmas behind C01 and C03. In the half spaces the flux is the difference of the powers of both directions, because incoming waves propagate. | `C97_unitary`, `C97_passive` | Orders at grazing and incoming evanescent waves are left out: the latter carry power by interference. |
| C98 | Turning a stack over exchanges the sides of its scattering matrix | proved | By C93 the matrix is determined by the fields that continue through the stack. Reversing the magnetic field and the order of the layers maps such fields to those of the turned stack. In a layer without thickness the fields on both faces coincide. | `C98_flip`, `C98_symmetric`, `C98_zero` | All calls are assumed to succeed, i.e. no matrix that is inverted is singular. |
| C99 | Scattering matrices are reciprocal in all orders | proved | The convolution matrices of a layer are turned into their transposes by reversing the orders. The modes for both sides of incidence therefore solve transposed equations, and their mixed products commute with the decay factors. So the bilinear form of two fields is the same on all interfaces. In the half spaces it compares incoming with outgoing amplitudes. Unit illuminations give the entries of the matrices. | `C99_reciprocal` | All calls are assumed to succeed, i.e. no matrix that is inverted is singular. use_pinv=False. |
| C100 | Scattering matrices of 2D lossless stacks conserve power for every illumination | partial | The modes of a layer are those of the 2D solver with reversed magnetic fields, so each layer passes on the flux of the transverse fields. In a half space the flux of one order is computed from the closed form of its modes: it is the power of the incoming wave minus that of the outgoing wave. At normal incidence circularly polarized fields reduce the matrices to numbers, and the power gained is computed exactly. | `C100_unitary_partial`, `C100_passive_partial`, `C100_negation` | Proved when every order has wave numbers along x and along y. Violated otherwise: at normal incidence the half-space modes are perturbed and power is gained (C100_negation). |
| C101 | Scattering matrices of 2D stacks are reciprocal | partial | With the magnetic fields turned by a right angle, the matrices of a layer become symmetric up to transposed permittivities, so the mode pairing of C99 carries over. The admittances of the half spaces become symmetric matrices. Both ends of the stack then give the same bilinear form. At normal incidence two circularly polarized waves are computed exactly to refute the case that is left out. | `C101_reciprocal_partial`, `C101_negation` | Proved when every order has wave numbers along x and along y. Violated otherwise: at normal incidence the half-space modes are perturbed and reciprocity fails (C101_negation). |
| C102 | The incident wave of the 2D scattering functions is the wave asked for | partial | The two unit vectors are computed in closed form from the vector products. The index of the one entry of the delta vector is shown to be that of the zero order. The value at normal incidence is compared with the limit of its neighbours. | `C102_source_partial`, `C102_power_partial`, `C102_negation` | Proved for oblique incidence. Violated at normal incidence, where the field is not the limit of its neighbours (C102_negation). |
| C103 | The efficiencies of the 2D scattering functions sum to one for lossless problems | partial | In empty space the matrices of the half spaces are invertible and equal, so the scattering matrix is the exchange of both sides. The efficiencies are then sums of squares of the source of C102. This settles TE light there and refutes the property for TM light. | `C103_te_partial`, `C103_horizontal_partial`, `C103_negation` | Proved for TE light in empty space without grazing orders or orders on the axes, and for horizontal outgoing fields of any problem in air. Violated by TM light (C103_negation). Not proved for TE light in other lossless problems. |

## 4. Trusted base

* The kernel of Lean 4.33.0 and Mathlib as installed.
* Axioms: every one of the 437 theorems in `MANIFEST.json` depends on exactly
  `propext`, `Classical.choice` and `Quot.sound`. Each `Props` file prints this.
  There is no `sorry`, no `admit`, no added axiom, no `native_decide`, no `bv_decide`.
* The translation by hand from Python text to Lean. It is not checked by a machine. Each definition cites
  its lines so that it can be compared.
* The laws of external calls listed in section 2. They are hypotheses (fields of `LinAlg`) or parameters,
  not axioms.

## 5. Findings: where the code does not do what the property says

Each of these is a theorem with a concrete witness.

| what happens | theorem |
|----|----|
| NumPy/JAX take `kz = conj(sqrt(n^2 - kx^2))`. For an absorbing substrate `kz^2` is not `n^2 - kx^2`, and the transmitted wave grows away from the interface. | `C09_numpy_absorbing_negation` |
| As a result the TM reflectance of one interface can exceed 1. | `C08_absorbing_negation` |
| As a result a layer of the substrate's own material is visible. | `C07_absorbing_negation` |
| NumPy and PyTorch disagree for absorbing substrates. PyTorch obeys Fresnel there (`C08_torch_fresnel`). | `C40_absorbing_negation` |
| PyTorch's incident amplitudes have the opposite sign in the cos psi block, so PyTorch at psi is NumPy at pi - psi. Efficiencies of mixed polarizations differ (1568/1681 against 32/1681 in the witness). | `C40_mixed_negation`, exact relation in `C40_psi` |
| PyTorch's `res_te_inc` and `res_tm_inc` do not superpose to `res`: transmitted amplitudes lack a conjugation and phase, p amplitudes use -i where `res` uses +i. | `C10_torch_negation`, exact relation in `C10_torch_partial` |
| The discrete Fourier path does not flip the image along y and the continuous path does. The two see mirrored structures. | `C21_negation` |
| Assigning `None` to `ucell` keeps the old modeling type; the next solve raises AttributeError. | `C22_none_negation` |
| An array rejected for its dtype still switches the object to raster modeling. | `C22_rejected_negation` |
| The `psi` setter does not check its range and leaves `pol` outside [0, 1]. | `C23_psi_negation` |
| A rejected array assigned to `fto` has already replaced the old value. | `C24_fto_negation` |
| `period` accepts any number of values except through the 0-d array, which raises TypeError. | `C24_period_negation` |
| `thickness` keeps a 0-d array, and the solve then raises TypeError. | `C24_thickness_negation` |
| `calculate_field` after assigning `pol` mixes old modes with the new polarization. | `C26_pol_negation` |
| `calculate_field` after a `conv_solve` that raised while computing the convolution matrices returns the fields of an earlier solve. | `C26_failed_negation` |
| The perturbation only guards `theta = 0`. Under oblique incidence an order that leaves exactly along the normal makes every result of the conical and 2D solvers NaN. In floating point: `theta=0.5, phi=0, period=[1,1], wavelength=np.sin(0.5)`. | `C52_order_negation` |
| The suffix `__real` of a material name is case-sensitive while names are not. | `C30_suffix_negation` |
| Pixels that match no material become index 0. | `C31_zero_negation` |
| Brendel-Bormann coefficients with a negative strength give a gain medium. | `C32_gain_negation` |
| A huge `int` given to `graphene_falkovsky` raises OverflowError, not ValueError or TypeError. | `C33_overflow_negation` |
| Two drawn objects that share an edge give grid edges that are not ascending: the duplicate is moved up but inserted before. | `C36_negation` |
| A rotated rectangle with fewer triangle slices than parallelogram slices misses a band at the bottom. | `C37_negation` |
| A slice edge at coordinate 0 that is already taken is moved by the absolute amount 1e-14, so the result depends on the unit of length: a problem that is solved can raise LinAlgError after all lengths are rescaled. | `C38_scale_vector_negation` |
| With more triangle slices some slice lies outside the rectangle. | `C45_negation` |
| Layers beyond the number of thicknesses are silently ignored. | `C42_violated`, `C42_ignores_surplus_layers` |
| A passive grating of a transparent medium and an ideal metal of opposite permittivity raises LinAlgError. The claim of C55 excludes ideal metals for this reason. | `C55_negation` |
| A transparent film whose first diffraction order meets a guided mode of the film raises LinAlgError: the final matrix is exactly singular. The claim of C56 assumes absorbing layers for this reason. | `C56_lossless_negation` |
| A material file with one data row makes `list_materials` raise IndexError. | `C44_one_row_negation` |
| JAX's discrete raster builder ignores `use_pinv`: a grating of zero average permittivity gives NaN in JAX and a result in NumPy. | `C57_pinv_negation` |
| JAX does not notice more thicknesses than layers: out-of-range reads do not raise, so it returns a result where NumPy raises IndexError (shown for reads that clamp to the last layer). | `C57_extra_thickness_negation` |
| JAX `conv_solve_field_no_jit` calls the missing method `_conv_solve` and always raises AttributeError. | `C57_field_call_negation` |
| `MeeJax._tree_flatten` leaves out `use_pinv`: after a JAX transformation the solver no longer uses the pseudo-inverse, and a problem that was solved raises. | `C58_pinv_negation` |
| `psi` accepts every number, but a `MeeJax` whose `psi` gives a polarization outside `[0, 1]` cannot be rebuilt from its pytree form (ValueError). | `C58_psi_negation` |
| NumPy `conv_solve(**kwargs)` ignores its arguments. JAX and PyTorch apply them. | `C59_numpy_negation` |
| PyTorch conical and 2D calculations under-report p-polarised transmission into an absorbing substrate at oblique incidence: they use `|T/n|² Re kz` where the power is `|T|² Re(kz/n²)`. On a bare surface R + T < 1 although nothing but the substrate absorbs; the 1D TM calculation of the same surface gives 1. | `C62_conical_negation`, `C62_tm` |
| PyTorch: assigning a zero-dimensional tensor to `period` raises, but the rejected value stays stored and `conv_solve` raises `IndexError` from then on. | `C63_period_negation` |
| PyTorch: assigning an array of a rejected shape to `ucell` raises, but a vector structure is treated as a raster from then on and `conv_solve` raises `AttributeError`. | `C63_rejected_negation` |
| PyTorch: a solve that raises early leaves the fields of the solve before; `calculate_field` returns them. | `C63_failed_negation` |
| `MeeTorch` without `period` raises `ValueError`; NumPy and JAX use (1, 1). | `C64_period_negation` |
| `MeeTorch(device='cpu')`, `'gpu'` and `'cuda'` raise `ValueError`, although the constructor's check names them as valid. Only numbers and `torch.device` objects work. | `C64_device_negation` |
| The default `perturbation` is 1e-20 for NumPy and JAX and 1e-10 for PyTorch, so the same call with theta = 0 solves at different angles. | `C64_default_negation` |
| An ellipse is not drawn at all if one of the sampled contour points is exactly its highest point: then the neighbours are equally high, neither branch stores the points, and all boxes are the point at the origin. Without rotation this happens whenever the number of samples is a multiple of four (in exact arithmetic; rounding errors may break the tie). | `C66_top_negation`, `C66_unturned_negation` |
| `ellipse` with its default number of samples always raises `IndexError` on NumPy and PyTorch. JAX reads the last point instead and draws nothing, so it solves a problem that NumPy refuses. Three samples never draw anything either. | `C66_default_negation`, `C66_two_negation`, `C57_ellipse_negation` |
| PyTorch `grad` does not clear gradients. A second call returns the sum of both, and the tensor returned first changes with it. | `C68_torch_grad_again_negation` |
| PyTorch `grad` after `fit` adds the gradient of the last iteration. | `C68_torch_grad_after_fit_negation` |
| Each `fit` starts a fresh optimizer, so `fit` twice is not one longer run unless the optimizer has no state. | `C68_fit_add_negation` |
| JAX `grad` leaves tracers in the object's attributes if the solve raises. | `C68_jax_failure_negation` |
| The README calls `mee.put_refractive_index_in_ucell` for all three backends; JAX objects have no such method. | `C76_put_jax_negation` |
| With two rows at the last wavelength of a table NumPy and PyTorch return the last row, JAX the one before (no shipped table has this). | `C76_last_negation` |
| A shipped table (`Al2O3_querry-e`) stores negative `k`; a slab filled with it reports `R + T > 1`. The README's advice to flip `k` when adding a material makes every such material amplify. | `C75_shipped_negation`, `C75_flipped` |
| The README says that transmission through a slab entered as `n + ik` grows with thickness. For `3 + i` it falls from a third of a wavelength to two thirds, and is below one. `R + T` does exceed one. | `C74_thickness_negation` |
| The conical solver inverts `Kx² - εy`, which is singular when the x component of a kept order equals the index of a transparent film, although no mode is at cut-off. A one-row film fails there that a two-row description of the same film solves. | `C61_conical_negation` |
| The two axes are factorised by different rules (`epx` inverts the y averages of the permittivity, `epy` averages over x the inverses of the y averages of its reciprocal). A checkerboard, which looks the same with x and y exchanged, fails for light in the plane of x and is solved for light in the plane of y; another one reflects TE light in one plane and not in the other. | `C79_negation`, `C79_efficiency_negation` |
| `draw` writes moved edges back into the objects it is given. Drawing two rectangles with a common edge a second time, or in a second layer, gives different edges (moved by parts in 1e14). | `C82_negation` |
| NumPy and JAX replace the sine of every polar angle from single-precision π/2 upwards by the sine of the number just below it, but keep the cosine. A whole turn more is therefore another problem: without any interface, 390 degrees instead of 30 degrees reports a reflected amplitude above a million instead of zero. PyTorch has no such cut-off. | `C83_negation`, `C83_jax_negation` (PyTorch: `C83_torch_turn`) |
| `construct_global_scatter` fails for every list of three or more elements: it passes the pair returned by `RedhefferStar` (a dictionary and a tuple) to the next call, whose `assert` demands a dictionary. For two elements it returns the pair instead of a dictionary. | `C94_global_negation` |
| `homogeneous_module` takes a zero on the diagonal of Q for a singularity and replaces it by 1e-10. The entry is kx·ky, so this happens to every order in a plane of incidence along an axis, where Q is regular. The modes of such an order then miss Maxwell's equations. | `C96_half_space_negation` |
| The replaced zeros of `homogeneous_module` break conservation of power. At normal incidence from air on glass without layers, a circularly polarized wave leaves with more power than it brought, by a relative amount of about 1e-20. | `C100_negation` |
| The replaced zeros of `homogeneous_module` also break reciprocity. At normal incidence from air on glass without layers, two circularly polarized waves react differently when source and receiver are exchanged, by a relative amount of about 1e-10. | `C101_negation` |
| `initial_conditions` sets the TE field at normal incidence to `(0, 1, 0)` whatever the azimuth. At every other angle it is `(sin φ, -cos φ, 0)`. The field jumps at normal incidence unless the azimuth is a half turn. | `C102_negation` |
| `scattering_2d_3` leaves out the field component along the depth. For TM light in empty space the efficiencies sum to the square of the cosine of the angle of incidence, not to one. | `C103_negation` |

## 6. Further observations from reading

They are not stated as theorems unless a name is given.

* The discrete Fourier coefficients repeat pixels by a factor that depends on the truncation (always with `enhanced_dfs`, otherwise when pixels are few). The same structure described with several periods in a cell then has slightly different coefficients; C81 is exact for continuous coefficients or images with pixels enough.
* `scattering_1d_1` subtracts the Fourier orders where the solver adds them, so C95 lists the orders downwards. `homogeneous_1D` replaces a vanishing kz by 1e-10 at grazing, which the solver does not do; C95 leaves grazing orders out.
* JAX `conv_solve_field` calls `self._conv_solve`, which does not exist, like `conv_solve_field_no_jit`.
* JAX's `ucell` setter silently ignores unsupported dtypes.
* With `connecting_algo='SMM'` the conical solver returns a result whose three parts are `None`.
* The conical and 2D solvers produce NaN when some order has kx = ky = 0 exactly. The default perturbation of
  theta avoids it for the zeroth order.
* A one-row cell with `fto[1] > 0` takes the conical branch with `ff_y = 1` and fails in `reshape`.
* For theta at or above float32(pi/2) the NumPy backend clamps sin(theta) but not cos(theta). PyTorch does not
  clamp.
* PyTorch treats phi = 0 as the 1D case, NumPy as conical. PyTorch's `meeinv` falls back to `pinv` and never
  raises. PyTorch clamps 2D modes with |q| < 1e-10.
* For complex n_top PyTorch and NumPy conjugate kx; the conical p efficiency then differs from the 1D TM one.
* TM amplitudes of the 1D and conical solvers differ by the factor i n_top (`C12_phi_zero_amplitudes`).
* PyTorch's public fields are NumPy's for the opposite time dependence and a reversed y axis (`C50_tetm`,
  `C50_pure`). Mixed polarization needs psi -> pi - psi (`C50_psi`).
* The 1D TM fields are normalised to unit Hy, the conical and 2D ones to unit E, so they differ by the factor
  n_top, in both backends.
* The PyTorch `device` setter does not move tensors that exist already, and its `type_complex` setter does not convert
  `period` and `ucell`. Devices and precision are outside the model.
* PyTorch's `rectangle` at a general angle adds the centre as `torch.tensor([[cx], [cy]])`, which is in single precision for Python numbers. The comment in the function warns of this for the side lengths only.
* JAX's shape functions test `type(lx) is jnp.ndarray`, which no array meets, so arrays are not reshaped.
* PyTorch's `ellipse` samples its angles with `torch.linspace` in single precision, also when the solver works in double
  precision.
* Drawn objects that reach beyond the period leave edges beyond it. Objects are mutated by drawing (C82).
* When two objects start at 0, only one leading 0 is stripped from the edge list.
* Field samples in depth and along x include both end points when there are at least two of them.
* When two material files have the same upper-cased stem, the later one wins.
* Shipped tables with negative `k`, against `nk_data/README.md` (read as text): `Al2O3_querry-e.txt` (9 rows, for
  example k = -0.048 at 210 nm), `Al2O3_querry-o.txt` (11 rows) and `[Optprop][Iongel][JW].txt` (152 rows of about
  -1e-8). The lookup returns an amplifying index there (`C75_shipped_negation`).
* `Al2O3_querry-o.txt` has one descending wavelength step (lines 380 and 381), and the two
  `260223_BTO_Vis_MIR_intrinsic` tables list 1057 wavelengths twice, which `C28` covers
  (the last row counts). The descending step is outside its hypothesis.
* `nk_data/README.md` says that tables store positive `k`, and under "Adding a material" that absorbing materials are
  stored as `n - ik` and positive `k` has to be flipped. The code does the first.

## 7. Testing the theorems against wrong programs

`seeded/LOG.jsonl` has one line per edited model: the definition, the edit, the claim it breaks, the theorems
that stopped proving, and the theorems that were tightened because of it. The edits are made in a scratch copy
and rebuilt there.
