{"claims": [
{"property": "C01", "status": "proved", "theorems": ["Meent.C01_energy_1d"], "note": "Every successful lossless 1D TE/TM solve through conv_solve, exact arithmetic, any eigensolver; use_pinv=False (C41 covers use_pinv)."},
{"property": "C02", "status": "proved", "theorems": ["Meent.C02_energy_conical_2d"], "note": "Total efficiency 1 for res, res_te_inc and res_tm_inc on every successful conical or 2D TMM solve of a lossless problem (use_pinv=False; exact inverses)."},
{"property": "C03", "status": "proved", "theorems": ["Meent.C03_passivity"], "note": "Raster layers, any eigensolver, both Fourier analyses. Assumes use_pinv = false and a lossless substrate."},
{"property": "C04", "status": "proved", "theorems": ["Meent.C04_eigenbasis", "Meent.C04_eigenbasis_success"], "note": "Any two eigensolvers, all formulations and structures, use_pinv=False; plus transfer of success."},
{"property": "C05", "status": "proved", "theorems": ["Meent.C05_zero_thickness"], "note": "Raster and vector structures, all three formulations, use_pinv=False; success of the longer stack implies success of the shorter one."},
{"property": "C06", "status": "proved", "theorems": ["Meent.C06_split", "Meent.C06_split_ok"], "note": "Both directions, raster and vector, all three formulations, use_pinv=False."},
{"property": "C07", "status": "partial", "theorems": ["Meent.C07_substrate_layer_partial", "Meent.C07_use_pinv_partial", "Meent.C07_absorbing_negation"], "note": "Proved for every real substrate index, all solvers and structures, with use_pinv whenever no singular matrix is inverted. For an absorbing substrate the NumPy/JAX code violates the claim: C07_absorbing_negation gives a concrete witness; on PyTorch see C70."},
{"property": "C08", "status": "partial", "theorems": ["Meent.C08_flat_specular", "Meent.C08_fresnel_tetm_partial", "Meent.C08_fresnel_conical_partial", "Meent.C08_absorbing_negation", "Meent.C08_torch_fresnel", "Meent.C08_torch_success"], "note": "Specular-only is proved for every flat stack and formulation. Fresnel is proved for lossless substrates, including total internal reflection. For an absorbing substrate the claim is false of the NumPy/JAX code: C08_absorbing_negation exhibits a TM reflectance above 3. The PyTorch TE/TM solver obeys Fresnel for absorbing substrates too (C08_torch_fresnel)."},
{"property": "C09", "status": "partial", "theorems": ["Meent.C09_torch_1d", "Meent.C09_torch_2d", "Meent.C09_numpy_1d_partial", "Meent.C09_numpy_2d_partial", "Meent.C09_numpy_absorbing_negation", "Meent.C09_torch_dispersion"], "note": "Proved for the PyTorch backend for every passive substrate, and for NumPy/JAX for a lossless substrate. For NumPy/JAX with an absorbing substrate the property is false (C09_numpy_absorbing_negation)."},
{"property": "C10", "status": "partial", "theorems": ["Meent.C10_superposition", "Meent.C10_pure", "Meent.C10_torch_partial", "Meent.C10_torch_pure_partial", "Meent.C10_torch_negation"], "note": "NumPy backend (JAX has the same algebra): proved. PyTorch: false (C10_torch_negation); C10_torch_partial says exactly which sign and conjugation each amplitude is off by, C10_torch_pure_partial that the efficiencies at pol 0 and 1 do agree."},
{"property": "C100", "status": "partial", "theorems": ["Meent.C100_unitary_partial", "Meent.C100_passive_partial", "Meent.C100_negation"], "note": "Proved when every order has wave numbers along x and along y. Violated otherwise: at normal incidence the half-space modes are perturbed and power is gained (C100_negation)."},
{"property": "C101", "status": "partial", "theorems": ["Meent.C101_reciprocal_partial", "Meent.C101_negation"], "note": "Proved when every order has wave numbers along x and along y. Violated otherwise: at normal incidence the half-space modes are perturbed and reciprocity fails (C101_negation)."},
{"property": "C102", "status": "partial", "theorems": ["Meent.C102_source_partial", "Meent.C102_power_partial", "Meent.C102_negation"], "note": "Proved for oblique incidence. Violated at normal incidence, where the field is not the limit of its neighbours (C102_negation)."},
{"property": "C103", "status": "partial", "theorems": ["Meent.C103_te_partial", "Meent.C103_horizontal_partial", "Meent.C103_negation"], "note": "Proved for TE light in empty space without grazing orders or orders on the axes, and for horizontal outgoing fields of any problem in air. Violated by TM light (C103_negation). Not proved for TE light in other lossless problems."},
{"property": "C11", "status": "proved", "theorems": ["Meent.C11_nonneg", "Meent.C11_evanescent", "Meent.C11_le_one"], "note": ""},
{"property": "C12", "status": "proved", "theorems": ["Meent.C12_phi_zero", "Meent.C12_phi_zero_amplitudes", "Meent.C12_success", "Meent.C12_from_zero", "Meent.C12_torch", "Meent.C12_jax"], "note": "All six efficiency arrays agree (real incidence index, psi as the pol setter leaves it); amplitudes agree for TE and differ by the constant i*n_top for TM, for any incidence index. C12_success: phi=0 is solved exactly if phi=None is solved for TE and TM and no order is along the normal (this exception is a finding, see C52). On PyTorch the two are the same calculation; on JAX the law carries over."},
{"property": "C13", "status": "proved", "theorems": ["Meent.C13_conical_eq_2d", "Meent.C13_conical_eq_2d_success"], "note": "One-row raster (conical) against k>=2 identical rows (2D): equal results whenever both succeed; the 2D solve succeeds whenever the conical one does, for basis-returning eigensolvers."},
{"property": "C14", "status": "proved", "theorems": ["Meent.C14_efficiency_order", "Meent.C14_flat_order", "Meent.C14_conv_order", "Meent.C14_injection"], "note": ""},
{"property": "C15", "status": "proved", "theorems": ["Meent.C15_grating_equation", "Meent.C15_specular"], "note": ""},
{"property": "C16", "status": "proved", "theorems": ["Meent.C16_discrete_conv", "Meent.C16_no_index_error", "Meent.C16_no_alias"], "note": "Every raster layer, size, truncation and both enhanced_dfs values."},
{"property": "C17", "status": "proved", "theorems": ["Meent.C17_hermitian"], "note": "All three Fourier routes, real indices."},
{"property": "C18", "status": "proved", "theorems": ["Meent.C18_homogeneous_discrete", "Meent.C18_homogeneous_continuous", "Meent.C18_homogeneous_vector"], "note": "Discrete, continuous and vector routes."},
{"property": "C19", "status": "proved", "theorems": ["Meent.C19_coefficient", "Meent.C19_vector_matrices", "Meent.C19_raster_matrices"], "note": "Exact Fourier integrals for the coefficient function and for the matrices of drawn and raster layers (breakpoints in increasing order)."},
{"property": "C20", "status": "proved", "theorems": ["Meent.C20_refinement"], "note": "Repeating pixels leaves the convolution matrices of the continuous path unchanged."},
{"property": "C21", "status": "partial", "theorems": ["Meent.C21_discrete_limit", "Meent.C21_negation", "Meent.C21_symmetric_partial"], "note": "The claim is false: the continuous path flips the image along y (C21_negation). Proved: the limit of the discrete path, and the claim for images equal to their mirror image."},
{"property": "C22", "status": "partial", "theorems": ["Meent.C22_choice_partial", "Meent.C22_no_structure_partial", "Meent.C22_none_negation", "Meent.C22_rejected_negation"], "note": "The formulation chosen by every successful solve, in every state of the object, and ValueError when no structure was ever given are proved. After a structure was replaced by None the code raises AttributeError, and an array rejected for its dtype breaks a vector model still in place (both proved as counterexamples)."},
{"property": "C23", "status": "partial", "theorems": ["Meent.C23_relation", "Meent.C23_assign", "Meent.C23_range_partial", "Meent.C23_psi_negation"], "note": "psi = pi/2 (1 - pol) after every history and atomic rejection by the pol setter are proved in full. pol in [0,1] is proved for histories whose psi assignments lie in [0, pi/2]; the psi setter accepts psi = pi and leaves pol = -1 (counterexample proved)."},
{"property": "C24", "status": "partial", "theorems": ["Meent.C24_fto_partial", "Meent.C24_period_partial", "Meent.C24_thickness_partial", "Meent.C24_fto_readback_partial", "Meent.C24_period_readback", "Meent.C24_thickness_readback", "Meent.C24_fto_negation", "Meent.C24_period_negation", "Meent.C24_thickness_negation"], "note": "Normal forms and read-back are proved. Counterexamples are proved for the rest: a rejected array leaves fto changed, period accepts three or no values and raises TypeError for a 0-d array, thickness keeps a 0-d array."},
{"property": "C25", "status": "proved", "theorems": ["Meent.C25_supported", "Meent.C25_unsupported", "Meent.C25_equal_numbers"], "note": "Dispatch on Python equality with 0, 1, 2; importing and constructing the solver classes is not modelled."},
{"property": "C26", "status": "partial", "theorems": ["Meent.C26_history_partial", "Meent.C26_repeat", "Meent.C26_fields_partial", "Meent.C26_fields_describe_partial", "Meent.C26_failed_partial", "Meent.C26_failed_negation", "Meent.C26_pol_negation"], "note": "conv_solve depends on the current parameters only (histories without an array rejected for its dtype, structure given); solving twice gives the same; calculate_field after a solve gives the fields of that solve if nothing changed in between; after a solve that failed past the convolution matrices it raises. Assigning pol in between changes the fields, and a solve that fails before that point leaves the old fields in place (counterexamples proved)."},
{"property": "C27", "status": "proved", "theorems": ["Meent.C27_continuous", "Meent.C27_available"], "note": "TE/TM, conical and 2D fields of the NumPy backend (JAX has the same algebra) with plain inverses and non-zero cover index; at least two depth samples per layer are needed for a bottom sample. The PyTorch fields are the subject of C50."},
{"property": "C28", "status": "proved", "theorems": ["Meent.C28_lookup", "Meent.C28_exact", "Meent.C28_between", "Meent.C28_no_gain"], "note": "Lookup in a measured table: exact at table wavelengths, on the straight line between neighbours, end values outside; sign of k never turns into gain."},
{"property": "C29", "status": "proved", "theorems": ["Meent.C29_warns", "Meent.C29_only"], "note": "A lookup warns exactly when a wavelength lies outside the range of the material."},
{"property": "C30", "status": "partial", "theorems": ["Meent.C30_case_partial", "Meent.C30_real_case_partial", "Meent.C30_real", "Meent.C30_known", "Meent.C30_precision", "Meent.C30_suffix_negation"], "note": "Case of the name does not matter and __real gives the real part. The suffix itself is case-sensitive in the code; the negation is proved."},
{"property": "C31", "status": "partial", "theorems": ["Meent.C31_pixel", "Meent.C31_success", "Meent.C31_local", "Meent.C31_values_partial", "Meent.C31_other_pixels", "Meent.C31_zero_negation"], "note": "Substitution is pixelwise and touches only pixels holding listed indices. Pixels that match no index become 0 rather than staying as they are; the negation is proved."},
{"property": "C32", "status": "partial", "theorems": ["Meent.C32_formula1", "Meent.C32_formula2", "Meent.C32_order", "Meent.C32_malformed", "Meent.C32_unknown", "Meent.C32_no_gain_partial", "Meent.C32_incomplete", "Meent.C32_gain_negation"], "note": "Sellmeier formulas, dispatch, malformed coefficients and unknown formulas. No gain for absorbing coefficients; Brendel-Bormann coefficients with a negative strength give gain (negation proved). wofz and quad are parameters with their mathematical meaning as hypotheses."},
{"property": "C33", "status": "partial", "theorems": ["Meent.C33_accepts_partial", "Meent.C33_rejects", "Meent.C33_conditions", "Meent.C33_wavelengths", "Meent.C33_overflow_negation"], "note": "Argument checks of graphene_falkovsky. Integers too large for a float raise OverflowError instead of ValueError (negation proved)."},
{"property": "C34", "status": "proved", "theorems": ["Meent.C34_closed_form", "Meent.C34_loading", "Meent.C34_stops", "Meent.C34_values"], "note": "Header parsing of material files."},
{"property": "C35", "status": "proved", "theorems": ["Meent.C35_paint", "Meent.C35_exact", "Meent.C35_success", "Meent.C35_layers", "Meent.C35_rectangle", "Meent.C35_rectangle_right_angle"], "note": "For all layers of axis-aligned objects, including overlaps, shared edges and objects reaching outside; exact when no edges coincide. A rectangle turned by a multiple of 90 degrees covers exactly the turned rectangle. Ellipses enter through their boxes (C66)."},
{"property": "C36", "status": "partial", "theorems": ["Meent.C36_grid_partial", "Meent.C36_period", "Meent.C36_negation"], "note": "Strictly ascending edges ending at the period when no two edges coincide; the last edge is always the period. Two objects side by side with a common edge give a descending pair of edges (negation proved for all such pairs)."},
{"property": "C37", "status": "partial", "theorems": ["Meent.C37_cover_partial", "Meent.C37_negation"], "note": "Complete when the triangles get at least as many splits as the parallelogram; otherwise a band at the bottom is missing (negation proved for all tilted rectangles). Angles within 1e-5 of a right angle are drawn unrotated."},
{"property": "C38", "status": "partial", "theorems": ["Meent.C38_scale", "Meent.C38_scale_vector_partial", "Meent.C38_scale_vector_negation"], "note": "Raster structures: proved in full, including exceptions. Vector structures: proved except when a slice after the first has its top or left edge exactly at 0, where the code nudges a duplicate edge by an absolute amount. For that case the negation is proved: a layer of two absorbing media that is solved as it stands and cannot be solved after rescaling."},
{"property": "C39", "status": "proved", "theorems": ["Meent.C39_translation", "Meent.C39_success", "Meent.C39_amplitudes"], "note": "Rolling every layer raster by any integer number of pixels along x and y leaves all efficiencies unchanged (1D, conical, 2D; both Fourier analyses; any eigensolver), and success carries over. C39_amplitudes gives the phase of every amplitude."},
{"property": "C40", "status": "partial", "theorems": ["Meent.C40_tetm_partial", "Meent.C40_pure_partial", "Meent.C40_psi", "Meent.C40_phi_zero_partial", "Meent.C40_mixed_negation", "Meent.C40_absorbing_negation", "Meent.C40_phi_zero_success"], "note": "Proved for lossless claddings: TE/TM solver, conical/2D at pol 0 or 1, phi=0 with success included, and at any angle up to psi -> pi - psi. False for mixed polarization (C40_mixed_negation) and for absorbing substrates (C40_absorbing_negation)."},
{"property": "C41", "status": "proved", "theorems": ["Meent.C41_use_pinv", "Meent.C41_meeinv"], "note": "Full equality of everything the solve leaves behind."},
{"property": "C42", "status": "partial", "theorems": ["Meent.C42_rejects_surplus_thickness_partial", "Meent.C42_ignores_surplus_layers", "Meent.C42_violated"], "note": "The claim is false of the code: surplus layers are silently ignored (C42_violated, C42_ignores_surplus_layers). Proved half: surplus thicknesses are rejected."},
{"property": "C43", "status": "proved", "theorems": ["Meent.C43_backward", "Meent.C43_unique"], "note": "The backward pass of the PyTorch pseudo-inverse equals the gradient of inversion at every invertible matrix, and the gradient is unique."},
{"property": "C44", "status": "partial", "theorems": ["Meent.C44_names", "Meent.C44_ranges", "Meent.C44_success_partial", "Meent.C44_one_row_negation"], "note": "Names and ranges of the listing agree with lookup whenever the listing returns, and it returns when every material has a range. A one-row file makes it raise IndexError (negation proved)."},
{"property": "C45", "status": "partial", "theorems": ["Meent.C45_chord_partial", "Meent.C45_negation"], "note": "Equal split counts: every slice is the chord at its middle height, for all four quadrants. With more splits of the triangles some slice lies outside the rectangle (negation proved)."},
{"property": "C46", "status": "proved", "theorems": ["Meent.C46_eigenvalues", "Meent.C46_eigenvectors"], "note": "Exact gradient for losses of the eigenvalues; explicit error bound for normalisation-insensitive losses of the eigenvectors, zero when the broadening is zero."},
{"property": "C47", "status": "proved", "theorems": ["Meent.C47_passivity_conical_2d"], "note": "Raster layers on both Fourier paths, vector layers whose rectangles lie in the cell and share no edge coordinate. Assumes use_pinv = false and lossless claddings."},
{"property": "C48", "status": "proved", "theorems": ["Meent.C48_maxwell"], "note": "Fields of conv_solve_field solve Maxwell's equations in every layer and match the reported waves; plain inverses, non-zero cover index."},
{"property": "C49", "status": "proved", "theorems": ["Meent.C49_unique"], "note": "The reported amplitudes are exactly those for which the boundary value problem has a solution; transfer matrix method, plain inverses, non-zero cover index."},
{"property": "C50", "status": "proved", "theorems": ["Meent.C50_tetm", "Meent.C50_pure", "Meent.C50_psi"], "note": "Lossless claddings; mixed polarization against NumPy at pi - psi (the sign difference is the finding of C40)."},
{"property": "C51", "status": "proved", "theorems": ["Meent.C51_reflection_tetm", "Meent.C51_reflection", "Meent.C51_reflection_psi"], "note": "TE/TM, conical and 2D; transfer matrix method, plain inverses, lossless cover"},
{"property": "C52", "status": "partial", "theorems": ["Meent.C52_nan", "Meent.C52_normal_partial", "Meent.C52_order_negation"], "note": "NaN arises exactly when a kept order leaves along the surface normal; with theta = 0 none does, by the perturbation. Under oblique incidence an order can hit the normal exactly and the conical result is NaN (counterexample proved)."},
{"property": "C53", "status": "proved", "theorems": ["Meent.C53_transmission_tetm", "Meent.C53_transmission", "Meent.C53_transmission_psi"], "note": "TE/TM, conical and 2D; transfer matrix method, plain inverses, lossless claddings"},
{"property": "C54", "status": "proved", "theorems": ["Meent.C54_mirror_tetm", "Meent.C54_mirror", "Meent.C54_symmetric_tetm", "Meent.C54_symmetric"], "note": "Rasters with both Fourier types and all three solvers; use_pinv=false, algo TMM."},
{"property": "C55", "status": "proved", "theorems": ["Meent.C55_one_sided", "Meent.C55_one_sided_vector", "Meent.C55_ordinary", "Meent.C55_ordinary_vector", "Meent.C55_failure", "Meent.C55_negation"], "note": "Rasters with both Fourier types, and vector structures under the geometry condition of C36. C55_negation shows that ideal metals (n = 0), which the English claim excludes, really have to be excluded: a passive grating of permittivities 1 and -1 raises LinAlgError. use_pinv = true is not covered here; it never raises."},
{"property": "C56", "status": "proved", "theorems": ["Meent.C56_absorbing", "Meent.C56_te", "Meent.C56_films", "Meent.C56_lossless_negation"], "note": "The claim is proved for absorbing layers, as an equivalence with the existence of a basis of modes. C56_lossless_negation shows that absorption cannot be dropped."},
{"property": "C57", "status": "partial", "theorems": ["Meent.C57_numpy_to_jax_partial", "Meent.C57_numpy_to_jax_pinv_partial", "Meent.C57_jax_to_numpy", "Meent.C57_iff_partial", "Meent.C57_other_eig", "Meent.C57_fields", "Meent.C57_pinv_negation", "Meent.C57_extra_thickness_negation", "Meent.C57_field_call_negation", "Meent.C57_ellipse_negation"], "note": "Both directions proved for all problems in which use_pinv is not combined with the discrete transform of pixel structures, with at least one pixel, enough layers and at least three contour samples for every ellipse. In the remaining cases the backends do differ: four negations."},
{"property": "C58", "status": "partial", "theorems": ["Meent.C58_round_trip_partial", "Meent.C58_psi_negation", "Meent.C58_pinv_negation"], "note": "Proved for every history, provided use_pinv is off, the polarization is in range, theta was not set to zero with a nonzero perturbation pending, and no rejected array was left in fto or ucell. The first two conditions are needed: two negations."},
{"property": "C59", "status": "partial", "theorems": ["Meent.C59_jax", "Meent.C59_jax_persists", "Meent.C59_numpy_negation", "Meent.C63_kwargs"], "note": "Proved for JAX and PyTorch. NumPy violates the claim: negation."},
{"property": "C60", "status": "proved", "theorems": ["Meent.C60_eigenvalues", "Meent.C60_eigenvectors", "Meent.C60_step"], "note": "Exact for losses of the eigenvalues; error bound proportional to the perturbation otherwise, as in C46."},
{"property": "C61", "status": "proved", "theorems": ["Meent.C61_stack", "Meent.C61_layers", "Meent.C61_films", "Meent.C61_conical", "Meent.C61_2d", "Meent.C61_layers_2d", "Meent.C61_films_conical", "Meent.C61_films_2d", "Meent.C61_conical_negation"], "note": "All three formulations. 1D and conical: necessary and sufficient. 2D: necessary, and sufficient without backward waves, which only transparent patterned layers can have. Films of any number as corollaries. C61_conical_negation shows the extra failures of the conical formulation."},
{"property": "C62", "status": "partial", "theorems": ["Meent.C62_torch", "Meent.C62_films", "Meent.C62_conical_negation", "Meent.C62_tm"], "note": "Proved for 1D TE and TM. For conical and 2D calculations the code violates the claim (negation for every absorbing substrate index)."},
{"property": "C63", "status": "partial", "theorems": ["Meent.C63_solve", "Meent.C63_history_partial", "Meent.C63_repeat", "Meent.C63_kwargs", "Meent.C63_field", "Meent.C63_failed_partial", "Meent.C63_period_negation", "Meent.C63_rejected_negation", "Meent.C63_failed_negation"], "note": "Solves return the solve of the readable parameters; histories, repetition, keyword arguments and fields are proved. The last sentence of the claim is false: rejected periods and arrays have effects (negations). C63_history_partial leaves out histories with a rejected array for this reason. C63_failed_partial: a solve that fails past the convolution matrices leaves no fields; one that fails earlier leaves the old ones (negation)."},
{"property": "C64", "status": "partial", "theorems": ["Meent.C64_partial", "Meent.C64_converse_partial", "Meent.C64_period_negation", "Meent.C64_device_negation", "Meent.C64_default_negation"], "note": "Proved for calls that pass period and perturbation by name and leave device at its default. False for the defaults of period and perturbation and for device names (negations)."},
{"property": "C65", "status": "partial", "theorems": ["Meent.C65_attributes", "Meent.C65_jax_partial", "Meent.C65_torch_tetm_partial", "Meent.C65_torch_pure_partial"], "note": "Attributes: proved for scripts without zero-dimensional periods, rejected arrays and polarizations just outside [0,1]. Results: JAX except use_pinv with the discrete transform, PyTorch for TE/TM and for pure polarization in conical and 2D calculations. Outside these cases the backends differ (C40, C57, C63 negations)."},
{"property": "C66", "status": "partial", "theorems": ["Meent.C66_strips", "Meent.C66_boxes", "Meent.C66_area", "Meent.C66_area_tendsto", "Meent.C66_top_negation", "Meent.C66_unturned_negation", "Meent.C66_default_negation", "Meent.C66_two_negation", "Meent.C66_samples", "Meent.C66_jax"], "note": "Strips, boxes and area proved for at least three contour samples none of which is exactly at the top. In the other cases the code violates the claim: three negations."},
{"property": "C67", "status": "proved", "theorems": ["Meent.C67_smooth", "Meent.C67_thickness", "Meent.C67_total"], "note": "use_pinv=False. Pixel changes: the results of all nearby designs that can be solved are given by one smooth function; whether a nearby design can be solved is not claimed, since a changed pixel may make a coupling matrix defective. Thickness changes: nearby thicknesses can always be solved."},
{"property": "C68", "status": "partial", "theorems": ["Meent.C68_torch_fit", "Meent.C68_jax_fit", "Meent.C68_backends", "Meent.C68_fit_add", "Meent.C68_torch_grad_partial", "Meent.C68_torch_untouched", "Meent.C68_jax_grad", "Meent.C68_unknown", "Meent.C68_torch_empty", "Meent.C68_torch_grad_again_negation", "Meent.C68_torch_grad_after_fit_negation", "Meent.C68_fit_add_negation", "Meent.C68_jax_failure_negation"], "note": "fit is proved exact on both backends. False: PyTorch grad adds to gradients left over from earlier calls of grad or fit and changes the result it returned before; a second fit does not continue the first when the optimizer has a state; a JAX grad whose solve raises leaves tracers in the object."},
{"property": "C69", "status": "partial", "theorems": ["Meent.C69_jax_energy", "Meent.C69_jax_passive", "Meent.C69_torch_energy", "Meent.C69_torch_passive", "Meent.C69_aniso_energy", "Meent.C69_aniso_passive", "Meent.C69_aniso_absorbing", "Meent.C69_equal_components", "Meent.C69_te", "Meent.C69_tm", "Meent.C69_dispatch", "Meent.C69_torch_energy_zero", "Meent.C69_torch_passive_zero"], "note": "Proved for JAX (every successful solve), for PyTorch on structures that NumPy solves (phi exactly zero included), and for anisotropic rasters when PyTorch does not fall back on a pseudo-inverse (proved not to happen for absorbing layers with a basis of modes). Missing: solves in which PyTorch falls back on a pseudo-inverse or replaces an eigenvalue below 1e-10, and nearly isotropic rows sent to the conical solver."},
{"property": "C70", "status": "proved", "theorems": ["Meent.C70_torch_substrate_layer"], "note": "PyTorch, TE and TM. C07_absorbing_negation shows that NumPy and JAX violate the claim."},
{"property": "C71", "status": "proved", "theorems": ["Meent.C71_components", "Meent.C71_paint", "Meent.C71_same_components", "Meent.C71_scalar", "Meent.C71_matrices", "Meent.C71_energy", "Meent.C71_passive", "Meent.C71_absorbing"], "note": "All layers, shapes and index mixtures; the energy claims exclude solves that fall back on a pseudo-inverse, as the statement says."},
{"property": "C72", "status": "proved", "theorems": ["Meent.C72_jax_translation", "Meent.C72_jax_scale", "Meent.C72_jax_reflection", "Meent.C72_jax_transmission", "Meent.C72_jax_mirror", "Meent.C72_torch_translation", "Meent.C72_torch_scale", "Meent.C72_torch_reflection", "Meent.C72_torch_transmission", "Meent.C72_torch_mirror"], "note": "JAX: whenever both solves succeed. PyTorch: problems that NumPy solves, lossless claddings, in 2D no mode within the threshold of zero (see C40)."},
{"property": "C73", "status": "proved", "theorems": ["Meent.C73_amplitudes", "Meent.C73_efficiencies", "Meent.C73_jax", "Meent.C73_torch", "Meent.C73_absorbing"], "note": "NumPy, JAX: amplitudes and efficiencies; PyTorch: efficiencies, under the hypotheses of C40 (lossless claddings, modes away from zero in 2D). Lossless substrate throughout, as C08 shows that NumPy treats absorbing substrates wrongly."},
{"property": "C74", "status": "partial", "theorems": ["Meent.C74_loss", "Meent.C74_strict_loss", "Meent.C74_gain", "Meent.C74_strict_gain", "Meent.C74_diagnosis", "Meent.C74_check", "Meent.C74_jax", "Meent.C74_torch", "Meent.C74_thickness_negation"], "note": "Proved: the four laws for the sum of the efficiencies on NumPy, JAX and PyTorch, the diagnosis and the documented check. Refuted (C74_thickness_negation): the transmission through a slab with gain need not grow with its thickness; for index 3 + i it falls from one third of a wavelength to two thirds, and is below one, while the sum exceeds one. Left out on PyTorch as in C40: phi exactly zero on one-row rasters and 2D eigenvalues within 1e-20 of zero."},
{"property": "C75", "status": "partial", "theorems": ["Meent.C75_index", "Meent.C75_safe", "Meent.C75_clear", "Meent.C75_flipped", "Meent.C75_jax", "Meent.C75_torch", "Meent.C75_shipped_negation"], "note": "Proved for published, clear and flipped data on the three backends. The last sentence is false: C75_shipped_negation shows a shipped table (Al2O3_querry-e) with negative k that amplifies."},
{"property": "C76", "status": "partial", "theorems": ["Meent.C76_jax_partial", "Meent.C76_torch", "Meent.C76_put_torch", "Meent.C76_put_jax_negation", "Meent.C76_last_negation"], "note": "Closed forms, all tables on PyTorch, and tables that ascend with distinguishable rows on JAX. Two negations: JAX objects lack the substitution, and equal last wavelengths. Tables whose wavelengths descend somewhere (one shipped file) are not covered."},
{"property": "C77", "status": "proved", "theorems": ["Meent.C77_absentee", "Meent.C77_period", "Meent.C77_quarter", "Meent.C77_antireflection", "Meent.C77_mirror", "Meent.C77_mirror_limit", "Meent.C77_total", "Meent.C77_brewster"], "note": "NumPy, JAX (accepted structures) and PyTorch (where NumPy solves too, see C40). Total reflection and Brewster's angle at any azimuth."},
{"property": "C78", "status": "proved", "theorems": ["Meent.C78_metal", "Meent.C78_crystal", "Meent.C78_graphene", "Meent.C78_sheet", "Meent.C78_onset"], "note": "For materials whose oscillators have positive damping and width. SciPy's wofz and quad are assumed to compute the integrals they document. The interband integral of the code ends at 1000 eV, and so does the specification's."},
{"property": "C79", "status": "partial", "theorems": ["Meent.C79_exchange_partial", "Meent.C79_negation", "Meent.C79_efficiency_negation", "Meent.C79_jax_partial", "Meent.C79_torch_partial"], "note": "Efficiencies are exchanged if every layer is a product of a function of x and a function of y and both problems are solved, on NumPy, JAX and PyTorch. The claim is false for a checkerboard, its own image: C79_negation (solved only one way) and C79_efficiency_negation (solved both ways, different TE reflection). Open: success for separable layers."},
{"property": "C80", "status": "proved", "theorems": ["Meent.C80_birefringent", "Meent.C80_absorbing"], "note": "PyTorch only: the other backends take one index per pixel. C80_birefringent assumes that no singular matrix makes PyTorch use a pseudo-inverse; C80_absorbing proves this for absorbing films in TE and TM, and in 2D for films uniaxial about the normal."},
{"property": "C81", "status": "proved", "theorems": ["Meent.C81_supercell", "Meent.C81_jax", "Meent.C81_torch"], "note": "NumPy, JAX and PyTorch (efficiencies). Discrete coefficients need an image with more than four times as many pixels as retained orders and enhanced_dfs off, otherwise the code repeats pixels by a factor that depends on the truncation."},
{"property": "C82", "status": "partial", "theorems": ["Meent.C82_redraw_partial", "Meent.C82_drift", "Meent.C82_negation"], "note": "True when no two objects share an edge coordinate. False otherwise: the code writes the moved edges back (negation proved), by at most four parts in 1e14 per object (C82_drift)."},
{"property": "C83", "status": "partial", "theorems": ["Meent.C83_direction_partial", "Meent.C83_azimuth", "Meent.C83_other_side", "Meent.C83_psi", "Meent.C83_psi_free", "Meent.C83_negation", "Meent.C83_negation_same", "Meent.C83_jax_direction_partial", "Meent.C83_jax_azimuth", "Meent.C83_jax_psi", "Meent.C83_jax_negation", "Meent.C83_torch_direction", "Meent.C83_torch_turn", "Meent.C83_torch_psi"], "note": "Proved for polar angles below float32(pi/2) on NumPy and JAX, for all angles on PyTorch, and for all azimuths and polarization angles. False for larger polar angles on NumPy and JAX: C83_negation, C83_jax_negation."},
{"property": "C84", "status": "proved", "theorems": ["Meent.C84_account", "Meent.C84_passive", "Meent.C84_lossless", "Meent.C84_torch_tetm", "Meent.C84_torch"], "note": "NumPy (use_pinv=False) and, through C50, PyTorch between lossless claddings: TE/TM directly, conical and 2D at the polarization angle pi - psi. The mean runs over the samples without the last one of each axis, which repeats the first; real illumination, any substrate for the NumPy account."},
{"property": "C85", "status": "proved", "theorems": ["Meent.C85_pattern", "Meent.C85_moved", "Meent.C85_success", "Meent.C85_anywhere", "Meent.C85_jax", "Meent.C85_torch"], "note": "use_pinv=False, objects without coinciding edges: patterns of objects inside the cell (NumPy), and rectangles moved to any place (NumPy with success; JAX when both solves return; PyTorch where C40 applies)."},
{"property": "C86", "status": "proved", "theorems": ["Meent.C86_function", "Meent.C86_resolution", "Meent.C86_edges", "Meent.C86_superposition", "Meent.C86_selection", "Meent.C86_torch", "Meent.C86_jax"], "note": "NumPy, JAX (on the structures of C57) and PyTorch (also anisotropic). The PyTorch fields are conjugated, so they pick up the opposite phase."},
{"property": "C87", "status": "proved", "theorems": ["Meent.C87_eigensolver", "Meent.C87_pixels", "Meent.C87_drawings", "Meent.C87_anywhere", "Meent.C87_jax"], "note": "Plain inverses. The moved problem and the original one are assumed to be solved; C39_success and C85_success give this. The fields of the TE/TM, conical and two-dimensional solvers are covered."},
{"property": "C88", "status": "proved", "theorems": ["Meent.C88_cut", "Meent.C88_zero"], "note": "All raster and drawn stacks, TE/TM, conical and 2D solvers, any eigensolvers; thicknesses of the two parts are nonnegative and not both zero."},
{"property": "C89", "status": "proved", "theorems": ["Meent.C89_supercell"], "note": "Rasters; TE/TM, conical and 2D solvers; same conditions on the Fourier coefficients as C81."},
{"property": "C90", "status": "proved", "theorems": ["Meent.C90_mirror"], "note": "Raster structures with continuous Fourier coefficients; TE, TM, conical and 2D. With discrete coefficients the mirrored image is also displaced by a pixel."},
{"property": "C91", "status": "proved", "theorems": ["Meent.C91_tetm", "Meent.C91_vector", "Meent.C91_eigensolver_tetm", "Meent.C91_eigensolver", "Meent.C91_cut_tetm", "Meent.C91_cut", "Meent.C91_supercell_tetm", "Meent.C91_supercell", "Meent.C91_jax_cut", "Meent.C91_jax_supercell", "Meent.C91_jax_mirror"], "note": "PyTorch under the conditions of C50; JAX for the problems it solves."},
{"property": "C92", "status": "proved", "theorems": ["Meent.C92_scale", "Meent.C92_scale_vector", "Meent.C92_jax"], "note": "Equality of the whole arrays, including exceptions. Vector structures need that no slice after the first begins at coordinate 0; C38_scale_vector_negation shows why."},
{"property": "C93", "status": "proved", "theorems": ["Meent.C93_star", "Meent.C93_star_assoc", "Meent.C93_stack", "Meent.C93_gap", "Meent.C93_cut"], "note": "All matrices, all lists of layers, exact inverses; success of the inversions is the hypothesis."},
{"property": "C94", "status": "partial", "theorems": ["Meent.C94_global_partial", "Meent.C94_global_negation"], "note": "Lists of one or two elements. Lists of three or more always fail: C94_global_negation."},
{"property": "C95", "status": "proved", "theorems": ["Meent.C95_smm_tmm", "Meent.C95_energy"], "note": "NumPy, exact inverses. Success of both computations is the hypothesis; grazing orders are excluded."},
{"property": "C96", "status": "partial", "theorems": ["Meent.C96_layer_maxwell", "Meent.C96_layer_solver", "Meent.C96_half_space_partial", "Meent.C96_half_space_negation"], "note": "Layers: complete. Half spaces: orders with wave numbers along both axes; the others violate the statement (C96_half_space_negation)."},
{"property": "C97", "status": "proved", "theorems": ["Meent.C97_unitary", "Meent.C97_passive"], "note": "Orders at grazing and incoming evanescent waves are left out: the latter carry power by interference."},
{"property": "C98", "status": "proved", "theorems": ["Meent.C98_flip", "Meent.C98_symmetric", "Meent.C98_zero"], "note": "All calls are assumed to succeed, i.e. no matrix that is inverted is singular."},
{"property": "C99", "status": "proved", "theorems": ["Meent.C99_reciprocal"], "note": "All calls are assumed to succeed, i.e. no matrix that is inverted is singular. use_pinv=False."}
]}
