{"id": "C01", "title": "Energy conservation of the 1D TE/TM solver", "statement": "For a lossless stack (real refractive indices everywhere, real incidence angle below 90 degrees) whose ucell has one row, with phi=None and pol 0 or 1, whenever conv_solve returns a result the sum of all reflected and transmitted diffraction efficiencies (sum of de_ri plus sum of de_ti) is exactly 1 in exact arithmetic.", "quantifier": "every number of layers, every thickness, period, wavelength, Fourier truncation order, every real raster pattern, both polarizations, and whatever eigenvector basis the eigensolver returns", "why_tests_cant": "tests sample a handful of gratings with a tolerance; the claim is for every pattern, order, stack depth and every eigenbasis, and a sign or branch error can hide below tolerance for the sampled ones", "anchors": ["meent/on_numpy/emsolver/transfer_method.py:transfer_1d_1..4", "meent/on_numpy/emsolver/_base.py:solve_1d", "meent/on_numpy/emsolver/rcwa.py:conv_solve"]}
{"id": "C02", "title": "Energy conservation of the conical and 2D solvers", "statement": "For a lossless stack solved by the 1D-conical or the 2D formulation with any polarization angle psi, whenever the solver returns a result, sum(de_ri)+sum(de_ti) of `res`, of `res_te_inc` and of `res_tm_inc` is exactly 1.", "quantifier": "every layer count, thickness, Fourier orders in x and y, real azimuth and incidence angle, psi, Hermitian permittivity convolution matrices, any eigenbasis", "why_tests_cant": "the s/p rotation, the 4-block linear system and the eigenproblem have many sign choices; sampled gratings cannot rule out one that leaks power elsewhere", "anchors": ["meent/on_numpy/emsolver/transfer_method.py:transfer_1d_conical_1..4", "meent/on_numpy/emsolver/transfer_method.py:transfer_2d_1..4"]}
{"id": "C03", "title": "Passivity: absorbing layers never create power", "statement": "If every layer is passive (absorption written with the documented n - ik convention) and the claddings are lossless, then the 1D solver never reports sum(de_ri)+sum(de_ti) greater than 1.", "quantifier": "every absorbing pattern, thickness, truncation order and stack depth", "why_tests_cant": "a gain/loss sign error only shows on patterns with absorption; a bound over all complex patterns cannot be sampled", "anchors": ["meent/on_numpy/emsolver/transfer_method.py:transfer_1d_2", "meent/on_numpy/emsolver/transfer_method.py:transfer_1d_3", "meent/on_numpy/modeler/modeling.py:find_nk_index"]}
{"id": "C04", "title": "Results do not depend on the eigensolver's choice of basis", "statement": "Reflection and transmission amplitudes and efficiencies are the same for every valid eigendecomposition of a layer: rescaling eigenvectors, reordering modes, or choosing another basis inside a degenerate eigenspace changes nothing. Hence different LAPACK drivers or backends agree.", "quantifier": "every layer matrix, every two valid eigendecompositions of it, every stack", "why_tests_cant": "one test run sees exactly one basis; the property quantifies over all of them", "anchors": ["meent/on_numpy/emsolver/transfer_method.py:transfer_1d_2", "meent/on_numpy/emsolver/transfer_method.py:transfer_1d_3", "meent/on_numpy/emsolver/transfer_method.py:transfer_2d_3", "meent/on_torch/emsolver/primitives.py:Eig"]}
{"id": "C05", "title": "A zero-thickness layer is invisible", "statement": "Inserting a layer of thickness 0, with any pattern, anywhere in the stack leaves every reflection and transmission amplitude unchanged.", "quantifier": "every stack, insertion position, pattern", "why_tests_cant": "quantifies over arbitrary stacks and positions", "anchors": ["meent/on_numpy/emsolver/transfer_method.py:transfer_1d_3", "meent/on_numpy/emsolver/_base.py:solve_1d"]}
{"id": "C06", "title": "Splitting a layer changes nothing", "statement": "Replacing a layer of thickness d1+d2 by two consecutive layers of the same pattern with thicknesses d1 and d2 leaves every reflection and transmission amplitude unchanged.", "quantifier": "every stack, layer, and split", "why_tests_cant": "a metamorphic relation over all real splits and patterns", "anchors": ["meent/on_numpy/emsolver/transfer_method.py:transfer_1d_3", "meent/on_numpy/emsolver/transfer_method.py:transfer_2d_3"]}
{"id": "C07", "title": "A layer made of the substrate material is invisible", "statement": "A homogeneous layer placed directly above the substrate with the same refractive index as n_bot leaves every reflected amplitude and every reflected efficiency unchanged, whatever its thickness. This should also hold for an absorbing substrate given in the n - ik convention.", "quantifier": "every n_bot, thickness, angle, rest of the stack", "why_tests_cant": "needs all thicknesses and all (complex) indices; the real-index tests that exist cannot see a wrong branch for absorbing substrates", "anchors": ["meent/on_numpy/emsolver/transfer_method.py:transfer_1d_1", "meent/on_torch/emsolver/transfer_method.py:transfer_1d_1"]}
{"id": "C08", "title": "Flat stacks reproduce Fresnel and only the specular order", "statement": "When every layer is homogeneous the solver puts all light in the zeroth order for any truncation order, and for a bare interface the zeroth-order amplitudes are the Fresnel coefficients.", "quantifier": "every fto, indices, angle", "why_tests_cant": "an analytic identity over a continuum of parameters and every truncation order", "anchors": ["meent/on_numpy/emsolver/transfer_method.py:transfer_1d_4", "meent/on_numpy/emsolver/transfer_method.py:transfer_1d_1"]}
{"id": "C09", "title": "Longitudinal wavenumbers lie on the physical branch", "statement": "For each diffraction order in a cladding, the longitudinal wavenumber satisfies kz^2 + kx^2 + ky^2 = n^2, is real and non-negative when the order propagates, and decays away from the grating when it is evanescent or the medium absorbs. NumPy/JAX and PyTorch produce the same value.", "quantifier": "every order, angle, real or n - ik index", "why_tests_cant": "branch cuts are measure-zero events that sampled inputs miss", "anchors": ["meent/on_numpy/emsolver/transfer_method.py:transfer_1d_1", "meent/on_numpy/emsolver/transfer_method.py:transfer_2d_1", "meent/on_torch/emsolver/transfer_method.py:transfer_1d_1"]}
{"id": "C10", "title": "Polarization superposition", "statement": "The amplitudes in `res` for polarization angle psi are sin(psi) times those of `res_te_inc` plus cos(psi) times those of `res_tm_inc`; in particular at pol=0 `res` equals `res_te_inc` and at pol=1 `res` equals `res_tm_inc`, for every one of R_s, R_p, T_s, T_p.", "quantifier": "every psi, stack, conical and 2D solver, NumPy and PyTorch backends", "why_tests_cant": "linear identity over all angles and all stacks; a per-field convention slip is invisible in efficiencies", "anchors": ["meent/on_numpy/emsolver/transfer_method.py:transfer_1d_conical_4", "meent/on_numpy/emsolver/transfer_method.py:transfer_2d_4", "meent/on_torch/emsolver/transfer_method.py:transfer_2d_4"]}
{"id": "C11", "title": "Efficiencies are non-negative and evanescent orders carry none", "statement": "With lossless claddings every entry of de_ri, de_ti and of their s and p parts is >= 0, is exactly 0 for an evanescent order, and de = de_s + de_p; hence with C01/C02 each entry is at most 1.", "quantifier": "every solvable stack and order", "why_tests_cant": "must hold for every order of every stack", "anchors": ["meent/on_numpy/emsolver/transfer_method.py:transfer_1d_4", "meent/on_numpy/emsolver/transfer_method.py:transfer_2d_4"]}
{"id": "C12", "title": "phi=None and phi=0 agree for 1D gratings", "statement": "For a 1D grating the dedicated TE/TM solver (phi=None) and the conical solver (phi=0) give the same diffraction efficiencies for pol=0 and pol=1.", "quantifier": "every 1D stack, truncation order, angle", "why_tests_cant": "two different code paths must agree on all inputs", "anchors": ["meent/on_numpy/emsolver/rcwa.py:_assign_grating_type", "meent/on_numpy/emsolver/transfer_method.py:transfer_1d_4", "meent/on_numpy/emsolver/transfer_method.py:transfer_1d_conical_4", "QA/1d_pattern_in_1dc_and_2d.py"]}
{"id": "C13", "title": "Conical and 2D solvers agree on 1D patterns", "statement": "For a pattern that does not vary along y, solved with no y orders, the conical and the 2D formulations give the same amplitudes and efficiencies.", "quantifier": "every such stack, angle, azimuth, psi", "why_tests_cant": "two different eigenproblems must agree on all inputs", "anchors": ["meent/on_numpy/emsolver/transfer_method.py:transfer_1d_conical_2", "meent/on_numpy/emsolver/transfer_method.py:transfer_2d_2", "QA/1d_pattern_in_1dc_and_2d.py"]}
{"id": "C14", "title": "Output arrays are indexed by diffraction order", "statement": "The result arrays have shape (2*fto_y+1, 2*fto_x+1); entry [j, i] belongs to order (i - fto_x, j - fto_y); the incident wave is injected exactly in order (0,0), in every solver, and the convolution matrices use the same flattened order.", "quantifier": "every fto_x, fto_y", "why_tests_cant": "index arithmetic for all sizes; small tests do not separate x from y", "anchors": ["meent/on_numpy/emsolver/transfer_method.py:delta_i0", "meent/on_numpy/emsolver/_base.py:get_kx_ky_vector", "meent/on_numpy/emsolver/fourier_analysis.py:dfs2d"]}
{"id": "C15", "title": "Grating equation", "statement": "The in-plane wavenumber of order (m,n) is n_top*sin(theta)*cos(phi) + m*wavelength/period_x and n_top*sin(theta)*sin(phi) + n*wavelength/period_y; the specular order's kz in the top medium is n_top*cos(theta).", "quantifier": "every real angle below 90 degrees, azimuth, period, order", "why_tests_cant": "continuum of parameters, all orders", "anchors": ["meent/on_numpy/emsolver/_base.py:get_kx_ky_vector"]}
{"id": "C16", "title": "Discrete Fourier convolution matrices hold the pattern's Fourier coefficients without aliasing", "statement": "For every raster ucell and truncation order the discrete convolution matrices are block-Toeplitz with entry (row order r, column order c) equal to the discrete Fourier coefficient of order c-r of the (pixel-repeated) permittivity, and all 4*fto+1 coefficients used are distinct entries of the transform: the automatic pixel repetition always provides enough samples, so no index wraps around or goes out of bounds.", "quantifier": "every ucell shape, fto, enhanced_dfs setting", "why_tests_cant": "boundary sizes where the repetition count is off by one are easy to miss", "anchors": ["meent/on_numpy/emsolver/convolution_matrix.py:to_conv_mat_raster_discrete", "meent/on_numpy/emsolver/fourier_analysis.py:dfs2d", "meent/on_numpy/emsolver/fourier_analysis.py:circulant"]}
{"id": "C17", "title": "Lossless patterns give Hermitian convolution matrices", "statement": "If every pixel's refractive index is real then epx_conv, epy_conv and the inverse of epz_conv are Hermitian, for both Fourier types and for vector modeling.", "quantifier": "every real pattern, order, Fourier type", "why_tests_cant": "needed for energy conservation on every input", "anchors": ["meent/on_numpy/emsolver/fourier_analysis.py:dfs2d", "meent/on_numpy/emsolver/fourier_analysis.py:cfs2d"]}
{"id": "C18", "title": "Homogeneous layers give scalar convolution matrices", "statement": "A layer whose pixels all have refractive index n gives epx_conv = epy_conv = n^2 * identity and epz_conv inverse = n^-2 * identity, for every raster size, truncation order and Fourier type.", "quantifier": "every n, raster size, order, Fourier type", "why_tests_cant": "all sizes and orders", "anchors": ["meent/on_numpy/emsolver/convolution_matrix.py:to_conv_mat_raster_discrete", "meent/on_numpy/emsolver/convolution_matrix.py:to_conv_mat_raster_continuous"]}
{"id": "C19", "title": "Continuous Fourier coefficients are the exact integrals", "statement": "For a piecewise-constant permittivity given by breakpoints and values, the continuous Fourier transform used by fourier_type=1 and by vector modeling returns exactly (1/period) * integral of f(x) exp(-2 pi i m x/period) for every order m.", "quantifier": "every list of breakpoints, values, order", "why_tests_cant": "a calculus identity over all partitions", "anchors": ["meent/on_numpy/emsolver/fourier_analysis.py:_cfs"]}
{"id": "C20", "title": "Raster refinement does not change continuous-Fourier results", "statement": "With fourier_type=1, replacing each pixel by an identical block of pixels (np.repeat along either axis) gives exactly the same convolution matrices: cell compression loses no information and depends only on the represented function.", "quantifier": "every raster, repetition factors", "why_tests_cant": "all patterns and refinements", "anchors": ["meent/on_numpy/emsolver/convolution_matrix.py:cell_compression", "meent/on_numpy/emsolver/convolution_matrix.py:to_conv_mat_raster_continuous"]}
{"id": "C21", "title": "Both Fourier types see the same geometry", "statement": "fourier_type 0 and fourier_type 1 describe the same structure in the same orientation (same Fourier coefficients up to discretisation), for every raster ucell.", "quantifier": "every 2D raster including ones without mirror symmetry", "why_tests_cant": "symmetric test patterns cannot reveal a mirrored axis", "anchors": ["meent/on_numpy/emsolver/convolution_matrix.py:cell_compression", "meent/on_numpy/emsolver/convolution_matrix.py:to_conv_mat_raster_discrete"]}
{"id": "C22", "title": "Solver dispatch follows the current settings", "statement": "Each conv_solve picks the formulation from the settings in force at that moment: 1D TE/TM iff the raster has one row, pol is exactly 0 or 1, phi is None and fto_y is 0; conical for any other one-row raster; 2D otherwise (and for vector models). No earlier assignment or solve influences the choice. When no structure has been given it raises ValueError.", "quantifier": "every history of attribute assignments and solves", "why_tests_cant": "histories are unbounded", "anchors": ["meent/on_numpy/emsolver/rcwa.py:_assign_grating_type", "meent/on_numpy/emsolver/rcwa.py:ucell", "meent/on_numpy/emsolver/rcwa.py:conv_solve", "meent/on_torch/emsolver/rcwa.py:_assign_grating_type"]}
{"id": "C23", "title": "pol and psi always describe the same polarization in range", "statement": "After any sequence of assignments to pol and psi (including rejected ones), psi = pi/2*(1-pol), and pol lies in [0,1] with out-of-range requests raising ValueError and leaving the object unchanged.", "quantifier": "every sequence of assignments", "why_tests_cant": "histories are unbounded; rejected assignments must be atomic", "anchors": ["meent/on_numpy/emsolver/_base.py:pol", "meent/on_numpy/emsolver/_base.py:psi"]}
{"id": "C24", "title": "fto, period and thickness normalisation", "statement": "fto, period and thickness accept a scalar, a one-element or (fto, period) a two-element sequence and are stored in normal form: fto as two integers with missing y order 0, a single period duplicated on both axes, thickness as a list; reading a value and assigning it back changes nothing; unsupported lengths or types raise ValueError.", "quantifier": "every input", "why_tests_cant": "input domain is open-ended", "anchors": ["meent/on_numpy/emsolver/_base.py:fto", "meent/on_numpy/emsolver/_base.py:period", "meent/on_numpy/emsolver/_base.py:thickness"]}
{"id": "C25", "title": "Backend selection", "statement": "call_mee(backend=b) returns the NumPy, JAX or PyTorch solver for b = 0, 1, 2 and raises ValueError for every other b.", "quantifier": "every b", "why_tests_cant": "all other values must be rejected", "anchors": ["meent/main.py:call_mee"]}
{"id": "C26", "title": "Solves are history independent", "statement": "The result of conv_solve depends only on the current parameter values and not on previous solves; solving twice in a row returns the same result, and calculate_field describes the most recent solve.", "quantifier": "every history of assignments and solves", "why_tests_cant": "histories are unbounded", "anchors": ["meent/on_numpy/emsolver/_base.py:solve_1d", "meent/on_numpy/emsolver/rcwa.py:conv_solve", "meent/on_numpy/emsolver/rcwa.py:calculate_field"]}
{"id": "C27", "title": "Tangential fields are continuous", "statement": "The tangential field components produced by calculate_field at the bottom sample of a layer equal those at the top sample of the next layer; at the top of the stack they equal incident plus reflected wave, at the bottom the transmitted wave.", "quantifier": "every stack, solver and interface", "why_tests_cant": "all stacks and all interfaces", "anchors": ["meent/on_numpy/emsolver/field_distribution.py:field_dist_1d", "meent/on_numpy/emsolver/field_distribution.py:field_dist_2d", "meent/on_numpy/emsolver/field_distribution.py:field_dist_1d_conical"]}
{"id": "C28", "title": "Material tables are looked up with the absorbing sign", "statement": "find_nk_index on a table returns n(wl) - i*k(wl) by linear interpolation: exact at tabulated wavelengths, between the neighbouring values in between, clamped to the end values outside; with non-negative k the imaginary part is never positive (absorption, never gain).", "quantifier": "every sorted table and wavelength", "why_tests_cant": "all tables and wavelengths", "anchors": ["meent/on_numpy/modeler/modeling.py:find_nk_index"]}
{"id": "C29", "title": "Out-of-range wavelength warning", "statement": "A lookup warns exactly when some requested wavelength lies outside the tabulated range.", "quantifier": "every table and set of wavelengths", "why_tests_cant": "iff over all inputs", "anchors": ["meent/on_numpy/modeler/modeling.py:warn_if_out_of_range"]}
{"id": "C30", "title": "Material names", "statement": "Material lookup ignores letter case; the suffix __real selects the same table and returns the real part only; an unknown name raises KeyError.", "quantifier": "every name, every spelling, every table", "why_tests_cant": "all spellings", "anchors": ["meent/on_numpy/modeler/modeling.py:find_nk_index", "meent/on_numpy/modeler/modeling.py:read_material_table"]}
{"id": "C31", "title": "Material substitution in a ucell", "statement": "put_refractive_index_in_ucell replaces every pixel holding i by the index of material i and does not depend on the position of other pixels; every pixel of the result is the index of some material in the list.", "quantifier": "every ucell and material list", "why_tests_cant": "all label patterns, including labels with no material", "anchors": ["meent/on_numpy/modeler/modeling.py:put_refractive_index_in_ucell"]}
{"id": "C32", "title": "Sellmeier evaluation", "statement": "evaluate computes n = sqrt(1 + C0 + sum B_i wl^2/(wl^2 - C_i^2)) for formula 1 and with C_i instead of C_i^2 for formula 2, independent of the order of the terms, and raises NotImplementedError for unknown formulas; find_nk_index on a formula material never returns gain.", "quantifier": "every coefficient list and wavelength", "why_tests_cant": "all coefficient lists", "anchors": ["meent/dispersion.py:formula_1", "meent/dispersion.py:formula_2", "meent/dispersion.py:evaluate"]}
{"id": "C33", "title": "Dynamic graphene specs are validated", "statement": "graphene_falkovsky accepts exactly the finite positive conditions and raises ValueError for any non-positive or non-finite one and TypeError for a non-scalar; the returned spec carries the conditions in the order the evaluator reads them.", "quantifier": "every argument tuple", "why_tests_cant": "all argument tuples", "anchors": ["meent/dispersion.py:graphene_falkovsky", "meent/dispersion.py:model_graphene_falkovsky"]}
{"id": "C34", "title": "Material file headers", "statement": "A material text file is treated as a closed-form material exactly when its header carries a coefficients line and a type starting with formula or model; otherwise it loads as a table. Header parsing stops at the first non-comment line, and the range is split at the separating dash, not at an exponent sign.", "quantifier": "every header", "why_tests_cant": "all header texts", "anchors": ["meent/dispersion.py:parse_header"]}
{"id": "C35", "title": "Vector objects paint in list order", "statement": "In vector modeling the refractive index at a point is that of the last listed object covering it, else the layer's base index. Coinciding edges may be moved by the code to keep them apart, by no more than four parts in 10^14 per object; points nearer than that to an edge are exempt unless no two edges coincide.", "quantifier": "every layer description", "why_tests_cant": "arbitrary overlaps and shared edges", "anchors": ["meent/on_numpy/modeler/modeling.py:vector_per_layer_numeric", "meent/on_numpy/modeler/modeling.py:draw"]}
{"id": "C36", "title": "Vector grid lines are sorted and end at the period", "statement": "The grid produced for a vector layer is a strictly increasing list of cell edges ending at the period, one more than the interior edges, with the cell matrix of matching size.", "quantifier": "every layer description inside the period", "why_tests_cant": "shared edges between many objects", "anchors": ["meent/on_numpy/modeler/modeling.py:vector_per_layer_numeric"]}
{"id": "C37", "title": "Rotated rectangles are sliced completely", "statement": "The slices produced for a rotated rectangle cover its full vertical extent without gaps for every choice of the two split counts.", "quantifier": "every rectangle, angle, pair of split counts", "why_tests_cant": "split counts that differ are never exercised by the defaults", "anchors": ["meent/on_numpy/modeler/modeling.py:rectangle"]}
{"id": "C38", "title": "Scale invariance", "statement": "Multiplying wavelength, both periods and all thicknesses by the same positive factor leaves every amplitude and efficiency unchanged.", "quantifier": "every configuration and factor", "why_tests_cant": "a continuum of factors", "anchors": ["meent/on_numpy/emsolver/_base.py:get_kx_ky_vector", "meent/on_numpy/emsolver/_base.py:solve_1d"]}
{"id": "C39", "title": "Lateral translation invariance", "statement": "Circularly shifting every layer's raster by the same number of pixels leaves all diffraction efficiencies unchanged.", "quantifier": "every stack, shift, order", "why_tests_cant": "all shifts and patterns", "anchors": ["meent/on_numpy/emsolver/fourier_analysis.py:dfs2d", "meent/on_numpy/emsolver/transfer_method.py:transfer_1d_4"]}
{"id": "C40", "title": "NumPy and PyTorch report the same efficiencies", "statement": "For the same inputs the NumPy and PyTorch backends report identical diffraction efficiencies in every solver; their amplitude conventions differ only by conjugation, per-order signs of modulus one and fixed factors.", "quantifier": "every input, including absorbing substrates and orders with kx = 0", "why_tests_cant": "two code bases must agree on all inputs", "anchors": ["meent/on_torch/emsolver/transfer_method.py:transfer_1d_4", "meent/on_torch/emsolver/transfer_method.py:transfer_2d_4", "meent/on_torch/emsolver/transfer_method.py:branch_sign"]}
{"id": "C41", "title": "use_pinv only matters for singular matrices", "statement": "With use_pinv=True a solve whose matrices are all invertible returns exactly what use_pinv=False returns.", "quantifier": "every such configuration", "why_tests_cant": "all configurations", "anchors": ["meent/on_numpy/emsolver/primitives.py:meeinv"]}
{"id": "C42", "title": "Layer count mismatch", "statement": "A solve uses exactly one pattern per thickness entry: a ucell with a different number of layers than thickness entries is rejected rather than silently truncated.", "quantifier": "every pair of lengths", "why_tests_cant": "all pairs of lengths", "anchors": ["meent/on_numpy/emsolver/_base.py:solve_1d", "meent/on_numpy/emsolver/_base.py:solve_2d"]}
{"id": "C43", "title": "Gradient of the matrix inverse", "statement": "The backward pass of the PyTorch pseudo-inverse is the exact vector-Jacobian product of matrix inversion at invertible matrices.", "quantifier": "every invertible matrix and cotangent", "why_tests_cant": "finite-difference tests only sample", "anchors": ["meent/on_torch/emsolver/primitives.py:RobustPinv"]}
{"id": "C44", "title": "list_materials agrees with the lookup", "statement": "list_materials lists, in alphabetical order and without repetition, exactly the names for which there is a material file; every listed name can be looked up, and the lookup warns exactly when a wavelength lies outside the listed range.", "quantifier": "every set of material files", "why_tests_cant": "The shipped tables are one set of files; users add their own, with names that collide up to letter case, headers that are closed forms, and unsorted rows.", "anchors": ["meent/on_numpy/modeler/modeling.py:list_materials", "meent/on_numpy/modeler/modeling.py:read_material_table", "meent/on_numpy/modeler/modeling.py:warn_if_out_of_range"]}
{"id": "C45", "title": "Slices of a rotated rectangle are chords of it", "statement": "Every slice produced for a rotated rectangle is the right way up and spans exactly what the rectangle contains at the middle height of the slice; no slice lies outside the rectangle.", "quantifier": "every rectangle, angle, pair of split counts", "why_tests_cant": "four quadrants and two corner orders per quadrant, with arbitrary split counts", "anchors": ["meent/on_numpy/modeler/modeling.py:rectangle"]}
{"id": "C46", "title": "Gradients through the PyTorch eigen-decomposition are right up to the stated broadening", "statement": "For a diagonalisable matrix, the backward pass of the PyTorch backend's eigen-decomposition returns the exact gradient for every loss that depends on the eigenvalues alone. For a loss that also depends on the eigenvectors, provided the loss does not change when eigenvectors are rescaled and the eigenvalues are distinct, the returned gradient differs from the exact one by no more than the broadening parameter times a sum of terms divided by the cubed eigenvalue gaps, and it is exact when the broadening is zero.", "quantifier": "every matrix size, every matrix with a full set of eigenvectors (distinct eigenvalues for the second part), every incoming gradient, every broadening value", "why_tests_cant": "A finite-difference test compares one matrix at one tolerance; the error bound and the dependence on the eigenvector normalisation hold or fail over a continuum of matrices and gradients.", "anchors": ["meent/on_torch/emsolver/primitives.py:Eig.forward", "meent/on_torch/emsolver/primitives.py:Eig.backward"]}
{"id": "C47", "title": "Passivity of the conical and 2D solvers", "statement": "If every layer is passive (n - ik with n, k >= 0) and the claddings are lossless, then the conical and the 2D solver never report a total efficiency greater than 1, neither in res nor in res_te_inc or res_tm_inc.", "quantifier": "every absorbing pattern, raster or vector, both Fourier analyses, every thickness, truncation order, azimuth, polarization and stack depth", "why_tests_cant": "a gain/loss sign error or a wrong factorisation rule only shows on some absorbing patterns; a bound over all complex patterns cannot be sampled", "anchors": ["meent/on_numpy/emsolver/transfer_method.py:transfer_2d_2", "meent/on_numpy/emsolver/transfer_method.py:transfer_2d_3", "meent/on_numpy/emsolver/transfer_method.py:transfer_1d_conical_2", "meent/on_numpy/emsolver/convolution_matrix.py"]}
{"id": "C48", "title": "The reported fields satisfy Maxwell's equations", "statement": "The field arrays returned by conv_solve_field are samples of a field that satisfies Maxwell's equations (for the retained diffraction orders) at every depth of every layer, is continuous in its tangential components across every interface, and coincides with the incident plus reported reflected waves above the stack and with the reported transmitted waves below it.", "quantifier": "every structure (raster, vector), incidence, polarization, truncation order, number and thickness of layers, sampling grid and selection of inputs, in the TE/TM, conical and 2D formulations", "why_tests_cant": "Tests compare fields with stored arrays at a few samples; the differential equations must hold at every depth for every structure and truncation.", "anchors": ["meent/on_numpy/emsolver/field_distribution.py: field_dist_1d, field_dist_1d_conical, field_dist_2d", "meent/on_numpy/emsolver/transfer_method.py: transfer_1d_2, transfer_1d_conical_2, transfer_2d_2", "meent/on_numpy/emsolver/rcwa.py: conv_solve_field"]}
{"id": "C49", "title": "The reported amplitudes are the one solution of the diffraction problem", "statement": "Whenever a solve succeeds, the reported reflected and transmitted amplitudes are exactly those for which Maxwell's equations in the stack (for the retained orders) have a solution that is continuous and matches the incident wave and these outgoing amplitudes: a solution exists for the reported amplitudes and for no others.", "quantifier": "every structure, incidence, polarization, truncation order and stack, in the TE/TM, conical and 2D formulations", "why_tests_cant": "Uniqueness quantifies over all fields and all amplitude vectors; tests only compare two numerical answers on chosen structures.", "anchors": ["meent/on_numpy/emsolver/_base.py: solve_1d, solve_1d_conical, solve_2d", "meent/on_numpy/emsolver/transfer_method.py", "meent/on_numpy/emsolver/rcwa.py: conv_solve"]}
{"id": "C50", "title": "The PyTorch and NumPy backends return the same fields", "statement": "For equal settings with lossless claddings, `conv_solve_field` of the PyTorch backend succeeds whenever that of the NumPy backend does, and the samples describe the same field: every sample is the complex conjugate of NumPy's with the y axis reversed (Ey, Hx, Hz change sign), times one global factor that depends only on the incident wave (-1 for TE, 1 for TM). At a mixed polarization angle psi the same holds against NumPy at pi - psi.", "quantifier": "every structure, incidence, truncation order, stack, resolution and selection of incident waves, in the TE/TM, conical and 2D solvers", "why_tests_cant": "The sign and conjugation conventions must hold for each component, layer and incidence; the repository's tests compare chosen structures with tabulated fields, and a wrong sign in one component shows only for incidences where that component does not vanish.", "anchors": ["meent/on_torch/emsolver/rcwa.py: calculate_field, conv_solve_field", "meent/on_torch/emsolver/field_distribution.py", "meent/on_numpy/emsolver/rcwa.py: conv_solve_field"]}
{"id": "C51", "title": "Specular reflection is reciprocal", "statement": "Reversing the light path of the specularly reflected wave, i.e. solving with -theta instead of theta, leaves the specular (order 0, 0) reflection unchanged, for asymmetric and absorbing structures alike: in TE/TM solves the amplitudes and efficiencies are equal; in conical and 2D solves the s-to-s and p-to-p amplitudes and efficiencies are equal, and the s-to-p reflection of one solve is the p-to-s reflection of the other (with the p amplitudes normalised to the magnetic field).", "quantifier": "every structure (raster or vector, lossy or not), stack, substrate, real angle, azimuth and polarization, truncation order, and any two valid eigendecompositions", "why_tests_cant": "Reciprocity relates two different runs for every structure; sampled structures are often symmetric or lossless, where the relation holds for other reasons.", "anchors": ["meent/on_numpy/emsolver/rcwa.py: conv_solve", "meent/on_numpy/emsolver/_base.py: get_kx_ky_vector, solve_1d, solve_1d_conical, solve_2d", "meent/on_numpy/emsolver/convolution_matrix.py", "meent/on_numpy/emsolver/transfer_method.py"]}
{"id": "C52", "title": "Normal incidence", "statement": "Setting theta to 0 is solved as incidence under the perturbation angle, so that every order has a direction and the conical and 2D solvers return numbers and not NaN; an order that leaves exactly along the surface normal must not spoil the result either.", "quantifier": "every structure, period, wavelength, azimuth and polarization", "why_tests_cant": "whether an order hits the normal exactly depends on every combination of angle, period and wavelength", "anchors": ["meent/on_numpy/emsolver/_base.py:theta", "meent/on_numpy/emsolver/_base.py:get_kx_ky_vector", "meent/on_numpy/emsolver/transfer_method.py:transfer_1d_conical_1", "meent/on_numpy/emsolver/transfer_method.py:transfer_2d_1"]}
{"id": "C53", "title": "Direct transmission is reciprocal", "statement": "Turning the stack upside down (layers, thicknesses and claddings exchanged) and sending the light back along the directly transmitted wave gives the same direct (order 0, 0) transmission, for asymmetric and absorbing structures alike: the direct transmittances are equal, and the amplitudes are equal up to the ratio of the longitudinal wavenumbers of the two claddings; in conical and 2D solves s-to-s and p-to-p agree, and s-to-p one way is p-to-s the other way.", "quantifier": "every structure (raster or vector, lossy or not) between lossless claddings, stack, real angle obeying Snell's law, azimuth and polarization, truncation order, and any two valid eigendecompositions", "why_tests_cant": "Relates two different runs with different claddings for every structure; sampled structures are often symmetric or lossless, where the relation holds for other reasons.", "anchors": ["meent/on_numpy/emsolver/rcwa.py: conv_solve", "meent/on_numpy/emsolver/_base.py: get_kx_ky_vector, solve_1d, solve_1d_conical, solve_2d", "meent/on_numpy/emsolver/convolution_matrix.py", "meent/on_numpy/emsolver/transfer_method.py"]}
{"id": "C54", "title": "A mirrored problem has the mirrored diffraction pattern", "statement": "Mirroring every layer's raster along x, along y or along both, together with the direction of incidence, mirrors the diffraction orders and changes no efficiency: order (m, n) of the mirrored problem carries what order (-m or m, -n or n) carried before, for TE and for TM light, and for any polarization angle if that is mirrored too. In particular a structure that is its own mirror image up to a translation, lit from a direction that is its own mirror image, gives equal efficiencies at mirrored orders.", "quantifier": "every raster structure (lossy or not), axis or axes, stack of layers, claddings, real angle, azimuth and polarization, period, truncation order, either discrete or continuous Fourier type for which the solve is defined, and any two valid eigendecompositions", "why_tests_cant": "Relates two different runs for every structure, truncation and solver; on the symmetric structures tests usually use, an error in the sign of an order or in the polarization after mirroring cannot be seen.", "anchors": ["meent/on_numpy/emsolver/rcwa.py: conv_solve", "meent/on_numpy/emsolver/fourier_analysis.py: dfs2d, cfs2d", "meent/on_numpy/emsolver/convolution_matrix.py: to_conv_mat_raster_discrete, to_conv_mat_raster_continuous", "meent/on_numpy/emsolver/_base.py: get_kx_ky_vector, solve_1d, solve_1d_conical, solve_2d", "meent/on_numpy/emsolver/transfer_method.py"]}
{"id": "C55", "title": "The convolution matrices of ordinary media exist", "statement": "For a structure made of transparent and absorbing media (n > 0 and k >= 0, in any mixture) computing the convolution matrices never raises LinAlgError: every matrix that the factorization rules invert is invertible, and one set of matrices per layer comes back. The same holds for any media whose permittivities lie, layer by layer, strictly on one side of a line through 0. Ideal metals (n = 0) next to transparent media are the exception.", "quantifier": "every raster structure of any resolution with either Fourier type (discrete with or without enhancement, continuous), every vector structure that can be drawn on ascending grid lines, every stack, period and pair of truncation orders", "why_tests_cant": "Whether a matrix of a given structure and truncation order is singular depends on all permittivities and sizes together; tests only ever see matrices that happen to be invertible.", "anchors": ["meent/on_numpy/emsolver/fourier_analysis.py: dfs2d, cfs2d", "meent/on_numpy/emsolver/convolution_matrix.py: to_conv_mat_raster_discrete, to_conv_mat_raster_continuous, to_conv_mat_vector", "meent/on_numpy/emsolver/rcwa.py: conv_solve"]}
{"id": "C56", "title": "Absorbing structures can always be solved, unless a layer has no basis of modes", "statement": "Take layers of transparent and absorbing media, each absorbing somewhere, of positive thickness, on a lossless substrate, under real illumination. Then conv_solve raises an error only if the mode problem of some layer has no basis of eigenvectors. None of the matrices that the solvers invert on the way from the substrate to the top can be singular for another reason. In particular 1D TE gratings whose absorption (imaginary part of the permittivity) is constant in each layer, and stacks of uniform absorbing films, can always be solved at every number of orders. Without absorption this fails: a transparent film with an order tuned to one of its guided modes raises LinAlgError.", "quantifier": "every such raster or vector structure, wavelength, angles, thicknesses, polarization, number of layers and of orders, in the 1D, conical and 2D formulations, and every eigensolver that returns a basis when there is one", "why_tests_cant": "Singular matrices occur on a set of measure zero of parameters; a test that passes says nothing about other wavelengths, angles or thicknesses, and a scan never shows that no failing point exists.", "anchors": ["meent/on_numpy/emsolver/_base.py:solve_1d, solve_1d_conical, solve_2d", "meent/on_numpy/emsolver/transfer_method.py:transfer_1d_2, transfer_1d_3, transfer_1d_4, transfer_1d_conical_2, transfer_1d_conical_3, transfer_2d_2, transfer_2d_3, transfer_2d_4", "meent/on_numpy/emsolver/primitives.py:meeinv"]}
{"id": "C57", "title": "The JAX and the NumPy backend return the same results", "statement": "Given the same settings, the JAX backend returns a result exactly when the NumPy backend does, and the amplitudes, efficiencies and fields are the same, also when the two backends use different eigensolvers. The claim fails in three places: JAX ignores use_pinv for the discrete transform of pixel structures, JAX does not report more thicknesses than layers, and the JAX call that solves and computes fields at once always raises.", "quantifier": "all settings: structure (raster or vector), Fourier type, thicknesses, angles, polarization, truncation orders, use_pinv; all eigensolvers; all behaviours of out-of-range reads", "why_tests_cant": "A comparison of two backends on sample inputs says nothing about other inputs, and the failing cases (singular matrices, too many thicknesses) are not in the samples.", "anchors": ["meent/on_jax/emsolver/rcwa.py:conv_solve, solve_for_conv, calculate_field, conv_solve_field_no_jit", "meent/on_jax/emsolver/convolution_matrix.py:to_conv_mat_raster_discrete, to_conv_mat_raster_continuous, to_conv_mat_vector", "meent/on_jax/emsolver/transfer_method.py", "meent/on_jax/emsolver/_base.py:solve_1d, solve_1d_conical, solve_2d", "meent/on_jax/emsolver/primitives.py:meeinv", "meent/on_numpy/emsolver/rcwa.py:conv_solve"]}
{"id": "C58", "title": "A JAX solver survives being passed through a JAX transformation", "statement": "MeeJax is registered as a pytree, so jit, grad and vmap take it apart and put it together again. After any history, the rebuilt solver has the same parameters, and conv_solve on it returns the same result or raises the same exception. The claim fails in two places: use_pinv is not handed on, and a solver whose psi is outside its range cannot be rebuilt.", "quantifier": "all constructor arguments, all sequences of assignments and solves, all eigensolvers", "why_tests_cant": "The round trip has to preserve every attribute after every history; a sample history leaves the remaining attributes at their defaults, which is exactly where a lost attribute goes unnoticed.", "anchors": ["meent/on_jax/mee.py:_tree_flatten, _tree_unflatten", "meent/on_jax/__init__.py", "meent/on_jax/emsolver/_base.py:pol, psi, theta, fto, period, thickness", "meent/on_jax/emsolver/rcwa.py:__init__, ucell, conv_solve"]}
{"id": "C59", "title": "Parameters passed to conv_solve are the ones that are solved", "statement": "conv_solve(**kwargs) solves the problem in which the named parameters are replaced: its outcome is that of a solver constructed with the replaced parameters. The replacement stays in force for later calls. JAX does this. NumPy accepts the arguments and ignores them.", "quantifier": "all constructor arguments, all lists of keyword arguments naming constructor parameters with accepted values, all eigensolvers", "why_tests_cant": "The order in which the constructor and the call assign interdependent parameters (pol, psi, theta, perturbation) matters for some combinations only.", "anchors": ["meent/on_jax/emsolver/rcwa.py:conv_solve", "meent/on_numpy/emsolver/rcwa.py:conv_solve"]}
{"id": "C60", "title": "The gradients of the JAX backend are gradients", "statement": "Along every differentiable curve of matrices, the hand-written derivative rule of eig returns the gradient of the loss in JAX's convention: exactly for losses of the eigenvalues, and up to an explicit multiple of the perturbation for losses that also depend on the eigenvectors but not on their normalisation. The direction that fit hands to the optimizer is the one against which the loss decreases fastest.", "quantifier": "all matrix sizes, curves, differentiable real losses, perturbations; real and complex matrices; all parameter arrays", "why_tests_cant": "A finite-difference test checks one matrix, one loss and one direction, and the conjugation conventions agree for real data.", "anchors": ["meent/on_jax/emsolver/primitives.py:eig_fwd, eig_bwd", "meent/on_jax/optimizer/optimizer.py:fit, _grad"]}
{"id": "C61", "title": "Gratings of transparent and absorbing layers can be solved when light can leave or is absorbed below", "statement": "A grating whose layers are made of transparent and absorbing media, in any order, on a lossless substrate, with some absorption in the lowest layer or with every order that is kept propagating in the substrate, calculated with an eigensolver that returns a basis of eigenvectors whenever there is one. In 1D TE and TM conv_solve succeeds exactly if every layer that is used has a basis of modes and no mode at cut-off. In the conical formulation it succeeds exactly if every layer has a basis of modes and none of four matrices is singular: two of them are singular at cut-off, and two of them where the grating without the wave vector along its lines would be at cut-off, so that some films fail there that the 2D formulation solves. In the 2D formulation success implies modes and no cut-off, and modes, no cut-off and no backward waves imply success. Transparent layers always have a basis of modes in 1D and conical calculations; layers that absorb somewhere are never at cut-off and never have backward waves. No order of a conical or 2D calculation is along the surface normal.", "quantifier": "all numbers of layers and orders, indices, thicknesses, angles of incidence and azimuths, the three formulations, eigensolvers that return a basis", "why_tests_cant": "A failure is a singular matrix somewhere inside the recursion over the layers; no sample of gratings shows that the interaction of layers cannot produce one.", "anchors": ["meent/on_numpy/emsolver/_base.py:solve_1d,solve_1d_conical,solve_2d", "meent/on_numpy/emsolver/transfer_method.py:transfer_1d_1,transfer_1d_2,transfer_1d_3,transfer_1d_4,transfer_1d_conical_1,transfer_1d_conical_2,transfer_1d_conical_3,transfer_1d_conical_4,transfer_2d_1,transfer_2d_2,transfer_2d_3,transfer_2d_4", "meent/on_numpy/emsolver/rcwa.py:conv_solve"]}
{"id": "C62", "title": "On PyTorch the reported powers account for all light that the layers do not absorb, on absorbing substrates too", "statement": "On the PyTorch backend a grating on an absorbing substrate is solved under the conditions of C61; the reflected and transmitted efficiencies add up to at most 1, and to exactly 1 if no layer absorbs, because power that enters the substrate counts as transmitted. This holds for 1D gratings in TE and TM. It fails for conical and 2D calculations: p-polarised light that meets an absorbing substrate at an angle is under-reported.", "quantifier": "all 1D gratings of transparent and absorbing layers, absorbing substrates, angles, numbers of orders, eigensolvers that return a basis", "why_tests_cant": "The sum must hold for every structure; the shipped examples use lossless substrates, where both formulas for the transmitted power agree.", "anchors": ["meent/on_torch/emsolver/transfer_method.py:transfer_1d_4,transfer_2d_4", "meent/on_torch/emsolver/_base.py:solve_1d,solve_2d", "meent/on_torch/emsolver/rcwa.py:conv_solve"]}
{"id": "C63", "title": "A PyTorch solver object's results depend on its current parameters only", "statement": "Whenever conv_solve of a PyTorch solver object returns, it returns the solve of the parameter values that can be read on the object. Two objects that reached the same values on different histories of assignments, solves and field calls get the same outcome, equal results or the same exception; a second solve repeats the first; keyword arguments of conv_solve and conv_solve_field have the effect of passing them to the constructor; and fields returned together with a result belong to the same parameters. An assignment that raises should change nothing.", "quantifier": "all constructor arguments and all finite histories of attribute assignments (valid or rejected), solves and field calls, for every linear algebra back end", "why_tests_cant": "The object keeps derived state between calls; a stale value shows only after particular sequences of calls, of which there are infinitely many.", "anchors": ["meent/on_torch/emsolver/_base.py:_BaseRCWA", "meent/on_torch/emsolver/rcwa.py:RCWATorch.conv_solve,conv_solve_field,calculate_field", "meent/on_torch/mee.py:MeeTorch.__init__", "meent/on_torch/modeler/modeling.py:ModelingTorch.__init__"]}
{"id": "C64", "title": "The three constructors accept the same keyword arguments and set the same attributes", "statement": "Called with the same keyword arguments, the NumPy, JAX and PyTorch constructors accept the same calls and construct objects whose attributes have the same values, for the defaults as well.", "quantifier": "all combinations of keyword arguments, of every accepted Python type", "why_tests_cant": "The constructors are three separate pieces of code that normalise each argument with type tests; agreement has to hold for every combination of argument types.", "anchors": ["meent/on_numpy/mee.py:MeeNumpy.__init__", "meent/on_jax/mee.py:MeeJax.__init__", "meent/on_torch/mee.py:MeeTorch.__init__", "meent/on_torch/emsolver/_base.py:_BaseRCWA.__init__", "meent/on_torch/modeler/modeling.py:ModelingTorch.__init__"]}
{"id": "C65", "title": "A script gives the same results with every backend", "statement": "Take a script that constructs a solver, assigns attributes (some of which may be rejected), solves and asks for fields in any order. Run with the NumPy, JAX and PyTorch backends it leaves objects with the same attribute values, and if the solve at the end returns with NumPy, then with JAX it returns the same result, and with PyTorch, between transparent claddings, one with the same efficiencies.", "quantifier": "all scripts of any length, all parameter values, all structures", "why_tests_cant": "Backends are compared in tests on fresh objects with fixed parameters; agreement after every sequence of assignments and solves cannot be enumerated.", "anchors": ["meent/main.py:call_mee", "meent/on_numpy/emsolver/rcwa.py:conv_solve", "meent/on_jax/emsolver/rcwa.py:conv_solve", "meent/on_torch/emsolver/rcwa.py:conv_solve"]}
{"id": "C66", "title": "An ellipse instruction draws the ellipse", "statement": "The boxes that an ellipse instruction contributes to a layer are strips: each is the box of two points of the contour and has the given refractive index, they follow one another from the highest to the lowest sampled point without gap or overlap, and with more samples their total area tends to the area of the ellipse. This should hold for every number of samples the call accepts, including the default.", "quantifier": "all centres, axes, rotation angles, indices and numbers of samples", "why_tests_cant": "Which points are chosen, and in which order, depends on the angle and the number of samples; an area in the limit of many samples is out of reach of any finite test.", "anchors": ["meent/on_numpy/modeler/modeling.py:ellipse", "meent/on_jax/modeler/modeling.py:ellipse", "meent/on_torch/modeler/modeling.py:ellipse"]}
{"id": "C67", "title": "Results depend smoothly on the design", "statement": "Varying the pixels and the thicknesses of a solvable raster design a little changes the amplitudes and efficiencies smoothly: they have derivatives of every order, also where eigenvalues cross and the eigenvectors returned by the eigenvalue routine jump. If a structure of any kind can be solved with some thicknesses, it can be solved with all nearby ones.", "quantifier": "all settings with use_pinv=False, all raster designs that can be solved (any number of layers, pixels and thicknesses), all directions of change, all eigenvalue routines; thicknesses also of vector structures", "why_tests_cant": "Smoothness is a statement about limits at every point. The intermediate matrices are not even continuous, because an eigenvalue routine may reorder or rescale its eigenvectors, so a finite-difference check at some designs says nothing about designs with coinciding eigenvalues, where optimisers nevertheless pass.", "anchors": ["meent/on_numpy/emsolver/rcwa.py: conv_solve", "meent/on_numpy/emsolver/_base.py: solve_1d, solve_1d_conical, solve_2d", "meent/on_numpy/emsolver/transfer_method.py", "meent/on_numpy/emsolver/convolution_matrix.py"]}
{"id": "C68", "title": "Gradients and training runs of the optimizers", "statement": "grad returns the derivative of the loss at the present parameter values, leaves the object as it was and gives the same answer when called again. fit with n iterations performs n updates of a fresh optimizer, each with the derivative at the values reached so far, and stores and returns the final values; nothing left over from earlier calls matters. Both backends reach the same values with the same optimizer, and running fit twice continues the training. Asking for an attribute that does not exist raises AttributeError.", "quantifier": "all losses and solver behaviours, all optimizers (any state, any update rule), all sets of parameters, all numbers of iterations, all earlier histories of the object", "why_tests_cant": "A test runs one optimizer on one loss. Left-over gradients and optimizer states only show in particular sequences of calls, and the claim is about every sequence, every optimizer and every number of iterations.", "anchors": ["meent/on_torch/optimizer/optimizer.py: OptimizerTorch.grad, fit, meent_optimizer", "meent/on_jax/optimizer/optimizer.py: OptimizerJax.grad, _grad, fit"]}
{"id": "C69", "title": "Energy laws on JAX and PyTorch, also for anisotropic pixels", "statement": "The power laws do not depend on the backend: whenever the JAX or the PyTorch backend solves a lossless structure, the efficiencies of every reported dictionary add up to one, and without gain to at most one. This also holds for the anisotropic rasters that only PyTorch accepts. Anisotropic absorbing structures can be solved. A raster given with three equal components is solved like the isotropic raster; a TE result depends only on the component along the grooves, a TM result only on the other two.", "quantifier": "all structures (raster or vector, isotropic on JAX and PyTorch, anisotropic rasters on PyTorch), numbers of orders, layers, thicknesses, angles, polarizations and eigensolvers", "why_tests_cant": "A test compares a few structures on a few backends, to within rounding. The claim is about every structure, and for anisotropic pixels there is no second backend to compare with.", "anchors": ["meent/on_torch/emsolver/rcwa.py: RCWATorch.conv_solve, _assign_grating_type", "meent/on_torch/emsolver/convolution_matrix.py: to_conv_mat_raster_discrete, to_conv_mat_raster_continuous", "meent/on_torch/emsolver/transfer_method.py: transfer_1d_2, transfer_2d_2", "meent/on_jax/emsolver/rcwa.py: RCWAJax.conv_solve"]}
{"id": "C70", "title": "On PyTorch a layer of an absorbing substrate material is invisible", "statement": "On the PyTorch backend, putting one more layer of the substrate material directly above an absorbing substrate changes no reflected amplitude and no reflected efficiency, whatever the thickness of the layer; and if the structure above does not absorb, the transmitted power can only go down.", "quantifier": "all 1D gratings of transparent and absorbing layers in TE and TM on an absorbing substrate, at all numbers of orders, angles, thicknesses and basis-returning eigensolvers", "why_tests_cant": "The claim is about every structure, every substrate index and every thickness, and the NumPy and JAX backends violate it, so comparing backends does not settle it.", "anchors": ["meent/on_torch/emsolver/_base.py: solve_1d", "meent/on_torch/emsolver/transfer_method.py: transfer_1d_1, transfer_1d_2, transfer_1d_3, transfer_1d_4", "meent/on_torch/emsolver/rcwa.py: RCWATorch.conv_solve"]}
{"id": "C71", "title": "Vector shapes with indices of three components", "statement": "On the PyTorch backend, vector layers whose base and shapes have indices with three components are drawn component by component: at every point away from the edges the layer holds the index triple of the last listed shape covering the point, or the base triple. A plain number means three equal components, and layers with plain numbers only are solved exactly as isotropic layers. Reported efficiencies add up to one for real indices and to at most one for indices without gain, in whatever components, unless a singular matrix makes the backend fall back on a pseudo-inverse; if every component absorbs nothing is singular.", "quantifier": "all periods, lists of layers, rectangles and ellipses at any angle, scalar and three-component indices in any mixture, truncation orders, angles, polarizations and thicknesses", "why_tests_cant": "The shapes, their order, the mixture of scalar and vector indices and the optical parameters form an unbounded space; the claims hold for all of them.", "anchors": ["meent/on_torch/modeler/modeling.py: _is_vector_index, _to_index_vector, vector_per_layer_numeric, draw, modeling_vector_instruction", "meent/on_torch/emsolver/convolution_matrix.py: to_conv_mat_vector", "meent/on_torch/emsolver/rcwa.py: RCWATorch.conv_solve"]}
{"id": "C72", "title": "Symmetries of the physics on JAX and PyTorch", "statement": "The efficiencies reported by the JAX and PyTorch backends obey the same symmetries as those of NumPy: they do not change when all layers are shifted by the same number of pixels or when all lengths are multiplied by the same factor; the specular reflection is the same for light from the opposite side and the direct transmission is the same along the same path from below (s to p one way equal to p to s the other way); the mirrored structure under mirrored illumination has the mirrored diffraction pattern. On JAX this holds whenever both solves succeed; on PyTorch, between lossless claddings, whenever the problem can be solved without falling back on a pseudo-inverse or replacing a tiny eigenvalue.", "quantifier": "all raster structures (for reciprocity also vector structures), truncation orders, angles, polarizations, thicknesses, shifts, scale factors, mirror axes and eigensolvers", "why_tests_cant": "Each law relates two solves and must hold for all structures and illuminations at once; the two backends use other sign conventions, other inverses and other dispatch rules than NumPy, any of which could break a law in some corner only.", "anchors": ["meent/on_jax/emsolver/rcwa.py: RCWAJax.conv_solve", "meent/on_torch/emsolver/rcwa.py: RCWATorch.conv_solve", "meent/on_jax/emsolver/transfer_method.py", "meent/on_torch/emsolver/transfer_method.py"]}
{"id": "C73", "title": "Planar multilayers obey the thin-film formula", "statement": "When every layer of the structure is homogeneous, the reported amplitudes and efficiencies are those of the characteristic-matrix (Abeles) formula of thin-film optics, for TE, TM and any mixed polarization and any direction of incidence, and every diffraction order other than the zeroth is dark. The number of retained orders, the formulation, and the way the layers are given (raster or shapes) make no difference. The efficiencies agree on NumPy, JAX and PyTorch.", "quantifier": "every number of homogeneous layers of any complex nonzero index and any thickness (no grazing wave inside a film), lossless claddings, every angle of incidence, azimuth, polarization, wavelength, period and truncation order, every eigensolver, whenever the solve succeeds; absorbing films: always", "why_tests_cant": "A test compares a few stacks with the formula; it cannot cover all numbers of films, indices, angles, truncation orders and formulations, nor evanescent waves inside films.", "anchors": ["meent/on_numpy/emsolver/transfer_method.py: transfer_1d_1..4, transfer_2d_1..4, transfer_1d_conical_*", "meent/on_numpy/emsolver/_base.py: solve_1d, solve_1d_conical, solve_2d", "meent/on_numpy/emsolver/rcwa.py: RCWANumpy.conv_solve", "meent/on_jax/emsolver/rcwa.py: RCWAJax.conv_solve", "meent/on_torch/emsolver/rcwa.py: RCWATorch.conv_solve"]}
{"id": "C74", "title": "R + T tells loss from gain", "statement": "For layers of arbitrary patterns between lossless half-spaces, the sum of all reflected and transmitted efficiencies of every reported dictionary is at most one if every refractive index is n - ik with n, k >= 0, and less than one if moreover some layer of positive thickness contains an absorbing medium; it is at least one if every index is n + ik with n, k >= 0, and more than one if moreover some layer of positive thickness contains an amplifying medium. So a sum above one is proof that some index was entered with the wrong sign, and entering an absorbing structure with the wrong sign always shows (nk_data/README.md, Sign convention). The same holds on JAX and PyTorch. The README also says that the transmission through a slab of wrong sign grows with its thickness.", "quantifier": "every raster or vector structure with media of one sign, any number of layers, orders and thicknesses, any direction and polarization of the light, every successful solve on the three backends", "why_tests_cant": "A test samples a few structures and tolerances; that the sum never crosses one, and that wrong signs always show, is a claim about every structure, truncation and eigensolver answer.", "anchors": ["meent/nk_data/README.md", "meent/on_numpy/emsolver/rcwa.py:conv_solve", "meent/on_numpy/emsolver/transfer_method.py", "meent/on_jax/emsolver/rcwa.py:conv_solve", "meent/on_torch/emsolver/rcwa.py:conv_solve"]}
{"id": "C75", "title": "Material data decide loss and gain", "statement": "A ucell of labels filled with put_refractive_index_in_ucell and solved between lossless half-spaces: if every material is a number n - ik with n, k >= 0, a closed form that absorbs or is transparent, or a name that stands for one or for tabulated rows with n, k >= 0 in ascending order, then the efficiencies add up to at most one, and to less than one if a pixel in a layer of positive thickness is labelled with an absorbing material. If every material is clear (a real number, a Sellmeier fit, or a name with the suffix __real, whatever its k), they add up to one. If rows are stored with k <= 0, as 'Adding a material' in nk_data/README.md advises, they add up to at least one, and to more than one as soon as an amplifying material is labelled. The same on JAX and PyTorch. Materials shipped with meent do not amplify.", "quantifier": "every label array, material list, material table, wavelength, and every problem that is solved, on the three backends", "why_tests_cant": "Tests look up a few materials and solve a few structures; the claim is about every table, every label pattern and every solve that uses them, and combines the sign convention of the lookup with that of the solver.", "anchors": ["meent/on_numpy/modeler/modeling.py: put_refractive_index_in_ucell, find_nk_index", "meent/dispersion.py: evaluate", "meent/on_numpy/emsolver/rcwa.py: conv_solve", "meent/nk_data/README.md: Sign convention, Adding a material", "meent/nk_data/refractiveindex_info/Al2O3_querry-e.txt"]}
{"id": "C76", "title": "Material lookups agree on the three backends", "statement": "Each backend carries its own copy of the material lookup, and they return the same values (nk_data/README.md, meent/__init__.py): for every material, table and list of wavelengths, find_nk_index of JAX and of PyTorch warns, fails and succeeds exactly as NumPy's does and returns the same numbers; and put_refractive_index_in_ucell fills a ucell with the same numbers on every backend.", "quantifier": "every material argument (name, name with __real, closed form), every table, every list of wavelengths; every label array and list of materials", "why_tests_cant": "The backends interpolate with different library functions; tests compare a few materials at a few wavelengths and miss the boundary cases (duplicated and last wavelengths, one-row tables, ends of the range).", "anchors": ["meent/on_numpy/modeler/modeling.py: find_nk_index, put_refractive_index_in_ucell", "meent/on_jax/modeler/modeling.py: find_nk_index", "meent/on_torch/modeler/modeling.py: find_nk_index, put_refractive_index_in_ucell", "meent/__init__.py", "meent/nk_data/README.md"]}
{"id": "C77", "title": "Textbook coatings come out as in the textbook", "statement": "For stacks of homogeneous films between lossless media, on every backend: leaving out a half-wave film, or thickening a film by half waves, changes no efficiency; a quarter-wave film at normal incidence has the textbook reflectance, and reflects nothing when its index is the geometric mean of its neighbours' (antireflection coating); N quarter-wave pairs have the textbook reflectance, which tends to one as pairs are added (dielectric mirror); beyond the critical angle transparent stacks reflect everything; at Brewster's angle an interface reflects no p-polarized light. In each case all diffraction orders but the zeroth are dark.", "quantifier": "every number of films and pairs, every index, thickness, wavelength, polarization, truncation order and formulation, every eigensolver, whenever the solve succeeds; the two calculations compared may be made on different backends", "why_tests_cant": "The laws equate results of infinitely many structures, and one is a limit; a test checks a coating at one wavelength to a tolerance.", "anchors": ["meent/on_numpy/emsolver/transfer_method.py: transfer_1d_1..4, transfer_2d_1..4, transfer_1d_conical_*", "meent/on_numpy/emsolver/rcwa.py: RCWANumpy.conv_solve", "meent/on_jax/emsolver/rcwa.py: RCWAJax.conv_solve", "meent/on_torch/emsolver/rcwa.py: RCWATorch.conv_solve"]}
{"id": "C78", "title": "Closed-form metals and graphene follow the published models", "statement": "find_nk_index on a Brendel-Bormann material (optprop_Au, optprop_Ti, optprop_CaF2) returns, at every wavelength, the root of the permittivity that nk_data/README.md describes: a Drude term (or a constant) plus Lorentz oscillators averaged over a normal distribution of their centre frequency, with the units of the two coefficient layouts. On a graphene_falkovsky material it returns the root of 1 + i sigma / (omega eps0 thickness) with the Falkovsky/Kubo sheet conductivity; (n^2 - 1) * thickness does not depend on the thickness (use the same layer thickness to keep the sheet response), and in clean graphene the absorbed part rises with the photon energy through tanh(Ef/T)/2 of e^2/(4 hbar) at the interband onset hw = 2 Ef, never reaching e^2/(4 hbar).", "quantifier": "every list of oscillators with positive damping and width, every Fermi level, mobility, temperature and thickness, every list of positive wavelengths, every spelling of the name, every table", "why_tests_cant": "The identity is between a sum of Faddeeva functions and an integral, for all parameters; a test compares a few wavelengths of three shipped files to a tolerance.", "anchors": ["meent/dispersion.py: model_brendel_bormann_ev, model_brendel_bormann_cm, _faddeeva, model_graphene_falkovsky, _cosh_ratio, graphene_falkovsky, evaluate", "meent/on_numpy/modeler/modeling.py: find_nk_index", "meent/nk_data/README.md"]}
{"id": "C79", "title": "Exchanging the x and y axes of a problem exchanges its diffraction pattern", "statement": "Exchange the two axes of a raster problem: transpose every layer (taking the direction of the rows into account), exchange the periods and the numbers of Fourier orders, and exchange the direction of incidence. conv_solve then succeeds on the exchanged problem whenever it succeeds on the original one, and de_ri and de_ti at order (m, k) become those at order (k, m), for TE, TM and a correspondingly exchanged polarization.", "quantifier": "every raster, number of layers, thickness, period, number of orders, Fourier type, direction of incidence, polarization and eigensolver (conical and 2D formulations)", "why_tests_cant": "a test compares one structure under one direction; the two axes are factorised by different rules, so agreement on one cell says nothing about others", "anchors": ["meent/on_numpy/emsolver/convolution_matrix.py: to_conv_mat_raster_continuous, to_conv_mat_raster_discrete", "meent/on_numpy/emsolver/fourier_analysis.py: dfs2d, cfs2d", "meent/on_numpy/emsolver/_base.py: get_kx_ky_vector", "meent/on_numpy/emsolver/rcwa.py: conv_solve"]}
{"id": "C80", "title": "Stacks of birefringent films obey the textbook formula on PyTorch", "statement": "A raster whose pixels carry principal indices (nx, ny, nz) and whose layers are homogeneous films gives, on PyTorch, the reflectance and transmittance of the two-by-two characteristic matrices: s light is refracted with index ny, p light with kz^2/nx^2 + kappa^2/nz^2 = 1, all in the zeroth order and nothing in the others. This holds for films uniaxial about the normal in every direction of incidence and for biaxial films in the x-z plane of incidence, whenever no singular matrix makes the solver fall back on a pseudo-inverse and the structure is not sent to the conical solver as nearly isotropic. Absorbing films are always solved in TE and TM; absorbing uniaxial films are solved in 2D unless a retained order runs along the normal or along a film.", "quantifier": "every number of films, principal indices (transparent or absorbing), thickness, truncation, Fourier type, lossless claddings, angle of incidence and polarization, and every eigensolver", "why_tests_cant": "a test compares one film at one angle; the formula must hold for every stack, and a component read from the wrong axis can go unnoticed on isotropic samples", "anchors": ["meent/on_torch/emsolver/convolution_matrix.py: to_conv_mat_raster_continuous, to_conv_mat_raster_discrete", "meent/on_torch/emsolver/rcwa.py: RCWATorch.conv_solve", "meent/on_torch/emsolver/_base.py: solve_1d, solve_2d", "meent/on_torch/emsolver/transfer_method.py: transfer_1d_2, transfer_2d_2"]}
{"id": "C81", "title": "Several periods in one cell leave the diffraction pattern unchanged", "statement": "Describing the same structure with tx by ty periods in a cell (the image tiled, the periods multiplied, and a truncation that keeps the same diffraction directions) reports the same amplitudes and efficiencies at the orders that are multiples of tx and ty, and exactly zero at all the others. This holds for the TE/TM, conical and 2D solvers with continuous Fourier coefficients, or discrete ones when the image has pixels enough, on NumPy and JAX, and for the efficiencies on PyTorch.", "quantifier": "every raster, numbers of periods, truncation, illumination, any two eigensolvers; both cells solved by the TE/TM solver or neither", "why_tests_cant": "a test compares one structure at one number of periods; that spurious orders stay exactly dark and the true ones are unchanged must hold for every structure and truncation", "anchors": ["meent/on_numpy/emsolver/convolution_matrix.py: to_conv_mat_raster_continuous, to_conv_mat_raster_discrete", "meent/on_numpy/emsolver/rcwa.py: RCWANumpy.conv_solve", "meent/on_numpy/emsolver/_base.py: get_kx_ky_vector, solve_1d, solve_1d_conical, solve_2d"]}
{"id": "C82", "title": "Drawing objects leaves them as they were, and drawing again gives the same structure", "statement": "draw takes lists of objects made by rectangle or ellipse. It does not change them: the same list can be drawn again, or serve several layers, and every drawing is the one a fresh list would give.", "quantifier": "every list of objects, period, number of layers that share it, and base indices", "why_tests_cant": "a test draws one list once; whether a drawing changes its input shows only for particular coincidences of edges and only in the next drawing", "anchors": ["meent/on_numpy/modeler/modeling.py: ModelingNumpy.draw, vector_per_layer_numeric"]}
{"id": "C83", "title": "Angles that mean the same give the same results", "statement": "The polar angle and the azimuth enter only through the direction they describe: whole turns, and a negative polar angle with the azimuth turned by 180 degrees, leave every result unchanged. Turning the polarization angle by 180 degrees changes the sign of the amplitudes and nothing else, and the results for TE and TM incidence do not depend on it.", "quantifier": "every structure, every pair of angles for the same direction, every polarization angle, every number of half or whole turns, all three backends", "why_tests_cant": "tests use one angle in the usual range; equality has to hold for infinitely many ways to write each direction and includes the exceptions raised", "anchors": ["meent/on_numpy/emsolver/_base.py: get_kx_ky_vector", "meent/on_numpy/emsolver/transfer_method.py: transfer_1d_4, transfer_2d_4", "meent/on_jax/emsolver/_base.py: get_kx_ky_vector", "meent/on_torch/emsolver/_base.py: get_kx_ky_vector"]}
{"id": "C84", "title": "The sampled fields carry the reported power", "statement": "From the fields returned by conv_solve_field the power flowing down through each sampled plane can be computed as the mean of Re(E x H*) over the distinct samples of a period. With more distinct samples per period than diffraction orders, the power through the topmost plane is the incident power times one minus the sum of de_ri; through the lowest plane it is the incident power times the sum of de_ti; nothing is lost between layers; and the losses of the layers add up to what is neither reflected nor transmitted. In passive structures the power never grows with the depth, and in lossless structures it is the same in every plane.", "quantifier": "every structure, stack, truncation, real illumination, polarization, resolution with enough samples, substrate (also absorbing), selection of incident waves, eigensolver; TE/TM, conical and 2D; the NumPy backend, and the PyTorch backend between lossless claddings", "why_tests_cant": "a test integrates the flux of one structure at one resolution; that fields and efficiencies account for the same power in every layer must hold for every structure, truncation and resolution", "anchors": ["meent/on_numpy/emsolver/field_distribution.py: field_dist_1d, field_dist_1d_conical, field_dist_2d", "meent/on_numpy/emsolver/rcwa.py: RCWANumpy.conv_solve_field, RCWANumpy.calculate_field", "meent/on_numpy/emsolver/transfer_method.py: transfer_1d_4, transfer_2d_4", "meent/on_torch/emsolver/field_distribution.py: field_dist_1d, field_dist_1d_conical, field_dist_2d"]}
{"id": "C85", "title": "Drawn structures may be moved, and only their pattern matters", "statement": "In vector modeling the results depend only on the periodic pattern that the objects paint: two lists of layers that show the same pattern, put together from different objects, give the same efficiencies and amplitudes; if one pattern is displaced against the other by any real amounts along x and y, common to all layers, the efficiencies are the same and the amplitude of order (m, n) changes by the phase of the displacement. In particular all rectangles of all layers can be moved together by any real amounts, also over the border of the cell and out of it, as long as no edge comes to lie on the border. This holds when no two edges of a layer coincide; coinciding edges are moved by the code.", "quantifier": "every stack of vector layers, displacement, truncation, illumination, polarization, material, eigensolver", "why_tests_cant": "a test compares a few positions; an error in the grid lines or Fourier integrals may depend on the position of one edge, so it must hold for every structure and every real displacement", "anchors": ["meent/on_numpy/modeler/modeling.py: ModelingNumpy.rectangle, ModelingNumpy.vector_per_layer_numeric, ModelingNumpy.draw, ModelingNumpy.modeling_vector_instruction", "meent/on_numpy/emsolver/convolution_matrix.py: to_conv_mat_vector", "meent/on_numpy/emsolver/fourier_analysis.py: cfs2d", "meent/on_numpy/emsolver/rcwa.py: RCWANumpy.conv_solve"]}
{"id": "C86", "title": "The sampled fields are samples of one function of position", "statement": "For one solved problem, all arrays returned by calculate_field, for any resolutions and any selection of inputs, are samples of the same fields: two calls agree at every point both of them sample, and selecting fewer inputs returns the same arrays. These fields are quasi-periodic with the phase of the incident wave, so opposite edges of the sampled cell match up to that phase, and the field for the polarization angle psi is sin(psi) times the one for TE plus cos(psi) times the one for TM.", "quantifier": "every problem that solves, resolution in x, y and z, selection of inputs, polarization angle, backend", "why_tests_cant": "a test uses a few resolutions; an error in the positions of the samples or in the order of rows appears only when arrays of different resolutions are compared, for which there is no reference value", "anchors": ["meent/on_numpy/emsolver/rcwa.py: RCWANumpy.calculate_field", "meent/on_numpy/emsolver/field_distribution.py: field_dist_1d, field_dist_1d_conical, field_dist_2d", "meent/on_torch/emsolver/rcwa.py: RCWATorch.calculate_field", "meent/on_torch/emsolver/field_distribution.py", "meent/on_jax/emsolver/rcwa.py: RCWAJax.calculate_field"]}
{"id": "C87", "title": "The fields are determined by the problem and move with the structure", "statement": "The field arrays returned for a problem do not depend on how the eigensolver orders or scales its eigenvectors, nor on whether NumPy's or JAX's is used. Moving the structure sideways moves the fields by the same distance, up to the phase by which the fixed incident wave advances over that distance: for rasters rolled by whole pixels and for drawings displaced by any amount, over the border of the cell or not.", "quantifier": "every problem that solves, pair of eigensolvers, resolution, selection of inputs, number of pixels or displacement, Fourier type", "why_tests_cant": "a test has one eigensolver and a few displacements; the arrays for moved structures are sampled at points that do not coincide with those of the original", "anchors": ["meent/on_numpy/emsolver/rcwa.py: RCWANumpy.conv_solve_field, calculate_field", "meent/on_numpy/emsolver/field_distribution.py: field_dist_1d, field_dist_1d_conical, field_dist_2d", "meent/on_numpy/emsolver/transfer_method.py", "meent/on_numpy/emsolver/convolution_matrix.py", "meent/on_jax/emsolver/rcwa.py: RCWAJax.calculate_field"]}
{"id": "C88", "title": "The fields do not depend on how the stack is cut into layers", "statement": "When a layer is listed as two layers of the same pattern whose thicknesses add up, the field arrays sample the same functions of position: the upper part of the layer is found in the first of the two, the lower part in the second, and all other layers keep their fields. A layer of thickness zero, whatever its pattern, leaves the fields in all other layers as they are.", "quantifier": "every stack that solves, raster or drawn, position of the cut or of the extra layer, thicknesses, resolution, selection of inputs, pair of eigensolvers", "why_tests_cant": "the arrays of the two descriptions are sampled at different depths, so a test can compare few points of few stacks, and rounding hides small differences", "anchors": ["meent/on_numpy/emsolver/rcwa.py: RCWANumpy.conv_solve_field, calculate_field", "meent/on_numpy/emsolver/field_distribution.py: field_dist_1d, field_dist_1d_conical, field_dist_2d", "meent/on_numpy/emsolver/transfer_method.py"]}
{"id": "C89", "title": "Several periods in a cell have the fields of one period, repeated", "statement": "Describing the same structure with several periods in a cell, and keeping the same diffraction orders, gives the same fields: the arrays for the larger cell sample, over the larger cell, the functions of position that the arrays for one period sample over that period.", "quantifier": "every raster structure that solves, number of periods along x and y, resolution, selection of inputs, pair of eigensolvers, continuous Fourier coefficients or discrete ones of images with pixels enough", "why_tests_cant": "there are infinitely many structures, numbers of periods and resolutions, and the sampled points of the two cells mostly differ", "anchors": ["meent/on_numpy/emsolver/rcwa.py: RCWANumpy.conv_solve_field, calculate_field", "meent/on_numpy/emsolver/field_distribution.py: field_dist_1d, field_dist_1d_conical, field_dist_2d", "meent/on_numpy/emsolver/convolution_matrix.py: to_conv_mat_raster_continuous, to_conv_mat_raster_discrete"]}
{"id": "C90", "title": "Mirrored structures have mirrored fields", "statement": "Mirror every layer of a structure, the direction of incidence and the polarization, along x, along y or both. The field arrays of the mirrored problem sample the mirror images of the functions of position that the field arrays of the problem sample: the electric field as a vector, the magnetic field as an axial vector, up to one overall sign.", "quantifier": "every raster structure that solves, lossless or not, real illumination, choice of mirrored axes, resolution, selection of inputs, pair of eigensolvers, TE, TM, conical and 2D, continuous Fourier coefficients", "why_tests_cant": "there are infinitely many structures, angles and resolutions, and mirroring moves the sampled points, so a test can compare few of them", "anchors": ["meent/on_numpy/emsolver/rcwa.py: RCWANumpy.conv_solve_field, calculate_field", "meent/on_numpy/emsolver/field_distribution.py: field_dist_1d, field_dist_1d_conical, field_dist_2d", "meent/on_numpy/emsolver/convolution_matrix.py: to_conv_mat_raster_continuous"]}
{"id": "C91", "title": "The fields of PyTorch and JAX follow the same rules", "statement": "The field arrays of PyTorch sample functions of position: those of NumPy, complex conjugated, with the y axis reversed and with a fixed sign (in the conical and 2D solvers at the polarization angle \u03c0 - \u03c8). So they do not depend on the eigensolver, nor on how the stack is cut into layers, and several periods in a cell have the fields of one period, repeated. The arrays of JAX sample the functions of NumPy, so they follow the rules for cut layers, several periods and mirrored structures.", "quantifier": "every problem with lossless claddings that NumPy solves (PyTorch) or that JAX solves, resolution, selection of inputs, pair of eigensolvers; for PyTorch the conditions of the comparison C50", "why_tests_cant": "a test compares the backends on few structures at the resolutions it samples; the rules relate different structures sampled at different points", "anchors": ["meent/on_torch/emsolver/rcwa.py: RCWATorch.calculate_field, conv_solve_field", "meent/on_torch/emsolver/field_distribution.py", "meent/on_jax/emsolver/rcwa.py: RCWAJax.calculate_field", "meent/on_jax/emsolver/field_distribution.py"]}
{"id": "C92", "title": "Rescaling all lengths leaves the field arrays as they are", "statement": "When the wavelength, both periods, all thicknesses and all drawn lengths are multiplied by the same positive factor, conv_solve_field returns exactly the same array of fields, entry by entry, or raises the same exception. For drawn structures this needs that no rectangle after the first begins exactly at coordinate 0.", "quantifier": "every problem, solver, Fourier type, setting of use_pinv, eigensolver, positive factor, number of samples, selection of inputs; NumPy, and JAX for raster structures", "why_tests_cant": "the factor is any positive real number and the structure is arbitrary; a test tries a few factors and compares rounded arrays", "anchors": ["meent/on_numpy/emsolver/rcwa.py: RCWANumpy.conv_solve_field, calculate_field", "meent/on_numpy/emsolver/field_distribution.py", "meent/on_jax/emsolver/field_distribution.py"]}
{"id": "C93", "title": "Scattering matrices describe the stack", "statement": "The scattering-matrix functions do what they are for. The matrix of two combined elements relates the waves around the pair exactly as the two elements do with any waves between them, and the order of combining does not matter. The matrix built from an upper half space, any number of layers and a lower half space relates incoming and outgoing waves exactly when the tangential fields continue through all layers. The medium assumed in the gaps between the layers does not matter, and cutting a layer in two changes nothing.", "quantifier": "every number of orders, every scattering dictionary, every list of layers with any modes and thicknesses, every half space and gap medium, all incoming waves", "why_tests_cant": "tests compare one efficiency of one stack; the relation between all incoming and outgoing waves is a statement about all matrices and all stacks", "anchors": ["meent/on_numpy/emsolver/smm_util.py: A_B_matrices, A_B_matrices_half_space, S_layer, S_RT, RedhefferStar", "meent/on_numpy/emsolver/scattering_method.py: scattering_1d_1, scattering_1d_2, scattering_1d_3"]}
{"id": "C94", "title": "Global scattering matrix of a list of elements", "statement": "construct_global_scatter returns, for every list of scattering dictionaries that can be combined, the dictionary of the elements one behind the other.", "quantifier": "every list of scattering dictionaries of every size", "why_tests_cant": "tests call it with one list length; the behaviour depends on the length of the list", "anchors": ["meent/on_numpy/emsolver/smm_util.py: construct_global_scatter, RedhefferStar"]}
{"id": "C95", "title": "Scattering matrices and transfer matrices agree", "statement": "For TE and TM problems the scattering-matrix functions, called in the sequence the solver's comments suggest with the modes of the layers, return the reflected and transmitted efficiencies of the transfer-matrix solver, order by order. For lossless structures they therefore sum to one.", "quantifier": "every TE or TM problem between lossless half spaces in which no order is at grazing, every number of layers and orders, every eigensolver", "why_tests_cant": "tests compare two numerical results for a few gratings; the equality is between two different algorithms for all structures", "anchors": ["meent/on_numpy/emsolver/scattering_method.py: scattering_1d_1, scattering_1d_2, scattering_1d_3", "meent/on_numpy/emsolver/smm_util.py: homogeneous_1D, S_layer, S_RT, RedhefferStar", "meent/on_numpy/emsolver/_base.py: solve_1d", "meent/on_numpy/emsolver/rcwa.py: RCWANumpy.conv_solve"]}
{"id": "C96", "title": "Modes of the 2D scattering functions solve Maxwell's equations", "statement": "Every mode that the 2D scattering functions return for a layer or for a half space solves Maxwell's curl equations with its decay constant. The modes of a layer are those of the 2D transfer-matrix solver with the magnetic fields reversed.", "quantifier": "every layer, every number of orders, every in-plane wave numbers, every eigensolver; every lossless half space without grazing orders", "why_tests_cant": "tests look at efficiencies for a few angles; the equations must hold for every order, and the replaced zeros only matter at particular angles", "anchors": ["meent/on_numpy/emsolver/scattering_method.py: scattering_2d_wv", "meent/on_numpy/emsolver/smm_util.py: P_Q_kz, homogeneous_module", "meent/on_numpy/emsolver/transfer_method.py: transfer_2d_2"]}
{"id": "C97", "title": "Scattering matrices conserve power for every illumination", "statement": "For a TE or TM stack of lossless layers between lossless half spaces, the scattering matrix preserves power for every combination of propagating waves falling on the stack from both sides, in all orders at once. If the layers absorb, the outgoing waves carry at most the incoming power.", "quantifier": "every lossless or passive structure, every list of its layers with any thicknesses, every illumination by propagating orders from both sides with no order at grazing, every eigensolver and every gap medium for which the matrices can be inverted", "why_tests_cant": "tests illuminate with one order from one side; the claim is about all superpositions, which interfere", "anchors": ["meent/on_numpy/emsolver/smm_util.py: S_layer, S_RT, RedhefferStar, A_B_matrices, A_B_matrices_half_space, homogeneous_1D", "meent/on_numpy/emsolver/scattering_method.py: scattering_1d_2", "meent/on_numpy/emsolver/transfer_method.py: transfer_1d_2"]}
{"id": "C98", "title": "Turning a stack over exchanges the sides of its scattering matrix", "statement": "The scattering matrix of the same layers in reverse order between exchanged half spaces is the original one with both sides exchanged. A stack that looks the same from both sides reflects and transmits the same on both sides. A layer of zero thickness does not change the matrix.", "quantifier": "every stack of layers with any modes, thicknesses and number of orders, every choice of gap medium, wherever the matrices can be inverted", "why_tests_cant": "the two matrices are computed by different sequences of non-commuting products; tests sample a few stacks only", "anchors": ["meent/on_numpy/emsolver/smm_util.py: S_layer, S_RT, RedhefferStar, A_B_matrices, A_B_matrices_half_space", "meent/on_numpy/emsolver/scattering_method.py: scattering_1d_2, scattering_2d_2"]}
{"id": "C99", "title": "Scattering matrices are reciprocal in all orders", "statement": "For TE and TM problems, scattering from order i to order j, weighted with the admittances of the orders, equals scattering from order -j to order -i for light from the opposite side. This holds for reflection on either side and for transmission in both directions, with absorbing layers and absorbing substrates.", "quantifier": "every TE or TM structure, every list of its layers with any thicknesses, every real illumination, all pairs of orders including evanescent ones, any two eigensolvers and gap media for which the matrices can be inverted", "why_tests_cant": "tests compare a few efficiencies at the specular order; the law covers all pairs of orders and complex amplitudes, for all structures", "anchors": ["meent/on_numpy/emsolver/smm_util.py: S_layer, S_RT, RedhefferStar, A_B_matrices, A_B_matrices_half_space, homogeneous_1D", "meent/on_numpy/emsolver/scattering_method.py: scattering_1d_1, scattering_1d_2, scattering_1d_3", "meent/on_numpy/emsolver/transfer_method.py: transfer_1d_2"]}
{"id": "C100", "title": "Scattering matrices of 2D lossless stacks conserve power for every illumination", "statement": "Take any stack of layers of a lossless 2D structure between lossless half spaces, no order at grazing, with the modes the 2D scattering functions return. Whatever propagating waves of both polarizations fall on it from both sides, in all orders at once, the outgoing waves that the scattering matrix predicts carry exactly the incoming power. With absorbing layers they carry at most the incoming power.", "quantifier": "every structure, every selection and order of its layers, every thickness, every number of orders, every real in-plane wave numbers, every eigensolver, every gap medium, every amplitudes of the incoming waves", "why_tests_cant": "tests send one wave at one angle; conservation for all superpositions is a statement about the whole matrix, and the replaced zeros break it only by amounts tests do not see", "anchors": ["meent/on_numpy/emsolver/scattering_method.py: scattering_2d_1, scattering_2d_wv, scattering_2d_2", "meent/on_numpy/emsolver/smm_util.py: homogeneous_module, A_B_matrices, A_B_matrices_half_space, S_layer, S_RT, RedhefferStar"]}
{"id": "C101", "title": "Scattering matrices of 2D stacks are reciprocal", "statement": "Take a 2D stack of layers that may absorb, with the modes the 2D scattering functions return, and the same stack with opposite in-plane wave numbers. For all incoming waves of both polarizations and all orders from both sides in the one problem and in the other, the outgoing waves of the first react with the incoming waves of the second exactly as the incoming waves of the first react with the outgoing waves of the second.", "quantifier": "every structure, every selection and order of its layers, every thickness, every number of orders, every in-plane wave numbers without grazing orders, every pair of eigensolvers, every gap media, every amplitudes of the incoming waves in both problems", "why_tests_cant": "reciprocity relates two runs in all orders and both polarizations; tests compare single efficiencies of a few structures", "anchors": ["meent/on_numpy/emsolver/scattering_method.py: scattering_2d_1, scattering_2d_wv, scattering_2d_2", "meent/on_numpy/emsolver/smm_util.py: homogeneous_module, A_B_matrices, A_B_matrices_half_space, S_layer, S_RT, RedhefferStar"]}
{"id": "C102", "title": "The incident wave of the 2D scattering functions is the wave asked for", "statement": "For every angle of incidence the source built for given TE and TM amplitudes is a transverse wave of their norm in the zero order only, with a horizontal field for TE light. It carries the power by which the efficiencies are divided. It depends continuously on the angle of incidence in a fixed plane of incidence, up to normal incidence.", "quantifier": "every index of the upper medium, every angle of incidence below grazing, every azimuth, every complex TE and TM amplitudes, every number of orders", "why_tests_cant": "the angles and amplitudes are continuous, and the value at normal incidence is a separate branch that only a limit can compare with its neighbours", "anchors": ["meent/on_numpy/emsolver/scattering_method.py: scattering_2d_1, scattering_2d_3", "meent/on_numpy/emsolver/smm_util.py: initial_conditions, delta_vector, K_matrix_cubic_2D, homogeneous_module"]}
{"id": "C103", "title": "The efficiencies of the 2D scattering functions sum to one for lossless problems", "statement": "For a lossless problem the reflected and transmitted efficiencies that the 2D scattering functions return sum to one, for TE and for TM light.", "quantifier": "every lossless structure, every pair of half spaces, every angles of incidence, every number of orders, both polarizations", "why_tests_cant": "the sum ranges over all orders and must be one at each of continuously many angles; tests try a few", "anchors": ["meent/on_numpy/emsolver/scattering_method.py: scattering_2d_1, scattering_2d_3", "meent/on_numpy/emsolver/smm_util.py: initial_conditions, delta_vector, K_matrix_cubic_2D, homogeneous_module"]}
