{"id": "C01", "title": "Templates are write-once", "statement": "Once add_data has accepted data for a channel, or add_process has accepted a template for a (process, channel) pair, every later call that tries to register the same key raises and the stored values stay exactly those of the first accepted call, whatever other calls are interleaved.", "quantifier": "all finite histories of TensorWriter calls, all histogram contents", "why_tests_cant": "the set of call histories is infinite; a unit test samples one duplicate right after the first registration", "anchors": ["rabbit/tensorwriter.py:TensorWriter.add_data", "rabbit/tensorwriter.py:TensorWriter.add_process"]}
{"id": "C02", "title": "Channel layout is a partition and masked channels come last", "statement": "In every written file the per-channel bin ranges are consecutive, disjoint and cover the full bin axis exactly; all fitted channels come before all masked channels, so the first nbins rows are exactly the fitted bins; and the ranges that FitInputData recomputes on reading are the ones the writer used when it placed the templates.", "quantifier": "all sequences of add_channel calls with arbitrary names, sizes and masked flags", "why_tests_cant": "depends on the interleaving of masked and unmasked registrations and on every size", "anchors": ["rabbit/tensorwriter.py:TensorWriter.add_channel", "rabbit/tensorwriter.py:TensorWriter.write", "rabbit/inputdata.py:FitInputData"]}
{"id": "C03", "title": "Process order puts signals first and is history independent", "statement": "The process axis of a written tensor lists every registered process exactly once, all signals before all backgrounds, each block sorted by name; it depends only on the sets of signal and background names and not on the order of the calls; a process registered as both signal and background makes write fail. With the default signal-strength model parameter i multiplies exactly process i and nothing else.", "quantifier": "all histories of add_process calls", "why_tests_cant": "order independence quantifies over all permutations of all call histories", "anchors": ["rabbit/tensorwriter.py:TensorWriter.add_process", "rabbit/tensorwriter.py:TensorWriter.write", "rabbit/param_models/param_model.py:Mu"]}
{"id": "C04", "title": "Nuisance order is complete and reproducible", "statement": "The nuisance axis of a written tensor is the unconstrained nuisances in natural order followed by the constrained ones in natural order; it is a permutation of the booked names and two histories that book the same names with the same constrained flags give the same axis.", "quantifier": "all sets of nuisance names and all booking orders", "why_tests_cant": "needs every permutation of every name set, including names that tie under natural ordering", "anchors": ["rabbit/tensorwriter.py:TensorWriter.get_systs", "rabbit/common.py:natural_sort", "rabbit/common.py:natural_sort_key"]}
{"id": "C05", "title": "Constraint flag reaches the right nuisance", "statement": "In the written file a nuisance has constraint weight 0 exactly when it was booked with constrained=False and weight 1 otherwise.", "quantifier": "all booking histories", "why_tests_cant": "alignment between two independently built lists must hold for every mix of constrained and unconstrained names", "anchors": ["rabbit/tensorwriter.py:TensorWriter.get_constraintweights", "rabbit/tensorwriter.py:TensorWriter.book_systematic"]}
{"id": "C06", "title": "Groups and parameters of interest resolve to the booked nuisances", "statement": "For every group the stored index list, looked up in the stored nuisance names, gives exactly the nuisances booked into that group, without repetition; likewise the NOI index list gives exactly the nuisances booked with noi=True; a nuisance booked without groups forms its own group.", "quantifier": "all booking histories with arbitrary group assignments", "why_tests_cant": "requires agreement of two index spaces for every history", "anchors": ["rabbit/tensorwriter.py:TensorWriter.get_groups", "rabbit/tensorwriter.py:TensorWriter.get_noiidxs", "rabbit/tensorwriter.py:TensorWriter.book_systematic"]}
{"id": "C07", "title": "Up and down templates are recovered at plus and minus one sigma", "statement": "If a systematic is added with positive up and down templates, then the fitted prediction evaluated with that nuisance at +1 (-1) and all others at 0 is exactly the up (down) template times the signal-strength factor, for both the log_normal and the normal systematic type (no symmetrisation).", "quantifier": "all nominal, up and down template values, all bins and processes", "why_tests_cant": "crosses writer and fitter and must hold for every real-valued template", "anchors": ["rabbit/tensorwriter.py:TensorWriter.get_logk", "rabbit/tensorwriter.py:TensorWriter._compute_asym_syst", "rabbit/fitter.py:Fitter._compute_yields_noBBB"]}
{"id": "C08", "title": "Symmetrisation modes keep their documented meaning", "statement": "average gives the mean of the two log-variations, conservative the one with the larger magnitude, linear and quadratic split the pair into two independent nuisances (mean and half difference) that together reproduce the original up and down (linear exactly, quadratic with the documented sqrt(3) weight); symmetric inputs are left unchanged by every mode.", "quantifier": "all up/down variation values and all modes", "why_tests_cant": "algebraic identities over all reals", "anchors": ["rabbit/tensorwriter.py:TensorWriter._compute_asym_syst"]}
{"id": "C09", "title": "Log-normal predictions keep the sign of the nominal", "statement": "For systematic type log_normal and any nuisance values whatsoever the predicted yield of a bin has the sign of its nominal content; a bin with zero nominal stays at zero; a varied template whose sign differs from the nominal (or which is zero) is replaced by the fixed floor exp(-|log 1e-3|) instead of producing a non-finite value.", "quantifier": "all nominal and varied templates, all real nuisance values", "why_tests_cant": "quantifies over all points of an unbounded parameter space", "anchors": ["rabbit/tensorwriter.py:TensorWriter.get_logk", "rabbit/tensorwriter.py:TensorWriter.book_logk", "rabbit/fitter.py:Fitter._compute_yields_noBBB"]}
{"id": "C10", "title": "Sparse and dense tensors predict the same yields", "statement": "Writing the same model in sparse and in dense mode and evaluating it at the same parameter point gives identical expected yields in every bin for every process.", "quantifier": "all templates (including zeros), all nuisances, all parameter values", "why_tests_cant": "equivalence of two code paths over all inputs", "anchors": ["rabbit/tensorwriter.py:TensorWriter.write", "rabbit/fitter.py:Fitter._compute_yields_noBBB", "rabbit/inputdata.py:FitInputData"]}
{"id": "C11", "title": "Sparse assembly is canonical and loses nothing", "statement": "The sparse norm and log-variation tensors written to disk are in strictly increasing row-major order, hold every nonzero exactly once, and every log-variation row points at the norm entry of the same bin and process it was booked for.", "quantifier": "all booking orders and sparsity patterns", "why_tests_cant": "an inverse permutation must be right for every ordering of entries", "anchors": ["rabbit/tensorwriter.py:TensorWriter.write"]}
{"id": "C12", "title": "Adding many systematics in one call equals adding them one by one", "statement": "A multi-axis (batched) systematic histogram books exactly the same nuisances with exactly the same per-bin variations as a loop of single-systematic calls over the slices.", "quantifier": "all shapes and contents of the extra axes", "why_tests_cant": "equivalence over all index layouts", "anchors": ["rabbit/tensorwriter.py:TensorWriter._add_systematics_sparsehist_batched", "rabbit/tensorwriter.py:TensorWriter._get_systematic_slices"]}
{"id": "C13", "title": "Chunked dataset storage round-trips", "statement": "A tensor written through the chunked writer and read back is equal to the original array element by element for every size, every chunk-size limit and every pattern of all-zero chunks; the sparse variant restores the same index/value pairs and shape.", "quantifier": "all array contents, sizes, element sizes and chunk limits", "why_tests_cant": "chunk boundaries and skipped zero chunks depend on every combination of size and limit", "anchors": ["rabbit/h5pyutils_write.py:writeFlatInChunks", "rabbit/h5pyutils_write.py:writeSparse", "rabbit/h5pyutils_read.py:maketensor", "rabbit/h5pyutils_read.py:makesparsetensor"]}
{"id": "C14", "title": "External likelihood terms act on the named parameters", "statement": "An external likelihood term with gradient g and Hessian H over a list of parameter names contributes exactly g.x + x.H.x/2 of the sub-vector of those parameters, independent of how the fit orders its parameters; unknown or duplicated names are rejected; dense and sparse Hessians give the same value.", "quantifier": "all parameter orderings, all name lists, all g and H", "why_tests_cant": "all permutations of the parameter vector", "anchors": ["rabbit/external_likelihood.py:build_tf_external_terms", "rabbit/external_likelihood.py:compute_external_nll", "rabbit/tensorwriter.py:TensorWriter.add_external_likelihood_term"]}
{"id": "C15", "title": "A normalisation systematic acts on every listed process", "statement": "add_norm_systematic(name, processes, channel, u) with a scalar u books the variation log(u) (log_normal) for every listed process of the channel.", "quantifier": "all process lists and uncertainties", "why_tests_cant": "needs all list lengths", "anchors": ["rabbit/tensorwriter.py:TensorWriter.add_norm_systematic"]}
{"id": "C16", "title": "Writing does not change the model", "statement": "Calling write twice on the same writer produces the same tensor content; the data covariance written is the registered covariance plus the outer products of the nuisances booked into it plus the Monte Carlo statistics, once.", "quantifier": "all registered covariances and all numbers of write calls", "why_tests_cant": "history-dependence across calls", "anchors": ["rabbit/tensorwriter.py:TensorWriter.write", "rabbit/tensorwriter.py:TensorWriter.add_data_covariance"]}
{"id": "C17", "title": "Accepted process templates are finite and non-negative", "statement": "Whatever the user passes, every process template stored by add_process is finite, and non-negative unless allow_negative_expectation is set; clipping changes only negative bins; a rejected call raises.", "quantifier": "all histogram contents including negative, NaN and infinite entries", "why_tests_cant": "all input arrays", "anchors": ["rabbit/tensorwriter.py:TensorWriter.add_process"]}
{"id": "C18", "title": "Interpolation between templates is smooth, odd and bounded", "statement": "The weight that interpolates between the up and down response of an asymmetric nuisance is odd in the nuisance value, lies in [-1,1], is monotone, equals +1/-1 beyond half a sigma and joins with matching first and second derivative; consequently the log response is continuous and is exactly the up (down) response for all values above 1/2 (below -1/2).", "quantifier": "all real nuisance values", "why_tests_cant": "statement over the whole real line", "anchors": ["rabbit/fitter.py:Fitter._compute_yields_noBBB"]}
{"id": "C19", "title": "Saturated Poisson deviance is non-negative", "statement": "The reduced Poisson negative log likelihood of any prediction is >= 0 in every bin, is 0 exactly when the prediction equals the observation, and grows when the prediction moves away from the observation on either side; empty observed bins contribute exactly the prediction.", "quantifier": "all non-negative observations and positive predictions", "why_tests_cant": "inequality over all reals", "anchors": ["rabbit/fitter.py:Fitter._compute_ln"]}
{"id": "C20", "title": "Full and reduced likelihood differ by a constant", "statement": "For fixed data and constraint configuration the difference between the full and the reduced negative log likelihood does not depend on any parameter, so both have the same minimiser, gradient and Hessian.", "quantifier": "all pairs of parameter points, all data, all likelihood types", "why_tests_cant": "quantifies over pairs of points", "anchors": ["rabbit/fitter.py:Fitter._compute_ln", "rabbit/fitter.py:Fitter._compute_lc", "rabbit/fitter.py:Fitter._compute_nll", "rabbit/bbstat/bbstat.py:BinByBinStat.lbeta"]}
{"id": "C21", "title": "Constraint terms and priors pull only what they should", "statement": "The constraint part of the likelihood is half the sum of squared pulls of the constrained parameters: zero exactly when every constrained parameter sits at its constraint minimum, independent of unconstrained parameters, and a Gaussian prior with width sigma on a model parameter contributes (x-mean)^2/(2 sigma^2).", "quantifier": "all parameter vectors, widths, centres and constraint patterns", "why_tests_cant": "all real vectors", "anchors": ["rabbit/fitter.py:Fitter._compute_lc", "rabbit/fitter.py:Fitter.init_fit_parms", "rabbit/fitter.py:Fitter.prefit_variance"]}
{"id": "C22", "title": "Chi-square and covariance likelihoods agree for diagonal covariance", "statement": "With a diagonal data covariance the covariance likelihood and the chi-square likelihood give the same value for every prediction, and both vanish exactly when the prediction equals the observation.", "quantifier": "all residual vectors and positive variances", "why_tests_cant": "all real vectors and sizes", "anchors": ["rabbit/fitter.py:Fitter._compute_ln", "rabbit/fitter.py:Fitter._residuals_profiled"]}
{"id": "C23", "title": "Freeze and defreeze histories have set semantics", "statement": "After any sequence of freeze and defreeze calls a parameter is frozen exactly when the last call whose expressions match it was a freeze call; the frozen mask, floating index list and frozen index list are consistent with each other and partition the parameters.", "quantifier": "all call histories, all parameter names and match expressions", "why_tests_cant": "infinite histories", "anchors": ["rabbit/fitter.py:Fitter.freeze_params", "rabbit/fitter.py:Fitter.defreeze_params", "rabbit/fitter.py:Fitter.update_frozen_params"]}
{"id": "C24", "title": "Frozen parameters do not move", "statement": "While a parameter is frozen the likelihood handed to the minimiser has zero gradient and zero Hessian rows with respect to it, so no gradient-based fit moves it.", "quantifier": "all parameter points, models and data", "why_tests_cant": "all real points; must hold for every term of the likelihood", "anchors": ["rabbit/fitter.py:Fitter.get_theta", "rabbit/fitter.py:Fitter.get_poi", "rabbit/fitter.py:Fitter._compute_nll", "rabbit/external_likelihood.py:compute_external_nll"]}
{"id": "C25", "title": "Name expressions select in order without duplicates", "statement": "Selecting parameters by expressions returns exactly the parameters matched exactly or by full regular-expression match by at least one expression, in parameter order, each at most once; a plain name selects itself.", "quantifier": "all name lists, all expression lists, any regular-expression semantics", "why_tests_cant": "all combinations of overlapping expressions", "anchors": ["rabbit/fitter.py:match_regexp_params"]}
{"id": "C26", "title": "Blinding is a pure reparametrisation", "statement": "With blinding offsets switched on, the set of attainable likelihood values and the minimum of the likelihood are the same as with blinding off; every parameter of a blinding group gets the same offset; parameters selected by unblind have no offset; a parameter that is both unblinded and in a group makes the fit raise; switching blinding off restores the identity.", "quantifier": "all offset values, all group/unblind selections, all likelihoods of the model parameters", "why_tests_cant": "existential over all parameter points and random offsets", "anchors": ["rabbit/fitter.py:Fitter.init_blinding_values", "rabbit/fitter.py:Fitter.set_blinding_offsets", "rabbit/fitter.py:Fitter.get_theta", "rabbit/fitter.py:Fitter.get_poi"]}
{"id": "C27", "title": "Toys do not accumulate state", "statement": "The state in which toy k is fitted depends only on the random draws for toy k and the configuration, not on how many toys or fits were run before.", "quantifier": "all histories of previous toys and fits", "why_tests_cant": "infinite histories", "anchors": ["rabbit/fitter.py:Fitter.defaultassign", "rabbit/fitter.py:Fitter.toyassign", "rabbit/fitter.py:Fitter.bayesassign", "rabbit/fitter.py:Fitter.frequentistassign"]}
{"id": "C28", "title": "Loading an external fit result is by parameter name", "statement": "Loading a previous result sets each parameter that exists in both fits to the loaded value, leaves all others untouched, and places every loaded covariance entry at the (row, column) of the parameters it belongs to, whatever the two parameter orders.", "quantifier": "all pairs of parameter lists and orders", "why_tests_cant": "all permutations and partial overlaps", "anchors": ["rabbit/fitter.py:Fitter.load_fitresult"]}
{"id": "C29", "title": "Lite gamma bin-by-bin profiling is exact (Poisson)", "statement": "With Barlow-Beeston-lite gamma constraints the profiled scale factor is the unique positive minimiser of the joint Poisson and gamma likelihood of the bin, so the profiled likelihood is the true profile likelihood.", "quantifier": "all non-negative data, positive expectations and effective statistics, zero-variance contributions and constraint centres", "why_tests_cant": "optimality over all positive reals", "anchors": ["rabbit/bbstat/bbstat.py:BinByBinStat.profile_and_apply", "rabbit/bbstat/formulas.py:solve_quad_eq"]}
{"id": "C30", "title": "Lite gaussian bin-by-bin profiling is exact (Poisson)", "statement": "With Barlow-Beeston-lite gaussian constraints (multiplicative or additive) the profiled nuisance keeps the prediction positive and minimises the joint Poisson and gaussian likelihood of the bin over the region where the prediction is positive.", "quantifier": "all positive data, expectations, variances and constraint centres", "why_tests_cant": "optimality over all reals", "anchors": ["rabbit/bbstat/bbstat.py:BinByBinStat.profile_and_apply"]}
{"id": "C31", "title": "Chi-square bin-by-bin profiling is exact", "statement": "With the chi-square likelihood the profiled nuisance (gamma, multiplicative or additive gaussian; lite mode) is the exact minimiser of the joint objective of the bin.", "quantifier": "all data, variances, expectations and constraint centres", "why_tests_cant": "optimality over all reals", "anchors": ["rabbit/bbstat/bbstat.py:BinByBinStat.profile_and_apply"]}
{"id": "C32", "title": "Full bin-by-bin profiling is exact", "statement": "In full mode (one nuisance per process and bin) the profiled nuisances satisfy the joint stationarity conditions and minimise the joint objective of the bin for gaussian constraints and any number of processes; the predicted total solves the reduced scalar equation.", "quantifier": "all numbers of processes, all data, expectations and variances", "why_tests_cant": "unbounded number of processes and all reals", "anchors": ["rabbit/bbstat/bbstat.py:BinByBinStat.profile_and_apply"]}
{"id": "C33", "title": "Iterative gamma full profiling stays positive", "statement": "The starting point and safeguards of the iterative gamma profiling keep every denominator, and hence every scale factor, strictly positive at every iteration, and a fixed point satisfies the joint stationarity condition.", "quantifier": "all iteration counts and all inputs", "why_tests_cant": "invariant over all iterations", "anchors": ["rabbit/bbstat/bbstat.py:BinByBinStat._newton_solve_nbeta", "rabbit/bbstat/bbstat.py:BinByBinStat.profile_and_apply"]}
{"id": "C34", "title": "Bins without Monte Carlo uncertainty are untouched by bin-by-bin profiling", "statement": "Bins or processes with zero Monte Carlo variance or zero yield (or below the configured effective-statistics threshold) keep exactly their prediction under profiling.", "quantifier": "all inputs and modes", "why_tests_cant": "all inputs", "anchors": ["rabbit/bbstat/bbstat.py:BinByBinStat"]}
{"id": "C35", "title": "Covariance with frozen parameters", "statement": "The reported covariance is zero in every row and column of a frozen parameter and equals the inverse of the floating Hessian block elsewhere, each entry at the position of its parameter; the estimated distance to minimum is non-negative for a positive definite Hessian and zero exactly when the floating gradient vanishes.", "quantifier": "all positive definite Hessians and all frozen patterns", "why_tests_cant": "all matrices and subsets", "anchors": ["rabbit/fitter.py:Fitter.edmval_cov", "rabbit/tfhelpers.py:edmval_cov"]}
{"id": "C36", "title": "Linear fits land on the minimum in one step", "statement": "When the fit is linear the single Newton step ends at the exact global minimum of the quadratic likelihood over the floating parameters from any starting point, leaving frozen parameters where they are.", "quantifier": "all quadratic likelihoods, starting points and frozen patterns", "why_tests_cant": "all reals and dimensions", "anchors": ["rabbit/fitter.py:Fitter.minimize"]}
{"id": "C37", "title": "Traditional impacts are bounded by the total uncertainty", "statement": "The traditional impact of a nuisance on a parameter never exceeds in magnitude the parameter's total uncertainty, the impact of a parameter on itself is its uncertainty, a group of one nuisance has the absolute individual impact, adding nuisances to a group never lowers its impact, and no group exceeds the total.", "quantifier": "all covariance matrices, groups and parameters", "why_tests_cant": "matrix inequalities in every dimension", "anchors": ["rabbit/impacts/traditional_impacts.py:impacts_parms", "rabbit/impacts/traditional_impacts.py:_compute_impact_group"]}
{"id": "C38", "title": "Global impacts decompose the total variance", "statement": "In the gaussian approximation the squared impacts of the constrained nuisances' global observables, of the bin-by-bin statistics and of the data sum exactly to the total variance of the parameter; each part is non-negative; a group's squared impact is the sum over its members.", "quantifier": "all Hessians and constraint patterns", "why_tests_cant": "matrix identity in every dimension", "anchors": ["rabbit/impacts/global_impacts.py", "rabbit/fitter.py:Fitter._dxdvars"]}
{"id": "C39", "title": "Impact columns carry the labels of what they hold", "statement": "In every grouped impact table column k holds the impact of the group named by label k on the axis written to the output, for every combination of statistics, bin-by-bin and parameter-group options.", "quantifier": "all group lists and option combinations", "why_tests_cant": "alignment for every combination", "anchors": ["rabbit/workspace.py:getGroupedImpactsAxes", "rabbit/impacts/traditional_impacts.py:impacts_parms", "rabbit/impacts/global_impacts.py"]}
{"id": "C40", "title": "Non-profiled impacts name the right parameter and group", "statement": "Each row of the non-profiled impact table is the response to shifting the parameter named by that row's label, and a group's envelope covers exactly the frozen members of that group.", "quantifier": "all freeze histories, model-parameter counts and groups", "why_tests_cant": "alignment between index spaces for all histories", "anchors": ["rabbit/impacts/nonprofiled_impacts.py:nonprofiled_impacts_parms", "rabbit/impacts/nonprofiled_impacts.py:_envelope"]}
{"id": "C41", "title": "Impact and scan procedures leave the fit state as they found it", "statement": "After global asymmetric impacts, grouped asymmetric impacts, contour scans or likelihood scans return, the parameter values, constraint centres and the set of frozen parameters are what they were before the call, even when individual refits fail.", "quantifier": "all pre-states, all minimiser behaviours including failures", "why_tests_cant": "all failure patterns and histories", "anchors": ["rabbit/impacts/global_asym_impacts.py", "rabbit/impacts/asym_impacts.py", "rabbit/fitter.py:Fitter.contour_scan", "rabbit/fitter.py:Fitter.nll_scan", "rabbit/fitter.py:Fitter.nll_scan2D"]}
{"id": "C42", "title": "Two-dimensional scans visit every grid point exactly once", "statement": "The two-dimensional likelihood scan evaluates every grid point exactly once, starting at the best-fit point and moving between neighbouring points.", "quantifier": "all grid sizes", "why_tests_cant": "unbounded grid size", "anchors": ["rabbit/fitter.py:Fitter.nll_scan2D"]}
{"id": "C43", "title": "One-dimensional scans are anchored at the best fit", "statement": "The one-dimensional scan returns one value per scan point, has value zero at the central best-fit point and each point is refitted starting from its neighbour nearer to the best fit.", "quantifier": "all scan sizes", "why_tests_cant": "unbounded sizes", "anchors": ["rabbit/fitter.py:Fitter.nll_scan"]}
{"id": "C44", "title": "Contour warm start lies on the contour", "statement": "For a quadratic likelihood the starting point of the contour scan of a parameter is exactly the point of the requested likelihood level that is extremal in that parameter, with frozen parameters held.", "quantifier": "all positive definite Hessians, levels and parameters", "why_tests_cant": "all matrices", "anchors": ["rabbit/fitter.py:Fitter.contour_scan"]}
{"id": "C45", "title": "Composite models factorise", "statement": "A composite of parameter models lists all POIs of all components first and then all their nuisance parameters, hands every component exactly its own sub-vector, and its rate factor is the product of the component factors.", "quantifier": "all numbers and sizes of component models", "why_tests_cant": "unbounded number of components with every POI/POU split", "anchors": ["rabbit/param_models/param_model.py:CompositeParamModel"]}
{"id": "C46", "title": "Mixture models conserve the total and act on the named processes", "statement": "A mixture model rescales each primary process by its parameter and its complementary partner so that the sum of the two nominal yields is conserved in every bin, and the parameter named after a primary process acts on that process.", "quantifier": "all process orders and parameter values", "why_tests_cant": "all permutations of the user's process list", "anchors": ["rabbit/param_models/param_model.py:Mixture"]}
{"id": "C47", "title": "ABCD background relation holds", "statement": "The ABCD model predicts region D such that rate_A*rate_C = rate_B*rate_D bin by bin (on yields with yield correction), acts on no other bin or process, and its i-th parameter is named after the bin it scales.", "quantifier": "all channel shapes, region selections and parameter values", "why_tests_cant": "all shapes and reals", "anchors": ["rabbit/param_models/abcd_model.py:ABCD", "rabbit/param_models/abcd_model.py:_get_global_indices", "rabbit/param_models/extended_abcd_model.py:ExtendedABCD"]}
{"id": "C48", "title": "Smooth ABCD uses Chebyshev polynomials on the unit interval", "statement": "The smooth ABCD rates are exponentials of Chebyshev polynomials of the bin centre mapped linearly from the axis edges to [-1,1], hence strictly positive and equal to one at the default parameters; the basis satisfies T_k(cos t)=cos(k t).", "quantifier": "all orders, axes and coefficients", "why_tests_cant": "all orders", "anchors": ["rabbit/param_models/smooth_abcd_model.py:SmoothABCD", "rabbit/param_models/smooth_extended_abcd_model.py:SmoothExtendedABCD"]}
{"id": "C49", "title": "Bernstein and axis models start at the nominal and stay positive", "statement": "Axis-normalisation and Bernstein shape models give rate factor one at their default parameters, act only on the selected processes and channels, and a Bernstein model with non-negative coefficients is non-negative everywhere on the axis and bounded by its extreme coefficients.", "quantifier": "all orders, coefficients and bin positions", "why_tests_cant": "all orders and reals", "anchors": ["rabbit/param_models/param_model.py:AxisBernsteinModel", "rabbit/param_models/param_model.py:AxisNormModel"]}
{"id": "C50", "title": "Projection preserves the total and commutes with summing processes", "statement": "Projecting a channel on a subset of its axes sums exactly the bins that share the kept coordinates: totals are preserved, projecting onto all axes is the identity, projecting twice is the same as projecting once onto the smaller set, and projecting the process sum equals the sum of projections; Normalize makes the result sum to one.", "quantifier": "all channel shapes, axis subsets and contents", "why_tests_cant": "all shapes", "anchors": ["rabbit/mappings/project.py:Project", "rabbit/mappings/project.py:Normalize"]}
{"id": "C51", "title": "Axis selections select what they say", "statement": "A term selection with indices, slices and rebinning keeps exactly the requested bins, merging groups of bins without loss, and selections of different axes commute.", "quantifier": "all shapes, slices and contents", "why_tests_cant": "all shapes", "anchors": ["rabbit/mappings/helpers.py:parse_axis_selection", "rabbit/mappings/helpers.py:Term.select", "rabbit/tfhelpers.py:segment_sum_along_axis"]}
{"id": "C52", "title": "Ratio and asymmetry observables", "statement": "Ratio, normalised ratio, asymmetry and difference mappings return num/den, normalised num/den, (a-b)/(a+b) and a-b of the selected bins; a common rescaling of both terms leaves ratio and asymmetry unchanged, exchanging the terms inverts the ratio and flips the sign of the asymmetry.", "quantifier": "all selections and yields", "why_tests_cant": "all reals", "anchors": ["rabbit/mappings/ratio.py:Ratio", "rabbit/mappings/ratio.py:Asymmetry", "rabbit/mappings/ratio.py:Difference"]}
{"id": "C53", "title": "Composite mappings are the concatenation of their parts", "statement": "The output of a composite mapping is the concatenation, in order, of what each component mapping returns on its own, and the channel ranges recorded for the composite address exactly the component outputs.", "quantifier": "all lists of component mappings", "why_tests_cant": "unbounded lists, order dependence", "anchors": ["rabbit/mappings/mapping.py:CompositeMapping"]}
{"id": "C54", "title": "Output histograms slice the flat result per channel", "statement": "When a flat result over all channels is stored, each channel's histogram receives exactly its own consecutive segment, segments do not overlap and cover the result, and masked channels consume no entries of data vectors.", "quantifier": "all channel lists, sizes and masked flags", "why_tests_cant": "all layouts", "anchors": ["rabbit/workspace.py:Workspace.add_expected_hists", "rabbit/workspace.py:Workspace.add_observed_hists"]}
{"id": "C55", "title": "Curvature regularisation penalises only curvature", "statement": "The regularisation penalty is non-negative, zero when the spectrum equals the expected spectrum or any constant multiple of it, and in one dimension it vanishes only if the ratio to the expected spectrum is constant.", "quantifier": "all spectra and lengths", "why_tests_cant": "all lengths and reals", "anchors": ["rabbit/regularization/svd.py:SVD", "rabbit/regularization/regularizer.py"]}
{"id": "C56", "title": "Gaussian CLs limits solve the CLs equation", "statement": "The expected gaussian limit at background quantile b solves CLs+b = alpha*CLb exactly, limits increase with the quantile and as alpha decreases, and the observed-limit root condition is equivalent to CLs = alpha.", "quantifier": "all best fits, uncertainties, levels and quantiles and any strictly increasing continuous normal distribution function", "why_tests_cant": "all reals", "anchors": ["bin/rabbit_limit.py:do_asymptotic_limits", "rabbit/asymptotic_limits.py:compute_gaussian_limit", "rabbit/asymptotic_limits.py:compute_likelihood_limit"]}
{"id": "C57", "title": "Every requested fit gets its own result entry", "statement": "Each (fit, pseudo-data set) combination requested on the command line is stored under a key made of exactly its own fit label and pseudo-data name, and different combinations get different keys.", "quantifier": "all lists of requested toys and pseudo-data names", "why_tests_cant": "depends on the loop history", "anchors": ["bin/rabbit_fit.py:main", "rabbit/workspace.py:Workspace.dump_obj"]}
{"id": "C58", "title": "Pseudo-data selection", "statement": "Requesting pseudo-data by name returns exactly those sets, in the requested labelling, with the values that were stored under that name; unknown names raise.", "quantifier": "all stored and requested name lists", "why_tests_cant": "all lists and orders", "anchors": ["rabbit/inputdata.py:FitInputData", "rabbit/tensorwriter.py:TensorWriter.add_pseudodata"]}
{"id": "C59", "title": "Re-deriving templates from a tensor and writing them again is lossless", "statement": "Reading a tensor, reconstructing up and down templates and adding them to a new tensor (as the merge tool does) gives the same predicted yields for every nuisance value.", "quantifier": "all tensors and nuisance values", "why_tests_cant": "round trip over all contents", "anchors": ["bin/merge_inputs.py:main", "rabbit/debugdata.py:FitDebugData", "rabbit/tensorwriter.py:TensorWriter.add_systematic"]}
{"id": "C60", "title": "Datacards are read completely", "statement": "Every process rate, observation and systematic line of a text datacard, whatever the order of the sections, is represented in the parsed card; nothing is dropped silently.", "quantifier": "all datacards", "why_tests_cant": "all texts", "anchors": ["rabbit/datacard_parser.py:DatacardParser", "rabbit/datacard_converter.py:DatacardConverter"]}
{"id": "C61", "title": "Result readers filter consistently", "statement": "Filtering nuisances by keep and exclude expressions returns labels, pulls, constraints and impacts that stay aligned with each other: entry i of every returned array belongs to label i.", "quantifier": "all label lists and expressions", "why_tests_cant": "all filters", "anchors": ["rabbit/io_tools.py:_filter_nuisance_data", "rabbit/io_tools.py:get_pulls_and_constraints", "rabbit/io_tools.py:read_impacts_poi"]}
{"id": "C62", "title": "Fit iterations never end on a non-finite or worse point", "statement": "If the minimiser raises, the fit keeps the last parameter vector recorded by the callback; a NaN loss stops the fit; early stopping triggers only after the configured number of iterations without improvement.", "quantifier": "all loss sequences and failure points", "why_tests_cant": "all sequences and crash points", "anchors": ["rabbit/fitter.py:FitterCallback", "rabbit/fitter.py:Fitter.fit"]}
{"id": "C63", "title": "Propagated uncertainties", "statement": "The variance reported for a prediction is J C J^T: non-negative, invariant under reordering of parameters, zero for predictions that do not depend on floating parameters, and the diagonal of the reported covariance equals the reported variances.", "quantifier": "all Jacobians and covariances", "why_tests_cant": "all matrices", "anchors": ["rabbit/fitter.py:Fitter._expected_with_variance", "rabbit/fitter.py:Fitter._expected_variations"]}
{"id": "C64", "title": "Sparse slicing helpers", "statement": "Slicing off the leading rows of a sparse tensor keeps exactly the entries whose row index is below the bound, with unchanged indices and values; segment sums add exactly the entries with the same segment id.", "quantifier": "all sparse tensors and bounds", "why_tests_cant": "all inputs", "anchors": ["rabbit/tfhelpers.py:simple_sparse_slice0end", "rabbit/tfhelpers.py:segment_sum_along_axis"]}
{"id": "C65", "title": "Asymmetric impact tables", "statement": "The scanned sources of the asymmetric global impacts are the constrained nuisances and priored parameters kept by the include and exclude expressions, each row holds the responses of the fit to shifting only the centre of the source named by its label by plus or minus the requested number of prefit widths (zero for a refit that fails), a group covers exactly the rows of its scanned members, and a grouped asymmetric impact adds in quadrature with the interval obtained with the group frozen to the total interval.", "quantifier": "all parameter lists, expressions, minimiser outcomes, groups and intervals", "why_tests_cant": "outcomes of all refits, including failing ones, and all name lists", "anchors": ["rabbit/fitter.py:Fitter.global_asym_impacts_parms", "rabbit/impacts/global_asym_impacts.py:global_asym_impacts_parms", "rabbit/impacts/asym_impacts.py:_quad_subtract"]}
{"id": "C66", "title": "Saturated projection model scales exactly the projected bins", "statement": "The saturated model of a projection has exactly one free parameter per projected bin, named after that bin, and multiplies every bin of the projected channel by the parameter of the bin it is projected into; all other channels are left unchanged.", "quantifier": "For all channel lists, axes, kept axes in any order, masked channels and parameter vectors.", "why_tests_cant": "Tests cover one projection of one tensor; the reshape order and the consecutive slicing depend on the order of axes and channels, which can vary without bound.", "anchors": ["rabbit/param_models/param_model.py:377-446", "bin/rabbit_fit.py:397-466"]}
{"id": "C67", "title": "Angular coefficients are helicity cross sections over the unpolarised one", "statement": "For every channel with a helicity axis and every request on the other axes, the AngularCoefficients mapping returns, in each bin of the remaining axes, the selected content of helicity state i+1 divided by that of helicity state 0 in the same bin; LamTung returns A0 - A2 of these; a common factor on all predictions drops out; a channel without a recognised helicity axis is refused.", "quantifier": "all channels, axis positions, numbers of bins, selections, rebinnings and sums on the other axes, all predicted contents", "why_tests_cant": "The position of the helicity axis after selections, the broadcasting of the denominator and the merging of request dictionaries vary with every request; tests look at one channel layout.", "anchors": ["rabbit/mappings/angular_coefficients.py:25-92", "rabbit/mappings/angular_coefficients.py:131-161"]}
{"id": "C68", "title": "The covariance returned for selected channels belongs to the histograms beside it", "statement": "Reading postfit histograms with their covariance for a selection of channels returns the histograms of exactly these channels, and row and column k of the covariance belong to bin k of these histograms one after the other; a selection that is empty, unknown, repeated or out of order is refused.", "quantifier": "all channel lists, sizes, covariances and selections", "why_tests_cant": "index arithmetic over all selections and sizes", "anchors": ["rabbit/io_tools.py:get_postfit_hist_cov"]}
{"id": "C69", "title": "Up and down columns of impact plots", "statement": "In the tables made for impact plots, the column named up holds the effect of the upward variation and the column named down that of the downward variation, for global asymmetric impacts, non-profiled impacts and contour intervals.", "quantifier": "all fits, sources and parameters", "why_tests_cant": "the bins have no labels; tests compare pictures", "anchors": ["bin/rabbit_plot_pulls_and_impacts.py:readFitInfoFromFile", "rabbit/impacts/global_asym_impacts.py", "rabbit/impacts/nonprofiled_impacts.py", "rabbit/fitter.py:Fitter.contour_scan"]}
{"id": "C70", "title": "Uncertainties of mapped data", "statement": "Data passed through a mapping get the covariance J V J^T, where V is the covariance of the data in whichever way it is given (inverse covariance, variances, or the counts) and J the derivative of the mapping; for projections and selections the variance of an output bin is the sum of the variances of the bins summed into it and different output bins are uncorrelated; mapping twice equals mapping once by the composition.", "quantifier": "all mappings differentiable at the data, all data, variances and invertible covariances", "why_tests_cant": "matrix identity over all shapes, branches of the uncertainty definition and mappings", "anchors": ["rabbit/mappings/mapping.py:Mapping._get_data", "rabbit/mappings/project.py", "rabbit/mappings/mapping.py:Select"]}
{"id": "C71", "title": "Linear chi-square", "statement": "The chi-square is the quadratic form of the residuals with the inverse of their covariance: never negative, independent of coordinates, and not increased by taking linear combinations; for normalised histograms it is the value with one bin left out; in a linear Gaussian fit with all parameters constrained prefit and postfit values are equal and are twice the minimum of the loss. The number of degrees of freedom is the number of independent residuals.", "quantifier": "all residuals, covariances, linear models, parameters and mappings", "why_tests_cant": "real linear algebra of every dimension; rank conditions of derivatives of mappings", "anchors": ["rabbit/fitter.py:Fitter._chi2", "rabbit/fitter.py:Fitter._residuals", "rabbit/fitter.py:Fitter._residuals_profiled", "rabbit/mappings/project.py:Normalize", "rabbit/mappings/ratio.py"]}
{"id": "C72", "title": "Saturated projection test", "statement": "The saturated fit of a projection keeps every parameter of the running fit with its name, start value, constraint weight and centre, adds one free parameter per projected bin that starts at one, contains the running fit as a special case so that the test statistic is not negative, reproduces the observed projection at its minimum, and the number of degrees of freedom is the number of additional free parameters.", "quantifier": "all parameter models, priors, nuisances, toys, projections, likelihoods and external terms", "why_tests_cant": "a nesting of functions over all parameter points, and a statement about minima of arbitrary likelihoods", "anchors": ["bin/rabbit_fit.py:save_hists", "rabbit/param_models/param_model.py:SaturatedProjectModel", "rabbit/fitter.py:Fitter.init_fit_parms"]}
{"id": "C73", "title": "Expected signal", "statement": "An expected signal strength is accepted exactly if it names a parameter, the prediction at the start of the fit uses the requested value of every parameter (one by default, the last request counts) whether or not the parameters are stored as square roots, and templates, systematic variations and composites of models agree on it.", "quantifier": "all parameter lists, requests and sign choices", "why_tests_cant": "all values and orders of repeated requests", "anchors": ["rabbit/param_models/param_model.py:ParamModel.set_param_default", "rabbit/param_models/helpers.py:load_models", "rabbit/fitter.py:Fitter._init_logk_scaled"]}
{"id": "C74", "title": "Reported uncertainties and degrees of freedom", "statement": "After a fit the stored variances of the parameters are the diagonal of the stored covariance, which is the inverse of the Hessian of the floating parameters; without the Hessian the POIs and nuisance parameters of interest get the same variances and the same estimated distance to the minimum, and all other entries are marked as not computed; the number of degrees of freedom of the saturated test is the number of independent directions of the observations that the model cannot follow.", "quantifier": "all options, layouts of parameters, frozen sets, gradients, Hessians and solvers meeting their contract; all linear models", "why_tests_cant": "a relation between two algorithms for all Hessians and solvers, and a dimension count for all models", "anchors": ["bin/rabbit_fit.py:fit", "rabbit/fitter.py:Fitter.edmval_cov_rows_hessfree", "rabbit/fitter.py:Fitter.edmval_cov"]}
{"id": "C75", "title": "L-curve", "statement": "The number reported as curvature of the L-curve at the minimum of the loss for some tau is the curvature of the plane curve of the logarithms of the likelihood and of the penalty, followed along the minima as tau varies; the scan stores this for equally spaced values of tau, each at its own minimum; the optimisation ends only near a stationary point of the curvature that is not a minimum, and stores its curvature.", "quantifier": "all smooth likelihoods and penalties, curves of minima, ranges, numbers of parameters, minimisers meeting their contract", "why_tests_cant": "an identity of second derivatives along an implicitly defined curve, for all likelihoods; the code's expression drops a term which vanishes only at exact minima", "anchors": ["rabbit/regularization/lcurve.py:_compute_curvature", "rabbit/regularization/lcurve.py:l_curve_scan_tau", "rabbit/regularization/lcurve.py:l_curve_optimize_tau"]}
{"id": "C76", "title": "Histograms named by the shape directives of a datacard", "statement": "For a process and a bin of a datacard the directive used is the last one that applies to them; the histogram taken as nominal, as data or as up/down variation is the one stored under the name obtained by putting the process, the bin, the systematic and the mass for the variables of the pattern, at whatever depth of directories, and this is what is handed to the writer.", "quantifier": "all cards, all trees of directories and histograms, all patterns made of text and variables, all names", "why_tests_cant": "the result depends on the combination of all directives of the card (one pattern with a directory changes what is read for all others) and on text replacement for arbitrary names", "anchors": ["rabbit/datacard_converter.py:DatacardConverter.get_histogram", "rabbit/datacard_converter.py:DatacardConverter.load_root_directories", "rabbit/datacard_converter.py:DatacardConverter.convert_to_hdf5"]}
{"id": "C77", "title": "Variations of a masked channel follow the statistical parameters of a fitted channel", "statement": "A registered histogram with the axes of a source and a destination channel is stored in the block of the file given by the bins of the destination, the bins of the source and the process, each entry being the content of the cells with those bins; blocks without registration are zero; and when the fit moves the statistical parameter of a source bin by z standard deviations, the predicted yield of that process in a destination bin moves by z times the registered content, all other processes staying.", "quantifier": "all histories of calls on a writer, all channels, axes, histograms and processes, all positions and sizes of the moves", "why_tests_cant": "the place of a block depends on the order of registration of all channels, masked and fitted, and on sums over axes of arbitrary histograms; the response is a statement about real-valued parameters", "anchors": ["rabbit/tensorwriter.py:TensorWriter.add_beta_variations", "rabbit/tensorwriter.py:TensorWriter.write", "rabbit/bbstat/bbstat.py:BinByBinStat.profile_and_apply", "rabbit/inputdata.py:FitInputData"]}
{"id": "C78", "title": "Fits behind the asymptotic limits", "statement": "An observed limit is computed at a minimum of the likelihood of the data of the current fit (the data, or the toy), an expected limit at a minimum of the likelihood of the prediction of a background-only fit to these data, that is with the signal frozen at zero; after the limits the fitter is as before them: same frozen parameters, and blinded parameters stay blinded throughout.", "quantifier": "all fitters, data, toys, signal parameters, confidence levels and minimisers meeting their contract", "why_tests_cant": "the state of the fitter is shared between the fits of the loop; which of its variables are stale depends on the whole order of calls", "anchors": ["bin/rabbit_limit.py:main", "bin/rabbit_limit.py:do_asymptotic_limits", "rabbit/fitter.py:Fitter.set_nobs", "rabbit/fitter.py:Fitter.freeze_params"]}
{"id": "C79", "title": "Uncertainties given with the data", "statement": "Variances and covariances given with the data to the writer are recovered from the file and are those used in the likelihood of a chi-square or covariance fit, for the data and for toys; without a covariance a covariance fit uses the variances.", "quantifier": "all data, variances, invertible covariances, options of toys and states of the fitter", "why_tests_cant": "the variances may be any numbers; tests with Poisson variances cannot see that others are dropped", "anchors": ["rabbit/tensorwriter.py:TensorWriter.write", "rabbit/inputdata.py:FitInputData", "rabbit/fitter.py:Fitter.__init__", "rabbit/fitter.py:Fitter.set_nobs", "bin/rabbit_fit.py:main"]}
{"id": "C80", "title": "Auxiliary bundles survive writing and reading", "statement": "Bundles of numeric arrays and of one-dimensional lists of strings handed to the writer are read back under their names with the same type, shape and content; a second bundle of a name is refused and changes nothing.", "quantifier": "all sequences of calls, names, keys, arrays, lists and chunk sizes", "why_tests_cant": "names and contents are arbitrary; the file format gives a meaning to some characters and some zeros", "anchors": ["rabbit/auxiliary.py:write_auxiliary_group", "rabbit/auxiliary.py:read_auxiliary_from_h5", "rabbit/tensorwriter.py:TensorWriter.add_auxiliary"]}
{"id": "C81", "title": "Queries and report of the input checker", "statement": "The systematics, processes and channels listed by the queries on an input are exactly those for which an up or down template differs from the nominal one in some bin of the selection; the checker lets an input pass exactly if every bin has enough data and prediction and a moderate uncertainty, every process has events, every systematic and every process varies, and no variation is larger than a factor of two; the numbers in its messages are those of the bins found.", "quantifier": "all dense inputs, selections of channels, processes and systematics", "why_tests_cant": "equivalences for all templates and selections; direction and sign of variations are arbitrary", "anchors": ["rabbit/debugdata.py:FitDebugData.nonzeroSysts", "rabbit/debugdata.py:FitDebugData.channelsForNonzeroSysts", "rabbit/debugdata.py:FitDebugData.procsForNonzeroSysts", "bin/rabbit_debug_inputdata.py:debug_input_data"]}
{"id": "C82", "title": "Text of selections and arguments of mappings", "statement": "A selection written in the documented format (axis:index, axis:None, axis:slice(...), axis:rebin(...), axis:sum, separated by commas outside of parentheses) is accepted, and what is applied to the predictions of every axis is what the text says of it; pieces without exactly one colon are refused. The optional processes and selections of Select, Ratio and AngularCoefficients are each used for what they are, for numerator and denominator separately, and nothing that is given is dropped.", "quantifier": "all texts of the documented format, all axes, all combinations of optional arguments", "why_tests_cant": "an unbounded language of texts; splitting at commas outside of parentheses and optional arguments told apart only by a colon", "anchors": ["rabbit/mappings/helpers.py:parse_axis_selection", "rabbit/mappings/mapping.py:parse_args", "rabbit/mappings/ratio.py:Ratio.parse_args", "rabbit/mappings/angular_coefficients.py:AngularCoefficients.parse_args"]}
{"id": "C83", "title": "Printout of impacts", "statement": "The printout of impacts has one line for every source of the requested kind and one for the total uncertainty, each label beside its own impact (times the scale, relative to the bin if requested); sorted printouts are ordered by the size of the impact; a single requested source is printed with its own impact and an unknown one is refused; for bins of a mapping the impacts of the requested kind are read.", "quantifier": "all fit results, labels, impacts (symmetric or pairs), orders returned by the sort, options", "why_tests_cant": "permutations of labels and arrays of any size; ties in unstable sorts; signs of impacts are arbitrary", "anchors": ["bin/rabbit_print_impacts.py:printImpacts", "bin/rabbit_print_impacts.py:printImpactsParm", "bin/rabbit_print_impacts.py:printImpactsHist", "bin/rabbit_print_impacts.py:main"]}
{"id": "C84", "title": "Tables behind the plots of impacts and pulls", "statement": "The table that is plotted has one row for every requested source (filters, grouping), each with its own impact, pull and constraint, in the requested units (scaled, in units of the total uncertainty, or of the bin), and the total where it applies; with a largest number of rows those with the largest impacts are shown; only the requested channel is plotted, and every plot has its own file.", "quantifier": "all fit results, labels, filters, groupings, kinds of impacts (symmetric or pairs), units, numbers of rows and channels", "why_tests_cant": "labels, masks and orders of arrays of any size have to stay together through several selections; options combine freely", "anchors": ["bin/rabbit_plot_pulls_and_impacts.py:readFitInfoFromFile", "bin/rabbit_plot_pulls_and_impacts.py:readHistImpacts", "bin/rabbit_plot_pulls_and_impacts.py:make_plots", "bin/rabbit_plot_pulls_and_impacts.py:main"]}
{"id": "C85", "title": "Plots of likelihood scans", "statement": "The plot of a scan shows every scanned point with a finite likelihood at its own value of the parameter, in order, with twice its likelihood; the parabola and the ellipse are the curves of the Gaussian approximation given by the covariance, complete and at the requested level, also for scaled parameters; in two dimensions the map shows every point with its own likelihood.", "quantifier": "all scans, covariances that are positive definite, levels, scales", "why_tests_cant": "real-valued geometry with cases of the arc tangent and the eigenvalues; a transposed map goes unnoticed in symmetric examples", "anchors": ["bin/rabbit_plot_likelihood_scan.py", "bin/rabbit_plot_likelihood_scan2D.py"]}
{"id": "C86", "title": "Plots of covariances", "statement": "The plot of a covariance shows, for the parameters, the covariances of the requested ones with their names, and for a mapping the covariance (or correlation) of its bins: of all channels, of every channel its own block, and in every bin of the selection axes the bins of the other axes; correlations are one on the diagonal and never larger than one; without a request all mappings are plotted, each plot with its own file.", "quantifier": "all fit results, mappings with any number of channels and axes, selections of axes, requests", "why_tests_cant": "blocks and strides of matrices over any numbers of channels and axes; a block of another channel looks like any covariance", "anchors": ["bin/rabbit_plot_cov.py:main", "bin/rabbit_plot_cov.py:plot_matrix"]}
{"id": "C87", "title": "Results file", "statement": "The results are written to the file of the given name in the output directory (made if missing), with the default extension if none is given and the postfix before the extension; every object is found again under its mapping, channel and name, the last one if stored twice, groups do not share objects, and a group is never overwritten; histograms with flow bins have in every bin, flow bins included, the value of that bin.", "quantifier": "all paths and postfixes, sequences of stored objects and groups, channels with any axes and further axes", "why_tests_cant": "unbounded sequences of dumps into nested dictionaries; reshapes with one slice added per axis of names; paths with dots in any place", "anchors": ["rabbit/workspace.py:Workspace.__init__", "rabbit/workspace.py:Workspace.dump_obj", "rabbit/workspace.py:Workspace.hist", "rabbit/workspace.py:Workspace.add_hist", "rabbit/workspace.py:Workspace.flush"]}
{"id": "C88", "title": "Outputs of a run", "statement": "A run of the fit stores exactly what its options ask for: observed histograms of the unmasked channels of every mapping with data, predictions before and after the fit with the requested uncertainties, impacts, covariances and tests, the results of the fit, impacts of every requested kind, scans of every requested parameter and pair; nothing else; and everything stored is found again under its name.", "quantifier": "all combinations of the options, mappings with any channels and flags, lists of parameters and pairs to scan", "why_tests_cant": "thirty options that gate each other: the combinations are not enumerable in tests that run fits; names of scans are built from arbitrary names of parameters", "anchors": ["bin/rabbit_fit.py:save_observed_hists", "bin/rabbit_fit.py:save_hists", "bin/rabbit_fit.py:fit", "bin/rabbit_fit.py:main"]}
{"id": "C89", "title": "Options of the merge", "statement": "Merging with tables of new names gives the merge of the inputs under these names (systematics, groups, processes and channels; names without an entry stay, constraints and parameters of interest follow their systematics, also to longer names); clipping raises nominal templates, their variances and varied templates of the named tensors to the threshold and leaves everything else; an incomplete list of thresholds is refused.", "quantifier": "all sets of input tensors, tables of names, lists of thresholds", "why_tests_cant": "arbitrary tables over any number of names, systematics and channels; a name that is cut depends on the lengths of all names of a tensor", "anchors": ["bin/merge_inputs.py:main", "bin/merge_inputs.py:clip_hist", "bin/merge_inputs.py:get_groups_per_syst"]}
{"id": "C90", "title": "Contour scans evaluate at the point asked for", "statement": "In a contour scan every call of the minimiser, in any order and at any points, returns the likelihood relative to the contour, its gradient, its Hessian (or product, or the inverse covariance) and the objective at the point of that call, as without the caches; an unknown Hessian mode is refused; if the minimiser solves its problem, the interval reported is the smallest and the largest displacement of the parameter on the contour; the table of the driver has for every parameter and level the scan with twice the likelihood difference equal to the squared level from the same best fit; for a Gaussian likelihood the interval is the level times the standard deviation.", "quantifier": "all sequences of calls, likelihoods, Hessian modes, lists of parameters and levels", "why_tests_cant": "which calls at which points hit a stale cache depends on the minimiser; the extremal property ranges over all points of the contour", "anchors": ["rabbit/fitter.py:Fitter.contour_scan", "bin/rabbit_fit.py:fit"]}
{"id": "C91", "title": "Plots of histograms show the stored predictions, statistics and variations asked for", "statement": "The plots of predictions and data are those of the channels asked for of the mappings whose keys begin with a request (all by default); each shows the statistic asked for with its degrees of freedom as stored by the fit, stacks every process with its own prediction and name, and shows for every name and group of variations, in the order of the labels, the variation of the other file, the stored variation or the nominal prediction with the impact of the group; with selection axes every bin of the histogram is one bin of exactly one plot and every plot has its own file; scaled to data, prediction and stack have the sum of data and variations are scaled with them; the band of the lower panel is the prediction with its uncertainty relative to the denominator; a scaled variation is the change of the prediction times the factor.", "quantifier": "all result files, mappings, channels, requests, histograms of any axes, lists of files, names, groups and labels, values", "why_tests_cant": "the pairing of curves and labels depends on three lists of any length, the slicing on any number of axes, and the script is not tested at all", "anchors": ["bin/rabbit_plot_hists.py:main", "bin/rabbit_plot_hists.py:make_plots", "bin/rabbit_plot_hists.py:make_plot", "bin/rabbit_plot_hists.py:get_chi2", "rabbit/workspace.py:Workspace.add_chi2"]}
{"id": "C92", "title": "Tables of traditional asymmetric impacts hold the shifts and quadrature differences of the contour scans", "statement": "The nuisances scanned are exactly those the include and exclude expressions select and, if symmetric ones are skipped, whose templates differ up and down, whichever layout the tensor has; each row of the table holds the shifts of all parameters at the lower and upper end of the contour of its nuisance found from the same state (zero where the scan failed); the impact of a group on a target is, for each side, the difference in quadrature of the interval and the interval with the members of the group frozen, 'stat' is the interval with all constrained nuisances frozen and 'Total' the interval itself, not a number in other columns and where a scan failed; the fit is left as it was; for a quadratic likelihood the impact of a group is the grouped impact computed from the covariance.", "quantifier": "all templates in either layout, names, expressions, groups, targets, frozen parameters, outcomes of the minimiser, states, quadratic likelihoods of any dimension", "why_tests_cant": "the impacts depend on a state that is frozen and unfrozen between any number of scans that may fail, and the agreement with the covariance is an identity of matrices of any size", "anchors": ["rabbit/impacts/asym_impacts.py:asymmetric_nuisance_mask", "rabbit/impacts/asym_impacts.py:grouped_asym_impacts", "rabbit/impacts/asym_impacts.py:asym_impacts_parms", "rabbit/fitter.py:Fitter.asym_impacts_parms"]}
{"id": "C93", "title": "Stored variations of predictions are the predictions moved by the uncertainty of one parameter at a time", "statement": "With --computeVariations a run stores for every channel a histogram that holds, in every bin and for every parameter, the prediction minus and plus its derivative times the uncertainty of the parameter, which before a fit comes from the constraint (one for unconstrained parameters) and after a fit from the covariance; computing them leaves the covariance as it was; without covariance they are refused; for predictions linear in the parameters the entries are the predictions with that parameter moved; before a fit their squares add up to the variance of the prediction; and with correlations, for a quadratic likelihood, they are the predictions with that parameter held one uncertainty away and all others fitted again.", "quantifier": "all numbers of channels, axes, parameters; all derivatives, constraints, covariances; quadratic likelihoods of any dimension with any set of frozen parameters", "why_tests_cant": "the entry of a parameter in a bin of a channel depends on the sizes of all channels before it, and the meaning as profiled predictions is a statement about minima over all parameters", "anchors": ["rabbit/fitter.py:Fitter._expected_variations", "rabbit/fitter.py:Fitter.prefit_covariance", "bin/rabbit_fit.py:save_hists", "rabbit/workspace.py:Workspace.add_expected_hists"]}
{"id": "C94", "title": "Plots of the inputs of a fit show the sums of the templates in every slice and for every combination of axes", "statement": "For every channel, every bin of the axes to select on and every combination of the other axes (or those asked for) one plot is made, whose contents are the sums of the templates over all bins of the channel with the bins of the slice and of the plot, for every process of the stack, the prediction, the data and the variations; the curve named after a systematic is the prediction with that systematic up; with --normToData prediction and stack are scaled to the total of the data; with --splitByProcess there is one plot for every process with entries, named by the process; the slices add up to the whole and all plots of a slice have the same total; systematics and processes that the inputs do not have are passed over without mixing up the labels of the others; different plots are different files.", "quantifier": "all numbers of channels, axes, bins, processes and systematics; all templates over any field; all combinations of the options", "why_tests_cant": "that sums over other axes, slices and unrolled bins agree is a statement about all shapes and all orders of axes, and which template reaches which curve depends on the order of arguments through two functions", "anchors": ["bin/rabbit_plot_inputdata.py:make_plots", "bin/rabbit_plot_inputdata.py:make_plot", "bin/rabbit_plot_inputdata.py:main"]}
{"id": "C95", "title": "Expected limits from the likelihood are the largest values on the contour of the Asimov likelihood, and agree with the Gaussian limits for a Gaussian likelihood", "statement": "For every limit, level and quantile one scan of the likelihood of the Asimov data is made, at the level given by the squared distance of the normal quantiles of clb and cls*clb, each from the fitted values; the stored number is the largest value on that contour of the parameter (of the signal strength if the parameter is stored as a square root), or of the observable if there is a mapping; a failed search gives NaN; for a quadratic likelihood it is the limit of the Gaussian mode; the name of a limit on a mapping is only a label; unknown parameters are refused; the fitter is left as it was.", "quantifier": "all likelihoods, observables, fitted values, frozen parameters, lists of limits, levels and quantiles; all minimisers (exact ones for the values)", "why_tests_cant": "the stored number is off by the fitted value, which is invisible in every test with a fitted value of zero and plausible otherwise; agreement of the two modes is a statement about all Hessians and levels", "anchors": ["bin/rabbit_limit.py:do_asymptotic_limits", "rabbit/fitter.py:contour_scan"]}
{"id": "C96", "title": "The observed limit from the likelihood is the largest value of the parameter whose profiled CLs is at least the level", "statement": "The vector of the search stands for the parameters of the data fit and of the Asimov fit with a common value of the parameter of the limit, and every vector of the right length stands for exactly one such pair; the search starts from the data fit and a fit to the Asimov data at the same value; the constraint is satisfied exactly where CLs is at least the level; if the search finds the constrained optimum, the limit is the largest value of the parameter for which CLs, with all other parameters of both fits profiled, is at least the level; the derivatives handed to the search are those of the objective and of the constraint; fits with different numbers of parameters are possible; a failed search is not reported as a limit.", "quantifier": "all likelihoods with attained profiles, all numbers and positions of parameters, all levels, all vectors", "why_tests_cant": "that an optimisation over the union of two sets of nuisance parameters gives the profiled limit needs monotonicity of CLs in both test statistics for all values; wrong derivatives only slow down or divert the search", "anchors": ["rabbit/asymptotic_limits.py:compute_likelihood_limit", "rabbit/tfhelpers.py:normal_pdf"]}
{"id": "C97", "title": "A call of the writer that raises leaves the writer as it was", "statement": "Whenever add_channel, add_pseudodata, add_data, add_process, add_systematic, add_norm_systematic or write raises, nothing that was registered before is changed and nothing is registered, so that a caller who catches the exception can repeat the call with corrected input, and the file is the one that the accepted calls alone give.", "quantifier": "all histories of calls including refused ones, all inputs of the refused call", "why_tests_cant": "what a refused call leaves behind shows up only in later calls and in the written file, for particular combinations of refused and accepted calls", "anchors": ["rabbit/tensorwriter.py:add_channel", "rabbit/tensorwriter.py:add_data", "rabbit/tensorwriter.py:add_pseudodata", "rabbit/tensorwriter.py:add_process", "rabbit/tensorwriter.py:add_norm_systematic", "rabbit/tensorwriter.py:add_systematic", "rabbit/tensorwriter.py:_compute_asym_syst", "rabbit/tensorwriter.py:book_systematic", "rabbit/tensorwriter.py:write"]}
{"id": "C98", "title": "A complete input can be written", "statement": "If the histograms of all calls have the number of bins of their channel, every fitted channel has data and every set of pseudo-data, and no process is both signal and background, then write succeeds, whatever calls came before (refused ones included) and in whatever order sets are traversed; conversely a write that succeeds shows that the input was complete.", "quantifier": "all histories of calls including refused ones, all iteration orders of sets, all numbers of channels, processes, nuisances and bins; dense tensors, and sparse ones from plain histograms", "why_tests_cant": "that write never fails is a statement about every combination of calls; failures need particular combinations of options such as masked channels with a data covariance", "anchors": ["rabbit/tensorwriter.py:write", "rabbit/tensorwriter.py:add_pseudodata", "rabbit/tensorwriter.py:_check_hist_and_channel", "rabbit/tensorwriter.py:get_systs", "rabbit/tensorwriter.py:get_groups"]}
{"id": "C99", "title": "A fit treated as linear has a quadratic likelihood", "statement": "Whenever is_linear holds for the structure of the fit (and not because of --forceLinear), the negative log-likelihood including profiled bin-by-bin parameters, constraints, regularization and external terms is one fixed polynomial of degree two in the fit parameters, so that the single step of the linear branch, from any starting point, ends at its minimum; the parameter models that report is_linear have rates affine in their parameters, also in composites.", "quantifier": "all numbers of bins, processes and parameters, all templates and data, all parameter values, dense and sparse, chi-square and covariance fits, lite and full bin-by-bin parameters, all regularizers with affine mappings, all external terms", "why_tests_cant": "a single step gives some point for every likelihood; that it is the minimum depends on the likelihood being quadratic everywhere, while tests compare at the points they reach", "anchors": ["rabbit/fitter.py:is_linear", "rabbit/fitter.py:minimize", "rabbit/fitter.py:_compute_loss", "rabbit/bbstat/bbstat.py:is_linear", "rabbit/param_models/param_model.py:CompositeParamModel", "bin/rabbit_fit.py:main"]}
{"id": "C100", "title": "Options are resolved to a combination that the libraries can run, and to the one that was asked for", "statement": "Every accepted combination of options is resolved to something TensorFlow can run (no compilation and no forward derivative with sparse templates, no compilation around a forward derivative); with dense templates the resolved settings are those that were asked for; the data term and the type and mode of the bin-by-bin parameters are the ones named, 'automatic' being gamma except for a data covariance; every minimiser gets the derivatives it needs and exactly the limits that were given, and the library's defaults where none was given.", "quantifier": "all combinations of options, dense and sparse input, with and without data covariance, all minimiser names and limits", "why_tests_cant": "the options combine to some thousand cases, of which the wrong ones do not crash but silently give zero derivatives, another likelihood or another tolerance", "anchors": ["rabbit/fitter.py:__init__", "rabbit/fitter.py:_make_tf_functions", "rabbit/fitter.py:minimize", "rabbit/bbstat/bbstat.py:__init__", "rabbit/parsing.py:common_parser"]}
{"id": "C101", "title": "The fit to the Asimov data closes", "statement": "With the data that `-t -1` makes (the expectation at the default parameters, unprofiled, with the regularizers compared to their own expectation) every term of the likelihood is zero at these parameters, so that only external terms remain; it is negative nowhere in the domain of the logarithms, and where it is zero, all constrained parameters are at their defaults and the expectation is the data.", "quantifier": "all templates, dense and sparse, all parameter models, the Poisson, chi-square and covariance fits, every type and mode of the bin-by-bin parameters, all priors, all regularizers, all parameter values", "why_tests_cant": "a test closes one fit with one set of templates; whether each closed form of the profiled bin-by-bin parameters returns the centre exactly when data and expectation agree, in every fit type and for empty bins too, and whether nothing else is as small, is a statement about all templates", "anchors": ["bin/rabbit_fit.py:main", "rabbit/fitter.py:defaultassign", "rabbit/fitter.py:set_nobs", "rabbit/fitter.py:expected_yield", "rabbit/fitter.py:_compute_loss", "rabbit/bbstat/bbstat.py:default_beta0", "rabbit/bbstat/bbstat.py:profile_and_apply"]}
{"id": "C102", "title": "What is not fitted, how templates are stored and the order of the processes do not change the likelihood", "statement": "The value of the likelihood at every parameter point is the same whatever masked bins hold and however many there are, whether the templates are stored dense or sparse, and in whatever order the processes come (with their templates, statistics, β centres and rate columns).", "quantifier": "all templates, parameter models, fit types, bin-by-bin types and modes, priors and parameter values; all numbers and contents of masked bins; all permutations of the processes; dense and sparse storage", "why_tests_cant": "a test compares a few stored tensors; that the profiled bin-by-bin parameters, their constraint (summed over all bins, masked ones included), the covariance solve over all bins and the broadcasting of rates all ignore these choices is a statement about all inputs", "anchors": ["rabbit/fitter.py:_compute_yields_noBBB", "rabbit/fitter.py:_init_logk_scaled", "rabbit/fitter.py:_compute_loss", "rabbit/bbstat/bbstat.py:profile_and_apply", "rabbit/bbstat/bbstat.py:lbeta"]}
{"id": "C103", "title": "The likelihood that is minimised is the one the calls on the writer describe", "statement": "For calls that are accepted and describe an analysis by names (channels with bins, signals and backgrounds, templates, variations each given at most once per channel, process and nuisance, normalisations, constraints, data), written with log-normal variations and read back by a Poisson fit with the default parameter model: the loss at every parameter point is, up to one constant, the sum over the fitted channels and bins of expected minus observed times the logarithm of expected events plus half the square of each constrained nuisance, with the expected events built from the templates, variations, signal strengths and nuisances of the same names. Two histories describing the same analysis give the same loss up to a constant.", "quantifier": "all histories of writer calls in any order, any number and kind of channels (masked ones included), processes, nuisances and symmetrisations, all hash orders of sets, all defaults of the signal strengths, all parameter values", "why_tests_cant": "a test compares one input file with one hand-written likelihood; that offsets of channels, order of processes and nuisances, indices of parameters, constraint weights, interpolation and data always meet under the same name is a statement about all histories of calls", "anchors": ["rabbit/tensorwriter.py:write", "rabbit/tensorwriter.py:add_systematic", "rabbit/tensorwriter.py:add_norm_systematic", "rabbit/inputdata.py:FitInputData", "rabbit/param_models/param_model.py:Mu", "rabbit/fitter.py:_compute_loss"]}
{"id": "C104", "title": "With template statistics the loss of a written file is the profile likelihood the calls describe", "statement": "For calls that are accepted and describe an analysis by names with a variance for each template, written with log-normal variations and read back by a Poisson fit with one bin-by-bin parameter per bin (gamma, the default, Gaussian factor or Gaussian shift): at every parameter point at which the processes with a variance are present in the bins that have such a parameter, the loss is, up to one constant, the smallest value over the bin parameters of the negative log-likelihood in which the parameter scales exactly the templates with a variance (or shifts the bin by its standard deviation) and is constrained by the number of equivalent unweighted events of the bin.", "quantifier": "all histories of writer calls, all variances given with the templates or separately, all three types of the bin-by-bin treatment, all data, all parameter values with positive yields of the processes with variance, all admissible bin parameters", "why_tests_cant": "a test compares the closed form with a numerical minimisation in some bins of one file; that the closed form is the minimum for all yields, and that variances, nominal sums, data and offsets of the same channel and process meet in each bin, is a statement about all files and points", "anchors": ["rabbit/bbstat/bbstat.py:BinByBinStat.__init__", "rabbit/bbstat/bbstat.py:profile_and_apply", "rabbit/bbstat/bbstat.py:lbeta", "rabbit/tensorwriter.py:add_process", "rabbit/fitter.py:_compute_loss"]}
{"id": "C105", "title": "A datacard with shapes is fitted with the likelihood it describes", "statement": "For a datacard that is read, converted and written (log-normal type, dense mode) with the histograms of its files, the loss the fit builds from the file is, up to one constant, the negative log-likelihood that the card describes: Poisson counts of the data_obs histograms, expectations from the histograms of the processes (negative contents set to zero) with signal strengths for exactly the processes of index <= 0, log-normal responses for every entry of the lnN rows (half the log ratio for a down/up pair), responses to the Up and Down histograms for every entry of the shape rows with the symmetrisation asked for, a free normalisation of one per cent per unit for rate parameters, and unit Gaussian constraints for all other nuisances except shapeU.", "quantifier": "all cards, all trees of histograms, all numbers of bins, channels, processes, rows and entries, all symmetrisations, all iteration orders of sets, all parameter points", "why_tests_cant": "a test compares one card with one reference implementation at a few points; that every entry of every row reaches the right bin, process and nuisance of the loss, and nothing else does, is a statement about all cards and points through parser, converter, writer, reader and fitter together", "anchors": ["rabbit/datacard_converter.py:DatacardConverter.convert_to_hdf5", "rabbit/datacard_converter.py:get_histogram", "bin/rabbit_text2hdf5.py:main", "rabbit/tensorwriter.py:add_norm_systematic", "rabbit/tensorwriter.py:add_systematic", "rabbit/tensorwriter.py:write", "rabbit/fitter.py:_compute_loss"]}
{"id": "C106", "title": "The Asimov fit of a written file gives the requested signal strengths back", "statement": "For calls on the writer that are accepted and describe an analysis by names (or a converted datacard that describes one), written with log-normal variations and read back by a Poisson fit: the Asimov data are in every fitted bin the expectation that the calls describe for the signal strengths asked for with --expectSignal (one otherwise) and all nuisances at zero, and the loss of the fit is the likelihood of the analysis with these data. If these expectations are not negative, the loss at the start values is the smallest of all points where it is a number, and it is reached exactly where all constrained nuisances are zero and every bin has the same expectation. If all nuisances are constrained and no combination of the nominal signals vanishes in all fitted bins, it is reached only at the requested strengths with all nuisances at zero.", "quantifier": "all histories of writer calls, all cards, all requested strengths, squared or signed parameters of interest, all iteration orders of sets, all parameter points with expectations for which the likelihood is a number", "why_tests_cant": "a closure test fits one file and compares the result within tolerances; that no other point has the same or a smaller loss, and that data and expectations are those of the same channel, process and bin for every file, is a statement about all points and all files", "anchors": ["bin/rabbit_fit.py:main", "rabbit/fitter.py:expected_yield", "rabbit/fitter.py:set_nobs", "rabbit/param_models/param_model.py:set_param_default", "rabbit/tensorwriter.py:write", "rabbit/fitter.py:_compute_loss"]}
{"id": "C107", "title": "Well-formed histories of calls are accepted and give a file", "statement": "A caller who keeps to the rules (new names for channels, flow bins only for masked ones, histograms with the axes of the channel and one content and variance per bin, contents that are numbers, variances not negative, one data histogram per channel, one template per process and channel, variations of registered processes only, single variations mirrored, one uncertainty or one per process) sees no exception from any call in dense mode. If in addition every fitted channel has data and all sets of pseudo-data, no name is both signal and background, and no call contributes to the data covariance, writing succeeds, and the data covariance in the file is the one given last, if any. If the calls describe an analysis, the loss built from the file is its likelihood. Calls that add data, pseudo-data or a process a second time, or vary a process that is not registered, are not accepted.", "quantifier": "all histories of writer calls of any length, all channels, histograms, names and options, all iteration orders of sets, all parameter points", "why_tests_cant": "tests run a few scripts that happen to work; that no order or combination of legitimate calls, with masked channels, pseudo-data, symmetrisations and normalisations, ends in an exception is a statement about all histories", "anchors": ["rabbit/tensorwriter.py:add_channel", "rabbit/tensorwriter.py:add_data", "rabbit/tensorwriter.py:add_pseudodata", "rabbit/tensorwriter.py:add_process", "rabbit/tensorwriter.py:add_systematic", "rabbit/tensorwriter.py:add_norm_systematic", "rabbit/tensorwriter.py:_check_hist_and_channel", "rabbit/tensorwriter.py:write"]}
{"id": "C108", "title": "A complete datacard is converted and fitted with its likelihood", "statement": "A datacard with shapes that describes an analysis (as in C105) and is complete (columns for every bin, each process once; the histograms of a bin share the axes of its observation; variances not negative; values and ranges of rate parameters are numbers; entries are for processes of the bin) is converted and written without exception. The file has no data covariance, and the loss built from it is the likelihood of the card up to one constant. A rate parameter for all bins acts in the bins that have the process.", "quantifier": "all cards, all trees of histograms, all numbers of bins, processes, rows and entries, all symmetrisations, all iteration orders of sets, all parameter points", "why_tests_cant": "a test converts a handful of cards; that no complete card makes the parser, the converter or the writer raise is a statement about all of them", "anchors": ["rabbit/datacard_converter.py:DatacardConverter.convert_to_hdf5", "bin/rabbit_text2hdf5.py:main", "rabbit/tensorwriter.py:add_norm_systematic", "rabbit/tensorwriter.py:write"]}
{"id": "C109", "title": "The Asimov fit with template statistics gives the requested signal strengths back", "statement": "As C106, with the statistical uncertainty of the templates (one parameter per bin, gamma, multiplicative or additive normal constraint): the Asimov data are the expectation that the calls or the card describe for the requested strengths, with the templates as they are, and the loss is the likelihood with these data at its minimum over the parameters of the bins. If the requested strengths give no negative expectation and leave a positive sum of the processes with a variance in every bin with a parameter, the loss at the start values is the smallest of all points where it is a number, and it is reached exactly where all constrained nuisances are zero and every bin has the same expectation; with all nuisances constrained and independent signals, only at the requested strengths.", "quantifier": "all histories of writer calls, all cards, all variances that are not negative, all three kinds of constraint, all requested strengths, squared or signed parameters of interest, all iteration orders of sets, all parameter points with expectations for which the likelihood is a number", "why_tests_cant": "a closure test fits one file with one kind of constraint and compares within tolerances; that the profiled parameters never make another point as good is a statement about all points and all files", "anchors": ["bin/rabbit_fit.py:main", "rabbit/fitter.py:expected_yield", "rabbit/fitter.py:set_nobs", "rabbit/bbstat/bbstat.py:profile_and_apply", "rabbit/tensorwriter.py:write", "rabbit/fitter.py:_compute_loss"]}
{"id": "C110", "title": "Plots of uncertainties show the stored impacts and the total uncertainty of every bin", "statement": "There is one plot for every choice of bins of the selection axes. It has one curve for every source of uncertainty that passes the filter and belongs to the grouping, in the order of the file, under its name and in its own colour: its stored impact on the bins of the plot, as it is or in percent of the prediction. The total uncertainty is shown when it is asked for and not declined: the standard deviation of the stored prediction, as it is or in percent, so that curves stand to it as impacts to the standard deviation. Impacts that are asked for but not stored are reported; a fit that stores impacts stores the prediction with its variances; plots of different content are different files.", "quantifier": "all histograms with any axes, all sources, filters, groupings, selections of axes, both definitions of impacts, absolute and relative", "why_tests_cant": "images are not compared in tests; a wrong bin, a wrong normalisation or a missing source can only be seen by comparing with the file for every choice of options", "anchors": ["bin/rabbit_plot_hists_uncertainties.py:make_plots", "bin/rabbit_plot_hists_uncertainties.py:make_plot", "bin/rabbit_plot_hists_uncertainties.py:main", "rabbit/workspace.py:add_expected_hists"]}
{"id": "C111", "title": "Chi-square and covariance fits of a written file minimise what the calls describe", "statement": "For calls that are accepted and describe an analysis by names, written with log-normal variations: the chi-square fit minimises exactly half the sum over the fitted bins of the squared difference of expected and observed events over the variance given with the data, and the covariance fit exactly half the quadratic form of the differences with the inverse of the covariance given (rows and columns being the bins of the fitted channels in the order of their calls), both plus the constraints of the nuisances, with the parameters at the places of their names. Without a covariance the variances of the data are used; nuisances booked into the covariance can be fitted beside masked channels; bins without events can be fitted if their variance is given.", "quantifier": "all histories of calls, numbers of channels, bins, processes and nuisances, all parameter points, all invertible covariances", "why_tests_cant": "a wrong order of the channels in the covariance, or variances taken from elsewhere, give a fit that converges; only the comparison with the intended quadratic form for every input shows it", "anchors": ["rabbit/fitter.py:Fitter.__init__", "rabbit/fitter.py:set_nobs", "rabbit/fitter.py:_compute_ln", "rabbit/tensorwriter.py:add_data_covariance", "rabbit/tensorwriter.py:write", "bin/rabbit_fit.py:main"]}
{"id": "C112", "title": "A nuisance booked into the data covariance acts as if it were profiled", "statement": "For accepted calls with a positive definite data covariance, written as they are and with add_to_data_covariance left out everywhere: at every point the loss of the covariance fit to the first file is the smallest value that the loss of the covariance fit to the second takes when the nuisances of the covariance vary and all other parameters, found by their names, are kept. So the smallest values of the two losses are the same. A nuisance asked for without constraint has none in either file.", "quantifier": "all histories of calls, numbers of channels, bins, processes and nuisances, all parameter points, all positive definite covariances, all iteration orders of sets", "why_tests_cant": "a wrong sign, scale or order of a template in the covariance shifts uncertainties only; the equivalence holds between minima of functions of all parameters and has to be proved by algebra", "anchors": ["rabbit/tensorwriter.py:book_systematic", "rabbit/tensorwriter.py:add_systematic", "rabbit/tensorwriter.py:add_norm_systematic", "rabbit/tensorwriter.py:write", "rabbit/fitter.py:_compute_ln", "rabbit/fitter.py:_compute_lc", "rabbit/fitter.py:_compute_yields_noBBB"]}
{"id": "C113", "title": "With additive variations the likelihood that is minimised is the one the calls describe", "statement": "For calls that are accepted and describe an analysis by names, written with the normal (additive) type and read back by a Poisson fit with the default parameter model: the loss at every parameter point is, up to one constant, the sum over the fitted channels and bins of expected minus observed times the logarithm of expected events plus half the square of each constrained nuisance. The expected events are the nominal templates times the strengths of their signals plus the variations of all nuisances, those of a signal scaled by its default strength.", "quantifier": "all histories of writer calls in any order, any number and kind of channels (masked ones included), processes, nuisances and symmetrisations, all hash orders of sets, all defaults of the signal strengths, all parameter values", "why_tests_cant": "a test compares one input file with one hand-written likelihood; that offsets of channels, order of processes and nuisances, interpolation, scaling by default rates and masking of empty bins always meet under the same name is a statement about all histories of calls", "anchors": ["rabbit/tensorwriter.py:write", "rabbit/tensorwriter.py:book_logk", "rabbit/tensorwriter.py:add_systematic", "rabbit/tensorwriter.py:add_norm_systematic", "rabbit/fitter.py:_init_logk_scaled", "rabbit/fitter.py:_compute_yields_noBBB", "rabbit/fitter.py:_compute_loss"]}
{"id": "C114", "title": "With additive symmetric variations the minimum that is found is the smallest value", "statement": "For calls that are accepted and describe an analysis by names, written with the normal (additive) type and without pairs of templates that are not symmetrised, and fitted with signal strengths of either sign to data that are not negative: on the set of points at which every fitted bin expects events, which is convex, the loss is a convex function. A point of that set that no point nearby improves is not improved by any other. Two minima agree in every constrained nuisance and in the expected events of every bin that has data.", "quantifier": "all histories of writer calls, any number of channels, processes and nuisances, all hash orders of sets, all defaults of the strengths, all data, all pairs of points", "why_tests_cant": "a minimiser that stops at a point gives no information about the rest of the space; no number of starting points shows that there is no lower value", "anchors": ["rabbit/tensorwriter.py:write", "rabbit/tensorwriter.py:get_logk", "rabbit/fitter.py:_compute_yields_noBBB", "rabbit/fitter.py:_compute_loss", "rabbit/fitter.py:minimize"]}
