# Formal model of WMass/rabbit in Lean 4

## 1. What is here

* `properties.jsonl` – 114 semantic properties (C01, C02, ...), each stated against the API.
* `lean/Verif/Model/*.lean` – the model: one file per area.  Every definition cites the file and lines of `/repo` it
  models; simplifications are stated in the comment of the definition or at the top of the file.
* `lean/Verif/Lemmas/*.lean` – helper lemmas about the model.
* `lean/Verif/Props/*.lean` – the property theorems, each next to an `example` that meets its hypotheses.  Specifications
  are in `Spec` namespaces of these files (or of the lemma files) and do not use the helper functions of the model.
* `MANIFEST.json` – property → theorems (827 theorems).
* `AXIOMS.txt` – the axioms of every theorem in the manifest.
* `seeded/LOG.jsonl` – wrong-program experiments: an edit of the model as a realistic bug would make it, the theorems that
  failed, and what was tightened.

Naming: `cNN_name` is a theorem for property CNN.  The suffix `_partial` marks a theorem that needs hypotheses beyond the
English claim (the comment says which), `_violated` a proof that the code does not satisfy the claim, with a witness.

## 2. Trusted base

* Lean 4.33.0's kernel and the Mathlib modules imported one by one.
* Axioms (from `#print axioms`, see `AXIOMS.txt`): 732 theorems: `propext`, `Classical.choice`, `Quot.sound`, 68 theorems: `propext`, `Quot.sound`, 23 theorems: `propext`, 4 theorems: none.  No own axioms, no `sorry`, no `native_decide`, no `bv_decide`.
* The reading of the Python source.  The code is not executed; every definition is a translation by hand.
* Numbers.  Floating point is modelled by exact arithmetic over `ℝ`, or over an arbitrary (ordered) field where that is
  enough.  Rounding, overflow, and NaN/inf propagation are outside the model except where a guard in the code tests for
  them; histogram contents in the writer may be NaN or infinite (`FVal`), as may results that the code compares with NaN
  (`Option`).
* Exceptions are values (`Except Err`); the classes of exceptions are kept, the messages are not.  State changes made
  before an exception stay in effect.
* Python dictionaries are association lists in insertion order (`Dict`); sets are lists whose iteration order is a
  parameter (hash order is unspecified).
* External calls are parameters with a contract:

| External | Contract used |
|---|---|
| `re` (names, patterns) | arbitrary matcher; invalid expressions raise |
| random draws | arbitrary functions of the distribution's parameters |
| SciPy minimisers | arbitrary: may return any vector, call the callback any number of times, fail or raise |
| Cholesky, `solve` | solution of the linear system, failure unless positive definite |
| conjugate gradient | solves the system (`C36` only) |
| automatic differentiation | exact derivative; `stop_gradient` cuts the dependence |
| HDF5 | a dataset is an array of zeros to which ranges are written; attributes are kept |
| `hist`, `wums.SparseHist` | axes, contents with and without flow bins, slicing (clipped at the ends; see the model files) |
| TensorFlow array operations | as written in `Model/Grid.lean`, `Model/Tensor.lean` |
| `np.sort`, `sorted` | stable sort; numpy's unstable sort is a parameter constrained to be a sorted permutation |
| normal distribution function | strictly increasing, continuous, symmetric (shown to hold for the standard normal) |
| `pcolormesh`, `contour` | entry (row, column) of the array is drawn at (X, Y) of the same entry of the mesh, or at (x of the column, y of the row) |
| `float`, `int` on text, file existence | parameters |

## 3. Modelled code

| Source | Modelled | Lean (`Verif/Model`) | Not modelled |
|---|---|---|---|
| `rabbit/tensorwriter.py` | registration calls, checks, asymmetric variations, norm systematics, systematics with extra axes (batched path), external terms, bookings, variations correlated between channels, `write`, getters | Writer, Logk, Batched, ExternalTerms, Write, BetaVar, Auxiliary | metadata, file handling |
| `rabbit/inputdata.py` | dense/sparse tensors, bin ranges, pseudo-data selection, data and their uncertainties | Write, ReadTensor, Yields, Driver, DataVar | metadata, default β axes |
| `rabbit/h5pyutils_*.py` | all but compression | Storage | |
| `rabbit/tfhelpers.py` | sparse slicing, segment sums, `edmval_cov` | Storage, Cov, Tensor | jit wrappers |
| `rabbit/scipyhelpers.py` | all | Cov | |
| `rabbit/common.py` | natural sorting | NaturalSort | class loading |
| `rabbit/fitter.py` | callback, parameter selection, freezing, blinding, state of the fit and toys, loading of results, yields, likelihood terms, priors, covariance, one-step fits, derivatives for impacts, propagated variances, full and reduced likelihood sums, residuals and linear chi-square, parameters of the saturated fit, Hessian-free rows of the covariance, scans, contours and the caches of their evaluations | FitParams, FitState, Yields, Interp, Likelihood, Cov, Impacts, Scans, Chi2, SatTest, PostFit, FullNll, ContourEval | compilation, timing, HVP methods, goodness-of-fit p-values |
| `rabbit/bbstat/*.py` | all profiling formulas, lite and full, gamma and normal, covariance fits, β constraint terms, variations correlated between channels | BBB, BBBFull, BetaVar | one-dimensional `sumw2` branch |
| `rabbit/external_likelihood.py` | all | ExternalTerms | |
| `rabbit/impacts/*.py` | traditional, global, global asymmetric, asymmetric, non-profiled impacts | Impacts, Scans, AsymTable | |
| `rabbit/param_models/*.py` | all models | ParamModels, ABCD, SmoothABCD, AxisModels, SatTest | `parse_args` (tokenising of the command line) |
| `rabbit/mappings/*.py` | Select, Project, Normalize, Ratio, Normratio, Asymmetry, Difference, AngularCoefficients, LamTung, CompositeMapping, data through mappings, text of selections and arguments | Mappings, Tensor, Workspace, Chi2, SelText | `shlex`-like splitting into words |
| `rabbit/regularization/*.py` | SVD penalty, curvature of the L-curve, its scan and optimisation | Regularization, LCurve | the derivatives taken by the tapes are parameters |
| `rabbit/workspace.py` | channel slicing, path of the file, nested results and groups, histograms with flow bins, result histograms read back by `io_tools` | Workspace, IoTools, Impacts, ResultFile | other `add_*_hist` calls |
| `rabbit/io_tools.py` | readers of pulls, impacts and covariances | IoTools | |
| `rabbit/asymptotic_limits.py`, `bin/rabbit_limit.py` | Gaussian limits, constraint function of the likelihood limit, the fits and the loop of limits | Limits, LimitRun | the minimiser |
| `bin/rabbit_fit.py` | list of fits, result keys, pseudo-data sets, saturated projection test, reported uncertainties and degrees of freedom, which results are stored for which options | Driver, SatTest, PostFit, RunOutput | command line, plots of options |
| `rabbit/datacard_parser.py`, `rabbit/datacard_converter.py` | the parser character by character, the calls of the converter, the lookup of histograms in the tree of directories of a file | Datacard, Shapes | reading of ROOT files (a file is a given tree), `print_summary` |
| `rabbit/debugdata.py`, `bin/merge_inputs.py`, `bin/rabbit_debug_inputdata.py` | re-derived templates, merge, its tables of names and clipping, queries, report of the checker | Merge, MergeOpts, DebugData | loading of the module with the tables |
| `rabbit/auxiliary.py` | all | Auxiliary | names beginning with `/` |
| `bin/rabbit_print_impacts.py` | sorting, rows, totals, histogram names | ImpactPrint | headers, loop over bins |
| `bin/rabbit_print_pulls_and_constraints.py` | table | IoTools | |
| `bin/rabbit_plot_pulls_and_impacts.py` | up/down columns, tables of impacts and pulls, selection of rows and channels, file names of bins | IoTools, ImpactFrame | merge with a reference, labels, drawing |
| `bin/rabbit_plot_likelihood_scan.py`, `bin/rabbit_plot_likelihood_scan2D.py` | points, parabola, ellipse, map | ScanPlot | drawing |
| `rabbit/fitter.py: _expected_variations`, `rabbit/workspace.py: add_expected_hists`, `bin/rabbit_fit.py: save_hists` | histograms of predictions with every parameter varied | Variations, Impacts | |
| `bin/rabbit_plot_inputdata.py` | combinations of axes, slices, contents of all plots and curves, options, file names | InputPlot | process grouping, bin widths, ratio panels, drawing |
| `bin/rabbit_limit.py: do_asymptotic_limits` (likelihood mode) | the table of expected limits from scans | ExpectedScan, Scans | the minimiser |
| `rabbit/asymptotic_limits.py: compute_likelihood_limit` | vector, constraint, derivatives, start and result of the search | LikelihoodLimit | the minimiser; not called at this commit |
| `rabbit/fitter.py: __init__` (options), `_make_tf_functions`, `minimize` (method, limits), `rabbit/parsing.py: common_parser` (choices), `rabbit/bbstat/bbstat.py: __init__` (options) | which likelihood, compilation, derivative and limits follow from the options | Options | what TensorFlow can compile and which derivatives and tolerances SciPy's methods read (tables of the trusted base) |
| `rabbit/fitter.py: is_linear, _compute_loss`, `rabbit/bbstat/bbstat.py: is_linear` | the decision for one-step fits, the loss with all its terms as a function of the parameters | LinearFit | derivatives |
| `bin/rabbit_fit.py: main` (lines 936-941), `rabbit/fitter.py: defaultassign, set_nobs`, `rabbit/bbstat/bbstat.py: default_beta0` | the reset of the fitter and the Asimov data, with the loss of LinearFit | Asimov | floating-point rounding of the closed forms |
| `rabbit/tensorwriter.py`, `rabbit/inputdata.py`, `rabbit/fitter.py: __init__` | the fitter built on a written file (default parameter model), from the writer's calls to the loss, without and with bin-by-bin statistics, Poisson, chi-square and covariance fits (lite mode), and its Asimov data | FileFit, Asimov, Writer, Write, ReadTensor, LinearFit, BBB | options that move constraint centres, parameter models other than `Mu` |
| `rabbit/datacard_converter.py`, `bin/rabbit_text2hdf5.py` | the writer behind the calls of the converter, from the text of a card and its files to the written tensor and (with FileFit) the loss | CardFile, Datacard, Shapes, Writer, Write | name and place of the output |
| `bin/rabbit_plot_hists.py` | mappings, channels, statistics, stack, variations, slices, file names, numbers of the panels | HistPlot | unrolling, legends, drawing |
| `bin/rabbit_plot_hists_uncertainties.py` | sources, filter and grouping, slices, values of curves and total, colours, file names | UncPlot (HistPlot for mappings and channels) | unrolling, legends, drawing; `divideHists` and `scaleHist` of wums are taken as division and scaling |
| `bin/rabbit_plot_cov.py` | matrices, blocks of channels, selections, file names | CovPlot | labels, drawing |

The other plotting scripts, `parsing.py` (argparse) and logging are not modelled.

## 4. Properties

| Property | Title | Status | Files in `Verif/Props` |
|---|---|---|---|
| C01 | Templates are write-once | partial | WriterTemplates |
| C02 | Channel layout is a partition and masked channels come last | partial | WriterDense, WriterLayout |
| C03 | Process order puts signals first and is history independent | proved | WriterProcs |
| C04 | Nuisance order is complete and reproducible | partial | NaturalSort |
| C05 | Constraint flag reaches the right nuisance | partial | WriterBookings |
| C06 | Groups and parameters of interest resolve to the booked nuisances | proved | WriterBookings |
| C07 | Up and down templates are recovered at plus and minus one sigma | partial | WriterDense, WriterVariation, Yields |
| C08 | Symmetrisation modes keep their documented meaning | proved | WriterVariation, Yields |
| C09 | Log-normal predictions keep the sign of the nominal | proved | Yields |
| C10 | Sparse and dense tensors predict the same yields | partial | WriterDense, WriterFile, WriterSparseTotal, Yields |
| C11 | Sparse assembly is canonical and loses nothing | proved | WriterSparse |
| C12 | Adding many systematics in one call equals adding them one by one | partial | Batched, BatchedDense |
| C13 | Chunked dataset storage round-trips | proved | Storage |
| C14 | External likelihood terms act on the named parameters | partial | ExternalTerms |
| C15 | A normalisation systematic acts on every listed process | partial | WriterDense, WriterNorm, WriterNormPair |
| C16 | Writing does not change the model | partial | WriterCov |
| C17 | Accepted process templates are finite and non-negative | proved | WriterTemplates |
| C18 | Interpolation between templates is smooth, odd and bounded | proved | Interp |
| C19 | Saturated Poisson deviance is non-negative | proved | Likelihood |
| C20 | Full and reduced likelihood differ by a constant | partial | FullNll, Likelihood |
| C21 | Constraint terms and priors pull only what they should | proved | Likelihood |
| C22 | Chi-square and covariance likelihoods agree for diagonal covariance | proved | Likelihood |
| C23 | Freeze and defreeze histories have set semantics | proved | FitParams |
| C24 | Frozen parameters do not move | partial | FitParams |
| C25 | Name expressions select in order without duplicates | proved | FitParams |
| C26 | Blinding is a pure reparametrisation | partial | FitParams |
| C27 | Toys do not accumulate state | partial | FitState |
| C28 | Loading an external fit result is by parameter name | proved | FitState |
| C29 | Lite gamma bin-by-bin profiling is exact (Poisson) | partial | BBBLite |
| C30 | Lite gaussian bin-by-bin profiling is exact (Poisson) | partial | BBBLite |
| C31 | Chi-square bin-by-bin profiling is exact | partial | BBBCov, BBBLite |
| C32 | Full bin-by-bin profiling is exact | partial | BBBCov, BBBFull |
| C33 | Iterative gamma full profiling stays positive | proved | BBBGammaFull |
| C34 | Bins without Monte Carlo uncertainty are untouched by bin-by-bin profiling | proved | BBBFull, BBBLite |
| C35 | Covariance with frozen parameters | partial | Covariance |
| C36 | Linear fits land on the minimum in one step | partial | Covariance |
| C37 | Traditional impacts are bounded by the total uncertainty | proved | Impacts, StatCov |
| C38 | Global impacts decompose the total variance | partial | Propagation |
| C39 | Impact columns carry the labels of what they hold | proved | ImpactRows, Impacts |
| C40 | Non-profiled impacts name the right parameter and group | partial | Scans |
| C41 | Impact and scan procedures leave the fit state as they found it | partial | Scans |
| C42 | Two-dimensional scans visit every grid point exactly once | partial | Spiral |
| C43 | One-dimensional scans are anchored at the best fit | partial | Scans |
| C44 | Contour warm start lies on the contour | proved | Propagation |
| C45 | Composite models factorise | proved | CompositeModel, Ones |
| C46 | Mixture models conserve the total and act on the named processes | partial | Mixture |
| C47 | ABCD background relation holds | partial | ABCD, AbcdNegative, IsoMT |
| C48 | Smooth ABCD uses Chebyshev polynomials on the unit interval | partial | SmoothABCD |
| C49 | Bernstein and axis models start at the nominal and stay positive | partial | AxisModels |
| C50 | Projection preserves the total and commutes with summing processes | proved | Project |
| C51 | Axis selections select what they say | partial | Select |
| C52 | Ratio and asymmetry observables | partial | Processes, Ratio |
| C53 | Composite mappings are the concatenation of their parts | partial | CompositeMapping, Processes |
| C54 | Output histograms slice the flat result per channel | partial | Workspace |
| C55 | Curvature regularisation penalises only curvature | partial | Regularization |
| C56 | Gaussian CLs limits solve the CLs equation | partial | Limits |
| C57 | Every requested fit gets its own result entry | partial | Driver |
| C58 | Pseudo-data selection | partial | PseudoData |
| C59 | Re-deriving templates from a tensor and writing them again is lossless | partial | Merge, MergeGroups |
| C60 | Datacards are read completely | partial | Datacard |
| C61 | Result readers filter consistently | partial | IoTools |
| C62 | Fit iterations never end on a non-finite or worse point | partial | FitLoop |
| C63 | Propagated uncertainties | partial | Propagation |
| C64 | Sparse slicing helpers | proved | Storage |
| C65 | Asymmetric impact tables | proved | Scans, WarmStart |
| C66 | Saturated projection model scales exactly the projected bins | partial | Saturated |
| C67 | Angular coefficients are helicity cross sections over the unpolarised one | partial | Angular |
| C68 | The covariance returned for selected channels belongs to the histograms beside it | proved | IoTools |
| C69 | Up and down columns of impact plots | partial | UpDown |
| C70 | Uncertainties of mapped data | proved | DataMapping |
| C71 | Linear chi-square | partial | Chi2Dependent, LinearChi2, LinearChi2Fit |
| C72 | Saturated projection test | partial | SatTest |
| C73 | Expected signal | partial | Expected |
| C74 | Reported uncertainties and degrees of freedom | partial | PostFit |
| C75 | L-curve | partial | LCurve |
| C76 | Histograms named by the shape directives of a datacard | partial | Shapes |
| C77 | Variations of a masked channel follow the statistical parameters of a fitted channel | partial | BetaVar |
| C78 | Fits behind the asymptotic limits | partial | LimitRun |
| C79 | Uncertainties given with the data | partial | DataVar |
| C80 | Auxiliary bundles survive writing and reading | partial | Auxiliary |
| C81 | Queries and report of the input checker | partial | DebugData |
| C82 | Text of selections and arguments of mappings | partial | SelText |
| C83 | Printout of impacts | partial | ImpactPrint |
| C84 | Tables behind the plots of impacts and pulls | partial | ImpactFrame |
| C85 | Plots of likelihood scans | partial | ScanPlot |
| C86 | Plots of covariances | partial | CovPlot |
| C87 | Results file | partial | ResultFile |
| C88 | Outputs of a run | partial | RunOutput |
| C89 | Options of the merge | partial | MergeOpts |
| C90 | Contour scans evaluate at the point asked for | proved | ContourEval |
| C91 | Plots of histograms show the stored predictions, statistics and variations asked for | partial | HistPlot |
| C92 | Tables of traditional asymmetric impacts hold the shifts and quadrature differences of the contour scans | partial | AsymTable |
| C93 | Stored variations of predictions are the predictions moved by the uncertainty of one parameter at a time | partial | Variations |
| C94 | Plots of the inputs of a fit show the sums of the templates in every slice and for every combination of axes | partial | InputPlot |
| C95 | Expected limits from the likelihood are the largest values on the contour of the Asimov likelihood, and agree with the Gaussian limits for a Gaussian likelihood | partial | ExpectedScan |
| C96 | The observed limit from the likelihood is the largest value of the parameter whose profiled CLs is at least the level | partial | LikelihoodLimit |
| C97 | A call of the writer that raises leaves the writer as it was | partial | WriterAtomic |
| C98 | A complete input can be written | partial | WriterSparseTotal, WriterTotal |
| C99 | A fit treated as linear has a quadratic likelihood | partial | LinearFit |
| C100 | Options are resolved to a combination that the libraries can run, and to the one that was asked for | partial | Options |
| C101 | The fit to the Asimov data closes | partial | Asimov |
| C102 | What is not fitted, how templates are stored and the order of the processes do not change the likelihood | partial | Invariance |
| C103 | The likelihood that is minimised is the one the calls on the writer describe | proved | FileFit |
| C104 | With template statistics the loss of a written file is the profile likelihood the calls describe | proved | CardStat, FileStat |
| C105 | A datacard with shapes is fitted with the likelihood it describes | partial | CardFit |
| C106 | The Asimov fit of a written file gives the requested signal strengths back | proved | CardAsimov, FileAsimov |
| C107 | Well-formed histories of calls are accepted and give a file | proved | FileAccept, WriterAccept |
| C108 | A complete datacard is converted and fitted with its likelihood | partial | CardAccept |
| C109 | The Asimov fit with template statistics gives the requested signal strengths back | proved | CardStat, StatAsimov |
| C110 | Plots of uncertainties show the stored impacts and the total uncertainty of every bin | partial | UncPlot |
| C111 | Chi-square and covariance fits of a written file minimise what the calls describe | partial | FileChisq |
| C112 | A nuisance booked into the data covariance acts as if it were profiled | partial | CovProfile |
| C113 | With additive variations the likelihood that is minimised is the one the calls describe | partial | FileAdditive |
| C114 | With additive symmetric variations the minimum that is found is the smallest value | proved | FileConvex |


Notes on every property (extra hypotheses, what is missing) are in `MANIFEST.json`.

## 5. Disagreements between code and properties

Each item is a theorem about the model: a concrete input, or a class of inputs, for which the claim fails.

* **C01** Templates are write-once (`TensorWriter.add_data, TensorWriter.add_process`)
  * `c01_readd_violated`: Registering a channel name again wipes its templates, so a second template for the same (process, channel) pair is accepted and replaces the first one. The second registration may be implicit: the default name `ch{n}` can be taken already.
* **C02** Channel layout is a partition and masked channels come last (`TensorWriter.add_channel, TensorWriter.write, FitInputData`)
  * `c02_order_violated`: When a channel name is used again, first way: registering a fitted channel again as masked leaves it in its place, so a fitted channel comes after a masked one and its bins lie outside the first `nbins` rows.
  * `c02_reader_violated`: Second way: registering a masked channel again as fitted keeps the old axes but the new size, so the ranges computed on reading are not those the writer used.
* **C04** Nuisance order is complete and reproducible (`TensorWriter.get_systs, natural_sort, natural_sort_key`)
  * `c04_ties_violated`: Two different names with equal keys are left in the order in which they are listed, so a set iterated in two different orders gives two different parameter orders.
* **C05** Constraint flag reaches the right nuisance (`TensorWriter.get_constraintweights, TensorWriter.book_systematic`)
  * `c05_mixed_violated`: For a nuisance booked without constraint for one process and with constraint for another one: it is listed twice, and the copy in the unconstrained block has weight 1 while the copy in the constrained block has weight 0.
* **C07** Up and down templates are recovered at plus and minus one sigma (`TensorWriter.get_logk, TensorWriter._compute_asym_syst, Fitter._compute_yields_noBBB`)
  * `c07_readd_violated`: For a nuisance that is added again: a mirrored template after a pair replaces the average only, the difference of the pair stays, and the prediction at +1 is not that of the template added last.
  * `c07_normal_rate_violated`: For the normal type away from the default rate: with the signal strength at 2 the varied prediction is 22 instead of twice the up template 24.
  * `c07_zero_nominal_violated`: In bins without nominal content: the variation is dropped and the prediction stays zero.
* **C10** Sparse and dense tensors predict the same yields (`TensorWriter.write, Fitter._compute_yields_noBBB, FitInputData`)
  * `c10_lookup_violated`: A sparse variation without an entry at or above a bin of the template makes the lookup raise (`searchsorted` returns the length), although the dense array has a value there (0).
  * `c10_masked_rates_violated`: With masked channels and a rate model that returns one row per fitted bin (e.g. the ABCD models): the dense computation of the fitted bins succeeds, the sparse one raises.
* **C12** Adding many systematics in one call equals adding them one by one (`TensorWriter._add_systematics_sparsehist_batched, TensorWriter._get_systematic_slices`)
  * `c12_order_violated`: If the other axes come in a different order than in the channel and have the same binning, the loop reads the slices transposed, while the batched path matches the axes by name; both succeed with different variations.
  * `c12_binning_violated`: The batched path does not compare the binning with that of the channel, so a histogram whose slices are all rejected one by one is booked.
  * `c12_finite_violated`: A number that is not finite in a bin without events is rejected one by one and dropped by the batched path.
  * `c12_empty_violated`: With a sparse template, a slice without an entry at or above the last bin of the template raises `IndexError` one by one, but is booked by the batched path.
  * `c12_unlisted_violated`: An axis that is neither listed in `syst_axes` nor an axis of the channel is ignored by the batched path, which then keeps one of the entries that fall into the same bin; the loop of `add_systematic` over the slices (the path without `as_difference`) rejects them.
  * `c12_names_violated`: Different combinations of bins can have the same name, and then only one of the nuisances remains.
* **C14** External likelihood terms act on the named parameters (`build_tf_external_terms, compute_external_nll, TensorWriter.add_external_likelihood_term`)
  * `c14_overflow_axes_violated`: For sparse Hessians on string axes with an overflow bin (the default of `hist`): the flat indices are in the extents with flow but are split with the number of labels, so entries land on other parameters.
  * `c14_duplicate_in_term_violated`: For duplicated names inside one term: they are accepted and both entries act on the parameter.
* **C15** A normalisation systematic acts on every listed process (`TensorWriter.add_norm_systematic`)
  * `c15_scalar_violated`: For a scalar uncertainty and more than one process: the loop `zip(process, uncertainty)` stops after the first process, the others are not varied, and the call succeeds.
* **C16** Writing does not change the model (`TensorWriter.write, TensorWriter.add_data_covariance`)
  * `c16_twice_violated`: `write` adds the outer products in place, so the second file counts them twice.
  * `c16_mcstat_violated`: The Monte Carlo statistics are not added as a diagonal matrix; with one process the variance of the first bin is added to every element, including the off-diagonal ones.
* **C20** Full and reduced likelihood differ by a constant (`Fitter._compute_ln, Fitter._compute_lc, Fitter._compute_nll, BinByBinStat.lbeta`)
  * `c20_single_process_violated`: For the additive type with one entry per bin and process and a single process the vector `tf.shape(sigma2)` turns the `N × 1` array into an `N × 2` one, and the full likelihood counts every β constraint twice: it differs from the reduced one by the β constraint itself, which depends on the parameters.
  * `c20_missing_violated`: There is no full likelihood (`--fullNll` ends with an exception) for the multiplicative normal type, which is the automatic choice with one β per bin and process, and for the additive type with one β per bin and process and three or more processes.
  * `c20_additive_constant_violated`: C20, additive type with one β per bin: the constant is not that of `N` normal densities (`½ log 2π + log σ` each): `tf.shape` adds `N` times the constant to each of the `N` entries, so that the reported likelihood is too large by `N (N - 1)` times the constant.
* **C24** Frozen parameters do not move (`Fitter.get_theta, Fitter.get_poi, Fitter._compute_nll, compute_external_nll`)
  * `c24_external_violated`: When an external term acts on the frozen parameter: its gradient is not stopped, and a gradient step moves the parameter.
* **C26** Blinding is a pure reparametrisation (`Fitter.init_blinding_values, Fitter.set_blinding_offsets, Fitter.get_theta, Fitter.get_poi`)
  * `c26_external_violated`: With external likelihood terms, which read the raw parameters: the attainable minimum changes when blinding is switched on.
* **C27** Toys do not accumulate state (`Fitter.defaultassign, Fitter.toyassign, Fitter.bayesassign, Fitter.frequentistassign`)
  * `c27_scan_violated`: By scans of a parameter the user froze: the next fit starts with it floating.
* **C29** Lite gamma bin-by-bin profiling is exact (Poisson) (`BinByBinStat.profile_and_apply, solve_quad_eq`)
  * `c29_inactive_bin_violated`: When the processes with template statistics have no yield at the current parameter point (`n_active = 0` while the stored templates are not empty, e.g. a signal scaled to zero next to a background without variance) the code profiles with `n_active_safe = 1`: the β it returns is not the minimiser; β0 is strictly better.
* **C30** Lite gaussian bin-by-bin profiling is exact (Poisson) (`BinByBinStat.profile_and_apply`)
  * `c30_inactive_bin_violated`: With the additive type and no active yield the shift `√var·β` is profiled but cannot be distributed over the processes: the yield that enters the likelihood ignores β, so the returned β pays a constraint penalty for nothing.
* **C31** Chi-square bin-by-bin profiling is exact (`BinByBinStat.profile_and_apply`)
  * `c31_masked_bin_correlated_violated`: With correlated data and a bin without template statistics the linear system of the lite multiplicative type treats that bin's β as free, and the β of the other bins come out wrong: the best possible value 0 of the likelihood is missed.
* **C32** Full bin-by-bin profiling is exact (`BinByBinStat.profile_and_apply`)
  * `c32_empty_bin_violated`: An empty observed bin whose expected yield exceeds the equivalent number of simulated events (template weights above one): the code divides zero by zero and every β of the bin is not a number.
* **C35** Covariance with frozen parameters (`Fitter.edmval_cov, edmval_cov`)
  * `c35_frozen_violated`: After the reset to defaults (`FitState.defaultAssign`: the covariance is the diagonal matrix of the prefit variances) the variance reported for *every* frozen parameter that has a constraint is its prefit variance `1/cw`, not zero.
* **C36** Linear fits land on the minimum in one step (`Fitter.minimize`)
  * `c36_frozen_violated`: With frozen parameters: the rows of frozen parameters in the Hessian are zero, so the Cholesky decomposition fails and the fit raises — for every quadratic likelihood, every starting point and every pattern that freezes at least one parameter.
* **C38** Global impacts decompose the total variance (`rabbit/impacts/global_impacts.py, Fitter._dxdvars`)
  * `c38_external_violated`: With external likelihood terms: their information enters the covariance but no impact accounts for it, so the gaussian impacts of a parameter the external terms constrain fall short of its variance.
* **C40** Non-profiled impacts name the right parameter and group (`nonprofiled_impacts_parms, _envelope`)
  * `c40_labels_violated`: After freezing `b` and then `a`, the row of `a` is labelled `b`.
  * `c40_groups_violated`: With one model parameter, the group of the second nuisance covers the row of the first: its index 1 counts nuisances, the frozen index 1 counts all parameters.
* **C41** Impact and scan procedures leave the fit state as they found it (`rabbit/impacts/global_asym_impacts.py, rabbit/impacts/asym_impacts.py, Fitter.contour_scan, Fitter.nll_scan, Fitter.nll_scan2D`)
  * `c41_scan_violated`: Scanning a parameter that the user had frozen leaves it floating.
  * `c41_grouped_violated`: Scanning a group with that nuisance leaves the other one floating.
* **C42** Two-dimensional scans visit every grid point exactly once (`Fitter.nll_scan2D`)
  * `c42_even_violated`: With an even number of points the last row and the last column are never visited.
  * `c42_prefit_violated`: With `use_prefit` the grid is centred on zero, but the central cell is still reported as the best fit.
  * `c42_single_violated`: A scan with a single point, or an even number of points, reports zero for a cell that is not the best fit.
* **C43** One-dimensional scans are anchored at the best fit (`Fitter.nll_scan`)
  * `c43_even_violated`: An even number of points gives one value more than asked for.
* **C46** Mixture models conserve the total and act on the named processes (`Mixture`)
  * `c46_order_violated`: With the primaries listed in another order than stored, the parameter named `sigB_otherA_mixing` multiplies process `sigA`, not `sigB`.
  * `c46_sum_violated`: The nominal sum of a pair is not conserved at the default value of the parameter (one): the complementary yield disappears.
* **C47** ABCD background relation holds (`ABCD, _get_global_indices, ExtendedABCD`)
  * `c47_zero_denominator_violated`: When the parameter of region B vanishes, the code divides by `1e-10` instead, and the relation fails.
  * `c47_empty_template_violated`: When the template of region D is empty, the yield correction cannot restore the relation.
  * `c47_negative_index_violated`: A bin number counted from the back selects bins but yields no parameter name: the model has three parameters and only two names.
  * `c47_flow_violated`: In a channel stored with flow bins the sizes without flow are used, so that the indices are those of other bins.
* **C48** Smooth ABCD uses Chebyshev polynomials on the unit interval (`SmoothABCD, SmoothExtendedABCD`)
  * `c48_correction_default_violated`: With the yield correction the rate of region D at the default parameters is not one.
  * `c48_other_axis_violated`: The positions of all regions are those of region A: a region B in a channel whose smooth axis has other edges is not evaluated at its own bin centres.
* **C49** Bernstein and axis models start at the nominal and stay positive (`AxisBernsteinModel, AxisNormModel`)
  * `c49_axis_order_violated`: Axes requested in another order than that of the channel: the parameter that the bin (0, 1) uses is named after the cell of another bin.
  * `c49_duplicate_process_violated`: A process named twice gets the sum of the two corrections: the factor can be negative.
  * `c49_flow_violated`: A channel with flow bins: the model counts the bins without them, so the factors do not match the bin vector.
* **C51** Axis selections select what they say (`parse_axis_selection, Term.select, segment_sum_along_axis`)
  * `c51_step_violated`: For a slice with a step (the documentation of the request string offers `slice(0,2,2)`): the axis that labels the result has the bins merged, the tensor is read with a stride, so half of the content is lost.
  * `c51_flow_violated`: For channels with flow bins: bin 0 asked for is the underflow bin of the tensor while the label is the first bin inside the axis.
  * `c51_process_labels_violated`: For the processes: the columns are in the order of the file, the labels in the order of the request; and a process selection is ignored when the observables are summed over the processes already.
  * `c51_unknown_sum_violated`: For misspelt axes: the check of the parser looks at the last axis only, so a sum over an axis that does not exist is dropped silently unless it is named last.
* **C52** Ratio and asymmetry observables (`Ratio, Asymmetry, Difference`)
  * `c52_difference_violated`: For `Difference`: "compute the difference of numerator and denominator" gives the difference of the normalised histograms.
* **C53** Composite mappings are the concatenation of their parts (`CompositeMapping`)
  * `c53_order_violated`: When a component that does not need the predictions per process comes before one that does: the second one silently gets the summed predictions, so the ratio of process `b` (ten times process `a`) to process `a` becomes one.
  * `c53_two_violated`: With two components that do not need the predictions per process beside one that does: the sum over the processes is taken twice and raises.
  * `c53_duplicate_violated`: When one mapping is asked for twice: its channel appears once while its output appears twice, so the next mapping's histogram receives the repeated output.
* **C54** Output histograms slice the flat result per channel (`Workspace.add_expected_hists, Workspace.add_observed_hists`)
  * `c54_flow_violated`: For data in a channel with flow bins: the loop counts the bins without flow bins, so the histogram of channel `a` gets its underflow bin as first bin, and the histogram of channel `b` gets the overflow bins of `a`.
  * `c54_key_violated`: For what is stored per mapping (chi-square, covariance across channels): the key of `Select` leaves the channel out, so the same selection on two channels is stored in one place and the second replaces the first.
* **C55** Curvature regularisation penalises only curvature (`SVD, rabbit/regularization/regularizer.py`)
  * `c55_empty_bin_violated`: For a multiple of a spectrum with an empty bin: the ratio of that bin is set to one, so twice the expected spectrum is penalised.
* **C56** Gaussian CLs limits solve the CLs equation (`do_asymptotic_limits, compute_gaussian_limit, compute_likelihood_limit`)
  * `c56_negative_violated`: For a measurement below zero: the square root of the modified statistic is not a normal variable, and at every positive root of the function the true `CLs` is smaller than alpha, so the reported limit is too weak.
  * `c56_zero_violated`: For a squared parameter of interest whose best fit is zero (no signal in the asimov set): the error is zero and every expected limit is zero, whatever the level and the quantile.
  * `c56_model_parameter_violated`: For a parameter of the parameter model that is not a parameter of interest: the value read is that of a systematic counted from the end.
* **C57** Every requested fit gets its own result entry (`main, Workspace.dump_obj`)
  * `c57_accumulated_violated`: For asimov fits and toys with several pseudo-data sets: from the second set on, the key carries the names of all sets before, because the label appended in the loop is what the name replaces.
  * `c57_repeated_violated`: For toys requested in two numbers: toy one is stored twice under the same key.
  * `c57_underscore_violated`: For a name with an underscore: the fit to one set and the asimov fit of another share their key.
  * `c57_negative_violated`: For numbers below -1, which the parser accepts: nothing is assigned, the fit goes to the data of the fit before and is stored under the key of the data.
* **C58** Pseudo-data selection (`FitInputData, TensorWriter.add_pseudodata`)
  * `c58_variances_violated`: For stored variances: they are not selected, so the set `b` is fitted with the variances of `a`.
* **C59** Re-deriving templates from a tensor and writing them again is lossless (`main, FitDebugData, TensorWriter.add_systematic`)
  * `c59_type_violated`: When a tensor with additive variations is merged with the default systematic type (merge_inputs.py:49-53, 125): the written variations are those of the logarithm, and the predicted yield changes.
  * `c59_negative_violated`: For negative templates: the merge tool does not pass on `allow_negative_expectation` (merge_inputs.py:125), so that a negative template is written as zero.
  * `c59_constraint_violated`: When a nuisance is constrained in one input and unconstrained in another: the merged tensor has it twice, once in each state (tensorwriter.py:1604-1633, 2258-2259).
* **C60** Datacards are read completely (`DatacardParser, DatacardConverter`)
  * `c60_nuisance_edit_violated`: A row `nuisance edit …` is never represented: no card has nuisance edits.
  * `c60_after_directive_violated`: A systematic after the first directive is dropped: here `late` is not read.
  * `c60_before_rate_violated`: A systematic before the row of the rates is dropped.
  * `c60_type_violated`: A row of an unknown type is dropped: for example the statistical uncertainties `* autoMCStats 10`, or a misspelt `lnn`.
  * `c60_effects_violated`: A systematic with an effect too few, or too many, is read without any effect.
  * `c60_duplicate_column_violated`: Two columns of the same bin and process: the first rate is lost, and with it the effects of every systematic.
  * `c60_columns_violated`: More processes and rates than bins: the additional columns are dropped.
  * `c60_observations_violated`: A different number of bins and observations: no observation is read.
  * `c60_order_violated`: The order of the sections matters: with the process section at the beginning of the text its bins are taken for those of the observations, which are dropped; with any other row before it they are read.
  * `c60_separator_violated`: A row between the rows of the process section, for example a separator: no rate is read.
  * `c60_counting_violated`: A process without shape is given the observation of its bin, not its rate: the rates of a card without shapes have no effect on the templates.
  * `c60_ignored_violated`: Rows `param` and `group` and systematics of type `gmN` are read and then ignored by the converter, without a message.
  * `c60_bin_violated`: A bin without observation: its rates are read and then ignored by the converter.
* **C61** Result readers filter consistently (`_filter_nuisance_data, get_pulls_and_constraints, read_impacts_poi`)
  * `c61_asym_key_violated`: C61: what the fit script writes has no histogram under the key that is read: asymmetric constraints are never found.
  * `c61_asym_order_violated`: For a scan in another order than the parameters: the value beside `a` is the change of `a` in the scan of `b`.
  * `c61_flat_violated`: For asymmetric impacts with the total: both impacts of every source and the total become one flat list, longer than the list of labels.
  * `c61_total_violated`: With the total if all parameters but one are sources: with `Total` there are as many labels as parameters, and no pull is dropped, so the pull of `mu` is beside the label `a`.
  * `c61_order_violated`: For sources in another order than the parameters, such as the frozen parameters of non-profiled impacts: the impact of `b` and the pull of `a` are both first.
* **C62** Fit iterations never end on a non-finite or worse point (`FitterCallback, Fitter.fit`)
  * `c62_window_violated`: The comparison looks at a single earlier iteration: the fit stops with `early_stopping = 2` although the iteration before improved the loss from 9 to 1.
* **C63** Propagated uncertainties (`Fitter._expected_with_variance, Fitter._expected_variations`)
  * `c63_frozen_violated`: For frozen parameters with a constraint: after a fit that started from the defaults a prediction that depends only on such a parameter gets the variance `J² / cw`.
* **C66** Saturated projection model scales exactly the projected bins (`377-446, 397-466`)
  * `c66_inclusive_violated`: A projection onto no axis has one declared parameter but cannot be evaluated: the product of the empty list of sizes is a floating point number and is used as a slice bound.
  * `c66_axis_order_violated`: A projection that exchanges the axes names its parameters in the exchanged order but reads them in the order of the channel: the parameter that bin (0, 1) uses carries the label of another bin.
* **C67** Angular coefficients are helicity cross sections over the unpolarised one (`25-92, 131-161`)
  * `c67_request_violated`: When the request selects helicity states (say only `A_0` and `A_1`): the request replaces the selection of the unpolarised cross section, so every coefficient becomes `1`.
  * `c67_process_violated`: For a selection of processes: the mapping never asks for the predictions per process, and with the summed predictions the selection is ignored.
* **C69** Up and down columns of impact plots (`readFitInfoFromFile, rabbit/impacts/global_asym_impacts.py, rabbit/impacts/nonprofiled_impacts.py, Fitter.contour_scan`)
  * `c69_global_violated`: For global asymmetric impacts with the default signs: the column `up` of every source and parameter is the response to the downward shift, the column `down` that to the upward shift.
  * `c69_nonprofiled_violated`: For non-profiled impacts: the column `up` is minus the response to the upward shift (the table stores nominal minus shifted), and the same for `down`.
  * `c69_constraints_violated`: For the intervals of contour scans: if both sides are found, the column `constraint_up` is the lower end of the interval and `constraint_down` minus the upper end.
* **C71** Linear chi-square (`Fitter._chi2, Fitter._residuals, Fitter._residuals_profiled, Normalize, rabbit/mappings/ratio.py`)
  * `c71_dependent_violated`: For a mapping whose outputs satisfy a linear relation and that does not announce it: whatever the data and the predictions, the covariance of the residuals is singular and the call fails.
  * `c71_difference_violated`: For `Difference`: its outputs are differences of two normalised histograms and sum to zero, while `ndf_reduction` is 0, so the chi-square of every data and prediction with non-zero totals fails.
  * `c71_overlap_violated`: For a composite of two projections of one channel: both have the same total, so the chi-square of all data and all predictions fails.
  * `c71_normratio_violated`: For `Normratio`: two ratios of normalised histograms are not related (their covariance is invertible whatever the predictions are), so the value is that of two independent residuals, but one degree of freedom is reported.
  * `c71_free_violated`: With a floating parameter without constraint: the covariance of the postfit residuals of all bins is then singular (the fit uses up a degree of freedom that the number of bins still counts), and the call fails.
* **C72** Saturated projection test (`save_hists, SaturatedProjectModel, Fitter.init_fit_parms`)
  * `c72_negative_violated`: The test cannot be computed for a fit whose POIs may be negative: the saturated model is built with the default `allowNegativeParam=False` and the composite of models with different choices is refused. The exception ends the program.
  * `c72_ndf_violated`: The reported number of degrees of freedom is the number of projected bins, also when parameters of the fit already scale them: with one bin and a free signal strength the saturated fit reaches no value that the fit does not reach, for every data and every likelihood. The test statistic is always zero, with one degree of freedom.
  * `c72_freeze_violated`: Expressions given to freeze parameters of the fit also act on the additional parameters: here the expression for the nuisance parameter `scale` freezes all parameters of the saturated model, so there is nothing left to saturate the projection.
* **C73** Expected signal (`ParamModel.set_param_default, load_models, Fitter._init_logk_scaled`)
  * `c73_scaling_violated`: For an expected signal strength of four the stored value is two, and additive systematics are scaled by two although the rate at the starting point is four: the up template 12 of a bin with content 10 is predicted as 44, not 48.
  * `c73_composite_violated`: With several models a request is handed to every one of them: a request that names a parameter of one model is refused by a model that does not have it.
* **C74** Reported uncertainties and degrees of freedom (`fit, Fitter.edmval_cov_rows_hessfree, Fitter.edmval_cov`)
  * `c74_noi_violated`: With a model parameter that is not a POI (a background normalisation, say) the rows of the nuisance parameters of interest are taken at the wrong places: the parameter of interest is stored without uncertainty and another parameter with one, for every solver.
  * `c74_frozen_violated`: Without the Hessian a frozen POI makes the program fail after the fit: the equation for its row has no solution.
  * `c74_external_violated`: When the fit is skipped and a covariance was loaded from an external result, the parameters are stored without uncertainty and the covariance is not stored, although the fitter holds it.
  * `c74_noedm_violated`: `--noEDM` without `--noHessian` leaves the covariance of the fitter as it was before the fit: the uncertainties of postfit histograms are computed from the prefit covariance, whatever the Hessian is.
  * `c74_ndf_violated`: A model parameter that has a prior or is frozen is not free, but is subtracted: the reported number of degrees of freedom is too small by the number of such parameters.
* **C75** L-curve (`_compute_curvature, l_curve_scan_tau, l_curve_optimize_tau`)
  * `c75_lbeta_violated`: C75 needs bin-by-bin uncertainties: without them `lbeta` is `None` and the sum raises.
  * `c75_frozen_violated`: C75 with a frozen parameter: its row of the Hessian is zero and the decomposition fails, the curvature is not computed.
  * `c75_beta_violated`: C75 with bin-by-bin uncertainties: the loss contains the likelihood `f` with profiled `beta`, the code takes the second derivatives of the likelihood at fixed `beta`. These differ by a matrix `D` (the part of the second derivatives that comes from the dependence of the profiled `beta` on the parameters); whenever `D` does not vanish along the curve the result is not the curvature.
  * `c75_external_violated`: C75 with an external term: the loss contains it, the likelihood whose logarithm is taken does not. The gradients are not parallel at the minimum, and the result is not the curvature of the L-curve.
  * `c75_scan_violated`: C75, scan: the parameters are left at the minimum for the last scanned value although `tau` is set back, so that without a fit the results are not those of the loss they are stored with.
  * `c75_sign_violated`: C75, optimisation: the value stored as the largest curvature has the wrong sign, unlike the values of the scan.
* **C76** Histograms named by the shape directives of a datacard (`DatacardConverter.get_histogram, DatacardConverter.load_root_directories, DatacardConverter.convert_to_hdf5`)
  * `c76_wildcard_violated`: C76, directives, against the precedence of the lookup (213-239: a directive for the process and the bin before wildcards): a directive with wildcards that comes after a directive for this process and bin replaces it.
  * `c76_depth_violated`: C76, histograms: a histogram beside a directory is not found when any directive of the card has a directory in its pattern.
  * `c76_optional_violated`: C76: an optional shape systematic (`shape?`) whose histograms are beside a directory is turned into a normalisation when any directive of the card has a directory in its pattern.
* **C77** Variations of a masked channel follow the statistical parameters of a fitted channel (`TensorWriter.add_beta_variations, TensorWriter.write, BinByBinStat.profile_and_apply, FitInputData`)
  * `c77_flow_violated`: (flow bins): a registration for a destination that keeps its flow bins is accepted, but when the axes of the source have flow bins too, these are read as well and the file cannot be written.
  * `c77_binning_violated`: (binning): only the names of the axes are compared, so a histogram whose axes have other numbers of bins is accepted when the total number fits, and its contents land in other bins than theirs: here (bin 1 of "m", bin 0 of "a") holds the content of (bin 0 of "y", bin 2 of "x").
  * `c77_additive_violated`: (additive type): with the type "normal-additive" (and in mode "lite") the variations of the file are silently ignored, the prediction of a bin depends on its own β only.
* **C78** Fits behind the asymptotic limits (`main, do_asymptotic_limits, Fitter.set_nobs, Fitter.freeze_params`)
  * `c78_signal_violated`: If no expected signal is given: the comment says that the signal is set to zero, but it is frozen at its default, strength one; the expected limits are those of a data set that contains the signal.
  * `c78_toy_violated`: For toys: the toy data enter only the fit with the signal frozen; the observed limit of every toy comes from a fit to the data of the file.
  * `c78_blinding_violated`: For blinding: the fitter is set up to blind fits to data, but the offsets are never switched on, so that the limits are those of the true values.
  * `c78_released_violated`: For a frozen parameter that an expression of a limit matches: it is free afterwards, in the fit to the data and in every later fit. The name of a limit is matched as an expression, so `a.b` releases `axb`.
  * `c78_minimum_violated`: After a fit that moved a constrained parameter: the constraint centres stay at their defaults, so the Asimov fitter is not at its minimum. One bin with 10 + θ events, θ = 1 after the fit without signal: the value at θ = 0 is lower than the one from which the limits are measured.
* **C79** Uncertainties given with the data (`TensorWriter.write, FitInputData, Fitter.__init__, Fitter.set_nobs, main`)
  * `c79_data_violated`: For fits to data: the variances given with the data, though stored and read, are not handed to the fit, which takes the data themselves as their variances.
  * `c79_covariance_violated`: For covariance fits to a file without covariance: the message announces the reciprocal variances of the data, but the fitter cannot be built, whatever the data.
* **C80** Auxiliary bundles survive writing and reading (`write_auxiliary_group, read_auxiliary_from_h5, TensorWriter.add_auxiliary`)
  * `c80_bits_violated`: For numbers that count as zero without being the stored zero (-0.0): "bit-for-bit" fails.
  * `c80_empty_violated`: For an empty list of strings: an empty array of floats is read.
  * `c80_bytes_violated`: For arrays of `bytes`, which the writer accepts as strings: the representation is read, not the text.
  * `c80_shape_violated`: For arrays of strings of more than one dimension: arrays of different shape, (1, 2) and (2, 1) for example, are stored alike, so no reader can tell them apart.
  * `c80_slash_violated`: For names with `/`: if a name of a bundle, or a key of a bundle, has more than one component, the file is written without complaint, and then cannot be read at all, not even for a fit that uses no auxiliary data.
* **C81** Queries and report of the input checker (`FitDebugData.nonzeroSysts, FitDebugData.channelsForNonzeroSysts, FitDebugData.procsForNonzeroSysts, debug_input_data`)
  * `c81_count_violated`: For the number of bins with few data in the message: it is the number of axes of the channel.
  * `c81_extreme_violated`: For extreme variations whose up template is the smaller one: whatever its size, it is not found.
  * `c81_flow_violated`: For files with a channel that keeps its flow bins: the slices of all later channels are misplaced, so that queries and report are about bins of other channels.
* **C82** Text of selections and arguments of mappings (`parse_axis_selection, parse_args, Ratio.parse_args, AngularCoefficients.parse_args`)
  * `c82_angular_violated`: C82 fails for the angular coefficients: processes given without a selection are left out without a word, because the argument is only looked at when there are more than two (angular_coefficients.py:107).
  * `c82_extra_violated`: C82 fails for further arguments of `Select`: a second selection is not looked at, and neither are processes after the selection.
  * `c82_value_violated`: C82 fails for a selection by value: `2j` is accepted, as an index and as a bound of a slice, and the histogram library understands it, but the predictions cannot be indexed with it, so that the first evaluation raises.
* **C83** Printout of impacts (`printImpacts, printImpactsParm, printImpactsHist, main`)
  * `c83_sort_violated`: C83 fails for the order of symmetric impacts: they have signs, and are sorted by the signed number, so that the largest impact can come first. (Asymmetric impacts are sorted by their absolute values, `c83_pairs`.)
  * `c83_asym_violated`: C83 fails for asymmetric impacts on a parameter of interest: unless they are of parameters that are not profiled, nothing is printed but an error, because the total uncertainty is appended to a table of pairs.
  * `c83_gaussian_violated`: C83 fails for Gaussian global impacts on the bins of a mapping: the histogram that is read is that of the global impacts, not the one in which the Gaussian impacts are stored.
* **C84** Tables behind the plots of impacts and pulls (`readFitInfoFromFile, readHistImpacts, make_plots, main`)
  * `c84_constraint_violated`: C84 fails for the constraints beside asymmetric global impacts: they are read as one number for every parameter, but the first two of them are taken for the ends of the interval, so that all parameters get the constraints of the first two.
  * `c84_pairs_violated`: C84 fails for groups of asymmetric impacts: with the total the table of pairs is a flat list, of which the first two numbers and the largest one are put into every row, so that all groups (and the total) are shown with the impacts of the first group.
  * `c84_num_violated`: C84 fails for rows in descending order: the last rows are kept, so that with a largest number of rows the largest impacts are left out.
  * `c84_channel_violated`: C84 fails for channels whose name is a part of the requested one: they are plotted too.
  * `c84_file_violated`: C84 fails for the files of impacts on bins: the name does not contain the channel, so that plots of several channels with the same bins are written to the same files.
* **C85** Plots of likelihood scans (`bin/rabbit_plot_likelihood_scan.py, bin/rabbit_plot_likelihood_scan2D.py`)
  * `c85_map_violated`: C85 fails for two-dimensional scans: the matrix of the scan has the first parameter along its rows, the plot puts the rows along the vertical axis. Every point is drawn with the likelihood of the point with the steps of the two parameters exchanged, so that any scan that is not symmetric is shown wrong (and not in line with the ellipse).
* **C86** Plots of covariances (`main, plot_matrix`)
  * `c86_data_violated`: C86 fails for covariances stored for each channel: the first one is kept in the variable for the covariance of all channels, and the second channel shows the first bins of the first channel under its own name.
  * `c86_data_axes_violated`: C86 fails for covariances stored for each channel when the first channel has several axes: the matrix is cut with two indices, which raises.
  * `c86_all_axes_violated`: C86 fails for selections of all axes of a channel: what is left is a number, for which the plot raises.
  * `c86_default_violated`: C86 fails without a request: all mappings are announced as the default (and are what an empty request would give), none is plotted.
  * `c86_file_violated`: C86 fails for the files of a mapping with selection axes: all plots after those of the whole and of the first channel have names without the key of the mapping (the suffix is replaced by that of the last bin), so that the plots of two mappings with the same channels are written to the same files.
* **C87** Results file (`Workspace.__init__, Workspace.dump_obj, Workspace.hist, Workspace.add_hist, Workspace.flush`)
  * `c87_path_violated`: C87 fails for names with a dot in a directory only (`v1.2/fit`): no extension is added, and the postfix is put into the name of the directory, which is another one than that made before.
  * `c87_category_violated`: C87 fails for a channel that has flow bins and an axis of names: the channel's rows include the overflow of the axis, the histogram is filled as if they did not, so the numbers do not fit and nothing is stored.
* **C88** Outputs of a run (`save_observed_hists, save_hists, fit, main`)
  * `c88_dropped_violated`: C88 fails for runs in which the covariance is not computed: impacts asked for are dropped without a message. With `--noHessian` global impacts are not among the options that are refused; with `--noEDM`, or if the fit is skipped and a covariance is loaded, no impacts are.
  * `c88_scan_violated`: C88 fails for scans with `--noHessian`: they need the covariance but are not among the options that are refused, so the fit is made and the run then raises before anything is written.
  * `c88_pair_violated`: C88 fails for two-dimensional scans whose names coincide: `a` with `b_c` and `a_b` with `c` are stored under the same name, so one of them is lost.
* **C89** Options of the merge (`main, clip_hist, get_groups_per_syst`)
  * `c89_cut_violated`: (merge_inputs.py:159-164): new names of processes are stored in an array of numpy as wide as the longest old name, which cuts them ("p" renamed to "signal" becomes "s"); systematics are then added to the uncut name, which is unknown, and the merge fails.
* **C91** Plots of histograms show the stored predictions, statistics and variations asked for (`main, make_plots, make_plot, get_chi2, Workspace.add_chi2`)
  * `c91_base_violated`: C91, violated: without profiling, the plots of all bins show no statistic although the linear one is in the file, and the saturated one is refused even if the file has it: both are looked for among the results of the fit instead of those of the mapping.
  * `c91_automatic_violated`: C91, violated: the choice "automatic" is documented as the saturated statistic for the plots of all bins and otherwise the linear one; the saturated one of a projection is shown if it is in the file.
  * `c91_default_violated`: C91, violated: without a request nothing is plotted, although all mappings are documented as the default.
  * `c91_prefix_violated`: C91, violated: a request for a mapping also gives all mappings with further arguments.
  * `c91_file_violated`: C91, violated: two selections of the same axes of a channel are drawn into the same file.
  * `c91_stack_violated`: C91, violated: predictions of a mapping with fewer processes than the file (a selection of processes) can not be plotted.
  * `c91_files_violated`: C91, violated: with fewer names than files of variations the label of the first group stands at the prediction of another file.
  * `c91_correlated_violated`: C91, violated: variations correlated among parameters can be asked for, but no run of the fit stores them.
  * `c91_stat_violated`: C91, violated: nor the statistical part of the uncertainties of cross sections, under the name by which it is looked for.
  * `c91_norm_violated`: C91, violated: the variations are not scaled with it: one that leaves the prediction as it is appears at the ratio of prediction and data.
  * `c91_diff_violated`: C91, violated: with differences the band is drawn about the prediction, not about its difference to the denominator, which for the prediction itself is 0.
  * `c91_scale_violated`: C91, violated: relative to data it is the difference to data that is scaled: a variation that changes nothing is moved away from the prediction.
  * `c91_sided_violated`: C91, violated: one-sided is asked for by variation, but in the upper panel any such entry, even that of a two-sided variation, hides the down curves of all.
* **C93** Stored variations of predictions are the predictions moved by the uncertainty of one parameter at a time (`Fitter._expected_variations, Fitter.prefit_covariance, save_hists, Workspace.add_expected_hists`)
  * `c93_larger_violated`: C93 deviates. After a fit the stored variations keep the other parameters where they are, though the parameters are correlated: the variation of a single parameter may be larger than the whole uncertainty of the prediction, here more than twice.
* **C94** Plots of the inputs of a fit show the sums of the templates in every slice and for every combination of axes (`make_plots, make_plot, main`)
  * `c94_swapped_violated`: C94, violated: the only curve drawn with `--oneSidedVariations`, with the label of the systematic, is the one down.
  * `c94_processes_violated`: C94, violated: with `--processes` the variations are still those of all processes, so that even a systematic without any effect stands off the prediction.
  * `c94_label_violated`: C94, violated: with `--splitByProcess` the process is named by the first character of its label.
  * `c94_norm_violated`: C94, violated: `--normToData` needs data: in a masked channel, or with `--noData`, no plot is made.
  * `c94_slices_violated`: C94, violated: the bins of the slices are counted in the order of the axes of the channel, the axes are named in the order of the option.
  * `c94_number_violated`: C94, violated: if a channel only has axes to select on no plot is made.
  * `c94_files_violated`: C94, violated: plots with different axes are the same file if a name has an underscore.
* **C95** Expected limits from the likelihood are the largest values on the contour of the Asimov likelihood, and agree with the Gaussian limits for a Gaussian likelihood (`do_asymptotic_limits, contour_scan`)
  * `c95_name_violated`: For the name of a limit on a mapping: the observable does not depend on it, but a name that is no parameter ends the run with an `IndexError`.
  * `c95_parameter_violated`: For a parameter whose fitted value is not zero: what is stored as the limit is not the largest value on the contour.
  * `c95_strength_violated`: For a signal strength that is stored as its square root (the default) unless the fitted root is small: the largest strength on the contour is the square of the largest root, and no number that the scan can return for a root above 1/4 (the default root is 1) is that square.
  * `c95_gaussian_violated`: For a parameter whose fitted value is not zero: even for a quadratic likelihood the two modes store different limits.
* **C96** The observed limit from the likelihood is the largest value of the parameter whose profiled CLs is at least the level (`compute_likelihood_limit, normal_pdf`)
  * `c96_different_violated`: For fits with different numbers of parameters, which the comment in the code allows: the search does not start.
  * `c96_gradient_violated`: If the minimum of the likelihood of the data is not zero, as after every fit to real data: the code differentiates the square root of twice the likelihood instead of the square root of twice its distance to the minimum. For every other parameter of the fit to data on which the constraint depends, the derivative handed to the search is too small by the factor of the two roots.
  * `c96_objective_violated`: For the derivative of the objective: what is handed to the search is a thousandth of it.
  * `c96_success_violated`: For a search that fails: whether it succeeded makes no difference to the limit.
* **C97** A call of the writer that raises leaves the writer as it was (`add_channel, add_data, add_pseudodata, add_process, add_norm_systematic, add_systematic, _compute_asym_syst, book_systematic, write`)
  * `c97_data_violated`: C97 violated, data: an `add_data` is refused because of a negative variance; the corrected call is refused because there are data already, and the file cannot be written any more.
  * `c97_process_violated`: C97 violated, templates: an `add_process` is refused because of a NaN and never repeated; the process is in the file all the same, as a signal without any yield.
  * `c97_syst_violated`: C97 violated, variations: an `add_systematic` that would add a parameter of interest to the data covariance is refused after its variation has been stored. A nuisance of the same name is then accepted for another process; in the file the first process varies too, with the template of the refused call.
  * `c97_norm_violated`: C97 violated, normalisations: an `add_norm_systematic` is refused because its second process is unknown, after the variation of the first has been stored. The same nuisance is then accepted for another process; in the file the first process varies too.
* **C98** A complete input can be written (`write, add_pseudodata, _check_hist_and_channel, get_systs, get_groups`)
  * `c98_kinds_violated`: In sparse mode by a nuisance that is constrained for one process and not for another: it has two columns, its variations are stored in both, and the check of the number of stored values fails. In dense mode the same input is written.
  * `c98_pseudo_violated`: By sets of pseudo-data with automatic names: all calls are accepted, and each of the two channels has data and one set of pseudo-data, but the sets get different names and the file cannot be written.
  * `c98_axes_violated`: By histograms with further axes: only the axes of the channel are compared, so that a histogram with one more axis is accepted as a template although it has more bins; the input is complete but cannot be written.
  * `c98_masked_violated`: By nuisances in the data covariance together with a masked channel: all calls are accepted, all histograms have the size of their channel and the input is complete, but it cannot be written.
  * `c98_stat_violated`: With the statistical uncertainties in the data covariance (`add_bin_by_bin_stat_to_data_cov`): a complete input with three bins and two processes cannot be written.
  * `c98_sparse_violated`: In sparse mode by nuisances in the data covariance: the variations of such a nuisance are counted but not stored, and the check of the number of stored values fails for a complete input.
  * `c98_refused_violated`: In sparse mode after a refused call: a systematic that is refused because a parameter of interest cannot go to the covariance leaves its variation behind, and a complete input cannot be written any more.
* **C99** A fit treated as linear has a quadratic likelihood (`is_linear, minimize, _compute_loss, is_linear, CompositeParamModel, main`)
  * `c99_lite_violated`: C99 fails without the positive sum: one bin with an additive uncertainty, one parameter per bin, and a signal strength that may be negative. The branch for bins without active yield makes the loss ¼(m-1)² for positive and a different polynomial for negative signal strength, yet the fit is treated as linear.
  * `c99_regularised_violated`: C99 fails with a regularizer whose mapping is not affine: the flag does not look at the regularizers. With the curvature of a normalised distribution the loss is ½(m-1)² + 8((m-1)/(m+1))².
* **C100** Options are resolved to a combination that the libraries can run, and to the one that was asked for (`__init__, _make_tf_functions, minimize, __init__, common_parser`)
  * `c100_automatic_violated`: C100 against the text of the option, which promises the gamma type for everything but a data covariance: with one parameter per bin and process, `automatic` is the multiplicative normal type.
  * `c100_case_violated`: C100 fails for programmatic callers: SciPy takes names in any case, the choice of derivatives does not; the minimiser then raises and the fit returns the starting values.
  * `c100_default_violated`: C100 against the text of `--minimizerGtol`, which promises SciPy's default if nothing is given (`none`: the method chooses): every method of the command line gets the value zero.
* **C101** The fit to the Asimov data closes (`main, defaultassign, set_nobs, expected_yield, _compute_loss, default_beta0, profile_and_apply`)
  * `c101_lite_violated`: C101 fails in a bin in which only processes without yield have a statistical uncertainty, as with `--expectSignal 0` in a bin with nothing but signal: the replacement of the vanishing sum by one moves β away from its centre, and the likelihood at the parameters of the Asimov data is larger than at other signal strengths.
* **C102** What is not fitted, how templates are stored and the order of the processes do not change the likelihood (`_compute_yields_noBBB, _init_logk_scaled, _compute_loss, profile_and_apply, lbeta`)
  * `c102_sparse_violated`: For sparse templates, masked bins and rates that differ from bin to bin: the dense fit has a likelihood, the sparse one raises (fitter.py:1742-1747 multiplies the full tensor by the rates of the fitted bins).
* **C105** A datacard with shapes is fitted with the likelihood it describes (`DatacardConverter.convert_to_hdf5, get_histogram, main, add_norm_systematic, add_systematic, write, _compute_loss`)
  * `c105_rate_violated`: For a rate parameter of all processes: only the first process of the card is varied.
  * `c105_flat_violated`: For a row of type `lnU`, whose nuisance has a flat prior: it is constrained like one of type `lnN`.
  * `c105_counting_violated`: For a card without shapes: the template of every process is the observation of its bin, whatever the rates.
  * `c105_gamma_violated`: For a row of type `gmN`: the file has no nuisance for it.
* **C108** A complete datacard is converted and fitted with its likelihood (`DatacardConverter.convert_to_hdf5, main, add_norm_systematic, write`)
  * `c108_rate_violated`: For a rate parameter of a process in all bins if a bin has no column for the process: the conversion ends with an exception, although the card is converted without the rate parameter, or with one for the bin of the process.
* **C110** Plots of uncertainties show the stored impacts and the total uncertainty of every bin (`make_plots, make_plot, main, add_expected_hists`)
  * `c110_colours_violated`: C110, violated: with more entries two sources have the same colour.
  * `c110_missing_violated`: C110, violated: if the impacts asked for are not in the file, this is not reported: all plots are made, without any curve of a source.
  * `c110_total_violated`: C110, violated: without a grouping of the configuration the total uncertainty is never shown; with one that names it, it is shown even if it was declined (`--noUncertainty` is read nowhere).
  * `c110_file_violated`: C110, violated: the plots of both definitions of impacts are the same files.
  * `c110_selected_violated`: C110, violated: with all axes of the histogram among the selection axes (the charge alone, say) nothing is drawn: the run fails at the first source.
* **C111** Chi-square and covariance fits of a written file minimise what the calls describe (`Fitter.__init__, set_nobs, _compute_ln, add_data_covariance, write, main`)
  * `c111_empty_violated`: C111: With a fitted bin without events there is no chi-square fit, whatever variances were given.
  * `c111_reciprocal_violated`: C111: Without a covariance the fit is meant to use the variances of the data and raises instead, for every file.
  * `c111_masked_violated`: C111: With a nuisance booked into the covariance, and a masked channel besides the fitted bins, no file that can be written can be fitted: the covariance has the size of all bins, the data that of the fitted ones.
  * `c111_variances_violated`: C111: Variances given with the data are not those of the chi-square fit: for calls with variances of one in a channel, the loss at some point is not the chi-square with these.
* **C112** A nuisance booked into the data covariance acts as if it were profiled (`book_systematic, add_systematic, add_norm_systematic, write, _compute_ln, _compute_lc, _compute_yields_noBBB`)
  * `c112_default_violated`: With a default strength of two the templates of a profiled nuisance are scaled by it, what was added to the covariance is not. All other conditions of `c112_profile_partial` are met, and profiling gives less than the loss.
  * `c112_lognormal_violated`: With log-normal variations a nuisance in the covariance shifts the data by a fixed amount, a profiled one scales the prediction. All other conditions of `c112_profile_partial` are met, and with signal strength zero no value of the nuisance reaches the loss.
  * `c112_free_violated`: A nuisance asked for without constraint gets one in the covariance. Whether a call with `add_to_data_covariance` asks for a constraint makes no difference to any file, whatever the calls before and after it.
* **C113** With additive variations the likelihood that is minimised is the one the calls describe (`write, book_logk, add_systematic, add_norm_systematic, _init_logk_scaled, _compute_yields_noBBB, _compute_loss`)
  * `c113_empty_violated`: A variation that fills a bin in which the process has no nominal content is dropped. All other conditions of `c113_likelihood_partial` are met.


Found while reading and not stated as theorems: `add_norm_systematic` with an asymmetric pair and a symmetrisation other
than `average`/`conservative` raises `TypeError`; a contour scan that raises leaves the parameters moved; `load_fitresult` assigns the parameters
before it raises for a missing covariance; full likelihoods of the normal additive β constraint add a shape vector instead
of a number; `covarianceFit` without a covariance raises `AttributeError` instead of a message.
