# A Lean 4 model of direpack

Everything is under `lean/Verif`. Source citations are to
`/repo/src/direpack/...` at the pinned commit, as `file:lines`.

* `Verif/*.lean`: the model, one Lean definition per function, class method or loop body.
* `Verif/Spec/*.lean`: small specifications in ordinary mathematical terms that do not use the model.
* `Verif/Props/*.lean`: the properties as theorems, named `CNN_...` after `properties.jsonl`, with
  concrete cases that meet their hypotheses beside them.
* `Verif/*Lemmas.lean`, `Verif/Energy.lean`: auxiliary mathematics.

## 1. What is modelled, and at what level

direpack is numerical Python. The model is a *shallow* one: every Python function
is a Lean function that follows the source branch by branch. Conventions:

* **Numbers.** Exact arithmetic. Functions that only use field operations,
  comparisons and order statistics are generic over a linearly ordered field `K`
  (so that they can be *evaluated* over `Rat` to exhibit witnesses); functions
  that need square roots, powers, tanh or trigonometry use `Real`. Floating point
  rounding, overflow and signed zero are **not** modelled.
* **NaN.** Where the property is about missing cells, cells are `Option K` with
  `none` for NaN. Elsewhere divisions by zero (which numpy turns into inf/NaN with a
  warning) are either failures of the model or excluded by an explicit hypothesis in the theorem, never
  silently.
* **Arrays.** Vectors are `Fin n → K`, matrices `Fin n → Fin p → K`. Where
  the property is about shapes (`_check_input`, broadcasting errors), small
  dynamic array types with `Except` results are used.
* **Exceptions** are values (`Except Err α`); a Python `UnboundLocalError`,
  `IndexError`, `ValueError` or `TypeError` at a given line is a constructor of `Err`.
* **Mutation.** In-place masked assignment is modelled as the sequence of
  assignments in source order. Estimator objects are structures; `fit` returns the
  new structure, so history dependence is visible. Shared dictionaries and arrays (C73, C97, C100) are a heap.
* **Loops** are structural recursion or folds; `while`/`for` loops with an early
  exit use the iteration bound of the source as the recursion argument.
* **External code** (`numpy`, `scipy`, `statsmodels`, `sklearn`, Ipopt) is either
  modelled by its documented mathematical meaning (`mean`, `median`, `sort`,
  `trim_mean`, `cdist`, `argmax`) or left as an arbitrary parameter with the
  assumed behaviour as a hypothesis.

## 2. Trusted base

* Lean 4.33.0's kernel and the axioms `propext`, `Classical.choice`, `Quot.sound`
  (those Mathlib itself uses). No axiom is added; no `sorry`, `native_decide` or
  `bv_decide`. Witness theorems are closed by `decide +kernel`, `norm_num` or
  `simp`, all checked by the kernel. `AXIOMS.txt` lists, for every property theorem, the axioms it depends on
  (output of `#print axioms`).
* The faithfulness of the transcription, definition by definition (cited in the
  comments).
* The reading of numpy/scipy primitives in `Verif/Num.lean`, `Verif/NDArray.lean` and `Verif/Missing.lean`.
* Idealisation to exact arithmetic.
* Assumptions on external code, each of them a hypothesis of the theorems that use it:
  * `IsEigh`: `numpy.linalg.eigh` returns orthonormal eigenvectors of a symmetric matrix with its eigenvalues (C62, C89, C90, C94);
  * `IsRootInv`: `matpower(cov, -1/2)` is a symmetric inverse root of a regular covariance matrix (C92, C94);
  * `IsLeastSquares`: least squares solvers return minimisers of the residual sum of squares (C50, C83, C93);
  * `IsGenInverse`: the pseudo inverse used for regression in `ppdire`;
  * `IsQuantiles`: normal and chi square quantile functions are positive and increasing above one half (C48, C80);
  * square root, hyperbolic tangent: nonnegative, odd, bounded as stated in the theorem;
  * the dcor library (fast distance algorithm) computes the textbook statistic (C34 to C36);
  * the optimisers (SLSQP, Ipopt, `scipy.optimize`) are arbitrary functions; only C94 for optimised methods assumes that the result satisfies
    the constraints;
  * a projection index is a pure function of the data it is given (`ppdire`, `capi`);
  * `sklearn`'s `set_params` assigns attributes (C51).

## 3. Plan per property

When the code does not have a property users rely on, the property statement is
kept, a theorem named `..._violated` proves a counterexample *in the
model of the code*, and theorems `..._partial` prove the part that does hold.

- **C01 Fair case weights are proper weights** - `Verif.MSupport.fair` over an ordered field; order lemmas on 1/(1+t)^2.
- **C02 Huber case weights: 1 inside the cutoff, decreasing beyond, in [0,1]** - `huber` models the two in-place masked assignments one after the other. Proved for cutoff >= 1 (`_partial`), with a witness that the claim fails for a cutoff below 1.
- **C03 Hampel case weights: three-part redescending weights in [0,1]** - `hampel` models the four masked assignments in sequence on the mutated array. Proved for 1 <= a (`_partial`), witness of failure for a < 1.
- **C04 Broken stick thresholds are a decreasing probability vector and always select a component** - `brokenstick` as reversed cumulative sum; double-sum exchange by induction on k; crossing by contradiction with sums.
- **C05 Median location is affine equivariant, order free and internal** - numpy median as middle of the sorted list; uniqueness of sorted permutations gives equivariance, also under sign reversal.
- **C06 Median and MAD resist any minority of arbitrary outliers** - Counting argument on the sorted list: the middle element has at least half of the sample on both sides.
- **C07 MAD is a scale estimate** - From C05 applied to absolute deviations.
- **C08 Scaling a training matrix produces location 0 and scale 1** - `scalerFit`/`scalerTransform`; equivariance of the estimators.
- **C09 inverse_transform undoes transform** - Round trip under the hypothesis that zero scale implies constant column (`_partial`), witness for MAD=0 on a nonconstant column.
- **C10 transform treats cases independently with the training location and scale** - Dynamic array model with the one-row flip of `_check_input`; proved for >= 2 rows (`_partial`), witness for one row.
- **C11 Trimmed mean: admissible fractions and range** - List model of scipy.stats.trim_mean with its error branch; fractions as rationals/ordered field with floor.
- **C12 Missing values are ignored column by column** - Cells as `Option K`; estimators by column filtering vs numpy nan-functions; trimmed case recorded as deviation.
- **C13 The L1-median stopping condition certifies a global optimum** - Euclidean norms over `EuclideanSpace`/sqrt; subgradient inequality from Cauchy-Schwarz.
- **C14 kstepLTS: bounded iterations and monotone concentration** - Iteration with fuel `maxit`; mean minimises sum of squares; selection of h smallest is minimal.
- **C15 scaleTau2 of a single column is a scale estimate** - Column model over the reals; equivariance by rewriting.
- **C16 scaleTau2 of a matrix is column-wise** - The matrix version sums over all cells: witness of disagreement; the p=1 case proved.
- **C17 Wrapping is bounded, odd, identity in the centre and zero in the tails** - `wrapUniv` over the reals with tanh; case analysis and |tanh| <= 1.
- **C18 Wrapper.predict applies the training location and scale** - State machine fit/predict; witness that predict depends on companions.
- **C19 Generalised spatial sign weights lie in [0,1] and shrink towards the centre** - Weights as functions of the norm vector; case analysis on masks.
- **C20 Generalised spatial signs leave the central half of the data alone** - Order statistic at index floor((n+p+1)/2)-1 is an upper bound for the h closest cases.
- **C21 Generalised spatial signs bound the influence of any case** - From the weight formulas.
- **C22 Generalised spatial signs do not depend on units or on case order** - Sorted list commutes with scaling and permutation.
- **C23 Generalised spatial signs: defined exactly when there are at least as many cases as variables** - Index bound as `Except`.
- **C24 GenSpatialSignPreProcessor.transform transforms the data it is given** - State machine; witness of violation and a characterisation of what is returned.
- **C25 gen_ss_covmat is a covariance matrix** - Shape-level model of the elementwise product; witnesses of failure; partial statement.
- **C26 Central moments are shift invariant and homogeneous** - `tmoment` over ordered fields (mean centring), algebra of finite sums.
- **C27 Variance is the covariance of a variable with itself and is nonnegative; covariance is symmetric and bilinear** - Finite sums.
- **C28 Correlation lies in [-1,1] and is scale free** - Cauchy-Schwarz for finite sums; equality case.
- **C29 Median-based correlation is scale free** - Witness of violation (median co-moment of a variable with itself is not squared).
- **C30 Co-skewness and co-kurtosis of a variable with itself are skewness and kurtosis** - Algebra over the reals.
- **C31 Small sample corrections are the documented ones** - Algebra; the correction factors as written in the code.
- **C32 Continuum association interpolates between covariance and its powers** - `Real.rpow` algebra.
- **C33 Doubly centred distance matrices have zero margins** - Finite sums over `Fin n`.
- **C34 Distance variance and covariance are nonnegative and distance correlation is in [0,1]** - Product-moment form of distance covariance, negative definiteness of Euclidean distance, Schur product.
- **C35 Distance statistics ignore shifts and rotations and scale linearly** - Invariance of pairwise distances.
- **C36 Naive and fast distance algorithms agree** - Two model functions and an equality theorem.
- **C37 Higher order distance moments use the requested order** - Model of the repeated squaring loop; witness and `_partial` for order 2.
- **C38 Martingale difference divergence is nonnegative and zero for unrelated mean** - Expansion of the double centring of half squared distances; negative definiteness.
- **C39 The martingale difference divergence matrix is symmetric positive semidefinite** - As C38 for linear combinations.
- **C40 dicomo fits do not depend on earlier fits** - State machine of constructor parameters; history witness; partial: modes that do not write the state.
- **C41 dicomo argument validation is total** - Decision-table model with `Except`; witnesses.
- **C42 SNIPLS score vectors are mutually orthogonal** - Induction on components over the deflation recursion.
- **C43 SNIPLS sparsity: zero coefficients outside the retained variables, retained sets grow** - Induction on components.
- **C44 SNIPLS sparsity parameter behaves monotonically** - Max/threshold inequalities.
- **C45 PLS fit satisfies the normal equations on its scores** - From orthogonality of the scores.
- **C46 SNIPLS predictions on the training data are the fitted values** - Algebra of centring/scaling.
- **C47 SNIPLS transform of the training data gives the scores** - Recursion with zeroed loadings; witness of failure when the support grows; proof for constant support.
- **C48 RM case weights are in [0,1] and never in the open interval (0,1e-6)** - Weight composition sqrt(wx*wy) and cut at 1e-6.
- **C49 RM and SPRM predictions reproduce the fitted values** - Algebra of rescaling.
- **C50 RM and SPRM reweighting stops** - Loop with fuel.
- **C51 SPRM leaves its constructor parameters unchanged** - State machine; witness; partial for scalings other than scaleTau2.
- **C52 Robust cross-validation loss downweights outliers on both sides** - Witness of violation; partial for nonnegative residuals.
- **C53 Candidate directions of the grid search have unit length** - Trigonometric identity over the reals.
- **C54 The grid search returns the best candidate** - First-argmax over lists.
- **C55 The refinement stage keeps directions at unit length** - Norm identity.
- **C56 Refinement never makes the projection index worse** - Candidate angle 0 is on the grid iff the number of directions is odd; witness for even.
- **C57 ppdire scores are orthogonal and reproducible** - Deflation recursion with abstract optimiser.
- **C58 ppdire predictions on the training data are the fitted values** - OLS as a projection; compression path witness.
- **C59 The native grid optimiser works for every number of variables** - Decision model; witness.
- **C60 CAPI combines every requested co-moment exactly once** - Slot index arithmetic.
- **C61 Slicing of the response is a partition into ordered slices** - List model of the sort/threshold loop.
- **C62 SIR and SAVE kernel matrices are symmetric positive semidefinite** - Sum of weighted outer products.
- **C63 Slicing methods fail cleanly when there are fewer distinct labels than slices** - Index model with `Except`.
- **C64 sudire start values honour the response type** - Call-site argument binding model; witness.
- **C65 sudire projection matrix is the projector on the estimated subspace** - Matrix algebra with inverse Gram matrix.
- **C66 The orthogonality constraint is the stated one** - Matrix algebra; reshape bijection.
- **C67 sudire refits use the new data only** - State machine; witness.
- **C68 Structural dimension estimate averages the right bootstrap distances** - Loop model; witness.
- **C69 Input normalisation is idempotent and preserves the data** - Shape model.
- **C70 NaN-tolerant products agree with ordinary products on complete data** - `Option K` cells; finite sums.
- **C71 set_params and get_params are inverse to each other** - Association lists.
- **C72 Constraint bounds handed to Ipopt match the constraints** - List recursion.
- **C73 minimize_ipopt option translation is stable** - Dictionary model.
- **C74 Finite difference derivatives are exact on the polynomials they should be exact on, and caching is transparent** - Algebra and a cache invariant over call sequences.
- **C75 Outlier plot classes partition the cases** - Case analysis.
- **C76 Cross-validation score table keeps every parameter setting** - List map.
- **C77 The one pass spatial sign function and the preprocessor class agree** - `genSsPp` and the class model on the same data; witness for the string 'None'.
- **C78 Standard deviation is the square root of the variance** - Algebra for product moments; witnesses for bias correction and for the fast distance algorithm.
- **C79 SPRM transform reproduces the training scores and treats cases independently** - Row-wise algebra of the stored weights; needs the least squares step only as a parameter.
- **C80 Weights of new cases are proper weights** - Weight functions on nonnegative distances; witness: single new case divided by a zero median.
- **C81 SPRM drops exactly the near constant variables and ignores them afterwards** - `keepVars` filter and zero coefficients outside the retained set (C43).
- **C82 The grid optimiser does at least as well as the best single variable** - First stage examines every coordinate direction; refinement monotone for odd `ndir`; witness for even.
- **C83 ppdire with OLS is the least squares fit on its scores** - Pythagoras for the projection on the scores and the constant.
- **C84 Whitened ppdire models can be fitted** - Full model of the whitened fit (`PPFull.lean`) with the singular value decomposition as a parameter; failure for two or more variables whatever the data are; for one variable, `transform` against the scores.
- **C85 Compression of flat tables does not change what the model is** - Full model of the compressed fit (`PPFull.lean`), which runs the ordinary fit on the compressed table and maps back; theorems about every successful fit, and a worked fit in which scaling makes `transform` differ from the scores.
- **C86 The scaling object published by ppdire describes the data** - The published object is the scaler of the response.
- **C87 The response can be passed by position or by keyword** - Which local variables are bound on each path of `fit`.
- **C88 Constructor arguments are reported by get_params** - Constructor and `get_params` as association lists.
- **C89 Sufficient dimension reduction directions are orthonormal in the right metric** - `eigh` as a parameter with orthonormal eigenvectors (`IsEigh`); inverse square root from it.
- **C90 SIR directions maximise the variation between slices** - Spectral theorem for the between-slice matrix; Rayleigh quotient on the complement of earlier columns.
- **C91 PHD depends on the response only up to location and sign** - Centring removes shifts; witness for the sign.
- **C92 sudire transform reproduces the training scores and treats cases independently** - Row-wise algebra of the stored loadings; witness for `copy=False`.
- **C93 sudire predictions are a fixed affine function of the scores fitted by least squares** - Least squares as a parameter with its normal equations; column dropping of `add_constant` modelled; witness for single cases.
- **C94 sudire scores of scaled data are uncorrelated with unit variance** - Covariance algebra with the inverse root of the covariance (`IsRootInv`).
- **C95 sudire can be used on flat tables** - The covariance matrix of a flat table is singular, so it has no inverse root.
- **C96 Optimisation-based sudire works for every response** - Count of the labels that the six default slices need.
- **C97 The Ipopt wrapper with jac=True evaluates at the point asked for** - Wrapper as a state machine over a heap of arrays.
- **C98 Every given case name is drawn at its case** - Annotation loops of the plots as folds over the name list.
- **C99 A truncated coefficient plot labels each bar with its own variable** - Ranks of the coefficients and the label list; witness with three variables.
- **C100 Default options do not depend on earlier fits** - Option dictionaries as a heap shared by all objects; induction on the history of fits.
- **C101 The objectives of sudire are the dependence measures of the projected data** - Closed forms of `dcovTrim` and `mddTrim`; distances are invariant under orthogonal maps and shifts; witnesses for bias correction.
- **C102 An optimal solution gives the directions of largest dependence** - `IsMinimiser` for the solver call; change of variables between the constraint sets with and without scaling.
- **C103 Validation scores of SPRM are R squared of the predictions** - `r2_score` as specified by scikit-learn; predictions from C49; weighted scoring refuted for every fit.
- **C104 The form of the response does not matter** - Shape model of the conversions (`RespIn`, `NDArray`); case analysis on the four forms.
- **C105 Explained variances of SNIPLS are percentages of the variance** - Orthogonality of the scores gives the decomposition of the sums of squares; the array is filled only when components are found, refuted otherwise.
- **C106 SNIPLS does not depend on the units of measurement** - Location and scale estimators follow the units, so the standardised data change by signs only; simulation of the two loops (`snLoop_rel`), uniqueness of the regression vector in the span of the weights.
- **C107 SNIPLS does not depend on the order of cases and variables** - The same simulation with permutations of cases and variables.
- **C108 RM does not depend on the units of measurement** - Simulation of the reweighting loop (`rwLoop_rel`) for standardised data that change by signs; the least squares solver of least norm follows signs and permutations (`lstsq_rel`).
- **C109 RM does not depend on the order of cases and variables** - The same simulation with permutations of cases and variables.
- **C110 RM treats outliers above and below alike** - The same simulation with a negative factor for (median, mad); an explicit data set whose mirror image is fitted differently for the centre mean, where the starting weights use no absolute value.
- **C111 Distance variance is the distance covariance of a variable with itself** - Both statistics reduced to the same centred matrix (`run_dvar_naive`, `run_dcov_naive`) and compared factor by factor; an explicit data set for trimming with bias correction, where the covariance is corrected for n cases and the variance for round(n(1-t)).
- **C112 ppdire does not depend on the units of measurement** - Location and scale follow the units, so the standardised data are the same and the component loop is the same computation; the coefficients are converted by hand. Quantile regression is given the raw response: refuted for every median regression routine by an exact line.
- **C113 ppdire does not depend on the order of the cases** - Simulation of the grid search, the refinement loop and the component loop for reordered cases (`gridDirection_order`, `ppLoop_order`); optimisers started at the first case refuted by one that returns its start value.
- **C114 A refitted ppdire object describes the last data only** - State model of the fitted object (`PpObj`): which attributes each kind of fit sets; induction is not needed because a two-block fit overwrites all that predict and transform read. Stale coefficients after a one-block fit.
- **C115 Scaled and unscaled coefficients of ppdire are the same model** - The scaled intercept evaluated: zero for the mean with scaling; equal to the unscaled intercept without scaling; computed with unscaled coefficients for the median (worked data set).
- **C116 SPRM does not depend on the units of measurement** - Simulation of the reweighting loop around SNIPLS on the retained variables (`sprm_rel`); the set of retained variables is related by `keepEquiv`. The absolute threshold 1e-5 on the scale of a variable is refuted by the worked data set in units of 1e-6.
- **C117 SPRM does not depend on the order of cases and variables** - The same simulation with a permutation of cases and variables; the singular value decomposition enters by a condition on the given data (`SvdFollows`), since no decomposition can follow the order for all data (equal singular values).
- **C118 Observed-against-predicted plots show the cases of the last fit** - State model of the attributes read by the plot (`YypObj`) under any history of fits; the points are computed as lists. Refuted: onlyval mode without new cases (exception created, not raised), refit with copy=False (stale response).
- **C119 Score plots show the scores of the cases** - Columns of the score matrices as lists; refuted for onlyval mode without new cases.
- **C120 Case weight plots show the weights asked for** - Bars with positions; refuted for an unknown mode (UnboundLocalError) and onlyval mode without new cases.
- **C121 Cross-validation contours show the current results** - The table of C76 filtered by finite scores; the cached table refutes the claim for a refitted grid search.
- **C122 sudire does not depend on the order of the cases** - Every statistic of the slicing methods, PHD and IHT is a sum over cases; the labels are met in another order, which reorders the sums over slices (`sliceLabels_perm`, `kernel_relabel`). Fewer slices than labels: refuted, only the labels met first are used.
- **C123 The slicing methods of sudire use only the order or the groups of the response** - Quantile slices are determined by comparisons of observed values (`discretize_mono`), labels are mapped by the relabelling (`labelLoop_map`), and the kernels read the response through the sets of cases in a slice (`kernel_congr`).
- **C124 sudire is affine equivariant** - Two symmetric roots of the inverse covariance matrix differ by a rotation (`std_rotation`), so the standardised data are rotated, the kernels of all methods are conjugated (`sdKernel_rot`), and with a gap between the eigenvalues the leading eigenspaces correspond (`leading_sim`). Predictions: least-squares fits on rotated, shifted, independent scores agree. Optimisation methods: the sets of feasible directions and the criteria correspond (`maximises_affine`).
- **C125 dicomo does not depend on the order of the cases** - Trimmed means and medians are functions of the sorted sample (`trimMom_perm`); the distance statistics are C35; the object is threaded through.
- **C126 ppdire with the variance and an exact optimiser is principal component analysis** - The index of centred scores is a positive multiple of their sum of squares (`dicomoIndex_var`); a maximiser of the Rayleigh quotient is an eigenvector (`eigen_of_max`), so the loadings equal the weights and deflation removes the direction; induction over the component loop (`pca_loop`). The optimiser is a parameter, assumed to solve the constrained problem that the code hands to it (`ppObjective`) exactly. Existence of such an optimiser: compactness of the sphere.
- **C127 ppdire with the covariance, least squares and an exact optimiser is partial least squares** - The index of centred scores is a positive multiple of their scalar product with the response (`dicomoIndex2_cov`); its maximiser is the normalised covariance vector (`best_is_direction`), which is the weight vector of snipls without threshold (`snWeights_zero`); induction over both loops, where snipls also deflates the response (`pls_loop`); coefficients in the span of the weights are determined by the fit (`pp_coef_unique`).
- **C128 The reweighting of RM and SPRM goes on exactly until one of three conditions is met** - Specification of a run (`Spec.IsReweightRun`): sequences of weights, sizes and found weights with the conditions to go on and to stop. Induction over the fuel of `rwLoop` builds the sequences (`rwLoop_run`); the relative change is turned into a product since sums of squares are not negative (`diffExceeds_iff`). For SPRM the residuals are, as in the code, differences of the unweighted response and the fitted values of the weighted fit.
- **C129 square_pi=True maximises the square of the projection index** - With `optimizer='grid'` every evaluation of the index goes through `evalIdx`, so the fits are equal (`C129_grid_partial`). The other optimisers are given `pp_objective`, which does not square: an exact optimiser of it maximises the square if the index is not negative (`C129_nonneg_partial`), and misses it on four cases with the third co-moment (`C129_optimiser_violated`); `Maxobjf_` is the index, `crit_values_` its square (`C129_reported_optimum`).
- **C130 sudire can be used on matrices of distances** - `give_coords` with the solver of the equations as a parameter that is assumed to list all solutions once (`Spec.IsCoordSolver`). Coordinates that are found have the given distances (`C130_coords_partial`); they are found exactly for affinely independent points, since otherwise the system for some point has one solution and the code takes the second (`C130_coords_iff`, by induction over the points: the solutions are the base of the perpendicular plus or minus its length), hence never for more than p+1 cases (`C130_many_cases_violated`). The objectives fail at every vector with one value per column (`C130_objective_violated`) and every fit fails because the covariance matrix of a square table is singular (`C130_fit_violated`).
- **C131 The directions of SAVE are where the slice covariances differ most from the overall one** - Criterion in the units of the data (`Spec.saveCriterion`). The quadratic form of the kernel of the standardised data at `v` is the criterion at `S v` (`quad_save`: covariance matrices of slices transform as `S C S`, and `M⁻¹ = S S`), and leading eigenvectors maximise a quadratic form successively (`leading_back`).
- **C132 The directions of directional regression maximise its criterion** - The kernel is expanded over pairs of slices (`dr_identity`): for centred data and slices that cover all cases it is the criterion less twice the form of `(A - M) M⁻¹ (A - 3M)`, A being the average second moment of the slices (`quad_dr`, `C132_dr_corrected`). So the claim holds when `A = M` (`C132_dr_optimal_partial`); it fails on seven cases because slice covariances have divisor one less than the size (`C132_dr_optimal_violated`).
- **C133 Principal Hessian directions are those in which the response is curved most** - The quadratic form of the kernel is the signed curvature (`quad_phd`), which the columns maximise (`C133_phd_signed`); the absolute one if it is not negative (`C133_phd_strength_partial`), and not for a saddle (`C133_phd_strength_violated`).
- **C134 The directions of iterative Hessian transformation lie in the space of that method** - For scaled data the covariance matrix whose powers the code takes is the identity, so the kernel is `p` times `v vᵀ` with `v = S cov(X, y)`, whose leading eigenvector is `v` (`leading_outer`, equality in Cauchy-Schwarz): the first direction is the one of least squares (`C134_iht_space_partial`). Two responses on the corners of a cube have the same covariances but different Hessian matrices, so the same result cannot lie in both spaces (`C134_iht_space_violated`).
- **C135 Settings outside their range never give a model** - For each estimator the model of fit is unfolded down to its checks: a result other than an error implies that every check passed, which is `Spec.SensibleCutoffs` and the ranges of the other settings. Values set later with `set_params` do not pass through the checks of the constructor of snipls: `C135_snipls_set_violated` shows that the fit then gives a model without any variable.
- **C136 The published locations and scales are the statistics asked for** - Independent specifications of the average, standard deviation, median (the middle of any vector that has the same values in increasing order), median absolute deviation and trimmed mean (`Spec/Stats.lean`); the sorted vector of the model is a permutation in order, and medians in the sense of the specification are unique. sudire reports standard deviations as scales even if it did not scale (`C136_sudire_violated`).
- **C137 Fitting leaves the parameters of sudire and ppdire unchanged** - The object after a fit is computed by the model of `sudire.fit`; its parameters are those before unless whitening is asked for (`C137_unchanged_partial`). With whitening `center_data` and `scale_data` are overwritten (`C137_whiten_violated`), and the methods with optimisation store the start value, constraints and arguments they made (`C137_solver_violated`). For `ppdire` the fit returns the parameters of the object with the result (`PpConf.fit`).
- **C138 A scaler standardises with the location and scale of its last fit** - The object is a state machine with the four attributes that the methods set (`ScalerObj.call`), a failing call keeping what it had already stored. By induction over the history the location and scale are those of the last successful fit (`C138_last_fit` for mean with std and for mad or None as scale; `C138_last_fit_partial` for all estimators such that the scale succeeds where the location does). A refit that fails between the two leaves a mixture (`C138_mixed_violated`).
- **C139 inverse_transform() without an argument undoes the last transform** - Same state machine; by induction over the calls after the transform (`C139_inverse_partial`, without a fit in between). After a refit the old standardised table is mapped back with the new location and scale (`C139_refit_violated`).
- **C140 Asking for more components keeps the earlier ones** - Induction over the component loops: the run with fewer components succeeds and its list of components is a prefix (`snLoop_take`, `ppLoop_take`). The rotations are nested because the matrix they are computed from is upper triangular (`triangular_first`). For the methods of sudire without optimiser the directions are the leading eigenvectors of a matrix that does not depend on the number of components.
- **C141 More components never fit the training data worse** - The fitted values of the smaller model are an affine function of the scores of the larger one (C140), whose residuals are orthogonal to these scores and to the constant (C45, C83, C93).
- **C142 Exact linear relationships are recovered** - If the extracted components number as many as the predictors, scores and standardised predictors span the same space (`full_rank`), so the least squares fit on the scores is exact and the slopes are unique (`C142_snipls_partial`, `C142_ppdire_partial`, `C142_sudire`). SNIPLS gives no model if more components are asked for than explain the response (`C142_snipls_violated`, induction over the component loop). Robust M regression gives no model for any exact relationship that the locations satisfy too (`C142_rm_violated`, `C142_rm_mean_violated`, `C142_rm_median_violated`): the residuals of the weighted least squares fit vanish and are divided by the median of the empty set.
- **C143 New cases are treated case by case** - A function of a single case is exhibited that gives every entry of every batch (`Spec.CaseByCase`). Violated by `sprm.weightnewx` (`C143_sprm_weights_violated`), by `sudire.predict` for single cases (`C143_sudire_predict_violated`), by `ppdire.predict` after compression with the mean as centre (`C143_ppdire_compression_violated`) and by `ppdire.transform` without centring (`C143_ppdire_uncentred_violated`).
- **C144 Distance correlation is one exactly for perfect dependence** - Equality in the Cauchy-Schwarz inequality makes the doubly centred distance matrices proportional; a symmetric matrix with zero diagonal is determined by its doubly centred matrix (`zero_of_dcen`), so the distances themselves are proportional. For variables, distances on a line determine the positions up to reflection and shift.
- **C145 When robust M regression returns a model** - The loop is total when its body is (induction on the fuel, `rwLoop_total`); the body fails only if all residuals vanish (`scaleRes_iff`), and a weighted least squares fit with positive weights leaves no residuals exactly if the response is a linear function of the predictors (`lstsq_exact_iff`).
- **C146 One outlying response cannot carry the coefficients of robust M regression beyond all bounds** - Violated: weights below 1e-6 are raised to 1e-6 in the fits. For five cases, four of them on a line, the coefficient is at least a fixed multiple of the fifth response for all settings, and is computed exactly for Hampel weights (invariant over the passes). Partial: the influence formula for one predictor.
- **C147 sudire optimises over the data standardised with the published location and scale** - Inversion of `fit` for a new object (`sdArgs_new`), then the branches of the centring and scaling steps. Violated for the mean: without scaling the published standard deviations are not used, with scaling the data are multiplied by the inverse square root of the covariance matrix.
- **C148 The robust locations and scales resist any minority of outliers** - Spatial median: the triangle inequality bounds the distance from the column medians of any point whose sum of distances is no larger; the column medians are bounded by C06. k-step LTS: induction on the steps, the cut-off distance being bounded by the clean cases. Tau scale: bounded terms times the median absolute deviation (C06).
- **C149 SNIPLS directions maximise the penalised covariance with the unexplained response** - The residual response is orthogonal to the earlier scores, so its covariances with the deflated and the original predictors agree (induction on the components, `SnRun.direction`); soft thresholding minimises the distance to the covariances, which gives optimality and uniqueness (`soft_best`). Violated for later components: a variable retained earlier whose covariance has fallen below the threshold gets a weight of the wrong sign.
- **C150 The result of minimize_ipopt reports what happened** - State machine of the callbacks with the points at which the objective is called as ghost state; induction on the callbacks for each of the three kinds of gradient. Violated: with jac=True gradients are not counted, and the calls made by the numerical gradient are not counted.
- **C151 On data without outliers the robust regressions are the classical ones** - With all starting weights one the first pass is the classical fit, and all weights it gives are one again; so the loop stays there (`rwLoop_clean`, induction on the fuel). For sprm the inner SNIPLS works on data standardised already, whose means are zero; it gives the components of SNIPLS on the original data. Centre mean for the statements in original units.
- **C152 With all components SNIPLS is ordinary least squares** - The score vectors are orthogonal, not zero, and in the column space of the standardised predictors; if there are as many as the rank they span it, so the residual, orthogonal to the scores (C45), is orthogonal to all predictors. The loop extracts all components asked for unless no predictor is correlated with the response (`snLoop_length`, induction on the components).
- **C153 whiten_data=True makes sudire work on white data** - The singular value decomposition gives orthonormal columns (`whitener_gram`); no singular value vanishes because the covariance matrix is regular. Violated: the factor is the square root of the number of predictors, so the variances are p/(n-1).
- **C154 Skewness, kurtosis and odd moments obey the laws of moments** - Reflection maps symmetric data to a permutation of themselves and changes the sign of odd moments (C26, C125). Kurtosis: the average of the square of d^2 - m2 - (m3/m2) d is not negative. Violated for the median as centre, which takes absolute values.
- **C155 The value of CAPI is a function of the data** - Model of the capi object with the dicomo object it keeps; induction on the history with the invariant that estimator and centre are the ones asked for. Violated for scaled co-moments of degree three or more with the median: `cos` and `cok` set the centre of the shared object to the mean, so all fits but the first use the covariance about the mean.
- **C156 Cases without information do not change a SNIPLS model with missing data** - Model of the branch for missing cells (`snFitNaN`), cells being `Option ℝ`. Complete data and a blank case: induction on the components, all products agree (`snLoopN_complete`, `snLoopN_blank`). Violated: cases without a response count in the Gram matrix but not in the covariances, so adding all cases again without responses halves the coefficients.
- **C157 With missing cells the origin of the predictors does not matter to SNIPLS** - The standardised data do not depend on the origin (`scaled_shift`), so components and coefficients agree; with complete predictors the intercept makes up for the shift. Violated: fitted values put zeros in the original units for missing cells.
- **C158 Predictions for the training cases are the fitted values, also with missing cells** - Inversion of the fit (`snFitBranch_inv`). Violated: `predict` multiplies by numpy's `matmul`, which gives NaN for a case with a missing cell.
- **C159 return_scaling_object has no influence on the results of sudire** - The fit is split before the line that publishes the object (`fit_before`); the first part does not read the argument. Violated for `center='median'` on data that are neither centred nor scaled: the variable does not exist.
- **C160 SNIPLS without sparsity is partial least squares, and gives a model exactly as long as there are components** - Strong induction on the components: weights and scores lie in the spaces of powers, because the unexplained part of the response is the response minus the image of an element of the previous space (`SnRun.krylov`); the weights are linearly independent, so they span the space. The loop can go on as long as the unexplained part is correlated with a predictor (`snLoop_pls_succ`); if it is not, `s` is the image of an element of the space, which then contains all powers (`krylovAll_le_of_solution`).
- **C161 Case weights are those of the residuals of the published model** - Inversion of the last pass of the reweighting loop (`Pass.last`, `scaleRes_inv`). rm: exact in standardised units; with the mean as centre the standardised residuals are proportional to `residuals_` and relative sizes do not depend on the unit. Violated for rm with the default median (the residuals in the loop have no intercept) and for sprm (the residuals compare the unweighted response with the fitted values of the weighted data: nine cases on a line, one has weight below one).
- **C162 The published case weights and coefficients of the robust regressions belong to one fit** - Three inductions over the loop: a limit higher by one gives the same outcome or that of one more pass with the weights left behind (`rwLoop_succ`), runs that end before their limit do not depend on it (`rwLoop_limit`), lower limits keep the run alive (`rwLoop_lower`); the limit enters a fit through the loop only (`rmFit_loop`, `sprmFit_loop`). Violated: the weights are updated after the last fit; five cases with all published weights one whose slope is not that of least squares.
- **C163 Distance covariance is zero exactly for independent data** - The quadratic form of Euclidean distances vanishes only for weights that sum to zero at every point: adding two points with small opposite weights shows that the potential of the weights is constant, and its second difference at a point shows that the weight there is zero (`potential_const`, `dist_strict`). The trace of the product of two semidefinite matrices being zero their product is zero; two applications give independence. Conversely sums over independent data factor (`sum_independent`).
- **C164 The martingale difference divergence is zero exactly if the mean of the response does not depend on the predictors** - The divergence is minus the quadratic form of the distances with the centred responses as weights (C38); `dist_strict` for one direction, summation by values of the predictors for the other.
- **C165 Entering every case several times changes no estimate** - A list in which every element occurs `k` times has the same mean, median and mean square, so locations, scales and intercepts agree; covariances multiply by `k`, which cancels in the soft threshold (relative to the largest) and in the ratio that gives the coefficient of a component (induction over the components, `Repeats.snLoop`). Moments and double sums of centred distances: sums over copies are `k` (or `k²`) times the sums. Reweighting loop: simulation of the loop on the repeated data by the loop on the original (`rwLoop_repeat`).
- **C166 The choice of the axes does not matter for dense fits** - Orthonormal rows preserve inner products and norms, so distances and weights of cases do not change and centres are mapped (`C166_signs`). The dense pass of SNIPLS uses the axes only through inner products (`densePass`, induction over the components); minimum-norm least squares is equivariant because it is unique; the reweighting loops are simulated (`rwLoop_same`). Violated for the column-wise median, with sparsity (the threshold compares single coordinates) and for the least trimmed squares location with a positive tolerance (the largest change of a single coordinate).
- **C167 The spatial median is one point that moves with the data** - Existence: the sum of distances is continuous and tends to infinity. Uniqueness: at the middle of two minimisers all triangle inequalities are equalities, so all cases lie on the line through them (`sumNorm_line`). Mixture: the nearest point of the convex hull is closer to all cases. First-order condition: `√A ≤ (A + d²)/(2d)` for a step along the resultant in one direction, Cauchy-Schwarz in the other (`sumNorm_iff`). Violated for a start given by the caller: `l1median(X, x0=...)` reads a variable that was not assigned.
- **C168 Standardising standardised data changes nothing** - From C08: a refit finds location 0 and scale 1 (or 0 where it was 0), so the second transformation is the identity. Violated for l1median: three cases whose spatial median is the origin because the angle is above 120 degrees; after the columns are scaled the angle is smaller and the origin is no longer the spatial median (C167).
- **C169 A constant predictor carries no information** - Padding with zeros: a centred constant column is zero, has covariance zero with the response and is never selected, so the pass is simulated on the padded data (`snLoop_pad`); the minimum-norm least-squares solution has zero there (uniqueness); distances between cases do not change. Violated with scale 'std' or 'mad' (the scale of a constant column is replaced by one for the data but the coefficients are divided by the recorded zero: NaN, modelled as an error), and for the spatial-sign radial functions whose cutoffs depend on the number of columns.
- **C170 What the value of CAPI does not depend on** - The index is a fixed combination of dicomo co-moments (C155, C60); each is invariant by C125, C165, C26, C35 and C30, and a congruence lemma carries this through the two loops. Violated for units: with scaling=True the degree-two term is the covariance (mode 'cov'), not the correlation; the change is computed exactly.
- **C171 The arguments given to ppdire.fit reach the projection index** - `ppIndexCall` models the dictionary handed to the index. It is the statistic asked for if neither option nor order is given, and for the modes of order two. Violated: `option` and `dmetric` are read into local variables that are never used, `order` is not read, and the default pi_arguments={} gives a KeyError.
- **C172 Regression equivariance: adding a known linear effect to the response adds it to the fit** - Two best linear fits have the same values (midpoint argument, `best_fit_unique`), so every method that fits best is equivariant. SNIPLS fits best with as many components as the rank (C152), robust M regression on data without outliers (C151). Violated with fewer components (one component on two orthogonal predictors; the fit lies in the space of C160) and for robust M regression (the starting weights depend on the response, not on residuals: a response with more than half of its values equal has no model, the response with the linear function added has one).
- **C173 Trimming protects the statistics of dicomo against outliers** - Props/TrimResist.lean. A trimmed mean lies between two numbers if at most int(t n) values lie outside (from the order statistics form C11_trim_value); applied to location and products it bounds the moments for mean centring (C173_arithmetic, C173_values), the breakdown bound of the median gives centre='median' (C173_median). Distance matrices: counting pairs gives the bound when 2kn-k^2 <= int(t n^2) (C173_distance_partial); with int(t n) outliers it is false (C173_distance_violated).
- **C174 SAVE does not overlook what SIR finds** - Props/SaveSir.lean. Analysis of variance of the projected data: n times the variation between slices is s-1 plus the sum of (n_i-1)(1 - variance of slice i); Cauchy-Schwarz in whitened coordinates bounds each term by what SAVE sees of the slice, Jensen over the slices. Violated: because slice covariances have divisor n_i-1, SAVE sees nothing of a direction whose slice means differ by (s-1)/n; eight cases where SIR and SAVE return different directions for that reason.
- **C175 The grid search of ppdire comes close to the best direction** - Props/GridNear.lean. A nonnegative quadratic form of a direction in the plane is alpha + R cos(2 theta - psi) with R <= alpha, so a direction at distance delta from the best one reaches cos^2(delta) of the largest value; C53 gives such a candidate (C175_plane_partial). For three and more variables the share holds for combinations of the first two, as the later steps do not lose what the first plane gave (odd ndir, C56; C175_first_plane_partial). Violated in general: with ndir = 4s+3 the search stays on a coordinate axis of variance 50 although a direction of variance 81 exists (C175_space_violated). C175_index: variance and covariance are dicomo's.
- **C176 Directional regression does not overlook what SIR finds** - Props/DrSir.lean. The kernel in data units (`Spec.drValue`) equals the quadratic form of the code's matrix, so eigenvectors maximise it. Lower bound: Cauchy-Schwarz for each square and Jensen over the slices give 2 w^2 + 4 B^2 - 2, w the average second moment, B the variation between slices; the analysis of variance of C174 gives w = 1 - 1/n + Q/n, Q the sum of the variances of the slices; Q >= 1 is immediate, Q < 1 means at least two slices of two or more cases and B large enough (a quadratic inequality).
- **C177 Variables with the same content are treated alike** - Props/EqualCols.lean, Props/SPRMTwo.lean. Put one copy back into the units of the other (C106, C108, C116); exchanging the two equal columns then reproduces the data, so by the theorems on the order of the variables (C107, C109, C117) the coefficients agree. Violated by the grid search: with three directions and the variance it gives two equal variables the weights 1/2 and sqrt(3)/2, as no angle of its grid is pi/4 and the refinement only keeps the direction or jumps to a coordinate axis.
- **C178 Residuals are centred by the location asked for** - Props/ResidCentre.lean. The intercept is the location of y - X coef_, and mean, trimmed mean and median are shifted with the data, so the same location of the residuals is zero; for the mean the linear predictor at the means is the mean of the linear predictor. Violated by robust M regression with centre='None', which fits the median of the residuals as an intercept where SNIPLS and SPRM have none (C178_rm_violated, a worked fit).
- **C179 Uncorrelated predictors carry no information** - Props/Uncorr.lean, Spec/Uncorr.lean. After centring by the mean the added columns are orthogonal to the response and to the other columns; induction over the component loop: their weight is zero, the score is a combination of the other columns, so deflation leaves them as they are and keeps the orthogonality. Proved for the mean with and without scaling; violated with the median, as deviations from medians of uncorrelated variables need not be orthogonal (C179_median_violated, three cases).
- **C180 Bias correction removes the bias** - Props/Unbiased.lean. The sum of products of two U-centred matrices is a combination of three sums of the distances; leaving out each case in turn gives the identity n U_n = sum of the U_(n-1), and induction on the number of cases left out gives all subsamples. A U-centred matrix has zero diagonal and zero row sums, so its sum over all reorderings vanishes entry by entry. Violated by dicomo, which takes a square root: unless it is zero for all pairings the fast algorithm gives NaN for some pairing, and the naive one, which takes the absolute value first, has a positive average (C180_dcov_fast_violated, C180_dcov_naive_violated).
- **C181 A sparse model is the model of the variables it retains** - Props/Retained.lean. Simulation of the component loop with and without the dropped columns (`snLoop_sub`): the variable of largest covariance is always retained as eta < 1, so the threshold is the same and the weights differ by a positive factor from the normalisation, which cancels in the deflation; the regression vector is unique in the span of the weights. New cases: the coefficients and the rows of the weights of discarded variables are zero (C43).
- **C182 Sliced inverse regression is discriminant analysis of the slices** - Props/Lda.lean, Spec/Lda.lean. Analysis of variance of the scores: between plus within sums of squares are n-1 times the variance; C90 says that SIR maximises the former at given variance, so it maximises the ratio, compared crosswise because the variation within the groups can be zero.
- **C183 PLS coefficients grow with the number of components and stay below least squares** - Props/Shrink.lean. Induction over the deflation steps: the coefficients are the coefficient of the first weights times these weights plus the coefficients of the deflated problem, the two parts are orthogonal, and the first coefficient grows with the covariance of the rest with the response. For least squares: the model with the maximal number of components (C160) solves the normal equations and is orthogonal to the null space of the predictors.
- **C184 Sliced inverse regression finds the space of the slice means** - Props/SirRank.lean, Spec/Lda.lean. The kernel matrix is E^T D E for the slice means E of the standardised data, whose weighted sum is zero: its rank is at most s-1, so the eigenvalues beyond are zero; eigenvectors of nonzero eigenvalues are in the span of the slice means.
- **C185 Projection pursuit with the correlation is least squares** - Props/PPDireCCA.lean. Maximality of the first direction for a unit vector and its negative compares the squared correlations of its scores and of any combination of the standardised predictors with the response (`best_corr`); the residual sum of squares of a combination is bounded below by its squared correlation, and the fitted values are at least as good as the best multiple of the first scores (C83).
- **C186 Scores and loadings reproduce the predictors** - Props/Reproduce.lean, Spec/Reproduce.lean. The scores are orthogonal and the loadings are the coefficients of the projections on them, so Pythagoras gives best approximation and the split of the sums of squares; a matrix with rank many orthogonal score columns has all its columns in their span. SNIPLS sets the loadings of predictors outside the current set to zero, although it has deflated them: partial, with a witness.
- **C187 With all components every method is ordinary least squares** - Props/FullModel.lean. By C186 (ppdire) and the invertible direction matrix (sudire) every linear function of the predictors is one of the scores, on which the final regression is least squares (C83, C93); SNIPLS by C152. The fitted values are unique (strict convexity).
- **C188 Principal components reproduce the predictors as well as any scores and loadings can** - Props/KyFan.lean, Props/BestSpace.lean, Spec/Pca.lean. Ky Fan's inequality for a quadratic form split by an orthonormal system of eigenvectors (`ky_fan`): with Bessel's inequality no orthonormal system of as many vectors has a larger trace. A misfit of any scores and loadings is bounded below by the total sum of squares minus the trace on an orthonormal basis of the span of the loadings (Gram-Schmidt). Existence: every deflation lowers the rank by at most one (`rank_deflate`), and the variance of the next direction is positive as long as the rank is.
- **C189 The directions of SIR, SAVE, directional regression and PHD are jointly best** - Props/KyFan.lean, Props/BestSudire.lean. The leading eigenvectors are an orthonormal system of eigenvectors with the largest eigenvalues (`leading_joint`); the inverse root of the metric carries orthonormal systems in the metric to orthonormal systems, and the criteria of the earlier claims (C90, C131-C133) are the quadratic forms of the kernel matrices. Directional regression needs that the average second moment of the slices is the metric; without it the single direction already is not optimal (C132_dr_optimal_violated).
- **C190 On the training data the coefficient of determination is a share and a squared correlation** - Props/RSquare.lean, Spec/RSquare.lean. The residuals sum to zero and are orthogonal to the scores (C83, C45 with C178, C93), the fitted values are an intercept plus a combination of the scores; Pythagoras gives the split and the rest is algebra (`splits_of_orth`).
- **C191 Wrapped data resist any minority of outliers and do not depend on order or history** - Props/Wrap.lean, WrapperObj.lean. The column is standardised with median and mad, whose breakdown (C61) bounds both by the clean majority; the wrapping function is zero far out and bounded by a constant elsewhere, so a far value becomes the median. A value shared by a majority gives a zero scale: it becomes NaN and the other entries become it (C191_majority_violated).
- **C192 A call of fit that fails does not damage the model** - FailObj.lean, Props/FailSafe.lean. The objects are modelled with the attributes in the order in which fit assigns them and with the places at which it can raise. Induction over the history of failed refits with the same number of columns shows that what predict reads is unchanged; snipls, rm and sprm assign self.X before the checks, so a failed refit with another number of columns makes predict raise for the data it was trained on, and sprm assigns x_loc_ and x_sca_ before its last check, so transform silently changes.
- **C193 Locations and scales do not move faster than the data** - Props/Stability.lean, Spec/Stability.lean. The k-th smallest value is monotone and moves with a shift (counting argument), so sorted data move no more than the data; medians, means of kept values and root mean squares follow, and the lists published by the scaler column by column.
- **C194 Case weights change gradually** - Props/Gradual.lean. The Huber weight is c/max(d,c) and the Hampel weight its product with a clipped linear function; both factors are Lipschitz and at most 1. With a cutoff below 1 the second mask of the code sees the ones written by the first, and the weight jumps at the cutoff (C194_huber_violated).
- **C195 Co-moments and measures of dependence move gradually with the data** - Props/StabilityDicomo.lean. Covariances, distance covariances and divergences are inner products of centred vectors (of doubly centred distances); centring is a contraction, distances move by at most twice the move of a case, and inner products and cosines are bounded by Cauchy-Schwarz.
- **C196 Standardising beforehand gives the model that standardises itself** - Props/Beforehand.lean, Spec/Beforehand.lean. Without centring and scaling the loop gets the standardised data unchanged, so components and scaled coefficients agree; the intercepts are compared through the affine equivariance of means, trimmed means and medians. False for snipls about the medians (intercept of the centred model is 0, not a median) and for quantile regression in ppdire.
- **C197 With all components the fitted values follow the responses linearly and steadily** - Props/Steady.lean, Spec/Steady.lean. By C187 the fitted values are those of least squares; residuals are orthogonal to all linear functions of the predictors (a quadratic that is never negative has no linear term), so fitted values are a projection: linear, idempotent, and no longer than the responses; one changed response gives its leverage.
- **C198 With all components no case is fitted worse than it is predicted without it** - Props/LeaveOneOut.lean, Spec/LeaveOneOut.lean. Replacing the response of the left out case by its prediction makes the function of the reduced model the least squares fit of all cases (orthogonality of residuals); the change back to the true response moves the fitted value by a share between 0 and 1 (C197). sudire cannot predict a single case (C93), so that there the case has to be predicted with the others.
- **C199 The different locations and scales of the same data stay close to each other** - Props/CloseLocations.lean. The mean is at most the mean absolute deviation away from the median, which the median minimises; Cauchy-Schwarz gives the standard deviation. Half of the cases deviate from the median by at least the MAD. The spatial median in the same way, with distances.
- **C200 Partial least squares fits at least as closely as principal component regression** - Props/PlsPcr.lean. The residual of partial least squares is minimal over the Krylov space (C160). The product of the factors 1 - ZZ'/lambda_b over the leading eigenvalues, applied to the response, is the residual of coefficients in that space, removes the part on the principal axes and does not lengthen the rest, because orthogonally to the axes all eigenvalues are at most lambda_b. Pythagoras compares with any regression on the scores (C126).

## 4. Where the code does not have the property

Each line is a theorem; the statement in Lean says for which inputs.

- `C02_huber_violated`: C02 violated: with cutoff 1/2 the case at distance 0, inside the cutoff, gets weight 1/2 instead of 1, and less than the case at distance 3/5, outside the cutoff.
- `C03_hampel_violated`: C03 violated: with cutoffs 1/2 < 3/4 < 9/10 a case at distance 0 gets weight 0, i.e. is discarded as an outlier, while the case at distance 3/5 keeps a positive weight.
- `C09_roundtrip_violated`: C09 violated: MAD scaling of `exX`; the value 5 in the first column comes back as 1.
- `C09_roundtrip_one_row_violated`: C09 violated for one-row matrices: the row `(1, 2)` comes back as a 2 × 2 matrix.
- `C10_one_row_violated`: C10 violated: the case `(6, 6)` standardised on its own gives a column `(5, 5)` computed with the location and scale of the *first* variable only; as part of a larger matrix it gives `(5, 2)`.
- `C14_lts_objective_violated`: C14, violated for tied distances: starting at the median of `ltsTies` the sum of the `h = 12` smallest squared distances is 1, and after one concentration step it exceeds 1.
- `C16_tau_columnwise_violated`: C16, violated: the tau scale of a column of a matrix differs from the tau scale of that column on its own, for every positive value of the consistency denominator.
- `C18_wrapper_predict_violated`: C18, violated: the result does not depend on the training data at all; the same new case is returned unchanged in one batch and moved to another value in another batch; and a new case on its own gives NaN.
- `C24_transform_violated`: C24, violated: a fitted pre-processor returns the same matrix whatever it is given; in particular a new case is returned as the training case.
- `C25_covmat_violated`: C25, violated: whenever there are at least two variables and the number of cases is neither one nor the number of variables, the call fails with a `ValueError`; for a single variable the result has one row and column per case instead of one per variable.
- `C25_covmat_square_violated`: C25, violated also for as many cases as variables: the two centred cases (0,1) and (1,0), left alone by `winsor`, have cross product matrix 1/2 times the identity; the code returns the matrix with zero diagonal and 1/2 off the diagonal, which is not even positive semidefinite.
- `C26_median_violated`: C26 fails with median centring: the "variance" of `2x` is twice that of `x` (it is a MAD, not a variance), and shifting `y` so that it coincides with `x` changes their covariance from 1 to 1.4826.
- `C29_median_corr_violated`: C29 fails: multiplying `x` by 4 doubles the median correlation of these two columns, from 1/1.4826 to 2/1.4826, which is not even in [-1,1].
- `C30_cok_fisher_violated`: C30 fails with `Fisher=False` (no bias correction): for every column the co-kurtosis with itself is then 3 more than the kurtosis, which ignores the flag.
- `C36_biascorr_violated`: C36 fails with bias correction: for these data the unbiased squared distance covariance is -1/3; the fast algorithm then returns NaN, the naive one √(1/3).
- `C36_y1d_violated`: C36 fails for a response passed as a one-dimensional array: the fast algorithm returns the distance covariance, the naive one raises.
- `C37_order4_violated`: C37 fails at order 4 with option 1: for the data (0, 1) paired with itself the average of `A³B` is 1/16, so the co-moment should be 1/2; the code returns 0 (the average of `A⁴B`).
- `C37_moment3_violated`: C37 fails for single-variable moments of order 3: for the data (0, 1) the average cube of the centred distances is 0; the code returns `-(1/16)^(1/3)`, from the average fourth power.
- `C39_mddm_violated`: C39 fails for a single predictor: with more than one case `MDDM` raises.
- `C40_center_violated`: C40 fails: fitting `dicomo(mode='skew', center='median')` changes the parameter `center` to `mean`, on every data set; a later `set_params(mode='var')` then gives the mean based variance 2/3 of (0,1,2) instead of the median based 1.4826.
- `C41_mdc_violated`: C41 fails: the documented mode `mdc` is rejected by the constructor, whatever the other arguments.
- `C41_stale_violated`: C41 fails: after an arithmetic fit that stored `v`, `set_params(est='sign')` leads to fits that return `v` for every nonempty data set, computing nothing.
- `C47_transform_violated`: C47 (violated). On these data the second component retains a further variable, and `transform` of the training data differs from `x_scores_`.
- `C49_rm_copy_violated`: With `copy=False` no fitted model can predict.
- `C49_rm_unscaled_median_violated`: With `scale='None'` and a centre other than the mean, `fit` fails on every data set.
- `C49_rm_scaled_violated`: The scaled and the original model of an RM fit can describe different functions: with median centring, `intercept_scaled_` is the median over all pairs of cases.
- `C49_sprm_copy_violated`: With `copy=False` no fitted model can predict or transform.
- `C51_scale_violated`: With `scale='scaleTau2'`, one predictor with a zero MAD makes `fit` change the parameter to `'mad'` for good: every later fit uses the MAD, also on data without such a predictor.
- `C51_columns_violated`: When a variable is dropped, `fit` shortens the array of names, so the second fit on the same data fails if a dropped variable comes after the names that are left.
- `C52_robustLoss_violated`: C52 violated: negating all residuals changes the robust loss with the default weight function (and with Huber).
- `C56_even_violated`: C56 is violated for every even number of directions, among them the default 1000: with the sum of squares as index and data in which only the first variable varies, the first stage finds the optimum (criterion 2) and the refinement returns something worse, for every number of iterations.
- `C57_transform_violated`: C57 is violated for `center_data=False` and at least two variables: `transform` returns a three-dimensional array, never the score matrix.
- `C58_compressed_violated`: C58 is violated after compression: the residuals are a matrix, with the response of case `r` minus the fitted value of case `c` in row `r` and column `c`; so the entries in the column of a case are the residuals of that case only if all responses are equal.
- `C59_two_variables_violated`: C59 is violated: with two variables (or one) the grid optimiser fails, whatever the data, the index and the options.
- `C59_zero_length_violated`: C59 is violated, for three variables, for every number of directions `4 s + 1` (5, 9, ..., 1001, ...): when the first stage ends on a coordinate axis, the refinement examines a combination of length zero and fails.
- `C60_overwritten_violated`: C60 is violated for the options 1 and 3: co-moment (3,3) and co-moment (4,1) share a place, so the index does not depend on the former.
- `C60_evaluated_violated`: ... although a failure there makes the fit fail, i.e. it is evaluated.
- `C60_option_two_violated`: C60 is violated for the option 2 alone: the covariance gets the weight of the first co-skewness and the first place stays empty.
- `C63_proportions_violated`: C63 is violated when there are more distinct labels than slices: the cases of some label are in no slice, and the proportions add up to less than one.
- `C64_ignores_response_violated`: C64: for a response without ties the start directions do not depend on the response at all.
- `C64_start_violated`: C64 is violated: there are data with a continuous response for which the SAVE start directions, with three slices, are not the SAVE directions with three slices.
- `C67_refit_violated`: C67 is violated for `dcov-sdr`: fitted again on other data (without scaling), an object gives the subspace of the first data, whatever the new data are: start values, constraints and data are kept from the first fit. So it differs from a new object whenever the two data sets have different subspaces.
- `C67_stale_scores_violated`: C67 is violated by `copy=False`: the scores of an object that was fitted before with `copy=True` are those of the earlier data.
- `C68_means_violated`: C68 is violated: with one bootstrap sample and distances 1, 10 and 1/2 for the dimensions one, two and three the means reported are not the means of the distances of each dimension, and the dimension selected is one instead of three.
- `C68_pairs_violated`: C68 is violated: the bootstrap distances compare with fits on resampled predictors and the original response, so they are not those of resampled cases whenever resampling the response too makes a difference.
- `C70_nanmatdot_violated`: C70 violated: for a 1 × 2 times 2 × 2 product the result has shape 2 × 1 (`Fin 2 → Fin 1 → ℚ`) and for square factors it is not the product.
- `C71_unknown_violated`: C71 is violated: an unknown key that comes after a known one leaves the object changed.
- `C73_caller_violated`: C73 is violated: the dictionary of the caller is altered.
- `C73_tolerance_violated`: C73 is violated: a call with the same dictionary and another tolerance uses the tolerance of the first call.
- `C73_zero_violated`: C73 is violated: the tolerance 0, given as argument, is not used.
- `C73_both_violated`: C73 is violated: if both `disp` and `print_level` are given, `disp` is handed to Ipopt, which does not know it, and the call fails.
- `C74_arguments_violated`: C74 is violated when the arguments change: the value for the earlier arguments is returned, for every function, point and history with one argument.
- `C74_arguments_example_violated`: A function whose value depends on the argument: the wrong value is returned.
- `C77_gen_ss_pp_none_violated`: C77, violated: with the documented option `center='None'` the one-pass function always fails, while the class with the zero centre transforms the data.
- `C78_std_biascorr_violated`: C78 fails with bias correction: `std` of the column (0, 2) is then 2, but `var` is 2 and its root √2.
- `C78_distance_fast_violated`: C78 fails with the (default) fast algorithm, which returns the distance variance for mode `std`: 1/2 instead of √(1/2) for the data (0, 1).
- `C80_single_case_violated`: A single new case never gets a weight: with mean or median centring its score is centred by itself, and the distance is divided by a median of zero. So the weight of a case depends on the other new cases.
- `C82_even_violated`: C82 is violated for every even number of directions: the direction returned is worse than the first variable alone.
- `C84_whitening_violated`: C84 is violated: with `whiten_data=True`, at least one component and at least two variables, `fit` raises, whatever the data, the projection index, the optimiser and the other parameters are.
- `C84_one_variable_violated`: C84 is violated also for one variable, where a whitened model can be fitted: `transform` of the training data multiplies the scores by the norm of the centred variable (up to the sign).
- `C85_compression_violated`: C85 is violated: with `center='mean'` and no trimming, the fitted values after compression are the mean of the response for every case; and for any trimming, prediction for a number of new cases other than one or the number of training cases raises.
- `C85_fallback_violated`: C85 is violated: if a column of the compressed table has a zero median absolute deviation, the announced continuation without compression raises, whatever the data are.
- `C85_scale_violated`: C85 is violated: with `scale_data=True`, transforming the training data after compression does not give the scores.
- `C85_uncentred_violated`: C85 is violated without centring: after compression with `center_data=False`, `transform` fails for every table, the training data included.
- `C86_scaling_object_violated`: C86 is violated: with a response, the published scaling object holds the location and scale of the response, one number each, so for two or more variables it cannot be the scaling of the data.
- `C87_positional_violated`: C87 is violated: a positional response with robust or quantile regression fails.
- `C88_capi_violated`: C88 is violated by `capi`: `centring` is reported as `None`, whatever was passed.
- `C91_sign_violated`: C91 is violated: the direction found for the response with its sign changed is not a multiple of the one found for the response itself, because the directions are taken by the size of the eigenvalues and not by their absolute size.
- `C92_no_copy_violated`: C92 is violated with `copy=False`: no data can be fitted.
- `C93_single_violated`: C93 is violated: a single new case with a score that is not zero cannot be predicted by a model with a constant term.
- `C94_median_violated`: C94 is violated with `center='median'`: there are data on which the scores of scaled data do not have unit variance.
- `C95_flat_violated`: C95 is violated: no table with at least as many variables as cases can be fitted, with or without compression: the inverse root of its covariance matrix, which is singular, is computed before.
- `C96_few_labels_violated`: C96 is violated: without a start value given, the methods based on optimisation fail for every response with fewer than six different values.
- `C97_reused_violated`: C97 is violated when the caller reuses an array: the value at the earlier contents is returned, whatever the function and the new contents are.
- `C97_reused_example_violated`: The wrong value.
- `C98_last_violated`: C98 is violated: the last name is not drawn.
- `C98_weights_violated`: C98 is violated: in the plot of the case weights every name drawn is at the bar of the next case.
- `C99_labels_violated`: C99 is violated: there are coefficients for which truncation labels bars with the wrong variables.
- `C100_default_violated`: C100 is violated: after one fit of an object with default options, a new object of the same class has other default options.
- `C100_key_violated`: C100 is violated for the documented name: after one `sudire` fit the default options of new objects no longer have the key `max_iter`.
- `C101_biascorr_violated`: C101 is violated by dcov-sdr with `biascorr=True`: the value is not the bias corrected distance covariance, because the option is not used.
- `C101_mdd_biascorr_violated`: C101 is violated by mdd-sdr with `biascorr=True`: there are data for which the objective is not a number.
- `C103_weighted_violated`: C103 is violated by `scoring='weighted'`: validation data with another number of cases than the training data are refused.
- `C103_weights_violated`: C103 is violated by `scoring='weighted'` also with as many cases as in the training data: the weight of a validation case is that of the training case with the same number, whatever the validation data are.
- `C104_ppdire_frame_violated`: C104 is violated by projection pursuit without centring: a DataFrame becomes a single row.
- `C104_sudire_frame_violated`: C104 is violated by sudire: every response given as a DataFrame is refused.
- `C104_snipls_violated`: C104 is violated by SNIPLS: a response with another number of cases is not refused but made into a single row.
- `C105_ev_violated`: C105 fails for a constant response: the fit succeeds (all coefficients are zero), but `x_ev_` and `y_ev_` are uninitialised memory.
- `C110_rm_reverse_violated`: C110 fails for `centre='mean'`: an outlier below keeps its full starting weight, and loses weight when the response is reversed. The two fits are not mirror images (the quantile of the normal distribution is 1.645, that of the chi-square 3.84).
- `C111_self_violated`: C111 is false with trimming and bias correction: five numbers, four of them equal, whose distance covariance with themselves is not their distance variance.
- `C112_quantile_violated`: C112 is violated for quantile regression: whatever median regression routine is used, for a response that is exactly `k` times the single predictor the fitted values are `k` times too large (the routine is given the response in its own units, and its coefficients are then multiplied by the scale of the response again).
- `C113_start_violated`: C113 is violated for the optimisers that are started at the first case: there is one for which exchanging two cases gives another direction.
- `C114_stale_violated`: C114 is violated: fitted without a response after a fit with one, `predict` goes on giving the predictions of the earlier fit, whatever the new data are (even for another number of variables than the model now has); a new object fitted to the same data raises.
- `C115_unscaled_violated`: C115 is violated for `scale_data=False` (centre 'mean', no trimming): the scaled intercept is the unscaled one, so the two versions of the model agree only when that is zero.
- `C115_median_violated`: C115 is violated for the centre 'median', also with scaling: the scaled intercept is computed with the unscaled coefficients. For the three cases (0, 0), (1, 4), (3, 2) the scaled version of the model is off by 2/5 for every case.
- `C116_threshold_violated`: C116 fails for units in which a variable has a scale below `1e-5`: the same data, once in metres and once in thousands of kilometres, once give a fit and once none.
- `C118_onlyval_violated`: C118 is violated: asked for new cases only but given none, `plot_yyp` draws an empty plot instead of raising.
- `C118_stale_violated`: C118 is violated: after a fit with `copy=False` the observed values drawn are those of the fit before.
- `C118_failed_violated`: C118 is violated: after a fit that failed, the observed values drawn are those of the failed fit, beside the fitted values of the fit before.
- `C118_sprm_onlyval_violated`: C118 is violated for SPRM, too: an empty plot instead of an exception.
- `C119_sprm_onlyval_violated`: C119 is violated for SPRM, too.
- `C119_onlyval_violated`: C119 is violated: asked for new cases only but given none, `plot_projections` draws an empty plot instead of raising.
- `C120_mode_violated`: C120 is violated: an unknown mode, for which `ValueError` is announced, ends in an `UnboundLocalError`.
- `C120_onlyval_violated`: C120 is violated: asked for new cases only but given none, there is an empty plot.
- `C121_stale_violated`: C121 is violated: once drawn, the plot goes on showing the first results, whatever the grid search has been refitted to.
- `C122_few_slices_violated`: C122 is violated for a discrete response with more different values than slices: only the values met first are used, so another order of the cases gives another subspace.
- `C129_optimiser_violated`: C129 is violated by the optimisers other than the grid, however good they are. With the third co-moment as projection index, `square_pi=True` and *any* optimiser that solves the problem that it is given exactly, the fit of these data succeeds, and the square of the index in the direction found is 1/4, whereas it is 4 in the direction of the first variable.
- `C130_many_cases_violated`: C130 is violated: no coordinates are found for the distances of more than `p + 1` cases in `p` variables.
- `C130_objective_violated`: C130 is violated: for a table of distances of any `n ≥ 1` cases, the objectives of MDD-SDR and DCOV-SDR fail at every vector with one value per column of the table and component, which is what a fit starts from.
- `C130_fit_violated`: C130 is violated: no fit to a square table, such as a matrix of distances, succeeds with any method.
- `C132_dr_optimal_violated`: C132 is violated: for these centred and scaled data, whose slices cover all cases, the direction that directional regression returns does not maximise its criterion, because the covariance matrices of the slices (divisor one less than their size) do not average to what the method assumes.
- `C133_phd_strength_violated`: C133 is violated: the direction returned for these centred and scaled data is not the one in which the response is curved most.
- `C134_iht_space_violated`: C134 is violated: for one of two responses whose space has dimension two, one of the two directions returned is outside that space. The program takes powers of the covariance matrix, which is the identity for scaled data, instead of powers of the Hessian matrix.
- `C135_snipls_set_violated`: C135 is violated for `snipls` after `set_params`: the range of the sparsity parameter is looked at by the constructor only. With a value of one or more every data set whose variables have a scale gives a model without components, which predicts a constant.
- `C136_sudire_violated`: C136 is violated for `sudire` with the mean: without scaling, `x_sca_` reports standard deviations (with divisor `n - 1`) that have not been used: the result is the same for a fit with scaling.
- `C137_ppdire_h_violated`: C137 is violated: the argument `h` of `fit` replaces the number of components for good, also when `fit` raises because there are too many.
- `C137_ppdire_whiten_violated`: C137 is violated: `whiten_data=True` overwrites three parameters, so that the fit (which raises, see C84) leaves `scale_data`, `center_data` and `compression` changed for the next one.
- `C137_whiten_violated`: C137 is violated with whitening: afterwards the estimator has `center_data=True` and `scale_data=False`, whatever they were, also when whitening is switched off again.
- `C137_solver_violated`: C137 is violated by the methods that use optimisation: after a fit of an object made without a start value, constraints and arguments for the solver, these parameters have values.
- `C138_mixed_violated`: C138 is violated when a refit fails after the location has been computed: with `center='median'`, `scale='std'` and `trimming=0.6`, a scaler fitted to three cases and then to five raises in the second fit, and afterwards standardises with the location of the second data set and the scale of the first.
- `C139_refit_violated`: C139 is violated by a fit in between: `inverse_transform()` after `fit(X)`, `transform(X)` and `fit(Y)` uses the old standardised data with the new location and scale, and gives neither `X` nor `Y`.
- `C142_snipls_violated`: C142 is violated by SNIPLS: once the components explain the response without error, asking for more of them, still at most as many as there are predictors or not, gives no model (in the code the further columns, and with them all coefficients, are NaN).
- `C142_rm_violated`: C142 is violated by robust M regression: if the locations of response and predictors satisfy the relationship too, `fit` gives no model, whatever the weight function, its tuning, the scale and the number of iterations. (The residuals of the first weighted least squares fit vanish, and they are divided by the median of the nonzero ones. In the code the weights are then NaN.)
- `C142_rm_mean_violated`: C142 is violated by robust M regression with the mean as centre, for every exact relationship.
- `C142_rm_median_violated`: C142 is violated by robust M regression with the median as centre (the default), for every exact relationship with a single predictor.
- `C143_sprm_weights_violated`: C143 is violated by the weights `sprm` gives to new cases: they are relative to the other cases of the batch.
- `C143_ppdire_uncentred_violated`: C143 is violated by the scores of a `ppdire` model fitted with `center_data=False` to two or more variables: no matrix of scores is returned.
- `C143_ppdire_compression_violated`: C143 is violated by predictions after compression with the mean as centre: batches of another size than the training data fail.
- `C143_sudire_predict_violated`: C143 is violated by the predictions of `sudire`: a single case cannot be predicted although the same case can be predicted together with others (`C93_predict_partial`).
- `C146_rm_influence_violated`: C146 is violated by robust M regression with robust location and scale, for every weight function, tuning and number of iterations: the coefficient is not bounded when one of five responses varies. (A rejected case still takes part in the weighted fits, with weight `1e-6`.)
- `C146_rm_rejected_violated`: Even with redescending weights, and although the outlying case is reported with weight zero, the coefficient depends on its response without bound: with the default kind of settings (Hampel weights, cutoffs for the response between 1.35 and two million, for the predictor above 2), the four cases on the line have weight 1, the fifth weight 0, and the coefficient is `(6 + 2e-6 M)/(6 + 4e-6)` for every response `M` of the fifth case that is rejected at the start.
- `C147_mean_violated`: C147: centred at the mean and not scaled, the data handed to the optimiser are the deviations from the (trimmed) mean. The published scale, which is not one, has not been used: the property is violated for every value that differs from the mean in a column whose standard deviation is neither zero nor one.
- `C147_scaled_violated`: C147: with the mean and scaling, the data handed to the optimiser are the (centred) data times the inverse square root of their covariance matrix, a change of all the variables at once: the published scales are not used.
- `C149_dropped_violated`: C149 is violated by later components: a variable that was retained before and whose covariance (not zero) has fallen below the threshold gets a weight of the wrong sign, and the direction without this variable is better.
- `C150_together_violated`: C150 is violated for `jac=True`: `njev` is zero however many gradients were asked for.
- `C150_approx_violated`: C150 is violated without a given gradient (as `ppdire` and `sudire` call it): the calls made by the numerical gradient, `k` for each, are not counted.
- `C153_unit_variance_violated`: C153 is violated: unless there is one case more than there are predictors, no column of the whitened data has unit variance (the data are multiplied by the square root of the number of predictors, not of cases).
- `C154_median_violated`: C154 is violated for centring at the median: the third moment of symmetric data is then not zero.
- `C155_refit_violated`: C155 is violated for scaled co-moments of degree three and more with the median as centre: once the object has been fitted, the covariance is the one about the mean, in this and all later fits, whatever the data.
- `C155_twice_violated`: Fitting the object twice to the same data (a column (0,1,2) and the same response) gives two values: their difference is the weight of the covariance times the difference of the covariances about the median and about the mean.
- `C156_unlabelled_violated`: C156 is violated by cases without a response: if to any complete data set (centre `mean`, scale `std` or `None`) one adds its cases again without their responses, all coefficients are halved, for every number of components and every sparsity; the predictions are half way between the old ones and the mean response.
- `C157_shift_violated`: C157 is violated by missing predictors: if a retained predictor is missing in the case `i2` and available in `i1`, adding `d` to it changes the difference between the fitted values of both by `d` times the coefficient, so that any `d ≠ 0` changes the fitted values, without bound as `d` grows.
- `C158_missing_violated`: C158 is violated for every training case with a missing predictor, even one that the model does not use: `predict` gives NaN; the fitted value is the number that one gets by putting zeros for the missing cells, whatever the origin of the predictors is.
- `C159_return_violated`: C159 is violated with `center='median'`, `center_data=False`, `scale_data=False`: for all data, if a fit with `return_scaling_object=False` works, the one with the default `True` raises an UnboundLocalError, after the computation has been done.
- `C161_rm_violated`: C161 fails for robust M regression with the default settings: the intercept is the median of the residuals, but the residuals behind the weights have none. Of five cases, all get weight one although the first one's residual is so large that the weight function is below one there.
- `C161_sprm_violated`: C161 fails for sparse partial robust M regression beyond the intercept: the nine cases all lie exactly on the published model, all residuals are zero, but the last case has response weight below one. (Any quantile function with the 95% point between 1.6 and 1.7.)
- `C162_rm_violated`: C162 fails: the published case weights need not be those of the fit that gave the coefficients. Here all five are one, but the slope is smaller than that of the least squares fit, which is one.
- `C165_biascorr_violated`: C165 (violated with bias correction): the corrected variance of `0, 1` is `1/2`, that of `0, 1, 0, 1` is `1/3`.
- `C166_kstepLTS_violated`: C166 (violated for the least trimmed squares location with a positive tolerance): started at the spatial median of the cases, the iteration stops after one step in the original axes and takes a further step in the rotated axes, so that the location is not the rotated location. (Exact computation with rational numbers.)
- `C166_median_violated`: C166 (violated for the median): the column-wise median of three points is not the rotated median.
- `C166_sparse_violated`: C166 (violated with sparsity): with `eta = 4/5` SNIPLS fits another model after a rotation of the axes, with other fitted values.
- `C167_start_violated`: C167 (violated for a start chosen by the caller): with the keyword `x0` no data set of two or more columns has a spatial median, whatever the start.
- `C168_l1median_violated`: C168 (violated for the spatial median): for every optimiser that finds the minimum, the standardised data of these three cases are changed when they are standardised again, because scaling the columns moves the spatial median.
- `C169_snipls_violated`: C169 does not hold with scaling: the spread of a constant predictor is zero, the rescaled coefficient is zero divided by zero, and there is never a usable model.
- `C169_rm_violated`: C169 does not hold with scaling: there is never a usable model with a constant predictor.
- `C169_signs_violated`: C169 does not hold for the other functions: they read the distance quantile number `⌊(n+p+1)/2⌋`, where `p` counts the constant columns; with a constant column that makes the table wider than long there is no transform.
- `C169_scaled_violated`: C169 does not hold with scaling, on an example: two cases and two predictors give a model with standardised variables; with a third predictor that is always 7 there is none.
- `C170_units_violated`: C170 does not hold for the units, although `scaling=True` is meant to give standardised co-moments: doubling a variable changes the index whenever the first weight is not zero (a column (0,1,2) and the same response).
- `C171_option_violated`: C171 is violated for `option`: with co-skewness as index, `fit(X, y=y, option=2)` computes CoS(x,x,y) and not CoS(x,y,y). For the scores (-1,0,1) and the response (1,-2,1) the index asked for is 0 and the one computed is not.
- `C171_order_violated`: C171 is violated for `order`: with `mode='mom'` the index is the variance, also if `order=3` is given; for the scores (0,0,6) the third central moment is 16 and the variance 8.
- `C171_metric_violated`: C171 is violated for the metric: whatever is given, the index gets 'euclidean'.
- `C171_default_violated`: C171 is violated for the default `pi_arguments={}`: a `dicomo` object made with its defaults computes the variance, `ppdire` with that index and the same defaults raises a KeyError for all data.
- `C172_snipls_violated`: C172 (violated for SNIPLS with fewer components than predictors): with one component, adding the second predictor to the response does not add it to the fit.
- `C172_rm_violated`: C172 (violated for robust M regression): there is no model for a response of which more than half of the values are the same, and there is one after adding a linear function of the predictors.
- `C173_distance_violated`: With four cases and a quarter trimmed on each side, `int(t n) = 1` outlier is enough to make the trimmed distance variance as large as one likes, although the trimmed variance of the same data is zero.
- `C174_save_sir_violated`: C174 is violated: the means of the first variable differ between the two slices and SIR finds that direction, but SAVE sees nothing of it and returns a direction in which no means differ. The data meet the hypotheses of `C174_save_sir_partial`.
- `C175_space_violated`: C175 is violated for three variables and every number of directions `4 s + 3`, whatever the number of iterations: for the variance of these data the search returns a direction of variance 50, although another has 81, and the share that the angles of the grid would grant is not reached.
- `C177_grid_violated`: C177 is violated by the grid search of `ppdire`: with three directions and the variance the first of two equal variables gets weight 1/2, the second √3/2, whatever the number of iterations.
- `C178_rm_violated`: C178 fails for robust M regression without centring: a model is fitted whose prediction at the origin is not zero, where SNIPLS and SPRM have no intercept with the same setting.
- `C179_median_violated`: C179 does not hold with the median: deviations from the medians of uncorrelated variables are not orthogonal, and the uncorrelated predictor enters the model.
- `C180_dcov_fast_violated`: C180 is violated by the distance covariance of the fast algorithm: for any data, either the covariance is zero for every pairing of the responses with the predictors, or it is NaN for some pairing.
- `C180_dcov_naive_violated`: C180 is violated by the distance covariance of the naive algorithm: it always gives a number, but unless it is zero for every pairing, the average over all pairings is positive, as if responses without relation to the predictors depended on them.
- `C180_dcov_violated`: The second alternatives do occur: the covariance of these data is not zero for the pairing given.
- `C186_snipls_violated`: C186 is violated for SNIPLS, even without sparsity: the second variable enters with the second component and its loading on the first is set to zero, although the deflation has used another one. With two components for two variables the table is not reproduced, although combinations of the scores give it exactly.
- `C191_majority_violated`: C191 is violated: in every data set a value shared by the majority of the cases, good data for a variable with few distinct values, becomes NaN, while all other values are replaced by it: so a constant variable becomes NaN altogether.
- `C192_snipls_violated`: C192 is false for `snipls` when the refit has another number of columns: a model that predicts its training data raises `ValueError` for them after a failed refit on two columns with a response of the wrong length.
- `C192_rm_violated`: C192 is false for `rm` when the refit has another number of columns.
- `C192_sprm_violated`: C192 is false for `sprm` when the refit has another number of columns.
- `C192_sprm_transform_violated`: C192 is false for the scores of `sprm` even when nothing but the data change: a refit on the same number of columns with constant values raises, but the locations and scales used by `transform` have been replaced, and the scores of the same new data are silently different.
- `C194_huber_violated`: C194 is violated for Huber weights with a cutoff below 1 (`probp1` below 0.84): two cases as close together as one likes, on either side of the cutoff, get weights that differ by more than half of what is missing to 1, and the inner one has the smaller weight.
- `C196_snipls_median_violated`: C196 is violated for snipls about the medians: for these three cases the model that centres predicts 3 at zero; the model of the centred data predicts 0 there, which in the original units is 1.
- `C196_ppdire_quantile_violated`: C196 is violated for quantile regression in ppdire, whatever median regression routine is used: for the response `2 x` the model that standardises predicts `4 x`, the model of the standardised data predicts the response.
- `C198_sudire_violated`: C198 is violated by sudire if the left out case is predicted alone: `predict` raises an exception.

## 5. Partial theorems

- `C02_huber_correct_partial`: C02 (partial: the full claim is for every positive cutoff; it is proved for cutoffs at least 1 and refuted below 1 by `C02_huber_violated`). The Huber weights are the textbook ones (distances are nonnegative in RM and SPRM; a negative entry counts as inside).
- `C02_huber_range_partial`: C02 (partial, see above): weights in (0,1], and farther cases never get larger weights.
- `C03_hampel_correct_partial`: C03 (partial: the full claim is for all positive ordered cutoffs; proved for `1 ≤ a`, refuted below by `C03_hampel_violated`). The Hampel weights are the textbook three-part ones (a negative entry counts as inside).
- `C03_hampel_range_partial`: C03 (partial, see above): weights in [0,1], farther cases never get larger weights.
- `C09_roundtrip_partial`: C09 (partial). Full claim: `inverse_transform(transform(X)) = X` for every `X` with the training number of columns. Proved: for every `X` with at least two rows, provided that in each column whose estimated scale is zero all entries of `X` equal the estimated location. Refuted otherwise: `C09_roundtrip_violated` and `C09_roundtrip_one_row_violated`.
- `C10_rowwise_partial`: C10 (partial). Full claim: each row of `transform(X)` depends only on the same row of `X`, for every `X` with the training number of columns. Proved for `X` with at least two rows: entry `(i,j)` is the standardised entry `(i,j)` whatever the other rows are. Refuted for one-row matrices: `C10_one_row_violated`.
- `C14_lts_objective_partial`: C14, partial: when there are no ties at the cut-off distance (exactly `h = ⌊(n+1)/2⌋` cases are kept), a concentration step does not increase the sum of the `h` smallest squared distances. Missing: the case of ties, where the claim is false (`C14_lts_objective_violated`).
- `C16_tau_common_factor_partial`: C16, partial: within one call all columns get the same multiple of their MAD. Missing: that this multiple is the one the column would get on its own, which is false (`C16_tau_columnwise_violated`).
- `C18_wrapper_train_partial`: C18, partial: on data with the training columns the wrapping is the one with the location and scale of the training data. Missing: new data, for which the claim is false (`C18_wrapper_predict_violated`).
- `C24_fit_transform_partial`: C24, partial: `fit_transform(X)`, and `transform(X)` on the training data, are the sign transform of the centred data. Missing: `transform` of other data (`C24_transform_violated`).
- `C25_covmat_partial`: C25, partial: whatever `gen_ss_covmat` returns is symmetric, and for one case of one variable it is the cross product of the transformed cases divided by their number. Missing: everything else, where the code fails or returns something different (`C25_covmat_violated`, `C25_covmat_square_violated`).
- `C26_shift_partial`: C26 (partial): every arithmetic statistic of order at least 2, of any mode, with any trimming, bias correction and options, is unchanged when constants are added to the variables. With median centring this is proved under the condition that the shift does not turn two different columns into equal ones or conversely.
- `C26_scale_mom_partial`: C26 (partial): with mean centring, moments of order `k ≥ 2` are homogeneous of degree `k` (the variance of degree 2); any trimming, bias correction and admissible option.
- `C26_scale_com_partial`: C26 (partial): with mean centring, the co-moment of order `k` in which `y` enters with power `option` and `x` with power `k - option` (both with power 1 for the covariance) scales accordingly.
- `C29_median_corr_scale_partial`: C29 (partial): what is true of the median correlation: rescaling by positive constants `r`, `r'` multiplies it by `√(r r')`; it is unchanged only if `r r' = 1`. (Columns that do not coincide before or after the rescaling.)
- `C30_cok_self_partial`: C30 (partial): the co-kurtosis of a column with itself is its kurtosis, for the default `Fisher=True`: every option 0..4, every admissible trimming; no bias correction.
- `C36_fast_naive_partial`: C36 (partial): without bias correction and trimming, and for a response given as a matrix, the fast and the naive algorithm return the same variance, covariance and correlation.
- `C36_biascorr_cov_partial`: C36 (partial, without trimming and with bias correction): on at least four cases, with `U` the unbiased squared distance covariance, the fast algorithm gives `√U`, and NaN (modelled as a failure) if `U` is negative; the naive algorithm gives `√|U|`. So they agree exactly if `U` is not negative.
- `C36_biascorr_corr_partial`: C36 (partial, without trimming and with bias correction): distance correlations. The fast algorithm fails if the unbiased squared covariance is negative, and otherwise agrees with the naive one.
- `C37_comoment_partial`: C37 (partial): at order 2 the statistic is `√` of the average product of centred distances (C34); at order 3 with option 1 or 2 and at order 4 with option 2 a distance co-moment of two data sets aggregates the requested products `A^(k-option) B^option`.
- `C39_mddm_partial`: C39 (partial): for at least two predictors (or one case), `MDDM(X,Y)` is computed, symmetric, and its quadratic form in any direction `b` is the (nonnegative) martingale difference divergence of the combination `Y b`; so it is positive semidefinite.
- `C39_mddm_null_partial`: C39 (partial: at least two predictors): a combination of the responses has the same mean at every value of the predictors exactly if it is in the null space of the quadratic form of the divergence matrix.
- `C40_refit_partial`: C40 (partial): whatever fits (successful or not, with whatever data and arguments) an object made by the constructor has been through, the next fit returns exactly what it would have returned as the first one.
- `C40_params_partial`: C40 (partial): fits leave `est` and `mode` alone, and `center` for every mode except std, skew, kurt, cos, cok, M3.
- `C41_constructor_partial`: C41 (partial): the constructor accepts every documented mode except `mdc` with `est='distance'`, and every one but `mdd` with `est='arithmetic'`; anything outside the lists is rejected.
- `C41_no_stale_partial`: C41 (partial): for an arithmetic (not mdd, ballcov) or distance estimator a fit that returns a number returns the number computed from its own data and arguments, and stores it; it never returns an earlier result.
- `C47_transform_partial`: C47 (partial). If every component retains the same variables (in particular with a single component), `transform` of the training data gives `x_scores_`. Missing: the retained set may grow from one component to the next, and then the claim can fail (`C47_transform_violated`).
- `C47_one_component_partial`: C47 (partial), one component.
- `C49_rm_predict_partial`: C49 for RM: with `copy=True`, predicting the training data gives `fitted_`, and `residuals_` are the differences. Missing: with `copy=False` the training data are not stored (see `C49_rm_copy_violated`).
- `C49_rm_scaled_partial`: C49 for RM with mean centring and a scale estimator other than `'None'`: coefficients and intercept on the original scale describe the same affine function as the scaled ones. Missing: the other choices of centre and scale (see `C49_rm_scaled_violated` and `C49_rm_unscaled_median_violated`).
- `C49_sprm_predict_partial`: C49 for SPRM: with `copy=True`, predicting the training data gives `fitted_`; the prediction is an affine function of the variables that are kept.
- `C49_sprm_scaled_partial`: C49 for SPRM with mean centring and a scale estimator other than `'None'`: the original and the scaled model describe the same affine function.
- `C51_params_partial`: C51 for SPRM, part that holds: `fit` leaves the numerical parameters unchanged, except for `scale='scaleTau2'` when a predictor has a zero MAD. Missing: that case (`C51_scale_violated`), and `columns` (`C51_columns_violated`).
- `C51_sequence_partial`: After any sequence of fits for which the above holds, the estimator behaves like a fresh one.
- `C51_columns_partial`: `columns` is unchanged when no variable is dropped and it is not the flag `True`.
- `C52_robustLoss_fair_symm_partial`: C52 (partial: proved for the Fair weights; refuted for the default Hampel weights and for Huber by `C52_robustLoss_violated`). Exchanging observed and predicted values - i.e. negating every residual - leaves the robust loss unchanged.
- `C52_robustLoss_nonneg_partial`: C52 (partial): for residuals that are all nonnegative the weights are the specified ones.
- `C56_sweep_partial`: C56 (partial: odd numbers of directions; see `C56_even_violated` for even ones, among them the default): a refinement sweep started at a unit direction never decreases the criterion.
- `C56_grid_partial`: C56 (partial, odd numbers of directions): the direction returned by the grid optimiser is at least as good as the direction found by the first stage.
- `C57_transform_partial`: C57 (partial: `center_data=True`): transforming the training data gives the scores; scores of new data are a fixed linear function of the standardised variables, case by case.
- `C59_succeeds_partial`: C59 (partial: at least three variables, and `ndir - 1` not divisible by 4): the grid optimiser returns a direction for every data matrix, every index and every positive number of iterations. See `C59_zero_length_violated` for the other numbers of directions.
- `C60_weighted_partial`: C60 (partial: options 'all', or the list 1, or 1,2, or 1,2,3): the index is the weighted sum of the requested co-moments, each exactly once with the weight of its own place, and every place holds its co-moment, or zero if that was not requested.
- `C63_proportions_partial`: C63 (partial: as many slices as distinct labels): the slices cover all cases, so their proportions add up to one.
- `C64_best_start_partial`: C64 (partial: which of the candidates is used): the start value is made of the directions of SAVE with three slices, SIR with six or DR with six, whichever have the largest distance covariance with the response.
- `C64_discrete_partial`: C64 (partial: a response that is declared discrete): the start directions are those of the slicing method for that response, mapped to the scale of the data.
- `C67_refit_partial`: C67 (partial: methods that are not based on optimisation, `copy=True`): after any sequence of fits, a fit gives what a new object would give.
- `C68_selection_partial`: C68 (partial): the dimension returned is one of the candidates, one mean is reported for each of them, and the dimension has the smallest of the reported means.
- `C68_cumulative_partial`: C68: the mean reported for a dimension is the mean over the bootstrap distances of this and all smaller dimensions.
- `C68_first_partial`: C68: the mean reported for dimension one is the mean of the distances of dimension one.
- `C70_nanmatdot_transposed_partial`: C70 (partial). Full claim: `nanmatdot(X, Y)` is the matrix product on complete data. For `Y` with two or more columns what is returned is its *transpose*: entry `(j,i)` is the inner product of row `i` of `X` and column `j` of `Y`. Refuted as stated by `C70_nanmatdot_violated`.
- `C70_nanmatdot_crossprod_partial`: C70 (partial): for `XᵀX` (the only use in the package) the transposition is harmless: the result is the cross-product matrix.
- `C71_unknown_first_partial`: C71 (partial): an unknown key that comes first leaves the object as it was.
- `C74_cache_partial`: C74 (partial: all calls are made with the same arguments): after any sequence of calls, the cached function gives the value at the point asked for.
- `C74_affine_partial`: C74 (partial: one choice of arguments): the forward difference is exact for affine functions, at every point, for every step and after every history.
- `C74_quadratic_partial`: C74 (partial: one choice of arguments): the central difference is exact for quadratic functions.
- `C77_gen_ss_pp_agrees_partial`: C77, partial: the one-pass function and the class give the same result for every location estimator. Missing: the documented option `center='None'` of the function (`C77_gen_ss_pp_none_violated`).
- `C78_std_sqrt_var_partial`: C78 (partial): without bias correction `std` is the square root of `var` (mean centring, no trimming).
- `C78_distance_naive_partial`: C78 (partial): with the naive algorithm the distance standard deviation is the square root of the distance variance.
- `C80_weightnewx_range_partial`: C80, part that holds: weights of new cases are in [0,1]. Missing: see `C80_single_case_violated`.
- `C82_beats_variables_partial`: C82 (partial: odd numbers of directions, at least one sweep): the direction returned by the grid optimiser is at least as good as every single variable.
- `C84_one_variable_partial`: C84 (partial: one variable): a whitened model with one component can be fitted to any variable that is not constant, if the optimiser returns a vector other than zero.
- `C85_median_partial`: C85 (partial: `center='median'`): predictions for any number of new cases are one affine function of the variables, with the reported coefficients.
- `C85_coef_partial`: C85 (partial: what the coefficients are): the reported coefficients, applied to the variables, give what the model fitted to the compressed table gives; and that table has the same inner products between cases as the data.
- `C85_orthogonal_partial`: C85 (partial: scores and weights): after compression the score vectors are nonzero and mutually orthogonal and the weight vectors have unit length.
- `C85_scores_partial`: C85 (partial: no scaling, `center='mean'`, no trimming): transforming the training data after compression gives the scores.
- `C85_median_intercept_partial`: C85 (partial: `center='median'`): fitted values and predictions are the reported coefficients applied to the variables, plus the median of the `n²` differences between the response of any case and the linear part of any case.
- `C86_compressed_partial`: C86 after compression: the published scaling object holds the location and scale of the variables of the data.
- `C87_keyword_partial`: C87: which regressions find the variables they need, by how the response is passed.
- `C88_capi_partial`: C88 (partial): the same for `capi`, except for the argument `centring`.
- `C91_shift_partial`: C91 (partial: shift of the response only): adding a constant to the response does not change principal Hessian directions.
- `C92_training_partial`: C92 (partial: `copy=True`): `transform` of the training data gives the scores of the fit.
- `C93_predict_partial`: C93 (partial: new data none of whose score columns is constant, and a model with a constant term): the prediction for a case is one affine function of its scores.
- `C94_unit_covariance_partial`: C94 (partial: `center='mean'`, `scale_data=True`, no whitening, methods that are not based on optimisation): the scores are uncorrelated with unit variance.
- `C94_orthonormal_partial`: C94 (partial) without scaling: the loadings are orthonormal.
- `C94_optimised_partial`: C94 (partial: methods based on optimisation, when the solver gives a point that satisfies the constraints): the loadings are orthonormal in the metric of the covariance of the data.
- `C97_answers_partial`: C97 (partial: no array is changed after it has been passed): all answers are the values at the points asked for.
- `C98_points_partial`: C98 (partial: the names but the last, y against predicted y and score plots): they are drawn at the points of their cases.
- `C99_heights_partial`: C99 (partial: the heights only; for the labels see `C99_labels_partial` and `C99_labels_violated`): with truncation `t` the bars show half of the fraction `t` of the coefficients, rounded up, at each end.
- `C99_labels_partial`: C99 (partial: the labels, if the variables happen to be in the order of their coefficients; missing: any other order, where the labels can be wrong, see `C99_labels_violated`).
- `C100_default_partial`: C100 (partial: only objects with options given by the user are fitted): the default options are those of the signature, after any number of fits.
- `C101_dcov_value_partial`: C101 (partial: no bias correction): the objective of dcov-sdr for a matrix of loadings is minus ten times the distance covariance of the projected data and the response.
- `C101_mdd_value_partial`: C101 (partial: no bias correction): the objective of mdd-sdr is minus ten times the martingale difference divergence of the response given the projected data.
- `C101_mdd_biascorr_partial`: C101 (partial: the bias corrected divergence is not negative): the objective of mdd-sdr with `biascorr=True` is minus ten times the root of the bias corrected martingale difference divergence.
- `C103_normal_partial`: C103 (partial: `scoring='normal'`): the score is the coefficient of determination of the predictions, for validation data of any size with a response that is not constant.
- `C103_bound_partial`: C103 (partial): this score is at most one, and one exactly for perfect predictions, also when the response is constant.
- `C104_forms_partial`: C104: robust M regression, sparse partial robust M regression and SNIPLS use the same values for each form of a response with as many cases as the predictors.
- `C104_rejected_partial`: C104: robust M regression and sparse partial robust M regression refuse each form of a response with another number of cases.
- `C104_sudire_partial`: C104: sudire and projection pursuit use the same values for a vector, a column and a Series and refuse them when the number of cases is another one.
- `C104_ppdire_frame_partial`: C104: projection pursuit accepts a DataFrame when the data are centred.
- `C105_x_percent_partial`: C105. The published `x_ev_` are percentages: each lies in `[0,100]` and together they are at most 100.
- `C105_y_percent_partial`: C105. The published `y_ev_` are percentages.
- `C105_y_r2_partial`: C105. Together the `y_ev_` are the coefficient of determination of the model on the standardised data, in percent.
- `C105_y_r2_original_partial`: C105. With `centre='mean'` and a response that is not constant this is the usual R squared of `fitted_`, in percent.
- `C105_x_r2_partial`: C105. When no variable is eliminated, the `x_ev_` together are the share of the predictors that scores and loadings reproduce, in percent.
- `C110_rm_reverse_partial`: C110. Reversing the response (and possibly predictors) reverses the fit, when the data are centred by the median and scaled by the MAD. Missing: other centres or scales, where the claim fails (see `C110_rm_reverse_violated`).
- `C111_self_partial`: C111 (partial): the distance covariance of a data set with itself is its distance variance, for every centre, with trimming or with bias correction. Missing: trimming together with bias correction (see `C111_self_violated`), and a response passed as a one-dimensional array, which the naive algorithm refuses (`C36_y1d_violated`).
- `C112_units_partial`: C112 (partial: OLS and robust regression; with centring and scaling, which are the defaults): for every optimiser and index, a model fitted to data in other units has the same components and scores, its coefficients are converted, and its predictions and scores for new data in the new units are those of the original model, converted.
- `C113_case_order_partial`: C113: for the grid search (and any optimiser that does not look at the order of the cases), an index and a regression that ignore the order of the cases, a model fitted to reordered cases has the reordered scores and fitted values, and the same coefficients, predictions and scores for new data.
- `C114_refit_partial`: Transforming with the object is transforming with its x-block: a fitted two-block model on a used object.
- `C115_scaled_partial`: C115 (partial: centre 'mean' without trimming, with centring and scaling): the scaled coefficients and the scaled intercept give the fitted values after standardising the response.
- `C116_sprm_units_partial`: C116. Measuring the predictors and the response of an SPRM fit in other units keeps the retained variables, converts the coefficients, leaves case weights and scores alone, and converts fitted values, residuals and predictions; predictors may also be reversed when the starting weights do not use the singular value decomposition. Missing: units that move a variable across the absolute threshold `1e-5` for the scale of near constant variables (see `C116_threshold_violated`).
- `C118_yyp_partial`: C118 (partial: fits with `copy=True`, and new cases when only those are to be drawn): whatever was fitted before, `plot_yyp` of a `ppdire` or `sudire` object draws every training case of the last fit once, in order, at its observed and fitted value (none with `onlyval`), and every new case at its given and predicted value; names are drawn at the points of their cases.
- `C118_sprm_partial`: C118 for SPRM (partial: as for `C118_yyp_partial`): every training case of the last fit is drawn once, at its observed and fitted value and in the group of its weight (none with `onlyval`), and so is every new case; names are drawn at the points of their cases.
- `C119_projections_partial`: C119: `plot_projections` of a `ppdire` or `sudire` object draws every training case once at its scores on the two components asked for, and every new case at its scores; the names at the points of their cases.
- `C119_sprm_partial`: C119 for SPRM (partial: as for `C119_projections_partial`): every training case is drawn once at its scores and in the group of its weight (none with `onlyval`), and so is every new case; names are drawn at the points of their cases.
- `C120_bars_partial`: C120: `plot_caseweights` draws the weight of training case `i` (of the kind asked for) as bar number `i` and that of new case `j` as bar number `n + j`.
- `C121_contour_partial`: C121 (partial: the first plot of an object): the contours are drawn through the settings of the grid search that have a score, no more and no less; with fewer than three of them a message is drawn instead.
- `C122_order_partial`: C122 (partial: methods that are not based on optimisation, slices that cover all cases, no whitening): a fit on the same cases in another order is the same model; the scores of the training data are in the new order.
- `C129_grid_partial`: C129 (partial: the grid optimiser). With `optimizer='grid'`, `square_pi=True` is the same as using the square of the projection index: the whole fitted model is the same, directions, reported optima and regression, or both fits fail in the same way. Missing: the other optimisers (`C129_optimiser_violated`, `C129_nonneg_partial`).
- `C129_grid_one_block_partial`: The same for fits without a response.
- `C129_nonneg_partial`: C129 (partial: nonnegative indices). An optimiser that solves the problem it is given exactly returns a direction for which also the squared index is the largest, if the index of every direction is nonnegative.
- `C130_coords_partial`: C130 (partial: the coordinates, when they are found): the rows of the result have the distances in the table, and row `i` has zeros from column `i` on.
- `C130_value_partial`: C130 (partial: the objectives, for vectors of the length that they need): for distances of affinely independent cases, the objectives are evaluated on coordinates with these distances: minus ten times the distance covariance with the response, of which the distances are given too, and the martingale difference divergence.
- `C132_dr_optimal_partial`: C132 (partial: centred data, slices that cover all cases, and second moments of the slices that average to the metric): the directions of directional regression maximise, one after another, how far the expected squared differences of cases are from those of independent cases.
- `C133_phd_strength_partial`: C133 (partial: the response is nowhere curved downwards): the directions maximise the strength of the curvature, whatever its sign.
- `C134_iht_space_partial`: C134 (partial: scaled data, and the first direction only): the first direction of iterative Hessian transformation is a multiple of the least squares coefficients, so it is in the space of the method.
- `C134_unscaled_partial`: C134 without scaling (partial: it says what the directions are, not that they are in the space of the method): they are orthonormal, and each of them maximises the sum of the squared products with the vectors `Σ^i c` among the unit vectors orthogonal to the earlier ones.
- `C135_rm_partial`: C135 for `rm`.
- `C135_sprm_partial`: C135 for `sprm`: the sparsity parameter is in [0,1), the number of components is positive and at most the number of cases and of variables that are kept, and the cutoffs make sense.
- `C135_snipls_partial`: C135 for `snipls`, settings given to the constructor.
- `C135_ppdire_partial`: C135 for `ppdire` with a response.
- `C135_ppdire_one_block_partial`: C135 for `ppdire` without a response.
- `C135_sudire_partial`: C135 for `sudire`.
- `C136_ppdire_partial`: C136 for `ppdire`: with centring, the locations of the variables and of the response are the statistics asked for; with scaling and without trimming the scales are the standard deviations or median absolute deviations; without scaling they are one.
- `C136_snipls_partial`: C136 for `snipls`.
- `C136_rm_partial`: C136 for `rm`.
- `C136_sprm_partial`: C136 for `sprm`; the scale `'scaleTau2'` gives way to the median absolute deviation when one of these is zero.
- `C136_sudire_partial`: C136 for `sudire`: with centring, the locations are the statistics asked for; with the median, the scales are the median absolute deviations, or one without scaling. Missing: the scales reported with the mean (`C136_sudire_violated`).
- `C137_ppdire_partial`: C137 (partial: `ppdire` without `whiten_data` and without the argument `h`): `fit` leaves the parameters as they are, also when it raises.
- `C137_unchanged_partial`: C137 (partial: no whitening, and a method that needs no optimisation): `fit` leaves the parameters of the estimator as they are, including the start value, constraints and arguments of the solver.
- `C138_last_fit_partial`: C138 (partial: the scale can be estimated wherever the location can): after any history of calls, including calls that raised, the object holds the location and scale of the last data set it was fitted to successfully, and nothing if there is none.
- `C139_inverse_partial`: C139 (partial: no fit in between): after `transform(X)` and any number of calls of `predict` and `inverse_transform`, `inverse_transform()` without an argument is `np.multiply(T, scale) + loc` with the location and scale of the object and the table `T` that `transform` returned. So it undoes `transform` whenever `inverse_transform(T)` does (C09).
- `C142_snipls_partial`: C142 (SNIPLS; partial: as many components as predictors were extracted, a response of nonzero scale, and mean centring, or no centring and no intercept): the slopes and the intercept of the relationship are `coef_` and `intercept_`.
- `C142_ppdire_partial`: C142 (ppdire; partial: least squares, the mean as centre, no trimming, and as many components as predictors): the slopes and the intercept of the relationship are `coef_` and `intercept_`, for every projection index and every optimiser.
- `C143_ppdire_predict_partial`: C143: predictions of a `ppdire` model fitted without compression are made case by case.
- `C143_ppdire_transform_partial`: C143: scores of a `ppdire` model fitted with `center_data=True` and without compression are computed case by case.
- `C146_rm_influence_partial`: What holds of C146 for one predictor: the influence of case `k`. With the weights of the last fit, which are between `1e-6` and 1, the coefficient differs from the weighted least squares coefficient of the other cases by the weight of the case, times its standardised predictor, times its residual from the fit to the others, divided by the weighted sum of squares of the predictor. (Missing: the claim itself, see `C146_rm_influence_violated`.)
- `C147_optimised_data_partial`: C147 for the median, and for data that are neither centred nor scaled: the data handed to the optimiser are the given data minus the published location, divided by the published scale (a zero scale leaves the values undivided). Missing: the mean (`C147_mean_violated`, `C147_scaled_violated`).
- `C149_direction_partial`: C149: the weights of component `k` are the best direction for the unexplained part of the response, with the penalty `eta` times the largest absolute covariance, if every variable that was retained earlier still has a covariance of at least that size (or none at all); this is so for the first component and for `eta = 0`. Missing: the other components (`C149_dropped_violated`).
- `C150_counts_partial`: C150 with a given gradient: the number of calls of the objective function, the number of gradients asked for, the last iteration, and success exactly for status 0.
- `C150_together_partial`: C150 for an objective function that gives value and gradient (`jac=True`): `nfev` is the number of its calls.
- `C153_white_partial`: C153 for centring at the mean without trimming: the whitened data have uncorrelated columns, all with the variance `p / (n - 1)`. Missing: unit variance (`C153_unit_variance_violated`).
- `C155_value_partial`: C155 for centring at the mean, for unscaled co-moments and for `max_degree=2`: after whatever fits, the index is the combination (C60) of co-moments each of which is what a new `dicomo` object gives for the data. Missing: scaled co-moments with the median (`C155_refit_violated`).
- `C157_coef_partial`: C157, the part that holds for all patterns of missing cells: constants added to the predictors do not change components and coefficients. Missing: the fitted values (`C157_shift_violated`).
- `C157_fitted_partial`: C157 for complete predictors (the responses may be missing): the fitted values are the same as well.
- `C158_predict_partial`: C158 for a training case without missing predictors: its prediction is its fitted value. Missing: cases with missing predictors (`C158_missing_violated`).
- `C159_return_partial`: C159, the part that holds: unless the centre is the median and the data are neither centred, scaled nor whitened, `return_scaling_object` has no influence on the results, the state of the object, or the failure. Missing: `C159_return_violated`.
- `C161_rm_partial`: C161 for robust M regression with the mean as centre: the case weights are the weight function at the relative sizes of `residuals_` and at the cases' relative distances from the centre.
- `C161_sprm_partial`: C161 for sparse partial robust M regression, as far as it holds: the response weights are the weight function at the relative sizes of differences between the standardised response and the fitted values of the *weighted* data of the last fit, which are the square roots of the weights `w` of that fit times the published linear function, plus a constant. If these weights are one and the centre is the mean, the differences have the same relative sizes as `residuals_`.
- `C162_rm_partial`: C162 (partial): raising the iteration limit by one either leaves the model as it is, or gives the coefficients of the weighted least squares fit for the case weights published under the lower limit. Missing: the case weights that are published with coefficients need not be the ones of their fit (`C162_rm_violated`).
- `C162_sprm_partial`: C162 (partial): raising the iteration limit of sparse partial robust M regression by one either leaves the model as it is, or gives the sparse partial least squares model of the data weighted with the case weights published under the lower limit. Missing: as for `C162_rm_partial`.
- `C165_sprm_partial`: C165: fitting SPRM to data in which every case is entered `k` times has the same outcome as fitting it to the data themselves: the same failure, or the same coefficients, intercepts, components, locations, scales, retained variables and number of iterations, and for every copy of a case the fitted value, residual, scores and weights of that case. Missing: the starting weights from principal components (`start_X_init='pcapp'`), `scale='scaleTau2'`, and requests for more components than there are cases, where the fit to the data themselves fails the parameter check.
- `C166_kstepLTS_partial`: C166: the least trimmed squares location started at corresponding points follows every rotation when the tolerance is zero or negative. Missing: a positive tolerance is compared with the largest change of a single coordinate, which depends on the axes, so that the number of steps can differ.
- `C167_start_partial`: C167: without the keyword `x0` and with an optimiser that finds the minimum, `l1median` returns a spatial median of two or more columns. Missing: the same with a start chosen by the caller.
- `C168_idempotent_partial`: C168: for the locations mean (trimmed or not), median and 'None' and the scales standard deviation (trimmed or not), MAD and 'None', in every combination, `fit_transform` of the result of `fit_transform` is that result. Missing: the spatial median as centre, for which this is false (`C168_l1median_violated`), and the k-step LTS location.
- `C169_snipls_partial`: C169: SNIPLS without scaling, with the mean or the median as location, ignores constant predictors. It gives a model for the larger table exactly when it gives one for the smaller; the constant predictors are never retained and have coefficient zero; the other coefficients, the intercept, the retained variables, the scores, the fitted values, the residuals, and the predictions of new cases (whatever their values of the constant predictors) are the same. With scaling see `C169_snipls_violated`.
- `C169_rm_partial`: C169: RM without scaling and with cutoffs that do not refer to the number of predictors ignores constant predictors: the same exception, or the same coefficients, with zeros for the constant predictors, and the same intercepts, fitted values, residuals, case weights and number of iterations. With scaling see `C169_rm_violated`; not covered are the cutoffs of `start_cutoff_mode='specific'`, whose degrees of freedom are the number of columns.
- `C169_signs_partial`: C169: the plain spatial signs of centred data (`fun='ss'`) do not depend on constant columns, whose signs are zero. For the other functions see `C169_signs_violated`.
- `C170_units_partial`: C170: with `scaling=True` a change of origin and units changes the index only through the covariance, which is not standardised: it has the first weight and is multiplied by both factors. In particular an index whose first weight is zero does not depend on the units.
- `C171_arguments_partial`: C171: the mode, the centre, the estimator, the trimming fraction, alpha and the bias correction reach the index: if neither `option` nor `order` is given, the index is the statistic asked for.
- `C172_snipls_partial`: C172 (partial). SNIPLS with mean centring and as many components as the rank of the predictors: adding a linear function of the predictors and a constant to the response adds it to the fitted values and leaves the residuals as they were. (Missing: fewer components.)
- `C172_rm_partial`: C172 (partial). Robust M regression with mean centring, when neither the response nor the response with the linear function added has outliers. (Missing: data with outliers, for which the claim is false.)
- `C173_distance_partial`: C173. Distance variance and distance covariance with mean centring and trimming fraction `t > 0` are bounded by a number that depends only on the settings and the box of the clean cases as long as the `2kn - k²` pairs of cases that involve one of `k` outliers are not more than the `int(t n²)` entries cut on either side. (Missing: the promise for `k = int(t n)` outliers, which is false, see `C173_distance_violated`.)
- `C174_save_sir_partial`: C174. Scaled data and slices that cover all cases. If SAVE returns a model, then in every direction of unit variance the variation between the slices, which SIR maximises, is at most `(s - 1) / n` plus the square root of what SAVE maximises; if SAVE sees nothing it is exactly `(s - 1) / n`. (Missing: it should be zero; see `C174_save_sir_violated`.)
- `C175_plane_partial`: C175. A search of the plane reaches at least the share `cos²(π/(2 ndir))` of the largest value of a criterion that is a nonnegative quadratic form.
- `C175_first_plane_partial`: C175 (partial: odd numbers of directions, and combinations of the first two variables). The direction returned reaches the share `cos²(π/(2 ndir))` of the criterion of every combination of the first two variables.
- `C177_snipls_partial`: C177. SNIPLS: two variables with the same content in different units both enter or both stay out, and contribute equally: the coefficients are those of one variable in the two units. Partial, as the property is about all estimators: the grid search of `ppdire` does not have it (`C177_grid_violated`).
- `C177_rm_partial`: C177. Robust M regression: the same for the coefficients. Partial as for SNIPLS.
- `C177_sprm_partial`: C177. Sparse partial robust M regression: equal variables are both kept or both dropped, and have equal coefficients. Partial: no change of units; see the next theorem.
- `C177_sprm_units_partial`: C177. Sparse partial robust M regression, for a variable in two units. Partial: starting weights from the distances, and both versions kept (by C116 a version with a scale below `1e-5` is dropped).
- `C178_rm_partial`: C178, robust M regression: with the mean the residuals sum to zero and the model goes through the point of means that it reports; with any other centre the median of the residuals is zero. Missing: without centring the model has an intercept all the same (`C178_rm_violated`).
- `C179_snipls_partial`: C179: SNIPLS with the mean as location, standardised or not, ignores predictors that are uncorrelated with the response and with the other predictors. It gives a model for the larger table exactly when it gives one for the smaller; the additional predictors are never retained and have coefficient zero; the other coefficients, the intercept, the retained variables, the scores, the fitted values, the residuals, and the predictions of new cases (whatever their values of the additional predictors) are the same. With scaling the additional predictors must not be constant. Missing: the median as location (`C179_median_violated`).
- `C180_dcov_subsamples_partial`: C180 (partial: distance covariance by the fast algorithm, where no subsample gives NaN): if `dicomo` gives a number for each subsample of `m` cases, then it gives a number for all the data, and the average of the squares over the subsamples is the square of that number.
- `C186_snipls_partial`: C186 for SNIPLS (partial: variables that are retained from the first component on): scores times loadings are the best approximation of the standardised variable.
- `C186_snipls_full_partial`: C186 for SNIPLS with as many components as the rank (partial in the same way): the variable is reproduced exactly.
- `C191_defined_partial`: C191, partial: a wrapped value is a number unless the majority of the cases have this value. Missing: a value that the majority shares, which becomes NaN (`C191_majority_violated`).
- `C192_snipls_partial`: C192 (`snipls`): an object that has been fitted on `p` columns answers `predict` and `transform` for every new data as before, after any number of refits on data with `p` columns that raise. Missing: refits with another number of columns (`C192_snipls_violated`).
- `C192_rm_partial`: C192 (`rm`): the same for robust M regression, whatever the value of `copy` in the refits. Missing: refits with another number of columns (`C192_rm_violated`).
- `C192_sprm_partial`: C192 (`sprm`): predictions are as before after any number of refits on data with `p` columns that raise. Missing: refits with another number of columns (`C192_sprm_violated`), scores (`C192_sprm_transform_violated`), and `start_cutoff_mode='specific'` without `start_X_init='pcapp'`, which raises after the variables used by `predict` have been replaced.
- `C194_huber_partial`: C194 (Huber), partial: a weight moves by at most the change of the distance divided by the cutoff, for cutoffs of at least 1. Missing: smaller cutoffs (`C194_huber_violated`).
- `C194_hampel_partial`: C194 (Hampel), partial: a weight moves by at most the change of the distance times the sum of the inverse first cutoff and the inverse of the distance between the second and the third, for cutoffs of at least 1. Missing: smaller cutoffs.
- `C196_snipls_partial`: C196 (snipls, any location and scale): the fit without centring and scaling to the data standardised beforehand succeeds; components, scaled coefficients and thereby the retained variables are the same; its predictions for new cases, standardised in the same way, are in the original units those of the model that standardises, up to one constant. Missing: that the constant is zero, which is `C196_snipls_mean` for the mean and false for the median (`C196_snipls_median_violated`).
- `C196_ppdire_partial`: C196 (ppdire; least squares or robust regression; mean, trimmed mean or median): the fit with `center_data=False` to the data standardised beforehand succeeds; components and scaled coefficients are the same; predictions for new cases standardised in the same way are, in the original units, the predictions of the model that standardises. Missing: quantile regression, for which this is false (`C196_ppdire_quantile_violated`).
- `C198_sudire_partial`: C198 (sudire with as many directions as predictors, partial: the left out case has to be predicted together with the other cases, and no score may be constant). For the prediction of the case alone see `C198_sudire_violated`.

## 6. Coverage, function by function

Definitions whose comment cites lines of the function (under `src/direpack`).


**cross_validation/_cv_support_functions.py**

- `cv_score_table` (20-31): `cvScoreTable`
- `robust_loss` (33-57): `WFun.apply`, `robustLoss`

**dicomo/_dicomo_utils.py**

- `trim_mean` (15-31): `trimMeanL` / `meanT` model the same call of `scipy.stats.trim_mean`; the zero trimming branch is in `doubleCenter`
- `trimvar` (33-46): not called in the package
- `identity` (48-49): the identity function; transparent in the callers
- `trim_mom` (51-117): `momFactor`, `momMean`, `momMedian`, `trimMom`
- `double_center_flex` (119-184): `doubleCenter`, `flat`
- `distance_matrix_centered` (187-225): `distMatCentered`, `edist`
- `distance_moment` (228-319): `corr4bias`, `distanceMoment`, `dmSquared`, `sqIter`
- `difference_divergence` (322-368): `differenceDivergence`
- `U_inner` (371-395): the bias corrected branch of `innerProd`
- `D_inner` (398-422): `innerProd`
- `MDDM` (424-464): `mddm`

**dicomo/dicomo.py**

- `dicomo.__init__` (68-84): `Dicomo.init`, `Mode`, `parseEst`, `parseLoc`, `parseMode`
- `dicomo.fit` (88-448): `Dicomo.compute`, `Dicomo.fit`, `FitArgs`, `Inner`, `PpKw`, `arithStage`, `arithX`, `arithXY`, `col0`, `fastStage`, `finalStage`, `forcesMean`, `getY`, `mddStage`, `modeTable`, `naiveStage`, `numPower`, `standardizeMom`

**ipopt_temp/ipopt_wrapper.py**

- `IpoptProblemWrapper.__init__` (49-86): `IpFuns`, `IpState`, `IpWrap.new`
- `IpoptProblemWrapper.evaluate_fun_with_grad` (88-93): `IpState`, `evalWithGrad`, `togetherCalls`
- `IpoptProblemWrapper.objective` (95-100): `IpState`, `IpWrap.objective`; see `IpState`
- `IpoptProblemWrapper.gradient` (102-107): `IpState`, `IpWrap.gradient`
- `IpoptProblemWrapper.constraints` (109-113): `IpState`, `consValues`
- `IpoptProblemWrapper.jacobian` (115-119): `IpState`
- `IpoptProblemWrapper.intermediate` (121-136): `IpWrap.intermediate`; progress output only, not modelled
- `get_bounds` (139-145): `getBounds`
- `get_constraint_bounds` (148-167): `consBoundsLoop`, `getConstraintBounds`
- `replace_option` (170-173): `replaceOption`
- `convert_to_bytes` (175-183): `convertStep`, `convertToBytes`
- `minimize_ipopt` (185-251): `IpX.atleast1d`, `addOptions`, `ipResult`, `ipoptOptions`, `minimizeIpopt`, `minimizeOptions`, `setDefault`, `tolOrDefault`

**ipopt_temp/jacobian.py**

- `FunctionWithApproxJacobian.__init__` (11-15): `Cache`
- `FunctionWithApproxJacobian.__call__` (17-25): `cachedCall`
- `FunctionWithApproxJacobian.func` (27-30): evaluation counter and logging only
- `FunctionWithApproxJacobian.log` (32-35): output only
- `FunctionWithApproxJacobian.jac` (37-49): `jacForward`
- `FunctionWithApproxJacobianCentral.jac` (53-66): `jacCentral`

**plot/ppdire_plot.py**

- `ppdire_plot.__init__` (21-39): not modelled
- `ppdire_plot.plot_yyp` (41-103): `nameAll`, `plotYyp`
- `ppdire_plot.plot_projections` (105-153): `nameAll`, `plotProj`

**plot/sprm_plot.py**

- `sprm_plot.__init__` (40-65): `OutlierClass`
- `sprm_plot.plot_yyp` (67-147): `annotate`, `nameAll`, `plotPoints`, `scatterClasses`, `sprmYyp`
- `sprm_plot.plot_coeffs` (149-191): `coefHeights`, `coefLabels`, `rankOf`, `truncLeft`
- `sprm_plot.plot_projections` (194-266): `nameAll`, `scatterClasses`, `sprmProj`; annotations as in `plot_yyp`: `annotate`
- `sprm_plot.plot_caseweights` (268-335): `annotateWeights`, `plotCaseweights`, `weightBars`
- `sprm_plot_cv.__init__` (341-360): not modelled
- `sprm_plot_cv.eta_ncomp_contour` (362-388): `CvPlot.contour`, `contourOf`

**plot/sudire_plot.py**

- `sudire_plot.__init__` (21-39): not modelled
- `sudire_plot.plot_yyp` (41-103): `nameAll`, `plotYyp`
- `sudire_plot.plot_projections` (105-151): `nameAll`, `plotProj`

**ppdire/_ppdire_utils.py**

- `pp_objective` (13-22): `ppObjective`; the negative of the index at the projected data; the optimiser that receives it is a parameter of `ppDirection`
- `gridplane` (24-103): `cand1`, `dirOf`, `evalIdx`, `firstMax`, `gridplane`, `stop0s`
- `gridplane_2` (107-188): `cand2`, `divSq`, `gridplane2`, `rescaled`

**ppdire/capi.py**

- `capi.__init__` (55-74): `CapiObj`, `CapiObj.new`, `CapiOptions`, `capiArgs`, `capiInit`, `capiStored`
- `capi.fit` (76-106): `CapiObj.fit`, `CapiOptions.run`, `capiArgs1`, `capiDegree`, `capiDegreeO`, `capiFit`, `capiLoop`, `capiLoopO`, `capiMode`, `capiStore`
- `capi._get_param_names` (109-137): the names are the constructor arguments (`capiArgs`), introspection itself is not modelled
- `capi.get_params` (139-160): `getParams`, `joinKey`
- `capi.set_params` (162-195): `addNested`, `partitionKey`, `setKeys`, `setNested`, `setParams`

**ppdire/ppdire.py**

- `ppdire.__init__` (163-207): `OptClass.default`, `OptObj`, `PpCentre`, `PpConf`, `PpObj.new`, `PpParams`, `optrange`, `ppdireArgs`, `ppdireStored`
- `ppdire.fit` (210-764): `PpCentre.loc`, `PpCentre.sca`, `PpCompFit`, `PpConf.fit`, `PpConf.whitened`, `PpConf.withComponents`, `PpFit`, `PpFit.coefColumn`, `PpFit.coefScaledColumn`, `PpFit1`, `PpKw`, `PpObj.fit`, `PpReg.run`, `PpRegName`, `PpSvd`, `YypObj.fit`, `asColumn`, `convertRound`, `dicomoIndex`, `dicomoIndex2`, `grid1Step`, `grid2Step`, `gridDirection`, `gridLoop`, `gridStage1`, `gridSweep`, `gridplane`, `optFit`, `pairCols`, `ppAllDiffs`, `ppC`, `ppCompressed`, `ppCompressedX`, `ppDirection`, `ppFit`, `ppFit1`, `ppIndexCall`, `ppIndexValue`, `ppLoop`, `ppMean`, `ppP`, `ppR`, `ppT`, `ppW`, `ppWhitened`, `ppdireResp`, `startOpt`, `stop0s`
- `ppdire.predict` (767-786): `PpCompFit.predict`, `PpFit.predict`, `PpObj.predict`, `PpYBlock`
- `ppdire.transform` (788-807): `PpCompFit.transform`, `PpFit.transform`, `PpObj.transform`, `PpXBlock`
- `ppdire._get_param_names` (810-834): as `capi._get_param_names`
- `ppdire.get_params` (836-857): same source text as `capi.get_params`: `getParams`
- `ppdire.set_params` (859-891): same source text as `capi.set_params`: `setParams`

**preprocessing/_gsspp_utils.py**

- `quad` (15-29): `hIdx`, `quadF`
- `ss` (31-44): `ssF`
- `winsor` (46-60): `hIdx`, `winsorF`
- `ball` (62-80): `ballF`, `hIdx`
- `shell` (83-104): `hIdx`, `shellF`
- `linear_redescending` (107-128): `hIdx`, `lrF`
- `_norms` (131-135): `rowNorms`
- `_gsspp` (138-142): `gsspp`
- `_spatial_sign` (144-148): not called in the package

**preprocessing/_preproc_utilities.py**

- `_handle_zeros_in_scale` (19-35): `handleZeros`
- `_check_trimming` (38-41): `checkTrimming`
- `mad` (44-54): `madConst`, `madL`, `madNaN`
- `median` (57-69): `medianNaN`
- `mean` (72-86): `meanNaN`, `meanT`
- `std` (89-106): `stdNaN`, `stdT`
- `_euclidnorm` (109-117): `euclidnorm`
- `_diffmat_objective` (120-126): `diffmat`
- `_l1m_objective` (129-141): `l1mObjective`
- `_l1m_jacobian` (144-157): `l1mJacobian`
- `_l1median` (160-176): call of `scipy.optimize.minimize`: parameter `opt` of `l1median`; what it must satisfy is the subject of C13
- `l1median` (179-199): `l1median`, `l1medianFrom`
- `kstepLTS` (202-232): `kstepLTS`, `ltsDists`, `ltsStep`, `ltsSubset`, `ltsTrace`
- `scaleTau2` (235-290): `scaleTau2`
- `scale_data` (293-314): `PpCompFit.transform`, `Scores`, `scaleCell`, `scaleData`, `scaleMat`
- `wrap_univ` (317-352): `wrapCell`, `wrapPsi`, `wrapUniv`
- `wrap` (355-368): `wrapMat`

**preprocessing/gsspp.py**

- `GenSpatialSignPreProcessor.__init__` (47-50): not modelled
- `GenSpatialSignPreProcessor.fit` (52-69): `GSSState.fit`, `Radial.apply`, `centreBy`
- `GenSpatialSignPreProcessor.transform` (71-80): `GSSState.transform`
- `GenSpatialSignPreProcessor.fit_transform` (82-86): `gssFitTransform`
- `gen_ss_pp` (91-123): `genSsPp`
- `gen_ss_covmat` (126-155): `genSsCovmat`

**preprocessing/robcent.py**

- `VersatileScaler.__init__` (95-102): `ScalerObj.new`
- `VersatileScaler.fit` (104-149): `Centre.run`, `LocOpt.run`, `NCentre.run`, `NScale.run`, `ScaOpt.run`, `ScaleOpt.run`, `Scaler`, `Scaler.fit`, `ScalerObj.fit`, `locL1`
- `VersatileScaler.transform` (151-162): `Scaler.transform`, `ScalerObj.transform`
- `VersatileScaler.predict` (164-174): `ScalerObj.predict`; same computation as `transform`: `Scaler.transform`
- `VersatileScaler.fit_transform` (176-184): `Scaler.fitTransform`, `ScalerObj.call`
- `VersatileScaler.inverse_transform` (186-197): `Scaler.inverse`, `ScalerObj.inverse`
- `versatile_scale` (204-211): `Scaler.fitTransform`
- `Wrapper.__init__` (236-243): `WrapperObj`, `WrapperObj.new`
- `Wrapper.fit` (245-290): `WrapperObj.fit`, `WrapperState.fit`
- `Wrapper.transform` (292-303): `WrapperObj.transform`, `WrapperState.predict`
- `Wrapper.predict` (305-315): `WrapperState.predict`
- `Wrapper.fit_transform` (317-325): `WrapperObj.fitTransform`; composition of `fit` and `transform`

**sprm/_m_support_functions.py**

- `Fair` (13-14): `fair`
- `Huber` (17-20): `huber`
- `Hampel` (23-34): `hampel`
- `brokenstick` (37-43): `brokenstick`

**sprm/rm.py**

- `rm.__init__` (59-89): `RmParams`, `RmState.new`
- `rm.fit` (91-261): `RmFit`, `RmState.fit`, `checkProbs`, `clipW`, `cutX`, `cutY`, `diffExceeds`, `meanAllPairs`, `medAllPairs`, `rmFinish`, `rmFit`, `rmIntercept`, `rmIntercepts`, `rmResp`, `rmStep`, `rowDistances`, `rwLoop`, `scaleRes`, `startY`, `weightRows`, `zeroOut`
- `rm.predict` (263-271): `RmFit.predict`, `RmState.predict`

**sprm/snipls.py**

- `snipls.__init__` (80-99): `SnParams`, `SnState.new`, `snFit`
- `snipls.fit` (101-279): `SnFit`, `SnFit.xEv`, `SnFit.yEv`, `SnFitN`, `SnState.fit`, `filledArray`, `maxAbs`, `rescaledN`, `snCoef`, `snCoefN`, `snFitBody`, `snFitBranch`, `snFitNaN`, `snIntercept`, `snInterceptN`, `snLoop`, `snLoopN`, `snWeights`, `snWeightsOf`, `sniplsResp`
- `snipls.predict` (281-299): `SnFit.predict`, `SnFitN.predict`, `SnState.predict`
- `snipls.transform` (301-321): `SnFit.transform`, `SnState.transform`

**sprm/sprm.py**

- `sprm.__init__` (104-143): `SprmParams`, `SprmState.new`
- `sprm.fit` (145-458): `SprmFit`, `SprmScale`, `SprmScale.resolve`, `SprmState`, `SprmState.fit`, `YypObj.fit`, `checkProbs`, `clipW`, `diffExceeds`, `keepVars`, `relcomp`, `rowDistances`, `rwLoop`, `scaleRes`, `scoreScale`, `sprmB0`, `sprmCheck`, `sprmColumns`, `sprmFinish`, `sprmFit`, `sprmResp`, `sprmStartCut`, `sprmStartX`, `sprmStep`, `startY`, `weightRows`, `zeroOut`
- `sprm.predict` (460-478): `SprmFit.predict`, `SprmState.predict`
- `sprm.transform` (480-505): `SprmFit.transform`, `SprmState.transform`
- `sprm.weightnewx` (507-536): `SprmFit.weightnewx`
- `sprm.valscore` (538-555): `SprmFit.valscore`

**sudire/_sudire_utils.py**

- `mdd_trim` (21-62): `mddTrim`, `mddTrimDist`
- `dcov_trim` (65-113): `colY`, `dcovTrim`, `dcovTrimDist`
- `give_coords` (116-148): `CoordSolver`, `coordsUpTo`, `giveCoords`; `coordsUpTo`; the symbolic solution of the distance equations by sympy is the parameter `CoordSolver`
- `matpower` (151-158): `invSqrt`
- `discretize` (161-183): `discretize`, `divPoints`
- `SIR` (186-245): `descIdx`, `labelLoop`, `leading`, `sdrBack`, `sdrCentre`, `sdrRoot`, `sdrScale`, `sirMat`, `sliceLabels`, `sliceMean`, `sliceMethod`, `sliceProb`, `sliceResponse`, `yLabels`
- `SAVE` (248-318): `saveMat`, `sliceCov`, `sliceMethod`
- `DR` (321-413): `drMat`, `sliceMethod`
- `PHD` (416-454): `phd`, `phdMat`
- `IHT` (457-501): `covXY`, `iht`, `ihtCols`

**sudire/sudire.py**

- `sudire.__init__` (140-206): `OptClass.default`, `OptObj`, `SdMeth`, `SdParams`, `SdState.init`, `SdrMethod`, `sudireArgs`, `sudireStored`
- `sudire.fit` (208-585): `SdArgs`, `SdCons`, `SdFit`, `SdObj.fit`, `SdObjective`, `SdParams.whitened`, `SdState.setX0`, `YypObj.fit`, `addConstant`, `asColumn`, `convertRound`, `dcovObjective`, `mddObjective`, `optFit`, `projMat`, `reshapeF`, `sdArgs`, `sdCentreStep`, `sdCons`, `sdDirections`, `sdMapBack`, `sdOptimise`, `sdRun`, `sdScaleStep`, `sdScores`, `sdStart`, `sdStartMat`, `sdWhitenStep`, `sudireResp`, `vecF`
- `sudire.transform` (587-617): `SdFit.transform`
- `sudire.predict` (619-649): `SdFit.predict`
- `sudire._get_param_names` (652-679): as `capi._get_param_names`
- `sudire.get_params` (681-702): same source text as `capi.get_params`: `getParams`
- `sudire.set_params` (704-735): same source text as `capi.set_params`: `setParams`
- `estimate_structural_dim` (738-827): `bootDist`, `structLoop`, `structuralDim`

**utils/utils.py**

- `convert_X_input` (17-21): pandas conversion; arrays are passed through
- `convert_y_input` (24-28): `convertY`
- `const_xscale` (31-39): `constX`, `reshapeF`
- `const_zscale` (42-50): `constZ`
- `_predict_check_input` (53-61): `predictCheckInput`
- `_check_input` (64-80): `asCol`, `checkInput`
- `nandot` (83-91): `nandot`
- `nanmatdot` (94-108): `nanmatdot`

## 7. What is not modelled

* Floating point; pandas conversions; console output; matplotlib rendering (only what is passed to it).
* Distance metrics other than Euclidean ones; negative exponents (`option` above `order`) in co-moments; the bias corrected (U-centred) inner product of
  `difference_divergence`; the partial state of a `dicomo` object after a fit that raises in the fast branch.
* For missing cells: the L1-median and k-step LTS as centres of SNIPLS, the explained variances, and RM and SPRM.
* `scaling_` of RM and SPRM.
* The compression path of `sudire` beyond its failure (C95); the state of a `sudire` object after a fit that
  raises.
* The iterations of external optimisers, and whether Ipopt accepts an option value.
* Multi-threading: the package uses none.

## 8. Wrong programs

`seeded/LOG.jsonl` records edits of the model that imitate realistic bugs, made in a scratch copy, with the theorems that fail to build for each of
them and the theorems that were tightened when an edit survived. Repairs of bugs (`..._violated` theorems must fail then) are included. The first version of
the script that builds the edited model could also list theorems that stand in the same file as one that fails. Part of those edits was repeated with the
corrected script; the other records from that time that it concerns carry a note.
