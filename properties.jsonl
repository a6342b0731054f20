{"id": "C01", "title": "Fair case weights are proper weights", "statement": "The Fair weight function gives every finite standardised distance a weight in (0,1], gives 1 exactly to distance 0, ignores the sign of the distance, never gives a larger distance a larger weight, and gives a case with cutoff-relative distance d the same weight whatever the other cases are.", "quantifier": "all vectors of distances, all positive cutoffs", "why_tests_cant": "A test evaluates a few distances; range, monotonicity and independence of the other cases are claims about every real distance and cutoff.", "anchors": ["src/direpack/sprm/_m_support_functions.py:Fair"]}
{"id": "C02", "title": "Huber case weights: 1 inside the cutoff, decreasing beyond, in [0,1]", "statement": "For the nonnegative distances RM and SPRM pass to it, the Huber weight function gives weight exactly 1 to every case at distance at most the cutoff and weight cutoff/distance to every case beyond it, so that all weights lie in (0,1] and never increase with the distance.", "quantifier": "all vectors of nonnegative distances, all positive cutoffs", "why_tests_cant": "The function rewrites its input array in place and tests the second condition on already rewritten values; whether that matters depends on the relation between cutoff and the constant 1 for every input, which sampling at the default cutoff never exercises.", "anchors": ["src/direpack/sprm/_m_support_functions.py:Huber"]}
{"id": "C03", "title": "Hampel case weights: three-part redescending weights in [0,1]", "statement": "For nonnegative distances and cutoffs a <= b < r, the Hampel weight function gives 1 for d <= a, a/d for a < d <= b, a*(r-d)/(d*(r-b)) for b < d <= r and 0 for d > r; so all weights lie in [0,1] and never increase with the distance.", "quantifier": "all vectors of nonnegative distances, all ordered triples of positive cutoffs", "why_tests_cant": "The four masks are evaluated on an array that earlier masks have already rewritten, so correctness depends on the position of every intermediate value relative to all cutoffs.", "anchors": ["src/direpack/sprm/_m_support_functions.py:Hampel"]}
{"id": "C04", "title": "Broken stick thresholds are a decreasing probability vector and always select a component", "statement": "brokenstick(k) returns k positive, strictly decreasing numbers that sum to 1. Consequently, for every vector of k explained-variance proportions summing to 1, the SPRM start-up search for the first component not exceeding its threshold always finds one (no IndexError).", "quantifier": "all k >= 1 and all proportion vectors of length k summing to 1", "why_tests_cant": "The sum identity and the existence of the crossing are statements for every k and every spectrum.", "anchors": ["src/direpack/sprm/_m_support_functions.py:brokenstick", "src/direpack/sprm/sprm.py:sprm.fit"]}
{"id": "C05", "title": "Median location is affine equivariant, order free and internal", "statement": "The median used by VersatileScaler satisfies median(a*x+b)=a*median(x)+b, does not depend on the order of cases, and lies between the smallest and largest value.", "quantifier": "all nonempty columns of numbers, all a and b (including negative a)", "why_tests_cant": "Equivariance has to hold for every data set; odd and even sizes and ties behave differently in the implementation.", "anchors": ["src/direpack/preprocessing/_preproc_utilities.py:median"]}
{"id": "C06", "title": "Median and MAD resist any minority of arbitrary outliers", "statement": "If fewer than half of the cases of a column are replaced by arbitrary values, the median stays within the range of the untouched values and the MAD stays at or below 1.4827 times the width of that range; no choice of outliers can carry either away.", "quantifier": "all columns, all subsets of fewer than half of the cases, all replacement values", "why_tests_cant": "Breakdown is a worst-case statement over unboundedly many contaminations.", "anchors": ["src/direpack/preprocessing/_preproc_utilities.py:median", "src/direpack/preprocessing/_preproc_utilities.py:mad"]}
{"id": "C07", "title": "MAD is a scale estimate", "statement": "mad(a*x+b)=|a|*mad(x), mad is nonnegative and order free, and mad is zero exactly when more than half of the cases share one value (in particular for every constant column).", "quantifier": "all nonempty columns, all a and b", "why_tests_cant": "Equivariance is universally quantified over data and transformations.", "anchors": ["src/direpack/preprocessing/_preproc_utilities.py:mad"]}
{"id": "C08", "title": "Scaling a training matrix produces location 0 and scale 1", "statement": "After VersatileScaler.fit(X), every column of transform(X) whose estimated scale is nonzero has estimated location 0 and estimated scale 1 under the same estimators (mean/std, median/mad, mean/mad, median/std), and every column with scale zero is only centred.", "quantifier": "all numeric matrices, each estimator pair", "why_tests_cant": "Must hold for every matrix, including ones with constant columns.", "anchors": ["src/direpack/preprocessing/robcent.py:VersatileScaler.fit", "src/direpack/preprocessing/robcent.py:VersatileScaler.transform", "src/direpack/preprocessing/_preproc_utilities.py:scale_data"]}
{"id": "C09", "title": "inverse_transform undoes transform", "statement": "For a fitted VersatileScaler, inverse_transform(transform(X)) returns X for every X with the training number of columns.", "quantifier": "all training matrices, all later matrices, all centre/scale options", "why_tests_cant": "Round trips have to hold for all inputs; the forward map replaces zero scales by one and the backward map does not.", "anchors": ["src/direpack/preprocessing/robcent.py:VersatileScaler.inverse_transform", "src/direpack/preprocessing/robcent.py:VersatileScaler.transform", "src/direpack/preprocessing/_preproc_utilities.py:_handle_zeros_in_scale"]}
{"id": "C10", "title": "transform treats cases independently with the training location and scale", "statement": "For a fitted VersatileScaler, row i of transform(X) is (x_i - loc)/scale with the location and scale of the training data, whatever and however many other rows X has; transforming a block of rows equals transforming each row on its own.", "quantifier": "all fitted scalers, all new matrices with the training number of columns, including one-row matrices", "why_tests_cant": "Compositionality is a relation between arbitrarily many calls; the one-row case is shape dependent.", "anchors": ["src/direpack/preprocessing/robcent.py:VersatileScaler.transform", "src/direpack/utils/utils.py:_check_input", "src/direpack/preprocessing/_preproc_utilities.py:scale_data"]}
{"id": "C11", "title": "Trimmed mean: admissible fractions and range", "statement": "The trimmed mean used for location with trimming t returns the average of the values left after dropping int(t*n) from either end, so it lies between the smallest and largest value, equals the mean at t=0, and is affine equivariant; every t outside [0,0.99] raises the documented error, and any t that would drop everything gives an error or NaN instead of a number (NaN when exactly nothing is left, ValueError when the cuts overlap).", "quantifier": "all columns, all trimming fractions", "why_tests_cant": "Continuous parameter and all data sizes; the boundary between valid and invalid fractions depends on n.", "anchors": ["src/direpack/preprocessing/_preproc_utilities.py:mean", "src/direpack/preprocessing/_preproc_utilities.py:_check_trimming", "src/direpack/dicomo/_dicomo_utils.py:trim_mean"]}
{"id": "C12", "title": "Missing values are ignored column by column", "statement": "With NaN cells, the untrimmed mean, the median and the standard deviation used for scaling equal the same estimator applied to the non-missing cells of that column; columns without missing cells are unaffected by missings elsewhere.", "quantifier": "all matrices with any pattern of missing cells", "why_tests_cant": "There are exponentially many missingness patterns.", "anchors": ["src/direpack/preprocessing/_preproc_utilities.py:median", "src/direpack/preprocessing/_preproc_utilities.py:mean", "src/direpack/preprocessing/_preproc_utilities.py:std"]}
{"id": "C13", "title": "The L1-median stopping condition certifies a global optimum", "statement": "The gradient handed to the optimiser for the spatial median is a subgradient of the sum of Euclidean distances at every point (including at data points), so a point where it is zero minimises that sum over all points of space.", "quantifier": "all data matrices, all candidate centres", "why_tests_cant": "Global optimality compares against a continuum of competitors.", "anchors": ["src/direpack/preprocessing/_preproc_utilities.py:_l1m_objective", "src/direpack/preprocessing/_preproc_utilities.py:_l1m_jacobian", "src/direpack/preprocessing/_preproc_utilities.py:l1median"]}
{"id": "C14", "title": "kstepLTS: bounded iterations and monotone concentration", "statement": "kstepLTS performs at most maxit concentration steps, every step returns the mean of at least half of the cases, and no step increases the sum of the h smallest squared distances to the current centre. It goes on only while some coordinate of the centre moves by more than tol, and stops early only when none does.", "quantifier": "all data matrices, all starting centres, all maxit", "why_tests_cant": "The descent property is an invariant over every iteration from every start.", "anchors": ["src/direpack/preprocessing/_preproc_utilities.py:kstepLTS"]}
{"id": "C15", "title": "scaleTau2 of a single column is a scale estimate", "statement": "For a single column with nonzero MAD, the tau scale is nonnegative, invariant to shifts and to the order of cases, and scales with |a| under multiplication by a; it is not a number exactly when the MAD is zero.", "quantifier": "all single columns, all shifts and factors", "why_tests_cant": "Universally quantified equivariance of a nonlinear two-step estimator.", "anchors": ["src/direpack/preprocessing/_preproc_utilities.py:scaleTau2"]}
{"id": "C16", "title": "scaleTau2 of a matrix is column-wise", "statement": "The tau scale of column j of a matrix equals the tau scale of column j on its own, as the docstring (column-wise robust scale) promises.", "quantifier": "all matrices with two or more columns", "why_tests_cant": "Column independence relates calls on arbitrary matrices.", "anchors": ["src/direpack/preprocessing/_preproc_utilities.py:scaleTau2"]}
{"id": "C17", "title": "Wrapping is bounded, odd, identity in the centre and zero in the tails", "statement": "Wrapping a value at least 4 scale units from the location returns the location, a value less than 1.5 units away is unchanged, the wrapping of -z is minus that of z, and no wrapped value is farther than 1.55 scale units from the location.", "quantifier": "all values, locations and positive scales", "why_tests_cant": "A bound over all reals.", "anchors": ["src/direpack/preprocessing/_preproc_utilities.py:wrap_univ", "src/direpack/preprocessing/_preproc_utilities.py:wrap"]}
{"id": "C18", "title": "Wrapper.predict applies the training location and scale", "statement": "A fitted Wrapper applied to new data wraps them with the location and scale estimated at fit time, so a new case gets the same result whatever other new cases accompany it.", "quantifier": "all training and new data", "why_tests_cant": "Relates arbitrary pairs of calls.", "anchors": ["src/direpack/preprocessing/robcent.py:Wrapper", "src/direpack/preprocessing/_preproc_utilities.py:wrap_univ"]}
{"id": "C19", "title": "Generalised spatial sign weights lie in [0,1] and shrink towards the centre", "statement": "For the quad, ss, winsor, ball, shell and lr radial functions, every centred case is multiplied by one number; for quad, winsor, ball, shell and lr that number lies in [0,1], so a case keeps its direction and is never moved away from the centre; ball and shell use only 0 and 1.", "quantifier": "all data matrices with at least as many rows as columns, all radial functions", "why_tests_cant": "Bounds over all data and all thresholds computed from them.", "anchors": ["src/direpack/preprocessing/_gsspp_utils.py:quad", "src/direpack/preprocessing/_gsspp_utils.py:ss", "src/direpack/preprocessing/_gsspp_utils.py:winsor", "src/direpack/preprocessing/_gsspp_utils.py:ball", "src/direpack/preprocessing/_gsspp_utils.py:shell", "src/direpack/preprocessing/_gsspp_utils.py:linear_redescending", "src/direpack/preprocessing/_gsspp_utils.py:_gsspp"]}
{"id": "C20", "title": "Generalised spatial signs leave the central half of the data alone", "statement": "With the quad, winsor, ball and lr functions the h=floor((n+p+1)/2) cases closest to the centre are returned exactly as they were centred, no matter where the other cases are.", "quantifier": "all data matrices with n >= p", "why_tests_cant": "Quantifies over all positions of the outlying cases.", "anchors": ["src/direpack/preprocessing/_gsspp_utils.py:quad", "src/direpack/preprocessing/_gsspp_utils.py:winsor", "src/direpack/preprocessing/_gsspp_utils.py:ball", "src/direpack/preprocessing/_gsspp_utils.py:linear_redescending"]}
{"id": "C21", "title": "Generalised spatial signs bound the influence of any case", "statement": "After the winsor or ball transform no case is farther from the centre than the h-th smallest distance; after the ss transform every case has length at most 1, and exactly 1 when its distance is at least 1e-10; after lr no case is farther than the redescending cutoff.", "quantifier": "all data matrices with n >= p, all cases", "why_tests_cant": "Worst-case bound over arbitrarily large outliers.", "anchors": ["src/direpack/preprocessing/_gsspp_utils.py:winsor", "src/direpack/preprocessing/_gsspp_utils.py:ball", "src/direpack/preprocessing/_gsspp_utils.py:ss", "src/direpack/preprocessing/_gsspp_utils.py:linear_redescending"]}
{"id": "C22", "title": "Generalised spatial signs do not depend on units or on case order", "statement": "Multiplying all (centred) data by a positive number multiplies the transformed data by it (leaves ss unchanged for cases whose distance is 0 or at least 1e-10 in both units), and permuting the cases permutes the transformed cases.", "quantifier": "all data matrices, all positive factors, all permutations", "why_tests_cant": "Quantifies over all permutations and scale factors.", "anchors": ["src/direpack/preprocessing/_gsspp_utils.py:_gsspp", "src/direpack/preprocessing/_gsspp_utils.py:_spatial_sign"]}
{"id": "C23", "title": "Generalised spatial signs: defined exactly when there are at least as many cases as variables", "statement": "For the distance-quantile functions the transform succeeds when p <= n and raises an IndexError when p > n; it never reads a wrong order statistic silently.", "quantifier": "all shapes (n,p)", "why_tests_cant": "All shapes.", "anchors": ["src/direpack/preprocessing/_gsspp_utils.py:quad", "src/direpack/preprocessing/_gsspp_utils.py:winsor", "src/direpack/preprocessing/_gsspp_utils.py:ball", "src/direpack/preprocessing/_gsspp_utils.py:shell", "src/direpack/preprocessing/_gsspp_utils.py:linear_redescending"]}
{"id": "C24", "title": "GenSpatialSignPreProcessor.transform transforms the data it is given", "statement": "transform(X) of a fitted GenSpatialSignPreProcessor is the sign transform of the X passed to it; two different inputs of the same shape do not have to give the same answer.", "quantifier": "all training and new matrices", "why_tests_cant": "Relates arbitrary pairs of calls.", "anchors": ["src/direpack/preprocessing/gsspp.py:GenSpatialSignPreProcessor.fit", "src/direpack/preprocessing/gsspp.py:GenSpatialSignPreProcessor.transform"]}
{"id": "C25", "title": "gen_ss_covmat is a covariance matrix", "statement": "gen_ss_covmat returns a symmetric positive semidefinite p x p matrix, the cross product of the transformed cases divided by n.", "quantifier": "all numeric matrices", "why_tests_cant": "Semidefiniteness and shape for every input.", "anchors": ["src/direpack/preprocessing/gsspp.py:gen_ss_covmat"]}
{"id": "C26", "title": "Central moments are shift invariant and homogeneous", "statement": "dicomo with est='arithmetic', modes mom/com (order 2 and higher) and var/cov: adding a constant to a variable does not change the statistic and multiplying a variable by a multiplies the statistic by a to the power with which the variable enters.", "quantifier": "all pairs of equally long columns, all orders and options, all constants", "why_tests_cant": "Universally quantified algebraic laws.", "anchors": ["src/direpack/dicomo/_dicomo_utils.py:trim_mom", "src/direpack/dicomo/dicomo.py:dicomo.fit"]}
{"id": "C27", "title": "Variance is the covariance of a variable with itself and is nonnegative; covariance is symmetric and bilinear", "statement": "dicomo(mode='cov').fit(x,y=x) equals dicomo(mode='var').fit(x), which is nonnegative and zero only for constant columns (no trimming, mean centring); cov(x,y)=cov(y,x) and is additive in each argument.", "quantifier": "all columns of equal length", "why_tests_cant": "Algebraic laws over all data.", "anchors": ["src/direpack/dicomo/_dicomo_utils.py:trim_mom", "src/direpack/dicomo/dicomo.py:dicomo.fit"]}
{"id": "C28", "title": "Correlation lies in [-1,1] and is scale free", "statement": "dicomo(mode='corr') returns a number between -1 and 1 (mean centring, no trimming, nonconstant data), +1/-1 exactly for increasing/decreasing affine relations, and multiplying either variable by a nonzero constant changes at most its sign.", "quantifier": "all pairs of nonconstant columns of equal length", "why_tests_cant": "The bound is the Cauchy-Schwarz inequality over all data.", "anchors": ["src/direpack/dicomo/dicomo.py:dicomo.fit", "src/direpack/dicomo/_dicomo_utils.py:trim_mom"]}
{"id": "C29", "title": "Median-based correlation is scale free", "statement": "dicomo(mode='corr', center='median') is unchanged when a variable is multiplied by a positive constant, as any correlation coefficient should be.", "quantifier": "all pairs of columns, all positive constants", "why_tests_cant": "Quantifies over all rescalings.", "anchors": ["src/direpack/dicomo/dicomo.py:dicomo.fit", "src/direpack/dicomo/_dicomo_utils.py:trim_mom"]}
{"id": "C30", "title": "Co-skewness and co-kurtosis of a variable with itself are skewness and kurtosis", "statement": "dicomo cos(x,x)=skew(x) and cok(x,x)=kurt(x) for every option value, and all four are unchanged by shifts and positive rescaling of the variables (biascorr=False).", "quantifier": "all columns with nonzero variance, all options", "why_tests_cant": "Identities over all data.", "anchors": ["src/direpack/dicomo/dicomo.py:dicomo.fit", "src/direpack/dicomo/_dicomo_utils.py:trim_mom"]}
{"id": "C31", "title": "Small sample corrections are the documented ones", "statement": "With biascorr=True, var and cov are the usual n-1 versions: for every data set they equal n/(n-1) times the uncorrected ones; skew equals sqrt(n(n-1))/(n-2) times the uncorrected skewness, kurt equals the G2 correction.", "quantifier": "all columns with n large enough", "why_tests_cant": "For all sample sizes and data.", "anchors": ["src/direpack/dicomo/dicomo.py:dicomo.fit", "src/direpack/dicomo/_dicomo_utils.py:trim_mom"]}
{"id": "C32", "title": "Continuum association interpolates between covariance and its powers", "statement": "Without trimming, continuum association equals cov(x,y)^2 times sd(x)^(alpha-1), with the cov and var the same arguments give; so at alpha=1 its square root is the absolute covariance, and it is homogeneous of degree alpha+1 in x and of degree 2 in y.", "quantifier": "all data with positive variance, all alpha, all positive factors", "why_tests_cant": "Real exponent and all data.", "anchors": ["src/direpack/dicomo/dicomo.py:dicomo.fit"]}
{"id": "C33", "title": "Doubly centred distance matrices have zero margins", "statement": "Every row and column of the centred distance matrix sums to zero (biascorr False); with biascorr=True the diagonal is zero and every row of the U-centred matrix sums to zero; both are symmetric.", "quantifier": "all n (>=3 for U-centring) and all data matrices", "why_tests_cant": "For all sizes and data.", "anchors": ["src/direpack/dicomo/_dicomo_utils.py:double_center_flex", "src/direpack/dicomo/_dicomo_utils.py:distance_matrix_centered"]}
{"id": "C34", "title": "Distance variance and covariance are nonnegative and distance correlation is in [0,1]", "statement": "dicomo(est='distance') var and cov without trimming and without bias correction are square roots of nonnegative numbers, never of negative ones, and corr lies between 0 and 1.", "quantifier": "all data matrices with equally many rows, of any number of columns", "why_tests_cant": "Nonnegativity of the distance covariance is a theorem (negative definiteness of Euclidean distance), not a sample fact.", "anchors": ["src/direpack/dicomo/_dicomo_utils.py:distance_moment", "src/direpack/dicomo/dicomo.py:dicomo.fit"]}
{"id": "C35", "title": "Distance statistics ignore shifts and rotations and scale linearly", "statement": "Distance covariance of (X,Y) is unchanged when a constant row is added to X, when X is multiplied by an orthogonal matrix, and when the cases of X and Y are permuted together; multiplying X by a scales distance covariance by sqrt|a| (by |a| when the centre is the median) and leaves distance correlation unchanged. This holds for both algorithms and with any trimming and bias correction.", "quantifier": "all data, orthogonal matrices, permutations and factors", "why_tests_cant": "Invariances over continuous groups.", "anchors": ["src/direpack/dicomo/_dicomo_utils.py:distance_matrix_centered", "src/direpack/dicomo/_dicomo_utils.py:distance_moment"]}
{"id": "C36", "title": "Naive and fast distance algorithms agree", "statement": "For var, cov and corr of distance statistics the result does not depend on calcmode.", "quantifier": "all data", "why_tests_cant": "Equivalence of two algorithms on all inputs.", "anchors": ["src/direpack/dicomo/dicomo.py:dicomo.fit", "src/direpack/dicomo/_dicomo_utils.py:distance_moment"]}
{"id": "C37", "title": "Higher order distance moments use the requested order", "statement": "A distance moment of order k aggregates k-fold products of centred distances for every k.", "quantifier": "all orders k >= 2 and all data", "why_tests_cant": "All orders; the loop is exercised at most once by tests.", "anchors": ["src/direpack/dicomo/_dicomo_utils.py:distance_moment"]}
{"id": "C38", "title": "Martingale difference divergence is nonnegative and zero for unrelated mean", "statement": "difference_divergence(X,Y) without trimming equals minus the average over pairs of (y_i-ybar)(y_j-ybar)|x_i-x_j|; it is nonnegative for every data set and zero when y is constant. With trimming it is the trimmed mean of the n^2 products of the entries of the two centred matrices.", "quantifier": "all data with univariate y", "why_tests_cant": "Nonnegativity over all data.", "anchors": ["src/direpack/dicomo/_dicomo_utils.py:difference_divergence", "src/direpack/dicomo/_dicomo_utils.py:D_inner"]}
{"id": "C39", "title": "The martingale difference divergence matrix is symmetric positive semidefinite", "statement": "MDDM(X,Y) for Y with q >= 1 columns is a symmetric positive semidefinite q x q matrix whose (k,l) entry is minus the average of products of centred y_k and y_l times x distances; its quadratic form in direction b is the MDD of Y*b.", "quantifier": "all data", "why_tests_cant": "Semidefiniteness over all data.", "anchors": ["src/direpack/dicomo/_dicomo_utils.py:MDDM"]}
{"id": "C40", "title": "dicomo fits do not depend on earlier fits", "statement": "Fitting a dicomo object gives the same moment_ for the same data and arguments whether or not the object has been fitted before with other data, and fitting does not alter the constructor parameters.", "quantifier": "all sequences of fit calls", "why_tests_cant": "History independence over all call sequences.", "anchors": ["src/direpack/dicomo/dicomo.py:dicomo.fit", "src/direpack/ppdire/capi.py:capi.fit"]}
{"id": "C41", "title": "dicomo argument validation is total", "statement": "For every combination of est, mode and arguments, construction and fit either compute the requested statistic or raise; every mode the documentation lists is accepted by the constructor, and a fit never silently returns the previous result.", "quantifier": "all est/mode strings, presence or absence of y, all lengths", "why_tests_cant": "Decision table over all combinations and histories.", "anchors": ["src/direpack/dicomo/dicomo.py:dicomo.__init__", "src/direpack/dicomo/dicomo.py:dicomo.fit"]}
{"id": "C42", "title": "SNIPLS score vectors are mutually orthogonal", "statement": "All pairs of distinct score vectors in x_scores_ of a fitted SNIPLS model are orthogonal.", "quantifier": "all data for which no score vector vanishes, all numbers of components, all eta", "why_tests_cant": "Invariant by induction over the components for every data set.", "anchors": ["src/direpack/sprm/snipls.py:snipls.fit"]}
{"id": "C43", "title": "SNIPLS sparsity: zero coefficients outside the retained variables, retained sets grow", "statement": "A variable that is not reported in colret_ has an exactly zero coefficient, weight and loading; the set of retained variables never shrinks from one component to the next.", "quantifier": "all data, all eta, all numbers of components", "why_tests_cant": "Invariant over the component loop.", "anchors": ["src/direpack/sprm/snipls.py:snipls.fit"]}
{"id": "C44", "title": "SNIPLS sparsity parameter behaves monotonically", "statement": "For the first component, with eta=0 every variable with nonzero covariance is retained, a larger eta retains a subset of what a smaller eta retains, and for every eta < 1 at least one variable is retained unless all covariances vanish.", "quantifier": "all data, all 0 <= eta < 1", "why_tests_cant": "Continuous parameter and all data.", "anchors": ["src/direpack/sprm/snipls.py:snipls.fit"]}
{"id": "C45", "title": "PLS fit satisfies the normal equations on its scores", "statement": "The fitted centred response of SNIPLS is the orthogonal projection of the centred response on the span of the scores: the residual is orthogonal to every score vector.", "quantifier": "all data, all component counts with linearly independent scores", "why_tests_cant": "For all data, by induction over components.", "anchors": ["src/direpack/sprm/snipls.py:snipls.fit"]}
{"id": "C46", "title": "SNIPLS predictions on the training data are the fitted values", "statement": "predict(X_train) equals fitted_, predict is affine in X with slope coef_, and residuals_ = y - fitted_.", "quantifier": "all data, all preprocessing options", "why_tests_cant": "Consistency of stored coefficients, over all data and scales.", "anchors": ["src/direpack/sprm/snipls.py:snipls.fit", "src/direpack/sprm/snipls.py:snipls.predict"]}
{"id": "C47", "title": "SNIPLS transform of the training data gives the scores", "statement": "transform(X_train) equals x_scores_.", "quantifier": "all data, all eta, all numbers of components", "why_tests_cant": "Holds or fails depending on how the retained set evolves over components.", "anchors": ["src/direpack/sprm/snipls.py:snipls.fit", "src/direpack/sprm/snipls.py:snipls.transform"]}
{"id": "C48", "title": "RM case weights are in [0,1] and never in the open interval (0,1e-6)", "statement": "The case weights an RM model reports after reweighting are either exactly 0 or at least 1e-6, and at most 1, for each weight function.", "quantifier": "all data, all admissible cutoffs", "why_tests_cant": "For all residual vectors.", "anchors": ["src/direpack/sprm/rm.py:rm.fit"]}
{"id": "C49", "title": "RM and SPRM predictions reproduce the fitted values", "statement": "For a fitted RM or SPRM model predict(X_train) equals fitted_, and coefficients and intercept on the original scale describe the same affine function as the scaled ones.", "quantifier": "all data, locations and nonzero scales", "why_tests_cant": "Consistency of two parametrisations for all data.", "anchors": ["src/direpack/sprm/rm.py:rm.fit", "src/direpack/sprm/rm.py:rm.predict", "src/direpack/sprm/sprm.py:sprm.fit", "src/direpack/sprm/sprm.py:sprm.predict"]}
{"id": "C50", "title": "RM and SPRM reweighting stops", "statement": "The reweighting loop of RM and of SPRM performs at most maxit-1 reweighted fits for every data set and tolerance, and returns the coefficients of the last fit; with a positive number of admissible iterations it never returns without having fitted.", "quantifier": "all data, all tolerances, all maxit", "why_tests_cant": "Termination over all data.", "anchors": ["src/direpack/sprm/rm.py:rm.fit"]}
{"id": "C51", "title": "SPRM leaves its constructor parameters unchanged", "statement": "fit does not modify the parameters of the estimator, so a clone or a second fit on other data behaves like a fresh estimator.", "quantifier": "all sequences of fits", "why_tests_cant": "History independence over all sequences of fits.", "anchors": ["src/direpack/sprm/sprm.py:sprm.fit"]}
{"id": "C52", "title": "Robust cross-validation loss downweights outliers on both sides", "statement": "robust_loss gives a large residual a small weight whatever its sign, so that replacing residual r by -r does not change its contribution.", "quantifier": "all responses and predictions", "why_tests_cant": "Quantifies over all residual vectors.", "anchors": ["src/direpack/cross_validation/_cv_support_functions.py:robust_loss"]}
{"id": "C53", "title": "Candidate directions of the grid search have unit length", "statement": "Every candidate direction examined by the two-variable grid (gridplane) is a unit vector, the candidates cover the half circle with equal spacing, and (1,0) is among them.", "quantifier": "all numbers of directions", "why_tests_cant": "For all grid sizes.", "anchors": ["src/direpack/ppdire/_ppdire_utils.py:gridplane"]}
{"id": "C54", "title": "The grid search returns the best candidate", "statement": "gridplane returns a direction attaining the maximum of the projection index over all candidates examined, the first one in case of ties, together with that maximum.", "quantifier": "all data, all projection indices, all grid sizes", "why_tests_cant": "For every (black box) projection index.", "anchors": ["src/direpack/ppdire/_ppdire_utils.py:gridplane", "src/direpack/ppdire/_ppdire_utils.py:gridplane_2", "src/direpack/ppdire/_ppdire_utils.py:pp_objective"]}
{"id": "C55", "title": "The refinement stage keeps directions at unit length", "statement": "gridplane_2 combines a current unit direction with a coordinate direction and rescales so that the new direction again has unit length.", "quantifier": "all unit directions, coordinates and angle grids", "why_tests_cant": "Norm identity for all inputs.", "anchors": ["src/direpack/ppdire/_ppdire_utils.py:gridplane_2", "src/direpack/ppdire/ppdire.py:ppdire.fit"]}
{"id": "C56", "title": "Refinement never makes the projection index worse", "statement": "A refinement sweep of the grid optimiser returns a direction whose projection index is at least that of the direction it started with.", "quantifier": "all data, indices, directions and grid sizes", "why_tests_cant": "Depends on the parity of the number of directions and holds for all data.", "anchors": ["src/direpack/ppdire/_ppdire_utils.py:gridplane_2", "src/direpack/ppdire/ppdire.py:ppdire.fit"]}
{"id": "C57", "title": "ppdire scores are orthogonal and reproducible", "statement": "For a fitted ppdire model the score vectors are mutually orthogonal, the weight vectors have unit length, and transform(X_train) equals x_scores_ (no whitening, no compression).", "quantifier": "all data, all projection indices, all optimisers returning unit vectors, all component counts", "why_tests_cant": "Invariant over the deflation loop, for black box optimisers.", "anchors": ["src/direpack/ppdire/ppdire.py:ppdire.fit", "src/direpack/ppdire/ppdire.py:ppdire.transform"]}
{"id": "C58", "title": "ppdire predictions on the training data are the fitted values", "statement": "With OLS regression, predict(X_train) equals fitted_ and residuals_ = y - fitted_.", "quantifier": "all data and projection indices, with and without compression", "why_tests_cant": "For all data.", "anchors": ["src/direpack/ppdire/ppdire.py:ppdire.fit", "src/direpack/ppdire/ppdire.py:ppdire.predict"]}
{"id": "C59", "title": "The native grid optimiser works for every number of variables", "statement": "ppdire with optimizer='grid' fits every numeric matrix with p >= 2 columns.", "quantifier": "all shapes", "why_tests_cant": "All shapes: two-column data take a different path.", "anchors": ["src/direpack/ppdire/ppdire.py:ppdire.fit"]}
{"id": "C60", "title": "CAPI combines every requested co-moment exactly once", "statement": "A capi fit evaluates each requested (degree, option) co-moment, stores each in a slot of its own and returns the weighted sum of all slots; no slot is overwritten or left empty.", "quantifier": "all maximal degrees and option lists", "why_tests_cant": "All combinations of degree and options.", "anchors": ["src/direpack/ppdire/capi.py:capi.fit"]}
{"id": "C61", "title": "Slicing of the response is a partition into ordered slices", "statement": "discretize labels every case with a slice in 1..h, a larger response never gets a smaller label, equal responses get equal labels, and for distinct responses every slice but the last has floor(n/h) members.", "quantifier": "all responses, all h >= 2", "why_tests_cant": "For all data, sizes and ties.", "anchors": ["src/direpack/sudire/_sudire_utils.py:discretize"]}
{"id": "C62", "title": "SIR and SAVE kernel matrices are symmetric positive semidefinite", "statement": "The matrices whose leading eigenvectors SIR and SAVE return are symmetric positive semidefinite; SIR slice means weighted by slice proportions average to the overall mean.", "quantifier": "all data and slicings", "why_tests_cant": "Semidefiniteness over all data.", "anchors": ["src/direpack/sudire/_sudire_utils.py:SIR", "src/direpack/sudire/_sudire_utils.py:SAVE"]}
{"id": "C63", "title": "Slicing methods fail cleanly when there are fewer distinct labels than slices", "statement": "SIR/SAVE/DR use each observed label once; with fewer distinct labels than n_slices they raise rather than mis-assign, and with more, the documented number of slices is used and slice proportions add to one.", "quantifier": "all label vectors and slice numbers", "why_tests_cant": "All label vectors.", "anchors": ["src/direpack/sudire/_sudire_utils.py:SIR", "src/direpack/sudire/_sudire_utils.py:SAVE", "src/direpack/sudire/_sudire_utils.py:DR"]}
{"id": "C64", "title": "sudire start values honour the response type", "statement": "For a continuous response the start directions computed for optimisation-based sudire are those of SIR/SAVE/DR on a sliced continuous response.", "quantifier": "all data", "why_tests_cant": "For all data.", "anchors": ["src/direpack/sudire/sudire.py:sudire.fit", "src/direpack/sudire/_sudire_utils.py:SIR", "src/direpack/sudire/_sudire_utils.py:SAVE"]}
{"id": "C65", "title": "sudire projection matrix is the projector on the estimated subspace", "statement": "The projection matrix of a sudire fit is symmetric, idempotent, leaves the loadings fixed and depends only on the subspace spanned by the loadings.", "quantifier": "all loading matrices with independent columns", "why_tests_cant": "For all bases of all subspaces.", "anchors": ["src/direpack/sudire/sudire.py:sudire.fit"]}
{"id": "C66", "title": "The orthogonality constraint is the stated one", "statement": "The constraint function given to the optimiser vanishes exactly when the columns of the loading matrix are orthonormal, and the (x-scaled) variant exactly when they are orthonormal in the metric of the data covariance; vectorised start values are recovered by reshaping.", "quantifier": "all matrices", "why_tests_cant": "Equivalence over all matrices.", "anchors": ["src/direpack/utils/utils.py:const_zscale", "src/direpack/utils/utils.py:const_xscale", "src/direpack/sudire/sudire.py:sudire.fit"]}
{"id": "C67", "title": "sudire refits use the new data only", "statement": "Fitting a sudire object again on other data gives what a fresh object would give on those data.", "quantifier": "all sequences of fits", "why_tests_cant": "History independence.", "anchors": ["src/direpack/sudire/sudire.py:sudire.fit"]}
{"id": "C68", "title": "Structural dimension estimate averages the right bootstrap distances", "statement": "estimate_structural_dim reports for each candidate dimension the mean distance over the bootstrap samples for that dimension and selects the dimension with smallest mean.", "quantifier": "all sequences of bootstrap distances", "why_tests_cant": "All sequences.", "anchors": ["src/direpack/sudire/sudire.py:estimate_structural_dim"]}
{"id": "C69", "title": "Input normalisation is idempotent and preserves the data", "statement": "Normalising an accepted input a second time changes nothing; a matrix with at least two rows and any number of columns is passed through with the same entries and shape.", "quantifier": "all inputs of any shape", "why_tests_cant": "All shapes.", "anchors": ["src/direpack/utils/utils.py:_check_input", "src/direpack/utils/utils.py:_predict_check_input"]}
{"id": "C70", "title": "NaN-tolerant products agree with ordinary products on complete data", "statement": "nandot(a,b) is the dot product and nanmatdot(X,Y) the matrix product when there are no missing values; with missing values each entry sums over the available pairs.", "quantifier": "all matrices, all missingness patterns", "why_tests_cant": "All shapes and patterns.", "anchors": ["src/direpack/utils/utils.py:nandot", "src/direpack/utils/utils.py:nanmatdot"]}
{"id": "C71", "title": "set_params and get_params are inverse to each other", "statement": "set_params(**p) followed by get_params() returns the new values for the keys in p and the old ones elsewhere; set_params(**get_params()) changes nothing; an unknown key raises and leaves the estimator unchanged.", "quantifier": "all estimators and parameter dictionaries", "why_tests_cant": "All dictionaries and orders of keys.", "anchors": ["src/direpack/ppdire/ppdire.py:ppdire.get_params", "src/direpack/ppdire/ppdire.py:ppdire.set_params", "src/direpack/ppdire/capi.py:capi.get_params", "src/direpack/ppdire/capi.py:capi.set_params", "src/direpack/sudire/sudire.py:sudire.get_params", "src/direpack/sudire/sudire.py:sudire.set_params"]}
{"id": "C72", "title": "Constraint bounds handed to Ipopt match the constraints", "statement": "For every list of equality and inequality constraints, the lower and upper bound vectors have exactly one entry per scalar constraint, in order, 0/0 for equalities and 0/infinity for inequalities; another constraint type raises.", "quantifier": "all constraint lists and all constraint dimensions", "why_tests_cant": "All lists.", "anchors": ["src/direpack/ipopt_temp/ipopt_wrapper.py:get_constraint_bounds", "src/direpack/ipopt_temp/ipopt_wrapper.py:get_bounds", "src/direpack/ipopt_temp/ipopt_wrapper.py:IpoptProblemWrapper"]}
{"id": "C73", "title": "minimize_ipopt option translation is stable", "statement": "Translating user options to Ipopt options yields the same options when the same dictionary is passed again, explicitly given Ipopt options win over translated ones, and the caller's dictionary is not altered.", "quantifier": "all option dictionaries and sequences of calls", "why_tests_cant": "All dictionaries and histories.", "anchors": ["src/direpack/ipopt_temp/ipopt_wrapper.py:minimize_ipopt", "src/direpack/ipopt_temp/ipopt_wrapper.py:replace_option", "src/direpack/ipopt_temp/ipopt_wrapper.py:convert_to_bytes"]}
{"id": "C74", "title": "Finite difference derivatives are exact on the polynomials they should be exact on, and caching is transparent", "statement": "The forward difference Jacobian is exact for affine functions and the central one for quadratic functions at every point and step; the cached function value is always the value at the point asked for.", "quantifier": "all functions, points, steps and call sequences", "why_tests_cant": "All functions and histories.", "anchors": ["src/direpack/ipopt_temp/jacobian.py:FunctionWithApproxJacobian", "src/direpack/ipopt_temp/jacobian.py:FunctionWithApproxJacobianCentral"]}
{"id": "C75", "title": "Outlier plot classes partition the cases", "statement": "In SPRM plots every case with case weight in [0,1] belongs to exactly one of regular, moderate and harsh outlier.", "quantifier": "all weight vectors", "why_tests_cant": "All weight vectors.", "anchors": ["src/direpack/plot/sprm_plot.py:sprm_plot"]}
{"id": "C76", "title": "Cross-validation score table keeps every parameter setting", "statement": "cv_score_table contains one row per parameter setting in the order of the search, each with its own parameters and its own score.", "quantifier": "all search results", "why_tests_cant": "All result lists.", "anchors": ["src/direpack/cross_validation/_cv_support_functions.py:cv_score_table"]}
{"id": "C77", "title": "The one pass spatial sign function and the preprocessor class agree", "statement": "gen_ss_pp(X, center, fun) returns the same matrix as GenSpatialSignPreProcessor(center, fun).fit_transform(X) for every documented centre and radial function, including center='None'.", "quantifier": "all data matrices, all documented centres and radial functions", "why_tests_cant": "Agreement of two implementations on every input.", "anchors": ["src/direpack/preprocessing/gsspp.py:gen_ss_pp", "src/direpack/preprocessing/gsspp.py:GenSpatialSignPreProcessor"]}
{"id": "C78", "title": "Standard deviation is the square root of the variance", "statement": "dicomo(mode='std').fit(x) is the square root of dicomo(mode='var').fit(x) with the same arguments, with and without bias correction, for product moment and for distance statistics and for either calcmode.", "quantifier": "all data, both estimators, both bias correction settings, both algorithms", "why_tests_cant": "All columns.", "anchors": ["src/direpack/dicomo/dicomo.py:dicomo"]}
{"id": "C79", "title": "SPRM transform reproduces the training scores and treats cases independently", "statement": "After fitting SPRM with copy=True, transform(X_train) returns x_scores_, and for any new data each score is the same fixed linear function of that case's kept variables, standardised with the training location and scale, whatever the other cases are.", "quantifier": "all training sets on which the fit succeeds, all new data", "why_tests_cant": "All fits and all new data.", "anchors": ["src/direpack/sprm/sprm.py:sprm.fit", "src/direpack/sprm/sprm.py:sprm.transform"]}
{"id": "C80", "title": "Weights of new cases are proper weights", "statement": "weightnewx returns, for any batch of new cases including a single one, one weight in [0,1] per case.", "quantifier": "all fitted models, all batches of new cases", "why_tests_cant": "All batches.", "anchors": ["src/direpack/sprm/sprm.py:sprm.weightnewx"]}
{"id": "C81", "title": "SPRM drops exactly the near constant variables and ignores them afterwards", "statement": "The variables kept by SPRM are exactly those with scale at least 1e-5, and predictions for new data do not change when dropped variables or variables that were not retained by the sparse step take other values.", "quantifier": "all training sets on which the fit succeeds, all new data", "why_tests_cant": "All fits and all new data.", "anchors": ["src/direpack/sprm/sprm.py:sprm.fit", "src/direpack/sprm/sprm.py:sprm.predict"]}
{"id": "C82", "title": "The grid optimiser does at least as well as the best single variable", "statement": "The direction found by the grid optimiser has a projection index value at least as large as that of every single variable of the (deflated) data.", "quantifier": "all data with at least three variables, all projection indices, all grid sizes", "why_tests_cant": "All data, indices and grid sizes.", "anchors": ["src/direpack/ppdire/ppdire.py:ppdire.fit", "src/direpack/ppdire/_ppdire_utils.py:gridplane_2"]}
{"id": "C83", "title": "ppdire with OLS is the least squares fit on its scores", "statement": "With center='mean', no trimming and regopt='OLS', residuals sum to zero, are orthogonal to every score vector, and no other affine function of the scores has a smaller residual sum of squares.", "quantifier": "all data on which the fit succeeds, all optimisers, all projection indices", "why_tests_cant": "Optimality among all affine functions, for all data and all optimisers.", "anchors": ["src/direpack/ppdire/ppdire.py:ppdire.fit"]}
{"id": "C84", "title": "Whitened ppdire models can be fitted", "statement": "With whiten_data=True a model is fitted for every data matrix of full rank, and transform(X_train) equals x_scores_.", "quantifier": "all data dimensions", "why_tests_cant": "All dimensions.", "anchors": ["src/direpack/ppdire/ppdire.py:ppdire.fit"]}
{"id": "C85", "title": "Compression of flat tables does not change what the model is", "statement": "With compression=True a flat table can be fitted; transform(X_train) equals x_scores_; the weights have unit length and the scores are orthogonal; predictions are an affine function of the variables with the reported coefficients, for any number of new cases, and not constant unless the coefficients vanish.", "quantifier": "all flat tables, all numbers of new cases", "why_tests_cant": "All tables and batch sizes.", "anchors": ["src/direpack/ppdire/ppdire.py:ppdire.fit", "src/direpack/ppdire/ppdire.py:ppdire.predict"]}
{"id": "C86", "title": "The scaling object published by ppdire describes the data", "statement": "scaling_object_ of a fitted model holds the location and scale of the variables of X.", "quantifier": "all fits", "why_tests_cant": "All fits.", "anchors": ["src/direpack/ppdire/ppdire.py:ppdire.fit"]}
{"id": "C87", "title": "The response can be passed by position or by keyword", "statement": "fit(X, y) and fit(X, y=y) give the same model for every documented regression option.", "quantifier": "all regression options", "why_tests_cant": "All options and data.", "anchors": ["src/direpack/ppdire/ppdire.py:ppdire.fit"]}
{"id": "C88", "title": "Constructor arguments are reported by get_params", "statement": "get_params() of a newly constructed capi, ppdire or sudire object reports, for every constructor argument, the value passed to the constructor.", "quantifier": "all constructor arguments and values", "why_tests_cant": "All values.", "anchors": ["src/direpack/ppdire/capi.py:capi.__init__", "src/direpack/ppdire/ppdire.py:ppdire.__init__", "src/direpack/sudire/sudire.py:sudire.__init__", "src/direpack/ppdire/capi.py:capi.get_params"]}
{"id": "C89", "title": "Sufficient dimension reduction directions are orthonormal in the right metric", "statement": "The directions returned by SIR, SAVE, DR, PHD and IHT are orthonormal in the metric of the covariance matrix of the data when scale=True and orthonormal in the ordinary sense when scale=False.", "quantifier": "all data on which the method succeeds, all numbers of slices and directions", "why_tests_cant": "All data, responses and dimensions.", "anchors": ["src/direpack/sudire/_sudire_utils.py:SIR", "src/direpack/sudire/_sudire_utils.py:SAVE", "src/direpack/sudire/_sudire_utils.py:DR", "src/direpack/sudire/_sudire_utils.py:PHD", "src/direpack/sudire/_sudire_utils.py:IHT"]}
{"id": "C90", "title": "SIR directions maximise the variation between slices", "statement": "Each SIR direction maximises the between-slice variation among all unit variance directions uncorrelated with the earlier ones.", "quantifier": "all data on which SIR succeeds, all competing directions", "why_tests_cant": "Optimality among all directions.", "anchors": ["src/direpack/sudire/_sudire_utils.py:SIR"]}
{"id": "C91", "title": "PHD depends on the response only up to location and sign", "statement": "PHD gives the same directions when a constant is added to the response, and spans the same subspace for y and -y.", "quantifier": "all data and all shifts", "why_tests_cant": "All data.", "anchors": ["src/direpack/sudire/_sudire_utils.py:PHD"]}
{"id": "C92", "title": "sudire transform reproduces the training scores and treats cases independently", "statement": "After fitting sudire, transform(X_train) returns x_scores_, the scores of a new case are a fixed linear function of its variables whatever the other cases are, and data with another number of variables are rejected; this holds for copy=True and copy=False.", "quantifier": "all fits, all new data", "why_tests_cant": "All fits and all new data.", "anchors": ["src/direpack/sudire/sudire.py:sudire.fit", "src/direpack/sudire/sudire.py:sudire.transform"]}
{"id": "C93", "title": "sudire predictions are a fixed affine function of the scores fitted by least squares", "statement": "The training predictions of a sudire model with fit_ols are the least squares fit on the scores with intercept, and predict gives every new case, alone or in a batch, the same affine function of its scores.", "quantifier": "all fits, all batches of new cases", "why_tests_cant": "All batches, in particular single cases.", "anchors": ["src/direpack/sudire/sudire.py:sudire.fit", "src/direpack/sudire/sudire.py:sudire.predict"]}
{"id": "C94", "title": "sudire scores of scaled data are uncorrelated with unit variance", "statement": "With scale_data=True the scores of a fitted sudire model are uncorrelated with variance one; without scaling the loadings are orthonormal.", "quantifier": "all data, centring options and methods", "why_tests_cant": "All data and options.", "anchors": ["src/direpack/sudire/sudire.py:sudire.fit"]}
{"id": "C95", "title": "sudire can be used on flat tables", "statement": "With compression=True, sudire can be fitted to data with more variables than cases.", "quantifier": "all flat tables", "why_tests_cant": "All tables.", "anchors": ["src/direpack/sudire/sudire.py:sudire.fit"]}
{"id": "C96", "title": "Optimisation-based sudire works for every response", "statement": "The distance covariance, martingale difference divergence and ball covariance methods can be fitted for every response that is not constant, in particular for binary and other discrete responses.", "quantifier": "all data", "why_tests_cant": "All data.", "anchors": ["src/direpack/sudire/sudire.py:sudire.fit", "src/direpack/sudire/_sudire_utils.py:SIR"]}
{"id": "C97", "title": "The Ipopt wrapper with jac=True evaluates at the point asked for", "statement": "With jac=True, the objective value and gradient given to the optimiser are those of the user's function at the point asked for, whatever points were asked for before, and the user's function is evaluated once per point.", "quantifier": "all user functions and all sequences of requests", "why_tests_cant": "All sequences of requests.", "anchors": ["src/direpack/ipopt_temp/ipopt_wrapper.py:IpoptProblemWrapper"]}
{"id": "C98", "title": "Every given case name is drawn at its case", "statement": "In the SPRM plots every case name given by the user is drawn at the point of that case, and nothing is drawn for a case without a name.", "quantifier": "all fitted models, all lists of names and colours", "why_tests_cant": "All lists of names.", "anchors": ["src/direpack/plot/sprm_plot.py:sprm_plot.plot_yyp", "src/direpack/plot/sprm_plot.py:sprm_plot.plot_projections", "src/direpack/plot/sprm_plot.py:sprm_plot.plot_caseweights"]}
{"id": "C99", "title": "A truncated coefficient plot labels each bar with its own variable", "statement": "With truncation the coefficient plot shows the smallest and the largest coefficients, half of the requested fraction at each end, and labels every bar with the variable that has this coefficient.", "quantifier": "all coefficient vectors and truncations", "why_tests_cant": "All orders of the coefficients.", "anchors": ["src/direpack/plot/sprm_plot.py:sprm_plot.plot_coeffs"]}
{"id": "C100", "title": "Default options do not depend on earlier fits", "statement": "An object constructed with default optimizer options has the options of the signature, whatever objects were constructed and fitted before, and a fit changes no option dictionary that the fitted object does not have.", "quantifier": "all histories of constructions and fits", "why_tests_cant": "All histories.", "anchors": ["src/direpack/sudire/sudire.py:sudire.__init__", "src/direpack/ppdire/ppdire.py:ppdire.__init__", "src/direpack/ppdire/ppdire.py:ppdire.fit", "src/direpack/ipopt_temp/ipopt_wrapper.py:minimize_ipopt"]}
{"id": "C101", "title": "The objectives of sudire are the dependence measures of the projected data", "statement": "The function minimised by the distance covariance and martingale difference methods is minus ten times the distance covariance (martingale difference divergence) of the projected data and the response, bias corrected when asked for; it depends on the spanned subspace only, not on its basis or on a shift of the data.", "quantifier": "all data, directions, rotations and shifts", "why_tests_cant": "All directions and rotations.", "anchors": ["src/direpack/sudire/_sudire_utils.py:dcov_trim", "src/direpack/sudire/_sudire_utils.py:mdd_trim", "src/direpack/dicomo/_dicomo_utils.py:distance_matrix_centered", "src/direpack/dicomo/_dicomo_utils.py:difference_divergence"]}
{"id": "C102", "title": "An optimal solution gives the directions of largest dependence", "statement": "If the optimiser returns a feasible point of least objective, the loadings of the fitted sudire model have, among all directions that are orthonormal with respect to the covariance of the given data, the largest distance covariance (martingale difference divergence) with the response, with and without centring and scaling (centred by the mean if scaled, no trimming, no whitening).", "quantifier": "all data, numbers of components, scale options and optimisers", "why_tests_cant": "All data and all feasible directions.", "anchors": ["src/direpack/sudire/sudire.py:sudire.fit", "src/direpack/sudire/_sudire_utils.py:dcov_trim", "src/direpack/sudire/_sudire_utils.py:mdd_trim"]}
{"id": "C103", "title": "Validation scores of SPRM are R squared of the predictions", "statement": "The validation score is the (weighted) coefficient of determination of the predictions for the validation data, of any number of cases: at most one, and one exactly for perfect predictions.", "quantifier": "all fitted models and validation data", "why_tests_cant": "All validation data.", "anchors": ["src/direpack/sprm/sprm.py:sprm.valscore"]}
{"id": "C104", "title": "The form of the response does not matter", "statement": "A response given as vector, column, Series or one-column DataFrame leads to the same fit, and a response with another number of cases than the predictors is refused.", "quantifier": "all estimators, forms and values of the response", "why_tests_cant": "All forms and values.", "anchors": ["src/direpack/utils/utils.py:convert_y_input", "src/direpack/sudire/sudire.py:sudire.fit", "src/direpack/ppdire/ppdire.py:ppdire.fit", "src/direpack/sprm/snipls.py:snipls.fit", "src/direpack/sprm/rm.py:rm.fit", "src/direpack/sprm/sprm.py:sprm.fit"]}
{"id": "C105", "title": "Explained variances of SNIPLS are percentages of the variance", "statement": "After snipls.fit the attributes x_ev_ and y_ev_ hold, per component, percentages of the variance of the predictors and of the response: each lies between 0 and 100, they sum to at most 100, and the y_ev_ sum to the coefficient of determination of the fit.", "quantifier": "all data for which the fit succeeds, all sparsity levels and numbers of components", "why_tests_cant": "All data, including constant responses.", "anchors": ["src/direpack/sprm/snipls.py:snipls.fit"]}
{"id": "C106", "title": "SNIPLS does not depend on the units of measurement", "statement": "With a column-wise centre (mean, median) and scale (std, mad), measuring the predictors and the response in other units (any shift, any nonzero factor per variable) selects the same variables, converts the coefficients accordingly, and gives the same predictions in the new unit of the response; the fit succeeds in the new units exactly when it does in the old.", "quantifier": "all data, units, sparsity levels and numbers of components", "why_tests_cant": "All data and all units.", "anchors": ["src/direpack/sprm/snipls.py:snipls.fit", "src/direpack/sprm/snipls.py:snipls.predict", "src/direpack/preprocessing/robcent.py:VersatileScaler.fit_transform"]}
{"id": "C107", "title": "SNIPLS does not depend on the order of cases and variables", "statement": "Reordering the cases and the variables of the training data reorders coefficients, scores, fitted values and residuals, keeps intercept and selected variables, and changes no prediction.", "quantifier": "all data and permutations of cases and variables", "why_tests_cant": "All permutations.", "anchors": ["src/direpack/sprm/snipls.py:snipls.fit", "src/direpack/sprm/snipls.py:snipls.predict"]}
{"id": "C108", "title": "RM does not depend on the units of measurement", "statement": "With centre mean or median and scale std or mad, measuring the predictors of an RM fit in other units (any shift, any nonzero factor) and the response in other units (any shift, any positive factor) converts the coefficients accordingly, leaves all case weights alone, and gives the same fitted values and predictions in the new unit of the response. The response must have a nonzero scale.", "quantifier": "all data for which the fit succeeds, all units, all weight functions and parameters", "why_tests_cant": "All data and all units; the weights come from an iteration.", "anchors": ["src/direpack/sprm/rm.py:rm.fit", "src/direpack/sprm/rm.py:rm.predict"]}
{"id": "C109", "title": "RM does not depend on the order of cases and variables", "statement": "Reordering the cases and the variables of the training data of an RM fit reorders coefficients, case weights, fitted values and residuals, and changes no prediction.", "quantifier": "all data for which the fit succeeds, all permutations of cases and variables", "why_tests_cant": "All permutations.", "anchors": ["src/direpack/sprm/rm.py:rm.fit", "src/direpack/sprm/rm.py:rm.predict"]}
{"id": "C110", "title": "RM treats outliers above and below alike", "statement": "Reversing the sign of the response of an RM fit reverses the coefficients and the predictions and leaves the case weights alone, whatever centre and scale are used.", "quantifier": "all data for which the fit succeeds", "why_tests_cant": "All data; the weights come from an iteration.", "anchors": ["src/direpack/sprm/rm.py:rm.fit"]}
{"id": "C111", "title": "Distance variance is the distance covariance of a variable with itself", "statement": "For every data matrix, every centre, every trimming fraction and with or without bias correction, the distance covariance of the data with themselves equals their distance variance, by the fast and the naive algorithm.", "quantifier": "all data, centres, trimming fractions and algorithms", "why_tests_cant": "All data and options.", "anchors": ["src/direpack/dicomo/dicomo.py:dicomo.fit", "src/direpack/dicomo/_dicomo_utils.py:distance_moment", "src/direpack/dicomo/_dicomo_utils.py:distance_matrix_centered"]}
{"id": "C112", "title": "ppdire does not depend on the units of measurement", "statement": "With centring and scaling switched on, measuring the predictors (any shift, any positive factor per variable) and the response (any shift, any positive factor) in other units leaves the components and scores of a ppdire fit alone and converts coefficients, fitted values and predictions, for every projection index, optimiser and regression method. The response must have a nonzero scale.", "quantifier": "all data for which the fit succeeds, all units, indices, optimisers and regression methods", "why_tests_cant": "All data and all units.", "anchors": ["src/direpack/ppdire/ppdire.py:ppdire.fit", "src/direpack/ppdire/ppdire.py:ppdire.predict", "src/direpack/ppdire/ppdire.py:ppdire.transform"]}
{"id": "C113", "title": "ppdire does not depend on the order of the cases", "statement": "Reordering the cases of the training data of a ppdire fit reorders scores and fitted values and leaves coefficients and predictions alone, for every projection index that does not depend on the order of the cases.", "quantifier": "all data for which the fit succeeds, all permutations of the cases, all optimisers", "why_tests_cant": "All permutations.", "anchors": ["src/direpack/ppdire/ppdire.py:ppdire.fit", "src/direpack/ppdire/_ppdire_utils.py:gridplane", "src/direpack/ppdire/_ppdire_utils.py:gridplane_2"]}
{"id": "C114", "title": "A refitted ppdire object describes the last data only", "statement": "After any history of fits, with or without a response, an object whose last fit succeeded behaves like a new object fitted to the last data: transform gives the same scores and predict the same predictions or the same exception.", "quantifier": "all histories of fits and all data", "why_tests_cant": "All histories.", "anchors": ["src/direpack/ppdire/ppdire.py:ppdire.fit", "src/direpack/ppdire/ppdire.py:ppdire.predict", "src/direpack/ppdire/ppdire.py:ppdire.transform"]}
{"id": "C115", "title": "Scaled and unscaled coefficients of ppdire are the same model", "statement": "Applying coef_scaled_ and intercept_scaled_ to the standardised predictors gives the fitted values in standardised units: y_loc_ + y_sca_ * (Xs coef_scaled_ + intercept_scaled_) equals fitted_ for every training case.", "quantifier": "all data for which the fit succeeds, all centres, with and without scaling", "why_tests_cant": "All data and options.", "anchors": ["src/direpack/ppdire/ppdire.py:ppdire.fit"]}
{"id": "C116", "title": "SPRM does not depend on the units of measurement", "statement": "Measuring the predictors and the response of an SPRM fit in other units (any shift, any positive factor) retains the same variables, gives the same components, scores and case weights, and converts coefficients, fitted values, residuals and predictions.", "quantifier": "all data for which the fit succeeds, all units, centres mean and median, scales std and mad", "why_tests_cant": "All data and all units; the weights come from an iteration.", "anchors": ["src/direpack/sprm/sprm.py:sprm.fit", "src/direpack/sprm/sprm.py:sprm.predict", "src/direpack/sprm/sprm.py:sprm.transform"]}
{"id": "C117", "title": "SPRM does not depend on the order of cases and variables", "statement": "Reordering the cases and the variables of the training data of an SPRM fit reorders retained variables, coefficients, case weights, fitted values, residuals and scores, and changes no prediction, for all location and scale estimators that follow the order; with starting weights from the singular value decomposition, for data whose leading singular vectors are determined up to sign.", "quantifier": "all data for which the fit succeeds, all permutations of cases and variables", "why_tests_cant": "All permutations.", "anchors": ["src/direpack/sprm/sprm.py:sprm.fit", "src/direpack/sprm/sprm.py:sprm.predict", "src/direpack/sprm/snipls.py:snipls.fit"]}
{"id": "C118", "title": "Observed-against-predicted plots show the cases of the last fit", "statement": "plot_yyp draws every training case of the last fit exactly once at its observed and fitted value (none in onlyval mode) and every new case at its given and predicted value, with names at the points of their cases and, for SPRM, in the group of its case weight; a request that cannot be met (no new cases in onlyval mode, no stored response) raises.", "quantifier": "all data, all histories of fits, all names and new cases", "why_tests_cant": "All histories and data; a drawing library makes the output hard to test.", "anchors": ["src/direpack/plot/ppdire_plot.py:ppdire_plot.plot_yyp", "src/direpack/plot/sudire_plot.py:sudire_plot.plot_yyp", "src/direpack/plot/sprm_plot.py:sprm_plot.plot_yyp"]}
{"id": "C119", "title": "Score plots show the scores of the cases", "statement": "plot_projections draws every training case exactly once at its scores on the two components asked for (none in onlyval mode) and every new case at its transformed scores, with names at the points of their cases; a component that does not exist, or onlyval mode without new cases, raises.", "quantifier": "all scores, components, names and new cases", "why_tests_cant": "All data.", "anchors": ["src/direpack/plot/ppdire_plot.py:ppdire_plot.plot_projections", "src/direpack/plot/sudire_plot.py:sudire_plot.plot_projections", "src/direpack/plot/sprm_plot.py:sprm_plot.plot_projections"]}
{"id": "C120", "title": "Case weight plots show the weights asked for", "statement": "plot_caseweights draws one bar per training case with the weight of the kind asked for (overall, x, y), followed by one bar per new case; an unknown kind raises ValueError and onlyval mode without new cases raises.", "quantifier": "all weights, kinds and new cases", "why_tests_cant": "All data.", "anchors": ["src/direpack/plot/sprm_plot.py:sprm_plot.plot_caseweights"]}
{"id": "C121", "title": "Cross-validation contours show the current results", "statement": "eta_ncomp_contour draws its contours through exactly the settings of the grid search that have a finite score, or a message if there are fewer than three, for the results the grid search has at the time of the call.", "quantifier": "all results of grid searches, all histories of refits and plots", "why_tests_cant": "All histories.", "anchors": ["src/direpack/plot/sprm_plot.py:sprm_plot_cv.eta_ncomp_contour", "src/direpack/cross_validation/_cv_support_functions.py:cv_score_table"]}
{"id": "C122", "title": "sudire does not depend on the order of the cases", "statement": "Reordering the cases of the training data of a sudire fit reorders the scores and leaves loadings, projection, regression coefficients and predictions alone, for every method.", "quantifier": "all data, all permutations of the cases, all methods and options", "why_tests_cant": "All permutations.", "anchors": ["src/direpack/sudire/sudire.py:sudire.fit", "src/direpack/sudire/_sudire_utils.py:SIR", "src/direpack/sudire/_sudire_utils.py:SAVE", "src/direpack/sudire/_sudire_utils.py:DR", "src/direpack/sudire/_sudire_utils.py:PHD", "src/direpack/sudire/_sudire_utils.py:IHT", "src/direpack/sudire/_sudire_utils.py:discretize"]}
{"id": "C123", "title": "The slicing methods of sudire use only the order or the groups of the response", "statement": "SIR, SAVE and DR find the same loadings, projection and scores for any two responses with the same order of cases (continuous response) or the same groups of cases (discrete response), so that an increasing transformation of the response or other names for its groups change only the regression on the scores.", "quantifier": "all data, all pairs of responses with the same order or the same groups, all numbers of slices and components", "why_tests_cant": "All transformations of the response.", "anchors": ["src/direpack/sudire/sudire.py:sudire.fit", "src/direpack/sudire/_sudire_utils.py:SIR", "src/direpack/sudire/_sudire_utils.py:SAVE", "src/direpack/sudire/_sudire_utils.py:DR", "src/direpack/sudire/_sudire_utils.py:discretize"]}
{"id": "C124", "title": "sudire is affine equivariant", "statement": "With center='mean', scale_data=True and no whitening, measuring the predictors in other coordinates (x becomes xA+b) leaves what a sudire fit finds unchanged: for the methods not based on optimisation the scores of all old and new cases are rotated and shifted and the predictions are the same, provided the leading eigenspace is determined; for dcov-sdr and mdd-sdr with a solver that finds global optima, the directions, mapped back, are optimal in the original coordinates.", "quantifier": "all data for which both fits succeed, all invertible changes of coordinates, all new cases, all numbers of slices and components", "why_tests_cant": "All data and all changes of coordinates.", "anchors": ["src/direpack/sudire/sudire.py:sudire.fit", "src/direpack/sudire/sudire.py:sudire.transform", "src/direpack/sudire/sudire.py:sudire.predict", "src/direpack/sudire/_sudire_utils.py:SIR", "src/direpack/sudire/_sudire_utils.py:SAVE", "src/direpack/sudire/_sudire_utils.py:DR", "src/direpack/sudire/_sudire_utils.py:PHD", "src/direpack/sudire/_sudire_utils.py:IHT"]}
{"id": "C125", "title": "dicomo does not depend on the order of the cases", "statement": "Whatever the estimator, mode, arguments and earlier history of a dicomo object, a fit on the same cases in another order returns the same number or fails in the same way, and leaves the object in the same state.", "quantifier": "all data, all permutations of the cases, all estimators, modes, arguments and histories", "why_tests_cant": "All permutations and histories.", "anchors": ["src/direpack/dicomo/dicomo.py:dicomo.fit", "src/direpack/dicomo/_dicomo_utils.py:trim_mom", "src/direpack/dicomo/_dicomo_utils.py:distance_moment", "src/direpack/dicomo/_dicomo_utils.py:difference_divergence"]}
{"id": "C126", "title": "ppdire with the variance and an exact optimiser is principal component analysis", "statement": "A ppdire fit with dicomo's variance as projection index, center='mean', no trimming and an optimiser that finds the direction of unit length with the best objective gives principal components: the weights are orthonormal eigenvectors of the cross-product matrix of the standardised data, each maximises the variance among the directions orthogonal to the earlier ones, loadings and rotation equal the weights, and the scores are the projections.", "quantifier": "all data with at least two cases, all numbers of components, with or without scaling and bias correction, all exact optimisers, all histories of the index object", "why_tests_cant": "The repository's test compares one data set with another implementation to three decimals.", "anchors": ["src/direpack/ppdire/ppdire.py:ppdire.fit", "src/direpack/ppdire/_ppdire_utils.py:pp_objective", "src/direpack/dicomo/dicomo.py:dicomo.fit"]}
{"id": "C127", "title": "ppdire with the covariance, least squares and an exact optimiser is partial least squares", "statement": "A ppdire fit with dicomo's covariance as projection index, least squares, center='mean', no trimming and an optimiser that finds the direction of unit length with the best objective gives the same model as snipls with eta=0, the same standardisation and the same number of components: the same coefficients, intercept, fitted values and predictions, and the same weights and scores unless no variable covaries with the response.", "quantifier": "all data with at least two cases for which both fits succeed, all numbers of components, with or without scaling and bias correction, all exact optimisers, all new cases", "why_tests_cant": "The repository's test compares one data set with another implementation to three decimals.", "anchors": ["src/direpack/ppdire/ppdire.py:ppdire.fit", "src/direpack/ppdire/ppdire.py:ppdire.predict", "src/direpack/ppdire/_ppdire_utils.py:pp_objective", "src/direpack/sprm/snipls.py:snipls.fit", "src/direpack/sprm/snipls.py:snipls.predict", "src/direpack/dicomo/dicomo.py:dicomo.fit"]}
{"id": "C128", "title": "The reweighting of RM and SPRM goes on exactly until one of three conditions is met", "statement": "A fitted RM or SPRM model is the end of a run of weighted fits to the standardised data. The first fit uses the starting weights and each later one the weights found by the fit before, weights below 1e-6 being raised to 1e-6. The run goes on as long as fewer than maxit-1 fits have been made, fewer than half of the cases have a weight below 1e-6, and the sum of squares of the coefficients still changes, upwards or downwards, by more than the fraction tol; it ends at the first fit for which this fails. The weights found by a fit are the product of a factor for the response (the weight function at the absolute residuals divided by 1.4826 times their median) and a factor for the predictors (constant for RM; for SPRM the weight function at the scaled norms of the scores). Coefficients and case weights reported are those of the last fit, weights below 1e-6 being reported as 0. The starting weights are the weight function at the norms, divided by their median, of the standardised cases (for SPRM with start_X_init='pcapp', of the standardised leading singular vectors chosen by the broken stick rule), times the weight function at the scaled responses, in absolute value only for the pair median and mad.", "quantifier": "all data, all parameters, all numbers of iterations", "why_tests_cant": "the number of fits depends on the data and on tol; tests check a few results after convergence, not when and why the loop ended", "anchors": ["src/direpack/sprm/rm.py:rm.fit"]}
{"id": "C129", "title": "square_pi=True maximises the square of the projection index", "statement": "With square_pi=True, ppdire looks for the direction in which the square of the projection index is the largest, and reports that square: the fit is the one that the squared index would give with square_pi=False.", "quantifier": "all data, all projection indices, all optimisers, all numbers of components", "why_tests_cant": "The parameter must act for every index and every optimiser.", "anchors": ["src/direpack/ppdire/ppdire.py:ppdire.fit", "src/direpack/ppdire/_ppdire_utils.py:pp_objective", "src/direpack/ppdire/_ppdire_utils.py:gridplane", "src/direpack/ppdire/_ppdire_utils.py:gridplane_2"]}
{"id": "C130", "title": "sudire can be used on matrices of distances", "statement": "With is_distance_mat=True, the methods dcov-sdr and mdd-sdr of sudire can be fitted to matrices of Euclidean distances: coordinates with these distances are found, and the objective is evaluated on them.", "quantifier": "all numbers of cases, all configurations of points, all start values", "why_tests_cant": "Coordinates must be found for every configuration of points.", "anchors": ["src/direpack/sudire/sudire.py:sudire.fit", "src/direpack/sudire/_sudire_utils.py:give_coords", "src/direpack/sudire/_sudire_utils.py:mdd_trim", "src/direpack/sudire/_sudire_utils.py:dcov_trim"]}
{"id": "C131", "title": "The directions of SAVE are where the slice covariances differ most from the overall one", "statement": "The columns returned by sudire's SAVE maximise, one after another, the average over the slices of the squared distance of the slice covariance matrix from that of the data, measured in the metric of the covariance matrix of the data (of the identity for unscaled data): column k does so among all directions of unit length in that metric that are orthogonal in it to the earlier columns.", "quantifier": "all data, all responses, all numbers of slices and directions, centred or not, scaled or not", "why_tests_cant": "No test can try all directions, and the repository's test compares one data set with stored output.", "anchors": ["src/direpack/sudire/_sudire_utils.py:SAVE", "src/direpack/sudire/_sudire_utils.py:matpower", "src/direpack/sudire/_sudire_utils.py:discretize"]}
{"id": "C132", "title": "The directions of directional regression maximise its criterion", "statement": "The columns returned by sudire's DR maximise, one after another in the metric of the covariance matrix of the data, the criterion of directional regression: the average over all pairs of slices of the squared distance between the expected squared difference of two cases from the two slices and the value 2M it would have for independent cases, M being the metric.", "quantifier": "all data, all responses, all numbers of slices and directions, scaled or not", "why_tests_cant": "No test can try all directions, and the formula used in the code is equivalent only if the second moments of the slices average to the metric.", "anchors": ["src/direpack/sudire/_sudire_utils.py:DR", "src/direpack/sudire/_sudire_utils.py:matpower", "src/direpack/sudire/_sudire_utils.py:discretize"]}
{"id": "C133", "title": "Principal Hessian directions are those in which the response is curved most", "statement": "The columns returned by sudire's PHD maximise, one after another in the metric of the covariance matrix of the data, the strength of the curvature of the response, that is, the absolute value of the average of the centred response times the squared projection of the cases.", "quantifier": "all data, all responses, all numbers of directions, centred or not, scaled or not", "why_tests_cant": "No test can try all directions and all responses.", "anchors": ["src/direpack/sudire/_sudire_utils.py:PHD", "src/direpack/sudire/_sudire_utils.py:matpower"]}
{"id": "C134", "title": "The directions of iterative Hessian transformation lie in the space of that method", "statement": "When the space spanned by the least squares coefficients and their images under the powers of the Hessian matrix of the response has at least d dimensions, the d columns returned by sudire's IHT lie in that space.", "quantifier": "all data, all responses, all numbers of directions, centred or not", "why_tests_cant": "The space depends on the data; the repository has no test of the method.", "anchors": ["src/direpack/sudire/_sudire_utils.py:IHT", "src/direpack/sudire/_sudire_utils.py:matpower"]}
{"id": "C135", "title": "Settings outside their range never give a model", "statement": "An estimator whose settings are outside the range it documents never gives a fitted model: fit raises an error for a fraction eta outside [0,1), cut-offs of the weight function that are not positive or not increasing, a number of components that is not positive or exceeds what the data allow, and for a trimming fraction outside its range.", "quantifier": "all data, all settings outside their range, whether given to the constructor or set later with set_params", "why_tests_cant": "there are infinitely many wrong settings, and they can arrive by two ways", "anchors": ["src/direpack/sprm/rm.py:rm.__init__", "src/direpack/sprm/sprm.py:sprm.__init__", "src/direpack/sprm/snipls.py:snipls.__init__", "src/direpack/sprm/snipls.py:snipls.fit", "src/direpack/ppdire/ppdire.py:ppdire.fit", "src/direpack/sudire/sudire.py:sudire.fit"]}
{"id": "C136", "title": "The published locations and scales are the statistics asked for", "statement": "The locations and scales that a fitted model reports for the predictors and the response are the ones the settings name: the average, the median (the middle value in increasing order, or the average of the two middle values) or the trimmed mean as location, and the standard deviation (divisor: the number of cases) or the median absolute deviation divided by 0.67449 as scale; without centring the location is 0 and without scaling the scale is 1.", "quantifier": "all data, all choices of centre and scale", "why_tests_cant": "a statistic has to be right for every number of cases and every order of the values", "anchors": ["src/direpack/ppdire/ppdire.py:ppdire.fit", "src/direpack/sprm/snipls.py:snipls.fit", "src/direpack/sprm/rm.py:rm.fit", "src/direpack/sprm/sprm.py:sprm.fit", "src/direpack/sudire/sudire.py:sudire.fit", "src/direpack/preprocessing/robcent.py:VersatileScaler.fit"]}
{"id": "C137", "title": "Fitting leaves the parameters of sudire and ppdire unchanged", "statement": "After fit, the parameters with which a sudire or ppdire object was made still have the values they had before: the data preparation settings and the start value, constraints and arguments for the solver.", "quantifier": "all data, all settings, all methods", "why_tests_cant": "the change shows only in the parameters or in a later fit, and depends on the settings", "anchors": ["src/direpack/sudire/sudire.py:sudire.__init__", "src/direpack/sudire/sudire.py:sudire.fit", "src/direpack/ppdire/ppdire.py:ppdire.__init__", "src/direpack/ppdire/ppdire.py:ppdire.fit"]}
{"id": "C138", "title": "A scaler standardises with the location and scale of its last fit", "statement": "After any history of calls of fit, transform, predict, fit_transform and inverse_transform, whether or not they raised, a VersatileScaler holds the location and the scale of one data set, the last one it was fitted to successfully; transform and predict standardise any data with these two, and only fit and fit_transform change them.", "quantifier": "all histories of calls of any length, all data sets, all choices of centre, scale and trimming", "why_tests_cant": "the property is about all histories, including calls that fail halfway; tests call fit and transform once", "anchors": ["src/direpack/preprocessing/robcent.py:VersatileScaler.fit", "src/direpack/preprocessing/robcent.py:VersatileScaler.transform", "src/direpack/preprocessing/robcent.py:VersatileScaler.predict", "src/direpack/preprocessing/robcent.py:VersatileScaler.fit_transform"]}
{"id": "C139", "title": "inverse_transform() without an argument undoes the last transform", "statement": "inverse_transform() without an argument gives what inverse_transform gives for the table that the last call of transform returned, whatever was called since; so it gives back the data that were transformed last.", "quantifier": "all data sets, all histories of calls after the transform", "why_tests_cant": "the property is about all histories of calls on an object", "anchors": ["src/direpack/preprocessing/robcent.py:VersatileScaler.transform", "src/direpack/preprocessing/robcent.py:VersatileScaler.inverse_transform"]}
{"id": "C140", "title": "Asking for more components keeps the earlier ones", "statement": "A fit with fewer components succeeds whenever the fit with more components does, and its weights, loadings, scores and rotations are the first columns of those of the larger model; so are the scores it gives to new data. This holds for SNIPLS, for ppdire with a deterministic optimiser and any index (with and without a response), and for the methods of sudire that need no optimiser (SIR, SAVE, DR, PHD, IHT). Column k of ppdire's coef_ holds the coefficients of the model with k components.", "quantifier": "all data, all settings, all pairs of numbers of components", "why_tests_cant": "a test compares two numbers of components on one data set; the claim is for all pairs and for every data set, including those where the larger fit meets degenerate components", "anchors": ["src/direpack/sprm/snipls.py:snipls.fit", "src/direpack/sprm/snipls.py:snipls.transform", "src/direpack/ppdire/ppdire.py:ppdire.fit", "src/direpack/sudire/sudire.py:sudire.fit", "src/direpack/sudire/sudire.py:sudire.transform", "src/direpack/sudire/_sudire_utils.py:SIR", "src/direpack/sudire/_sudire_utils.py:SAVE", "src/direpack/sudire/_sudire_utils.py:DR", "src/direpack/sudire/_sudire_utils.py:PHD", "src/direpack/sudire/_sudire_utils.py:IHT"]}
{"id": "C141", "title": "More components never fit the training data worse", "statement": "With least squares regression the residual sum of squares on the training data does not increase with the number of components: for SNIPLS with center='mean' or without centring, for ppdire with regopt='OLS', center='mean', centred data and no trimming (any index, any deterministic optimiser), and for the predictions of sudire with SIR, SAVE, DR, PHD or IHT.", "quantifier": "all data, all settings of the kinds named, all pairs of numbers of components", "why_tests_cant": "an inequality between two fits for all data sets", "anchors": ["src/direpack/sprm/snipls.py:snipls.fit", "src/direpack/ppdire/ppdire.py:ppdire.fit", "src/direpack/sudire/sudire.py:sudire.fit", "src/direpack/sudire/sudire.py:sudire.predict"]}
{"id": "C142", "title": "Exact linear relationships are recovered", "statement": "If every case satisfies y = a + x.b exactly and the model may use as many components as there are predictors, then fit recovers the relationship: coef_ is b, intercept_ is a and the fitted values are the responses (SNIPLS, ppdire with least squares, robust M regression), or the predictions for the training data are the responses (sudire). Asking for more components than are needed does no harm.", "quantifier": "all data sets with an exact linear relationship, all slopes and intercepts, all settings", "why_tests_cant": "the degenerate case of residuals that all vanish is not in any test data, and floating point noise hides it", "anchors": ["src/direpack/sprm/snipls.py:snipls.fit", "src/direpack/ppdire/ppdire.py:ppdire.fit", "src/direpack/sprm/rm.py:rm.fit", "src/direpack/sudire/sudire.py:sudire.fit", "src/direpack/sudire/sudire.py:sudire.predict"]}
{"id": "C143", "title": "New cases are treated case by case", "statement": "What predict and transform return for a new case depends only on the values of that case: not on the other cases of the batch, on their number or on the order. Every batch of any size, a single case included, gets a result. The same holds for the weights sprm gives to new cases (weightnewx).", "quantifier": "all fitted models, all batches of new data", "why_tests_cant": "tests predict one batch; the claim compares all batches that contain a case", "anchors": ["src/direpack/sprm/snipls.py:snipls.predict", "src/direpack/sprm/snipls.py:snipls.transform", "src/direpack/sprm/rm.py:rm.predict", "src/direpack/sprm/sprm.py:sprm.predict", "src/direpack/sprm/sprm.py:sprm.transform", "src/direpack/sprm/sprm.py:sprm.weightnewx", "src/direpack/ppdire/ppdire.py:ppdire.predict", "src/direpack/ppdire/ppdire.py:ppdire.transform", "src/direpack/sudire/sudire.py:sudire.predict", "src/direpack/sudire/sudire.py:sudire.transform"]}
{"id": "C144", "title": "Distance correlation is one exactly for perfect dependence", "statement": "With est='distance', no trimming and no bias correction, the distance variance is zero exactly if all cases are the same, and the distance correlation of two data sets (none of them constant) is one exactly if the distances between the cases of one are a fixed positive multiple of the distances between the cases of the other; for two variables, exactly if one is a linear function of the other.", "quantifier": "all data sets of any number of cases and variables, both algorithms (fast and naive)", "why_tests_cant": "an equivalence over all real data; a test can only show that particular linear data give one", "anchors": ["src/direpack/dicomo/dicomo.py:dicomo.fit", "src/direpack/dicomo/_dicomo_utils.py:distance_matrix_centered", "src/direpack/dicomo/_dicomo_utils.py:distance_moment"]}
{"id": "C145", "title": "When robust M regression returns a model", "statement": "rm.fit returns a model made of numbers exactly if the probabilities pass the checks, the loop is entered (tol < 1 and maxit at least 2), the centre is the mean if scale='None', no predictor has scale zero, the median distance of the standardised cases from the origin is not zero, the median absolute deviation of the response is not zero (unless centre and scale are median and mad), and the centred response is not an exact linear function of the centred predictors.", "quantifier": "all data sets, weight functions, tuning constants, location and scale estimators, numbers of iterations, least squares solvers", "why_tests_cant": "an equivalence over all data and settings; tests only run a few data sets on which fit succeeds", "anchors": ["src/direpack/sprm/rm.py:rm.fit"]}
{"id": "C146", "title": "One outlying response cannot carry the coefficients of robust M regression beyond all bounds", "statement": "With median and mad as location and scale, changing one response by any amount leaves the coefficients of rm within fixed bounds, in particular when the case is rejected (reported weight zero).", "quantifier": "all data sets, all changes of one response, all weight functions and numbers of iterations", "why_tests_cant": "boundedness is a statement about infinitely many contaminations of arbitrary size", "anchors": ["src/direpack/sprm/rm.py:rm.fit", "src/direpack/sprm/_m_support_functions.py:Hampel", "src/direpack/sprm/_m_support_functions.py:Huber", "src/direpack/sprm/_m_support_functions.py:Fair"]}
{"id": "C147", "title": "sudire optimises over the data standardised with the published location and scale", "statement": "The data that a new sudire object with sudiremeth='dcov-sdr' hands to the optimiser (optimizer_arguments) are the given data, every column minus its published location (x_loc_) and divided by its published scale (x_sca_).", "quantifier": "all data sets, all settings of centring, scaling and trimming, all solvers", "why_tests_cant": "all data and settings; the optimiser's data are not compared with the published statistics by any test", "anchors": ["src/direpack/sudire/sudire.py:sudire.fit"]}
{"id": "C148", "title": "The robust locations and scales resist any minority of outliers", "statement": "The spatial median, the k-step LTS estimator and the tau scale stay within fixed bounds when fewer than half of the cases are replaced by anything whatever.", "quantifier": "all data sets, all sets of fewer than half of the cases, all replacements, all numbers of iterations and tolerances, all optimisers that do not return a point worse than the start", "why_tests_cant": "boundedness over infinitely many contaminations of arbitrary size", "anchors": ["src/direpack/preprocessing/_preproc_utilities.py:l1median", "src/direpack/preprocessing/_preproc_utilities.py:kstepLTS", "src/direpack/preprocessing/_preproc_utilities.py:scaleTau2"]}
{"id": "C149", "title": "SNIPLS directions maximise the penalised covariance with the unexplained response", "statement": "Among all directions that are not longer, the weights (x_weights_) of a component of snipls are the only one with the largest covariance, minus eta times the largest absolute covariance times the sum of absolute weights, with the part of the standardised response that the earlier components leave unexplained.", "quantifier": "all data sets, all eta, all components, all competing directions", "why_tests_cant": "an optimality claim against all directions for all data", "anchors": ["src/direpack/sprm/snipls.py:snipls.fit"]}
{"id": "C150", "title": "The result of minimize_ipopt reports what happened", "statement": "nfev is the number of calls of the objective function, njev the number of gradients the solver asked for, nit the iteration it reported last; success is true exactly if the status is 0; x has the shape of x0.", "quantifier": "all objective functions, all sequences of callbacks the solver makes, all starting values", "why_tests_cant": "all histories of callbacks; the solver is not run with counters by any test", "anchors": ["src/direpack/ipopt_temp/ipopt_wrapper.py:minimize_ipopt", "src/direpack/ipopt_temp/ipopt_wrapper.py:IpoptProblemWrapper"]}
{"id": "C151", "title": "On data without outliers the robust regressions are the classical ones", "statement": "With Huber or Hampel weights, if no case lies beyond the cutoffs - in its predictors, response and residual from the classical fit - rm and sprm give all cases the weight one; the coefficients of rm are those of ordinary least squares, those of sprm the ones that snipls gives for the same predictors.", "quantifier": "all data sets without outliers, all cutoffs of at least one, all numbers of components and sparsity parameters", "why_tests_cant": "the loop of reweighting must be shown to stop at the classical fit for all such data", "anchors": ["src/direpack/sprm/rm.py:rm.fit", "src/direpack/sprm/sprm.py:sprm.fit", "src/direpack/sprm/snipls.py:snipls.fit"]}
{"id": "C152", "title": "With all components SNIPLS is ordinary least squares", "statement": "If n_components is at least the rank of the predictors (for instance, one component per predictor), a model fitted by snipls has the coefficients of ordinary least squares whatever the sparsity parameter eta: with centre='mean' no linear function of the predictors has a smaller sum of squared residuals. No more components are extracted than the rank.", "quantifier": "all data sets, all eta, all centring and scaling functions (mean for the statement in original units)", "why_tests_cant": "an optimality claim against all linear functions for all data", "anchors": ["src/direpack/sprm/snipls.py:snipls.fit"]}
{"id": "C153", "title": "whiten_data=True makes sudire work on white data", "statement": "With whiten_data=True and centring at the mean the data that sudire hands to the optimiser have uncorrelated columns, each with unit variance.", "quantifier": "all data sets with a regular covariance matrix, all solvers", "why_tests_cant": "all data; the whitened data are internal and not inspected by any test", "anchors": ["src/direpack/sudire/sudire.py:sudire.fit"]}
{"id": "C154", "title": "Skewness, kurtosis and odd moments obey the laws of moments", "statement": "For data that are symmetric about a point, dicomo gives zero for the skewness, the co-skewness and all central moments and co-moments of odd order, whatever the trimming. Without trimming and bias correction the kurtosis of data that are not constant is at least one plus the squared skewness and at most the number of cases.", "quantifier": "all data sets, all orders, trimming fractions, corrections and centres", "why_tests_cant": "inequalities and identities for all data", "anchors": ["src/direpack/dicomo/dicomo.py:dicomo.fit", "src/direpack/dicomo/_dicomo_utils.py:trim_mom"]}
{"id": "C155", "title": "The value of CAPI is a function of the data", "statement": "The index that a capi object returns depends on its settings, the data and the keyword arguments, not on earlier fits: it is the combination of the co-moments that a new dicomo object with the same settings gives. So a second fit to the same data returns the same value.", "quantifier": "all settings, all data, all sequences of fits, successful or not", "why_tests_cant": "all histories of an object; ppdire evaluates the same object for every direction", "anchors": ["src/direpack/ppdire/capi.py:capi.fit", "src/direpack/dicomo/dicomo.py:dicomo.fit"]}
{"id": "C156", "title": "Cases without information do not change a SNIPLS model with missing data", "statement": "On complete data the computations for missing cells give the same model as the ordinary ones. A case that has neither predictors nor a response has no influence on the model; cases that have no response do not change the relation that is fitted to the other ones when they have the same predictors.", "quantifier": "all data sets with any pattern of missing cells, all parameters", "why_tests_cant": "all patterns of missing cells; no test fits a model to incomplete data and to the same data without the empty cases", "anchors": ["src/direpack/sprm/snipls.py:snipls.fit", "src/direpack/utils/utils.py:nandot", "src/direpack/utils/utils.py:nanmatdot"]}
{"id": "C157", "title": "With missing cells the origin of the predictors does not matter to SNIPLS", "statement": "With centring, constants added to the predictors change neither the components, the coefficients nor the fitted values of snipls, also when cells are missing.", "quantifier": "all data sets, all patterns of missing cells, all constants, centres mean and median, all scales", "why_tests_cant": "all data and all shifts", "anchors": ["src/direpack/sprm/snipls.py:snipls.fit"]}
{"id": "C158", "title": "Predictions for the training cases are the fitted values, also with missing cells", "statement": "A fitted snipls model predicts for each case of the training data its fitted value, also when the data have missing cells.", "quantifier": "all data sets, all patterns of missing cells, all parameters", "why_tests_cant": "all patterns of missing cells", "anchors": ["src/direpack/sprm/snipls.py:snipls.fit", "src/direpack/sprm/snipls.py:snipls.predict"]}
{"id": "C159", "title": "return_scaling_object has no influence on the results of sudire", "statement": "The argument return_scaling_object of sudire, true by default, only decides whether the scaling object is kept: whether a fit works, its results and the state of the object do not depend on it.", "quantifier": "all data, all other arguments, all solvers, all earlier states of the object", "why_tests_cant": "all combinations of arguments and all data", "anchors": ["src/direpack/sudire/sudire.py:sudire.fit"]}
{"id": "C160", "title": "SNIPLS without sparsity is partial least squares, and gives a model exactly as long as there are components", "statement": "With eta=0 the weights of the h components of a snipls model span the space generated by s, S s, ..., S^(h-1) s (S and s: cross products of the standardised predictors with each other and with the response); the scaled coefficients are the least squares solution within that space. fit gives a model exactly when h is at most the dimension of the space that all S^m s generate, or no predictor is correlated with the response; with uncorrelated predictors this allows a single component.", "quantifier": "all data sets, all numbers of components, all centring and scaling functions", "why_tests_cant": "an optimality claim and an exact condition for success, for all data", "anchors": ["src/direpack/sprm/snipls.py:snipls.fit"]}
{"id": "C161", "title": "Case weights are those of the residuals of the published model", "statement": "The case weights that rm and sprm publish for the response are the weight function at the size of each case's residual (residuals_), relative to 1.4826 times the median absolute residual; cases whose total weight is below one millionth get zero.", "quantifier": "all data, all parameters, all weight functions and cutoffs, all numbers of iterations", "why_tests_cant": "all data and all iteration histories; tests only look at coefficients for one data set", "anchors": ["src/direpack/sprm/rm.py:rm.fit", "src/direpack/sprm/sprm.py:sprm.fit"]}
{"id": "C162", "title": "The published case weights and coefficients of the robust regressions belong to one fit", "statement": "The coefficients of rm (and of sprm) are those of the weighted fit with the published case weights (zeros counted as one millionth). Raising maxit by one either changes nothing or gives the fit with the case weights published before; a model that needed fewer fits than maxit allows is the model for every maxit that allows as many; a fit that works also works with every smaller maxit from two on.", "quantifier": "all data, all parameters, all iteration limits, all weight functions and cutoffs", "why_tests_cant": "a relation between runs with different iteration limits, for all data", "anchors": ["src/direpack/sprm/rm.py:rm.fit", "src/direpack/sprm/sprm.py:sprm.fit"]}
{"id": "C163", "title": "Distance covariance is zero exactly for independent data", "statement": "With est='distance', no trimming and no bias correction, the distance covariance of two data sets is zero exactly if their values are independent in the data, that is, if every pair of values occurs as often as the frequencies of its members say (as in a full factorial design); the same holds for the distance correlation of data that are not constant. The ordinary covariance and correlation are zero for independent data, but not only for those.", "quantifier": "all data sets of any number of cases and variables, both algorithms (fast and naive)", "why_tests_cant": "an equivalence over all real data: no sample shows that dependence of every kind is detected", "anchors": ["src/direpack/dicomo/dicomo.py:dicomo.fit", "src/direpack/dicomo/_dicomo_utils.py:distance_matrix_centered", "src/direpack/dicomo/_dicomo_utils.py:distance_moment"]}
{"id": "C164", "title": "The martingale difference divergence is zero exactly if the mean of the response does not depend on the predictors", "statement": "difference_divergence and dicomo with mode='mdd', without trimming and bias correction, are zero exactly if the mean of the response over the cases with any given value of the predictors is its mean over all cases. So they are zero for independent data, and for a response that is a function of the predictors only if it is constant.", "quantifier": "all data with a univariate response, any number of cases and predictors", "why_tests_cant": "an equivalence over all real data", "anchors": ["src/direpack/dicomo/dicomo.py:dicomo.fit", "src/direpack/dicomo/_dicomo_utils.py:difference_divergence"]}
{"id": "C165", "title": "Entering every case several times changes no estimate", "statement": "A data set in which every case is repeated equally often gives the SNIPLS fit of the original data: the same coefficients, intercept, components, locations, scales and predictions, the same fitted values and residuals for each copy, and it can be fitted exactly if the original can. The same holds for rm and sprm with their case weights. Every dicomo statistic without trimming and bias correction, arithmetic or based on distances, has the same value; with bias correction it has not.", "quantifier": "all data, any number of repetitions, any order of the copies, all parameters", "why_tests_cant": "all data sets and all numbers of repetitions", "anchors": ["src/direpack/sprm/snipls.py:snipls.fit", "src/direpack/sprm/rm.py:rm.fit", "src/direpack/sprm/sprm.py:sprm.fit", "src/direpack/dicomo/dicomo.py:dicomo.fit"]}
{"id": "C166", "title": "The choice of the axes does not matter for dense fits", "statement": "If the predictors are expressed in rotated or reflected axes, then generalised spatial signs, the mean, the spatial median and the least trimmed squares location are rotated in the same way. snipls without sparsity, rm and sprm without sparsity, unscaled and with a centre that follows the rotation, fit the same model: rotated coefficients and the same intercept, fitted values, residuals, scores, case weights and predictions, or the same exception.", "quantifier": "all rotations and reflections, all data, any number of cases, variables and components, all weight functions", "why_tests_cant": "a relation between fits for all rotations and all data", "anchors": ["src/direpack/sprm/snipls.py:snipls.fit", "src/direpack/sprm/rm.py:rm.fit", "src/direpack/sprm/sprm.py:sprm.fit", "src/direpack/preprocessing/gsspp.py:GenSpatialSignPreProcessor", "src/direpack/preprocessing/_preproc_utilities.py:kstepLTS"]}
{"id": "C167", "title": "The spatial median is one point that moves with the data", "statement": "Every data set has a point with the smallest sum of distances to the cases; unless the cases lie on one line there is only one, and it is a mixture of the cases. A point is such a point exactly if the gradient used by the optimiser is there at most as long as the number of cases at the point. With an optimiser that finds it, started at the medians or at any point given as x0, l1median follows every change of origin, unit, axes and order of the cases, and the k-step LTS location every change of origin, unit and order.", "quantifier": "all data sets, any number of cases and columns, all changes of coordinates", "why_tests_cant": "existence, uniqueness and equivariance are statements about all points of space and all data", "anchors": ["src/direpack/preprocessing/_preproc_utilities.py:l1median", "src/direpack/preprocessing/_preproc_utilities.py:_l1m_jacobian", "src/direpack/preprocessing/_preproc_utilities.py:kstepLTS"]}
{"id": "C168", "title": "Standardising standardised data changes nothing", "statement": "fit_transform of VersatileScaler (and versatile_scale) applied to its own result returns that result, for every location and scale estimator that can be named.", "quantifier": "all data matrices with at least two cases, all trimming fractions, the estimators mean, median, l1median, std and mad", "why_tests_cant": "a statement about the composition of two fits on all real data", "anchors": ["src/direpack/preprocessing/robcent.py:VersatileScaler", "src/direpack/preprocessing/robcent.py:versatile_scale", "src/direpack/preprocessing/_preproc_utilities.py:l1median"]}
{"id": "C169", "title": "A constant predictor carries no information", "statement": "Adding predictors that take the same value for all cases changes no fit: snipls and rm give the same coefficients for the other predictors, coefficient zero for the constant ones, and the same intercept, scores, fitted values, residuals, case weights and predictions; every dicomo statistic of distances has the same value; generalised spatial signs keep the data and give zero for the constant columns; the spatial median of the larger table is the one of the smaller with the constants added.", "quantifier": "all data, any number of constant predictors at any position with any values, all new cases", "why_tests_cant": "a relation between fits for all data and all sets of added columns", "anchors": ["src/direpack/sprm/snipls.py:snipls.fit", "src/direpack/sprm/rm.py:rm.fit", "src/direpack/dicomo/dicomo.py:dicomo.fit", "src/direpack/preprocessing/gsspp.py:GenSpatialSignPreProcessor", "src/direpack/preprocessing/_preproc_utilities.py:l1median"]}
{"id": "C170", "title": "What the value of CAPI does not depend on", "statement": "The value of capi.fit does not depend on the order of the cases, on entering every case equally often several times (without trimming and bias correction), on the origins of the two variables and, with scaling=True, on their units of measurement; with est='distance' not on the axes either.", "quantifier": "all data, all orders, numbers of repetitions, shifts and units, all degrees, weights and options 1..k, objects with any history", "why_tests_cant": "a relation between fits for all data", "anchors": ["src/direpack/ppdire/capi.py:capi.fit", "src/direpack/dicomo/dicomo.py:dicomo.fit"]}
{"id": "C171", "title": "The arguments given to ppdire.fit reach the projection index", "statement": "With a dicomo projection index, the quantity that ppdire optimises is the dicomo statistic with the mode, estimator and centre of pi_arguments (or the defaults of dicomo), the trimming and alpha of the object, and the biascorr, option, order and dmetric given to fit.", "quantifier": "all scores and responses, all modes, all values of the keywords", "why_tests_cant": "a statement about all data and all combinations of keywords", "anchors": ["src/direpack/ppdire/ppdire.py:ppdire.fit", "src/direpack/dicomo/dicomo.py:dicomo.fit"]}
{"id": "C172", "title": "Regression equivariance: adding a known linear effect to the response adds it to the fit", "statement": "If a linear function of the predictors and a constant is added to the response, the fitted values change by exactly this function and the residuals stay the same, so that a known effect can be subtracted before the fit.", "quantifier": "all predictor matrices and responses, all linear functions, all settings for which both fits give a model", "why_tests_cant": "a relation between two fits for all data and all linear functions", "anchors": ["src/direpack/sprm/snipls.py:snipls.fit", "src/direpack/sprm/rm.py:rm.fit"]}
{"id": "C173", "title": "Trimming protects the statistics of dicomo against outliers", "statement": "With trimming fraction t, the moment, variance, co-moment and covariance returned by dicomo stay within bounds that depend only on the settings and on the clean cases, whatever values up to int(t*n) of the cases take; with center='median' this holds for any minority of arbitrary cases. The trimmed mean lies in the range of the clean cases and the trimmed variance is at most the square of its width. The distance statistics promise the same; they keep it as long as the pairs that involve an outlier are no more than int(t*n^2).", "quantifier": "every sample size, data set, trimming fraction, order, option and bias correction setting, and every replacement of the outlying cases by arbitrary numbers", "why_tests_cant": "a test can move an outlier to a few places; the bound must hold for all values and all subsets of outlying cases", "anchors": ["src/direpack/dicomo/dicomo.py:dicomo.fit", "src/direpack/dicomo/_dicomo_utils.py:trim_mom", "src/direpack/dicomo/_dicomo_utils.py:distance_matrix_centered", "src/direpack/dicomo/_dicomo_utils.py:distance_moment"]}
{"id": "C174", "title": "SAVE does not overlook what SIR finds", "statement": "A user of sudire chooses 'save' because it finds at least the directions that 'sir' finds: in a direction in which sliced average variance estimation sees nothing, the means of the slices must not differ. For scaled data and slices that cover all cases the variation between the slices in any direction of unit variance is at most (s-1)/n plus the square root of the SAVE criterion, s the number of slices.", "quantifier": "every data set, response (continuous or discrete), number of slices, number of directions and direction", "why_tests_cant": "an inequality between two criteria over all directions and data sets; test data show neither its constant nor that it is attained", "anchors": ["src/direpack/sudire/_sudire_utils.py:SAVE", "src/direpack/sudire/_sudire_utils.py:SIR", "src/direpack/sudire/sudire.py:sudire.fit"]}
{"id": "C175", "title": "The grid search of ppdire comes close to the best direction", "statement": "With ndir directions no direction of a plane is farther than pi/(2*ndir) from one that is tried. For the variance, and for the squared covariance with a response, the search of a plane therefore reaches at least the share cos^2(pi/(2*ndir)) of the largest value over all directions. A user takes the grid optimiser to give that accuracy for any number of variables.", "quantifier": "every data set with any number of cases and variables, every response, number of directions and number of iterations", "why_tests_cant": "a comparison with the best of infinitely many directions, for all data", "anchors": ["src/direpack/ppdire/_ppdire_utils.py:gridplane", "src/direpack/ppdire/_ppdire_utils.py:gridplane_2", "src/direpack/ppdire/ppdire.py:ppdire.fit"]}
{"id": "C176", "title": "Directional regression does not overlook what SIR finds", "statement": "The directions that sudire with method 'dr' returns maximise, one after another, the kernel of directional regression (Li and Wang 2007) computed from the slices. For scaled and centred data and slices that cover all cases its value in a direction of unit variance is never negative and at least twice the square of the variation between the slice means, which SIR maximises; so the first direction returned has at least this value for every direction that SIR could have found.", "quantifier": "every data set, response (continuous or discrete), number of slices, number of directions and direction", "why_tests_cant": "an inequality between two criteria over all directions and data sets", "anchors": ["src/direpack/sudire/_sudire_utils.py:DR", "src/direpack/sudire/_sudire_utils.py:SIR", "src/direpack/sudire/sudire.py:sudire.fit"]}
{"id": "C177", "title": "Variables with the same content are treated alike", "statement": "If a table holds the same quantity twice, perhaps in different units (column j' equals a times column j plus b), neither copy is preferred: both enter the model or neither does, and the coefficients are those of one variable in the two units, coef_[j] = a * coef_[j']. The same is expected of the weights of the directions of ppdire.", "quantifier": "every data set with any number of cases and variables, every pair of variables with the same content, every change of units, every setting of the estimators with the usual location and scale", "why_tests_cant": "a statement about all data sets with a repeated variable; which copy a search prefers depends on the data and on the grid", "anchors": ["src/direpack/sprm/snipls.py:snipls.fit", "src/direpack/sprm/rm.py:rm.fit", "src/direpack/sprm/sprm.py:sprm.fit", "src/direpack/ppdire/_ppdire_utils.py:gridplane", "src/direpack/ppdire/_ppdire_utils.py:gridplane_2", "src/direpack/ppdire/ppdire.py:ppdire.fit"]}
{"id": "C178", "title": "Residuals are centred by the location asked for", "statement": "The intercept of a fitted model takes up the typical size of what the predictors leave: with center='mean' the residuals sum to zero and the prediction at the reported centre x_loc_ is the reported centre y_loc_ of the response; with 'median' or another robust centre the median of the residuals is zero; with a trimmed mean (ppdire) their trimmed mean is zero. With center='None' there is no intercept: the prediction for a case of zeros is zero.", "quantifier": "every data set with any number of cases and variables and every setting of SNIPLS, SPRM, robust M regression and ppdire (without compression), every optimiser, projection index and inner regression of ppdire", "why_tests_cant": "an identity for all data sets and settings; tests compare a few fits up to rounding", "anchors": ["src/direpack/sprm/snipls.py:snipls.fit", "src/direpack/sprm/snipls.py:snipls.predict", "src/direpack/sprm/rm.py:rm.fit", "src/direpack/sprm/rm.py:rm.predict", "src/direpack/sprm/sprm.py:sprm.fit", "src/direpack/sprm/sprm.py:sprm.predict", "src/direpack/ppdire/ppdire.py:ppdire.fit", "src/direpack/ppdire/ppdire.py:ppdire.predict"]}
{"id": "C179", "title": "Uncorrelated predictors carry no information", "statement": "Adding to the table predictors that have zero sample covariance with the response and with every predictor already there does not change a SNIPLS model: a model is found in exactly the same cases, the added predictors are never retained and get coefficient zero, and the other coefficients, the intercept, scores, fitted values, residuals and predictions are the same.", "quantifier": "every data set with any number of cases and predictors, every number of added predictors in any position (correlated with one another or not), every sparsity parameter, number of components, and location and scale setting", "why_tests_cant": "a statement about all tables that contain such predictors and about every component of the iteration", "anchors": ["src/direpack/sprm/snipls.py:snipls.fit", "src/direpack/sprm/snipls.py:snipls.predict"]}
{"id": "C180", "title": "Bias correction removes the bias", "statement": "With biascorr=True the squared distance covariance and the squared martingale difference divergence do not depend on the number of cases by themselves: averaged over all subsamples of any size from four up they equal the value for all the data (so they estimate the value of a population without bias), and averaged over all ways to pair the responses with the predictors they are zero, as for variables without relation. A user expects the same of the square of the number that dicomo returns.", "quantifier": "every data set with any number of cases and variables, every subsample size from four up, all pairings of the responses with the predictors, the fast and the naive algorithm", "why_tests_cant": "an average over all subsamples or all n! pairings for every data set; tests look at single values", "anchors": ["src/direpack/dicomo/_dicomo_utils.py:difference_divergence", "src/direpack/dicomo/_dicomo_utils.py:double_center_flex", "src/direpack/dicomo/_dicomo_utils.py:U_inner", "src/direpack/dicomo/_dicomo_utils.py:distance_moment", "src/direpack/dicomo/dicomo.py:dicomo.fit"]}
{"id": "C181", "title": "A sparse model is the model of the variables it retains", "statement": "The variables that a sparse SNIPLS model does not list as retained can be dropped: fitting again with any table that contains the retained variables (and any of the others) succeeds and gives the same retained variables, coefficients, intercept, fitted values, residuals and predictions, and the same scores up to a positive factor for each component. Predictions and scores of new cases do not depend on the values of the variables that were not retained.", "quantifier": "every data set with any number of cases and variables, every sparsity parameter and number of components, every location and scale computed column by column, every choice of discarded variables to drop, all new cases", "why_tests_cant": "a comparison of two fits for all data sets and all subsets of the discarded variables", "anchors": ["src/direpack/sprm/snipls.py:snipls.fit", "src/direpack/sprm/snipls.py:snipls.predict", "src/direpack/sprm/snipls.py:snipls.transform"]}
{"id": "C182", "title": "Sliced inverse regression is discriminant analysis of the slices", "statement": "For a class label as response SIR finds the discriminant directions: for centred and scaled data the directions that sudire(method='sir') returns maximise, one after another, Fisher's criterion, the ratio of the sum of squares of the scores between the groups to that within the groups, among all directions with scores uncorrelated with those of the directions before. The same holds for a continuous response and its slices.", "quantifier": "every data set with any number of cases and variables, every response whose values or slices cover all cases (any number of groups), every number of directions, and every competing direction", "why_tests_cant": "an optimum over all directions for every data set; a test compares with a few directions", "anchors": ["src/direpack/sudire/_sudire_utils.py:SIR", "src/direpack/sudire/sudire.py:sudire.fit"]}
{"id": "C183", "title": "PLS coefficients grow with the number of components and stay below least squares", "statement": "PLS is a shrinkage method. Without sparsity (eta=0), a SNIPLS model with fewer components has a strictly shorter vector of scaled regression coefficients (unless no predictor is correlated with the response and all coefficients vanish), and for every number of components this vector is at most as long as that of every least squares solution for the standardised data.", "quantifier": "every data set of any size, every centring and scaling option, every pair of numbers of components for which a model exists, and every least squares solution", "why_tests_cant": "an inequality for every data set and every number of components; a test computes it for a few", "anchors": ["src/direpack/sprm/snipls.py:snipls.fit"]}
{"id": "C184", "title": "Sliced inverse regression finds the space of the slice means", "statement": "With s slices (or classes) that cover all cases, SIR on centred data has at most s-1 informative directions: the scores of all further directions have the same mean in all slices. If at least s-1 directions are asked for nothing is lost: in every direction orthogonal to them (uncorrelated with them, for scaled data) all slices have the same mean. Nothing is added either: an informative direction, multiplied with the covariance matrix when the data are scaled, is a combination of the deviations of the slice means from the overall mean; for two classes it is the classical discriminant direction.", "quantifier": "every data set of any size, every number of slices and classes, continuous and discrete responses, every number of directions, data scaled or not", "why_tests_cant": "a statement about all directions and all numbers of slices; a test sees the directions of a few data sets", "anchors": ["src/direpack/sudire/_sudire_utils.py:SIR", "src/direpack/sudire/sudire.py:sudire.fit"]}
{"id": "C185", "title": "Projection pursuit with the correlation is least squares", "statement": "ppdire with the correlation as projection index (dicomo mode 'corr'), least squares as regression, mean centring without trimming and an optimiser that finds the direction of largest correlation is ordinary least squares: already with one component, and with any number, no linear function of the predictors with any intercept fits the response better than the fitted values.", "quantifier": "every data set of any size with at least two cases, scaled or not, every number of components, every optimiser that is exact for the first direction, and every competing linear function", "why_tests_cant": "an optimum over all linear functions for every data set; a test compares with a few", "anchors": ["src/direpack/ppdire/ppdire.py:ppdire.fit", "src/direpack/dicomo/dicomo.py:dicomo.fit"]}
{"id": "C186", "title": "Scores and loadings reproduce the predictors", "statement": "The loadings say what the components explain of every predictor: of all linear combinations of the scores the one with the loadings as coefficients approximates each standardised predictor best, the sum of squares of a predictor is the sum over the components of squared loading times score sum of squares plus what is left over, the number of components is never larger than the rank of the standardised predictors, and with as many components as this rank the scores times the transposed loadings are exactly the standardised predictors.", "quantifier": "every data set of any size, every projection index, every option, every number of components and every competing combination; ppdire with one and two blocks, SNIPLS", "why_tests_cant": "best approximation and exact reconstruction are claims about all combinations and all data; SNIPLS breaks them only for a predictor that enters after the first component", "anchors": ["src/direpack/ppdire/ppdire.py:ppdire.fit", "src/direpack/sprm/snipls.py:snipls.fit"]}
{"id": "C187", "title": "With all components every method is ordinary least squares", "statement": "ppdire (least squares, mean centring, no trimming) with as many components as the rank of the predictors, sudire with as many directions as predictors and SNIPLS (mean centring) with at least as many components as the rank all have the same fitted values: those of ordinary least squares regression with intercept, whatever the projection index, the optimiser, the reduction method or the sparsity.", "quantifier": "every data set of any size for which the model exists, every projection index, optimiser and reduction method, every competing linear function", "why_tests_cant": "an optimum over all linear functions and for all methods and data sets", "anchors": ["src/direpack/ppdire/ppdire.py:ppdire.fit", "src/direpack/sudire/sudire.py:sudire.fit,sudire.predict", "src/direpack/sprm/snipls.py:snipls.fit"]}
{"id": "C188", "title": "Principal components reproduce the predictors as well as any scores and loadings can", "statement": "ppdire.fit with the variance as index, mean centring, no trimming and an optimiser that solves the sphere-constrained problem exactly: among all matrices of scores and loadings with as many components, none leaves a smaller sum of squares of the standardised predictors than x_scores_ and x_loadings_; the total sum of squares of the scores is the largest that orthonormal directions can have jointly, not only one after the other; and a model with n_components components exists exactly if n_components is at most the rank of the standardised predictors.", "quantifier": "all data matrices, numbers of components, scale_data settings, competing scores and loadings, competing orthonormal directions", "why_tests_cant": "Sequential maximisation is not the same as joint optimality; a test compares with one SVD on one data set, the claim is about every competing matrix of low rank.", "anchors": ["src/direpack/ppdire/ppdire.py:ppdire.fit", "src/direpack/dicomo/dicomo.py:dicomo.fit"]}
{"id": "C189", "title": "The directions of SIR, SAVE, directional regression and PHD are jointly best", "statement": "The directions returned by SIR, SAVE and PHD are orthonormal in the metric (the covariance of the predictors if scaled, else the identity) and no other orthonormal system of as many directions has a larger total of the criterion of the method (variation between slices; squared deviation of the slice covariances; curvature of the response). The same holds for directional regression if the average second moment of the slices equals the metric.", "quantifier": "all data, numbers of slices and directions, continuous and categorical responses, centred or not, scaled or not, all competing orthonormal systems", "why_tests_cant": "Tests look at single directions on simulated data; joint optimality is a statement about all systems of directions.", "anchors": ["src/direpack/sudire/_sudire_utils.py:SIR,SAVE,DR,PHD", "src/direpack/sudire/sudire.py:sudire.fit"]}
{"id": "C190", "title": "On the training data the coefficient of determination is a share and a squared correlation", "statement": "For ppdire with least squares (mean centring, no trimming), SNIPLS (mean centring) and sudire the fitted values have the same mean as the response, and the variation of the response about its mean is the variation of the fitted values plus the residual sum of squares. So the score on the training data (coefficient of determination) lies between 0 and 1; it is the squared correlation of fitted values and response, and 0 if the fitted values are constant.", "quantifier": "every data set of any size with a response that is not constant, every projection index, optimiser, reduction method, sparsity parameter and number of components", "why_tests_cant": "an identity between sums of squares for every model and data set; a test sees single values in floating point", "anchors": ["src/direpack/ppdire/ppdire.py:ppdire.fit", "src/direpack/sprm/snipls.py:snipls.fit", "src/direpack/sudire/sudire.py:sudire.fit,sudire.predict"]}
{"id": "C191", "title": "Wrapped data resist any minority of outliers and do not depend on order or history", "statement": "Wrapper().fit_transform(X) does not depend on earlier calls on the same object, permutes with the cases and with the variables, and treats every variable on its own. In every column, whatever values a minority of the cases take, the wrapped values stay within a bound that depends on the other cases only, and a value far enough out is replaced by the median of its column. The result is a number wherever the entry is a number.", "quantifier": "all data matrices of any size, all earlier uses of the object, all permutations, all contaminated entries of a minority of the cases of a column", "why_tests_cant": "the contamination is arbitrary, so no finite set of outliers settles it; a column whose majority is tied has zero scale", "anchors": ["src/direpack/preprocessing/robcent.py:Wrapper.fit,Wrapper.transform,Wrapper.fit_transform", "src/direpack/preprocessing/_preproc_utilities.py:wrap,wrap_univ"]}
{"id": "C192", "title": "A call of fit that fails does not damage the model", "statement": "If fit of an already fitted snipls, rm or sprm object raises an exception (wrong parameters, a response of another length, too few variables left), the object goes on answering predict and transform for every input as before the call, after any number of such failures.", "quantifier": "all fitted objects, all finite histories of failing refits with any parameters and data, all new data", "why_tests_cant": "the claim is about every point at which fit can stop and every sequence of failing calls; tests exercise successful fits", "anchors": ["src/direpack/sprm/snipls.py:snipls.fit,snipls.predict,snipls.transform", "src/direpack/sprm/rm.py:rm.fit,rm.predict", "src/direpack/sprm/sprm.py:sprm.fit,sprm.predict,sprm.transform"]}
{"id": "C193", "title": "Locations and scales do not move faster than the data", "statement": "If no entry of the data changes by more than eps (rounding, measurement error), the means, trimmed means and medians published by VersatileScaler change by at most eps, the standard deviations (trimmed or not) by at most 2 eps and the MADs by at most 2 eps/0.6745; a standardised value z changes by at most (2 + 3|z|) eps divided by the scale of its variable.", "quantifier": "all data of any size and shape, all perturbations, all admissible trimming fractions, center in {mean, median, None}, scale in {std, mad, None}", "why_tests_cant": "a bound for every perturbation of every data set; tests perturb single data sets", "anchors": ["src/direpack/preprocessing/robcent.py:VersatileScaler.fit,VersatileScaler.transform", "src/direpack/preprocessing/_preproc_utilities.py:mean,median,std,mad,scale_data"]}
{"id": "C194", "title": "Case weights change gradually", "statement": "A small change of a residual or distance changes its Fair, Huber or Hampel weight by at most a constant times the change (one over the cutoff for Fair and Huber, one over the first cutoff plus one over the distance of the other two for Hampel): there is no jump at a cutoff.", "quantifier": "all distances, all cutoffs, any number of cases", "why_tests_cant": "continuity at every point and for every cutoff; a jump lies between the points that a test evaluates", "anchors": ["src/direpack/sprm/_m_support_functions.py:Fair,Huber,Hampel"]}
{"id": "C195", "title": "Co-moments and measures of dependence move gradually with the data", "statement": "If no observation of x moves by more than eps and none of y by more than eps', then without trimming the standard deviation moves by at most eps, the covariance by at most eps sd(y) + eps' sd(x), the correlation by at most 2 eps/sd(x) + 2 eps'/sd(y), the distance variance by at most 2 eps, the squared distance covariance by at most 2 eps dvar(y) + 2 eps' dvar(x), the squared distance correlation by at most 4 eps/dvar(x) + 4 eps'/dvar(y), and the squared martingale difference divergence by at most 2 eps var(y) + eps' (sd(y) + sd(y')) dvar(x), whether computed by the fast or the naive algorithm.", "quantifier": "all data of any size and dimension, all perturbations of both data sets, mean centring, no trimming", "why_tests_cant": "a bound for every perturbation of every pair of data sets; tests perturb single data sets", "anchors": ["src/direpack/dicomo/dicomo.py:dicomo.fit", "src/direpack/dicomo/_dicomo_utils.py:trim_mom,distance_moment,distance_matrix_centered,difference_divergence"]}
{"id": "C196", "title": "Standardising beforehand gives the model that standardises itself", "statement": "Fitting snipls with centre and scale 'None', or ppdire with center_data=False, to data that have been standardised beforehand with the locations and scales that the estimator would have used gives the same components and the same scaled coefficients as letting the estimator standardise; predictions for new cases standardised in the same way are, put back into the original units of the response, the same predictions.", "quantifier": "all data, all locations and scales (snipls), mean, trimmed mean or median with or without scaling, any optimiser and index, least squares or robust regression (ppdire), all new cases", "why_tests_cant": "equality of two pipelines for all data, options and new cases; tests compare single data sets", "anchors": ["src/direpack/sprm/snipls.py:snipls.fit,snipls.predict", "src/direpack/ppdire/ppdire.py:ppdire.fit,ppdire.predict", "src/direpack/preprocessing/robcent.py:VersatileScaler"]}
{"id": "C197", "title": "With all components the fitted values follow the responses linearly and steadily", "statement": "For snipls, ppdire with least squares and sudire with all components, fitted to the same predictors: the fitted values of two sets of responses differ (as a sum of squares) no more than the responses; if only one response is changed, the fitted value of that case moves in the same direction by a share between 0 and 1 of the change; the fitted values of a combination c y + d y' are c times those of y plus d times those of y'; and fitting to the fitted values gives the fitted values.", "quantifier": "all predictors, all pairs of responses, all changes of one response, all projection indices, optimisers, sparsity parameters and sufficient dimension reduction methods", "why_tests_cant": "linearity and contraction for all pairs of responses and of search results; tests fit single responses", "anchors": ["src/direpack/sprm/snipls.py:snipls.fit", "src/direpack/ppdire/ppdire.py:ppdire.fit", "src/direpack/sudire/sudire.py:sudire.fit,sudire.predict"]}
{"id": "C198", "title": "With all components no case is fitted worse than it is predicted without it", "statement": "For snipls, ppdire with least squares and sudire with all components: the fitted value of every case lies between its response and the value that predict of the model fitted without that case gives for it. So the residual of a case in the full fit is never larger than its leave-one-out residual, and the training error never exceeds the leave-one-out cross-validation error. A case whose response is exactly what the model without it predicts leaves the fitted function unchanged.", "quantifier": "all data, all left out cases, all projection indices, optimisers, sparsity parameters and sufficient dimension reduction methods", "why_tests_cant": "a relation between n+1 fits for all data; tests fit single data sets", "anchors": ["src/direpack/sprm/snipls.py:snipls.fit,snipls.predict", "src/direpack/ppdire/ppdire.py:ppdire.fit,ppdire.predict", "src/direpack/sudire/sudire.py:sudire.fit,sudire.predict"]}
{"id": "C199", "title": "The different locations and scales of the same data stay close to each other", "statement": "Choosing another location or scale does not take one to a different place: the mean and the median of a variable differ by at most its standard deviation, the scaled median absolute deviation is at most 2/0.674 times the standard deviation, and the spatial median is no further from the means than the root of the total variance. In data standardised with mean and standard deviation the median of every variable lies between -1 and 1.", "quantifier": "all data with at least one case, any number of variables; for the spatial median any optimiser that finds a minimum", "why_tests_cant": "inequalities between estimates for all data; tests compare single data sets", "anchors": ["src/direpack/preprocessing/robcent.py:VersatileScaler.fit", "src/direpack/preprocessing/_preproc_utilities.py:mean,median,std,mad,l1median"]}
{"id": "C200", "title": "Partial least squares fits at least as closely as principal component regression", "statement": "For the same data, the same standardisation and the same number of components, the residual sum of squares of snipls without sparsity (eta=0) is at most that of every linear regression, with any intercept and coefficients, on the scores that ppdire with the variance as projection index (principal component analysis) gives, and at most that of ppdire with the variance as index fitted to the same response, whatever regression it uses for the scores: choosing the components with regard to the response never costs fit.", "quantifier": "all data, any number of components that both estimators can extract, any intercept and coefficients of the regression on the principal components, data scaled by the standard deviations or not scaled, any optimiser that finds a best direction", "why_tests_cant": "an inequality between two models for all data, numbers of components and coefficients; tests fit single data sets", "anchors": ["src/direpack/sprm/snipls.py:snipls.fit", "src/direpack/ppdire/ppdire.py:ppdire.fit", "src/direpack/dicomo/dicomo.py:dicomo.fit"]}
