{"id": "C01", "title": "A batch enumerates its design variables completely and without repetition", "statement": "After any history of calls on an OptimizationProblem, designVariable(i) for i = 0 .. numDesignVariables()-1 succeeds and enumerates every added design variable exactly once, group after group in getGroupsOrdering() order; i >= numDesignVariables() throws. isDesignVariableInProblem/getGroupId agree with that enumeration.", "quantifier": "every finite sequence of public operations (accepted or rejected) on a batch and every index", "why_tests_cant": "A unit test visits a handful of histories; the claim needs an invariant over all operation sequences linking four redundant containers.", "anchors": ["incremental_calibration/src/core/OptimizationProblem.cpp", "OptimizationProblem::addDesignVariable", "OptimizationProblem::designVariableImplementation", "OptimizationProblem::getGroupId"]}
{"id": "C02", "title": "A batch never holds an error term over a foreign design variable, nor the same error term twice", "statement": "After any history, every error term stored in a batch depends only on design variables of that batch, error terms are pairwise distinct, numErrorTerms() is the number of accepted error terms, and errorTerm(i) succeeds exactly for i < numErrorTerms().", "quantifier": "every finite operation sequence, every index", "why_tests_cant": "Depends on two containers (set and vector) staying in step for every history including rejected calls and permutations.", "anchors": ["incremental_calibration/src/core/OptimizationProblem.cpp", "OptimizationProblem::addErrorTerm", "OptimizationProblem::errorTermImplementation"]}
{"id": "C03", "title": "A rejected call leaves a batch untouched", "statement": "If addDesignVariable, addErrorTerm, setGroupsOrdering or permuteDesignVariables/permuteErrorTerms throws, the batch is exactly as before the call.", "quantifier": "every reachable batch state and every argument that makes the call throw", "why_tests_cant": "All combinations of states and bad arguments cannot be sampled; the permutation entry points are in fact not strongly exception safe.", "anchors": ["incremental_calibration/src/core/OptimizationProblem.cpp", "incremental_calibration/include/aslam/calibration/algorithms/permute.tpp"]}
{"id": "C04", "title": "setGroupsOrdering accepts exactly the reorderings of the present groups", "statement": "setGroupsOrdering(o) succeeds iff o is a permutation of the current groups ordering; on success getGroupsOrdering() = o, and the set of design variables, their groups and the order inside each group are unchanged.", "quantifier": "every reachable batch / incremental problem and every vector of group ids", "why_tests_cant": "Needs equivalence of three run-time checks with being a permutation, for all vectors.", "anchors": ["incremental_calibration/src/core/OptimizationProblem.cpp", "incremental_calibration/src/core/IncrementalOptimizationProblem.cpp", "setGroupsOrdering"]}
{"id": "C05", "title": "Group dimensions partition the Jacobian columns", "statement": "The sum of getGroupDim(g) over getGroupsOrdering() equals the sum of minimalDimensions() of the active design variables enumerated by designVariable(i); inactive variables contribute nothing; unknown groups throw.", "quantifier": "every reachable state, every activity flag assignment and every dimension", "why_tests_cant": "Quantifies over all activity patterns and group structures.", "anchors": ["incremental_calibration/src/core/OptimizationProblem.cpp", "incremental_calibration/src/core/IncrementalOptimizationProblem.cpp", "getGroupDim"]}
{"id": "C06", "title": "save/restore of design variables is an exact snapshot", "statement": "After saveDesignVariables(), any change of values, then restoreDesignVariables(), every design variable that was in the problem at save time has its saved value, every other variable keeps its current value, independent of the hash-map iteration order.", "quantifier": "every reachable batch state, every interleaved value change, every iteration order", "why_tests_cant": "unordered_map iteration order and interleaved updates cannot be enumerated.", "anchors": ["incremental_calibration/src/core/OptimizationProblem.cpp", "OptimizationProblem::saveDesignVariables", "OptimizationProblem::restoreDesignVariables"]}
{"id": "C07", "title": "permute applies the requested permutation", "statement": "For every container and every index vector that is a permutation of 0..n-1, permute terminates normally and element i afterwards is the element that was at permutation[i].", "quantifier": "all container sizes, contents and all permutations", "why_tests_cant": "The in-place cycle-chasing loop has to be right for n! permutations of every n.", "anchors": ["incremental_calibration/include/aslam/calibration/algorithms/permute.tpp", "permute"]}
{"id": "C08", "title": "permute never loses or duplicates an element", "statement": "Whatever index vector is passed (valid, out of range, non-injective), if permute returns or throws, the container holds exactly the same multiset of elements as before.", "quantifier": "all containers and all index vectors", "why_tests_cant": "Arbitrary bad inputs.", "anchors": ["incremental_calibration/include/aslam/calibration/algorithms/permute.tpp", "permute"]}
{"id": "C09", "title": "permute rejects or survives every invalid permutation vector", "statement": "For every index vector of the right length permute terminates, and it throws for every vector that is not a permutation.", "quantifier": "all index vectors", "why_tests_cant": "Non-termination is not observable by a test; the property is false (e.g. {0,0} loops for ever, {1,1} is silently accepted).", "anchors": ["incremental_calibration/include/aslam/calibration/algorithms/permute.tpp", "permute"]}
{"id": "C10", "title": "Reference counts equal the number of batches using a variable", "statement": "After any history of successful add/remove/clear/reorder calls, a design variable is in the incremental problem iff some contained batch holds it, its internal use count is the number of such batches, and its group is the group it has in all of them.", "quantifier": "every finite sequence of add/remove/clear/setGroupsOrdering/permute/save/restore calls", "why_tests_cant": "Invariant over unbounded histories with shared variables.", "anchors": ["incremental_calibration/src/core/IncrementalOptimizationProblem.cpp", "IncrementalOptimizationProblem::add", "IncrementalOptimizationProblem::remove"]}
{"id": "C11", "title": "Groups of the incremental problem are exactly the groups in use", "statement": "After any such history getGroupsOrdering() is duplicate free and lists exactly the groups of the contained design variables; no empty group remains; each variable appears in exactly one group list, once.", "quantifier": "every finite operation sequence", "why_tests_cant": "Erasure logic on the last variable of a group interacts with every earlier history.", "anchors": ["incremental_calibration/src/core/IncrementalOptimizationProblem.cpp", "add", "remove", "getGroupsOrdering", "getDesignVariablesGroups"]}
{"id": "C12", "title": "The incremental problem enumerates its design variables completely and without repetition", "statement": "designVariable(i), i < numDesignVariables(), succeeds and enumerates the variables of the contained batches, each once, group after group in getGroupsOrdering(); larger i throw.", "quantifier": "every finite operation sequence and every index", "why_tests_cant": "The solver's column layout depends on it for all histories.", "anchors": ["incremental_calibration/src/core/IncrementalOptimizationProblem.cpp", "designVariableImplementation", "getGroupId"]}
{"id": "C13", "title": "Error terms of the incremental problem are the concatenation of its batches' error terms", "statement": "numErrorTerms() is the sum over batches and errorTerm(i) is the i-th element of the concatenation in batch order (out of range throws); no error term occurs twice.", "quantifier": "every finite operation sequence and every index", "why_tests_cant": "Running-index arithmetic over arbitrarily many batches of arbitrary sizes (including empty ones).", "anchors": ["incremental_calibration/src/core/IncrementalOptimizationProblem.cpp", "errorTermImplementation", "getErrorIdx", "numErrorTermsImplementation"]}
{"id": "C14", "title": "Removing a batch that was just added is the identity", "statement": "If add(b) succeeds on a problem that does not contain b, then remove(b) succeeds and restores batches, counts, groups and groups ordering exactly.", "quantifier": "every reachable problem state and every batch", "why_tests_cant": "All shapes of sharing between b and the existing batches.", "anchors": ["incremental_calibration/src/core/IncrementalOptimizationProblem.cpp", "add", "remove"]}
{"id": "C15", "title": "A failed add leaves the incremental problem unchanged", "statement": "If add(b) throws (null batch, group mismatch, duplicate error term) the problem is unchanged.", "quantifier": "every reachable state and every batch", "why_tests_cant": "False for the code: group mismatch and duplicate error term leave half of the bookkeeping applied; only the null check is safe.", "anchors": ["incremental_calibration/src/core/IncrementalOptimizationProblem.cpp", "add"]}
{"id": "C16", "title": "remove takes out exactly one batch and keeps the others in order", "statement": "remove(i) removes the i-th batch, keeps the relative order of the others, drops exactly the design variables used only by that batch, keeps relative order of remaining variables and groups; out-of-range indices throw and change nothing.", "quantifier": "every reachable state and index", "why_tests_cant": "Index/erase arithmetic for all states.", "anchors": ["incremental_calibration/src/core/IncrementalOptimizationProblem.cpp", "remove"]}
{"id": "C17", "title": "Restoring variables after clear() has no effect on removed variables", "statement": "After clear() (or removal) restoreDesignVariables() only touches variables that are still in the incremental problem.", "quantifier": "every operation history", "why_tests_cant": "False after clear(): the backup map survives (dangling pointers); true for histories without clear().", "anchors": ["incremental_calibration/src/core/IncrementalOptimizationProblem.cpp", "clear", "restoreDesignVariables"]}
{"id": "C18", "title": "A rejected batch leaves no trace in the estimator", "statement": "If addBatch(b) returns batchAccepted = false then the batches, design variables, groups, ordering, values of all design variables of the problem and every statistic returned by the estimator's getters are as before the call.", "quantifier": "every estimator history, every batch not already contained, every optimizer outcome", "why_tests_cant": "The optimizer may move every variable arbitrarily; the claim ranges over all its outcomes and all histories.", "anchors": ["incremental_calibration/src/core/IncrementalEstimator.cpp", "IncrementalEstimator::addBatch"]}
{"id": "C19", "title": "The acceptance rule", "statement": "addBatch(b, force) accepts iff force, or the solution is valid and (informationGain > infoGainDelta or rankTheta increased), where with checkValidity a solution is invalid iff the iteration budget was exhausted or the cost did not decrease; informationGain = (svLog2Sum_new - svLog2Sum_old)/2.", "quantifier": "all optimizer outcomes, all options", "why_tests_cant": "Decision logic over the full (real valued) outcome space.", "anchors": ["incremental_calibration/src/core/IncrementalEstimator.cpp", "addBatch"]}
{"id": "C20", "title": "Calibration variables always occupy the last Jacobian columns", "statement": "Whenever the optimizer is run by addBatch or reoptimize, the marginalised group is last in the groups ordering and the marginalisation index handed to the linear solver is the number of Jacobian columns of all other groups, so that exactly the columns of the marginalised group follow it.", "quantifier": "every estimator history", "why_tests_cant": "Needs the ordering invariant for unbounded histories and arbitrary group structures.", "anchors": ["incremental_calibration/src/core/IncrementalEstimator.cpp", "orderMarginalizedDesignVariables", "reoptimize", "addBatch"]}
{"id": "C21", "title": "The estimator's batches are the accepted, not yet removed ones, in order", "statement": "After any sequence of addBatch/removeBatch calls the batches of the estimator's problem are exactly those reported accepted and not removed since, in acceptance order; getNumBatches() is their number.", "quantifier": "every call sequence and every optimizer outcome", "why_tests_cant": "History property.", "anchors": ["incremental_calibration/src/core/IncrementalEstimator.cpp", "addBatch", "removeBatch", "getNumBatches"]}
{"id": "C22", "title": "A throwing addBatch leaves the estimator unchanged", "statement": "If addBatch throws (e.g. the batch lacks the marginalised group on an empty estimator) the estimator still contains exactly the previous batches.", "quantifier": "every state and batch", "why_tests_cant": "False: the batch stays inside when the marginalised group is missing.", "anchors": ["incremental_calibration/src/core/IncrementalEstimator.cpp", "addBatch", "orderMarginalizedDesignVariables"]}
{"id": "C23", "title": "removeBatch ignores unknown batches and removes known ones once", "statement": "removeBatch(b) with b not contained changes nothing; otherwise exactly the first occurrence is removed and the remaining problem is reoptimised with information gain reported as 0.", "quantifier": "every estimator state", "why_tests_cant": "History property.", "anchors": ["incremental_calibration/src/core/IncrementalEstimator.cpp", "removeBatch"]}
{"id": "C24", "title": "After a rejection the linear solver layout is dense and disjoint", "statement": "restoreLinearSolver gives the active design variables block indices 0..k-1 in enumeration order, column ranges that are consecutive, disjoint and cover 0..JCols-1, and error terms consecutive disjoint row ranges covering all rows.", "quantifier": "every problem, every dimension assignment", "why_tests_cant": "All layouts.", "anchors": ["incremental_calibration/src/core/IncrementalEstimator.cpp", "restoreLinearSolver"]}
{"id": "C25", "title": "Information gains telescope", "statement": "Over any sequence of addBatch calls the sum of the information gains of the accepted batches is half of the difference of final and initial singular-value log sum; rejected batches contribute nothing; without force every accepted batch either exceeded infoGainDelta or raised the rank.", "quantifier": "every sequence of addBatch calls", "why_tests_cant": "Unbounded histories with real-valued outcomes.", "anchors": ["incremental_calibration/src/core/IncrementalEstimator.cpp", "addBatch"]}
{"id": "C26", "title": "Grid cell lookup is total and in range on the grid's domain", "statement": "For every constructed grid and every point with minimum <= p <= maximum, getIndex(p) is a valid index of the grid whose cell contains p; points outside throw.", "quantifier": "all grids (any dimension, real and integer coordinates), all points", "why_tests_cant": "Boundary cases for all resolutions.", "anchors": ["incremental_calibration/include/aslam/calibration/data-structures/Grid.tpp", "Grid::getIndex", "Grid::isInRange"]}
{"id": "C27", "title": "Grid coordinates and indices round-trip", "statement": "getIndex(getCoordinates(idx)) = idx for every valid index whose cell centre lies in the domain; the only cells for which it fails to be accepted are last cells cut by the maximum.", "quantifier": "all grids and valid indices", "why_tests_cant": "All resolutions/ranges.", "anchors": ["incremental_calibration/include/aslam/calibration/data-structures/Grid.tpp", "getCoordinates", "getIndex"]}
{"id": "C28", "title": "Linear cell addressing is a bijection", "statement": "computeLinearIndex maps the valid multi-indices one-to-one onto 0..(product of numCells)-1, hence distinct cells never share storage.", "quantifier": "all dimensions and cell counts, all indices", "why_tests_cant": "Mixed-radix arithmetic for all shapes.", "anchors": ["incremental_calibration/include/aslam/calibration/data-structures/Grid.tpp", "computeLinearIndex", "operator[]"]}
{"id": "C29", "title": "incrementIndex visits every cell exactly once", "statement": "Starting from the zero index, repeated incrementIndex enumerates every valid index exactly once and then yields the end sentinel.", "quantifier": "all dimensions and cell counts", "why_tests_cant": "Odometer loop for all shapes.", "anchors": ["incremental_calibration/include/aslam/calibration/data-structures/Grid.tpp", "incrementIndex"]}
{"id": "C30", "title": "Invalid grid indices are rejected", "statement": "Cell accesses with an index outside [0,numCells) in some dimension throw.", "quantifier": "all indices", "why_tests_cant": "False for negative components: isValidIndex only checks the upper bound.", "anchors": ["incremental_calibration/include/aslam/calibration/data-structures/Grid.tpp", "isValidIndex", "operator[]"]}
{"id": "C31", "title": "Histogram counts exactly the in-range samples", "statement": "After any sequence of addSample calls the sum over all bins is the number of in-range samples, each bin counts the samples falling in it, the result is independent of the sample order, and out-of-range samples change nothing; the normalised histogram sums to one if any sample was counted.", "quantifier": "all sample sequences, all grids", "why_tests_cant": "Unbounded sample streams.", "anchors": ["incremental_calibration/include/aslam/calibration/statistics/Histogram1v.tpp", "incremental_calibration/include/aslam/calibration/statistics/HistogramMv.tpp", "addSample", "getNormalized"]}
{"id": "C32", "title": "Design variable update/revert", "statement": "For a vector design variable, update(d) followed by revert() restores the value before update, updates add up, get/setParameters round-trip and a dimension mismatch throws without changing the value.", "quantifier": "all dimensions, values and update sequences", "why_tests_cant": "All histories.", "anchors": ["incremental_calibration/include/aslam/calibration/core/VectorDesignVariable.tpp"]}
{"id": "C33", "title": "Rigid transformation inverse", "statement": "inverse() of a transformation built from rotation and translation maps T(p) back to p; applying inverse twice gives the original transformation.", "quantifier": "all rotations, translations and points", "why_tests_cant": "Real-valued domain; the second half is false for the code.", "anchors": ["incremental_calibration/include/aslam/calibration/geometry/Transformation2d.tpp", "incremental_calibration/include/aslam/calibration/geometry/Transformation3d.tpp"]}
{"id": "C34", "title": "Streaming maximum-likelihood estimation equals batch estimation", "statement": "After addPoint for each of a sequence of samples, the estimator's mean and variance are the sample mean and (population) variance of the whole sequence, independent of order, and validity is reported iff the variance is positive.", "quantifier": "all sample sequences", "why_tests_cant": "Unbounded streams.", "anchors": ["incremental_calibration/src/statistics/EstimatorMLNormal1v.cpp", "incremental_calibration/include/aslam/calibration/statistics/EstimatorMLNormalMv.tpp"]}
{"id": "C35", "title": "Uniform distribution moments", "statement": "getMean() of a uniform distribution lies in its support and equals (min+max)/2; its pdf integrates to one.", "quantifier": "all supports", "why_tests_cant": "False for the mean in the code: 0.5*(max-min).", "anchors": ["incremental_calibration/include/aslam/calibration/statistics/UniformDistribution1v.tpp", "incremental_calibration/include/aslam/calibration/statistics/UniformDistributionMv.tpp"]}
{"id": "C36", "title": "No measurement is lost or used twice by the car calibrator's windowing", "statement": "For every stream of measurements, each measurement is in exactly one place: one submitted batch, one discarded window (fewer than two poses) or the current buffer, in arrival order; a measurement never triggers a flush of itself.", "quantifier": "all measurement streams and window durations", "why_tests_cant": "Unbounded streams and arbitrary time stamps.", "anchors": ["incremental_calibration_examples/incremental_calibration_examples_car/src/algo/CarCalibrator.cpp", "addMeasurement", "addMeasurements", "clearMeasurements"]}
{"id": "C37", "title": "Car calibrator windows are bounded in time and histories stay aligned", "statement": "With non-decreasing time stamps every batch submitted spans less than the window duration; the information gain history has one entry per submitted batch and the parameter history exactly one more.", "quantifier": "all measurement streams with ordered time stamps", "why_tests_cant": "Unbounded streams.", "anchors": ["incremental_calibration_examples/incremental_calibration_examples_car/src/algo/CarCalibrator.cpp", "addMeasurement", "addMeasurements"]}
{"id": "C38", "title": "Vision frame bookkeeping", "statement": "Frame identifiers handed out by the data association are strictly increasing and never reused, also across reset(); every stored frame has the id under which it is stored.", "quantifier": "all image streams and tracker outcomes", "why_tests_cant": "Unbounded streams.", "anchors": ["incremental_calibration_vision/src/vision/VisionDataAssociation.cpp", "addImage", "reset"]}
{"id": "C39", "title": "Analytic Jacobians of the error terms are the derivatives of the errors", "statement": "For the 2D-LRF motion and observation error terms and the car pose/velocity/steering/wheel error terms the Jacobian blocks handed to the optimizer are the partial derivatives of the evaluated error wherever it is differentiable.", "quantifier": "all real values of the design variables and measurements", "why_tests_cant": "A continuum of inputs; finite differences only sample.", "anchors": ["incremental_calibration_examples/incremental_calibration_examples_2dlrf/src/2dlrf/ErrorTermMotion.cpp", "incremental_calibration_examples/incremental_calibration_examples_2dlrf/src/2dlrf/ErrorTermObservation.cpp", "incremental_calibration_examples/incremental_calibration_examples_car/src/error-terms"]}
{"id": "C40", "title": "Wheel error Jacobian holds in both driving directions", "statement": "The front-wheel error term's Jacobian is the derivative of its error for forward and backward motion.", "quantifier": "all velocities with non-zero speed", "why_tests_cant": "False for backward motion in the code.", "anchors": ["incremental_calibration_examples/incremental_calibration_examples_car/src/error-terms/ErrorTermWheel.cpp"]}
{"id": "C41", "title": "Geodetic frame conversions are inverse to each other", "statement": "enu2ecef(ecef2enu(p)) = p and vice versa for the same reference point; distances are preserved.", "quantifier": "all points and reference angles", "why_tests_cant": "Real-valued domain.", "anchors": ["incremental_calibration_examples/incremental_calibration_examples_car/src/geo/geodetic.cpp"]}
{"id": "C42", "title": "Categorical sampling maps each uniform draw to the right category", "statement": "For probabilities summing to one and every draw u in (0,1) the returned category k is the one with cum(k-1) < u <= cum(k): in particular categories of probability 0 are never returned and an index is always found.", "quantifier": "all probability vectors and all draws", "why_tests_cant": "A continuum of draws.", "anchors": ["incremental_calibration/include/aslam/calibration/statistics/Randomizer.tpp", "sampleCategorical"]}
{"id": "C43", "title": "Log-factorial", "statement": "LogFactorialFunction(n) = log(n!) for every n, and LogGammaFunction<size_t>(n) = log((n-1)!) with n = 0 rejected.", "quantifier": "all n", "why_tests_cant": "All natural numbers.", "anchors": ["incremental_calibration/src/functions/LogFactorialFunction.cpp", "incremental_calibration/include/aslam/calibration/functions/LogGammaFunction.h"]}
{"id": "C44", "title": "Timestamps order consistently with their value", "statement": "Timestamp comparison operators are mutually consistent with the (sec,nsec) order and conversion between timespec and seconds is monotone.", "quantifier": "all time stamps", "why_tests_cant": "All values.", "anchors": ["incremental_calibration/src/base/Timestamp.cpp"]}
{"id": "C45", "title": "Odometry parameter vector reports every parameter", "statement": "OdometryDesignVariables::getParameters returns all calibration parameters, each in its own slot, so that the vector determines them.", "quantifier": "all parameter values", "why_tests_cant": "False for the code: the DMI time delay overwrites the last steering coefficient and the last slot is never written.", "anchors": ["incremental_calibration_examples/incremental_calibration_examples_car/src/algo/OdometryDesignVariables.cpp"]}
{"id": "C46", "title": "Changing an error term's covariance changes its weighting", "statement": "After setCovariance(R) the weighting used by the optimizer is the inverse of R.", "quantifier": "all covariances", "why_tests_cant": "False: setters do not update the stored inverse.", "anchors": ["incremental_calibration_examples/incremental_calibration_examples_car/src/error-terms"]}
{"id": "C47", "title": "Sum of log diagonal uses exactly the requested columns", "statement": "computeSumLogDiagR(R,b,e) sums log2|R(i,i)| over b <= i <= e, ignoring entries not larger than machine epsilon in magnitude; invalid ranges are rejected before any access.", "quantifier": "all matrices and column ranges", "why_tests_cant": "All sizes and ranges; false for matrices with fewer rows than columns (rows unchecked).", "anchors": ["incremental_calibration/include/aslam/calibration/algorithms/matrixOperations.tpp"]}
{"id": "C48", "title": "Batches of the incremental problem are exactly those added and not removed since", "statement": "Each call changes the list of contained batches only as follows: an accepted add appends the batch, a successful remove takes out one position (the first occurrence when removing by pointer), clear empties it, permuteOptimizationProblems reorders it; a throwing call and every other call leave it alone.", "quantifier": "all histories and all next calls", "why_tests_cant": "All histories and calls.", "anchors": ["incremental_calibration/src/core/IncrementalOptimizationProblem.cpp"]}
{"id": "C49", "title": "What a successful add does", "statement": "After add(b) succeeds the batch is last, exactly its variables have joined the problem, groups not yet present follow the old ordering in the batch's order, new variables are appended to their group in the batch's enumeration order, and saved values are untouched.", "quantifier": "all histories and all batches accepted next", "why_tests_cant": "All histories and batches.", "anchors": ["incremental_calibration/src/core/IncrementalOptimizationProblem.cpp add"]}
{"id": "C50", "title": "Statistics getters show the last kept result", "statement": "After any call the estimator's statistics getters (information gain, singular values, ranks, costs, ...) show exactly what the last accepted addBatch or successful reoptimize returned; rejected or throwing addBatch calls leave them unchanged; reoptimize reports information gain 0. Until something has been kept they show zero gain and costs, QR tolerance and ranks -1 and empty matrices, so the first valid batch with any rank at all is accepted.", "quantifier": "every history of calls, every optimizer behaviour", "why_tests_cant": "the optimizer can return any numbers and fail at any call; histories are unbounded", "anchors": ["incremental_calibration/src/core/IncrementalEstimator.cpp addBatch, reoptimize, getters"]}
{"id": "C51", "title": "One-dimensional histogram statistics", "statement": "For every one-dimensional histogram with at least one counted sample, getMean and getVariance are the mean and sample variance (divisor: count minus one) of the bin centres weighted with the bin counts (no variance for a single sample), getMode is a bin centre of maximal count, and getMedian is the centre of a bin before which at most half and up to which at least half of the samples lie.", "quantifier": "all grids and sample sequences", "why_tests_cant": "Unbounded sample sequences and all grid parameters.", "anchors": ["incremental_calibration/include/aslam/calibration/statistics/Histogram.tpp"]}
{"id": "C52", "title": "Binned mean is close to the sample mean", "statement": "The mean reported by a one-dimensional histogram differs from the mean of the counted samples by at most half a bin width.", "quantifier": "all grids and sample sequences", "why_tests_cant": "A bound over unbounded sequences of samples.", "anchors": ["incremental_calibration/include/aslam/calibration/statistics/Histogram.tpp getMean"]}
{"id": "C53", "title": "The mode of a histogram is maximal", "statement": "getMode() of a histogram of any dimension is the centre of a bin with the largest count.", "quantifier": "all grids of any dimension, all sample sequences", "why_tests_cant": "All dimensions and sample sequences.", "anchors": ["incremental_calibration/include/aslam/calibration/statistics/Histogram.tpp getMode"]}
{"id": "C54", "title": "Uniform sampling stays in the support and is uniform", "statement": "sampleUniform(a,b) returns a value in [a,b] for every raw random number, attains both ends, rejects a >= b, and every integer of the support is equally likely.", "quantifier": "all supports and raw random numbers", "why_tests_cant": "All raw random numbers and supports; a test samples a few.", "anchors": ["incremental_calibration/include/aslam/calibration/statistics/Randomizer.tpp sampleUniform"]}
{"id": "C55", "title": "Outer product", "statement": "OuterProduct::compute(v) has entry v(i)*v(j) at (i,j) for every vector of every dimension, hence is symmetric.", "quantifier": "all vectors, all dimensions", "why_tests_cant": "All dimensions and vectors.", "anchors": ["incremental_calibration/include/aslam/calibration/utils/OuterProduct.tpp"]}
{"id": "C56", "title": "Univariate normal distribution", "statement": "After any history of setter calls, accepted or rejected: variance is positive, precision and standard deviation agree with it, pdf is the normal density with the reported mean and variance and integrates to one, cdf is its integral, mean/variance/median/mode are those of the density, and KLDivergence is the Kullback-Leibler divergence, never negative and zero exactly for equal parameters; a rejected setVariance changes nothing.", "quantifier": "all histories, all values", "why_tests_cant": "Real-valued identities over all parameters; integrals cannot be tested exactly.", "anchors": ["incremental_calibration/src/statistics/NormalDistribution1v.cpp"]}
{"id": "C57", "title": "Gamma and chi-square distributions", "statement": "After any history of setter calls pdf is the Gamma density of the reported shape and inverse scale and integrates to one; setters reject exactly non-positive values without effect; degrees round-trip and give mean d and variance 2d; KLDivergence is never negative.", "quantifier": "all histories, all parameters", "why_tests_cant": "Real-valued identities over all parameters.", "anchors": ["incremental_calibration/include/aslam/calibration/statistics/GammaDistribution.tpp", "incremental_calibration/src/statistics/ChiSquareDistribution.cpp"]}
{"id": "C58", "title": "Exactly the admissible measurements enter a car batch", "statement": "Every batch the car calibrator hands to the estimator is built on all buffered poses, has for every sensor one error term per buffered measurement that is admissible (its time stays within the time of the buffered poses after shifting by the delay bound either way; moving; steering in range), in arrival order, and no other sensor term; sensors are never mixed.", "quantifier": "all measurement streams, options and estimator behaviours", "why_tests_cant": "Unbounded streams and all configurations.", "anchors": ["incremental_calibration_examples/incremental_calibration_examples_car/src/algo/CarCalibrator.cpp addMeasurements, addErrorTerms"]}
{"id": "C59", "title": "Wheel measurements are weighted with their configured variance", "statement": "Each wheel error term carries the speed of its own side and the variance configured for its own wheel.", "quantifier": "all windows and configurations", "why_tests_cant": "All windows and configurations.", "anchors": ["incremental_calibration_examples/incremental_calibration_examples_car/src/algo/CarCalibrator.cpp addRearWheelsErrorTerms, addFrontWheelsErrorTerms"]}
{"id": "C60", "title": "The number of spline segments follows the configured knot density", "statement": "Every submission of a window with at least two poses builds the splines with at least one and at most as many segments as there are poses; it never runs into undefined behaviour.", "quantifier": "all windows submitted", "why_tests_cant": "All windows.", "anchors": ["incremental_calibration_examples/incremental_calibration_examples_car/src/algo/CarCalibrator.cpp initSplines"]}
{"id": "C61", "title": "Printed calibration rows carry the right label", "statement": "The observability rows printed in verbose mode and the standard deviations written by the calibration program are read at existing rows and belong to the parameter named in the label, whichever calibration variables are active.", "quantifier": "all sets of active calibration variables", "why_tests_cant": "All activity patterns; the wrong ones silently print another parameter.", "anchors": ["incremental_calibration_examples/incremental_calibration_examples_car/src/algo/CarCalibrator.cpp addMeasurements", "incremental_calibration_examples/incremental_calibration_examples_car/src/realworld/calibrator.cpp", "incremental_calibration_examples/incremental_calibration_examples_car/src/design-variables/OdometryDesignVariables.cpp addToBatch"]}
{"id": "C62", "title": "Stored matches refer to stored frames", "statement": "Every key point match kept by the vision data association refers on both sides to a frame that is stored.", "quantifier": "all histories of images and resets", "why_tests_cant": "Unbounded histories, arbitrary tracker results.", "anchors": ["incremental_calibration_vision/src/vision/VisionDataAssociation.cpp addImage, doOfovMatching"]}
{"id": "C63", "title": "Key frame decision", "statement": "A completed frame becomes a key frame exactly if it has more tracks than the threshold and their median disparity exceeds the disparity threshold; with too few tracks it only becomes the new reference; otherwise nothing changes.", "quantifier": "all states, images and tracker results", "why_tests_cant": "All tracker results.", "anchors": ["incremental_calibration_vision/src/vision/VisionDataAssociation.cpp addImage"]}
{"id": "C64", "title": "Vision key frames are a function of configuration and images", "statement": "Two data association objects built from the same configuration and fed the same images keep the same frames, and no call is undefined.", "quantifier": "all configurations and image histories", "why_tests_cant": "Depends on uninitialised memory, which a test cannot control.", "anchors": ["incremental_calibration_vision/src/vision/VisionDataAssociation.cpp constructor, addImage"]}
{"id": "C65", "title": "Geodetic coordinates and local frames", "statement": "wgs84ToEcef maps altitude zero to the ellipsoid; increasing longitude, latitude and altitude move the point along the east, north and up axes of the local frame at the same coordinates.", "quantifier": "all latitudes, longitudes and altitudes", "why_tests_cant": "A differential statement over all coordinates.", "anchors": ["incremental_calibration_examples/incremental_calibration_examples_car/src/geo/geodetic.cpp"]}
{"id": "C66", "title": "A grid is a store", "statement": "Right after construction every cell of a grid holds the default value; getCell with a valid index gives access to a cell of its own, so a write changes what is read at that index and at no other; reset() restores the default everywhere; none of this changes the grid's bounds, resolution or number of cells.", "quantifier": "all grids of any dimension with at most 2^31 cells, all histories of writes and resets", "why_tests_cant": "All dimensions, sizes and histories; a collision between two indices shows only for some shapes.", "anchors": ["incremental_calibration/include/aslam/calibration/data-structures/Grid.tpp getCell, reset"]}
{"id": "C67", "title": "Samplers follow their distributions", "statement": "For every stream of raw random numbers: sampleExponential and sampleGeometric return values whose tail frequencies over the raw numbers are those of the distribution up to the resolution of the raw numbers; samplePoisson returns the number of unit-rate arrivals before the mean; sampleNormal is the Box-Muller transform of the first point in the unit disc; a multivariate normal sample has as squared Mahalanobis distance the sum of squares of its standard normal draws; sampleGamma returns finite non-negative values; bad parameters and only they are rejected; each of this for every type the Randomizer is instantiated with.", "quantifier": "all raw random number streams, all parameters, real and integer Randomizer types", "why_tests_cant": "Distributional claims over all streams; tests can only compare a few moments.", "anchors": ["incremental_calibration/include/aslam/calibration/statistics/Randomizer.tpp", "incremental_calibration/include/aslam/calibration/statistics/NormalDistributionMv.tpp getSample"]}
{"id": "C68", "title": "Seeding makes sampling reproducible", "statement": "After setSeed(s), or with a Randomizer constructed with seed s, the samples drawn afterwards are a function of s and of the program, not of the clock or of what was drawn before.", "quantifier": "all programs using randomizers and distributions, all seeds, all clock readings", "why_tests_cant": "Depends on the clock and on which static randomizers have been constructed before.", "anchors": ["incremental_calibration/include/aslam/calibration/statistics/Randomizer.tpp setSeed, getSeed, constructor", "incremental_calibration/src/statistics/NormalDistribution1v.cpp getSample"]}
{"id": "C69", "title": "Windowing of the time delay calibrator", "statement": "Every measurement given to the calibrator is submitted in exactly one window or is still buffered, in order of arrival; the measurement that ends a window is not part of it; windows are no longer than the configured duration; unprocessedMeasurements() tells whether anything is buffered; the parameter history has one entry more than the information gain history.", "quantifier": "all measurement streams, options and estimator behaviours, including exceptions", "why_tests_cant": "Unbounded streams, exceptions at any point.", "anchors": ["incremental_calibration_examples/incremental_calibration_examples_time_delay/src/algo/Calibrator.cpp addMeasurement, addMeasurements, clearMeasurements"]}
{"id": "C70", "title": "Contents of a time delay batch", "statement": "Every batch the time delay calibrator submits is built on all buffered poses, has one pose term per pose and one wheel term per wheel measurement whose time stays within that of the poses after shifting by the delay bound either way, each of the right wheel, in arrival order; the number of spline segments is at least one and at most the number of poses; no submission is undefined.", "quantifier": "all windows, options and estimator states", "why_tests_cant": "All windows.", "anchors": ["incremental_calibration_examples/incremental_calibration_examples_time_delay/src/algo/Calibrator.cpp initSplines, addWheelErrorTerms, addPoseErrorTerms"]}
{"id": "C71", "title": "Predictions of the time delay calibrator", "statement": "predict() appends for each buffered measurement that would become an error term of a batch, and for no other, the prediction and error of exactly that term; predicted measurements and errors can be paired with the measurements by position.", "quantifier": "all states and histories of predict calls", "why_tests_cant": "All windows and repeated calls.", "anchors": ["incremental_calibration_examples/incremental_calibration_examples_time_delay/src/algo/Calibrator.cpp predict, predictPoses, predictLeftWheel, predictRightWheel"]}
{"id": "C72", "title": "Windowing of the egomotion calibrator", "statement": "As C69 for the egomotion calibrator: every accepted measurement is in exactly one submitted window or in the buffers, in order; the measurement that ends a window is not part of it; with non-decreasing times every window is shorter than the configured duration; histories stay aligned.", "quantifier": "all measurement streams, options and estimator behaviours, including exceptions", "why_tests_cant": "Unbounded streams, exceptions at any point.", "anchors": ["incremental_calibration_examples/incremental_calibration_examples_egomotion_sensors/src/algo/Calibrator.cpp addMeasurement, addMeasurements, clearMeasurements"]}
{"id": "C73", "title": "Contents of an egomotion batch", "statement": "Every batch has for each sensor one motion error term per pair of consecutive used measurements, comparing the second one's measured motion with the motion the trajectory predicts over the interval it was measured in (shifted by the sensor's delay); with the true trajectory and calibration every error is zero.", "quantifier": "all windows, sensors, delays, options", "why_tests_cant": "All windows, all sensors.", "anchors": ["incremental_calibration_examples/incremental_calibration_examples_egomotion_sensors/src/algo/Calibrator.cpp addMotionErrorTerms"]}
{"id": "C74", "title": "A failed window does not stop the calibrator", "statement": "After a submission failed because measurements of the reference sensor were missing or because a sensor is not configured, later measurements are accepted again.", "quantifier": "all histories", "why_tests_cant": "All continuations after a failure.", "anchors": ["incremental_calibration_examples/incremental_calibration_examples_egomotion_sensors/src/algo/Calibrator.cpp addMeasurement, addMeasurements"]}
{"id": "C75", "title": "Dead reckoning of the reference trajectory", "statement": "The poses a batch's trajectory starts from are the product of all reference motions submitted before, so successive windows continue the trajectory; predict() does not influence later batches.", "quantifier": "all histories of windows", "why_tests_cant": "Unbounded histories.", "anchors": ["incremental_calibration_examples/incremental_calibration_examples_egomotion_sensors/src/algo/Calibrator.cpp initSplines, predict"]}
{"id": "C76", "title": "Windowing of the camera calibrator", "statement": "Every image in which the target is detected is part of exactly one submitted batch or still pending, in the order taken; a batch is submitted exactly when batchNumImages images are pending (or on processBatch()); observations are reported as used exactly if their batch was accepted; without exceptions fewer than batchNumImages images are pending.", "quantifier": "all histories of images, failing and succeeding submissions, all estimator behaviours", "why_tests_cant": "Unbounded histories, exceptions at any submission.", "anchors": ["incremental_calibration_examples/incremental_calibration_examples_camera/src/camera/CameraCalibrator.cpp addImage, processBatch, initBatch"]}
{"id": "C77", "title": "Contents of a camera batch", "statement": "Every batch consists of exactly the landmarks, the camera parameters and one rotation and translation per image, each in its group, with one reprojection error per visible corner of each image, depending on that image's pose, that corner and the camera parameters.", "quantifier": "all histories of images, all visibility patterns", "why_tests_cant": "All histories and visibility patterns.", "anchors": ["incremental_calibration_examples/incremental_calibration_examples_camera/src/camera/CameraCalibrator.cpp addImage, initBatch"]}
{"id": "C78", "title": "Poses and observations can be paired", "statement": "getTransformation(i) is the pose of the i-th observation of getEstimatorObservations(); an index beyond them is rejected.", "quantifier": "all histories without exceptions", "why_tests_cant": "Needs several accepted batches in a row.", "anchors": ["incremental_calibration_examples/incremental_calibration_examples_camera/src/camera/CameraCalibrator.cpp getTransformation, processBatch"]}
{"id": "C79", "title": "A failed camera submission does not stop the calibrator", "statement": "After a submission failed with an exception, later images are calibrated again.", "quantifier": "all continuations after a failure", "why_tests_cant": "All continuations after a failure at any point.", "anchors": ["incremental_calibration_examples/incremental_calibration_examples_camera/src/camera/CameraCalibrator.cpp addImage, processBatch"]}
{"id": "C80", "title": "processBatch submits only images", "statement": "processBatch() without pending images does not submit a batch.", "quantifier": "all histories", "why_tests_cant": "All histories.", "anchors": ["incremental_calibration_examples/incremental_calibration_examples_camera/src/camera/CameraCalibrator.cpp processBatch"]}
{"id": "C81", "title": "What the camera validator collects", "statement": "After any sequence of images (with or without the target) and changes of the variance: getObservations() are the detected images in order; the errors are predicted minus observed point of each corner that was observed and can be projected; each has its squared Mahalanobis distance with the variance in force; largest errors, mean, variance, standard deviation and number of outliers are those of that list; nothing is reported before the first error.", "quantifier": "all sequences of images, visibility patterns and variances", "why_tests_cant": "All sequences and patterns.", "anchors": ["incremental_calibration_examples/incremental_calibration_examples_camera/src/camera/CameraValidator.cpp addImage, getReprojectionError*, getNumOutliers"]}
{"id": "C82", "title": "Numbers in the last validated image", "statement": "The numbers written into the last image (average, largest and mean reprojection error, outliers) are those of the usable corners of that image.", "quantifier": "all visibility patterns", "why_tests_cant": "Wrong only when a corner is missing; all patterns.", "anchors": ["incremental_calibration_examples/incremental_calibration_examples_camera/src/camera/CameraValidator.cpp getLastImage"]}
{"id": "C83", "title": "Errors and statistics of the camera calibrator", "statement": "getErrors() returns for every error term of the accepted batches, in order and each once, error vector and squared error; without exceptions these are the errors of the visible corners of the images of the accepted submissions; getStatistics() returns mean, variance, standard deviation, extremes and number of outliers of exactly these.", "quantifier": "all histories of images and submissions", "why_tests_cant": "Unbounded histories.", "anchors": ["incremental_calibration_examples/incremental_calibration_examples_camera/src/camera/CameraCalibrator.cpp getErrors, getStatistics"]}
{"id": "C84", "title": "Standard deviations of the camera parameters", "statement": "getProjectionVariance() and getDistortionVariance() are the variances of projection and distortion parameters; write() can be called at any time and stores their square roots.", "quantifier": "all states, all memory layouts of the camera variables", "why_tests_cant": "Depends on addresses and on which submissions were accepted or failed.", "anchors": ["incremental_calibration_examples/incremental_calibration_examples_camera/src/camera/CameraCalibrator.cpp getProjectionVariance, getDistortionVariance, write, initBatch"]}
{"id": "C85", "title": "The camera calibration program", "statement": "For every bag: every image in which the target is detected is part of exactly one submission, in order, and none is left over at the end; with saveEstimatorImages the images used for the estimate are written; the program ends with the parameters and standard deviations of the last accepted estimate in the result file.", "quantifier": "all bags, detector and optimizer behaviours", "why_tests_cant": "Whole-program behaviour over all bags.", "anchors": ["incremental_calibration_examples/incremental_calibration_examples_camera/src/camera/calibrateCamera.cpp"]}
{"id": "C86", "title": "Data of the time delay simulator", "statement": "With a positive step and variances accepted by the random generators, simulate() returns for every configuration and appends n+1 poses and n measurements of each kind, n being the number of steps k*dt < T; measurement j of a stream is stamped with j steps plus the stream's offset; noise-free wheel speeds are those of a differential drive, noisy ones add the sample before scaling. Without a positive step it does not return; without noise it throws and leaves streams of different lengths.", "quantifier": "all configurations, random samples and previous contents of the data object", "why_tests_cant": "All configurations; closed form over all numbers of steps.", "anchors": ["incremental_calibration_examples/incremental_calibration_examples_time_delay/src/simulation/simulationEngine.cpp simulate"]}
{"id": "C87", "title": "The simulated vehicle follows the configured path", "statement": "The simulated orientations are rotations, turned with the direction of the sine path; the positions lie on the sine path A sin(2 pi f t).", "quantifier": "all amplitudes, frequencies, steps and durations", "why_tests_cant": "All configurations.", "anchors": ["incremental_calibration_examples/incremental_calibration_examples_time_delay/src/simulation/simulationEngine.cpp genSineBodyVel2d, integrateMotionModel"]}
{"id": "C88", "title": "Calibrating noise-free simulated data finds the simulated parameters", "statement": "With the parameters the data was simulated with, the wheel errors of the calibrator are zero on a trajectory through the simulated velocities, and the initial knots of the splines are the simulated poses.", "quantifier": "all configurations and all trajectories through the simulated velocities", "why_tests_cant": "Relates two programs over all inputs.", "anchors": ["incremental_calibration_examples/incremental_calibration_examples_time_delay/src/simulation/simulationEngine.cpp simulate", "incremental_calibration_examples/incremental_calibration_examples_time_delay/src/algo/Calibrator.cpp addLeftWheelErrorTerms, addRightWheelErrorTerms, initSplines"]}
{"id": "C89", "title": "Predicted wheel speed plus error is the measurement", "statement": "For every buffered wheel measurement, the predicted wheel speed and the reported error add up to the measurement.", "quantifier": "all wheel velocities and measurements", "why_tests_cant": "All velocities.", "anchors": ["incremental_calibration_examples/incremental_calibration_examples_time_delay/src/algo/Calibrator.cpp predictLeftWheel, predictRightWheel", "incremental_calibration_examples/incremental_calibration_examples_time_delay/src/error-terms/ErrorTermWheel.cpp"]}
{"id": "C90", "title": "Data of the egomotion simulator", "statement": "With a step of at least a nanosecond and a complete configuration simulate() returns for every kind of trajectory; every configured sensor gets exactly one noise-free and one noisy motion per step: the motion of the reference seen from the sensor's mounting, stamped with the end of the step plus the sensor's delay; the reference motions multiply up to the whole trajectory; nothing else changes. A sensor without calibration is an exception; a step below a nanosecond does not terminate.", "quantifier": "all configurations, kinds of trajectory, random samples, previous contents", "why_tests_cant": "All configurations; closed form over all numbers of steps and sensors.", "anchors": ["incremental_calibration_examples/incremental_calibration_examples_egomotion_sensors/src/simulation/simulationEngine.cpp simulate"]}
{"id": "C91", "title": "The egomotion simulation program submits everything and its data is consistent", "statement": "If the program returns, every simulated measurement was submitted, in order, and nothing is left over; on noise-free data every error term is zero at the simulated trajectory, mountings and delays; a simulation that fits one window makes the program return with one batch; without a reference measurement it ends in an exception before the calibrator sees anything.", "quantifier": "all configurations, sensors, window lengths, estimator behaviours", "why_tests_cant": "Relates simulator and calibrator over all inputs.", "anchors": ["incremental_calibration_examples/incremental_calibration_examples_egomotion_sensors/src/simulation/simulator.cpp main", "incremental_calibration_examples/incremental_calibration_examples_egomotion_sensors/src/algo/Calibrator.cpp addMotionErrorTerms"]}
{"id": "C92", "title": "The simulated trajectory", "statement": "The simulated poses start with the configured one, are stamped 0, dt, 2dt, ..., keep unit quaternions without sign flips, and the vehicle moves in each step no farther than the configured path does (dt for a straight one).", "quantifier": "all kinds of trajectory, amplitudes, frequencies, steps and durations", "why_tests_cant": "All configurations; the defect shows at one step only.", "anchors": ["incremental_calibration_examples/incremental_calibration_examples_egomotion_sensors/src/simulation/simulationEngine.cpp simulate, genSineBodyVel2d, integrateMotionModel"]}
{"id": "C93", "title": "bestQuat", "statement": "bestQuat(p, c) represents the same rotation as c, with the same norm, and is the representative closer to p; the rotation control points of the three calibrators are as many as the poses, represent their rotations, start with the first one unchanged, and no two consecutive ones have opposite signs.", "quantifier": "all quaternions, all sequences of poses", "why_tests_cant": "All sequences.", "anchors": ["incremental_calibration_examples/incremental_calibration_examples_egomotion_sensors/src/algo/bestQuat.cpp", "incremental_calibration_examples/incremental_calibration_examples_egomotion_sensors/src/algo/Calibrator.cpp initSplines", "incremental_calibration_examples/incremental_calibration_examples_time_delay/src/algo/Calibrator.cpp initSplines"]}
{"id": "C94", "title": "The sine wave path generator", "statement": "genSineWavePath(u, steps, A, f, T) returns exactly steps inputs; the first is zero; each later one has the mean of the path's speeds at the two ends of the step, no sideways speed, and the turn of the path's direction over the step.", "quantifier": "all numbers of steps, amplitudes, frequencies and time steps, all roundings of the accumulated time", "why_tests_cant": "The number of inputs depends on accumulated rounding; all parameters.", "anchors": ["incremental_calibration_examples/incremental_calibration_examples_2dlrf/src/2dlrf/utils.cpp genSineWavePath"]}
{"id": "C95", "title": "The landmark guess explains the first sighting", "statement": "initLandmarks places every landmark that is seen at the point where its first positive range and bearing put it, so that the error of that measurement is zero at the guess, and exactly at the true position if poses, calibration and measurement are exact; landmarks never seen are at the origin; no access outside the record.", "quantifier": "all poses, records and visibility patterns", "why_tests_cant": "All visibility patterns and angles.", "anchors": ["incremental_calibration_examples/incremental_calibration_examples_2dlrf/src/2dlrf/utils.cpp initLandmarks"]}
{"id": "C96", "title": "Simulated laser data is consistent with the error terms", "statement": "The simulation of the laser examples returns one pose, input and row of measurements per step; evaluated at the truth, the observation error of every measurement and the motion error of every step are the noise that was drawn (zero without noise).", "quantifier": "all inputs, landmarks, calibrations, noise samples and numbers of steps", "why_tests_cant": "Wrong only in steps in which the heading wraps; all trajectories.", "anchors": ["incremental_calibration_examples/incremental_calibration_examples_2dlrf/src/2dlrf/simulate-online.cpp main", "incremental_calibration_examples/incremental_calibration_examples_2dlrf/src/2dlrf/simulate-online-new.cpp main", "incremental_calibration_examples/incremental_calibration_examples_2dlrf/src/2dlrf/simulate-offline.cpp main"]}
{"id": "C97", "title": "The decision loop of simulate-online", "statement": "Every batch is optimised together with exactly the batches kept before and is kept exactly if it is the first or its information gain over the last kept round exceeds the threshold; the reported calibration and covariance are those of the last kept round; a rejected batch leaves no trace.", "quantifier": "all optimizers, thresholds, numbers of steps and batch sizes", "why_tests_cant": "All sequences of accepted and rejected batches.", "anchors": ["incremental_calibration_examples/incremental_calibration_examples_2dlrf/src/2dlrf/simulate-online.cpp main"]}
{"id": "C98", "title": "The batches of the laser programs contain all data", "statement": "simulate-online-new puts every state into exactly one batch and every motion and observation into some batch; building a batch never fails; simulate-offline builds one problem with all data and the calibration parameters last.", "quantifier": "all numbers of steps and landmarks, all batch sizes", "why_tests_cant": "All sizes, including batch sizes that do not divide the data.", "anchors": ["incremental_calibration_examples/incremental_calibration_examples_2dlrf/src/2dlrf/simulate-online-new.cpp main", "incremental_calibration_examples/incremental_calibration_examples_2dlrf/src/2dlrf/simulate-offline.cpp main", "incremental_calibration/src/core/OptimizationProblem.cpp addDesignVariable, addErrorTerm, setGroupsOrdering"]}
{"id": "C99", "title": "Batches with splines", "statement": "addSpline puts all design variables of the spline, active, into the given group in the spline's order and lists the spline, exactly if they are distinct and none is in the batch yet; otherwise it throws. After any history of calls the listed splines are those of the successful addSpline calls, in order; the variables of every listed spline are in the batch; every variable of the batch that belongs to a spline is kept alive by it; getters reject indices beyond the lists.", "quantifier": "all histories of calls on the batch, including ones that throw", "why_tests_cant": "Unbounded histories with exceptions at any call.", "anchors": ["incremental_calibration_examples/incremental_calibration_examples_car/src/algo/OptimizationProblemSpline.cpp", "incremental_calibration_examples/incremental_calibration_examples_time_delay/src/algo/OptimizationProblemSpline.cpp", "incremental_calibration_examples/incremental_calibration_examples_egomotion_sensors/src/algo/OptimizationProblemSpline.cpp"]}
{"id": "C100", "title": "writeSplines samples every accepted batch", "statement": "writeSplines(estimator, dt, stream) writes, for every accepted batch in order and each of its spline pairs, one line per sample time minTime, minTime+dt, ... below maxTime, with position and angles at that time; it terminates.", "quantifier": "all estimators, spline pairs, steps and spline ranges", "why_tests_cant": "All steps; termination.", "anchors": ["incremental_calibration_examples/incremental_calibration_examples_car/src/algo/splinesToFile.cpp", "incremental_calibration_examples/incremental_calibration_examples_time_delay/src/algo/splinesToFile.cpp", "incremental_calibration_examples/incremental_calibration_examples_egomotion_sensors/src/algo/splinesToFile.cpp"]}
{"id": "C101", "title": "The batch a calibrator submits is well-formed", "statement": "The batch a calibrator hands to the estimator has the spline variables in group 0 and the calibration variables in group 1, marginalised last, contains every error term once, lists both splines, and building it does not fail.", "quantifier": "all numbers of spline variables, calibration variables and error terms", "why_tests_cant": "All sizes.", "anchors": ["incremental_calibration_examples/incremental_calibration_examples_car/src/algo/CarCalibrator.cpp addMeasurements", "incremental_calibration_examples/incremental_calibration_examples_time_delay/src/algo/Calibrator.cpp addMeasurements", "incremental_calibration_examples/incremental_calibration_examples_egomotion_sensors/src/algo/Calibrator.cpp addMeasurements"]}
{"id": "C102", "title": "Parameter vectors and verbose reports", "statement": "getParameters() has each calibration parameter in its own slot, in the order of the labels, and determines all of them; the verbose report of the observability matrices labels every row with the parameter it belongs to.", "quantifier": "all parameter values, activity switches and sets of sensors", "why_tests_cant": "All combinations of active variables and sensor sets.", "anchors": ["incremental_calibration_examples/incremental_calibration_examples_time_delay/src/design-variables/OdometryDesignVariables.cpp", "incremental_calibration_examples/incremental_calibration_examples_time_delay/src/algo/Calibrator.cpp addMeasurements", "incremental_calibration_examples/incremental_calibration_examples_egomotion_sensors/src/design-variables/DesignVariables.cpp", "incremental_calibration_examples/incremental_calibration_examples_egomotion_sensors/src/algo/Calibrator.cpp addMeasurements"]}
{"id": "C103", "title": "Predictions of the car calibrator", "statement": "After clearing, predict() gives for every sensor one prediction, error vector and squared error per buffered measurement a batch built now would use (poses and velocities always), in order and aligned, each of the error term of that measurement at the current estimate; buffers are unchanged; with unprocessed measurements the call is defined; a prediction carries its measurement's time stamp.", "quantifier": "all histories, window contents and estimates", "why_tests_cant": "All histories and gate combinations.", "anchors": ["incremental_calibration_examples/incremental_calibration_examples_car/src/algo/CarCalibrator.cpp predict, predictPoses ... predictSteering, clearPredictions", "incremental_calibration_examples/incremental_calibration_examples_car/src/realworld/analyzer.cpp main"]}
{"id": "C104", "title": "Kinematics of the car error terms", "statement": "The velocities compared with wheel, odometer, steering and velocity measurements are those of the wheel mounting points, the front axle centre and the sensor on the rigidly moving vehicle; prediction plus error is the measurement; the vehicle poses the splines are fitted to reproduce the measured poses; measurements used as forward driving have wheels rolling forward.", "quantifier": "all rigid motions, mounting parameters and measurements", "why_tests_cant": "All motions and parameters.", "anchors": ["incremental_calibration_examples/incremental_calibration_examples_car/src/algo/CarCalibrator.cpp add*ErrorTerms, predict*, initSplines", "incremental_calibration_examples/incremental_calibration_examples_car/src/error-terms/ErrorTermWheel.cpp"]}
{"id": "C105", "title": "The car programs feed every recorded message", "statement": "For every recording: each navigation message after an accuracy message gives one pose and one velocity with the same stamp and the latest accuracies; each message of an active wheel or steering sensor one measurement; odometer speeds add up to the distance travelled; positions are in a local frame at the first message and keep distances, attitude and velocity fit together, covariances are those of the measured quantities; all measurements are submitted at the end.", "quantifier": "all message sequences, configurations, time stamp correctors and calibrator behaviours", "why_tests_cant": "All interleavings of six topics.", "anchors": ["incremental_calibration_examples/incremental_calibration_examples_car/src/realworld/calibrator.cpp main", "incremental_calibration_examples/incremental_calibration_examples_car/src/realworld/analyzer.cpp main", "incremental_calibration_examples/incremental_calibration_examples_car/src/geo/geodetic.cpp"]}
{"id": "C106", "title": "The linear solver adapter", "statement": "The linear solver adapter built from a configuration uses the options of that configuration; solveSystem returns the library's solution of the current Jacobian and error with the configured marginal block; analyzeMarginal and the observability getters are the library's; every call frees what it allocated; rhsJtJrhs is the quadratic form of the right hand side.", "quantifier": "all configurations, matrices, library behaviours and call histories, including throwing calls", "why_tests_cant": "Exceptions inside the library and arbitrary histories.", "anchors": ["aslam_tsvd_solver/src/aslam-tsvd-solver.cc", "aslam_tsvd_solver/include/aslam-tsvd-solver/aslam-tsvd-solver.h"]}
{"id": "C107", "title": "Multivariate normal distribution", "statement": "After any history of setMean and setCovariance calls, accepted or rejected: precision is the inverse of the covariance, determinant its determinant, the density and squared Mahalanobis distance are those of the reported mean and covariance, KLDivergence is the Kullback-Leibler divergence formula; samples are drawn with the reported mean and covariance; covariances that are not symmetric positive definite are rejected without effect.", "quantifier": "all dimensions, histories, matrices, vectors", "why_tests_cant": "All dimensions and histories with rejected calls.", "anchors": ["incremental_calibration/include/aslam/calibration/statistics/NormalDistributionMv.tpp"]}
{"id": "C108", "title": "Options read from a configuration", "statement": "Calibrator options and trajectory parameters constructed from a configuration have each option equal to the entry of its name; if a required entry is missing the construction throws; the result is a function of the configuration.", "quantifier": "all configurations", "why_tests_cant": "Depends on every subset of missing entries and on uninitialised memory.", "anchors": ["incremental_calibration_examples/incremental_calibration_examples_car/src/algo/CarCalibratorOptions.cpp", "incremental_calibration_examples/incremental_calibration_examples_time_delay/src/algo/CalibratorOptions.cpp", "incremental_calibration_examples/incremental_calibration_examples_egomotion_sensors/src/algo/CalibratorOptions.cpp", "incremental_calibration_examples/incremental_calibration_examples_egomotion_sensors/src/simulation/TrajectoryParams.cpp", "incremental_calibration_examples/incremental_calibration_examples_time_delay/src/simulation/TrajectoryParams.cpp"]}
{"id": "C109", "title": "Multivariate log-gamma", "statement": "LogGammaFunction(dim)(a) is the logarithm of the (absolute value of the) multivariate gamma function of order dim at a, infinite exactly at its poles, for every dimension and argument; with dimension one it is log Gamma.", "quantifier": "all dimensions, all real arguments", "why_tests_cant": "All dimensions and arguments.", "anchors": ["incremental_calibration/include/aslam/calibration/functions/LogGammaFunction.tpp getValue"]}
{"id": "C110", "title": "The camera validation program", "statement": "For every bag: the printed statistics and the written error files are those of the reprojection errors of all images of the topic in which the target was found; with saving switched on, one file per image is written, showing the image it is named after.", "quantifier": "all sequences of images with or without the target, all configurations", "why_tests_cant": "All detection patterns.", "anchors": ["incremental_calibration_examples/incremental_calibration_examples_camera/src/camera/validateCamera.cpp main", "incremental_calibration_examples/incremental_calibration_examples_camera/src/camera/CameraValidator.cpp addImage, getLastImage"]}
{"id": "C111", "title": "Samples have exactly the named distribution", "statement": "If the generator's numbers are independent and uniform on [0,1], each sampling function (uniform, normal, multivariate normal, exponential, geometric, Poisson, categorical, gamma, chi-square) returns with probability one, its value has exactly the named distribution with the given parameters, and repeated or interleaved calls are independent; arguments out of range are rejected without drawing.", "quantifier": "all parameters, all numbers of calls", "why_tests_cant": "A statement about a probability measure on infinite streams; a test sees finitely many samples.", "anchors": ["incremental_calibration/include/aslam/calibration/statistics/Randomizer.tpp", "incremental_calibration/include/aslam/calibration/statistics/NormalDistributionMv.tpp getSample", "incremental_calibration/include/aslam/calibration/statistics/UniformDistributionMv.tpp getSample", "incremental_calibration/src/statistics/ChiSquareDistribution.cpp"]}
{"id": "C112", "title": "Cumulative distribution, quantile and divergence of the gamma distribution", "statement": "cdf(x) of a gamma or chi-square distribution is, after any history, the probability of values up to x and the integral of pdf; invcdf accepts [0,1], rejects everything else, and inverts cdf; the incomplete gamma functions are defined exactly on their domain and add up to one; ChiSquareDistribution::getMedian is the median; KLDivergence is the Kullback-Leibler divergence.", "quantifier": "all parameters, histories of setter calls, arguments", "why_tests_cant": "All real arguments and parameters; integrals.", "anchors": ["incremental_calibration/include/aslam/calibration/statistics/GammaDistribution.tpp cdf, invcdf, KLDivergence", "incremental_calibration/src/functions/IncompleteGammaPFunction.cpp", "incremental_calibration/src/functions/IncompleteGammaQFunction.cpp", "incremental_calibration/src/statistics/ChiSquareDistribution.cpp getMedian"]}
{"id": "C113", "title": "Changing a batch an incremental problem contains", "statement": "A batch can be changed at any time, also while an incremental problem contains it; the problem's variables, groups and error terms are always those of its batches, and remove(batch) undoes what add(batch) did, without undefined behaviour, in every history.", "quantifier": "all histories of calls on the problem and on its batches, with no restriction", "why_tests_cant": "The problem only keeps shared pointers; the defects need particular interleavings of calls on two objects.", "anchors": ["incremental_calibration/src/core/IncrementalOptimizationProblem.cpp add, remove, designVariableImplementation", "incremental_calibration/src/core/OptimizationProblem.cpp addDesignVariable, addErrorTerm, clear"]}
{"id": "C114", "title": "Parameters of the simulations", "statement": "SimulationParams are made from a configuration exactly when every entry is there, each parameter being then its entry (for the egomotion simulation one calibration per announced sensor and one noise entry more, the last of several entries with the same index counting), and otherwise the library's exception is thrown; the default parameters, and every configuration with a positive step and admissible variances, can be simulated, with one reading of each sensor per step, stamped with the configured delays.", "quantifier": "all configurations; all numbers of sensors", "why_tests_cant": "All configurations, of any number of sensors.", "anchors": ["incremental_calibration_examples/incremental_calibration_examples_time_delay/src/simulation/SimulationParams.cpp", "incremental_calibration_examples/incremental_calibration_examples_egomotion_sensors/src/simulation/SimulationParams.cpp"]}
{"id": "C115", "title": "The time delay simulation program", "statement": "With parameters that can be simulated, the program hands every simulated noisy measurement to the calibrator, in the order of simulation, and at the end every one of them was submitted to the estimator exactly once, in windows with at least two poses, with one information gain per window; parameters that cannot be simulated end the program before anything is submitted.", "quantifier": "all parameters, window lengths, estimator behaviours", "why_tests_cant": "All numbers of steps and window boundaries.", "anchors": ["incremental_calibration_examples/incremental_calibration_examples_time_delay/src/simulation/simulator.cpp main"]}
{"id": "C116", "title": "Predictions of the egomotion calibrator", "statement": "Whenever a batch could be built from the buffered measurements, predict() returns, with prediction, error and squared error, for every sensor, of exactly the error terms that batch would have, in order and aligned, with the time stamps of their measurements; it throws or is undefined exactly when building the batch would; buffers, windows, histories and the estimator are not touched.", "quantifier": "all histories, buffers, estimates and iteration orders of the map", "why_tests_cant": "All histories and numbers of sensors; error cases.", "anchors": ["incremental_calibration_examples/incremental_calibration_examples_egomotion_sensors/src/algo/Calibrator.cpp predict, predictMotion, clearPredictions, initSplines"]}
{"id": "C117", "title": "The incremental laser calibration program", "statement": "The program tries every batch of the data once and in order; it compares each with the last accepted one and accepts it exactly by the documented rule, the reported values being the result of optimizing the accepted batches and the new one; at the end the problem consists of exactly the accepted batches, and the reported calibration, landmarks and poses are the result of the optimization over exactly these, with the statistics of the last accepted batch; it fails only if the optimizer or the linear solver fails, or if nothing was accepted.", "quantifier": "all numbers of steps, batch sizes, landmarks, groups to eliminate and optimizer behaviours", "why_tests_cant": "All numbers of batches and all accept/reject histories.", "anchors": ["incremental_calibration_examples/incremental_calibration_examples_2dlrf/src/2dlrf/simulate-online-new.cpp main", "incremental_calibration/src/core/IncrementalEstimator.cpp addBatch"]}
{"id": "C118", "title": "A refused batch leaves no trace for later calls", "statement": "If the estimator (or the incremental problem) refuses a batch with an exception, the problem is what it was: batches, variables, error terms, values, statistics and group ordering are unchanged, and every later call does what it would have done had the batch never been offered.", "quantifier": "all histories before the offer, all refused batches, all histories after it", "why_tests_cant": "Needs arbitrary histories before and after the refused call.", "anchors": ["incremental_calibration/src/core/IncrementalOptimizationProblem.cpp add, remove, setGroupsOrdering", "incremental_calibration/src/core/IncrementalEstimator.cpp addBatch, reoptimize, removeBatch, orderMarginalizedDesignVariables"]}
{"id": "C119", "title": "The problem handed out to Python", "statement": "A Python program may call add, remove and clear on the problem returned by getProblem() of its estimator: the problem stays the sum of the batches it lists, every optimizer run is over such a sum with the marginalised group last, and no later call depends on batches that are gone.", "quantifier": "all histories of calls on the estimator, its problem and its batches", "why_tests_cant": "Two objects share state; the defects need particular interleavings of calls on both.", "anchors": ["incremental_calibration_python/src/IncrementalEstimator.cpp getProblem", "incremental_calibration_python/src/OptimizationProblem.cpp add, remove, clear", "incremental_calibration/src/core/IncrementalOptimizationProblem.cpp clear, saveDesignVariables, restoreDesignVariables"]}
{"id": "C120", "title": "Construction of grids and histograms", "statement": "Constructing a grid or a histogram throws exactly if in some dimension the resolution is not positive, the minimum is not below the maximum, or the resolution exceeds the interval; otherwise the grid covers the interval with the fewest cells of that resolution in every dimension, and has exactly as many cells as the product of these numbers, all with the default value.", "quantifier": "all numbers of dimensions, all bounds and resolutions; integer, real and floating point coordinates", "why_tests_cant": "All numbers of dimensions and all sizes; overflow of int products.", "anchors": ["incremental_calibration/include/aslam/calibration/data-structures/Grid.tpp Grid", "incremental_calibration/include/aslam/calibration/statistics/HistogramMv.tpp", "incremental_calibration/include/aslam/calibration/statistics/Histogram1v.tpp"]}
{"id": "C121", "title": "The calibrators with the estimator of the library", "statement": "A calibrator whose configuration names one of the two groups of its batches to be marginalised: its estimator never refuses a window, each window is tried on top of exactly the accepted ones (and those the optimizer failed on), is accepted exactly by the documented rule against the last accepted window, and otherwise leaves batches, statistics and calibration as they were; the optimizer always sees the spline variables of these windows, the calibration variables once and all their error terms; the information gain history is that of the submitted windows, and the parameter history starts with the initial calibration and continues with the calibration after each window, so that a window that is not accepted repeats the entry.", "quantifier": "all histories of calls on the car, time delay and egomotion calibrator, all window contents, all behaviours of the optimizer and the linear solver including failures", "why_tests_cant": "All histories; three classes and the library interact.", "anchors": ["incremental_calibration_examples/incremental_calibration_examples_car/src/algo/CarCalibrator.cpp addMeasurements", "incremental_calibration_examples/incremental_calibration_examples_time_delay/src/algo/Calibrator.cpp addMeasurements", "incremental_calibration_examples/incremental_calibration_examples_egomotion_sensors/src/algo/Calibrator.cpp addMeasurements", "incremental_calibration/src/core/IncrementalEstimator.cpp addBatch"]}
{"id": "C122", "title": "Calibration and uncertainty belong together", "statement": "At any time the calibration, its covariance and the other statistics a calibrator offers, and the batches of its estimator, all belong to one run of the optimizer: that of the last accepted window; before the first accepted window they are the initial ones.", "quantifier": "all histories of windows, all behaviours of the optimizer", "why_tests_cant": "All histories of accepted, rejected and failed windows.", "anchors": ["incremental_calibration_examples/incremental_calibration_examples_car/src/algo/CarCalibrator.cpp getOdometryVariablesVariance, getOdometryDesignVariables", "incremental_calibration_examples/incremental_calibration_examples_time_delay/src/algo/Calibrator.cpp getOdometryVariablesVariance", "incremental_calibration/src/core/IncrementalEstimator.cpp addBatch, getSigma2Theta"]}
{"id": "C123", "title": "Changing options, estimator and design variables between the calls", "statement": "The accessors of the calibrators hand out options, estimator and design variables for modification: whatever a program does with them between the calls, no accepted measurement is lost, duplicated, reordered or put into the stream of another sensor, every submitted window has at least two poses (car, time delay), and there is one parameter vector more than information gains.", "quantifier": "all histories of calls, with arbitrary changes of options, estimator and design variables between any two of them", "why_tests_cant": "All interleavings of calls and modifications.", "anchors": ["incremental_calibration_examples/incremental_calibration_examples_car/src/algo/CarCalibrator.cpp getOptions, getEstimator, getOdometryDesignVariables, addMeasurement, addMeasurements", "incremental_calibration_examples/incremental_calibration_examples_time_delay/src/algo/Calibrator.cpp addMeasurement, addMeasurements", "incremental_calibration_examples/incremental_calibration_examples_egomotion_sensors/src/algo/Calibrator.cpp addMeasurement, addMeasurements"]}
{"id": "C124", "title": "What the camera calibrator offers belongs together", "statement": "At any time the intrinsics, the landmarks, the poses, the variances and the costs the camera calibrator offers all belong to one run of the optimizer, over exactly the accepted submissions; before the first accepted submission intrinsics, landmarks and statistics are the initial ones.", "quantifier": "all histories of images and submissions, all behaviours of the detector, the optimizer and the linear solver", "why_tests_cant": "All histories of accepted, refused and failed submissions.", "anchors": ["incremental_calibration_examples/incremental_calibration_examples_camera/src/camera/CameraCalibrator.cpp processBatch, addImage, getTransformation, getProjectionVariance", "incremental_calibration/src/core/IncrementalEstimator.cpp addBatch, getSigma2Theta"]}
{"id": "C125", "title": "What a calibration program has done when it ends normally", "statement": "When one of the calibration programs (car calibrator on a recording, time delay simulator, egomotion simulator) ends normally, the windows it handed to the estimator, followed by what is left in the buffers, are exactly the measurements of its input, in order, per sensor; the batch of each window is made of that window, with the calibration the previous window left; there is one information gain per window and one parameter vector more, each being what the estimator returned for and left after its window; and the final calibration, uncertainties and problem are those of the optimizer run of the last accepted window, or the initial ones if none was accepted.", "quantifier": "all recordings and simulation parameters, options, numbers of windows, behaviours of the optimizer and the linear solver", "why_tests_cant": "All recordings; program, calibrator and library interact over any number of windows.", "anchors": ["incremental_calibration_examples/incremental_calibration_examples_car/src/realworld/calibrator.cpp main", "incremental_calibration_examples/incremental_calibration_examples_time_delay/src/simulation/simulator.cpp main", "incremental_calibration_examples/incremental_calibration_examples_egomotion_sensors/src/simulation/simulator.cpp main", "incremental_calibration/src/core/IncrementalEstimator.cpp addBatch"]}
{"id": "C126", "title": "No undefined call on proper data", "statement": "Data is proper if all time stamps lie in an interval whose length fits 64 bits and whose spline knots can be counted by an int, and the times of the poses increase strictly (egomotion: no order needed, but the beginnings of the reference measurements belong to the time stamps). A program that makes any calls of a calibrator with proper data - measurements of any sensor, submissions, clearing - and catches all exceptions runs to its end: no call is undefined or fails to return, and the only exceptions are those of the spline fitter and of the estimator (egomotion: and std::out_of_range for a window without reference or with an unknown sensor); the estimator of the library throws only because of its optimizer or linear solver. The calibration programs return or end with one of these exceptions.", "quantifier": "all sequences of calls, all data with these properties, all behaviours of estimator and optimizer", "why_tests_cant": "Every sequence of calls with every proper data; signed overflow, out of range conversions and accesses before the first element do not show in a test that happens to work.", "anchors": ["incremental_calibration_examples/incremental_calibration_examples_car/src/algo/CarCalibrator.cpp addMeasurement, addMeasurements, initSplines", "incremental_calibration_examples/incremental_calibration_examples_time_delay/src/algo/Calibrator.cpp addMeasurement, initSplines", "incremental_calibration_examples/incremental_calibration_examples_egomotion_sensors/src/algo/Calibrator.cpp addMeasurement, initSplines", "incremental_calibration/src/core/IncrementalEstimator.cpp addBatch"]}
{"id": "C127", "title": "How calls on the estimator end", "statement": "Whatever calls were made before (batches offered were compatible, contained batches were not changed), a call on the estimator throws exactly the following exceptions and no other: NullPointerException for a null batch, InvalidOperationException for a batch that has a variable of the problem under another group or an error term of the problem, InvalidOperationException if no batch in the problem would have a variable of the group to be marginalised, OutOfBoundException for an index that is not that of a batch; an exception of the optimizer or the linear solver passes through; otherwise the call returns. No call is undefined or runs forever.", "quantifier": "all histories of calls, all next calls with all arguments, all behaviours of the optimizer and the linear solver", "why_tests_cant": "All histories and all arguments, including those that are refused.", "anchors": ["incremental_calibration/src/core/IncrementalEstimator.cpp addBatch, reoptimize, removeBatch, orderMarginalizedDesignVariables", "incremental_calibration/src/core/IncrementalOptimizationProblem.cpp add, remove"]}
{"id": "C128", "title": "How calls on the camera calibrator end", "statement": "As long as no call threw, a call on the camera calibrator is refused only if an image is offered before the geometry was initialised: InvalidOperationException, and nothing has changed. Every other call returns, unless the optimizer or the linear solver throws; no submission is ever refused, whatever images and numbers of images per batch. (The group to be marginalised is that of the camera parameters or the landmarks; with a foreign group every submission is refused.)", "quantifier": "all histories of calls, all images, batch sizes, behaviours of detector, optimizer and linear solver", "why_tests_cant": "All histories; the submitted batches must fit the problem in every one of them.", "anchors": ["incremental_calibration_examples/incremental_calibration_examples_camera/src/camera/CameraCalibrator.cpp addImage, processBatch, initBatch, addObservation, initGeometry", "incremental_calibration/src/core/IncrementalEstimator.cpp addBatch"]}
{"id": "C129", "title": "An incremental problem is determined by its batches", "statement": "What an incremental problem consists of - its variables, their groups, the dimension of each group, its error terms - depends only on the batches in it and not on the history of additions and removals; the same holds for the problem of the estimator and for every problem its optimizer is run on: offering the batches, in any order, to an empty problem succeeds and gives the same problem, up to the order of groups and of variables within groups (which do depend on the history).", "quantifier": "all pairs of histories that end with the same batches; all orders of re-adding them", "why_tests_cant": "All histories, in pairs.", "anchors": ["incremental_calibration/src/core/IncrementalOptimizationProblem.cpp add, remove, getGroupId, getDesignVariablesGroup, getGroupDim, numErrorTerms, errorTermImplementation", "incremental_calibration/src/core/IncrementalEstimator.cpp addBatch, removeBatch"]}
{"id": "C130", "title": "Drawing many samples", "statement": "getSamples(samples, n) of any distribution replaces the contents of the vector by the results of n successive getSample() calls, in order, and leaves the generator where these calls would; it does not return normally exactly if one of these calls does not or n is more than a vector can hold, and the vector then holds the samples drawn before. Drawing j and then k samples is drawing j + k. With independent uniform raw numbers the samples are independent, each with the law of one draw. A uniform distribution whose support was accepted always delivers, one raw random number per coordinate, and all samples lie in its support.", "quantifier": "all distributions, numbers of samples, previous contents, states and sequences of the random generator", "why_tests_cant": "All random sequences and all draws that may fail at any point.", "anchors": ["incremental_calibration/include/aslam/calibration/statistics/SampleDistribution.tpp getSamples", "incremental_calibration/include/aslam/calibration/statistics/UniformDistributionMv.tpp getSample", "incremental_calibration/include/aslam/calibration/statistics/UniformDistribution1v.tpp getSample"]}
{"id": "C131", "title": "What an exception says", "statement": "what() of an exception of the library is 'function: message [file = F][line = N]', with the parts that were not given left out, followed by '[argument = A]' and '[bound = B]' where the class has them; for a null pointer the message is 'NAME is a null pointer'; copying and assigning preserve the text. Two out-of-bound exceptions raised at the same place with the same message have the same text only if argument and bound are the same.", "quantifier": "all messages, files, lines, functions and arguments without null characters", "why_tests_cant": "All strings.", "anchors": ["incremental_calibration/src/exceptions/Exception.cpp Exception, what", "incremental_calibration/src/exceptions/NullPointerException.cpp NullPointerException", "incremental_calibration/include/aslam/calibration/exceptions/OutOfBoundException.h OutOfBoundException", "incremental_calibration/include/aslam/calibration/exceptions/BadArgumentException.h BadArgumentException"]}
{"id": "C132", "title": "Loops over time in double arithmetic", "statement": "A loop 'for (double t = dt; t < T; t += dt)' of the simulators makes one round for each multiple of dt before T, although t is a sum of rounded doubles; the path generator of the laser example, whose loop starts at zero, returns at least the number of inputs asked for (the programs read that many) and at most one more.", "quantifier": "all positive steps and end times (as doubles)", "why_tests_cant": "Rounding errors accumulate over any number of additions and depend on every bit of the step.", "anchors": ["incremental_calibration_examples/incremental_calibration_examples_time_delay/src/simulation/simulationEngine.cpp", "incremental_calibration_examples/incremental_calibration_examples_egomotion_sensors/src/simulation/simulationEngine.cpp", "incremental_calibration_examples/incremental_calibration_examples_2dlrf/src/2dlrf/utils.cpp genSineWavePath"]}
{"id": "C133", "title": "Uniform samples in double arithmetic", "statement": "sampleUniform(minSupport, maxSupport) returns a double within [minSupport, maxSupport], for every raw random number, although difference, product and sum are rounded; it refuses an empty support.", "quantifier": "all supports, all raw numbers", "why_tests_cant": "A violation needs particular bit patterns of the bounds.", "anchors": ["incremental_calibration/include/aslam/calibration/statistics/Randomizer.tpp sampleUniform"]}
{"id": "C134", "title": "Printing objects and reading them back", "statement": "Inserting an object of the library into an output stream appends its text: one 'name: value' line per value for distributions and histograms, the numbers for others; in a chain of insertions the texts appear in order, on every stream; two objects of one class have the same text only if their values are written the same; reading the text back restores the object.", "quantifier": "all objects of the serialisable classes, all chains of insertions, console streams and file streams", "why_tests_cant": "All values and all chains; overload resolution depends on the static type of the stream.", "anchors": ["incremental_calibration/src/base/Serializable.cpp operator<<, operator>>", "incremental_calibration/include/aslam/calibration/statistics/GammaDistribution.tpp write, read", "incremental_calibration/include/aslam/calibration/data-structures/Grid.tpp write", "incremental_calibration/include/aslam/calibration/data-structures/VectorDesignVariable.tpp write"]}
{"id": "C135", "title": "The data files of the car programs", "statement": "However the program ends, each data file has one line per measurement of its sensor that was handed to the calibrator, in order, with the values handed over and the time of the recorded message.", "quantifier": "all recordings, configurations and calibrator behaviours, including exceptions at any call", "why_tests_cant": "All recordings and crash points.", "anchors": ["incremental_calibration_examples/incremental_calibration_examples_car/src/realworld/calibrator.cpp main", "incremental_calibration_examples/incremental_calibration_examples_car/src/realworld/analyzer.cpp main"]}
{"id": "C136", "title": "The files of the time delay simulation program", "statement": "The program leaves the files of the simulated data complete, one line per step (one more for the trajectory), and the estimated trajectory, one information gain per submitted window and one parameter vector more, whatever was in the directory before; if it fails, no result of another run is among its files.", "quantifier": "all parameters, options, estimator behaviours, previous contents of the directory and crash points", "why_tests_cant": "All numbers of steps; exceptions at any call; earlier runs in the same directory.", "anchors": ["incremental_calibration_examples/incremental_calibration_examples_time_delay/src/simulation/simulator.cpp main", "incremental_calibration_examples/incremental_calibration_examples_time_delay/src/simulation/SimulationData.cpp", "incremental_calibration_examples/incremental_calibration_examples_time_delay/src/simulation/Trajectory.cpp"]}
{"id": "C137", "title": "The files of the egomotion simulation program", "statement": "The program leaves the simulated trajectory, the noise-free and the noisy motions of every simulated sensor, one line per step, each in the file of its sensor, the estimated trajectory, one information gain per submitted window and for every calibrated sensor one parameter vector more, whatever was in the directory before; if it fails the files of the simulation are complete all the same; no file of another run is among its files.", "quantifier": "all parameters, numbers of sensors, options, estimator behaviours, previous contents of the directory and crash points", "why_tests_cant": "All sets of sensors; exceptions at any call; earlier runs in the same directory.", "anchors": ["incremental_calibration_examples/incremental_calibration_examples_egomotion_sensors/src/simulation/simulator.cpp main"]}
{"id": "C138", "title": "The result files of the car calibration program", "statement": "When the calibration has ended, the program writes the standard deviation of every calibration parameter with its label, the estimated trajectory, one information gain per submitted window and one parameter vector more, whatever was in the directory before; if the calibration fails no result file is touched.", "quantifier": "all recordings, configurations, estimator behaviours, previous contents of the directory", "why_tests_cant": "All recordings; the size of the covariance depends on which variables are calibrated.", "anchors": ["incremental_calibration_examples/incremental_calibration_examples_car/src/realworld/calibrator.cpp main", "incremental_calibration_examples/incremental_calibration_examples_car/src/algo/CarCalibrator.cpp getOdometryVariablesVariance", "incremental_calibration_examples/incremental_calibration_examples_car/src/design-variables/OdometryDesignVariables.cpp"]}
{"id": "C139", "title": "Number of spline segments in double arithmetic", "statement": "For poses that come faster than the configured knots per second, the calibrators and the egomotion simulator use as many spline segments as the duration of the window times the knots per second, rounded up; otherwise one per pose; computed with doubles, this is the value exact arithmetic gives, and nothing overflows.", "quantifier": "all positive numbers of knots, all numbers of poses and all durations in nanoseconds, within about six days times one knot per second and 2^30 poses per second", "why_tests_cant": "Three roundings per evaluation; wrong values only for some durations.", "anchors": ["incremental_calibration_examples/incremental_calibration_examples_car/src/algo/CarCalibrator.cpp initSplines", "incremental_calibration_examples/incremental_calibration_examples_time_delay/src/algo/Calibrator.cpp initSplines", "incremental_calibration_examples/incremental_calibration_examples_egomotion_sensors/src/algo/Calibrator.cpp initSplines", "incremental_calibration_examples/incremental_calibration_examples_egomotion_sensors/src/simulation/simulationEngine.cpp"]}
{"id": "C140", "title": "The result files of the car analysis program", "statement": "When the recording has been read, the analysis program writes the estimated trajectory and, for every sensor, a file with one prediction for each admissible recorded measurement and a file with the prediction errors in the same order, each in the file of its sensor, whatever was in the directory before; if the program fails, no result file is touched.", "quantifier": "all recordings, configurations, estimator behaviours, previous contents of the directory and crash points", "why_tests_cant": "All recordings; which measurements are predicted depends on where the windows end.", "anchors": ["incremental_calibration_examples/incremental_calibration_examples_car/src/realworld/analyzer.cpp main", "incremental_calibration_examples/incremental_calibration_examples_car/src/algo/CarCalibrator.cpp predict"]}
{"id": "C141", "title": "Time stamps in double arithmetic", "statement": "A time stamp taken at a later microsecond is greater; the difference of two time stamps is the time between them; converting a time stamp to a timespec is defined, gives nanoseconds below a second, does not reverse the order of time stamps and recovers the microsecond at which the time stamp was taken.", "quantifier": "all times of day, all doubles that are not negative", "why_tests_cant": "All doubles; roundings depend on the magnitude of the time.", "anchors": ["incremental_calibration/src/base/Timestamp.cpp now", "incremental_calibration/src/base/Timestamp.cpp operator timespec"]}
{"id": "C142", "title": "Which variant a numeric type gets", "statement": "For every type, each operation that distinguishes real from integer types (uniform distribution, randomizer, grid) has exactly one variant; floating point types get the one for real numbers: the uniform density integrates to one, uniform samples are affine images of the uniform draws, normal samples are returned, a grid covers its range with the fewest cells; integer types get the one for integers.", "quantifier": "all types", "why_tests_cant": "A test instantiates the templates for the types the author thought of; the claim is over every type a user may instantiate them with.", "anchors": ["incremental_calibration/include/aslam/calibration/tpl/IsReal.h", "incremental_calibration/include/aslam/calibration/tpl/IsInteger.h", "incremental_calibration/include/aslam/calibration/statistics/Randomizer.tpp:Traits::round", "incremental_calibration/include/aslam/calibration/statistics/UniformDistribution1v.tpp:Traits", "incremental_calibration/include/aslam/calibration/data-structures/Grid.tpp:Traits::ceil"]}
{"id": "C143", "title": "Streaming estimation in double arithmetic", "statement": "After any history of points, weighted points and resets, the mean and the variance reported by the streaming estimator of the normal distribution, computed with rounded doubles, are those of the points since the last reset up to an error proportional to their number, the precision of doubles and their magnitude, and the estimator is valid exactly if the points are not all equal.", "quantifier": "all histories of at most 2^26 points since the last reset, points of any magnitude", "why_tests_cant": "Cancellation depends on the values and the number of all points; a test sees a few samples.", "anchors": ["incremental_calibration/src/statistics/EstimatorMLNormal1v.cpp:addPoint"]}
{"id": "C144", "title": "Categorical sampling in double arithmetic", "statement": "sampleCategorical with rounded sums returns the category whose interval of cumulated probabilities contains the uniform draw, up to an error proportional to the number of categories and the precision of doubles, and never a category of probability zero.", "quantifier": "all vectors of probabilities, all raw random numbers", "why_tests_cant": "The error depends on all probabilities; the categories returned wrongly need particular draws.", "anchors": ["incremental_calibration/include/aslam/calibration/statistics/Randomizer.tpp:sampleCategorical"]}
{"id": "C145", "title": "Weighted estimation in double arithmetic", "statement": "After points with responsibilities are added, the mean and the variance reported by the estimator of the normal distribution, computed with rounded doubles and with the responsibilities added up in any order, are the weighted mean and variance up to an error proportional to the number of points and the precision of doubles; the estimator is valid exactly if the points of positive responsibility are not all equal; the streaming state is untouched.", "quantifier": "all states, all lists of at most 2^26 points, all lists of responsibilities that are not negative, all orders of summation", "why_tests_cant": "The errors depend on all values and on the order in which the linear algebra library adds up.", "anchors": ["incremental_calibration/src/statistics/EstimatorMLNormal1v.cpp:addPoints"]}
{"id": "C146", "title": "Weighted multivariate estimation", "statement": "Adding points with responsibilities to the multivariate estimator gives their weighted mean vector and weighted covariance matrix, the same as adding every point as often as its responsibility says; the estimate is reported valid exactly if that matrix is a covariance; with another number of responsibilities nothing happens; the streaming estimates before and after are not disturbed.", "quantifier": "all states and histories of calls, all lists of points and responsibilities (negative ones included), all dimensions", "why_tests_cant": "All histories and all lists; degenerate lists are easily forgotten in tests.", "anchors": ["incremental_calibration/include/aslam/calibration/statistics/EstimatorMLNormalMv.tpp:addPoints", "incremental_calibration/include/aslam/calibration/statistics/NormalDistributionMv.tpp:setCovariance"]}
{"id": "C147", "title": "A chi-square distribution stays one", "statement": "After any history of calls a chi-square distribution has the density of the chi-square distribution with the degrees of freedom it reports, these as its mean and twice these as its variance; the degrees of freedom are those of the last accepted call.", "quantifier": "all histories of calls, rejected ones included, all degrees of freedom", "why_tests_cant": "All histories; inherited setters act on the same object.", "anchors": ["incremental_calibration/src/statistics/ChiSquareDistribution.cpp", "incremental_calibration/include/aslam/calibration/statistics/GammaDistribution.tpp"]}
{"id": "C148", "title": "Poisson sampling in double arithmetic", "statement": "For every positive mean, samplePoisson returns the number of arrivals before the mean of a process whose gaps are independent and exponential, computed from the uniform draws: the number of leading draws whose product exceeds exp(-mean), up to roundings; means that are not positive are rejected without a draw.", "quantifier": "all means, all sequences of raw random numbers", "why_tests_cant": "The product of the draws loses its meaning below the smallest double, which only means of some hundreds show.", "anchors": ["incremental_calibration/include/aslam/calibration/statistics/Randomizer.tpp:samplePoisson"]}
{"id": "C149", "title": "Geometric and exponential sampling in double arithmetic", "statement": "For every probability of (0, 1], sampleGeometric returns the number of failures before the first success that the first uniform draw other than zero stands for, and sampleExponential returns the quantile that draw stands for, up to roundings; other probabilities and rates that are not positive are rejected without a draw.", "quantifier": "all probabilities and rates, all sequences of raw random numbers, all logarithm functions accurate to one unit in the last place", "why_tests_cant": "Roundings matter for tiny probabilities, which tests do not use.", "anchors": ["incremental_calibration/include/aslam/calibration/statistics/Randomizer.tpp:sampleGeometric", "incremental_calibration/include/aslam/calibration/statistics/Randomizer.tpp:sampleExponential"]}
{"id": "C150", "title": "No use of a destroyed design variable", "statement": "A client may release its shared pointers to design variables and batches at any time: every variable an incremental problem has, enumerates or lists, and every variable an error term of an existing batch points to, exists; no call on the problem or on a batch uses a destroyed variable, all calls behave as if nothing had been released.", "quantifier": "all histories of calls on the incremental problem and its batches, with shared pointers released and taken at any time", "why_tests_cant": "All histories; a destroyed object often seems to work in a test.", "anchors": ["incremental_calibration/src/core/IncrementalOptimizationProblem.cpp:saveDesignVariables restoreDesignVariables clear add", "incremental_calibration/src/core/OptimizationProblem.cpp:addErrorTerm clear", "incremental_calibration/include/aslam/calibration/core/IncrementalOptimizationProblem.h"]}
{"id": "C151", "title": "Information gains in double arithmetic", "statement": "The reported information gain is half of the difference of the log sums up to rounding, has its sign and is zero just if they are equal; without force and without an increase of the rank only batches whose exact gain exceeds the threshold are accepted, and with a valid solution all whose exact gain exceeds it by one part in 2^52; over any history the reported gains of the accepted batches sum to half of the increase of the log sum up to one part in 2^53 - 1 of their magnitudes.", "quantifier": "all histories of calls on the estimator and its batches, all log sums and thresholds in double precision, whatever the optimizer does", "why_tests_cant": "All histories; rounding shows only for particular numbers.", "anchors": ["incremental_calibration/src/core/IncrementalEstimator.cpp:addBatch"]}
{"id": "C152", "title": "Gamma sampling in double arithmetic", "statement": "For every positive shape and inverse scale sampleGamma returns a finite number that is not negative: the sum of as many exponential samples as the integral part of the shape says, plus, if the shape has a fractional part, the number of the first accepted round of the rejection loop, divided by the inverse scale, up to roundings; the functions it calls get arguments in their domains; other shapes and inverse scales are rejected without a draw.", "quantifier": "all shapes and inverse scales, all sequences of raw random numbers, all functions log, pow, exp accurate as assumed", "why_tests_cant": "All sequences of draws; the dangerous draws are rare.", "anchors": ["incremental_calibration/include/aslam/calibration/statistics/Randomizer.tpp:sampleGamma"]}
{"id": "C153", "title": "Sum of the logs of a diagonal in double arithmetic", "statement": "For a matrix with at least as many rows as columns computeSumLogDiagR returns the sum of log2 of the magnitudes of the diagonal entries above machine epsilon within one part in 2^51 per column of the sum of their magnitudes; it is exact if the entries are powers of two; half the difference of two such sums is as near to the exact gain; the number does not depend on the order of the columns; an invalid column range is rejected.", "quantifier": "all matrices of doubles with at most 2^50 columns, all column ranges, all logarithms accurate to one unit in the last place", "why_tests_cant": "Rounding errors accumulate over the columns; all sizes.", "anchors": ["incremental_calibration/include/aslam/calibration/algorithms/matrixOperations.tpp:computeSumLogDiagR"]}
{"id": "C154", "title": "At most one singleton", "statement": "At most one object of a singleton class exists at any time; a second construction is refused and changes nothing; getInstance always returns the existing object, constructs it if there is none, and fails only if that construction fails; exists says whether there is one; this also if several threads call it.", "quantifier": "all histories of constructions (failed ones included), destructions, getInstance and exists; all schedules of any number of threads that call getInstance", "why_tests_cant": "All histories and schedules; a race shows rarely.", "anchors": ["incremental_calibration/include/aslam/calibration/base/Singleton.tpp:Singleton getInstance exists"]}
{"id": "C155", "title": "Window boundaries in double arithmetic", "statement": "The calibrators compute the age of a window in double arithmetic, from nanoseconds: a window is submitted by the first measurement that is the window duration or more after its start, to the nanosecond, and not by an earlier one; so any two measurements of a submitted window are less than the window duration apart (time delay and car calibrator: or the window holds just two poses, the second of which ends it).", "quantifier": "all window durations of whole nanoseconds, all time stamps and histories with non-decreasing time stamps, nsecToSec by division or by multiplication", "why_tests_cant": "All durations and time stamps; roundings matter only for particular ones.", "anchors": ["incremental_calibration_examples/incremental_calibration_examples_time_delay/src/algo/Calibrator.cpp:addMeasurement", "incremental_calibration_examples/incremental_calibration_examples_egomotion_sensors/src/algo/Calibrator.cpp:addMeasurement", "incremental_calibration_examples/incremental_calibration_examples_car/src/algo/CarCalibrator.cpp:addMeasurement"]}
{"id": "C156", "title": "Multivariate streaming estimator in double arithmetic", "statement": "Adding points in double arithmetic to a multivariate ML estimator, after any calls: mean and covariance are those of the points since the last reset up to roundings, entry by entry and relative to the magnitudes of the two components; the covariance computed is exactly symmetric, so that the estimator is valid exactly if the test for positivity accepts it and no variance is negative; it is valid if the points vary more than the roundings in every direction; component by component mean and variance are those of the univariate estimator; valid just if the points have a positive definite covariance.", "quantifier": "all histories of calls, all dimensions, all lists of points (error bounds: up to 2^26 since the last reset), whatever the test for positivity does", "why_tests_cant": "Rounding errors accumulate over histories of every length; all dimensions.", "anchors": ["incremental_calibration/include/aslam/calibration/statistics/EstimatorMLNormalMv.tpp:addPoint addPoints reset", "incremental_calibration/include/aslam/calibration/statistics/NormalDistributionMv.tpp:setCovariance", "incremental_calibration/include/aslam/calibration/utils/OuterProduct.tpp:compute"]}
{"id": "C157", "title": "Normal sampling in double arithmetic", "statement": "sampleNormal in double arithmetic: for every positive variance and every sequence of raw random numbers it returns the mean plus the standard deviation times u sqrt(-2 log(s)/s) of the first pair of draws inside the unit disc, up to roundings; no sample is further from the mean than 9.35 standard deviations; the functions it calls get arguments in their domains and the test for s == 0 never decides; it returns just if some pair is inside the disc; other variances are rejected without a draw.", "quantifier": "all means and variances, all sequences of raw random numbers, all functions log and sqrt accurate to one unit (half a unit) in the last place", "why_tests_cant": "All sequences of draws; the dangerous draws are rare.", "anchors": ["incremental_calibration/include/aslam/calibration/statistics/Randomizer.tpp:sampleNormal", "incremental_calibration/src/statistics/NormalDistribution1v.cpp:getSample"]}
{"id": "C158", "title": "Key frame decision in double arithmetic", "statement": "With disparities computed in double arithmetic a frame becomes a key frame if there are enough tracks and the median of the exact distances the tracked points moved exceeds the threshold, and not if it does not exceed it.", "quantifier": "all images, tracks, image points and thresholds that are not negative, all roots accurate to half a unit in the last place", "why_tests_cant": "All inputs; roundings matter only next to the threshold.", "anchors": ["incremental_calibration_vision/src/vision/VisionDataAssociation.cpp addImage, computeDisparity"]}
{"id": "C159", "title": "Log-factorial in double arithmetic", "statement": "LogFactorialFunction(n) computed in double arithmetic is log(n!) within a relative error of n/2^52, exactly 0 for n = 0 and n = 1, and strictly increasing from 1 on; LogGammaFunction<size_t>(n) is as near to log((n-1)!), with n = 0 rejected.", "quantifier": "all n up to 2^50, all logarithms accurate to one unit in the last place", "why_tests_cant": "Rounding errors accumulate over n terms; all n.", "anchors": ["incremental_calibration/src/functions/LogFactorialFunction.cpp:getValue", "incremental_calibration/src/functions/LogGammaFunction.cpp:getValue"]}
{"id": "C160", "title": "Multivariate normal sampling in double arithmetic", "statement": "getSample of a multivariate normal distribution in double arithmetic: with the triangular factor L of the distribution, component i is the mean plus the sum of L(i,j) times a standard normal number for j up to i, each such number from its own, successive draws, up to a relative error of (i + 12) 2^-52 of the terms' magnitudes, whatever order the linear algebra library adds them up in; no component is further from its mean than 9.36 times the sum of the magnitudes of its row; the call returns exactly if every component's rejection loop does, and then a vector of finite numbers.", "quantifier": "all dimensions up to 2^40, all means and factors, all sequences of raw random numbers, all orders of summation, all functions log and sqrt accurate to one unit (half a unit) in the last place", "why_tests_cant": "All sequences of draws and orders of summation.", "anchors": ["incremental_calibration/include/aslam/calibration/statistics/NormalDistributionMv.tpp:getSample", "incremental_calibration/include/aslam/calibration/statistics/Randomizer.tpp:sampleNormal"]}
{"id": "C161", "title": "Normal density in double arithmetic", "statement": "After any history of calls on a normal distribution (refused ones included) pdf and logpdf, computed in double arithmetic, are those of the normal distribution with the mean and the variance last accepted, up to a relative (for logpdf absolute) error proportional to the squared distance from the mean in standard deviations plus the magnitude of the log of the normalization plus one; the density computed never increases with the distance from the mean and is symmetric about it.", "quantifier": "all histories of calls, all points (relative error of the density: where it is between exp(-700) and exp(700)), all functions log and exp accurate to one unit in the last place (order: exp monotone)", "why_tests_cant": "All histories, points and variances; rounding errors grow with the distance from the mean.", "anchors": ["incremental_calibration/src/statistics/NormalDistribution1v.cpp:setMean setVariance pdf logpdf mahalanobisDistance"]}
{"id": "C162", "title": "Normal distribution function in double arithmetic", "statement": "After any history of calls on a normal distribution (refused ones included) cdf(x), computed in double arithmetic, is the probability of values not above x under the normal distribution with the mean and the variance last accepted, up to 2^-50; it never decreases, stays between 0 and 1 and is exactly one half at the mean.", "quantifier": "all histories of calls, all points, all functions sqrt and erf accurate to half a unit (one unit) in the last place (order and range: erf monotone, within -1 and 1)", "why_tests_cant": "All histories, points and variances.", "anchors": ["incremental_calibration/src/statistics/NormalDistribution1v.cpp:cdf setMean setVariance"]}
{"id": "C163", "title": "Normal Kullback-Leibler divergence in double arithmetic", "statement": "After any histories of calls on two normal distributions (refused ones included) KLDivergence, computed in double arithmetic, is the Kullback-Leibler divergence of the normal distributions with the means and variances last accepted, up to 2^-49 of the sum of the magnitudes of the terms it adds up; it is never negative, and zero for equal distributions.", "quantifier": "all histories of calls on the two distributions, all logarithms accurate to one unit in the last place", "why_tests_cant": "All histories; the roundings matter for nearly equal distributions.", "anchors": ["incremental_calibration/src/statistics/NormalDistribution1v.cpp:KLDivergence setMean setVariance"]}
