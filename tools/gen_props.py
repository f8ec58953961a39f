#!/usr/bin/env python3
"""Single source for properties.jsonl (run: python3 tools/gen_props.py)."""
import json, os
P=[]
IC="incremental_calibration/"
INC=IC+"include/aslam/calibration/"
def add(id,title,statement,quantifier,why,anchors):
    P.append(dict(id=id,title=title,statement=statement,quantifier=quantifier,why_tests_cant=why,anchors=anchors))
OP=[IC+"src/core/OptimizationProblem.cpp"]
IP=[IC+"src/core/IncrementalOptimizationProblem.cpp"]
IE=[IC+"src/core/IncrementalEstimator.cpp"]
add("C01","A batch enumerates its design variables completely and without repetition",
"After any history of calls on an OptimizationProblem, designVariable(i) for i = 0 .. numDesignVariables()-1 succeeds and enumerates every added design variable exactly once, group after group in getGroupsOrdering() order; i >= numDesignVariables() throws. isDesignVariableInProblem/getGroupId agree with that enumeration.",
"every finite sequence of public operations (accepted or rejected) on a batch and every index",
"A unit test visits a handful of histories; the claim needs an invariant over all operation sequences linking four redundant containers.",
OP+["OptimizationProblem::addDesignVariable","OptimizationProblem::designVariableImplementation","OptimizationProblem::getGroupId"])
add("C02","A batch never holds an error term over a foreign design variable, nor the same error term twice",
"After any history, every error term stored in a batch depends only on design variables of that batch, error terms are pairwise distinct, numErrorTerms() is the number of accepted error terms, and errorTerm(i) succeeds exactly for i < numErrorTerms().",
"every finite operation sequence, every index",
"Depends on two containers (set and vector) staying in step for every history including rejected calls and permutations.",
OP+["OptimizationProblem::addErrorTerm","OptimizationProblem::errorTermImplementation"])
add("C03","A rejected call leaves a batch untouched",
"If addDesignVariable, addErrorTerm, setGroupsOrdering or permuteDesignVariables/permuteErrorTerms throws, the batch is exactly as before the call.",
"every reachable batch state and every argument that makes the call throw",
"All combinations of states and bad arguments cannot be sampled; the permutation entry points are in fact not strongly exception safe.",
OP+[INC+"algorithms/permute.tpp"])
add("C04","setGroupsOrdering accepts exactly the reorderings of the present groups",
"setGroupsOrdering(o) succeeds iff o is a permutation of the current groups ordering; on success getGroupsOrdering() = o, and the set of design variables, their groups and the order inside each group are unchanged.",
"every reachable batch / incremental problem and every vector of group ids",
"Needs equivalence of three run-time checks with being a permutation, for all vectors.",
OP+IP+["setGroupsOrdering"])
add("C05","Group dimensions partition the Jacobian columns",
"The sum of getGroupDim(g) over getGroupsOrdering() equals the sum of minimalDimensions() of the active design variables enumerated by designVariable(i); inactive variables contribute nothing; unknown groups throw.",
"every reachable state, every activity flag assignment and every dimension",
"Quantifies over all activity patterns and group structures.",
OP+IP+["getGroupDim"])
add("C06","save/restore of design variables is an exact snapshot",
"After saveDesignVariables(), any change of values, then restoreDesignVariables(), every design variable that was in the problem at save time has its saved value, every other variable keeps its current value, independent of the hash-map iteration order.",
"every reachable batch state, every interleaved value change, every iteration order",
"unordered_map iteration order and interleaved updates cannot be enumerated.",
OP+["OptimizationProblem::saveDesignVariables","OptimizationProblem::restoreDesignVariables"])
add("C07","permute applies the requested permutation",
"For every container and every index vector that is a permutation of 0..n-1, permute terminates normally and element i afterwards is the element that was at permutation[i].",
"all container sizes, contents and all permutations",
"The in-place cycle-chasing loop has to be right for n! permutations of every n.",
[INC+"algorithms/permute.tpp","permute"])
add("C08","permute never loses or duplicates an element",
"Whatever index vector is passed (valid, out of range, non-injective), if permute returns or throws, the container holds exactly the same multiset of elements as before.",
"all containers and all index vectors",
"Arbitrary bad inputs.",
[INC+"algorithms/permute.tpp","permute"])
add("C09","permute rejects or survives every invalid permutation vector",
"For every index vector of the right length permute terminates, and it throws for every vector that is not a permutation.",
"all index vectors",
"Non-termination is not observable by a test; the property is false (e.g. {0,0} loops for ever, {1,1} is silently accepted).",
[INC+"algorithms/permute.tpp","permute"])
add("C10","Reference counts equal the number of batches using a variable",
"After any history of successful add/remove/clear/reorder calls, a design variable is in the incremental problem iff some contained batch holds it, its internal use count is the number of such batches, and its group is the group it has in all of them.",
"every finite sequence of add/remove/clear/setGroupsOrdering/permute/save/restore calls",
"Invariant over unbounded histories with shared variables.",
IP+["IncrementalOptimizationProblem::add","IncrementalOptimizationProblem::remove"])
add("C11","Groups of the incremental problem are exactly the groups in use",
"After any such history getGroupsOrdering() is duplicate free and lists exactly the groups of the contained design variables; no empty group remains; each variable appears in exactly one group list, once.",
"every finite operation sequence",
"Erasure logic on the last variable of a group interacts with every earlier history.",
IP+["add","remove","getGroupsOrdering","getDesignVariablesGroups"])
add("C12","The incremental problem enumerates its design variables completely and without repetition",
"designVariable(i), i < numDesignVariables(), succeeds and enumerates the variables of the contained batches, each once, group after group in getGroupsOrdering(); larger i throw.",
"every finite operation sequence and every index",
"The solver's column layout depends on it for all histories.",
IP+["designVariableImplementation","getGroupId"])
add("C13","Error terms of the incremental problem are the concatenation of its batches' error terms",
"numErrorTerms() is the sum over batches and errorTerm(i) is the i-th element of the concatenation in batch order (out of range throws); no error term occurs twice.",
"every finite operation sequence and every index",
"Running-index arithmetic over arbitrarily many batches of arbitrary sizes (including empty ones).",
IP+["errorTermImplementation","getErrorIdx","numErrorTermsImplementation"])
add("C14","Removing a batch that was just added is the identity",
"If add(b) succeeds on a problem that does not contain b, then remove(b) succeeds and restores batches, counts, groups and groups ordering exactly.",
"every reachable problem state and every batch",
"All shapes of sharing between b and the existing batches.",
IP+["add","remove"])
add("C15","A failed add leaves the incremental problem unchanged",
"If add(b) throws (null batch, group mismatch, duplicate error term) the problem is unchanged.",
"every reachable state and every batch",
"False for the code: group mismatch and duplicate error term leave half of the bookkeeping applied; only the null check is safe.",
IP+["add"])
add("C16","remove takes out exactly one batch and keeps the others in order",
"remove(i) removes the i-th batch, keeps the relative order of the others, drops exactly the design variables used only by that batch, keeps relative order of remaining variables and groups; out-of-range indices throw and change nothing.",
"every reachable state and index",
"Index/erase arithmetic for all states.",
IP+["remove"])
add("C17","Restoring variables after clear() has no effect on removed variables",
"After clear() (or removal) restoreDesignVariables() only touches variables that are still in the incremental problem.",
"every operation history",
"False after clear(): the backup map survives (dangling pointers); true for histories without clear().",
IP+["clear","restoreDesignVariables"])
add("C18","A rejected batch leaves no trace in the estimator",
"If addBatch(b) returns batchAccepted = false then the batches, design variables, groups, ordering, values of all design variables of the problem and every statistic returned by the estimator's getters are as before the call.",
"every estimator history, every batch not already contained, every optimizer outcome",
"The optimizer may move every variable arbitrarily; the claim ranges over all its outcomes and all histories.",
IE+["IncrementalEstimator::addBatch"])
add("C19","The acceptance rule",
"addBatch(b, force) accepts iff force, or the solution is valid and (informationGain > infoGainDelta or rankTheta increased), where with checkValidity a solution is invalid iff the iteration budget was exhausted or the cost did not decrease; informationGain = (svLog2Sum_new - svLog2Sum_old)/2.",
"all optimizer outcomes, all options",
"Decision logic over the full (real valued) outcome space.",
IE+["addBatch"])
add("C20","Calibration variables always occupy the last Jacobian columns",
"Whenever the optimizer is run by addBatch or reoptimize, the marginalised group is last in the groups ordering and the marginalisation index handed to the linear solver is the number of Jacobian columns of all other groups, so that exactly the columns of the marginalised group follow it.",
"every estimator history",
"Needs the ordering invariant for unbounded histories and arbitrary group structures.",
IE+["orderMarginalizedDesignVariables","reoptimize","addBatch"])
add("C21","The estimator's batches are the accepted, not yet removed ones, in order",
"After any sequence of addBatch/removeBatch calls the batches of the estimator's problem are exactly those reported accepted and not removed since, in acceptance order; getNumBatches() is their number.",
"every call sequence and every optimizer outcome",
"History property.",
IE+["addBatch","removeBatch","getNumBatches"])
add("C22","A throwing addBatch leaves the estimator unchanged",
"If addBatch throws (e.g. the batch lacks the marginalised group on an empty estimator) the estimator still contains exactly the previous batches.",
"every state and batch",
"False: the batch stays inside when the marginalised group is missing.",
IE+["addBatch","orderMarginalizedDesignVariables"])
add("C23","removeBatch ignores unknown batches and removes known ones once",
"removeBatch(b) with b not contained changes nothing; otherwise exactly the first occurrence is removed and the remaining problem is reoptimised with information gain reported as 0.",
"every estimator state",
"History property.",
IE+["removeBatch"])
add("C24","After a rejection the linear solver layout is dense and disjoint",
"restoreLinearSolver gives the active design variables block indices 0..k-1 in enumeration order, column ranges that are consecutive, disjoint and cover 0..JCols-1, and error terms consecutive disjoint row ranges covering all rows.",
"every problem, every dimension assignment",
"All layouts.",
IE+["restoreLinearSolver"])
add("C25","Information gains telescope",
"Over any sequence of addBatch calls the sum of the information gains of the accepted batches is half of the difference of final and initial singular-value log sum; rejected batches contribute nothing; without force every accepted batch either exceeded infoGainDelta or raised the rank.",
"every sequence of addBatch calls",
"Unbounded histories with real-valued outcomes.",
IE+["addBatch"])
G=[INC+"data-structures/Grid.tpp"]
add("C26","Grid cell lookup is total and in range on the grid's domain",
"For every constructed grid and every point with minimum <= p <= maximum, getIndex(p) is a valid index of the grid whose cell contains p; points outside throw.",
"all grids (any dimension, real and integer coordinates), all points",
"Boundary cases for all resolutions.",
G+["Grid::getIndex","Grid::isInRange"])
add("C27","Grid coordinates and indices round-trip",
"getIndex(getCoordinates(idx)) = idx for every valid index whose cell centre lies in the domain; the only cells for which it fails to be accepted are last cells cut by the maximum.",
"all grids and valid indices",
"All resolutions/ranges.",
G+["getCoordinates","getIndex"])
add("C28","Linear cell addressing is a bijection",
"computeLinearIndex maps the valid multi-indices one-to-one onto 0..(product of numCells)-1, hence distinct cells never share storage.",
"all dimensions and cell counts, all indices",
"Mixed-radix arithmetic for all shapes.",
G+["computeLinearIndex","operator[]"])
add("C29","incrementIndex visits every cell exactly once",
"Starting from the zero index, repeated incrementIndex enumerates every valid index exactly once and then yields the end sentinel.",
"all dimensions and cell counts",
"Odometer loop for all shapes.",
G+["incrementIndex"])
add("C30","Invalid grid indices are rejected",
"Cell accesses with an index outside [0,numCells) in some dimension throw.",
"all indices",
"False for negative components: isValidIndex only checks the upper bound.",
G+["isValidIndex","operator[]"])
add("C31","Histogram counts exactly the in-range samples",
"After any sequence of addSample calls the sum over all bins is the number of in-range samples, each bin counts the samples falling in it, the result is independent of the sample order, and out-of-range samples change nothing; the normalised histogram sums to one if any sample was counted.",
"all sample sequences, all grids",
"Unbounded sample streams.",
[INC+"statistics/Histogram1v.tpp",INC+"statistics/HistogramMv.tpp","addSample","getNormalized"])
add("C32","Design variable update/revert",
"For a vector design variable, update(d) followed by revert() restores the value before update, updates add up, get/setParameters round-trip and a dimension mismatch throws without changing the value.",
"all dimensions, values and update sequences",
"All histories.",
[INC+"core/VectorDesignVariable.tpp"])
add("C33","Rigid transformation inverse",
"inverse() of a transformation built from rotation and translation maps T(p) back to p; applying inverse twice gives the original transformation.",
"all rotations, translations and points",
"Real-valued domain; the second half is false for the code.",
[INC+"geometry/Transformation2d.tpp",INC+"geometry/Transformation3d.tpp"])
add("C34","Streaming maximum-likelihood estimation equals batch estimation",
"After addPoint for each of a sequence of samples, the estimator's mean and variance are the sample mean and (population) variance of the whole sequence, independent of order, and validity is reported iff the variance is positive.",
"all sample sequences",
"Unbounded streams.",
[IC+"src/statistics/EstimatorMLNormal1v.cpp",INC+"statistics/EstimatorMLNormalMv.tpp"])
add("C35","Uniform distribution moments",
"getMean() of a uniform distribution lies in its support and equals (min+max)/2; its pdf integrates to one.",
"all supports",
"False for the mean in the code: 0.5*(max-min).",
[INC+"statistics/UniformDistribution1v.tpp",INC+"statistics/UniformDistributionMv.tpp"])
CAR="incremental_calibration_examples/incremental_calibration_examples_car/"
add("C36","No measurement is lost or used twice by the car calibrator's windowing",
"For every stream of measurements, each measurement is in exactly one place: one submitted batch, one discarded window (fewer than two poses) or the current buffer, in arrival order; a measurement never triggers a flush of itself.",
"all measurement streams and window durations",
"Unbounded streams and arbitrary time stamps.",
[CAR+"src/algo/CarCalibrator.cpp","addMeasurement","addMeasurements","clearMeasurements"])
add("C37","Car calibrator windows are bounded in time and histories stay aligned",
"With non-decreasing time stamps every batch submitted spans less than the window duration; the information gain history has one entry per submitted batch and the parameter history exactly one more.",
"all measurement streams with ordered time stamps",
"Unbounded streams.",
[CAR+"src/algo/CarCalibrator.cpp","addMeasurement","addMeasurements"])
V="incremental_calibration_vision/"
add("C38","Vision frame bookkeeping",
"Frame identifiers handed out by the data association are strictly increasing and never reused, also across reset(); every stored frame has the id under which it is stored.",
"all image streams and tracker outcomes",
"Unbounded streams.",
[V+"src/vision/VisionDataAssociation.cpp","addImage","reset"])
add("C39","Analytic Jacobians of the error terms are the derivatives of the errors",
"For the 2D-LRF motion and observation error terms and the car pose/velocity/steering/wheel error terms the Jacobian blocks handed to the optimizer are the partial derivatives of the evaluated error wherever it is differentiable.",
"all real values of the design variables and measurements",
"A continuum of inputs; finite differences only sample.",
["incremental_calibration_examples/incremental_calibration_examples_2dlrf/src/2dlrf/ErrorTermMotion.cpp","incremental_calibration_examples/incremental_calibration_examples_2dlrf/src/2dlrf/ErrorTermObservation.cpp",CAR+"src/error-terms"])
add("C40","Wheel error Jacobian holds in both driving directions",
"The front-wheel error term's Jacobian is the derivative of its error for forward and backward motion.",
"all velocities with non-zero speed",
"False for backward motion in the code.",
[CAR+"src/error-terms/ErrorTermWheel.cpp"])
add("C41","Geodetic frame conversions are inverse to each other",
"enu2ecef(ecef2enu(p)) = p and vice versa for the same reference point; distances are preserved.",
"all points and reference angles",
"Real-valued domain.",
[CAR+"src/geo/geodetic.cpp"])
add("C42","Categorical sampling maps each uniform draw to the right category",
"For probabilities summing to one and every draw u in (0,1) the returned category k is the one with cum(k-1) < u <= cum(k): in particular categories of probability 0 are never returned and an index is always found.",
"all probability vectors and all draws",
"A continuum of draws.",
[INC+"statistics/Randomizer.tpp","sampleCategorical"])
add("C43","Log-factorial",
"LogFactorialFunction(n) = log(n!) for every n, and LogGammaFunction<size_t>(n) = log((n-1)!) with n = 0 rejected.",
"all n",
"All natural numbers.",
[IC+"src/functions/LogFactorialFunction.cpp",INC+"functions/LogGammaFunction.h"])
add("C44","Timestamps order consistently with their value",
"Timestamp comparison operators are mutually consistent with the (sec,nsec) order and conversion between timespec and seconds is monotone.",
"all time stamps",
"All values.",
[IC+"src/base/Timestamp.cpp"])
add("C45","Odometry parameter vector reports every parameter",
"OdometryDesignVariables::getParameters returns all calibration parameters, each in its own slot, so that the vector determines them.",
"all parameter values",
"False for the code: the DMI time delay overwrites the last steering coefficient and the last slot is never written.",
[CAR+"src/algo/OdometryDesignVariables.cpp"])
add("C46","Changing an error term's covariance changes its weighting",
"After setCovariance(R) the weighting used by the optimizer is the inverse of R.",
"all covariances",
"False: setters do not update the stored inverse.",
[CAR+"src/error-terms"])
add("C47","Sum of log diagonal uses exactly the requested columns",
"computeSumLogDiagR(R,b,e) sums log2|R(i,i)| over b <= i <= e, ignoring entries not larger than machine epsilon in magnitude; invalid ranges are rejected before any access.",
"all matrices and column ranges",
"All sizes and ranges; false for matrices with fewer rows than columns (rows unchecked).",
[INC+"algorithms/matrixOperations.tpp"])
json_path=os.path.join(os.path.dirname(__file__),"..","properties.jsonl")
exec(open(os.path.join(os.path.dirname(__file__),"more_props.py")).read()) if os.path.exists(os.path.join(os.path.dirname(__file__),"more_props.py")) else None
with open(json_path,"w") as f:
    for p in P: f.write(json.dumps(p)+"\n")
print(len(P))
