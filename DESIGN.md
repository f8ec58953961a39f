# Formal model of aslam_incremental_calibration — design

## Method
Lean 4.33 model of the code in `/repo`, function by function; every definition cites file and lines.
Models are in `lean/Verif/Model/*.lean`, property theorems in `lean/Verif/Props/*.lean`, helper lemmas in
`lean/Verif/Lemmas/*.lean`.  The vocabulary the theorems are stated in (lists, functions, reals, multisets, small
definitions) is in `lean/Verif/Spec/*.lean` or at the top of the property file, and does not use model helpers.
Beside each theorem an `example` shows a concrete case that meets its hypotheses.

Properties that turned out to be **false** of the code keep their full statement in `properties.jsonl`; the file proves the
negation on a concrete witness (usually for a whole class of inputs) and, as `…_partial` or under an explicit hypothesis,
the part that does hold.  They have status `partial` in `MANIFEST.json`, with the missing part in the note.

### Outcomes
C++ calls end in one of: normal return, a thrown exception *with the possibly half-modified object state at
that point*, undefined behaviour, or non-termination. The model has an explicit result type
`Res σ α = ok a s | throw e s | ub | diverge`; nothing is totalised away.

### Heap
Design variables, error terms and batches are shared by pointer. Pointers are natural numbers (`DVId`, `ETId`,
`BatchId`); null is `none`. The content of the heap (values, activity, dimensions of variables; the
batches) is a parameter of the operations that read or write it, so aliasing between batches is modelled.

### Hash maps
`std::unordered_map/set` are association lists with the uniqueness of keys as a *theorem*. Wherever the C++
iterates over a hash map the theorems are stated pointwise or for every order.

### Numbers
`size_t` is modelled by `Nat` where overflow needs more objects than memory can hold; where a narrower type can overflow
(`int` indices of the grid, `unsigned` counters, `int` numbers of segments, 64 bit cell counts) the width is modelled.
Doubles are exact rationals / reals / an arbitrary ordered field, except: the loops over time, the uniform samples and the numbers of segments and time stamps of C132, C133, C139, C141, C143, C144, C145, C148, C149, C151, C152, C153, C155, C156, C157, C158, C159, C160, C161, C162 and C163,
where every operation is rounded to the nearest double (`Spec/Double.lean`, without overflow and underflow); the grid and histogram are also instantiated with
correctly rounded binary64 (`Spec/Rounding.lean`), the ML estimator likewise, and the estimator's comparisons are an
arbitrary operation (`FOps`), so NaN is included there.  Elsewhere rounding, NaN and infinities are not modelled.

### External code
aslam_optimizer (`Optimizer2::optimize`), the linear solver, splines, the visual tracker, the checkerboard detector, camera
projection, and random number generators are *oracles*: arbitrary functions universally quantified in the theorems. Any
assumption on an oracle is an explicit hypothesis of the theorem.

## Trusted base
* Lean 4 kernel. Axioms per theorem: `AXIOMS.md` (generated by `tools/gen_axioms.py` with `#print axioms`): at most
  `propext`, `Classical.choice`, `Quot.sound`.  No own axioms, no compiled evaluation.
* The reading of the C++ into the model (cited lines).
* Mathlib's definitions (reals, matrices, measures, derivatives) where theorems mention them.

## What is modelled
| code | model |
|------|-------|
| `core/OptimizationProblem`, `core/IncrementalOptimizationProblem`, `core/IncrementalEstimator` | `OptProblem`, `IncProblem`, `Estimator` |
| shared and raw pointers of batches and problem | `Ownership` |
| `algorithms/permute`, `algorithms/matrixOperations` | `Permute`, `Small` |
| `data-structures/Grid`, `VectorDesignVariable` | `Grid`, `Small` |
| `base/Singleton` (its header is not in the repository) | `Singleton` |
| `base/Timestamp`, `functions/LogFactorial*`, `LogGamma*`, `Digamma` (as used), `utils/OuterProduct`, `base/Serializable` and the write members, `exceptions/*` | `Small`, `LogGamma`, `Stats`, `Serial`, `ExcText` |
| `geometry/Transformation2d,3d` | `Geometry` |
| `statistics/*` (histograms, ML estimators, normal, uniform, Gamma, chi-square, multivariate normal, Randomizer, sampling) | `Grid`, `Stats`, `GammaCdf`, `Sampling`, `SamplingIdeal`, `NormalMv` |
| Python interface of the estimator and its problem | `PyEstimator` |
| vision package | `Vision` |
| 2dlrf error terms, utilities, programs | `ErrorTerms`, `Lrf`, `OnlineNew` |
| car: calibrator, error terms, odometry variables, geodetic, programs, options | `Car`, `CarPredict`, `CarKin`, `CarMain`, `CarFiles`, `CarResults`, `CarAnalysis`, `ErrorTerms`, `Odometry`, `Geodetic`, `Options` |
| time delay: calibrator, simulator, options | `Window`, `TimeDelay`, `SimTD`, `Options`, `SimParams`, `TDMain`, `SimFiles` |
| egomotion: calibrator, simulator, options | `Window`, `Egomotion`, `SimEgo`, `Options`, `SimParams`, `EgoFiles` |
| camera: calibrator, validator, programs | `Camera`, `CameraReport`, `CameraMain`, `CameraValMain` |
| spline batches, `bestQuat`, `writeSplines` | `SplineBatch` |
| the calibrators with the estimator of the library (car 347-371, time delay 250-268, egomotion 101-115) | `CalibLib` |
| `aslam_tsvd_solver` | `TsvdAdapter` |

## What is not modelled
* External libraries: aslam_optimizer, aslam_splines, sm_*, truncated-svd-solver, SuiteSparse, OpenCV, ROS, Eigen
  decompositions, boost, glog; floating point rounding except where listed above; memory exhaustion; threads (the code has
  none of its own; only C154 considers callers that have some).
* The formatting of numbers, console output, plotting; files only in C61, C100, C110, C135-C138, C140.
* Template metaprogramming beyond the type traits of C142, the `Distribution`/`Function` interface classes (no behaviour).
* Exception message texts outside C131 (elsewhere only the class of an exception is modelled).
* Python bindings: modelled where they differ from the C++ interface (`getProblem` without const, C119); the rest is thin forwarding.
* The repository's own tests.

## Plan per property
| id | model | proof |
|----|-------|-------|
| C01–C06 | `OptimizationProblem` as a state machine, all public mutators as `Op` | invariant over arbitrary op lists |
| C07–C09 | `permute` with the inner `while` loop as fuelled chase with exact divergence detection | loop invariant; pigeonhole; witnesses for false part |
| C10–C17, C48, C49 | `IncrementalOptimizationProblem` over a heap of batches | invariant + exact add/remove inverse; witnesses for false parts (C15, C17) |
| C18–C25, C50 | `IncrementalEstimator` with optimizer/solver as oracle | invariant over histories, decision logic |
| C26–C31, C51–C53, C66 | `Grid`, `Histogram` over ordered fields, integers and binary64 | arithmetic / induction over dimension; store laws |
| C32 | `VectorDesignVariable` | induction over updates |
| C33 | `Transformation2d/3d` matrices | ring identities; counterexample |
| C34 | ML estimators | induction over the stream |
| C35, C54, C56, C57 | distributions | integrals from Mathlib; counterexamples |
| C36–C37, C58–C60 | car calibrator windowing state machine, batch construction | induction over the stream |
| C38, C62–C64 | vision data association state machine | invariants over histories |
| C39–C40, C46 | error terms over the reals; pose term (`Model/PoseTerm.lean`) against a specification of the external Euler angle functions (`Spec/Euler.lean`) | `HasDerivAt`; counterexample for backward motion |
| C41, C65 | geodetic | trigonometric and matrix identities |
| C42, C67, C68 | sampling over an oracle for `random()` | induction; measures of preimages |
| C43–C44, C55 | functions, timestamps, outer product | induction / arithmetic |
| C45, C47, C61 | odometry params, matrix operations, printed labels | decision logic; counterexamples |
| C69–C71 | time delay calibrator on the shared window machine | induction over histories |
| C72–C75 | egomotion calibrator on the shared window machine; rigid motions as an arbitrary group | induction over histories |
| C76–C80 | camera calibrator on top of the *real* batch and estimator models | invariant over histories with exceptions |
| C81–C85 | camera validator, reports, program | folds over images; invariant |
| C86–C88 | time delay simulator | closed form of the loop by induction; trigonometry |
| C89 | predicted wheel speeds of the time delay calibrator | algebra |
| C90–C91 | egomotion simulator and its program | closed form of the loops by induction; telescoping in a group; refinement to the window model |
| C92 | trajectory of the egomotion simulator | invariant of the generating loops; Cauchy–Schwarz; witness for the jump |
| C93 | `bestQuat` and the loops that align quaternion signs | algebra; induction over the list |
| C94–C98 | 2D laser example: path generator, landmark initialisation, simulated data, online and offline programs | closed form of the loops; observation model inverse; invariant of the decision loop; batches on the real batch model |
| C99 | `OptimizationProblemSpline` on top of the real batch model | refinement to base class calls; invariants over histories; witnesses |
| C100 | `writeSplines` | closed form of the loop; divergence |
| C101 | batches of the three calibrators as containers | composition of exact equations of the batch operations |
| C102 | parameter vectors and verbose reports of the time delay and egomotion calibrators | general row/label lemma, for all activity patterns |
| C103 | predictions of the car calibrator | loop equations against the gate specification of C58 |
| C104 | kinematics of the car error terms over ℝ | derivatives of a rigid motion; cross products and rotations |
| C105 | message loop and end of the car programs | snoc induction with an exact description of the loop variables |
| C106 | the `aslam_tsvd_solver` adapter around a library given as a parameter, live allocations as a counter | case analysis; induction over call histories for the allocations |
| C107 | `NormalDistributionMv` of any dimension over ℝ: setters, density, divergence, samples | reachability invariant; matrix algebra (inverse, determinant, positive definiteness) |
| C108 | constructors of options from a `PropertyTree` given as partial maps; uninitialised memory is an argument | monadic inversion; witnesses for the uninitialised order and the wrapping conversions |
| C109 | `LogGammaFunction<double>` with the wrapping 64 bit product | recursion in the dimension; `Real.Gamma` of Mathlib |
| C110 | `validateCamera.cpp` around the validator of C81; `imwrite` is an oracle | induction over the images, C81 for the report |
| C111 | the samplers on an arbitrary stream of reals (`SamplingIdeal`), bridged to `Sampling`; the stream is random with law `Draws` (infinite product of uniform laws) | rejection loops by the law of the first accepted block, sequencing of samplers, change of variables for each distribution |
| C112 | `cdf`, `invcdf`, incomplete gamma function objects, chi-square median (`GammaCdf`); boost functions as exact real functions, their error policy throws | change of variables to the unit scale, strict monotonicity and intermediate value theorem; divergence through the derivative of the gamma integral and Mathlib's `klDiv` |
| C113 | the `IncProblem` model without any restriction on histories (`IOp.runAny`, `AnyReach`); counters wrap like `size_t` | batch invariant kept by every call; exact effect of removing a batch with one variable more (a phantom entry commutes with the other removals); witnesses for the false parts |
| C114 | the two `SimulationParams(config)` over an abstract property tree, the default constructor, the maps as functions | unfolding of the reads; induction over the two loops (last entry of an index wins); composition with C86 and C107 for the simulation; witnesses |
| C115 | `main` of the time delay simulator: the simulated data fed in a loop to the calibrator, then the last submission | refinement of the loop to a history of the window calibrator, then its invariants; witnesses for one and no step |
| C116 | `predict`, `predictMotion`, `clearPredictions` of the egomotion calibrator (same model as C73) | the loops of `predictMotion` refine those of `addMotionErrorTerms`; induction over the iteration order |
| C117 | `main` of `simulate-online-new.cpp` from the creation of the estimator on: batches of C98 handed to the estimator model of C18–C25, final report | invariant over the rounds (problem = accepted batches, groups, order, values = last accepted optimization), from `AddEff` and the no-trace lemma of C18 |
| C118 | nothing new: `add`, the estimator and every later call, exceptions caught (`ERuns`, `IOp.runAny`) | invariants carried by every later call: a listed group that does not exist, a variable counted more often than held, more listed entries than groups; positive part by preservation through `addOne` |
| C119 | the Python interface of the estimator and of the problem it hands out (`PyOp`) | invariant of Python histories (`PInv`: the estimator's invariant without the parts about the backup and the order between calls); negations from the effect of `addBatch` |
| C120 | the grid constructor (`Grid.ctor`) | products of positive numbers: int overflow exactly if the product without the first factor overflows, and then the 64 bit total never wraps |
| C121 | the three calibrators with the estimator of `Model/Estimator` and the batches of `Model/SplineBatch` in place of their collaborator (`CalibLib.Env.submit`) | invariant over the windows: accepted windows are the batches of the problem, groups and order of elimination computed; then simulation of the calibrators' histories |
| C122 | the model of C121 | induction over the log of windows, from C121 |
| C123 | calibrators of C36, C69, C72; histories in which options change with every call and the estimator arbitrarily in between | induction over the histories |
| C124 | calibrator of C76 on the estimator of C18 | invariant over the public calls: what is offered is the result of one run; C18 for refused submissions |
| C125 | programs of C105, C115, C91 on the calibrators with the library estimator (C121) | end state of a program as a history; invariant: each logged batch is what its window has to give; C121, C122 |
| C126 | calibrators (Window, Car, TimeDelay, Egomotion), library estimator, programs | invariant over the rest of the program: window start and latest time in the interval, buffered and coming poses increasing, estimator answers the remaining batches; segment count bounded by the interval |
| C127 | estimator over incremental problem | case analysis of every call from the estimator invariant; refusals stated by what the batches hold (`Spec/EstOutcome`) |
| C128 | camera calibrator over the estimator | pending batch fits the problem (landmarks and camera parameters always in the same group, everything else fresh), then C127 |
| C129 | incremental problem, estimator | every answer is a function of the batches by the invariant of C10-C13; re-adding: each batch fits because all of them were together in one problem |
| C130 | drawing many samples (Model/Samples) | induction on the number; `Successive` as specification; explicit formula for the uniform box |
| C131 | text of exceptions (Model/ExcText) | the text is compared with a text written down by hand (Spec/ExcText); decimal numbers are injective |
| C132 | loops over time with rounded additions (Model/DoubleLoops) | error bound of the sums by induction; the partial sums as a sequence; witnesses by evaluating roundings |
| C133 | `sampleUniform` with every operation rounded (Model/DoubleLoops) | monotonicity of rounding; a counterexample by evaluation |
| C134 | `operator<<` / `operator>>` and the write members, with the static type of the stream (Model/Serial) | induction over the chain; splitting texts at colons; witnesses |
| C135 | the loop of the car programs with its writes, interleaved with the calls (Model/CarFiles) | refinement to the loop of C105; case analysis of the crash point |
| C136 | `main` of the time delay simulator with a directory (Model/SimFiles) | on top of C86 and C115; witness of two runs |
| C137 | `main` of the egomotion simulator with a directory (Model/EgoFiles) | on top of C90 and C91; file names of sensors are injective |
| C138 | end of the car calibration program (Model/CarResults) | on top of C135; the number of active dimensions |
| C139 | `elapsedTime`, `measPerSec`, `numSegments` with rounded doubles (Model/DoubleSegments) | relative error of three roundings against the gap between integers over 1e9; deviations characterised |
| C140 | `analyzer.cpp` with a directory (Model/CarAnalysis) | on top of C103, C105 and C135 |
| C141 | `Timestamp::now`, conversion to `timespec`, differences with rounded doubles (Model/DoubleTimestamp) | rounding is monotone and exact on integer part and fraction; relative error |
| C142 | the traits of `tpl/` on a datatype of C++ types, the overloads they enable, and the two variants of the operations (Model/Traits) | cases; integral of a constant; C67 |
| C143 | `addPoint` with every operation rounded to double (Model/Stats) | the sums are near the exact ones (induction over the history), then forward error analysis of mean and variance |
| C144 | `sampleCategorical` with every operation rounded to double (Model/DoubleCategorical) | induction over the loop: the computed sums are within `2 n 2^-53` of the exact ones; adding zero is exact |
| C145 | `addPoints` with responsibilities, every operation rounded to double, the total in any order (Model/DoubleWeighted, Spec/SumOrder) | relative errors as powers of `1 - 2^-53` (Lemmas/RelativeError), induction over the points and over the order of summation |
| C146 | `addPoints` with responsibilities of the multivariate estimator and histories of all its calls (Model/MvWeighted) | the loops are weighted sums (induction over the points); positive semi-definiteness as a sum of outer products; the streaming sums are an invariant of histories |
| C147 | histories of the setters of `ChiSquareDistribution`, inherited ones included (Model/Stats) | induction over the history; the gamma density with rate one half is the chi-square density; counterexample for `setInvScale` |
| C148 | `samplePoisson` with each operation rounded to double precision with gradual underflow (Model/DoublePoisson); `exp` is any function that returns a nearest double | relative error induction over the draws while products are normal; product of draws bounded by powers of two, zero after 1075 halvings |
| C149 | `sampleGeometric`, `sampleExponential` with rounded operations and any `log` accurate to one unit in the last place (Model/DoubleGeometric) | relative error of the quotient of logarithms; gap below one; counterexample for probabilities up to `2^-54` |
| C150 | shared pointers of the client, the batches and the problem on top of the real batch and problem models (Model/Ownership); a call that uses a destroyed variable is undefined | the use counts (C10) give a contained batch that holds each variable; invariants for the saved values; three counterexample programs; for the estimator its invariant, which holds at every recorded optimizer run |
| C151 | the estimator model with its double operations rounded (Model/DoubleGain) | monotone rounding and the relative error bound for one gain, induction over the history as in C25; concrete runs show the rounding |
| C152 | `sampleGamma` with every operation rounded, `log`, `pow`, `exp` as collaborators (Model/DoubleGamma) | induction over the draws with relative errors; the spacing of doubles above one keeps the argument of the logarithm in `[0, 1/2]`; two counterexamples |
| C153 | `computeSumLogDiagR` with rounded additions and any `log2` accurate to one unit in the last place (Model/DoubleSumLog) | forward error analysis by induction over the columns; integers are doubles; a concrete pair of orders evaluated with bounds on the logarithm |
| C154 | the static pointer and the objects of a singleton class, calls of one thread, and small-step `getInstance` of any number of threads (Model/Singleton) | the pointer mirrors the set of existing objects (induction over histories); induction over schedules; two racing schedules as counterexamples |
| C155 | `nsecToSec` (division or multiplication) and the configured duration as rounded doubles (Model/DoubleWindow) in the calibrator models | monotone rounding and relative errors: one nanosecond is more than the roundings up to `2^50`; then C37, C69, C72; concrete histories and a counterexample evaluated by the kernel |
| C156 | `addPoint` of the multivariate estimator with every operation rounded, `OuterProduct`'s loops, histories of calls (Model/MvDouble); `LDLT::isPositive` an arbitrary function, weighted calls an arbitrary change of the distribution | relative errors propagated by induction over the history; symmetry as an invariant; perturbation of the quadratic form; simulation of the univariate estimator for the rest |
| C157 | `sampleNormal` for `double` with every operation rounded (Model/DoubleNormal); `log` accurate to one unit in the last place, `sqrt` correctly rounded | `RAND_MAX` is odd, so no coordinate is zero; monotone rounding; composition of relative errors (products, quotients, roots) |
| C158 | `computeDisparity` with every operation rounded, `addImage` on images with tracked points (Model/VisionDouble, on top of Model/Vision) | relative errors; the median exceeds a number exactly if at most half of the list does not (C63's order statistic); a counterexample evaluated by the kernel |
| C159 | the loop of `LogFactorialFunction::getValue` with every addition rounded, `LogGammaFunction<size_t>` (Model/DoubleLogFactorial); `log` accurate to one unit in the last place | relative error by induction over the terms; a term exceeds the rounding of the sum because `log n! ≤ n log(n+1)` |
| C160 | `NormalDistribution<M>::getSample` with every operation rounded, rows summed in any order (Model/NormalMvDouble); the Cholesky factor arbitrary | induction over the components (C157); error of signed sums by induction over the tree of additions |
| C161 | setters, `mahalanobisDistance`, `logpdf` and `pdf` of `NormalDistribution<1>` with every operation rounded, `M_PI` as the double it is (Model/NormalDouble); `log`, `exp` accurate to one unit in the last place | invariant over histories of setters; composition of relative errors, the logarithm of a relative error; monotone and odd rounding; Mathlib's Gaussian density and digits of π |
| C162 | `cdf` of `NormalDistribution<1>` with every operation rounded (Model/NormalCdfDouble, on top of C161's); `erf`, `sqrt` accurate to one (half a) unit in the last place | relative errors of the argument of `erf` are absolute errors of its value (mean value inequality, `|z| exp(-t²)` bounded); integral of the density from C56; monotone rounding |
| C163 | `KLDivergence` of `NormalDistribution<1>` with every operation rounded (Model/NormalKLDouble, on top of C161's) | composition of errors; the divergence as an integral from C56; a counterexample whose roundings the kernel evaluates |
