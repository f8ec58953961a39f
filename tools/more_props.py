add("C48","Batches of the incremental problem are exactly those added and not removed since",
"Each call changes the list of contained batches only as follows: an accepted add appends the batch, a successful remove takes out one position (the first occurrence when removing by pointer), clear empties it, permuteOptimizationProblems reorders it; a throwing call and every other call leave it alone.",
"all histories and all next calls",
"All histories and calls.",
[IC+"src/core/IncrementalOptimizationProblem.cpp"])
add("C49","What a successful add does",
"After add(b) succeeds the batch is last, exactly its variables have joined the problem, groups not yet present follow the old ordering in the batch's order, new variables are appended to their group in the batch's enumeration order, and saved values are untouched.",
"all histories and all batches accepted next",
"All histories and batches.",
[IC+"src/core/IncrementalOptimizationProblem.cpp add"])
add("C50","Statistics getters show the last kept result","After any call the estimator's statistics getters (information gain, singular values, ranks, costs, ...) show exactly what the last accepted addBatch or successful reoptimize returned; rejected or throwing addBatch calls leave them unchanged; reoptimize reports information gain 0. Until something has been kept they show zero gain and costs, QR tolerance and ranks -1 and empty matrices, so the first valid batch with any rank at all is accepted.","every history of calls, every optimizer behaviour","the optimizer can return any numbers and fail at any call; histories are unbounded",[IC+"src/core/IncrementalEstimator.cpp addBatch, reoptimize, getters"])
add("C51","One-dimensional histogram statistics","For every one-dimensional histogram with at least one counted sample, getMean and getVariance are the mean and sample variance (divisor: count minus one) of the bin centres weighted with the bin counts (no variance for a single sample), getMode is a bin centre of maximal count, and getMedian is the centre of a bin before which at most half and up to which at least half of the samples lie.","all grids and sample sequences","Unbounded sample sequences and all grid parameters.",[IC+"include/aslam/calibration/statistics/Histogram.tpp"])
add("C52","Binned mean is close to the sample mean","The mean reported by a one-dimensional histogram differs from the mean of the counted samples by at most half a bin width.","all grids and sample sequences","A bound over unbounded sequences of samples.",[IC+"include/aslam/calibration/statistics/Histogram.tpp getMean"])
add("C53","The mode of a histogram is maximal","getMode() of a histogram of any dimension is the centre of a bin with the largest count.","all grids of any dimension, all sample sequences","All dimensions and sample sequences.",[IC+"include/aslam/calibration/statistics/Histogram.tpp getMode"])
add("C54","Uniform sampling stays in the support and is uniform","sampleUniform(a,b) returns a value in [a,b] for every raw random number, attains both ends, rejects a >= b, and every integer of the support is equally likely.","all supports and raw random numbers","All raw random numbers and supports; a test samples a few.",[IC+"include/aslam/calibration/statistics/Randomizer.tpp sampleUniform"])
add("C55","Outer product","OuterProduct::compute(v) has entry v(i)*v(j) at (i,j) for every vector of every dimension, hence is symmetric.","all vectors, all dimensions","All dimensions and vectors.",[IC+"include/aslam/calibration/utils/OuterProduct.tpp"])
add("C56","Univariate normal distribution","After any history of setter calls, accepted or rejected: variance is positive, precision and standard deviation agree with it, pdf is the normal density with the reported mean and variance and integrates to one, cdf is its integral, mean/variance/median/mode are those of the density, and KLDivergence is the Kullback-Leibler divergence, never negative and zero exactly for equal parameters; a rejected setVariance changes nothing.","all histories, all values","Real-valued identities over all parameters; integrals cannot be tested exactly.",[IC+"src/statistics/NormalDistribution1v.cpp"])
add("C57","Gamma and chi-square distributions","After any history of setter calls pdf is the Gamma density of the reported shape and inverse scale and integrates to one; setters reject exactly non-positive values without effect; degrees round-trip and give mean d and variance 2d; KLDivergence is never negative.","all histories, all parameters","Real-valued identities over all parameters.",[IC+"include/aslam/calibration/statistics/GammaDistribution.tpp",IC+"src/statistics/ChiSquareDistribution.cpp"])
CAR="incremental_calibration_examples/incremental_calibration_examples_car/"
add("C58","Exactly the admissible measurements enter a car batch","Every batch the car calibrator hands to the estimator is built on all buffered poses, has for every sensor one error term per buffered measurement that is admissible (its time stays within the time of the buffered poses after shifting by the delay bound either way; moving; steering in range), in arrival order, and no other sensor term; sensors are never mixed.","all measurement streams, options and estimator behaviours","Unbounded streams and all configurations.",[CAR+"src/algo/CarCalibrator.cpp addMeasurements, addErrorTerms"])
add("C59","Wheel measurements are weighted with their configured variance","Each wheel error term carries the speed of its own side and the variance configured for its own wheel.","all windows and configurations","All windows and configurations.",[CAR+"src/algo/CarCalibrator.cpp addRearWheelsErrorTerms, addFrontWheelsErrorTerms"])
add("C60","The number of spline segments follows the configured knot density","Every submission of a window with at least two poses builds the splines with at least one and at most as many segments as there are poses; it never runs into undefined behaviour.","all windows submitted","All windows.",[CAR+"src/algo/CarCalibrator.cpp initSplines"])
VIS="incremental_calibration_vision/src/vision/VisionDataAssociation.cpp"
add("C61","Printed calibration rows carry the right label","The observability rows printed in verbose mode and the standard deviations written by the calibration program are read at existing rows and belong to the parameter named in the label, whichever calibration variables are active.","all sets of active calibration variables","All activity patterns; the wrong ones silently print another parameter.",[CAR+"src/algo/CarCalibrator.cpp addMeasurements",CAR+"src/realworld/calibrator.cpp",CAR+"src/design-variables/OdometryDesignVariables.cpp addToBatch"])
add("C62","Stored matches refer to stored frames","Every key point match kept by the vision data association refers on both sides to a frame that is stored.","all histories of images and resets","Unbounded histories, arbitrary tracker results.",[VIS+" addImage, doOfovMatching"])
add("C63","Key frame decision","A completed frame becomes a key frame exactly if it has more tracks than the threshold and their median disparity exceeds the disparity threshold; with too few tracks it only becomes the new reference; otherwise nothing changes.","all states, images and tracker results","All tracker results.",[VIS+" addImage"])
add("C64","Vision key frames are a function of configuration and images","Two data association objects built from the same configuration and fed the same images keep the same frames, and no call is undefined.","all configurations and image histories","Depends on uninitialised memory, which a test cannot control.",[VIS+" constructor, addImage"])
add("C65","Geodetic coordinates and local frames","wgs84ToEcef maps altitude zero to the ellipsoid; increasing longitude, latitude and altitude move the point along the east, north and up axes of the local frame at the same coordinates.","all latitudes, longitudes and altitudes","A differential statement over all coordinates.",[CAR+"src/geo/geodetic.cpp"])
add("C66","A grid is a store","Right after construction every cell of a grid holds the default value; getCell with a valid index gives access to a cell of its own, so a write changes what is read at that index and at no other; reset() restores the default everywhere; none of this changes the grid's bounds, resolution or number of cells.","all grids of any dimension with at most 2^31 cells, all histories of writes and resets","All dimensions, sizes and histories; a collision between two indices shows only for some shapes.",[IC+"include/aslam/calibration/data-structures/Grid.tpp getCell, reset"])
add("C67","Samplers follow their distributions","For every stream of raw random numbers: sampleExponential and sampleGeometric return values whose tail frequencies over the raw numbers are those of the distribution up to the resolution of the raw numbers; samplePoisson returns the number of unit-rate arrivals before the mean; sampleNormal is the Box-Muller transform of the first point in the unit disc; a multivariate normal sample has as squared Mahalanobis distance the sum of squares of its standard normal draws; sampleGamma returns finite non-negative values; bad parameters and only they are rejected; each of this for every type the Randomizer is instantiated with.","all raw random number streams, all parameters, real and integer Randomizer types","Distributional claims over all streams; tests can only compare a few moments.",[IC+"include/aslam/calibration/statistics/Randomizer.tpp",IC+"include/aslam/calibration/statistics/NormalDistributionMv.tpp getSample"])
add("C68","Seeding makes sampling reproducible","After setSeed(s), or with a Randomizer constructed with seed s, the samples drawn afterwards are a function of s and of the program, not of the clock or of what was drawn before.","all programs using randomizers and distributions, all seeds, all clock readings","Depends on the clock and on which static randomizers have been constructed before.",[IC+"include/aslam/calibration/statistics/Randomizer.tpp setSeed, getSeed, constructor",IC+"src/statistics/NormalDistribution1v.cpp getSample"])
TD="incremental_calibration_examples/incremental_calibration_examples_time_delay/"
EGO="incremental_calibration_examples/incremental_calibration_examples_egomotion_sensors/"
add("C69","Windowing of the time delay calibrator","Every measurement given to the calibrator is submitted in exactly one window or is still buffered, in order of arrival; the measurement that ends a window is not part of it; windows are no longer than the configured duration; unprocessedMeasurements() tells whether anything is buffered; the parameter history has one entry more than the information gain history.","all measurement streams, options and estimator behaviours, including exceptions","Unbounded streams, exceptions at any point.",[TD+"src/algo/Calibrator.cpp addMeasurement, addMeasurements, clearMeasurements"])
add("C70","Contents of a time delay batch","Every batch the time delay calibrator submits is built on all buffered poses, has one pose term per pose and one wheel term per wheel measurement whose time stays within that of the poses after shifting by the delay bound either way, each of the right wheel, in arrival order; the number of spline segments is at least one and at most the number of poses; no submission is undefined.","all windows, options and estimator states","All windows.",[TD+"src/algo/Calibrator.cpp initSplines, addWheelErrorTerms, addPoseErrorTerms"])
add("C71","Predictions of the time delay calibrator","predict() appends for each buffered measurement that would become an error term of a batch, and for no other, the prediction and error of exactly that term; predicted measurements and errors can be paired with the measurements by position.","all states and histories of predict calls","All windows and repeated calls.",[TD+"src/algo/Calibrator.cpp predict, predictPoses, predictLeftWheel, predictRightWheel"])
add("C72","Windowing of the egomotion calibrator","As C69 for the egomotion calibrator: every accepted measurement is in exactly one submitted window or in the buffers, in order; the measurement that ends a window is not part of it; with non-decreasing times every window is shorter than the configured duration; histories stay aligned.","all measurement streams, options and estimator behaviours, including exceptions","Unbounded streams, exceptions at any point.",[EGO+"src/algo/Calibrator.cpp addMeasurement, addMeasurements, clearMeasurements"])
add("C73","Contents of an egomotion batch","Every batch has for each sensor one motion error term per pair of consecutive used measurements, comparing the second one's measured motion with the motion the trajectory predicts over the interval it was measured in (shifted by the sensor's delay); with the true trajectory and calibration every error is zero.","all windows, sensors, delays, options","All windows, all sensors.",[EGO+"src/algo/Calibrator.cpp addMotionErrorTerms"])
add("C74","A failed window does not stop the calibrator","After a submission failed because measurements of the reference sensor were missing or because a sensor is not configured, later measurements are accepted again.","all histories","All continuations after a failure.",[EGO+"src/algo/Calibrator.cpp addMeasurement, addMeasurements"])
add("C75","Dead reckoning of the reference trajectory","The poses a batch's trajectory starts from are the product of all reference motions submitted before, so successive windows continue the trajectory; predict() does not influence later batches.","all histories of windows","Unbounded histories.",[EGO+"src/algo/Calibrator.cpp initSplines, predict"])
CAM="incremental_calibration_examples/incremental_calibration_examples_camera/"
add("C76","Windowing of the camera calibrator","Every image in which the target is detected is part of exactly one submitted batch or still pending, in the order taken; a batch is submitted exactly when batchNumImages images are pending (or on processBatch()); observations are reported as used exactly if their batch was accepted; without exceptions fewer than batchNumImages images are pending.","all histories of images, failing and succeeding submissions, all estimator behaviours","Unbounded histories, exceptions at any submission.",[CAM+"src/camera/CameraCalibrator.cpp addImage, processBatch, initBatch"])
add("C77","Contents of a camera batch","Every batch consists of exactly the landmarks, the camera parameters and one rotation and translation per image, each in its group, with one reprojection error per visible corner of each image, depending on that image's pose, that corner and the camera parameters.","all histories of images, all visibility patterns","All histories and visibility patterns.",[CAM+"src/camera/CameraCalibrator.cpp addImage, initBatch"])
add("C78","Poses and observations can be paired","getTransformation(i) is the pose of the i-th observation of getEstimatorObservations(); an index beyond them is rejected.","all histories without exceptions","Needs several accepted batches in a row.",[CAM+"src/camera/CameraCalibrator.cpp getTransformation, processBatch"])
add("C79","A failed camera submission does not stop the calibrator","After a submission failed with an exception, later images are calibrated again.","all continuations after a failure","All continuations after a failure at any point.",[CAM+"src/camera/CameraCalibrator.cpp addImage, processBatch"])
add("C80","processBatch submits only images","processBatch() without pending images does not submit a batch.","all histories","All histories.",[CAM+"src/camera/CameraCalibrator.cpp processBatch"])
add("C81","What the camera validator collects","After any sequence of images (with or without the target) and changes of the variance: getObservations() are the detected images in order; the errors are predicted minus observed point of each corner that was observed and can be projected; each has its squared Mahalanobis distance with the variance in force; largest errors, mean, variance, standard deviation and number of outliers are those of that list; nothing is reported before the first error.","all sequences of images, visibility patterns and variances","All sequences and patterns.",[CAM+"src/camera/CameraValidator.cpp addImage, getReprojectionError*, getNumOutliers"])
add("C82","Numbers in the last validated image","The numbers written into the last image (average, largest and mean reprojection error, outliers) are those of the usable corners of that image.","all visibility patterns","Wrong only when a corner is missing; all patterns.",[CAM+"src/camera/CameraValidator.cpp getLastImage"])
add("C83","Errors and statistics of the camera calibrator","getErrors() returns for every error term of the accepted batches, in order and each once, error vector and squared error; without exceptions these are the errors of the visible corners of the images of the accepted submissions; getStatistics() returns mean, variance, standard deviation, extremes and number of outliers of exactly these.","all histories of images and submissions","Unbounded histories.",[CAM+"src/camera/CameraCalibrator.cpp getErrors, getStatistics"])
add("C84","Standard deviations of the camera parameters","getProjectionVariance() and getDistortionVariance() are the variances of projection and distortion parameters; write() can be called at any time and stores their square roots.","all states, all memory layouts of the camera variables","Depends on addresses and on which submissions were accepted or failed.",[CAM+"src/camera/CameraCalibrator.cpp getProjectionVariance, getDistortionVariance, write, initBatch"])
add("C85","The camera calibration program","For every bag: every image in which the target is detected is part of exactly one submission, in order, and none is left over at the end; with saveEstimatorImages the images used for the estimate are written; the program ends with the parameters and standard deviations of the last accepted estimate in the result file.","all bags, detector and optimizer behaviours","Whole-program behaviour over all bags.",[CAM+"src/camera/calibrateCamera.cpp"])
add("C86","Data of the time delay simulator","With a positive step and variances accepted by the random generators, simulate() returns for every configuration and appends n+1 poses and n measurements of each kind, n being the number of steps k*dt < T; measurement j of a stream is stamped with j steps plus the stream's offset; noise-free wheel speeds are those of a differential drive, noisy ones add the sample before scaling. Without a positive step it does not return; without noise it throws and leaves streams of different lengths.","all configurations, random samples and previous contents of the data object","All configurations; closed form over all numbers of steps.",[TD+"src/simulation/simulationEngine.cpp simulate"])
add("C87","The simulated vehicle follows the configured path","The simulated orientations are rotations, turned with the direction of the sine path; the positions lie on the sine path A sin(2 pi f t).","all amplitudes, frequencies, steps and durations","All configurations.",[TD+"src/simulation/simulationEngine.cpp genSineBodyVel2d, integrateMotionModel"])
add("C88","Calibrating noise-free simulated data finds the simulated parameters","With the parameters the data was simulated with, the wheel errors of the calibrator are zero on a trajectory through the simulated velocities, and the initial knots of the splines are the simulated poses.","all configurations and all trajectories through the simulated velocities","Relates two programs over all inputs.",[TD+"src/simulation/simulationEngine.cpp simulate",TD+"src/algo/Calibrator.cpp addLeftWheelErrorTerms, addRightWheelErrorTerms, initSplines"])
add("C89","Predicted wheel speed plus error is the measurement","For every buffered wheel measurement, the predicted wheel speed and the reported error add up to the measurement.","all wheel velocities and measurements","All velocities.",[TD+"src/algo/Calibrator.cpp predictLeftWheel, predictRightWheel",TD+"src/error-terms/ErrorTermWheel.cpp"])
add("C90","Data of the egomotion simulator","With a step of at least a nanosecond and a complete configuration simulate() returns for every kind of trajectory; every configured sensor gets exactly one noise-free and one noisy motion per step: the motion of the reference seen from the sensor's mounting, stamped with the end of the step plus the sensor's delay; the reference motions multiply up to the whole trajectory; nothing else changes. A sensor without calibration is an exception; a step below a nanosecond does not terminate.","all configurations, kinds of trajectory, random samples, previous contents","All configurations; closed form over all numbers of steps and sensors.",[EGO+"src/simulation/simulationEngine.cpp simulate"])
add("C91","The egomotion simulation program submits everything and its data is consistent","If the program returns, every simulated measurement was submitted, in order, and nothing is left over; on noise-free data every error term is zero at the simulated trajectory, mountings and delays; a simulation that fits one window makes the program return with one batch; without a reference measurement it ends in an exception before the calibrator sees anything.","all configurations, sensors, window lengths, estimator behaviours","Relates simulator and calibrator over all inputs.",[EGO+"src/simulation/simulator.cpp main",EGO+"src/algo/Calibrator.cpp addMotionErrorTerms"])
add("C92","The simulated trajectory","The simulated poses start with the configured one, are stamped 0, dt, 2dt, ..., keep unit quaternions without sign flips, and the vehicle moves in each step no farther than the configured path does (dt for a straight one).","all kinds of trajectory, amplitudes, frequencies, steps and durations","All configurations; the defect shows at one step only.",[EGO+"src/simulation/simulationEngine.cpp simulate, genSineBodyVel2d, integrateMotionModel"])
add("C93","bestQuat","bestQuat(p, c) represents the same rotation as c, with the same norm, and is the representative closer to p; the rotation control points of the three calibrators are as many as the poses, represent their rotations, start with the first one unchanged, and no two consecutive ones have opposite signs.","all quaternions, all sequences of poses","All sequences.",[EGO+"src/algo/bestQuat.cpp",EGO+"src/algo/Calibrator.cpp initSplines",TD+"src/algo/Calibrator.cpp initSplines"])
LRF="incremental_calibration_examples/incremental_calibration_examples_2dlrf/src/2dlrf/"
add("C94","The sine wave path generator","genSineWavePath(u, steps, A, f, T) returns exactly steps inputs; the first is zero; each later one has the mean of the path's speeds at the two ends of the step, no sideways speed, and the turn of the path's direction over the step.","all numbers of steps, amplitudes, frequencies and time steps, all roundings of the accumulated time","The number of inputs depends on accumulated rounding; all parameters.",[LRF+"utils.cpp genSineWavePath"])
add("C95","The landmark guess explains the first sighting","initLandmarks places every landmark that is seen at the point where its first positive range and bearing put it, so that the error of that measurement is zero at the guess, and exactly at the true position if poses, calibration and measurement are exact; landmarks never seen are at the origin; no access outside the record.","all poses, records and visibility patterns","All visibility patterns and angles.",[LRF+"utils.cpp initLandmarks"])
add("C96","Simulated laser data is consistent with the error terms","The simulation of the laser examples returns one pose, input and row of measurements per step; evaluated at the truth, the observation error of every measurement and the motion error of every step are the noise that was drawn (zero without noise).","all inputs, landmarks, calibrations, noise samples and numbers of steps","Wrong only in steps in which the heading wraps; all trajectories.",[LRF+"simulate-online.cpp main",LRF+"simulate-online-new.cpp main",LRF+"simulate-offline.cpp main"])
add("C97","The decision loop of simulate-online","Every batch is optimised together with exactly the batches kept before and is kept exactly if it is the first or its information gain over the last kept round exceeds the threshold; the reported calibration and covariance are those of the last kept round; a rejected batch leaves no trace.","all optimizers, thresholds, numbers of steps and batch sizes","All sequences of accepted and rejected batches.",[LRF+"simulate-online.cpp main"])
add("C98","The batches of the laser programs contain all data","simulate-online-new puts every state into exactly one batch and every motion and observation into some batch; building a batch never fails; simulate-offline builds one problem with all data and the calibration parameters last.","all numbers of steps and landmarks, all batch sizes","All sizes, including batch sizes that do not divide the data.",[LRF+"simulate-online-new.cpp main",LRF+"simulate-offline.cpp main","incremental_calibration/src/core/OptimizationProblem.cpp addDesignVariable, addErrorTerm, setGroupsOrdering"])
add("C99","Batches with splines","addSpline puts all design variables of the spline, active, into the given group in the spline's order and lists the spline, exactly if they are distinct and none is in the batch yet; otherwise it throws. After any history of calls the listed splines are those of the successful addSpline calls, in order; the variables of every listed spline are in the batch; every variable of the batch that belongs to a spline is kept alive by it; getters reject indices beyond the lists.","all histories of calls on the batch, including ones that throw","Unbounded histories with exceptions at any call.",[CAR+"src/algo/OptimizationProblemSpline.cpp",TD+"src/algo/OptimizationProblemSpline.cpp",EGO+"src/algo/OptimizationProblemSpline.cpp"])
add("C100","writeSplines samples every accepted batch","writeSplines(estimator, dt, stream) writes, for every accepted batch in order and each of its spline pairs, one line per sample time minTime, minTime+dt, ... below maxTime, with position and angles at that time; it terminates.","all estimators, spline pairs, steps and spline ranges","All steps; termination.",[CAR+"src/algo/splinesToFile.cpp",TD+"src/algo/splinesToFile.cpp",EGO+"src/algo/splinesToFile.cpp"])
add("C101","The batch a calibrator submits is well-formed","The batch a calibrator hands to the estimator has the spline variables in group 0 and the calibration variables in group 1, marginalised last, contains every error term once, lists both splines, and building it does not fail.","all numbers of spline variables, calibration variables and error terms","All sizes.",[CAR+"src/algo/CarCalibrator.cpp addMeasurements",TD+"src/algo/Calibrator.cpp addMeasurements",EGO+"src/algo/Calibrator.cpp addMeasurements"])
add("C102","Parameter vectors and verbose reports","getParameters() has each calibration parameter in its own slot, in the order of the labels, and determines all of them; the verbose report of the observability matrices labels every row with the parameter it belongs to.","all parameter values, activity switches and sets of sensors","All combinations of active variables and sensor sets.",[TD+"src/design-variables/OdometryDesignVariables.cpp",TD+"src/algo/Calibrator.cpp addMeasurements",EGO+"src/design-variables/DesignVariables.cpp",EGO+"src/algo/Calibrator.cpp addMeasurements"])
add("C103","Predictions of the car calibrator","After clearing, predict() gives for every sensor one prediction, error vector and squared error per buffered measurement a batch built now would use (poses and velocities always), in order and aligned, each of the error term of that measurement at the current estimate; buffers are unchanged; with unprocessed measurements the call is defined; a prediction carries its measurement's time stamp.","all histories, window contents and estimates","All histories and gate combinations.",[CAR+"src/algo/CarCalibrator.cpp predict, predictPoses ... predictSteering, clearPredictions",CAR+"src/realworld/analyzer.cpp main"])
add("C104","Kinematics of the car error terms","The velocities compared with wheel, odometer, steering and velocity measurements are those of the wheel mounting points, the front axle centre and the sensor on the rigidly moving vehicle; prediction plus error is the measurement; the vehicle poses the splines are fitted to reproduce the measured poses; measurements used as forward driving have wheels rolling forward.","all rigid motions, mounting parameters and measurements","All motions and parameters.",[CAR+"src/algo/CarCalibrator.cpp add*ErrorTerms, predict*, initSplines",CAR+"src/error-terms/ErrorTermWheel.cpp"])
add("C105","The car programs feed every recorded message","For every recording: each navigation message after an accuracy message gives one pose and one velocity with the same stamp and the latest accuracies; each message of an active wheel or steering sensor one measurement; odometer speeds add up to the distance travelled; positions are in a local frame at the first message and keep distances, attitude and velocity fit together, covariances are those of the measured quantities; all measurements are submitted at the end.","all message sequences, configurations, time stamp correctors and calibrator behaviours","All interleavings of six topics.",[CAR+"src/realworld/calibrator.cpp main",CAR+"src/realworld/analyzer.cpp main",CAR+"src/geo/geodetic.cpp"])
add("C106","The linear solver adapter","The linear solver adapter built from a configuration uses the options of that configuration; solveSystem returns the library's solution of the current Jacobian and error with the configured marginal block; analyzeMarginal and the observability getters are the library's; every call frees what it allocated; rhsJtJrhs is the quadratic form of the right hand side.","all configurations, matrices, library behaviours and call histories, including throwing calls","Exceptions inside the library and arbitrary histories.",["aslam_tsvd_solver/src/aslam-tsvd-solver.cc","aslam_tsvd_solver/include/aslam-tsvd-solver/aslam-tsvd-solver.h"])
add("C107","Multivariate normal distribution","After any history of setMean and setCovariance calls, accepted or rejected: precision is the inverse of the covariance, determinant its determinant, the density and squared Mahalanobis distance are those of the reported mean and covariance, KLDivergence is the Kullback-Leibler divergence formula; samples are drawn with the reported mean and covariance; covariances that are not symmetric positive definite are rejected without effect.","all dimensions, histories, matrices, vectors","All dimensions and histories with rejected calls.",[IC+"include/aslam/calibration/statistics/NormalDistributionMv.tpp"])
add("C108","Options read from a configuration","Calibrator options and trajectory parameters constructed from a configuration have each option equal to the entry of its name; if a required entry is missing the construction throws; the result is a function of the configuration.","all configurations","Depends on every subset of missing entries and on uninitialised memory.",[CAR+"src/algo/CarCalibratorOptions.cpp",TD+"src/algo/CalibratorOptions.cpp",EGO+"src/algo/CalibratorOptions.cpp",EGO+"src/simulation/TrajectoryParams.cpp",TD+"src/simulation/TrajectoryParams.cpp"])
add("C109","Multivariate log-gamma","LogGammaFunction(dim)(a) is the logarithm of the (absolute value of the) multivariate gamma function of order dim at a, infinite exactly at its poles, for every dimension and argument; with dimension one it is log Gamma.","all dimensions, all real arguments","All dimensions and arguments.",[IC+"include/aslam/calibration/functions/LogGammaFunction.tpp getValue"])
add("C110","The camera validation program","For every bag: the printed statistics and the written error files are those of the reprojection errors of all images of the topic in which the target was found; with saving switched on, one file per image is written, showing the image it is named after.","all sequences of images with or without the target, all configurations","All detection patterns.",[CAM+"src/camera/validateCamera.cpp main",CAM+"src/camera/CameraValidator.cpp addImage, getLastImage"])
add("C111","Samples have exactly the named distribution","If the generator's numbers are independent and uniform on [0,1], each sampling function (uniform, normal, multivariate normal, exponential, geometric, Poisson, categorical, gamma, chi-square) returns with probability one, its value has exactly the named distribution with the given parameters, and repeated or interleaved calls are independent; arguments out of range are rejected without drawing.","all parameters, all numbers of calls","A statement about a probability measure on infinite streams; a test sees finitely many samples.",[IC+"include/aslam/calibration/statistics/Randomizer.tpp",IC+"include/aslam/calibration/statistics/NormalDistributionMv.tpp getSample",IC+"include/aslam/calibration/statistics/UniformDistributionMv.tpp getSample",IC+"src/statistics/ChiSquareDistribution.cpp"])
add("C112","Cumulative distribution, quantile and divergence of the gamma distribution","cdf(x) of a gamma or chi-square distribution is, after any history, the probability of values up to x and the integral of pdf; invcdf accepts [0,1], rejects everything else, and inverts cdf; the incomplete gamma functions are defined exactly on their domain and add up to one; ChiSquareDistribution::getMedian is the median; KLDivergence is the Kullback-Leibler divergence.","all parameters, histories of setter calls, arguments","All real arguments and parameters; integrals.",[IC+"include/aslam/calibration/statistics/GammaDistribution.tpp cdf, invcdf, KLDivergence",IC+"src/functions/IncompleteGammaPFunction.cpp",IC+"src/functions/IncompleteGammaQFunction.cpp",IC+"src/statistics/ChiSquareDistribution.cpp getMedian"])
add("C113","Changing a batch an incremental problem contains","A batch can be changed at any time, also while an incremental problem contains it; the problem's variables, groups and error terms are always those of its batches, and remove(batch) undoes what add(batch) did, without undefined behaviour, in every history.","all histories of calls on the problem and on its batches, with no restriction","The problem only keeps shared pointers; the defects need particular interleavings of calls on two objects.",[IC+"src/core/IncrementalOptimizationProblem.cpp add, remove, designVariableImplementation",IC+"src/core/OptimizationProblem.cpp addDesignVariable, addErrorTerm, clear"])
add("C114","Parameters of the simulations","SimulationParams are made from a configuration exactly when every entry is there, each parameter being then its entry (for the egomotion simulation one calibration per announced sensor and one noise entry more, the last of several entries with the same index counting), and otherwise the library's exception is thrown; the default parameters, and every configuration with a positive step and admissible variances, can be simulated, with one reading of each sensor per step, stamped with the configured delays.","all configurations; all numbers of sensors","All configurations, of any number of sensors.",[TD+"src/simulation/SimulationParams.cpp",EGO+"src/simulation/SimulationParams.cpp"])
add("C115","The time delay simulation program","With parameters that can be simulated, the program hands every simulated noisy measurement to the calibrator, in the order of simulation, and at the end every one of them was submitted to the estimator exactly once, in windows with at least two poses, with one information gain per window; parameters that cannot be simulated end the program before anything is submitted.","all parameters, window lengths, estimator behaviours","All numbers of steps and window boundaries.",[TD+"src/simulation/simulator.cpp main"])
add("C116","Predictions of the egomotion calibrator","Whenever a batch could be built from the buffered measurements, predict() returns, with prediction, error and squared error, for every sensor, of exactly the error terms that batch would have, in order and aligned, with the time stamps of their measurements; it throws or is undefined exactly when building the batch would; buffers, windows, histories and the estimator are not touched.","all histories, buffers, estimates and iteration orders of the map","All histories and numbers of sensors; error cases.",[EGO+"src/algo/Calibrator.cpp predict, predictMotion, clearPredictions, initSplines"])
add("C117","The incremental laser calibration program","The program tries every batch of the data once and in order; it compares each with the last accepted one and accepts it exactly by the documented rule, the reported values being the result of optimizing the accepted batches and the new one; at the end the problem consists of exactly the accepted batches, and the reported calibration, landmarks and poses are the result of the optimization over exactly these, with the statistics of the last accepted batch; it fails only if the optimizer or the linear solver fails, or if nothing was accepted.","all numbers of steps, batch sizes, landmarks, groups to eliminate and optimizer behaviours","All numbers of batches and all accept/reject histories.",[LRF+"simulate-online-new.cpp main",IC+"src/core/IncrementalEstimator.cpp addBatch"])
add("C118","A refused batch leaves no trace for later calls","If the estimator (or the incremental problem) refuses a batch with an exception, the problem is what it was: batches, variables, error terms, values, statistics and group ordering are unchanged, and every later call does what it would have done had the batch never been offered.","all histories before the offer, all refused batches, all histories after it","Needs arbitrary histories before and after the refused call.",[IC+"src/core/IncrementalOptimizationProblem.cpp add, remove, setGroupsOrdering",IC+"src/core/IncrementalEstimator.cpp addBatch, reoptimize, removeBatch, orderMarginalizedDesignVariables"])
add("C119","The problem handed out to Python","A Python program may call add, remove and clear on the problem returned by getProblem() of its estimator: the problem stays the sum of the batches it lists, every optimizer run is over such a sum with the marginalised group last, and no later call depends on batches that are gone.","all histories of calls on the estimator, its problem and its batches","Two objects share state; the defects need particular interleavings of calls on both.",["incremental_calibration_python/src/IncrementalEstimator.cpp getProblem","incremental_calibration_python/src/OptimizationProblem.cpp add, remove, clear",IC+"src/core/IncrementalOptimizationProblem.cpp clear, saveDesignVariables, restoreDesignVariables"])
add("C120","Construction of grids and histograms","Constructing a grid or a histogram throws exactly if in some dimension the resolution is not positive, the minimum is not below the maximum, or the resolution exceeds the interval; otherwise the grid covers the interval with the fewest cells of that resolution in every dimension, and has exactly as many cells as the product of these numbers, all with the default value.","all numbers of dimensions, all bounds and resolutions; integer, real and floating point coordinates","All numbers of dimensions and all sizes; overflow of int products.",[IC+"include/aslam/calibration/data-structures/Grid.tpp Grid",IC+"include/aslam/calibration/statistics/HistogramMv.tpp",IC+"include/aslam/calibration/statistics/Histogram1v.tpp"])
add("C121","The calibrators with the estimator of the library","A calibrator whose configuration names one of the two groups of its batches to be marginalised: its estimator never refuses a window, each window is tried on top of exactly the accepted ones (and those the optimizer failed on), is accepted exactly by the documented rule against the last accepted window, and otherwise leaves batches, statistics and calibration as they were; the optimizer always sees the spline variables of these windows, the calibration variables once and all their error terms; the information gain history is that of the submitted windows, and the parameter history starts with the initial calibration and continues with the calibration after each window, so that a window that is not accepted repeats the entry.","all histories of calls on the car, time delay and egomotion calibrator, all window contents, all behaviours of the optimizer and the linear solver including failures","All histories; three classes and the library interact.",[CAR+"src/algo/CarCalibrator.cpp addMeasurements",TD+"src/algo/Calibrator.cpp addMeasurements",EGO+"src/algo/Calibrator.cpp addMeasurements",IC+"src/core/IncrementalEstimator.cpp addBatch"])
add("C122","Calibration and uncertainty belong together","At any time the calibration, its covariance and the other statistics a calibrator offers, and the batches of its estimator, all belong to one run of the optimizer: that of the last accepted window; before the first accepted window they are the initial ones.","all histories of windows, all behaviours of the optimizer","All histories of accepted, rejected and failed windows.",[CAR+"src/algo/CarCalibrator.cpp getOdometryVariablesVariance, getOdometryDesignVariables",TD+"src/algo/Calibrator.cpp getOdometryVariablesVariance",IC+"src/core/IncrementalEstimator.cpp addBatch, getSigma2Theta"])
add("C123","Changing options, estimator and design variables between the calls","The accessors of the calibrators hand out options, estimator and design variables for modification: whatever a program does with them between the calls, no accepted measurement is lost, duplicated, reordered or put into the stream of another sensor, every submitted window has at least two poses (car, time delay), and there is one parameter vector more than information gains.","all histories of calls, with arbitrary changes of options, estimator and design variables between any two of them","All interleavings of calls and modifications.",[CAR+"src/algo/CarCalibrator.cpp getOptions, getEstimator, getOdometryDesignVariables, addMeasurement, addMeasurements",TD+"src/algo/Calibrator.cpp addMeasurement, addMeasurements",EGO+"src/algo/Calibrator.cpp addMeasurement, addMeasurements"])
add("C124","What the camera calibrator offers belongs together","At any time the intrinsics, the landmarks, the poses, the variances and the costs the camera calibrator offers all belong to one run of the optimizer, over exactly the accepted submissions; before the first accepted submission intrinsics, landmarks and statistics are the initial ones.","all histories of images and submissions, all behaviours of the detector, the optimizer and the linear solver","All histories of accepted, refused and failed submissions.",[CAM+"src/camera/CameraCalibrator.cpp processBatch, addImage, getTransformation, getProjectionVariance",IC+"src/core/IncrementalEstimator.cpp addBatch, getSigma2Theta"])
add("C125","What a calibration program has done when it ends normally","When one of the calibration programs (car calibrator on a recording, time delay simulator, egomotion simulator) ends normally, the windows it handed to the estimator, followed by what is left in the buffers, are exactly the measurements of its input, in order, per sensor; the batch of each window is made of that window, with the calibration the previous window left; there is one information gain per window and one parameter vector more, each being what the estimator returned for and left after its window; and the final calibration, uncertainties and problem are those of the optimizer run of the last accepted window, or the initial ones if none was accepted.","all recordings and simulation parameters, options, numbers of windows, behaviours of the optimizer and the linear solver","All recordings; program, calibrator and library interact over any number of windows.",[CAR+"src/realworld/calibrator.cpp main",TD+"src/simulation/simulator.cpp main",EGO+"src/simulation/simulator.cpp main",IC+"src/core/IncrementalEstimator.cpp addBatch"])
add("C126","No undefined call on proper data","Data is proper if all time stamps lie in an interval whose length fits 64 bits and whose spline knots can be counted by an int, and the times of the poses increase strictly (egomotion: no order needed, but the beginnings of the reference measurements belong to the time stamps). A program that makes any calls of a calibrator with proper data - measurements of any sensor, submissions, clearing - and catches all exceptions runs to its end: no call is undefined or fails to return, and the only exceptions are those of the spline fitter and of the estimator (egomotion: and std::out_of_range for a window without reference or with an unknown sensor); the estimator of the library throws only because of its optimizer or linear solver. The calibration programs return or end with one of these exceptions.","all sequences of calls, all data with these properties, all behaviours of estimator and optimizer","Every sequence of calls with every proper data; signed overflow, out of range conversions and accesses before the first element do not show in a test that happens to work.",[CAR+"src/algo/CarCalibrator.cpp addMeasurement, addMeasurements, initSplines",TD+"src/algo/Calibrator.cpp addMeasurement, initSplines",EGO+"src/algo/Calibrator.cpp addMeasurement, initSplines",IC+"src/core/IncrementalEstimator.cpp addBatch"])
add("C127","How calls on the estimator end","Whatever calls were made before (batches offered were compatible, contained batches were not changed), a call on the estimator throws exactly the following exceptions and no other: NullPointerException for a null batch, InvalidOperationException for a batch that has a variable of the problem under another group or an error term of the problem, InvalidOperationException if no batch in the problem would have a variable of the group to be marginalised, OutOfBoundException for an index that is not that of a batch; an exception of the optimizer or the linear solver passes through; otherwise the call returns. No call is undefined or runs forever.","all histories of calls, all next calls with all arguments, all behaviours of the optimizer and the linear solver","All histories and all arguments, including those that are refused.",[IC+"src/core/IncrementalEstimator.cpp addBatch, reoptimize, removeBatch, orderMarginalizedDesignVariables",IC+"src/core/IncrementalOptimizationProblem.cpp add, remove"])
add("C128","How calls on the camera calibrator end","As long as no call threw, a call on the camera calibrator is refused only if an image is offered before the geometry was initialised: InvalidOperationException, and nothing has changed. Every other call returns, unless the optimizer or the linear solver throws; no submission is ever refused, whatever images and numbers of images per batch. (The group to be marginalised is that of the camera parameters or the landmarks; with a foreign group every submission is refused.)","all histories of calls, all images, batch sizes, behaviours of detector, optimizer and linear solver","All histories; the submitted batches must fit the problem in every one of them.",[CAM+"src/camera/CameraCalibrator.cpp addImage, processBatch, initBatch, addObservation, initGeometry",IC+"src/core/IncrementalEstimator.cpp addBatch"])
add("C129","An incremental problem is determined by its batches","What an incremental problem consists of - its variables, their groups, the dimension of each group, its error terms - depends only on the batches in it and not on the history of additions and removals; the same holds for the problem of the estimator and for every problem its optimizer is run on: offering the batches, in any order, to an empty problem succeeds and gives the same problem, up to the order of groups and of variables within groups (which do depend on the history).","all pairs of histories that end with the same batches; all orders of re-adding them","All histories, in pairs.",[IC+"src/core/IncrementalOptimizationProblem.cpp add, remove, getGroupId, getDesignVariablesGroup, getGroupDim, numErrorTerms, errorTermImplementation",IC+"src/core/IncrementalEstimator.cpp addBatch, removeBatch"])
add("C130","Drawing many samples","getSamples(samples, n) of any distribution replaces the contents of the vector by the results of n successive getSample() calls, in order, and leaves the generator where these calls would; it does not return normally exactly if one of these calls does not or n is more than a vector can hold, and the vector then holds the samples drawn before. Drawing j and then k samples is drawing j + k. With independent uniform raw numbers the samples are independent, each with the law of one draw. A uniform distribution whose support was accepted always delivers, one raw random number per coordinate, and all samples lie in its support.","all distributions, numbers of samples, previous contents, states and sequences of the random generator","All random sequences and all draws that may fail at any point.",[IC+"include/aslam/calibration/statistics/SampleDistribution.tpp getSamples",IC+"include/aslam/calibration/statistics/UniformDistributionMv.tpp getSample",IC+"include/aslam/calibration/statistics/UniformDistribution1v.tpp getSample"])
add("C131","What an exception says","what() of an exception of the library is 'function: message [file = F][line = N]', with the parts that were not given left out, followed by '[argument = A]' and '[bound = B]' where the class has them; for a null pointer the message is 'NAME is a null pointer'; copying and assigning preserve the text. Two out-of-bound exceptions raised at the same place with the same message have the same text only if argument and bound are the same.","all messages, files, lines, functions and arguments without null characters","All strings.",[IC+"src/exceptions/Exception.cpp Exception, what",IC+"src/exceptions/NullPointerException.cpp NullPointerException",IC+"include/aslam/calibration/exceptions/OutOfBoundException.h OutOfBoundException",IC+"include/aslam/calibration/exceptions/BadArgumentException.h BadArgumentException"])
add("C132","Loops over time in double arithmetic","A loop 'for (double t = dt; t < T; t += dt)' of the simulators makes one round for each multiple of dt before T, although t is a sum of rounded doubles; the path generator of the laser example, whose loop starts at zero, returns at least the number of inputs asked for (the programs read that many) and at most one more.","all positive steps and end times (as doubles)","Rounding errors accumulate over any number of additions and depend on every bit of the step.",[TD+"src/simulation/simulationEngine.cpp",EGO+"src/simulation/simulationEngine.cpp",LRF+"utils.cpp genSineWavePath"])
add("C133","Uniform samples in double arithmetic","sampleUniform(minSupport, maxSupport) returns a double within [minSupport, maxSupport], for every raw random number, although difference, product and sum are rounded; it refuses an empty support.","all supports, all raw numbers","A violation needs particular bit patterns of the bounds.",[IC+"include/aslam/calibration/statistics/Randomizer.tpp sampleUniform"])
add("C134","Printing objects and reading them back","Inserting an object of the library into an output stream appends its text: one 'name: value' line per value for distributions and histograms, the numbers for others; in a chain of insertions the texts appear in order, on every stream; two objects of one class have the same text only if their values are written the same; reading the text back restores the object.","all objects of the serialisable classes, all chains of insertions, console streams and file streams","All values and all chains; overload resolution depends on the static type of the stream.",[IC+"src/base/Serializable.cpp operator<<, operator>>",IC+"include/aslam/calibration/statistics/GammaDistribution.tpp write, read",IC+"include/aslam/calibration/data-structures/Grid.tpp write",IC+"include/aslam/calibration/data-structures/VectorDesignVariable.tpp write"])
add("C135","The data files of the car programs","However the program ends, each data file has one line per measurement of its sensor that was handed to the calibrator, in order, with the values handed over and the time of the recorded message.","all recordings, configurations and calibrator behaviours, including exceptions at any call","All recordings and crash points.",[CAR+"src/realworld/calibrator.cpp main",CAR+"src/realworld/analyzer.cpp main"])
add("C136","The files of the time delay simulation program","The program leaves the files of the simulated data complete, one line per step (one more for the trajectory), and the estimated trajectory, one information gain per submitted window and one parameter vector more, whatever was in the directory before; if it fails, no result of another run is among its files.","all parameters, options, estimator behaviours, previous contents of the directory and crash points","All numbers of steps; exceptions at any call; earlier runs in the same directory.",[TD+"src/simulation/simulator.cpp main",TD+"src/simulation/SimulationData.cpp",TD+"src/simulation/Trajectory.cpp"])
add("C137","The files of the egomotion simulation program","The program leaves the simulated trajectory, the noise-free and the noisy motions of every simulated sensor, one line per step, each in the file of its sensor, the estimated trajectory, one information gain per submitted window and for every calibrated sensor one parameter vector more, whatever was in the directory before; if it fails the files of the simulation are complete all the same; no file of another run is among its files.","all parameters, numbers of sensors, options, estimator behaviours, previous contents of the directory and crash points","All sets of sensors; exceptions at any call; earlier runs in the same directory.",[EGO+"src/simulation/simulator.cpp main"])
add("C138","The result files of the car calibration program","When the calibration has ended, the program writes the standard deviation of every calibration parameter with its label, the estimated trajectory, one information gain per submitted window and one parameter vector more, whatever was in the directory before; if the calibration fails no result file is touched.","all recordings, configurations, estimator behaviours, previous contents of the directory","All recordings; the size of the covariance depends on which variables are calibrated.",[CAR+"src/realworld/calibrator.cpp main",CAR+"src/algo/CarCalibrator.cpp getOdometryVariablesVariance",CAR+"src/design-variables/OdometryDesignVariables.cpp"])
add("C139","Number of spline segments in double arithmetic","For poses that come faster than the configured knots per second, the calibrators and the egomotion simulator use as many spline segments as the duration of the window times the knots per second, rounded up; otherwise one per pose; computed with doubles, this is the value exact arithmetic gives, and nothing overflows.","all positive numbers of knots, all numbers of poses and all durations in nanoseconds, within about six days times one knot per second and 2^30 poses per second","Three roundings per evaluation; wrong values only for some durations.",[CAR+"src/algo/CarCalibrator.cpp initSplines",TD+"src/algo/Calibrator.cpp initSplines",EGO+"src/algo/Calibrator.cpp initSplines",EGO+"src/simulation/simulationEngine.cpp"])
add("C140","The result files of the car analysis program","When the recording has been read, the analysis program writes the estimated trajectory and, for every sensor, a file with one prediction for each admissible recorded measurement and a file with the prediction errors in the same order, each in the file of its sensor, whatever was in the directory before; if the program fails, no result file is touched.","all recordings, configurations, estimator behaviours, previous contents of the directory and crash points","All recordings; which measurements are predicted depends on where the windows end.",[CAR+"src/realworld/analyzer.cpp main",CAR+"src/algo/CarCalibrator.cpp predict"])
add("C141","Time stamps in double arithmetic","A time stamp taken at a later microsecond is greater; the difference of two time stamps is the time between them; converting a time stamp to a timespec is defined, gives nanoseconds below a second, does not reverse the order of time stamps and recovers the microsecond at which the time stamp was taken.","all times of day, all doubles that are not negative","All doubles; roundings depend on the magnitude of the time.",[IC+"src/base/Timestamp.cpp now",IC+"src/base/Timestamp.cpp operator timespec"])
add("C142","Which variant a numeric type gets","For every type, each operation that distinguishes real from integer types (uniform distribution, randomizer, grid) has exactly one variant; floating point types get the one for real numbers: the uniform density integrates to one, uniform samples are affine images of the uniform draws, normal samples are returned, a grid covers its range with the fewest cells; integer types get the one for integers.","all types","A test instantiates the templates for the types the author thought of; the claim is over every type a user may instantiate them with.",[IC+"include/aslam/calibration/tpl/IsReal.h", IC+"include/aslam/calibration/tpl/IsInteger.h", IC+"include/aslam/calibration/statistics/Randomizer.tpp:Traits::round", IC+"include/aslam/calibration/statistics/UniformDistribution1v.tpp:Traits", IC+"include/aslam/calibration/data-structures/Grid.tpp:Traits::ceil"])
add("C143","Streaming estimation in double arithmetic","After any history of points, weighted points and resets, the mean and the variance reported by the streaming estimator of the normal distribution, computed with rounded doubles, are those of the points since the last reset up to an error proportional to their number, the precision of doubles and their magnitude, and the estimator is valid exactly if the points are not all equal.","all histories of at most 2^26 points since the last reset, points of any magnitude","Cancellation depends on the values and the number of all points; a test sees a few samples.",[IC+"src/statistics/EstimatorMLNormal1v.cpp:addPoint"])
add("C144","Categorical sampling in double arithmetic","sampleCategorical with rounded sums returns the category whose interval of cumulated probabilities contains the uniform draw, up to an error proportional to the number of categories and the precision of doubles, and never a category of probability zero.","all vectors of probabilities, all raw random numbers","The error depends on all probabilities; the categories returned wrongly need particular draws.",[IC+"include/aslam/calibration/statistics/Randomizer.tpp:sampleCategorical"])
add("C145","Weighted estimation in double arithmetic","After points with responsibilities are added, the mean and the variance reported by the estimator of the normal distribution, computed with rounded doubles and with the responsibilities added up in any order, are the weighted mean and variance up to an error proportional to the number of points and the precision of doubles; the estimator is valid exactly if the points of positive responsibility are not all equal; the streaming state is untouched.","all states, all lists of at most 2^26 points, all lists of responsibilities that are not negative, all orders of summation","The errors depend on all values and on the order in which the linear algebra library adds up.",[IC+"src/statistics/EstimatorMLNormal1v.cpp:addPoints"])
add("C146","Weighted multivariate estimation","Adding points with responsibilities to the multivariate estimator gives their weighted mean vector and weighted covariance matrix, the same as adding every point as often as its responsibility says; the estimate is reported valid exactly if that matrix is a covariance; with another number of responsibilities nothing happens; the streaming estimates before and after are not disturbed.","all states and histories of calls, all lists of points and responsibilities (negative ones included), all dimensions","All histories and all lists; degenerate lists are easily forgotten in tests.",[IC+"include/aslam/calibration/statistics/EstimatorMLNormalMv.tpp:addPoints",IC+"include/aslam/calibration/statistics/NormalDistributionMv.tpp:setCovariance"])
add("C147","A chi-square distribution stays one","After any history of calls a chi-square distribution has the density of the chi-square distribution with the degrees of freedom it reports, these as its mean and twice these as its variance; the degrees of freedom are those of the last accepted call.","all histories of calls, rejected ones included, all degrees of freedom","All histories; inherited setters act on the same object.",[IC+"src/statistics/ChiSquareDistribution.cpp",IC+"include/aslam/calibration/statistics/GammaDistribution.tpp"])
add("C148","Poisson sampling in double arithmetic","For every positive mean, samplePoisson returns the number of arrivals before the mean of a process whose gaps are independent and exponential, computed from the uniform draws: the number of leading draws whose product exceeds exp(-mean), up to roundings; means that are not positive are rejected without a draw.","all means, all sequences of raw random numbers","The product of the draws loses its meaning below the smallest double, which only means of some hundreds show.",[IC+"include/aslam/calibration/statistics/Randomizer.tpp:samplePoisson"])
add("C149","Geometric and exponential sampling in double arithmetic","For every probability of (0, 1], sampleGeometric returns the number of failures before the first success that the first uniform draw other than zero stands for, and sampleExponential returns the quantile that draw stands for, up to roundings; other probabilities and rates that are not positive are rejected without a draw.","all probabilities and rates, all sequences of raw random numbers, all logarithm functions accurate to one unit in the last place","Roundings matter for tiny probabilities, which tests do not use.",[IC+"include/aslam/calibration/statistics/Randomizer.tpp:sampleGeometric",IC+"include/aslam/calibration/statistics/Randomizer.tpp:sampleExponential"])
add("C150","No use of a destroyed design variable","A client may release its shared pointers to design variables and batches at any time: every variable an incremental problem has, enumerates or lists, and every variable an error term of an existing batch points to, exists; no call on the problem or on a batch uses a destroyed variable, all calls behave as if nothing had been released.","all histories of calls on the incremental problem and its batches, with shared pointers released and taken at any time","All histories; a destroyed object often seems to work in a test.",[IC+"src/core/IncrementalOptimizationProblem.cpp:saveDesignVariables restoreDesignVariables clear add",IC+"src/core/OptimizationProblem.cpp:addErrorTerm clear",IC+"include/aslam/calibration/core/IncrementalOptimizationProblem.h"])
add("C151","Information gains in double arithmetic","The reported information gain is half of the difference of the log sums up to rounding, has its sign and is zero just if they are equal; without force and without an increase of the rank only batches whose exact gain exceeds the threshold are accepted, and with a valid solution all whose exact gain exceeds it by one part in 2^52; over any history the reported gains of the accepted batches sum to half of the increase of the log sum up to one part in 2^53 - 1 of their magnitudes.","all histories of calls on the estimator and its batches, all log sums and thresholds in double precision, whatever the optimizer does","All histories; rounding shows only for particular numbers.",[IC+"src/core/IncrementalEstimator.cpp:addBatch"])
add("C152","Gamma sampling in double arithmetic","For every positive shape and inverse scale sampleGamma returns a finite number that is not negative: the sum of as many exponential samples as the integral part of the shape says, plus, if the shape has a fractional part, the number of the first accepted round of the rejection loop, divided by the inverse scale, up to roundings; the functions it calls get arguments in their domains; other shapes and inverse scales are rejected without a draw.","all shapes and inverse scales, all sequences of raw random numbers, all functions log, pow, exp accurate as assumed","All sequences of draws; the dangerous draws are rare.",[IC+"include/aslam/calibration/statistics/Randomizer.tpp:sampleGamma"])
add("C153","Sum of the logs of a diagonal in double arithmetic","For a matrix with at least as many rows as columns computeSumLogDiagR returns the sum of log2 of the magnitudes of the diagonal entries above machine epsilon within one part in 2^51 per column of the sum of their magnitudes; it is exact if the entries are powers of two; half the difference of two such sums is as near to the exact gain; the number does not depend on the order of the columns; an invalid column range is rejected.","all matrices of doubles with at most 2^50 columns, all column ranges, all logarithms accurate to one unit in the last place","Rounding errors accumulate over the columns; all sizes.",[IC+"include/aslam/calibration/algorithms/matrixOperations.tpp:computeSumLogDiagR"])
add("C154","At most one singleton","At most one object of a singleton class exists at any time; a second construction is refused and changes nothing; getInstance always returns the existing object, constructs it if there is none, and fails only if that construction fails; exists says whether there is one; this also if several threads call it.","all histories of constructions (failed ones included), destructions, getInstance and exists; all schedules of any number of threads that call getInstance","All histories and schedules; a race shows rarely.",[IC+"include/aslam/calibration/base/Singleton.tpp:Singleton getInstance exists"])
add("C155","Window boundaries in double arithmetic","The calibrators compute the age of a window in double arithmetic, from nanoseconds: a window is submitted by the first measurement that is the window duration or more after its start, to the nanosecond, and not by an earlier one; so any two measurements of a submitted window are less than the window duration apart (time delay and car calibrator: or the window holds just two poses, the second of which ends it).","all window durations of whole nanoseconds, all time stamps and histories with non-decreasing time stamps, nsecToSec by division or by multiplication","All durations and time stamps; roundings matter only for particular ones.",[TD+"src/algo/Calibrator.cpp:addMeasurement",EGO+"src/algo/Calibrator.cpp:addMeasurement",CAR+"src/algo/CarCalibrator.cpp:addMeasurement"])
add("C156","Multivariate streaming estimator in double arithmetic","Adding points in double arithmetic to a multivariate ML estimator, after any calls: mean and covariance are those of the points since the last reset up to roundings, entry by entry and relative to the magnitudes of the two components; the covariance computed is exactly symmetric, so that the estimator is valid exactly if the test for positivity accepts it and no variance is negative; it is valid if the points vary more than the roundings in every direction; component by component mean and variance are those of the univariate estimator; valid just if the points have a positive definite covariance.","all histories of calls, all dimensions, all lists of points (error bounds: up to 2^26 since the last reset), whatever the test for positivity does","Rounding errors accumulate over histories of every length; all dimensions.",[IC+"include/aslam/calibration/statistics/EstimatorMLNormalMv.tpp:addPoint addPoints reset",IC+"include/aslam/calibration/statistics/NormalDistributionMv.tpp:setCovariance",IC+"include/aslam/calibration/utils/OuterProduct.tpp:compute"])
add("C157","Normal sampling in double arithmetic","sampleNormal in double arithmetic: for every positive variance and every sequence of raw random numbers it returns the mean plus the standard deviation times u sqrt(-2 log(s)/s) of the first pair of draws inside the unit disc, up to roundings; no sample is further from the mean than 9.35 standard deviations; the functions it calls get arguments in their domains and the test for s == 0 never decides; it returns just if some pair is inside the disc; other variances are rejected without a draw.","all means and variances, all sequences of raw random numbers, all functions log and sqrt accurate to one unit (half a unit) in the last place","All sequences of draws; the dangerous draws are rare.",[IC+"include/aslam/calibration/statistics/Randomizer.tpp:sampleNormal",IC+"src/statistics/NormalDistribution1v.cpp:getSample"])
add("C158","Key frame decision in double arithmetic","With disparities computed in double arithmetic a frame becomes a key frame if there are enough tracks and the median of the exact distances the tracked points moved exceeds the threshold, and not if it does not exceed it.","all images, tracks, image points and thresholds that are not negative, all roots accurate to half a unit in the last place","All inputs; roundings matter only next to the threshold.",[VIS+" addImage, computeDisparity"])
add("C159","Log-factorial in double arithmetic","LogFactorialFunction(n) computed in double arithmetic is log(n!) within a relative error of n/2^52, exactly 0 for n = 0 and n = 1, and strictly increasing from 1 on; LogGammaFunction<size_t>(n) is as near to log((n-1)!), with n = 0 rejected.","all n up to 2^50, all logarithms accurate to one unit in the last place","Rounding errors accumulate over n terms; all n.",[IC+"src/functions/LogFactorialFunction.cpp:getValue",IC+"src/functions/LogGammaFunction.cpp:getValue"])
add("C160","Multivariate normal sampling in double arithmetic","getSample of a multivariate normal distribution in double arithmetic: with the triangular factor L of the distribution, component i is the mean plus the sum of L(i,j) times a standard normal number for j up to i, each such number from its own, successive draws, up to a relative error of (i + 12) 2^-52 of the terms' magnitudes, whatever order the linear algebra library adds them up in; no component is further from its mean than 9.36 times the sum of the magnitudes of its row; the call returns exactly if every component's rejection loop does, and then a vector of finite numbers.","all dimensions up to 2^40, all means and factors, all sequences of raw random numbers, all orders of summation, all functions log and sqrt accurate to one unit (half a unit) in the last place","All sequences of draws and orders of summation.",[IC+"include/aslam/calibration/statistics/NormalDistributionMv.tpp:getSample",IC+"include/aslam/calibration/statistics/Randomizer.tpp:sampleNormal"])
add("C161","Normal density in double arithmetic","After any history of calls on a normal distribution (refused ones included) pdf and logpdf, computed in double arithmetic, are those of the normal distribution with the mean and the variance last accepted, up to a relative (for logpdf absolute) error proportional to the squared distance from the mean in standard deviations plus the magnitude of the log of the normalization plus one; the density computed never increases with the distance from the mean and is symmetric about it.","all histories of calls, all points (relative error of the density: where it is between exp(-700) and exp(700)), all functions log and exp accurate to one unit in the last place (order: exp monotone)","All histories, points and variances; rounding errors grow with the distance from the mean.",[IC+"src/statistics/NormalDistribution1v.cpp:setMean setVariance pdf logpdf mahalanobisDistance"])
add("C162","Normal distribution function in double arithmetic","After any history of calls on a normal distribution (refused ones included) cdf(x), computed in double arithmetic, is the probability of values not above x under the normal distribution with the mean and the variance last accepted, up to 2^-50; it never decreases, stays between 0 and 1 and is exactly one half at the mean.","all histories of calls, all points, all functions sqrt and erf accurate to half a unit (one unit) in the last place (order and range: erf monotone, within -1 and 1)","All histories, points and variances.",[IC+"src/statistics/NormalDistribution1v.cpp:cdf setMean setVariance"])
add("C163","Normal Kullback-Leibler divergence in double arithmetic","After any histories of calls on two normal distributions (refused ones included) KLDivergence, computed in double arithmetic, is the Kullback-Leibler divergence of the normal distributions with the means and variances last accepted, up to 2^-49 of the sum of the magnitudes of the terms it adds up; it is never negative, and zero for equal distributions.","all histories of calls on the two distributions, all logarithms accurate to one unit in the last place","All histories; the roundings matter for nearly equal distributions.",[IC+"src/statistics/NormalDistribution1v.cpp:KLDivergence setMean setVariance"])
