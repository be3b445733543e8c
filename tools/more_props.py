p("C41","A negative init_bias_size makes bias initialisation wait forever","With static initialisation and a negative init_bias_size the filter never reports initialised biases, however many measurements arrive (the int is converted to size_t).","every negative size, every history of arrivals and calls","non-termination over unbounded histories",[IP+":InitImuBias"])
p("C50","A perfect velocity measurement does not move the estimate","If the measured velocity, mapped by mounting rotation and scale, agrees with the estimated velocity, Correct leaves orientation, velocity, position, contacts and biases unchanged.","every state, covariance and configuration",INF,[VC+":Correct"])
p("C59","A kinematic measurement is one joint update with every stance leg","Processing a kinematic measurement is always defined and performs one Kalman update whose residuals are R h - (d - p) for exactly the legs that are in contact and already had a column, each weighted by its rotated foot covariance, and then removes and adds columns; legs in swing take no part.","every state, number of legs, contact pattern, kinematics",INF,[LC+":Correct"])
p("C73","Every accepted sensor combination of the gyro filter produces output","For every combination of sensors that the gyro filter accepts without an error message, and for the filter created by the estimator, measurements of the correction sensors eventually yield filtered measurements.","every accepted combination, every history of measurements and runs","absence of output over unbounded histories",[IF+":RunOnce",IF+":SingleImuCorrection",IF+":AngVelCorrection",ES+":add_imu_ang_vel_ekf"])
p("C78","Wheel odometry log respects the configured rate","Two consecutive rows of the wheel-odometry pose log are at least one logging period apart in message time, and every row carries the pose after the message with that time stamp.","every history of encoder messages, every rate",INF,[WO+":LogPose",WO+":RunOnce"])
p("C84","Odometry velocities come from consecutive messages of one source","For every odometry subscription the queued velocities are exactly those computed from each pair of consecutive messages of that same subscription, in order, and nothing else; for a body moving with a constant twist between the messages the queued velocity is that twist.","every history of registrations, messages of any number of sources and reads","unbounded message histories",[SUB+":Odom2VelocityCallback"])
p("C86","Every IMU message is queued","Each IMU message received yields exactly one queued measurement with its time stamp, angular velocity, acceleration and orientation.","every message",INF,[SUB+":IMUCallback","include/drift/measurement/imu.h:set_quaternion"])
p("C88","Subscriptions have private FIFO queues","No two subscriptions share a queue or a mutex, the handle returned by an Add function is the queue the callback fills, and measurements come out in the order of the messages, each once.","every history of registrations, messages and reads","unbounded histories",[SUB+":AddIMUSubscriber",SUB+":IMUCallback"])
p("C89","A published pose reports the state","The published message carries the state's time, world position and a unit quaternion that represents the world orientation, for world- and body-centric states.","every state whose orientation is a rotation, including the half-turns where the quaternion conversion changes branch",INF,[PUB+":PosePublish"])
p("C90","Poses are published in order, each once","The published poses are the states handed over by the estimator, in that order, each exactly once, with consecutive sequence numbers modulo 2^32; the remaining queue holds exactly the others.","every history of pushes, pose publications and path publications","unbounded histories",[PUB+":PosePublish",PUB+":PathPublish"])
KIN="src/kinematics/robots/mini_cheetah/"
p("C91","Forward kinematics is that of the leg's joint chain","For each leg the computed foot position, orientation and pose are those of the chain abduction (about x), hip and knee (about -y) with the robot's link lengths; the orientation is a rotation and the foot is within the leg's reach.","all q in R^12, all four legs",INF,[KIN+"p_Body_to_FrontLeftFoot.cpp",KIN+"R_Body_to_FrontLeftFoot.cpp",KIN+"H_Body_to_FrontLeftFoot.cpp"])
p("C92","Body and spatial Jacobians give the foot's twist","Along every differentiable joint motion the foot pose H satisfies dH/dt = H (Jb dq)^ = (Js dq)^ H; Jb and Js are (Jwb, Jvb) and (Jws, Jvs) stacked.","all joint motions, all four legs","differential identity over a continuum",[KIN+"Jb_Body_to_FrontLeftFoot.cpp",KIN+"Js_Body_to_FrontLeftFoot.cpp"])
p("C93","A kinematic measurement carries each leg's position and Jacobian","After ComputeKinematics the position and Jacobian returned for each leg are the foot position and its derivative by that leg's three joints; other encoder counts are undefined.","all encoder vectors, all legs",INF,["src/kinematics/mini_cheetah_kinematics.cpp:ComputeKinematics","src/measurement/legged_kinematics.cpp:get_J"])
p("C55","The covariance transition matrix solves the error equations exactly","For constant body rate and acceleration over a step, the matrix used to propagate the covariance maps the stacked error (orientation, velocity, position, contacts, gyro bias, accelerometer bias) at the start of the step to the error at its end for every solution of the linear error differential equations of the chosen error type (rates of at least 1e-6 rad/s, or no gyro-bias error).","every rate, acceleration, step length, state, number of contacts, initial error, both error types","equality with the solution of a differential equation over a continuum",[IP+":StateTransitionMatrix"])
p("C94","Propagation errors of any size evolve by the covariance transition matrix","If two estimates differ before an IMU step by a group error Exp(xi), however large, they differ after the step by Exp(Phi xi), with Phi the matrix used for the covariance: the filter's linearisation of the propagation is exact.","every state, error vector, measurement and step, both error types",INF,[IP+":Propagate",IP+":StateTransitionMatrix"])
p("C95","The filter never claims to know heading and absolute position better than at the start","While the filter runs, and in every published or logged state, the covariance is at least that of a common unknown heading and a common unknown shift of position and contacts with the configured initial variances; in particular the heading variance and the position variance in every direction never fall below their initial values (for the left-invariant filter: seen from the body, started at rest, with the lever arm of the unknown heading).","every configuration, every history of measurements, main-loop turns, clear() and re-initialisations","an invariant of a covariance recursion over unbounded histories with changing dimension",[ES+":RunOnce",IP+":Propagate",VC+":Correct",LC+":Correct",IK+":CorrectRightInvariant"])
p("C96","An IMU step adds exactly the configured process noise","The variance of every linear function of the error after an IMU step is the variance of that function of the propagated error plus the length of the step times the configured variances (squares of the configured standard deviations, in every history) of gyroscope, accelerometer, contacts and, when biases are estimated, bias random walks, each entering through the body-frame channel it belongs to.","every state, measurement, number of contacts, linear function of the error, both error types; every history for the configured values",INF,[IP+":DiscreteNoiseMatrix",IP+":Propagate"])
p("C97","A correction is the minimum-variance update","Whenever CorrectRightInvariant (used by every shipped correction) returns, the new mean is Exp(d) X and theta + d with d = L Z, and the new covariance is the error covariance of L, where L is the unique gain whose error covariance is minimal in every direction among all linear gains, for the prior covariance, observation matrix and noise; only the yaw gyro bias is excepted (C27).","every state, number of columns, observation size, Z, H, N; both error types; bias update on or off","optimality over all gains and all covariances",[IK+":CorrectRightInvariant"])
p("C98","The heading of the world frame does not matter","Turn the world frame by a rotation that fixes gravity: every orientation the IMU reports is turned, everything else that arrives is the same. Then every estimate, published state and log row is turned the same way (orientation, velocity, position, contact positions), while biases, time stamps and body velocities are the same and the covariance is the same (left-invariant) or turned block by block (right-invariant). If the IMU orientation is not used to initialise, the reported orientations have no effect at all.","every configuration, both error types, every history of measurements, main-loop turns and clear()","relation between two unbounded histories",[ES+":RunOnce",IP+":Propagate",IP+":InitImuBias",IP+":set_initial_state",VC+":Correct",LC+":Correct"])
p("C99","clear() separates the logs of two sessions","Every row of the three log files opened by clear() (or by the constructor) is of a state processed in that session, and the three rows of a state go to the files of one session.","every interleaving of the logging thread with RunOnce and clear(), any number of calls, any log rate","depends on the interleaving of two threads",[ES+":PoseLoggingThread",ES+":clear",ES+":RunOnce"])
p("C100","Destroying the estimator saves the logged path","When the destructor returns, which it always does, the log files contain the rate-limited log of all states processed; no call of RunOnce, clear() or the destructor can block for ever on the logging thread.","every interleaving of the logging thread with RunOnce, clear() and the destructor, any log rate","depends on the interleaving of two threads",[ES+":~InekfEstimator",ES+":PoseLoggingThread",ES+":RunOnce",ES+":clear"])
p("C101","The origin of time does not matter","If the clock that stamps all measurements is set differently by a constant, the same configuration processes the history in the same way: every estimate, published state and log row is the same, apart from its time stamp, which differs by that constant.","every configuration, offset and history of measurements, main-loop turns, clear(), logging and publishing","relation between two unbounded histories",[ES+":RunOnce",ES+":PoseLoggingThread",IP+":Propagate",VC+":Correct",LC+":Correct"])
p("C102","Published time stamps are stamps of received measurements","Every published state carries a time stamp, and it is the stamp of a measurement that was received; so is the time of every row of the log.","every configuration, every history of measurements, main-loop turns, clear(), logging and publishing","unbounded histories",[ES+":RunOnce",ES+":InitState",ES+":PoseLoggingThread"])
p("C103","Kinematic and Fetch IMU messages reach the estimator with their content","A pair of contact and joint messages adds exactly one measurement; the legged correction sees it with the stamp of the contact message, each leg's own contact flag, the foot position of the robot's geometry at these joint angles and its derivative by the leg's own joints; the velocity it gives to the initialisation makes the first foot in contact stand still; messages with too few entries are exactly those read out of bounds. A Fetch IMU message is queued with the angular velocity of the IMU plus the offset message.","every pair of messages, subscriber state, joint configuration and joint motion","all messages and all joint configurations; the derivative is a limit",[SUB+":MiniCheetahKinCallBack",SUB+":FetchIMUCallBack",KIN,LC+":Correct"])
EX="ROS/drift/examples/"
p("C104","The shipped programs never crash on well-formed data","Each of the ten shipped ROS programs, with its shipped configuration, starts, and no history of well-formed messages makes it reach undefined behaviour, a division by zero or an uncaught exception, whatever the interleaving of callbacks, main loop, gyro filter, logger and publisher, if the messages that time the propagation arrive in the order of their stamps and consecutive odometry messages have different stamps.","all ten programs; every history of messages, loop turns, filter iterations, logging and publishing","unbounded histories and interleavings of several threads",[EX+"mini_cheetah.cpp",EX+"fetch.cpp",EX+"girona500.cpp",EX+"husky.cpp",EX+"husky_odom.cpp",EX+"neya.cpp",EX+"fetch_gyro_filter.cpp",EX+"husky_double_imu_filter.cpp",EX+"husky_gyro_filter.cpp",EX+"neya_gyro_filter.cpp"])
p("C105","Everything a shipped program publishes is meaningful","Every pose message published by a shipped program carries the stamp of a message that the program received, a unit quaternion and a positive semidefinite covariance; the paths consist of published poses; every state waiting to be published is a valid estimate.","all ten programs; every history of messages, loop turns, filter iterations, logging and publishing","unbounded histories and interleavings of several threads",[EX+"mini_cheetah.cpp",EX+"husky_gyro_filter.cpp",PUB+":PosePublish",ES+":RunOnce",SUB+":IMUCallback"])
p("C106","Between topics and published poses nothing is lost, duplicated, reordered or misrouted","In each of the ten shipped programs every message is converted once and reaches exactly the sensors configured for its topic, in the order of arrival; the estimator behaves as if it were called directly with these measurements and the main-loop turns, in that order (with a gyro filter the IMU measurements are the outputs of that filter on its inputs); the published poses report the states the estimator published, in that order, each once, and the others are still queued.","all ten programs; every history of well-formed messages, loop turns, filter iterations, logging and publishing","unbounded histories and interleavings of several threads",[EX+"mini_cheetah.cpp",EX+"husky_gyro_filter.cpp",SUB+":AddIMUSubscriber",PUB+":PosePublish",ES+":RunOnce"])
p("C107","The estimator starts as soon as it can, and then keeps up","Nothing is published before the IMU measurements of the bias initialisation and one more have arrived and every correction has data; once they have, the first state is published within two turns of the main loop more than there are samples to average. It is made from exactly those measurements: mean of the samples as biases (or the configured biases), orientation and time of the next one, origin, configured covariances. Every later IMU measurement drives one propagation, in order, and each turn that finds one waiting consumes exactly one and publishes. The ten shipped programs start in the same way.","every configuration, every history of arrivals, main-loop turns, logging and publishing without clear(); all ten shipped programs","progress over unbounded histories and any interleaving of arrivals with the main loop",[ES+":RunOnce",ES+":InitBias",ES+":InitState",IP+":InitImuBias",EX+"husky_odom.cpp"])
p("C108","Without corrections the orientation uncertainty grows exactly with the gyroscope noise","As long as no correction measurement arrives, whatever the motion and the schedule, the total orientation variance of the estimate (trace of the orientation block of the covariance) grows by exactly three times the squared configured gyroscope standard deviation per second of propagated time (bias estimation off).","every configuration without bias estimation, both error types, every earlier history, every history of IMU messages, main-loop turns, logging and publishing","unbounded histories, all motions",[IP+":Propagate",IP+":StateTransitionMatrix",IP+":DiscreteNoiseMatrix",ES+":RunOnce"])
p("C109","An IMU measurement that arrives late does not invalidate the estimate","If an IMU measurement arrives with a stamp earlier than the current estimate, the estimates published afterwards are still valid (their covariance is positive semidefinite).","every configuration, every history, every late stamp","all time stamps and states",[IP+":Propagate",ES+":RunOnce"])
BL="ROS/drift/baselines/"
p("C110","The wheel-odometry programs report planar dead reckoning of the joint messages","Whatever the interleaving of messages, callbacks and the main loop, the two baseline programs never reach undefined behaviour on well-formed messages, and the pose they hold is planar dead reckoning (rotation about the vertical axis, height 0) of the wheel readings of the first joint messages that are not ignored, with the robot's radius and track width, from the origin at the first stamp; all readings, once the threads are idle and the queue is empty.","both programs; every interleaving of messages, callback steps and main-loop steps; every well-formed message","unbounded interleavings of two threads",[BL+"husky_wheel_odom.cpp",BL+"fetch_wheel_odom.cpp",WO+":RunOnce",WO+":Integrate",SUB+":DifferentialEncoder2VelocityCallback"])
p("C111","Wheel odometry is accurate to first order","If the wheels do not slip and the speeds are constant between messages, the reported heading is within 1e-10 rad per reading of the true one, and the reported position is within the sum of |v||w|dt^2/2 (plus the effect of ignored tiny turns) of the true one: exact for straight driving and for turning on the spot, and linear in the distance travelled otherwise.","both programs; every interleaving; every motion with piecewise constant speed and rate","error bound against the solution of a differential equation, over unbounded histories",[WO+":Integrate",WO+":RunOnce",BL+"husky_wheel_odom.cpp"])
p("C112","The gyro filter puts its outputs out in time order","If each sensor delivers its measurements in the order of their stamps, the measurements the gyro filter puts into its output queue (which time the propagation of the estimator) are in the order of their stamps.","every configuration and combination of sensors, every history of measurements and filter iterations","unbounded histories and interleavings of the sensors with the filter thread",[IF+":RunOnce",IF+":SingleImuAngVelCorrection",IF+":MultiImuCorrection",IF+":SingleImuCorrection",IF+":AngVelCorrection"])
MK="baselines/python/MEKF/MEKF.py"
p("C113","MEKF: converting an orientation to a quaternion and back does not change it","quat2rot(rot2quat(R)) returns R for every rotation matrix R; rot2quat always returns a unit quaternion; rot2quat(quat2rot(q)) is q, normalised, for every quaternion with positive real part.","every rotation matrix, every quaternion",INF,[MK+":rot2quat",MK+":quat2rot"])
p("C114","MEKF: no input makes the filter fail or its covariance invalid","From the initial state, whatever the IMU rows, time steps (also zero or negative ones) and velocity measurements, no step raises an exception or produces a NaN, the orientation stays a unit quaternion and the covariance symmetric positive semidefinite, for a positive measurement variance and non-negative noise variances.","every log of IMU and velocity rows, every configuration","unbounded histories over a continuum of inputs",[MK+":propoagate",MK+":measurement_update"])
p("C115","MEKF: a velocity update is the minimum-variance update for the true measurement Jacobian","measurement_update uses the derivative of the predicted body velocity with respect to the error state; the covariance it returns is minimal among all linear updates; position, velocity and orientation move by the optimal gain times the innovation.","every valid state, measurement and measurement variance","optimality over all gains; a derivative is a limit",[MK+":measurement_update"])
p("C116","MEKF: the covariance is propagated with the derivative of the step","propoagate moves position, velocity and orientation by dead reckoning with the bias-corrected IMU row, and propagates the covariance with the derivative of this step with respect to the error state, plus the process noise.","every state, IMU row and time step","a derivative is a limit, over a continuum of states",[MK+":propoagate"])
p("C117","MEKF: a perfect velocity measurement does not move the estimate","A velocity measurement equal to the predicted body velocity leaves position, velocity and orientation unchanged.","every valid state and measurement variance",INF,[MK+":measurement_update",MK+":rot2quat"])
p("C118","MEKF: a robot at rest is estimated to be at rest","If the biases are initialised by init_bias from a log of the robot standing level and the robot keeps standing, the estimate stays at the origin with velocity zero, whatever the constant sensor biases and the mounting.","every mounting rotation, constant sensor biases, log length, window and sequence of time steps","unbounded histories over a continuum",[MK+":init_bias",MK+":propoagate"])
p("C119","MEKF driver: velocity measurements are used in order, each once, when they are due","The driver makes one turn per IMU row; the velocity measurements used are the first ones of the log in order, each once; none is used before its time stamp; and each is used at the first IMU row not earlier than its stamp.","every pair of logs","unbounded logs",[MK])
p("C120","MEKF: the saved trajectory contains the estimates","The file written by save_pose_to_tum contains, in order and in TUM column order (time, position, quaternion with the real part last), all estimates up to 15000 of them, otherwise the first and every fifth after it.","every trajectory of any length","unbounded lengths",[MK+":save_pose_to_tum"])
p("C121","MEKF: propoagate can be called with its documented arguments","A program that imports the module can call propoagate with its arguments; the call uses the previous row of the estimates and the current row of the data.","every argument",INF,[MK+":propoagate"])
p("C122","MEKF: the program turns every usable recording into a trajectory file","For every recording with at least one IMU message and at least one joint message, all with four wheel speeds, the program saves a file; it lists, for each IMU message (all up to 15000, then every fifth), its time of reception and the pose obtained by propagating the previous one over the time between the two messages and updating it with the next unused wheel message received by then, read as a forward velocity of radius times mean wheel speed; other recordings raise.","every recording, of any length","unbounded recordings over a continuum",[MK+":read_imu",MK+":read_husky",MK+":save_pose_to_tum"])
p("C123","Calls behave as if they were atomic","Whatever the interleaving of the main loop with sensor callbacks, publisher and logging thread, at the granularity of single lock, queue and unlock operations, each call of RunOnce, InitBias, InitState and clear takes effect at one moment between its beginning and its return: a history of whole calls, with the same calls and per queue the same accesses in the same order, ends in the same state and gives the publisher the same states. No interleaving leads to a front() of an empty queue or any other undefined access.","every interleaving of any number of calls with arrivals, publishing and logging; every configuration","depends on the interleaving of several threads over unbounded histories",[ES+":RunOnce",ES+":InitState",ES+":clear",IP+":Propagate",IP+":set_initial_state",VC+":Correct",VC+":initialize",LC+":Correct",SUB+":IMUCallback"])
p("C124","Main loop, callbacks, publisher and logger neither deadlock nor race","At every moment the holder of a mutex can go on without waiting and releases it after at most two of its own steps; and no queue is accessed by two threads at once, so the outcome does not depend on an unsynchronised access.","every interleaving of the main loop with callbacks, publisher and logging thread","depends on the interleaving of several threads",[ES+":RunOnce",ES+":InitState",IP+":set_initial_state",VC+":initialize",LC+":initialize",SUB+":IMUCallback"])
p("C125","Every call of the estimator returns","A call of RunOnce, InitBias, InitState or clear returns after a number of steps bounded by the number of corrections and queued measurements, whatever the other threads do.","every state, every interleaving with the other threads","termination over all schedules",[ES+":RunOnce",VC+":Correct",LC+":Correct"])
p("C126","Converted time stamps keep order and identity of the messages","The double that the callbacks make of a message stamp (seconds and nanoseconds) is in the order of the stamps, within 120 ns of the stamp (until 2038), and different for messages with different stamps.","every pair of stamps, every rounding to nearest of IEEE binary64","all stamps; rounding",[SUB+":IMUCallback",SUB+":VelocityCallback",SUB+":OdomCallback"])
p("C127","Time steps are computed without rounding error","The difference of two stamps (between 2004 and 2038) is computed exactly in double arithmetic, so the time steps of any number of measurements add up to the time between the first and the last, and the clock of the wheel odometry is the stamp of its last measurement.","every sequence of stamps of any length, every rounding to nearest","rounding errors over unbounded histories",[IP+":Propagate",VC+":Correct",LC+":Correct",WO+":RunOnce",WO+":Integrate"])
p("C128","Published stamps are the stamps of the measurements","The stamp of a published pose, which goes from the message through a double and back, is in the order of the received stamps, within 120 ns, and identical to the stamp of the measurement it belongs to.","every stamp, every rounding to nearest","all stamps; rounding",[PUB+":PosePublish",SUB+":IMUCallback"])
p("C129","Log files hold the exact values","Every number in the log files identifies the double it was written for: reading it back gives exactly that double, and different values are written differently.","every binary64 number, every rounding to nearest","all 2^64 values",[ES+":InekfEstimator",ES+":clear",ES+":PoseLoggingThread",WO+":WheelOdometry"])
p("C130","The orientation stays a rotation in spite of rounding errors","Whatever the IMU readings and corrections, after n of them the orientation as computed in double arithmetic is orthogonal up to (1 + 2^-43)^n - 1 in every entry of R^T R: less than 3e-13 per step, 3e-6 after ten million steps, independently of the motion.","every sequence of IMU readings and left- or right-invariant corrections of any length, every rounding to nearest, every sine and cosine accurate to 2^-52","rounding errors over unbounded histories and a continuum of inputs",[LG+":Gamma_SO3",LG+":Exp_SEK3",IP+":Propagate",IK+":CorrectRightInvariant",IK+":CorrectLeftInvariant"])
p("C131","The transition matrix is accurate in double arithmetic","The block of the computed state transition matrix that couples position with gyroscope bias over one IMU interval is of the order of the specific force times dt^3, for every angular rate.","every angular rate, specific force and time step; every rounding to nearest","a continuum of inputs; rounding errors",[IP+":StateTransitionMatrix",LG+":Gamma_SO3"])
p("C132","The computed orientation is close to the true one","After any number n of IMU readings and corrections (up to 10^12), every entry of the orientation computed in double arithmetic is within n * 2^-40 (n * 1e-12) of the product of the exact matrix exponentials of the same rotation vectors.","every initial rotation, every sequence of IMU readings and of left- and right-invariant corrections with rotation vectors of at most 4 rad per component that are zero or at least 2e-10 rad long, every rounding to nearest, both summation orders, every sine and cosine within 2^-52","rounding errors of thousands of operations per second accumulate over hours; a test sees a few seconds and needs a reference that is itself rounded",[LG+":Gamma_SO3",LG+":Exp_SEK3",IP+":Propagate",IK+":CorrectRightInvariant",IK+":CorrectLeftInvariant"])
p("C133","Each run of the gyro filter behaves as if it were atomic","Whatever the interleaving of the critical sections of the gyro filter thread with sensor callbacks and the estimator taking outputs, each run takes effect at one moment between its beginning and its return: a history of whole runs, with per queue the same accesses in the same order, ends in the same state and gives the estimator the same measurements. With a supported combination of sensors no interleaving leads to undefined behaviour, and each run returns after at most 2n + 5 critical sections (n further IMUs).","every configuration, every interleaving of any number of runs with arrivals and consumption","depends on the interleaving of several threads over unbounded histories",[IF+":RunOnce",IF+":RunFilter",IF+":SingleImuAngVelCorrection",IF+":MultiImuCorrection",IF+":InitializeFilter",IP+":Propagate"])
p("C134","clear() may be called at any time while the gyro filter runs","Whenever clear() is called, the filter thread goes on without undefined behaviour, and after clear() has returned nothing that arrived before it is put out any more.","every configuration, every interleaving of clear() with the filter thread and the callbacks","depends on the interleaving of several threads",[IF+":clear",IF+":SingleImuAngVelCorrection",IF+":AngVelCorrection",ES+":clear",ES+":add_imu_ang_vel_ekf"])
p("C135","The shipped programs end when ROS is shut down","After Ctrl-C at any moment, each shipped program ends: all its threads return and main() returns, as soon as every thread has had a bounded number of turns, whatever their order. Until then nothing goes wrong: what is published is meaningful, and no object is destroyed while a thread works on it.","all ten shipped programs, every history of well-formed messages, every moment of the shutdown, every interleaving of the threads afterwards","termination over all schedules of six threads and all moments of the shutdown",[EX+"girona500.cpp",ES+":InitState",ES+":~InekfEstimator",IF+":~ImuAngVelEKF",PUB+":~ROSPublisher",SUB+":~ROSSubscriber",SUB+":RosSpin"])
p("C136","The objects with threads can be constructed, started and destroyed in any way","A subscriber, publisher, gyro filter or estimator can be destroyed at any time after its construction, whether or not its thread has been started and however often, without terminating the program.","every kind of object and every number of calls of the function that starts its thread","any number of calls; termination in a destructor cannot be caught by a test framework",[ES+":InekfEstimator",ES+":StartLoggingThread",ES+":~InekfEstimator",IF+":StartImuFilterThread",IF+":~ImuAngVelEKF",PUB+":StartPublishingThread",SUB+":StartSubscribingThread"])
p("C137","The velocity log holds the estimated velocity in the frame of the velocity sensor","Each time a velocity measurement is used, and only then, one line is written to the velocity log: the stamp of the measurement and the estimated velocity after the correction, expressed in the frame of the velocity sensor. Writing the log changes nothing else.","every state, configuration, queue content and measurement","the orientation used for the line must be that of the same state as the velocity; only measurements that turn the estimate show the difference",[VC+":Correct"])
p("C138","With perfect sensors the estimate is the truth","If the estimate is right at some time and from then on the IMU readings and the velocity measurements are without error (biases known, rates and accelerations constant between two IMU readings), every state the estimator publishes is the true orientation, velocity and position of the body at the time stamp it carries.","all true motions, mountings, biases, IMU and velocity streams, interleavings of arrivals and main-loop turns, numbers of steps","a test checks a trajectory within a tolerance; exactness must hold for every motion and every schedule",[ES,VC,IP,IK])
p("C139","After a correction the measured quantity is known at least as well as the sensor measures it","After a velocity measurement has been used, the velocity covariance the filter reports is, in every direction, at most the covariance of the sensor (in the world frame) and at most what it was before; after a kinematic measurement the same holds for the position, relative to the body, of each foot that is and was in contact, with the covariance of the leg kinematics. For every correction: the variance of any combination of the measured quantities is at most that of the measurement, and no combination without the yaw gyro bias becomes more uncertain.","all states with a positive semidefinite covariance, all measurements, positive definite noises, numbers of legs, both error conventions for the general statement","a test checks one covariance; the inequality is a claim about every direction, state and noise level",[VC,LC,IK])
p("C140","Measurements queued before the start take part in the estimation","A velocity or kinematic measurement that was queued before the filter is initialised, and is newer than the IMU measurement it is initialised from, is used for a correction when the propagation has reached its time stamp, as it would be had it arrived after the start.","all estimators, queue contents at the start, numbers of measurements and corrections, all later histories","a test feeds one log; the repository's own test does exactly this and does not notice that no correction happens",[ES,VC,LC])
p("C141","A measurement says what it is and returns what was set","Whatever calls are made on a measurement object, it reports the type of its class, also when printed, and every getter returns what was last set (a quaternion that is refused changes nothing); magnitude times direction of a velocity is the velocity; the transformation of an odometry measurement is that of its translation and rotation.","all constructors, all sequences of calls with all arguments","unbounded sequences of calls in any order, all values",["include/drift/measurement/measurement.h","src/measurement/measurement.cpp","src/measurement/legged_kinematics.cpp:LeggedKinematicsMeasurement","include/drift/measurement/impl/velocity_impl.cpp:get_vel_unit_vec","include/drift/measurement/odom.h:set_transformation"])
p("C142","Contact messages survive the wire","Every contact array that fits into a message is received as it was sent, and a sequence of them as that sequence; its size on the wire is that of its fields; a message that is cut off is never taken for a message; the bytes are determined by what is received.","all headers, frame names, numbers of entries and sequences of messages","all messages of all lengths; a test sends one",["ROS/drift/include/custom_sensor_msgs/Contact.h:Serializer","ROS/drift/include/custom_sensor_msgs/ContactArray.h:Serializer","ROS/drift/msg/Contact.msg","ROS/drift/msg/ContactArray.msg"])
p("C143","A contact is attributed to the leg it names","If the entries of a contact array name the four legs by their id, in any order, the kinematic measurement says of each leg what the entry with its id says.","all contact arrays that name each leg once, all joint messages","all orders of the entries and all flags",["ROS/drift/src/communication/ros_subscriber.cpp:MiniCheetahKinCallBack","ROS/drift/msg/Contact.msg"])
p("C144","An orientation given as a quaternion is the rotation about its axis by its angle","The quaternion of a rotation by any angle about any unit vector is accepted, and the rotation matrix read back is the matrix exponential of the rotation vector, the same that Exp_SO3 returns; the opposite quaternion gives the same matrix, the conjugate the transposed one.","all unit vectors and angles","a continuum of axes and angles; the exponential is a limit",["include/drift/measurement/impl/imu_impl.cpp:set_quaternion","include/drift/measurement/impl/imu_impl.cpp:get_rotation_matrix","src/math/lie_group.cpp:Exp_SO3"])
p("C145","A legged robot with perfect sensors is estimated exactly","If, from a true state on, the IMU readings are without error, and every kinematic measurement that is used is without error, is used when the estimate has been propagated to its stamp, and shows feet that do not move while in contact, then every published state is the true pose and velocity at its stamp, and the augmented columns are the true places of the feet; whatever the gait, the number of steps and the tuning.","all true motions, gaits, configurations and histories with a contact correction","all trajectories, contact patterns and histories of any length",[IP,LC,ES])
p("C146","A foot that was lifted is not taken for one that stayed","If a leg was in contact, then a received kinematic measurement reports that it is not, and a later one that it is again, the leg gets a new contact point: the place of the foot before is not compared with the place after.","all sequences of received kinematic measurements and all propagation times","all patterns of contact and delay",[LC])
p("C147","Every setting in a configuration file takes effect","Each key that a shipped configuration file sets, in a file that the program loads, has an influence: there are files that differ only in its value for which the object built from them differs.","all files and all keys; all values of a key","a test sees one value of a key; that a key is ignored is a claim about all values and all files",[IP+":ImuPropagation",VC+":VelocityCorrection",LC+":LeggedKinematicsCorrection",ES+":InekfEstimator",IF+":ImuAngVelEKF",EX+"mini_cheetah.cpp","config/mini_cheetah/legged_kinematics_correction.yaml"])
p("C148","The configured mounting orientation of a sensor is a rotation","Whatever quaternion a configuration file gives for the orientation of the IMU or the velocity sensor, readings are turned by it and nothing else: lengths and angles are kept, so that a robot at rest with an IMU without error is estimated to be at rest.","all configuration files, in particular the shipped ones","a continuum of quaternions; the error is below the tolerance of a short test and grows with the square of time",[IP+":ImuPropagation",VC+":VelocityCorrection","config/husky/imu_propagation.yaml","config/neya/imu_propagation.yaml"])
p("C149","Every well-formed configuration is accepted, and the shipped ones are what the properties of the shipped programs assume","An object is built from a configuration file without an exception exactly when every setting of its class that is in the file has a value of the right kind (truth value, number, sequence of at least three or four numbers); settings may be missing, except the switch of the logger. With the files in the repository, every shipped program starts, and is the program that the other properties are about.","all configuration files; the ten shipped programs","all files, with any settings missing or malformed",[IP+":ImuPropagation",VC+":VelocityCorrection",LC+":LeggedKinematicsCorrection",ES+":InekfEstimator",IF+":ImuAngVelEKF",EX+"mini_cheetah.cpp",EX+"husky.cpp"])
p("C150","The three logs of a session are three files","In every session the pose, velocity and body-velocity logs are three different files; each contains, after any number of rows, the rows of its log and nothing else.","all configured names, numbers of sessions and rows","all names and histories of any length",[ES+":InekfEstimator",ES+":PoseLoggingThread",ES+":clear","config/mini_cheetah/inekf_estimator.yaml"])
p("C151","Two velocity measurements make the tilt known","Without bias estimation, whenever two turns of the main loop have each used a velocity measurement and the estimate has moved on by a time T between them, the reported variance of the roll and pitch error, about any horizontal axis, is at most twice the square of sensor noise over 9.8 T, plus what the configured gyroscope and accelerometer noise add in the time T at the speed at hand; whatever the uncertainty before, the motion, the mounting and what happens in between. Afterwards the variance of the orientation error about any axis grows at most at the rate of the squared gyroscope noise, with or without further measurements. (About the vertical axis it never gets below the initial one: C95.)","all configurations with velocity sensors, all histories before, between and after, all motions with an estimated speed at most V in between, all horizontal directions","a bound on a covariance for every trajectory, prior and history of any length; a test checks numbers of one run",[IP,VC,ES,IK])
p("C152","Dead reckoning drifts no faster than the errors of the IMU","However the body moves, as long as no correction arrives: if the estimate starts off by at most dR, dv, dq and the IMU readings (biases and mounting accounted for) are off by at most eg in rate and ea in specific force, then S seconds later every published state, at its stamp, is off by at most r + eg S in orientation, dv + ea S + A (r S + eg S^2/2) in velocity and dq + dv S + ea S^2/2 + A (r S^2/2 + eg S^3/6) in position, where A bounds the specific force and r is dR plus 1e-10 per published state. The bounds on velocity and position are attained.","all motions of the body (any rates as functions of time, with jumps), all readings within the error bounds, all schedules of arrivals and main-loop turns, numbers of steps and time steps","an error bound for a continuum of motions and readings over histories of any length; a test compares one trajectory with one log",[IP+":Propagate",LG+":Gamma_SO3",ES+":RunOnce"])
p("C153","Each correction of the gyro filter is the minimum-variance update","A run of the gyro filter that uses a measurement predicts rate and bias (previous estimate, plus the increment of the propagation gyro if there is one, plus the configured process noise) and replaces the prediction by the linear update with the smallest error variance in every direction, for a measurement of rate plus bias (IMU) or of the rate turned into the IMU frame (encoders), on all axes or on the third only, with the configured variance; the covariance it keeps is the covariance of the error of the new estimate, and the output carries the new rate. So afterwards the measured quantity is known at least as well as the sensor measures it.","all configurations, all histories before, all measurements, all gains and directions to compare with","optimality is a claim about all gains and all directions; a test compares numbers",[IF+":AngVelFilterCorrectIMU",IF+":AngVelFilterCorrectEncoder",IF+":GyroPropagate",IF+":RandomWalkPropagate"])
p("C154","An IMU and encoders together make the gyro bias known","Once the gyro filter has used an IMU measurement and an encoder measurement, in either order and with any history in between, the variance of the bias of each measured axis is at most the sum of the variances of the two sensors plus the process noise of the runs in between, whatever it was before; afterwards it grows by at most the configured bias noise per run. With IMUs alone the variance never gets below p q / (p + q), where p and q are the initial variances of rate and bias, and with encoders alone never below q, however many measurements are used.","all configurations, all histories before, between and after, all directions","bounds over histories of any length and every prior",[IF+":SingleImuAngVelCorrection",IF+":AngVelFilterCorrectIMU",IF+":AngVelFilterCorrectEncoder"])
p("C155","With sensors without noise the gyro filter puts out the true rate","If the bias is constant and known to the filter (from the configuration or from the static initialisation) and the sensors read rate plus bias (IMU) and rate (encoders) without noise, every output carries the true rate.","all configurations, rates, biases and histories of data","every history of any length; a test tolerates errors of the size of the effect",[IF+":GyroPropagate",IF+":InitializeFilter",IF+":AngVelFilterCorrectIMU",IF+":AngVelFilterCorrectEncoder"])
p("C156","Wheel odometry under slip drifts no faster than the wheel errors","For every motion whose turning rate stays within ew of the wheel readings and whose velocity, in any direction, within ev of them, the reported heading is off by at most ew per second (plus 1e-10 per reading) and the position by at most ev T + V ew T^2/2 plus the integration error of the Euler rule; a wheel speed error of eta rad/s gives ev = radius*eta and ew = 2*radius*eta/track. Both growth rates are attained.","both programs; every interleaving; every motion; every error size","error bound against all differentiable motions, over unbounded histories",[WO+":Integrate",WO+":RunOnce",BL+"husky_wheel_odom.cpp",BL+"fetch_wheel_odom.cpp",SUB+":DifferentialEncoder2VelocityCallback"])
p("C157","The covariance of the gyro filter is honest","If the estimate of rate and bias is within s claimed standard deviations of the truth, the truth moves by at most kappa standard deviations of the process noise per run (beyond the increments of the propagation gyro), and every measurement used is within nu of its configured standard deviations, then after n runs the estimate is within sqrt(s^2 + n(kappa^2+nu^2)) claimed standard deviations of the truth, in every direction; with exact sensors s never grows. Right after initialisation s is the error divided by the configured initial standard deviations.","every configuration but several IMUs at once; every interleaving of data, registration and runs; every true motion; every s, kappa, nu","error ellipsoid invariant over unbounded histories of Kalman updates with real-valued data",[IF+":RunOnce",IF+":AngVelFilterPropagate",IF+":AngVelFilterCorrectIMU",IF+":AngVelFilterCorrectEncoder"])
p("C158","The gyro filter forgets old errors","While the claimed variances stay below p and the process noise is at least q in every direction, every run multiplies the error, in claimed standard deviations, by at most 1/sqrt(1+q/p) before adding kappa+nu; so with exact sensors and constant bias the errors of rate and bias go to zero exponentially however wrong the initial bias was, and with noise they end below (kappa+nu)/(1-rho) standard deviations. Using the IMU and then the encoders bounds p by the configured noises whatever the covariance was before.","every configuration but several IMUs at once; every interleaving; every true motion; every initial error","convergence over unbounded histories",[IF+":RunOnce",IF+":AngVelFilterPropagate",IF+":AngVelFilterCorrectIMU",IF+":AngVelFilterCorrectEncoder"])
p("C159","The covariance claimed for a foot covers the errors of the joint encoders","If the three joint angles of a leg are off by x, y, z the foot position computed from them is off by at most 0.4785|x| + 0.4165|y| + 0.2075|z| metres. If they are within nu configured encoder standard deviations, and the remaining error of the foot plus 0.72 (nu sigma)^2 is within mu standard deviations of the additive noise, the true foot is within sqrt(nu^2+mu^2) standard deviations of the covariance that the correction uses, in every direction; with the shipped settings within sqrt(2) nu for nu up to 200. That covariance leaves no direction without uncertainty exactly when there is additive noise, or encoder noise and the leg is not singular (knee straight or folded, foot in the plane of abduction axis and hip link). Left and right legs are mirror images, front and hind legs alike.","all joint angles and errors, all legs, all noise settings","second-order error bound over a continuum of poses and errors",[KIN+"p_Body_to_FrontLeftFoot.cpp",KIN+"Jp_Body_to_FrontLeftFoot.cpp",LC+":Correct"])
p("C160","Three kinematic measurements of a standing foot make velocity and tilt known","Without bias estimation, when three turns of the main loop have each used a kinematic measurement, at times t1 < t2 < t3, and all kinematic measurements since then report one leg in contact, the reported variance of the velocity in any direction, and of the roll and pitch error about any horizontal axis, are bounded by the noise of the foot measurement (its covariance at most sigma^2) and by what the configured gyroscope, accelerometer and contact noise add between t1 and t3 at the speed and reach at hand: of the order of sigma over the time between for the velocity, and of sigma over 9.8 times its square for the tilt. Whatever the uncertainty before, the motion, the other legs, and whether the leg had been in contact before; the first of the three may be the touchdown. No velocity sensor is needed.","all configurations with legged kinematics, all histories before and between, all motions with an estimated speed at most V and a foot at most D away, all directions","a bound on a covariance for every trajectory, prior, contact pattern of the other legs and history of any length",[IP,LC,ES,IK])
p("C161","With velocity measurements the reported position variance grows at most linearly","Right-invariant, without bias estimation, with velocity sensors: along a drive in which a velocity measurement is used at least every tau seconds, the reported variance of the position error in any direction is at most (s_p + tau/2 s_v)^2 + T (sigma^2 tau + sg^2 (1.225 tau^2 + V tau/2 + D)^2 + sa^2 tau^2/4), where s_p and s_v are the reported standard deviations of position and velocity at the start in that direction, T is the time since, sigma, sg, sa are the configured standard deviations of the sensors, V bounds the estimated speed and D the estimated distance from the origin: it grows at most linearly with time, whatever the motion, whatever else happens between the measurements and however large the orientation uncertainty is.","all configurations with velocity sensors, all histories before, all drives of any number of segments, all directions","a growth law over drives of any length; a test sees one drive",[IP+":Propagate",VC+":Correct",IK+":CorrectRightInvariant",ES+":RunOnce"])
p("C162","While there are no corrections the reported covariance covers errors of any size","If the error of the estimate, as the filter defines it (the truth is the estimate moved by the exponential of the error), is within kappa reported standard deviations in every direction, the biases are right and the IMU is without error, then every state published until the next correction has an error within kappa reported standard deviations in every direction, with the same kappa: also if the error is large (half a turn of heading, any speed, any distance), after any number of steps. Dead reckoning never makes the filter overconfident by linearisation.","all motions, all errors of pose, velocity and foot positions of any size, both error conventions, with and without bias estimation, all noise settings, all schedules and numbers of steps","every error of any size and trajectories of any length; a test sees a few errors, and an ordinary extended Kalman filter would fail it",[IP+":Propagate",IP+":StateTransitionMatrix",LG+":Exp_SEK3",ES+":RunOnce"])
p("C163","While a foot stands the reported position is lost no faster than the foot slips","Right-invariant, without bias estimation, with a legged kinematic correction: along a walk of n stances, each beginning with the turn of the main loop that ends the one before, each of these turns using a kinematic measurement, and in each stance one leg being reported in contact in all kinematic measurements, the reported standard deviation of the position in any direction w is at the end at most sqrt(P + T (sg^2 D^2 + sc^2)) + 2 n sigma, where P is the variance after the first turn, T the time since then, sigma bounds the configured uncertainty of the kinematics of the standing feet, sg and sc are the configured standard deviations of gyroscope and contacts, and D is the largest estimated distance of a standing foot from the origin of the world. Speed, accelerometer noise and the time between the measurements do not matter.","all estimators and histories, all numbers and lengths of the stances, all other legs touching down and lifting off in between, all directions","the claim is about every history of any length and every pattern of contacts",[LC+":Correct",IP+":Propagate",IP+":StateTransitionMatrix",IK+":CorrectRightInvariant"])
p("C164","Rounding errors of the wheel odometry stay small","After n pairs of measurements (up to 10^12) the orientation that the wheel odometry computes in double arithmetic is within n * 2^-40 in every entry, and its position in every coordinate within n * 2^-38 times the length of the way driven, of exact dead reckoning of the same measurements from the first of them: one hour at 64 Hz and 7.2 km give at most 7 mm.","every sequence of pairs with positive stamps within a factor of 2 of each other, with steps of at most 10^9 s that turn by 0 or by between 2e-10 rad and 4 rad; every rounding to nearest, both summation orders, every sine and cosine within 2^-52","rounding errors accumulate over hours; a test sees a few seconds and needs a reference that is itself rounded",[WO+":Integrate",WO+":RunOnce",LG+":Gamma_SO3"])
p("C165","Rounding errors of the propagated mean stay small","Start a world-centric filter without biases at a rotation R0, a velocity and a position, and give it n IMU readings (up to 10^12) but no corrections. In double arithmetic its orientation stays within n * 2^-40 in every entry, its velocity within (n * 2^-38 + 2^-44 / tau) times (initial speed + 18 times the integral of (specific force + 1 m/s^2)), and its position within the same factor times (initial distance + duration times that) plus 2^-44 / tau^2 times 18 times the sum of (specific force + 1) dt^2, of the exact solution of the differential equations of motion with the same readings, where tau is the smallest non-zero angle of a step: one minute of hovering at 100 Hz while turning at 0.5 rad/s gives less than 1 mm/s and 2 cm.","every sequence of readings whose steps last at most 1 s and turn by 0 or by between tau >= 1e-6 rad and 1 rad; every initial state; every rounding to nearest, both summation orders, every sine and cosine within 2^-52","the reference is the solution of a differential equation, which a test would itself compute with rounding errors; errors accumulate over millions of steps",[IP+":Propagate",LG+":Gamma_SO3"])
p("C166","Gamma_SO3 is accurate in double arithmetic","For rotation vectors of doubles with an angle theta between 1e-6 and 1 rad, every entry that Gamma_SO3(w, 1) computes is within 2^-44 / theta, and of Gamma_SO3(w, 2) within 2^-44 / theta^2, of the sum of the documented series; Gamma_SO3(w, 0) is within 2^-44 for every angle from 2e-10 rad and components up to 4 rad.","every rotation vector in the range; every rounding to nearest, both summation orders, every sine and cosine within 2^-52","cancellation in theta - sin(theta) and theta^2 + 2 cos(theta) - 2 depends on the angle; a test compares a few angles with a rounded reference",[LG+":Gamma_SO3"])
p("C167","The preparation of an IMU reading is accurate in double arithmetic","The angular rate that the filter computes from a message in double arithmetic (aligned with the body frame, bias removed) is within (G + Bg) * 2^-47, and the specific force (aligned, bias and the centripetal acceleration at the IMU removed) within (A + Ba + 25 (G + Bg)^2 L) * 2^-45, of the exact values, as vectors; G, A, Bg, Ba, L bound the coordinates of rate, acceleration, biases and lever arm (plus terms below 1e-19).","every message, mounting and biases within any bounds, mounting matrices with entries up to 1.11 in size; every rounding to nearest, both summation orders","a continuum of messages and mountings; all roundings",[IP+":Propagate"])
p("C168","Dead reckoning in double arithmetic stays close to the true motion","Let a body move in any way with a specific force of at most A, and let a world-centric filter get n messages of its IMU (up to 10^12) and no corrections. If the messages tell rate and specific force up to eg and ea all the time, then S seconds later what the filter has computed in double arithmetic is off from the true motion by at most n * 2^-40 + dR + eg' S in each entry of the orientation, and by at most the rounding errors of C165 plus dv + ea' S + A (dR S + eg' S^2 / 2) in velocity and dq + dv S + ea' S^2 / 2 + A (dR S^2 / 2 + eg' S^3 / 6) in position, where dR, dv, dq are the initial errors and eg', ea' are eg, ea plus the bounds of C167.","every motion (rates with jumps allowed), every sequence of messages held for at most 1 s, turning by between 2e-6 and 1/2 rad each or computed as not turning; every mounting with its lever arm, every biases; every rounding to nearest, both summation orders, every sine and cosine within 2^-52","connects code in double arithmetic with a physical motion; errors of sensors and rounding accumulate over millions of messages",[IP+":Propagate",LG+":Gamma_SO3"])
p("C169","The estimate recovers from a measurement that is not a number","After an IMU or velocity message with a coordinate that is not a number (NaN), correct messages lead the filter back to an estimate of numbers.","every state, every faulty message, every continuation of any length, every gain","any continuation; a test tries a few messages",[IP+":Propagate",VC+":Correct",LG+":Gamma_SO3",LG+":Exp_SEK3",SUB+":IMUCallback"])
p("C170","Wheel odometry and gyro filter recover from a measurement that is not a number","After a message with a coordinate that is not a number (NaN), correct messages lead the wheel odometry back to a pose, and the gyro filter back to an estimate, of numbers.","every pose and estimate, every faulty message, every continuation of any length, every gain","any continuation; a test tries a few messages",[WO+":Integrate",IF+":AngVelFilterCorrectIMU",IF+":AngVelFilterCorrectEncoder",IF+":GyroPropagate"])
p("C171","Wheel odometry in double arithmetic stays close to the true motion","Joint messages with wheel speeds up to W <= 1000 rad/s are turned into a speed and a turning rate that are, in double arithmetic, within (W + 1e-40) * 2^-50 of what the messages say, and the rate is exactly zero if they say so. If a robot moves in any way in the plane with its rate within ew and its velocity within ev of n messages (up to 10^12, at most d <= 1 s apart), then after the time T the heading that the wheel odometry has computed in double arithmetic is off by at most (ew + W 2^-50) T + n (1e-10 + 2^-40) in every entry of the orientation, and the position in every coordinate by at most (ev + W 2^-50 + V (O d / 2 + n 1e-10)) T + V (ew + W 2^-50) T^2 / 2 + n 2^-38 V T, where V = W / 5 and O = W / 2 bound speed and rate.","both programs; every sequence of joint messages with positive stamps within a factor of 2 of each other, turns between messages of 0 or of 3e-10 to 3 rad; every motion; every rounding to nearest, both summation orders, every sine and cosine within 2^-52","error bound against all differentiable motions, with rounding errors that accumulate over unbounded histories",[SUB+":DifferentialEncoder2VelocityCallback",SUB+":DifferentialEncoder2VelocityCallback_Fetch",WO+":Integrate",WO+":RunOnce"])
p("C172","The published quaternion is normalised and right in spite of rounding errors","After n IMU readings and corrections (up to 10^9) in double arithmetic, the quaternion that is computed from the orientation for the published pose, again in double arithmetic, is in each component within 3 n 2^-40 + 2^-46 of a unit quaternion of the exact orientation, and the square of its length is within 13 n 2^-40 + 2^-43 of one; in general, for a matrix with entries within e <= 1/1000 of a rotation, within 3 e + 2^-46 and 13 e + 2^-43.","every history of IMU readings and corrections with turns of 0 or of at least 2e-10 rad and up to 4 rad about each axis; every orientation; every rounding to nearest, all summation orders, every sine and cosine within 2^-52","rounding errors accumulate over unbounded histories; the conversion has four branches, chosen by the computed matrix",[PUB+":PosePublish",ES+":PoseLoggingThread",IP+":Propagate",IK+":CorrectRightInvariant"])
