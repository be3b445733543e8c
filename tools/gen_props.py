#!/usr/bin/env python3
"""Generates /verif/properties.jsonl from the table below (id, title, statement, quantifier, why, anchors)."""
import json, os
P = []
def p(id, title, statement, quantifier, why, anchors):
    P.append(dict(id=id, title=title, statement=statement, quantifier=quantifier, why_tests_cant=why, anchors=anchors))
LG="src/math/lie_group.cpp"; RS="src/state/robot_state.cpp"; IK="src/filter/inekf/inekf.cpp"
IP="src/filter/inekf/propagation/imu_propagation.cpp"; VC="src/filter/inekf/correction/velocity_correction.cpp"
LC="src/filter/inekf/correction/legged_kinematics_correction.cpp"; ES="src/estimator/inekf_estimator.cpp"
IF="src/imu_filter/imu_ang_vel_ekf.cpp"; WO="baselines/src/wheel_odometry/wheel_odometry.cpp"
SUB="ROS/drift/src/communication/ros_subscriber.cpp"; PUB="ROS/drift/src/communication/ros_publisher.cpp"
INF="the domain is a continuum (or an unbounded set of histories); tests only sample it"
# ---- Lie group
p("C01","Exp_SO3 always returns a rotation matrix","For every rotation vector w, Exp_SO3(w) is orthogonal (R^T R = R R^T = I) and has determinant +1, in both the small-angle branch and the closed-form branch.","every w in R^3",INF,[LG+":Exp_SO3",LG+":Gamma_SO3"])
p("C02","Gamma_SO3 equals its documented power series","For every w with |w| >= 1e-10 and every order m for which m! fits a 64-bit long (0 <= m <= 20), Gamma_SO3(w,m) equals the sum over n>=0 of (w^)^n/(n+m)!; in particular m=0 is the matrix exponential of the skew matrix.","every w in R^3 outside the tolerance ball, every m in 0..20","infinite series identity over a continuum; the general-m branch is only exercised for m=3",[LG+":Gamma_SO3"])
p("C03","Small-angle shortcut error is bounded","For every w with |w| < 1e-10 and every 0<=m<=20 each entry of Gamma_SO3(w,m) differs from the documented series by at most |w|/(m+1)! times a small constant, so the branch change never introduces an error above about 2e-10.","every w in the tolerance ball, every m in 0..20","error bound over a continuum of inputs",[LG+":Gamma_SO3"])
p("C04","factorial is exact exactly while it fits the return type","factorial(n) returns n! for 0<=n<=20, overflows the 64-bit signed return type (undefined behaviour) for every n>=21, and never returns for any negative n.","every int n","ranges over all ints; the failing cases are undefined behaviour or non-termination, which a test cannot observe",[LG+":factorial"])
p("C05","Left and right Jacobians of SO(3) are consistent","RightJacobian_SO3(w) is the transpose of LeftJacobian_SO3(w), and the relations Exp_SO3(w) = I + skew(w) LeftJacobian_SO3(w) and LeftJacobian_SO3(w) = Exp_SO3(w) RightJacobian_SO3(w) hold for every w outside the tolerance ball.","every w in R^3",INF,[LG+":LeftJacobian_SO3",LG+":RightJacobian_SO3"])
p("C06","Exp_SEK3 returns an element of SE_K(3) for every K, and it is the matrix exponential","For every K and every vector v of length 3+3K, Exp_SEK3(v) is a (3+K)x(3+K) matrix whose top-left block is a rotation and whose bottom K rows are those of the identity; when |v_0..2| >= 1e-10 it equals the matrix exponential of the hat matrix of v.","every K, every v in R^(3+3K)","unbounded K and a continuum of v",[LG+":Exp_SEK3"])
p("C07","Adjoint_SEK3 is a group homomorphism for every K","For all X,Y in SE_K(3), Adjoint(XY)=Adjoint(X)Adjoint(Y), Adjoint(I)=I, and Adjoint(X)Adjoint(X^-1)=I.","every K and every pair of group elements","unbounded dimension",[LG+":Adjoint_SEK3"])
p("C08","Adjoint transports exponentials","For every X in SE_K(3) and every v whose rotation part is zero or outside the tolerance ball, X * Exp_SEK3(v) * X^-1 = Exp_SEK3(Adjoint_SEK3(X) v); inside the tolerance ball this fails.","every K, X, v","unbounded dimension and continuum",[LG+":Adjoint_SEK3",LG+":Exp_SEK3"])
p("C09","skew is the cross-product matrix","For all u,v: skew(v)u = v x u, skew(v)^T = -skew(v), skew(v)v = 0, and skew(Rv) = R skew(v) R^T for every rotation R.","all u, v in R^3 and rotations R",INF,[LG+":skew"])
# ---- state
p("C10","get_Xinv is the two-sided inverse","For every state whose X lies in SE_K(3) (any number of augmented columns), X * get_Xinv() and get_Xinv() * X are the identity.","every K and every X in SE_K(3)","unbounded number of augmented columns",[RS+":get_Xinv"])
p("C11","World/body getters agree with the world/body matrices","For every state, the columns/blocks of get_world_X() are get_world_rotation/velocity/position, and those of get_body_X() are get_body_rotation/velocity/position.","every state",INF,[RS+":get_world_X",RS+":get_body_X",RS+":get_body_velocity",RS+":get_body_position"])
p("C12","State, covariance and noise dimensions stay consistent","After any sequence of contact additions and removals, the covariance is square of size 3*dimX-6+dimTheta, the noise covariance has the same size, and the column reference table has exactly dimX entries.","every sequence of add_aug_state/del_aug_state/clear","history property over unbounded sequences",[RS+":add_aug_state",RS+":del_aug_state",RS+":clear"])
p("C13","Removing an augmented column removes exactly that column","del_aug_state(i) deletes column/row i of X and rows/columns 3i-6..3i-4 of P and Qc, and every other entry keeps its value (shifted).","every dimension, every valid index, every contents","unbounded dimension",[RS+":del_aug_state",RS+":RemoveRowAndColumn"])
p("C14","Leg-to-column references always designate that leg's column","After any sequence of kinematic measurements (contacts made and broken in any order) the column stored for every leg in contact is distinct, in range, and is the column that was created for that leg; removals of other legs' columns shift it correctly.","every history of contact patterns, every number of legs","history property; each test exercises one contact schedule",[LC+":Correct",RS+":add_aug_state",RS+":del_aug_state"])
p("C15","Every active contact keeps its configured process noise","After any sequence of contact additions, the diagonal block of the continuous noise covariance of each active contact is the configured contact noise.","every history of contact additions","history property",[RS+":add_aug_state"])
p("C16","Bias covariance accessors address the bias block","For every state, get_gyroscope_bias_covariance/get_accelerometer_bias_covariance return the covariance blocks of the gyroscope and accelerometer biases.","every state with any number of augmented columns","depends on the augmentation history",[RS+":get_gyroscope_bias_covariance",RS+":get_accelerometer_bias_covariance"])
p("C17","Augmented covariance/bias accessors round-trip","add_aug_cov(c) followed by get_aug_cov(index of the new block) returns c; add_aug_bias(b) followed by del_aug_bias of that bias restores the bias vector; get_aug_bias(i) returns the i-th augmented bias.","every state and value","any number of augmented entries",[RS+":add_aug_cov",RS+":get_aug_cov",RS+":add_aug_bias",RS+":del_aug_bias",RS+":get_aug_bias"])
p("C18","copy_diag_X appends n diagonal copies","copy_diag_X(n, B) leaves the original B in the top-left corner, puts n copies of X on the diagonal after it and zeros everywhere else.","every n, B and X","unbounded n",[RS+":copy_diag_X",RS+":copy_diag_Xinv"])
p("C19","A state built from SEK3(R,p,v) has that position and velocity","RobotState constructed from SEK3(R,p,v) reports rotation R, velocity v and position p.","every R, p, v",INF,["src/math/se_k_3.cpp:SEK3",RS+":RobotState"])
p("C20","SEK3::inverse is the group inverse","For every SEK3 element X (any dimension) with rotation block R orthogonal, X * X.inverse() is the identity.","every K and element","unbounded K",["src/math/se_k_3.cpp:inverse"])
p("C21","State snapshots are independent of the running filter","Modifying a RobotState obtained from get_state() or from the output queue never changes the state held by the estimator or the leg-to-column references of its corrections.","every history and every modification of a snapshot","aliasing through shared pointers depends on history",[RS+":del_aug_state",ES+":get_state",ES+":RunOnce"])
p("C22","clear() restores the freshly constructed state","After clear(), X, theta, P, Qc and the column table equal those of a default-constructed state, whatever happened before.","every state","history property",[RS+":clear"])
# ---- correction core
p("C23","Right-invariant correction keeps the state on the group","For every state with X in SE_K(3) and every Z,H,N, CorrectRightInvariant leaves X in SE_K(3) of the same K.","every state, K, Z, H, N",INF,[IK+":CorrectRightInvariant"])
p("C24","Corrections keep the covariance symmetric positive semidefinite","If P is symmetric PSD and N is symmetric PD, the covariance after CorrectRightInvariant or CorrectLeftInvariant is symmetric PSD, for both error types and with or without bias update.","every state, dimension, H, N",INF,[IK+":CorrectRightInvariant",IK+":CorrectLeftInvariant"])
p("C25","Zero innovation leaves the mean unchanged","If Z=0 the correction leaves X and theta unchanged.","every state, H, N",INF,[IK+":CorrectRightInvariant",IK+":CorrectLeftInvariant"])
p("C26","Disabled bias update freezes the biases","With bias update disabled and an observation matrix with zero bias columns, a correction never changes theta.","every state, Z, N, H with zero bias columns",INF,[IK+":CorrectRightInvariant"])
p("C27","Yaw gyro bias is never corrected","CorrectRightInvariant never changes theta(2); afterwards that bias is uncorrelated with everything and has variance 1e-4.","every state, Z, H, N",INF,[IK+":CorrectRightInvariant"])
p("C28","Left- and right-invariant error settings give the same correction","If the covariances of two states with equal mean are related by the adjoint of X, CorrectRightInvariant with LeftInvariant on one and RightInvariant on the other yields the same mean and covariances related by the adjoint of the new X.","every state, dimension, Z, H, N","relational property over a continuum",[IK+":CorrectRightInvariant"])
p("C29","A measurement never increases uncertainty","Before the yaw reset, the corrected covariance is below the prior covariance in the Loewner order.","every P PSD, N PD, H",INF,[IK+":CorrectRightInvariant"])
p("C30","An uninformative correction leaves the covariance unchanged","If H=0 (no information) and bias update is enabled, CorrectLeftInvariant leaves P unchanged for every error type.","every state",INF,[IK+":CorrectLeftInvariant"])
p("C31","The innovation covariance is never singular","If P is PSD and N is PD then S = H P H^T + N is invertible, so the correction never divides by a singular matrix.","every P, N, H",INF,[IK+":CorrectRightInvariant"])
# ---- propagation
p("C32","IMU propagation solves the strapdown equations exactly","With constant body rate and acceleration, the propagated rotation, velocity and position satisfy R' = R w^, v' = R a + g, p' = v as functions of dt, with the current state as initial value.","every state, w, a and dt with |w dt| >= 1e-10","differential identity over a continuum",[IP+":Propagate"])
p("C33","Splitting a propagation interval does not change the result","Propagating by dt1 and then dt2 with the same IMU input gives the same state estimate (orientation, velocity, position, contact columns, biases) as propagating once by dt1+dt2.","every state, w, a, dt1, dt2 outside the tolerance ball",INF,[IP+":Propagate"])
p("C34","Propagation keeps the state on the group and contacts fixed","Propagate maps SE_K(3) to SE_K(3) and leaves every augmented column, the biases and the dimensions unchanged.","every state, K and measurement",INF,[IP+":Propagate"])
p("C35","Propagation keeps the covariance symmetric PSD","If P and the noise covariances are PSD and timestamps are non-decreasing, the propagated covariance is symmetric PSD, for both error types and with or without bias estimation.","every state, dimension, measurement",INF,[IP+":Propagate",IP+":DiscreteNoiseMatrix",IP+":StateTransitionMatrix"])
p("C36","Propagation consumes one IMU measurement and integrates the previous one","Propagate returns false and changes nothing when the buffer is empty; otherwise it removes exactly the front measurement, integrates the previously held measurement over (its stamp - last propagate time) and sets both times to that stamp.","every buffer content and state","history property",[IP+":Propagate"])
p("C37","Without bias estimation the biases are decoupled","With enable_imu_bias_update false, propagation leaves the bias block of P equal to the identity and uncorrelated with the rest.","every state",INF,[IP+":Propagate"])
p("C38","The small-rate transition matrix agrees with the general formula in the limit","The bias columns of the state transition matrix used for |w|<1e-6 equal the limit of the general formula as w tends to 0.","every a, dt","limit over a continuum",[IP+":StateTransitionMatrix"])
p("C39","Left- and right-invariant settings propagate equivalently","Propagating a covariance P_L in the left-invariant setting and Ad_X P_L Ad_X^T in the right-invariant setting gives covariances related by the adjoint of the new X.","every state, K, measurement","relational property",[IP+":StateTransitionMatrix",IP+":DiscreteNoiseMatrix"])
p("C40","The invariant error evolves independently of the trajectory","For two states propagated with the same IMU input, the invariant error after the step is a function of the error before the step, the gravity and dt only.","every pair of states and input","relational property over a continuum",[IP+":Propagate"])
# ---- init
p("C42","Static bias initialisation averages exactly N samples","With static initialisation and init_bias_size N>0, the biases are reported initialised exactly after N measurements have been consumed plus one further call, and equal the arithmetic mean of the gravity-compensated samples.","every N and every sample sequence","unbounded N",[IP+":InitImuBias"])
p("C43","A stationary, level IMU recovers its true bias","If every sample is the true bias plus the reaction to gravity (identity mounting, level), the initialised biases equal the true biases exactly.","every bias and N",INF,[IP+":InitImuBias"])
p("C44","Static bias initialisation is well defined for the default configuration","With the documented defaults the initialised biases are finite numbers.","every configuration including defaults","depends on configuration",[IP+":ImuPropagation",IP+":InitImuBias"])
p("C45","InitState succeeds exactly when an IMU measurement is available and uses the latest correction data","InitState does nothing when the IMU buffer is empty; otherwise it consumes one IMU measurement, drains every correction buffer using its newest element (waiting inside InitState as long as a correction has no measurement), resets the position to the origin and enables the filter.","every buffer contents","history property",[ES+":InitState",IP+":set_initial_state",VC+":initialize"])
p("C46","Initial velocity uses the same frame and scale as corrections","The velocity set at initialisation is the measured velocity mapped with the configured mounting rotation and scale, so that correcting with the same measurement gives zero innovation.","every measurement and configuration",INF,[VC+":initialize",VC+":Correct"])
p("C47","Initial orientation accounts for the IMU mounting rotation","With use_imu_ori_to_init, the initial body orientation is the IMU orientation composed with the inverse mounting rotation.","every mounting rotation and orientation",INF,[IP+":set_initial_state"])
# ---- velocity correction
p("C48","Velocity correction consumes measurements in order and only stale ones are dropped","Correct returns false without touching the state when no usable measurement exists; a front measurement at or after the propagation time stays queued; otherwise a prefix of stale measurements is discarded and the first non-stale one is used.","every queue and state","history property over unbounded queues",[VC+":Correct"])
p("C49","Velocity correction never uses a measurement from the future","The measurement applied by Correct is always older than the last propagation time.","every queue and state","depends on the queue contents after stale ones",[VC+":Correct"])
# ---- legged
p("C51","Contact columns mirror the last contact measurement","After processing a kinematic measurement, exactly the legs reported in contact have an augmented column and dimX = 5 + number of legs in contact.","every history of contact patterns","history property",[LC+":Correct"])
p("C52","Too-new kinematic measurements are skipped","A kinematic measurement newer than the propagation time by more than the threshold does not modify the state.","every state and measurement",INF,[LC+":Correct"])
p("C53","A new contact is initialised at the measured foot position","The column added for a new contact is p + R h, with a PSD augmented covariance that leaves the covariance of the existing states unchanged; the same kinematic measurement gives zero innovation for it.","every state, leg, kinematics",INF,[LC+":Correct"])
p("C54","Contact augmentation is equivalent in both error settings","Augmenting in the left-invariant setting and mapping by the adjoint equals augmenting in the right-invariant setting.","every state, K, foot position","relational property",[LC+":Correct"])
# ---- estimator
p("C56","RunOnce publishes one snapshot exactly when something was processed","RunOnce pushes exactly one copy of the resulting state iff the propagation or some correction processed a measurement, and pushes nothing otherwise.","every buffer contents, number of corrections","history property",[ES+":RunOnce"])
p("C57","clear() empties every buffer and disables the filter","After clear() all buffers, contact references and output queues are empty, the state is fresh and is_enabled() is false until the next successful InitState.","every history","history property",[ES+":clear"])
p("C58","Following the documented loop never touches invalid memory and keeps the estimate valid","For every interleaving of sensor arrivals with the documented loop (is_enabled ? RunOnce : BiasInitialized ? InitState : InitBias) and clear(), no null/uninitialised value is read, X stays in SE_K(3), P symmetric PSD and dimensions consistent, for every usable configuration (non-zero standard deviations that are inverted, at least one bias sample, unit quaternions when the orientation is used) and IMU stamps that do not decrease.","every schedule of sensor messages and loop iterations","history and schedule property",[ES+":RunOnce",ES+":InitState",ES+":clear"])
p("C60","Left- and right-invariant filters estimate the same trajectory","Two estimators that differ only in the error type and start from adjoint-related covariances produce the same state means, the same published sequence and the same log for every sequence of IMU, velocity and kinematic measurements, with or without bias estimation; two estimators built from the same configuration do so from the start if the robot is at rest at every initialisation (InitState sets the same block-diagonal covariance for both error types, which is adjoint-related only at zero velocity).","every measurement history","relational property over histories",[ES+":RunOnce"])
p("C61","Slip flag is a fixed threshold on the disturbance norm","SlipEstimatorStep sets the flag to 1 iff the squared norm of the last column exceeds 0.004642, independent of the covariance.","every state",INF,[ES+":SlipEstimatorStep"])
# ---- logger
p("C62","Pose logging respects the configured rate","Logged states are a subsequence of the published states in order, and consecutive logged timestamps differ by at least 1/rate.","every sequence of states and rate","history property",[ES+":PoseLoggingThread"])
p("C63","Log files are never reused across clear()","The file names opened over any number of clear() calls are pairwise distinct, and the pose/velocity/body-velocity files of one session carry the same index.","every number of clear() calls","history property",[ES+":clear"])
p("C64","Only the file extension is stripped from log file names","The base name used for logging is the configured path without its extension; a path without extension is unchanged.","every path string","all strings",[ES+":InekfEstimator"])
# ---- imu filter
p("C65","Gyro filter covariance stays symmetric PSD","For every history of propagations and corrections the 6x6 covariance of the gyro filter is symmetric PSD.","every history","history property",[IF+":AngVelFilterCorrectIMU",IF+":GyroPropagate"])
p("C66","The gyro filter with one IMU correction never stalls","In the single-IMU configuration every queued IMU measurement is eventually consumed as propagation continues.","every history","liveness over histories",[IF+":SingleImuCorrection"])
p("C67","IMU and encoder measurements are fused in time order","In the IMU+angular-velocity configuration, repeated RunOnce on given buffers consumes the measurements of both queues merged by time stamp (IMU first on ties), each exactly once; the output stamps are a subsequence of these in order, and without a propagation gyro every consumed measurement yields exactly one output, except encoder readings older than the first IMU reading.","every pair of queues","unbounded queues",[IF+":SingleImuAngVelCorrection"])
p("C68","Every registered IMU contributes in the multi-IMU configuration","With n>=2 IMUs registered, measurements of each of them are consumed by the filter.","every n and history","history property",[IF+":add_imu_correction",IF+":MultiImuCorrection"])
p("C69","The multi-IMU filter outputs each accepted measurement once","Each push to the output corresponds to a distinct accepted input measurement.","every queue contents",INF,[IF+":MultiImuCorrection"])
p("C70","The 1-D gyro filter leaves roll and pitch rates untouched by corrections","With flat_ground false, corrections only change the yaw rate and yaw bias estimates; the x/y rate estimates equal the initial value plus the telescoped gyro increments.","every history","history property",[IF+":ImuAngVelEKF",IF+":GyroPropagate"])
p("C71","The gyro filter passes acceleration and orientation through","Every output measurement carries the acceleration and orientation of an input IMU measurement and the stamp of the measurement that triggered it.","every history",INF,[IF+":AngVelFilterCorrectIMU",IF+":AngVelFilterCorrectEncoder"])
p("C72","Gyro filter initialisation is safe for every supported configuration","For every supported combination of registered sensors, initialisation never dereferences an unset buffer and yields finite biases.","every configuration","configuration property",[IF+":InitializeFilter",IF+":RunOnce"])
# ---- wheel odometry
p("C74","Wheel odometry pairs velocity and angular velocity of the same encoder message","For every interleaving of the encoder callback and RunOnce, the k-th integration uses the velocity and angular velocity of the same encoder message, and no lock-order deadlock is possible.","every interleaving","thread interleavings",[WO+":RunOnce",SUB+":DifferentialEncoder2VelocityCallback"])
p("C75","Wheel odometry keeps the pose on the group","After any number of integrations the state matrix is an element of SE_2(3).","every history","history property",[WO+":Integrate"])
p("C76","Wheel odometry clock follows the measurements","After the first measurement the state time always equals the stamp of the last processed velocity measurement.","every history","history property",[WO+":RunOnce",WO+":Integrate"])
# ---- ros
p("C77","Differential-drive conversion is the exact inverse kinematics","For every radius, track width and wheel speeds the published linear/angular velocity reproduce the left and right wheel velocities.","all wheel speeds, radius, non-zero track width",INF,[SUB+":DifferentialEncoder2VelocityCallback"])
p("C79","Only normalised quaternions are accepted","set_quaternion stores the quaternion iff | |q|^2 - 1 | < 1e-5 and otherwise throws without modifying the measurement; accepted quaternions give rotation matrices orthogonal up to the tolerance.","all quaternions",INF,["include/drift/measurement/impl/imu_impl.cpp:set_quaternion"])
p("C80","Published pose covariance is the position/orientation covariance","The 6x6 covariance in the published pose is ordered (x,y,z,rot x,rot y,rot z) as documented.","every state",INF,[PUB+":PosePublish"])
p("C81","The path contains every k-th published pose","With k = pose_rate/path_rate >= 1 the path after n publications holds exactly the poses number k, 2k, ... in order.","every n and k","unbounded history",[PUB+":PosePublish"])
p("C82","The publisher never pops an empty queue","For every interleaving of the publishing thread with the estimator thread, front()/pop() is only executed on a non-empty queue.","every interleaving","thread interleavings",[PUB+":PosePublish",ES+":RunOnce",ES+":clear"])
p("C83","Each odometry source uses its own mounting transform","With several odometry sources each velocity is computed with the transform registered for its own source.","every registration order","configuration history",[SUB+":AddOdom2VelocityCallback",SUB+":Odom2VelocityCallback"])
# ---- kinematics
p("C85","Foot Jacobians are the derivatives of the foot positions","For each leg, Jp_Body_to_*Foot(q) is the derivative of p_Body_to_*Foot at q for every joint vector q.","all q in R^12, all four legs","differential identity over a continuum",["src/kinematics/robots/mini_cheetah/p_Body_to_FrontLeftFoot.cpp","src/kinematics/robots/mini_cheetah/Jp_Body_to_FrontLeftFoot.cpp"])
p("C87","Initial velocity makes the stance foot stationary","The initial body velocity computed from the first leg in contact satisfies v + w x p_foot + J dq = 0 for that leg, and is zero when no leg is in contact.","all encoder values, contacts, w",INF,["src/kinematics/mini_cheetah_kinematics.cpp:get_init_velocity"])
exec(open(os.path.join(os.path.dirname(__file__),"more_props.py")).read()) if os.path.exists(os.path.join(os.path.dirname(__file__),"more_props.py")) else None
with open("/verif/properties.jsonl","w") as f:
    for x in P: f.write(json.dumps(x)+"\n")
print(len(P))
