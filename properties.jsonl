{"id": "C01", "title": "Exp_SO3 always returns a rotation matrix", "statement": "For every rotation vector w, Exp_SO3(w) is orthogonal (R^T R = R R^T = I) and has determinant +1, in both the small-angle branch and the closed-form branch.", "quantifier": "every w in R^3", "why_tests_cant": "the domain is a continuum (or an unbounded set of histories); tests only sample it", "anchors": ["src/math/lie_group.cpp:Exp_SO3", "src/math/lie_group.cpp:Gamma_SO3"]}
{"id": "C02", "title": "Gamma_SO3 equals its documented power series", "statement": "For every w with |w| >= 1e-10 and every order m for which m! fits a 64-bit long (0 <= m <= 20), Gamma_SO3(w,m) equals the sum over n>=0 of (w^)^n/(n+m)!; in particular m=0 is the matrix exponential of the skew matrix.", "quantifier": "every w in R^3 outside the tolerance ball, every m in 0..20", "why_tests_cant": "infinite series identity over a continuum; the general-m branch is only exercised for m=3", "anchors": ["src/math/lie_group.cpp:Gamma_SO3"]}
{"id": "C03", "title": "Small-angle shortcut error is bounded", "statement": "For every w with |w| < 1e-10 and every 0<=m<=20 each entry of Gamma_SO3(w,m) differs from the documented series by at most |w|/(m+1)! times a small constant, so the branch change never introduces an error above about 2e-10.", "quantifier": "every w in the tolerance ball, every m in 0..20", "why_tests_cant": "error bound over a continuum of inputs", "anchors": ["src/math/lie_group.cpp:Gamma_SO3"]}
{"id": "C04", "title": "factorial is exact exactly while it fits the return type", "statement": "factorial(n) returns n! for 0<=n<=20, overflows the 64-bit signed return type (undefined behaviour) for every n>=21, and never returns for any negative n.", "quantifier": "every int n", "why_tests_cant": "ranges over all ints; the failing cases are undefined behaviour or non-termination, which a test cannot observe", "anchors": ["src/math/lie_group.cpp:factorial"]}
{"id": "C05", "title": "Left and right Jacobians of SO(3) are consistent", "statement": "RightJacobian_SO3(w) is the transpose of LeftJacobian_SO3(w), and the relations Exp_SO3(w) = I + skew(w) LeftJacobian_SO3(w) and LeftJacobian_SO3(w) = Exp_SO3(w) RightJacobian_SO3(w) hold for every w outside the tolerance ball.", "quantifier": "every w in R^3", "why_tests_cant": "the domain is a continuum (or an unbounded set of histories); tests only sample it", "anchors": ["src/math/lie_group.cpp:LeftJacobian_SO3", "src/math/lie_group.cpp:RightJacobian_SO3"]}
{"id": "C06", "title": "Exp_SEK3 returns an element of SE_K(3) for every K, and it is the matrix exponential", "statement": "For every K and every vector v of length 3+3K, Exp_SEK3(v) is a (3+K)x(3+K) matrix whose top-left block is a rotation and whose bottom K rows are those of the identity; when |v_0..2| >= 1e-10 it equals the matrix exponential of the hat matrix of v.", "quantifier": "every K, every v in R^(3+3K)", "why_tests_cant": "unbounded K and a continuum of v", "anchors": ["src/math/lie_group.cpp:Exp_SEK3"]}
{"id": "C07", "title": "Adjoint_SEK3 is a group homomorphism for every K", "statement": "For all X,Y in SE_K(3), Adjoint(XY)=Adjoint(X)Adjoint(Y), Adjoint(I)=I, and Adjoint(X)Adjoint(X^-1)=I.", "quantifier": "every K and every pair of group elements", "why_tests_cant": "unbounded dimension", "anchors": ["src/math/lie_group.cpp:Adjoint_SEK3"]}
{"id": "C08", "title": "Adjoint transports exponentials", "statement": "For every X in SE_K(3) and every v whose rotation part is zero or outside the tolerance ball, X * Exp_SEK3(v) * X^-1 = Exp_SEK3(Adjoint_SEK3(X) v); inside the tolerance ball this fails.", "quantifier": "every K, X, v", "why_tests_cant": "unbounded dimension and continuum", "anchors": ["src/math/lie_group.cpp:Adjoint_SEK3", "src/math/lie_group.cpp:Exp_SEK3"]}
{"id": "C09", "title": "skew is the cross-product matrix", "statement": "For all u,v: skew(v)u = v x u, skew(v)^T = -skew(v), skew(v)v = 0, and skew(Rv) = R skew(v) R^T for every rotation R.", "quantifier": "all u, v in R^3 and rotations R", "why_tests_cant": "the domain is a continuum (or an unbounded set of histories); tests only sample it", "anchors": ["src/math/lie_group.cpp:skew"]}
{"id": "C10", "title": "get_Xinv is the two-sided inverse", "statement": "For every state whose X lies in SE_K(3) (any number of augmented columns), X * get_Xinv() and get_Xinv() * X are the identity.", "quantifier": "every K and every X in SE_K(3)", "why_tests_cant": "unbounded number of augmented columns", "anchors": ["src/state/robot_state.cpp:get_Xinv"]}
{"id": "C11", "title": "World/body getters agree with the world/body matrices", "statement": "For every state, the columns/blocks of get_world_X() are get_world_rotation/velocity/position, and those of get_body_X() are get_body_rotation/velocity/position.", "quantifier": "every state", "why_tests_cant": "the domain is a continuum (or an unbounded set of histories); tests only sample it", "anchors": ["src/state/robot_state.cpp:get_world_X", "src/state/robot_state.cpp:get_body_X", "src/state/robot_state.cpp:get_body_velocity", "src/state/robot_state.cpp:get_body_position"]}
{"id": "C12", "title": "State, covariance and noise dimensions stay consistent", "statement": "After any sequence of contact additions and removals, the covariance is square of size 3*dimX-6+dimTheta, the noise covariance has the same size, and the column reference table has exactly dimX entries.", "quantifier": "every sequence of add_aug_state/del_aug_state/clear", "why_tests_cant": "history property over unbounded sequences", "anchors": ["src/state/robot_state.cpp:add_aug_state", "src/state/robot_state.cpp:del_aug_state", "src/state/robot_state.cpp:clear"]}
{"id": "C13", "title": "Removing an augmented column removes exactly that column", "statement": "del_aug_state(i) deletes column/row i of X and rows/columns 3i-6..3i-4 of P and Qc, and every other entry keeps its value (shifted).", "quantifier": "every dimension, every valid index, every contents", "why_tests_cant": "unbounded dimension", "anchors": ["src/state/robot_state.cpp:del_aug_state", "src/state/robot_state.cpp:RemoveRowAndColumn"]}
{"id": "C14", "title": "Leg-to-column references always designate that leg's column", "statement": "After any sequence of kinematic measurements (contacts made and broken in any order) the column stored for every leg in contact is distinct, in range, and is the column that was created for that leg; removals of other legs' columns shift it correctly.", "quantifier": "every history of contact patterns, every number of legs", "why_tests_cant": "history property; each test exercises one contact schedule", "anchors": ["src/filter/inekf/correction/legged_kinematics_correction.cpp:Correct", "src/state/robot_state.cpp:add_aug_state", "src/state/robot_state.cpp:del_aug_state"]}
{"id": "C15", "title": "Every active contact keeps its configured process noise", "statement": "After any sequence of contact additions, the diagonal block of the continuous noise covariance of each active contact is the configured contact noise.", "quantifier": "every history of contact additions", "why_tests_cant": "history property", "anchors": ["src/state/robot_state.cpp:add_aug_state"]}
{"id": "C16", "title": "Bias covariance accessors address the bias block", "statement": "For every state, get_gyroscope_bias_covariance/get_accelerometer_bias_covariance return the covariance blocks of the gyroscope and accelerometer biases.", "quantifier": "every state with any number of augmented columns", "why_tests_cant": "depends on the augmentation history", "anchors": ["src/state/robot_state.cpp:get_gyroscope_bias_covariance", "src/state/robot_state.cpp:get_accelerometer_bias_covariance"]}
{"id": "C17", "title": "Augmented covariance/bias accessors round-trip", "statement": "add_aug_cov(c) followed by get_aug_cov(index of the new block) returns c; add_aug_bias(b) followed by del_aug_bias of that bias restores the bias vector; get_aug_bias(i) returns the i-th augmented bias.", "quantifier": "every state and value", "why_tests_cant": "any number of augmented entries", "anchors": ["src/state/robot_state.cpp:add_aug_cov", "src/state/robot_state.cpp:get_aug_cov", "src/state/robot_state.cpp:add_aug_bias", "src/state/robot_state.cpp:del_aug_bias", "src/state/robot_state.cpp:get_aug_bias"]}
{"id": "C18", "title": "copy_diag_X appends n diagonal copies", "statement": "copy_diag_X(n, B) leaves the original B in the top-left corner, puts n copies of X on the diagonal after it and zeros everywhere else.", "quantifier": "every n, B and X", "why_tests_cant": "unbounded n", "anchors": ["src/state/robot_state.cpp:copy_diag_X", "src/state/robot_state.cpp:copy_diag_Xinv"]}
{"id": "C19", "title": "A state built from SEK3(R,p,v) has that position and velocity", "statement": "RobotState constructed from SEK3(R,p,v) reports rotation R, velocity v and position p.", "quantifier": "every R, p, v", "why_tests_cant": "the domain is a continuum (or an unbounded set of histories); tests only sample it", "anchors": ["src/math/se_k_3.cpp:SEK3", "src/state/robot_state.cpp:RobotState"]}
{"id": "C20", "title": "SEK3::inverse is the group inverse", "statement": "For every SEK3 element X (any dimension) with rotation block R orthogonal, X * X.inverse() is the identity.", "quantifier": "every K and element", "why_tests_cant": "unbounded K", "anchors": ["src/math/se_k_3.cpp:inverse"]}
{"id": "C21", "title": "State snapshots are independent of the running filter", "statement": "Modifying a RobotState obtained from get_state() or from the output queue never changes the state held by the estimator or the leg-to-column references of its corrections.", "quantifier": "every history and every modification of a snapshot", "why_tests_cant": "aliasing through shared pointers depends on history", "anchors": ["src/state/robot_state.cpp:del_aug_state", "src/estimator/inekf_estimator.cpp:get_state", "src/estimator/inekf_estimator.cpp:RunOnce"]}
{"id": "C22", "title": "clear() restores the freshly constructed state", "statement": "After clear(), X, theta, P, Qc and the column table equal those of a default-constructed state, whatever happened before.", "quantifier": "every state", "why_tests_cant": "history property", "anchors": ["src/state/robot_state.cpp:clear"]}
{"id": "C23", "title": "Right-invariant correction keeps the state on the group", "statement": "For every state with X in SE_K(3) and every Z,H,N, CorrectRightInvariant leaves X in SE_K(3) of the same K.", "quantifier": "every state, K, Z, H, N", "why_tests_cant": "the domain is a continuum (or an unbounded set of histories); tests only sample it", "anchors": ["src/filter/inekf/inekf.cpp:CorrectRightInvariant"]}
{"id": "C24", "title": "Corrections keep the covariance symmetric positive semidefinite", "statement": "If P is symmetric PSD and N is symmetric PD, the covariance after CorrectRightInvariant or CorrectLeftInvariant is symmetric PSD, for both error types and with or without bias update.", "quantifier": "every state, dimension, H, N", "why_tests_cant": "the domain is a continuum (or an unbounded set of histories); tests only sample it", "anchors": ["src/filter/inekf/inekf.cpp:CorrectRightInvariant", "src/filter/inekf/inekf.cpp:CorrectLeftInvariant"]}
{"id": "C25", "title": "Zero innovation leaves the mean unchanged", "statement": "If Z=0 the correction leaves X and theta unchanged.", "quantifier": "every state, H, N", "why_tests_cant": "the domain is a continuum (or an unbounded set of histories); tests only sample it", "anchors": ["src/filter/inekf/inekf.cpp:CorrectRightInvariant", "src/filter/inekf/inekf.cpp:CorrectLeftInvariant"]}
{"id": "C26", "title": "Disabled bias update freezes the biases", "statement": "With bias update disabled and an observation matrix with zero bias columns, a correction never changes theta.", "quantifier": "every state, Z, N, H with zero bias columns", "why_tests_cant": "the domain is a continuum (or an unbounded set of histories); tests only sample it", "anchors": ["src/filter/inekf/inekf.cpp:CorrectRightInvariant"]}
{"id": "C27", "title": "Yaw gyro bias is never corrected", "statement": "CorrectRightInvariant never changes theta(2); afterwards that bias is uncorrelated with everything and has variance 1e-4.", "quantifier": "every state, Z, H, N", "why_tests_cant": "the domain is a continuum (or an unbounded set of histories); tests only sample it", "anchors": ["src/filter/inekf/inekf.cpp:CorrectRightInvariant"]}
{"id": "C28", "title": "Left- and right-invariant error settings give the same correction", "statement": "If the covariances of two states with equal mean are related by the adjoint of X, CorrectRightInvariant with LeftInvariant on one and RightInvariant on the other yields the same mean and covariances related by the adjoint of the new X.", "quantifier": "every state, dimension, Z, H, N", "why_tests_cant": "relational property over a continuum", "anchors": ["src/filter/inekf/inekf.cpp:CorrectRightInvariant"]}
{"id": "C29", "title": "A measurement never increases uncertainty", "statement": "Before the yaw reset, the corrected covariance is below the prior covariance in the Loewner order.", "quantifier": "every P PSD, N PD, H", "why_tests_cant": "the domain is a continuum (or an unbounded set of histories); tests only sample it", "anchors": ["src/filter/inekf/inekf.cpp:CorrectRightInvariant"]}
{"id": "C30", "title": "An uninformative correction leaves the covariance unchanged", "statement": "If H=0 (no information) and bias update is enabled, CorrectLeftInvariant leaves P unchanged for every error type.", "quantifier": "every state", "why_tests_cant": "the domain is a continuum (or an unbounded set of histories); tests only sample it", "anchors": ["src/filter/inekf/inekf.cpp:CorrectLeftInvariant"]}
{"id": "C31", "title": "The innovation covariance is never singular", "statement": "If P is PSD and N is PD then S = H P H^T + N is invertible, so the correction never divides by a singular matrix.", "quantifier": "every P, N, H", "why_tests_cant": "the domain is a continuum (or an unbounded set of histories); tests only sample it", "anchors": ["src/filter/inekf/inekf.cpp:CorrectRightInvariant"]}
{"id": "C32", "title": "IMU propagation solves the strapdown equations exactly", "statement": "With constant body rate and acceleration, the propagated rotation, velocity and position satisfy R' = R w^, v' = R a + g, p' = v as functions of dt, with the current state as initial value.", "quantifier": "every state, w, a and dt with |w dt| >= 1e-10", "why_tests_cant": "differential identity over a continuum", "anchors": ["src/filter/inekf/propagation/imu_propagation.cpp:Propagate"]}
{"id": "C33", "title": "Splitting a propagation interval does not change the result", "statement": "Propagating by dt1 and then dt2 with the same IMU input gives the same state estimate (orientation, velocity, position, contact columns, biases) as propagating once by dt1+dt2.", "quantifier": "every state, w, a, dt1, dt2 outside the tolerance ball", "why_tests_cant": "the domain is a continuum (or an unbounded set of histories); tests only sample it", "anchors": ["src/filter/inekf/propagation/imu_propagation.cpp:Propagate"]}
{"id": "C34", "title": "Propagation keeps the state on the group and contacts fixed", "statement": "Propagate maps SE_K(3) to SE_K(3) and leaves every augmented column, the biases and the dimensions unchanged.", "quantifier": "every state, K and measurement", "why_tests_cant": "the domain is a continuum (or an unbounded set of histories); tests only sample it", "anchors": ["src/filter/inekf/propagation/imu_propagation.cpp:Propagate"]}
{"id": "C35", "title": "Propagation keeps the covariance symmetric PSD", "statement": "If P and the noise covariances are PSD and timestamps are non-decreasing, the propagated covariance is symmetric PSD, for both error types and with or without bias estimation.", "quantifier": "every state, dimension, measurement", "why_tests_cant": "the domain is a continuum (or an unbounded set of histories); tests only sample it", "anchors": ["src/filter/inekf/propagation/imu_propagation.cpp:Propagate", "src/filter/inekf/propagation/imu_propagation.cpp:DiscreteNoiseMatrix", "src/filter/inekf/propagation/imu_propagation.cpp:StateTransitionMatrix"]}
{"id": "C36", "title": "Propagation consumes one IMU measurement and integrates the previous one", "statement": "Propagate returns false and changes nothing when the buffer is empty; otherwise it removes exactly the front measurement, integrates the previously held measurement over (its stamp - last propagate time) and sets both times to that stamp.", "quantifier": "every buffer content and state", "why_tests_cant": "history property", "anchors": ["src/filter/inekf/propagation/imu_propagation.cpp:Propagate"]}
{"id": "C37", "title": "Without bias estimation the biases are decoupled", "statement": "With enable_imu_bias_update false, propagation leaves the bias block of P equal to the identity and uncorrelated with the rest.", "quantifier": "every state", "why_tests_cant": "the domain is a continuum (or an unbounded set of histories); tests only sample it", "anchors": ["src/filter/inekf/propagation/imu_propagation.cpp:Propagate"]}
{"id": "C38", "title": "The small-rate transition matrix agrees with the general formula in the limit", "statement": "The bias columns of the state transition matrix used for |w|<1e-6 equal the limit of the general formula as w tends to 0.", "quantifier": "every a, dt", "why_tests_cant": "limit over a continuum", "anchors": ["src/filter/inekf/propagation/imu_propagation.cpp:StateTransitionMatrix"]}
{"id": "C39", "title": "Left- and right-invariant settings propagate equivalently", "statement": "Propagating a covariance P_L in the left-invariant setting and Ad_X P_L Ad_X^T in the right-invariant setting gives covariances related by the adjoint of the new X.", "quantifier": "every state, K, measurement", "why_tests_cant": "relational property", "anchors": ["src/filter/inekf/propagation/imu_propagation.cpp:StateTransitionMatrix", "src/filter/inekf/propagation/imu_propagation.cpp:DiscreteNoiseMatrix"]}
{"id": "C40", "title": "The invariant error evolves independently of the trajectory", "statement": "For two states propagated with the same IMU input, the invariant error after the step is a function of the error before the step, the gravity and dt only.", "quantifier": "every pair of states and input", "why_tests_cant": "relational property over a continuum", "anchors": ["src/filter/inekf/propagation/imu_propagation.cpp:Propagate"]}
{"id": "C42", "title": "Static bias initialisation averages exactly N samples", "statement": "With static initialisation and init_bias_size N>0, the biases are reported initialised exactly after N measurements have been consumed plus one further call, and equal the arithmetic mean of the gravity-compensated samples.", "quantifier": "every N and every sample sequence", "why_tests_cant": "unbounded N", "anchors": ["src/filter/inekf/propagation/imu_propagation.cpp:InitImuBias"]}
{"id": "C43", "title": "A stationary, level IMU recovers its true bias", "statement": "If every sample is the true bias plus the reaction to gravity (identity mounting, level), the initialised biases equal the true biases exactly.", "quantifier": "every bias and N", "why_tests_cant": "the domain is a continuum (or an unbounded set of histories); tests only sample it", "anchors": ["src/filter/inekf/propagation/imu_propagation.cpp:InitImuBias"]}
{"id": "C44", "title": "Static bias initialisation is well defined for the default configuration", "statement": "With the documented defaults the initialised biases are finite numbers.", "quantifier": "every configuration including defaults", "why_tests_cant": "depends on configuration", "anchors": ["src/filter/inekf/propagation/imu_propagation.cpp:ImuPropagation", "src/filter/inekf/propagation/imu_propagation.cpp:InitImuBias"]}
{"id": "C45", "title": "InitState succeeds exactly when an IMU measurement is available and uses the latest correction data", "statement": "InitState does nothing when the IMU buffer is empty; otherwise it consumes one IMU measurement, drains every correction buffer using its newest element (waiting inside InitState as long as a correction has no measurement), resets the position to the origin and enables the filter.", "quantifier": "every buffer contents", "why_tests_cant": "history property", "anchors": ["src/estimator/inekf_estimator.cpp:InitState", "src/filter/inekf/propagation/imu_propagation.cpp:set_initial_state", "src/filter/inekf/correction/velocity_correction.cpp:initialize"]}
{"id": "C46", "title": "Initial velocity uses the same frame and scale as corrections", "statement": "The velocity set at initialisation is the measured velocity mapped with the configured mounting rotation and scale, so that correcting with the same measurement gives zero innovation.", "quantifier": "every measurement and configuration", "why_tests_cant": "the domain is a continuum (or an unbounded set of histories); tests only sample it", "anchors": ["src/filter/inekf/correction/velocity_correction.cpp:initialize", "src/filter/inekf/correction/velocity_correction.cpp:Correct"]}
{"id": "C47", "title": "Initial orientation accounts for the IMU mounting rotation", "statement": "With use_imu_ori_to_init, the initial body orientation is the IMU orientation composed with the inverse mounting rotation.", "quantifier": "every mounting rotation and orientation", "why_tests_cant": "the domain is a continuum (or an unbounded set of histories); tests only sample it", "anchors": ["src/filter/inekf/propagation/imu_propagation.cpp:set_initial_state"]}
{"id": "C48", "title": "Velocity correction consumes measurements in order and only stale ones are dropped", "statement": "Correct returns false without touching the state when no usable measurement exists; a front measurement at or after the propagation time stays queued; otherwise a prefix of stale measurements is discarded and the first non-stale one is used.", "quantifier": "every queue and state", "why_tests_cant": "history property over unbounded queues", "anchors": ["src/filter/inekf/correction/velocity_correction.cpp:Correct"]}
{"id": "C49", "title": "Velocity correction never uses a measurement from the future", "statement": "The measurement applied by Correct is always older than the last propagation time.", "quantifier": "every queue and state", "why_tests_cant": "depends on the queue contents after stale ones", "anchors": ["src/filter/inekf/correction/velocity_correction.cpp:Correct"]}
{"id": "C51", "title": "Contact columns mirror the last contact measurement", "statement": "After processing a kinematic measurement, exactly the legs reported in contact have an augmented column and dimX = 5 + number of legs in contact.", "quantifier": "every history of contact patterns", "why_tests_cant": "history property", "anchors": ["src/filter/inekf/correction/legged_kinematics_correction.cpp:Correct"]}
{"id": "C52", "title": "Too-new kinematic measurements are skipped", "statement": "A kinematic measurement newer than the propagation time by more than the threshold does not modify the state.", "quantifier": "every state and measurement", "why_tests_cant": "the domain is a continuum (or an unbounded set of histories); tests only sample it", "anchors": ["src/filter/inekf/correction/legged_kinematics_correction.cpp:Correct"]}
{"id": "C53", "title": "A new contact is initialised at the measured foot position", "statement": "The column added for a new contact is p + R h, with a PSD augmented covariance that leaves the covariance of the existing states unchanged; the same kinematic measurement gives zero innovation for it.", "quantifier": "every state, leg, kinematics", "why_tests_cant": "the domain is a continuum (or an unbounded set of histories); tests only sample it", "anchors": ["src/filter/inekf/correction/legged_kinematics_correction.cpp:Correct"]}
{"id": "C54", "title": "Contact augmentation is equivalent in both error settings", "statement": "Augmenting in the left-invariant setting and mapping by the adjoint equals augmenting in the right-invariant setting.", "quantifier": "every state, K, foot position", "why_tests_cant": "relational property", "anchors": ["src/filter/inekf/correction/legged_kinematics_correction.cpp:Correct"]}
{"id": "C56", "title": "RunOnce publishes one snapshot exactly when something was processed", "statement": "RunOnce pushes exactly one copy of the resulting state iff the propagation or some correction processed a measurement, and pushes nothing otherwise.", "quantifier": "every buffer contents, number of corrections", "why_tests_cant": "history property", "anchors": ["src/estimator/inekf_estimator.cpp:RunOnce"]}
{"id": "C57", "title": "clear() empties every buffer and disables the filter", "statement": "After clear() all buffers, contact references and output queues are empty, the state is fresh and is_enabled() is false until the next successful InitState.", "quantifier": "every history", "why_tests_cant": "history property", "anchors": ["src/estimator/inekf_estimator.cpp:clear"]}
{"id": "C58", "title": "Following the documented loop never touches invalid memory and keeps the estimate valid", "statement": "For every interleaving of sensor arrivals with the documented loop (is_enabled ? RunOnce : BiasInitialized ? InitState : InitBias) and clear(), no null/uninitialised value is read, X stays in SE_K(3), P symmetric PSD and dimensions consistent, for every usable configuration (non-zero standard deviations that are inverted, at least one bias sample, unit quaternions when the orientation is used) and IMU stamps that do not decrease.", "quantifier": "every schedule of sensor messages and loop iterations", "why_tests_cant": "history and schedule property", "anchors": ["src/estimator/inekf_estimator.cpp:RunOnce", "src/estimator/inekf_estimator.cpp:InitState", "src/estimator/inekf_estimator.cpp:clear"]}
{"id": "C60", "title": "Left- and right-invariant filters estimate the same trajectory", "statement": "Two estimators that differ only in the error type and start from adjoint-related covariances produce the same state means, the same published sequence and the same log for every sequence of IMU, velocity and kinematic measurements, with or without bias estimation; two estimators built from the same configuration do so from the start if the robot is at rest at every initialisation (InitState sets the same block-diagonal covariance for both error types, which is adjoint-related only at zero velocity).", "quantifier": "every measurement history", "why_tests_cant": "relational property over histories", "anchors": ["src/estimator/inekf_estimator.cpp:RunOnce"]}
{"id": "C61", "title": "Slip flag is a fixed threshold on the disturbance norm", "statement": "SlipEstimatorStep sets the flag to 1 iff the squared norm of the last column exceeds 0.004642, independent of the covariance.", "quantifier": "every state", "why_tests_cant": "the domain is a continuum (or an unbounded set of histories); tests only sample it", "anchors": ["src/estimator/inekf_estimator.cpp:SlipEstimatorStep"]}
{"id": "C62", "title": "Pose logging respects the configured rate", "statement": "Logged states are a subsequence of the published states in order, and consecutive logged timestamps differ by at least 1/rate.", "quantifier": "every sequence of states and rate", "why_tests_cant": "history property", "anchors": ["src/estimator/inekf_estimator.cpp:PoseLoggingThread"]}
{"id": "C63", "title": "Log files are never reused across clear()", "statement": "The file names opened over any number of clear() calls are pairwise distinct, and the pose/velocity/body-velocity files of one session carry the same index.", "quantifier": "every number of clear() calls", "why_tests_cant": "history property", "anchors": ["src/estimator/inekf_estimator.cpp:clear"]}
{"id": "C64", "title": "Only the file extension is stripped from log file names", "statement": "The base name used for logging is the configured path without its extension; a path without extension is unchanged.", "quantifier": "every path string", "why_tests_cant": "all strings", "anchors": ["src/estimator/inekf_estimator.cpp:InekfEstimator"]}
{"id": "C65", "title": "Gyro filter covariance stays symmetric PSD", "statement": "For every history of propagations and corrections the 6x6 covariance of the gyro filter is symmetric PSD.", "quantifier": "every history", "why_tests_cant": "history property", "anchors": ["src/imu_filter/imu_ang_vel_ekf.cpp:AngVelFilterCorrectIMU", "src/imu_filter/imu_ang_vel_ekf.cpp:GyroPropagate"]}
{"id": "C66", "title": "The gyro filter with one IMU correction never stalls", "statement": "In the single-IMU configuration every queued IMU measurement is eventually consumed as propagation continues.", "quantifier": "every history", "why_tests_cant": "liveness over histories", "anchors": ["src/imu_filter/imu_ang_vel_ekf.cpp:SingleImuCorrection"]}
{"id": "C67", "title": "IMU and encoder measurements are fused in time order", "statement": "In the IMU+angular-velocity configuration, repeated RunOnce on given buffers consumes the measurements of both queues merged by time stamp (IMU first on ties), each exactly once; the output stamps are a subsequence of these in order, and without a propagation gyro every consumed measurement yields exactly one output, except encoder readings older than the first IMU reading.", "quantifier": "every pair of queues", "why_tests_cant": "unbounded queues", "anchors": ["src/imu_filter/imu_ang_vel_ekf.cpp:SingleImuAngVelCorrection"]}
{"id": "C68", "title": "Every registered IMU contributes in the multi-IMU configuration", "statement": "With n>=2 IMUs registered, measurements of each of them are consumed by the filter.", "quantifier": "every n and history", "why_tests_cant": "history property", "anchors": ["src/imu_filter/imu_ang_vel_ekf.cpp:add_imu_correction", "src/imu_filter/imu_ang_vel_ekf.cpp:MultiImuCorrection"]}
{"id": "C69", "title": "The multi-IMU filter outputs each accepted measurement once", "statement": "Each push to the output corresponds to a distinct accepted input measurement.", "quantifier": "every queue contents", "why_tests_cant": "the domain is a continuum (or an unbounded set of histories); tests only sample it", "anchors": ["src/imu_filter/imu_ang_vel_ekf.cpp:MultiImuCorrection"]}
{"id": "C70", "title": "The 1-D gyro filter leaves roll and pitch rates untouched by corrections", "statement": "With flat_ground false, corrections only change the yaw rate and yaw bias estimates; the x/y rate estimates equal the initial value plus the telescoped gyro increments.", "quantifier": "every history", "why_tests_cant": "history property", "anchors": ["src/imu_filter/imu_ang_vel_ekf.cpp:ImuAngVelEKF", "src/imu_filter/imu_ang_vel_ekf.cpp:GyroPropagate"]}
{"id": "C71", "title": "The gyro filter passes acceleration and orientation through", "statement": "Every output measurement carries the acceleration and orientation of an input IMU measurement and the stamp of the measurement that triggered it.", "quantifier": "every history", "why_tests_cant": "the domain is a continuum (or an unbounded set of histories); tests only sample it", "anchors": ["src/imu_filter/imu_ang_vel_ekf.cpp:AngVelFilterCorrectIMU", "src/imu_filter/imu_ang_vel_ekf.cpp:AngVelFilterCorrectEncoder"]}
{"id": "C72", "title": "Gyro filter initialisation is safe for every supported configuration", "statement": "For every supported combination of registered sensors, initialisation never dereferences an unset buffer and yields finite biases.", "quantifier": "every configuration", "why_tests_cant": "configuration property", "anchors": ["src/imu_filter/imu_ang_vel_ekf.cpp:InitializeFilter", "src/imu_filter/imu_ang_vel_ekf.cpp:RunOnce"]}
{"id": "C74", "title": "Wheel odometry pairs velocity and angular velocity of the same encoder message", "statement": "For every interleaving of the encoder callback and RunOnce, the k-th integration uses the velocity and angular velocity of the same encoder message, and no lock-order deadlock is possible.", "quantifier": "every interleaving", "why_tests_cant": "thread interleavings", "anchors": ["baselines/src/wheel_odometry/wheel_odometry.cpp:RunOnce", "ROS/drift/src/communication/ros_subscriber.cpp:DifferentialEncoder2VelocityCallback"]}
{"id": "C75", "title": "Wheel odometry keeps the pose on the group", "statement": "After any number of integrations the state matrix is an element of SE_2(3).", "quantifier": "every history", "why_tests_cant": "history property", "anchors": ["baselines/src/wheel_odometry/wheel_odometry.cpp:Integrate"]}
{"id": "C76", "title": "Wheel odometry clock follows the measurements", "statement": "After the first measurement the state time always equals the stamp of the last processed velocity measurement.", "quantifier": "every history", "why_tests_cant": "history property", "anchors": ["baselines/src/wheel_odometry/wheel_odometry.cpp:RunOnce", "baselines/src/wheel_odometry/wheel_odometry.cpp:Integrate"]}
{"id": "C77", "title": "Differential-drive conversion is the exact inverse kinematics", "statement": "For every radius, track width and wheel speeds the published linear/angular velocity reproduce the left and right wheel velocities.", "quantifier": "all wheel speeds, radius, non-zero track width", "why_tests_cant": "the domain is a continuum (or an unbounded set of histories); tests only sample it", "anchors": ["ROS/drift/src/communication/ros_subscriber.cpp:DifferentialEncoder2VelocityCallback"]}
{"id": "C79", "title": "Only normalised quaternions are accepted", "statement": "set_quaternion stores the quaternion iff | |q|^2 - 1 | < 1e-5 and otherwise throws without modifying the measurement; accepted quaternions give rotation matrices orthogonal up to the tolerance.", "quantifier": "all quaternions", "why_tests_cant": "the domain is a continuum (or an unbounded set of histories); tests only sample it", "anchors": ["include/drift/measurement/impl/imu_impl.cpp:set_quaternion"]}
{"id": "C80", "title": "Published pose covariance is the position/orientation covariance", "statement": "The 6x6 covariance in the published pose is ordered (x,y,z,rot x,rot y,rot z) as documented.", "quantifier": "every state", "why_tests_cant": "the domain is a continuum (or an unbounded set of histories); tests only sample it", "anchors": ["ROS/drift/src/communication/ros_publisher.cpp:PosePublish"]}
{"id": "C81", "title": "The path contains every k-th published pose", "statement": "With k = pose_rate/path_rate >= 1 the path after n publications holds exactly the poses number k, 2k, ... in order.", "quantifier": "every n and k", "why_tests_cant": "unbounded history", "anchors": ["ROS/drift/src/communication/ros_publisher.cpp:PosePublish"]}
{"id": "C82", "title": "The publisher never pops an empty queue", "statement": "For every interleaving of the publishing thread with the estimator thread, front()/pop() is only executed on a non-empty queue.", "quantifier": "every interleaving", "why_tests_cant": "thread interleavings", "anchors": ["ROS/drift/src/communication/ros_publisher.cpp:PosePublish", "src/estimator/inekf_estimator.cpp:RunOnce", "src/estimator/inekf_estimator.cpp:clear"]}
{"id": "C83", "title": "Each odometry source uses its own mounting transform", "statement": "With several odometry sources each velocity is computed with the transform registered for its own source.", "quantifier": "every registration order", "why_tests_cant": "configuration history", "anchors": ["ROS/drift/src/communication/ros_subscriber.cpp:AddOdom2VelocityCallback", "ROS/drift/src/communication/ros_subscriber.cpp:Odom2VelocityCallback"]}
{"id": "C85", "title": "Foot Jacobians are the derivatives of the foot positions", "statement": "For each leg, Jp_Body_to_*Foot(q) is the derivative of p_Body_to_*Foot at q for every joint vector q.", "quantifier": "all q in R^12, all four legs", "why_tests_cant": "differential identity over a continuum", "anchors": ["src/kinematics/robots/mini_cheetah/p_Body_to_FrontLeftFoot.cpp", "src/kinematics/robots/mini_cheetah/Jp_Body_to_FrontLeftFoot.cpp"]}
{"id": "C87", "title": "Initial velocity makes the stance foot stationary", "statement": "The initial body velocity computed from the first leg in contact satisfies v + w x p_foot + J dq = 0 for that leg, and is zero when no leg is in contact.", "quantifier": "all encoder values, contacts, w", "why_tests_cant": "the domain is a continuum (or an unbounded set of histories); tests only sample it", "anchors": ["src/kinematics/mini_cheetah_kinematics.cpp:get_init_velocity"]}
{"id": "C41", "title": "A negative init_bias_size makes bias initialisation wait forever", "statement": "With static initialisation and a negative init_bias_size the filter never reports initialised biases, however many measurements arrive (the int is converted to size_t).", "quantifier": "every negative size, every history of arrivals and calls", "why_tests_cant": "non-termination over unbounded histories", "anchors": ["src/filter/inekf/propagation/imu_propagation.cpp:InitImuBias"]}
{"id": "C50", "title": "A perfect velocity measurement does not move the estimate", "statement": "If the measured velocity, mapped by mounting rotation and scale, agrees with the estimated velocity, Correct leaves orientation, velocity, position, contacts and biases unchanged.", "quantifier": "every state, covariance and configuration", "why_tests_cant": "the domain is a continuum (or an unbounded set of histories); tests only sample it", "anchors": ["src/filter/inekf/correction/velocity_correction.cpp:Correct"]}
{"id": "C59", "title": "A kinematic measurement is one joint update with every stance leg", "statement": "Processing a kinematic measurement is always defined and performs one Kalman update whose residuals are R h - (d - p) for exactly the legs that are in contact and already had a column, each weighted by its rotated foot covariance, and then removes and adds columns; legs in swing take no part.", "quantifier": "every state, number of legs, contact pattern, kinematics", "why_tests_cant": "the domain is a continuum (or an unbounded set of histories); tests only sample it", "anchors": ["src/filter/inekf/correction/legged_kinematics_correction.cpp:Correct"]}
{"id": "C73", "title": "Every accepted sensor combination of the gyro filter produces output", "statement": "For every combination of sensors that the gyro filter accepts without an error message, and for the filter created by the estimator, measurements of the correction sensors eventually yield filtered measurements.", "quantifier": "every accepted combination, every history of measurements and runs", "why_tests_cant": "absence of output over unbounded histories", "anchors": ["src/imu_filter/imu_ang_vel_ekf.cpp:RunOnce", "src/imu_filter/imu_ang_vel_ekf.cpp:SingleImuCorrection", "src/imu_filter/imu_ang_vel_ekf.cpp:AngVelCorrection", "src/estimator/inekf_estimator.cpp:add_imu_ang_vel_ekf"]}
{"id": "C78", "title": "Wheel odometry log respects the configured rate", "statement": "Two consecutive rows of the wheel-odometry pose log are at least one logging period apart in message time, and every row carries the pose after the message with that time stamp.", "quantifier": "every history of encoder messages, every rate", "why_tests_cant": "the domain is a continuum (or an unbounded set of histories); tests only sample it", "anchors": ["baselines/src/wheel_odometry/wheel_odometry.cpp:LogPose", "baselines/src/wheel_odometry/wheel_odometry.cpp:RunOnce"]}
{"id": "C84", "title": "Odometry velocities come from consecutive messages of one source", "statement": "For every odometry subscription the queued velocities are exactly those computed from each pair of consecutive messages of that same subscription, in order, and nothing else; for a body moving with a constant twist between the messages the queued velocity is that twist.", "quantifier": "every history of registrations, messages of any number of sources and reads", "why_tests_cant": "unbounded message histories", "anchors": ["ROS/drift/src/communication/ros_subscriber.cpp:Odom2VelocityCallback"]}
{"id": "C86", "title": "Every IMU message is queued", "statement": "Each IMU message received yields exactly one queued measurement with its time stamp, angular velocity, acceleration and orientation.", "quantifier": "every message", "why_tests_cant": "the domain is a continuum (or an unbounded set of histories); tests only sample it", "anchors": ["ROS/drift/src/communication/ros_subscriber.cpp:IMUCallback", "include/drift/measurement/imu.h:set_quaternion"]}
{"id": "C88", "title": "Subscriptions have private FIFO queues", "statement": "No two subscriptions share a queue or a mutex, the handle returned by an Add function is the queue the callback fills, and measurements come out in the order of the messages, each once.", "quantifier": "every history of registrations, messages and reads", "why_tests_cant": "unbounded histories", "anchors": ["ROS/drift/src/communication/ros_subscriber.cpp:AddIMUSubscriber", "ROS/drift/src/communication/ros_subscriber.cpp:IMUCallback"]}
{"id": "C89", "title": "A published pose reports the state", "statement": "The published message carries the state's time, world position and a unit quaternion that represents the world orientation, for world- and body-centric states.", "quantifier": "every state whose orientation is a rotation, including the half-turns where the quaternion conversion changes branch", "why_tests_cant": "the domain is a continuum (or an unbounded set of histories); tests only sample it", "anchors": ["ROS/drift/src/communication/ros_publisher.cpp:PosePublish"]}
{"id": "C90", "title": "Poses are published in order, each once", "statement": "The published poses are the states handed over by the estimator, in that order, each exactly once, with consecutive sequence numbers modulo 2^32; the remaining queue holds exactly the others.", "quantifier": "every history of pushes, pose publications and path publications", "why_tests_cant": "unbounded histories", "anchors": ["ROS/drift/src/communication/ros_publisher.cpp:PosePublish", "ROS/drift/src/communication/ros_publisher.cpp:PathPublish"]}
{"id": "C91", "title": "Forward kinematics is that of the leg's joint chain", "statement": "For each leg the computed foot position, orientation and pose are those of the chain abduction (about x), hip and knee (about -y) with the robot's link lengths; the orientation is a rotation and the foot is within the leg's reach.", "quantifier": "all q in R^12, all four legs", "why_tests_cant": "the domain is a continuum (or an unbounded set of histories); tests only sample it", "anchors": ["src/kinematics/robots/mini_cheetah/p_Body_to_FrontLeftFoot.cpp", "src/kinematics/robots/mini_cheetah/R_Body_to_FrontLeftFoot.cpp", "src/kinematics/robots/mini_cheetah/H_Body_to_FrontLeftFoot.cpp"]}
{"id": "C92", "title": "Body and spatial Jacobians give the foot's twist", "statement": "Along every differentiable joint motion the foot pose H satisfies dH/dt = H (Jb dq)^ = (Js dq)^ H; Jb and Js are (Jwb, Jvb) and (Jws, Jvs) stacked.", "quantifier": "all joint motions, all four legs", "why_tests_cant": "differential identity over a continuum", "anchors": ["src/kinematics/robots/mini_cheetah/Jb_Body_to_FrontLeftFoot.cpp", "src/kinematics/robots/mini_cheetah/Js_Body_to_FrontLeftFoot.cpp"]}
{"id": "C93", "title": "A kinematic measurement carries each leg's position and Jacobian", "statement": "After ComputeKinematics the position and Jacobian returned for each leg are the foot position and its derivative by that leg's three joints; other encoder counts are undefined.", "quantifier": "all encoder vectors, all legs", "why_tests_cant": "the domain is a continuum (or an unbounded set of histories); tests only sample it", "anchors": ["src/kinematics/mini_cheetah_kinematics.cpp:ComputeKinematics", "src/measurement/legged_kinematics.cpp:get_J"]}
{"id": "C55", "title": "The covariance transition matrix solves the error equations exactly", "statement": "For constant body rate and acceleration over a step, the matrix used to propagate the covariance maps the stacked error (orientation, velocity, position, contacts, gyro bias, accelerometer bias) at the start of the step to the error at its end for every solution of the linear error differential equations of the chosen error type (rates of at least 1e-6 rad/s, or no gyro-bias error).", "quantifier": "every rate, acceleration, step length, state, number of contacts, initial error, both error types", "why_tests_cant": "equality with the solution of a differential equation over a continuum", "anchors": ["src/filter/inekf/propagation/imu_propagation.cpp:StateTransitionMatrix"]}
{"id": "C94", "title": "Propagation errors of any size evolve by the covariance transition matrix", "statement": "If two estimates differ before an IMU step by a group error Exp(xi), however large, they differ after the step by Exp(Phi xi), with Phi the matrix used for the covariance: the filter's linearisation of the propagation is exact.", "quantifier": "every state, error vector, measurement and step, both error types", "why_tests_cant": "the domain is a continuum (or an unbounded set of histories); tests only sample it", "anchors": ["src/filter/inekf/propagation/imu_propagation.cpp:Propagate", "src/filter/inekf/propagation/imu_propagation.cpp:StateTransitionMatrix"]}
{"id": "C95", "title": "The filter never claims to know heading and absolute position better than at the start", "statement": "While the filter runs, and in every published or logged state, the covariance is at least that of a common unknown heading and a common unknown shift of position and contacts with the configured initial variances; in particular the heading variance and the position variance in every direction never fall below their initial values (for the left-invariant filter: seen from the body, started at rest, with the lever arm of the unknown heading).", "quantifier": "every configuration, every history of measurements, main-loop turns, clear() and re-initialisations", "why_tests_cant": "an invariant of a covariance recursion over unbounded histories with changing dimension", "anchors": ["src/estimator/inekf_estimator.cpp:RunOnce", "src/filter/inekf/propagation/imu_propagation.cpp:Propagate", "src/filter/inekf/correction/velocity_correction.cpp:Correct", "src/filter/inekf/correction/legged_kinematics_correction.cpp:Correct", "src/filter/inekf/inekf.cpp:CorrectRightInvariant"]}
{"id": "C96", "title": "An IMU step adds exactly the configured process noise", "statement": "The variance of every linear function of the error after an IMU step is the variance of that function of the propagated error plus the length of the step times the configured variances (squares of the configured standard deviations, in every history) of gyroscope, accelerometer, contacts and, when biases are estimated, bias random walks, each entering through the body-frame channel it belongs to.", "quantifier": "every state, measurement, number of contacts, linear function of the error, both error types; every history for the configured values", "why_tests_cant": "the domain is a continuum (or an unbounded set of histories); tests only sample it", "anchors": ["src/filter/inekf/propagation/imu_propagation.cpp:DiscreteNoiseMatrix", "src/filter/inekf/propagation/imu_propagation.cpp:Propagate"]}
{"id": "C97", "title": "A correction is the minimum-variance update", "statement": "Whenever CorrectRightInvariant (used by every shipped correction) returns, the new mean is Exp(d) X and theta + d with d = L Z, and the new covariance is the error covariance of L, where L is the unique gain whose error covariance is minimal in every direction among all linear gains, for the prior covariance, observation matrix and noise; only the yaw gyro bias is excepted (C27).", "quantifier": "every state, number of columns, observation size, Z, H, N; both error types; bias update on or off", "why_tests_cant": "optimality over all gains and all covariances", "anchors": ["src/filter/inekf/inekf.cpp:CorrectRightInvariant"]}
{"id": "C98", "title": "The heading of the world frame does not matter", "statement": "Turn the world frame by a rotation that fixes gravity: every orientation the IMU reports is turned, everything else that arrives is the same. Then every estimate, published state and log row is turned the same way (orientation, velocity, position, contact positions), while biases, time stamps and body velocities are the same and the covariance is the same (left-invariant) or turned block by block (right-invariant). If the IMU orientation is not used to initialise, the reported orientations have no effect at all.", "quantifier": "every configuration, both error types, every history of measurements, main-loop turns and clear()", "why_tests_cant": "relation between two unbounded histories", "anchors": ["src/estimator/inekf_estimator.cpp:RunOnce", "src/filter/inekf/propagation/imu_propagation.cpp:Propagate", "src/filter/inekf/propagation/imu_propagation.cpp:InitImuBias", "src/filter/inekf/propagation/imu_propagation.cpp:set_initial_state", "src/filter/inekf/correction/velocity_correction.cpp:Correct", "src/filter/inekf/correction/legged_kinematics_correction.cpp:Correct"]}
{"id": "C99", "title": "clear() separates the logs of two sessions", "statement": "Every row of the three log files opened by clear() (or by the constructor) is of a state processed in that session, and the three rows of a state go to the files of one session.", "quantifier": "every interleaving of the logging thread with RunOnce and clear(), any number of calls, any log rate", "why_tests_cant": "depends on the interleaving of two threads", "anchors": ["src/estimator/inekf_estimator.cpp:PoseLoggingThread", "src/estimator/inekf_estimator.cpp:clear", "src/estimator/inekf_estimator.cpp:RunOnce"]}
{"id": "C100", "title": "Destroying the estimator saves the logged path", "statement": "When the destructor returns, which it always does, the log files contain the rate-limited log of all states processed; no call of RunOnce, clear() or the destructor can block for ever on the logging thread.", "quantifier": "every interleaving of the logging thread with RunOnce, clear() and the destructor, any log rate", "why_tests_cant": "depends on the interleaving of two threads", "anchors": ["src/estimator/inekf_estimator.cpp:~InekfEstimator", "src/estimator/inekf_estimator.cpp:PoseLoggingThread", "src/estimator/inekf_estimator.cpp:RunOnce", "src/estimator/inekf_estimator.cpp:clear"]}
{"id": "C101", "title": "The origin of time does not matter", "statement": "If the clock that stamps all measurements is set differently by a constant, the same configuration processes the history in the same way: every estimate, published state and log row is the same, apart from its time stamp, which differs by that constant.", "quantifier": "every configuration, offset and history of measurements, main-loop turns, clear(), logging and publishing", "why_tests_cant": "relation between two unbounded histories", "anchors": ["src/estimator/inekf_estimator.cpp:RunOnce", "src/estimator/inekf_estimator.cpp:PoseLoggingThread", "src/filter/inekf/propagation/imu_propagation.cpp:Propagate", "src/filter/inekf/correction/velocity_correction.cpp:Correct", "src/filter/inekf/correction/legged_kinematics_correction.cpp:Correct"]}
{"id": "C102", "title": "Published time stamps are stamps of received measurements", "statement": "Every published state carries a time stamp, and it is the stamp of a measurement that was received; so is the time of every row of the log.", "quantifier": "every configuration, every history of measurements, main-loop turns, clear(), logging and publishing", "why_tests_cant": "unbounded histories", "anchors": ["src/estimator/inekf_estimator.cpp:RunOnce", "src/estimator/inekf_estimator.cpp:InitState", "src/estimator/inekf_estimator.cpp:PoseLoggingThread"]}
{"id": "C103", "title": "Kinematic and Fetch IMU messages reach the estimator with their content", "statement": "A pair of contact and joint messages adds exactly one measurement; the legged correction sees it with the stamp of the contact message, each leg's own contact flag, the foot position of the robot's geometry at these joint angles and its derivative by the leg's own joints; the velocity it gives to the initialisation makes the first foot in contact stand still; messages with too few entries are exactly those read out of bounds. A Fetch IMU message is queued with the angular velocity of the IMU plus the offset message.", "quantifier": "every pair of messages, subscriber state, joint configuration and joint motion", "why_tests_cant": "all messages and all joint configurations; the derivative is a limit", "anchors": ["ROS/drift/src/communication/ros_subscriber.cpp:MiniCheetahKinCallBack", "ROS/drift/src/communication/ros_subscriber.cpp:FetchIMUCallBack", "src/kinematics/robots/mini_cheetah/", "src/filter/inekf/correction/legged_kinematics_correction.cpp:Correct"]}
{"id": "C104", "title": "The shipped programs never crash on well-formed data", "statement": "Each of the ten shipped ROS programs, with its shipped configuration, starts, and no history of well-formed messages makes it reach undefined behaviour, a division by zero or an uncaught exception, whatever the interleaving of callbacks, main loop, gyro filter, logger and publisher, if the messages that time the propagation arrive in the order of their stamps and consecutive odometry messages have different stamps.", "quantifier": "all ten programs; every history of messages, loop turns, filter iterations, logging and publishing", "why_tests_cant": "unbounded histories and interleavings of several threads", "anchors": ["ROS/drift/examples/mini_cheetah.cpp", "ROS/drift/examples/fetch.cpp", "ROS/drift/examples/girona500.cpp", "ROS/drift/examples/husky.cpp", "ROS/drift/examples/husky_odom.cpp", "ROS/drift/examples/neya.cpp", "ROS/drift/examples/fetch_gyro_filter.cpp", "ROS/drift/examples/husky_double_imu_filter.cpp", "ROS/drift/examples/husky_gyro_filter.cpp", "ROS/drift/examples/neya_gyro_filter.cpp"]}
{"id": "C105", "title": "Everything a shipped program publishes is meaningful", "statement": "Every pose message published by a shipped program carries the stamp of a message that the program received, a unit quaternion and a positive semidefinite covariance; the paths consist of published poses; every state waiting to be published is a valid estimate.", "quantifier": "all ten programs; every history of messages, loop turns, filter iterations, logging and publishing", "why_tests_cant": "unbounded histories and interleavings of several threads", "anchors": ["ROS/drift/examples/mini_cheetah.cpp", "ROS/drift/examples/husky_gyro_filter.cpp", "ROS/drift/src/communication/ros_publisher.cpp:PosePublish", "src/estimator/inekf_estimator.cpp:RunOnce", "ROS/drift/src/communication/ros_subscriber.cpp:IMUCallback"]}
{"id": "C106", "title": "Between topics and published poses nothing is lost, duplicated, reordered or misrouted", "statement": "In each of the ten shipped programs every message is converted once and reaches exactly the sensors configured for its topic, in the order of arrival; the estimator behaves as if it were called directly with these measurements and the main-loop turns, in that order (with a gyro filter the IMU measurements are the outputs of that filter on its inputs); the published poses report the states the estimator published, in that order, each once, and the others are still queued.", "quantifier": "all ten programs; every history of well-formed messages, loop turns, filter iterations, logging and publishing", "why_tests_cant": "unbounded histories and interleavings of several threads", "anchors": ["ROS/drift/examples/mini_cheetah.cpp", "ROS/drift/examples/husky_gyro_filter.cpp", "ROS/drift/src/communication/ros_subscriber.cpp:AddIMUSubscriber", "ROS/drift/src/communication/ros_publisher.cpp:PosePublish", "src/estimator/inekf_estimator.cpp:RunOnce"]}
{"id": "C107", "title": "The estimator starts as soon as it can, and then keeps up", "statement": "Nothing is published before the IMU measurements of the bias initialisation and one more have arrived and every correction has data; once they have, the first state is published within two turns of the main loop more than there are samples to average. It is made from exactly those measurements: mean of the samples as biases (or the configured biases), orientation and time of the next one, origin, configured covariances. Every later IMU measurement drives one propagation, in order, and each turn that finds one waiting consumes exactly one and publishes. The ten shipped programs start in the same way.", "quantifier": "every configuration, every history of arrivals, main-loop turns, logging and publishing without clear(); all ten shipped programs", "why_tests_cant": "progress over unbounded histories and any interleaving of arrivals with the main loop", "anchors": ["src/estimator/inekf_estimator.cpp:RunOnce", "src/estimator/inekf_estimator.cpp:InitBias", "src/estimator/inekf_estimator.cpp:InitState", "src/filter/inekf/propagation/imu_propagation.cpp:InitImuBias", "ROS/drift/examples/husky_odom.cpp"]}
{"id": "C108", "title": "Without corrections the orientation uncertainty grows exactly with the gyroscope noise", "statement": "As long as no correction measurement arrives, whatever the motion and the schedule, the total orientation variance of the estimate (trace of the orientation block of the covariance) grows by exactly three times the squared configured gyroscope standard deviation per second of propagated time (bias estimation off).", "quantifier": "every configuration without bias estimation, both error types, every earlier history, every history of IMU messages, main-loop turns, logging and publishing", "why_tests_cant": "unbounded histories, all motions", "anchors": ["src/filter/inekf/propagation/imu_propagation.cpp:Propagate", "src/filter/inekf/propagation/imu_propagation.cpp:StateTransitionMatrix", "src/filter/inekf/propagation/imu_propagation.cpp:DiscreteNoiseMatrix", "src/estimator/inekf_estimator.cpp:RunOnce"]}
{"id": "C109", "title": "An IMU measurement that arrives late does not invalidate the estimate", "statement": "If an IMU measurement arrives with a stamp earlier than the current estimate, the estimates published afterwards are still valid (their covariance is positive semidefinite).", "quantifier": "every configuration, every history, every late stamp", "why_tests_cant": "all time stamps and states", "anchors": ["src/filter/inekf/propagation/imu_propagation.cpp:Propagate", "src/estimator/inekf_estimator.cpp:RunOnce"]}
{"id": "C110", "title": "The wheel-odometry programs report planar dead reckoning of the joint messages", "statement": "Whatever the interleaving of messages, callbacks and the main loop, the two baseline programs never reach undefined behaviour on well-formed messages, and the pose they hold is planar dead reckoning (rotation about the vertical axis, height 0) of the wheel readings of the first joint messages that are not ignored, with the robot's radius and track width, from the origin at the first stamp; all readings, once the threads are idle and the queue is empty.", "quantifier": "both programs; every interleaving of messages, callback steps and main-loop steps; every well-formed message", "why_tests_cant": "unbounded interleavings of two threads", "anchors": ["ROS/drift/baselines/husky_wheel_odom.cpp", "ROS/drift/baselines/fetch_wheel_odom.cpp", "baselines/src/wheel_odometry/wheel_odometry.cpp:RunOnce", "baselines/src/wheel_odometry/wheel_odometry.cpp:Integrate", "ROS/drift/src/communication/ros_subscriber.cpp:DifferentialEncoder2VelocityCallback"]}
{"id": "C111", "title": "Wheel odometry is accurate to first order", "statement": "If the wheels do not slip and the speeds are constant between messages, the reported heading is within 1e-10 rad per reading of the true one, and the reported position is within the sum of |v||w|dt^2/2 (plus the effect of ignored tiny turns) of the true one: exact for straight driving and for turning on the spot, and linear in the distance travelled otherwise.", "quantifier": "both programs; every interleaving; every motion with piecewise constant speed and rate", "why_tests_cant": "error bound against the solution of a differential equation, over unbounded histories", "anchors": ["baselines/src/wheel_odometry/wheel_odometry.cpp:Integrate", "baselines/src/wheel_odometry/wheel_odometry.cpp:RunOnce", "ROS/drift/baselines/husky_wheel_odom.cpp"]}
{"id": "C112", "title": "The gyro filter puts its outputs out in time order", "statement": "If each sensor delivers its measurements in the order of their stamps, the measurements the gyro filter puts into its output queue (which time the propagation of the estimator) are in the order of their stamps.", "quantifier": "every configuration and combination of sensors, every history of measurements and filter iterations", "why_tests_cant": "unbounded histories and interleavings of the sensors with the filter thread", "anchors": ["src/imu_filter/imu_ang_vel_ekf.cpp:RunOnce", "src/imu_filter/imu_ang_vel_ekf.cpp:SingleImuAngVelCorrection", "src/imu_filter/imu_ang_vel_ekf.cpp:MultiImuCorrection", "src/imu_filter/imu_ang_vel_ekf.cpp:SingleImuCorrection", "src/imu_filter/imu_ang_vel_ekf.cpp:AngVelCorrection"]}
{"id": "C113", "title": "MEKF: converting an orientation to a quaternion and back does not change it", "statement": "quat2rot(rot2quat(R)) returns R for every rotation matrix R; rot2quat always returns a unit quaternion; rot2quat(quat2rot(q)) is q, normalised, for every quaternion with positive real part.", "quantifier": "every rotation matrix, every quaternion", "why_tests_cant": "the domain is a continuum (or an unbounded set of histories); tests only sample it", "anchors": ["baselines/python/MEKF/MEKF.py:rot2quat", "baselines/python/MEKF/MEKF.py:quat2rot"]}
{"id": "C114", "title": "MEKF: no input makes the filter fail or its covariance invalid", "statement": "From the initial state, whatever the IMU rows, time steps (also zero or negative ones) and velocity measurements, no step raises an exception or produces a NaN, the orientation stays a unit quaternion and the covariance symmetric positive semidefinite, for a positive measurement variance and non-negative noise variances.", "quantifier": "every log of IMU and velocity rows, every configuration", "why_tests_cant": "unbounded histories over a continuum of inputs", "anchors": ["baselines/python/MEKF/MEKF.py:propoagate", "baselines/python/MEKF/MEKF.py:measurement_update"]}
{"id": "C115", "title": "MEKF: a velocity update is the minimum-variance update for the true measurement Jacobian", "statement": "measurement_update uses the derivative of the predicted body velocity with respect to the error state; the covariance it returns is minimal among all linear updates; position, velocity and orientation move by the optimal gain times the innovation.", "quantifier": "every valid state, measurement and measurement variance", "why_tests_cant": "optimality over all gains; a derivative is a limit", "anchors": ["baselines/python/MEKF/MEKF.py:measurement_update"]}
{"id": "C116", "title": "MEKF: the covariance is propagated with the derivative of the step", "statement": "propoagate moves position, velocity and orientation by dead reckoning with the bias-corrected IMU row, and propagates the covariance with the derivative of this step with respect to the error state, plus the process noise.", "quantifier": "every state, IMU row and time step", "why_tests_cant": "a derivative is a limit, over a continuum of states", "anchors": ["baselines/python/MEKF/MEKF.py:propoagate"]}
{"id": "C117", "title": "MEKF: a perfect velocity measurement does not move the estimate", "statement": "A velocity measurement equal to the predicted body velocity leaves position, velocity and orientation unchanged.", "quantifier": "every valid state and measurement variance", "why_tests_cant": "the domain is a continuum (or an unbounded set of histories); tests only sample it", "anchors": ["baselines/python/MEKF/MEKF.py:measurement_update", "baselines/python/MEKF/MEKF.py:rot2quat"]}
{"id": "C118", "title": "MEKF: a robot at rest is estimated to be at rest", "statement": "If the biases are initialised by init_bias from a log of the robot standing level and the robot keeps standing, the estimate stays at the origin with velocity zero, whatever the constant sensor biases and the mounting.", "quantifier": "every mounting rotation, constant sensor biases, log length, window and sequence of time steps", "why_tests_cant": "unbounded histories over a continuum", "anchors": ["baselines/python/MEKF/MEKF.py:init_bias", "baselines/python/MEKF/MEKF.py:propoagate"]}
{"id": "C119", "title": "MEKF driver: velocity measurements are used in order, each once, when they are due", "statement": "The driver makes one turn per IMU row; the velocity measurements used are the first ones of the log in order, each once; none is used before its time stamp; and each is used at the first IMU row not earlier than its stamp.", "quantifier": "every pair of logs", "why_tests_cant": "unbounded logs", "anchors": ["baselines/python/MEKF/MEKF.py"]}
{"id": "C120", "title": "MEKF: the saved trajectory contains the estimates", "statement": "The file written by save_pose_to_tum contains, in order and in TUM column order (time, position, quaternion with the real part last), all estimates up to 15000 of them, otherwise the first and every fifth after it.", "quantifier": "every trajectory of any length", "why_tests_cant": "unbounded lengths", "anchors": ["baselines/python/MEKF/MEKF.py:save_pose_to_tum"]}
{"id": "C121", "title": "MEKF: propoagate can be called with its documented arguments", "statement": "A program that imports the module can call propoagate with its arguments; the call uses the previous row of the estimates and the current row of the data.", "quantifier": "every argument", "why_tests_cant": "the domain is a continuum (or an unbounded set of histories); tests only sample it", "anchors": ["baselines/python/MEKF/MEKF.py:propoagate"]}
{"id": "C122", "title": "MEKF: the program turns every usable recording into a trajectory file", "statement": "For every recording with at least one IMU message and at least one joint message, all with four wheel speeds, the program saves a file; it lists, for each IMU message (all up to 15000, then every fifth), its time of reception and the pose obtained by propagating the previous one over the time between the two messages and updating it with the next unused wheel message received by then, read as a forward velocity of radius times mean wheel speed; other recordings raise.", "quantifier": "every recording, of any length", "why_tests_cant": "unbounded recordings over a continuum", "anchors": ["baselines/python/MEKF/MEKF.py:read_imu", "baselines/python/MEKF/MEKF.py:read_husky", "baselines/python/MEKF/MEKF.py:save_pose_to_tum"]}
{"id": "C123", "title": "Calls behave as if they were atomic", "statement": "Whatever the interleaving of the main loop with sensor callbacks, publisher and logging thread, at the granularity of single lock, queue and unlock operations, each call of RunOnce, InitBias, InitState and clear takes effect at one moment between its beginning and its return: a history of whole calls, with the same calls and per queue the same accesses in the same order, ends in the same state and gives the publisher the same states. No interleaving leads to a front() of an empty queue or any other undefined access.", "quantifier": "every interleaving of any number of calls with arrivals, publishing and logging; every configuration", "why_tests_cant": "depends on the interleaving of several threads over unbounded histories", "anchors": ["src/estimator/inekf_estimator.cpp:RunOnce", "src/estimator/inekf_estimator.cpp:InitState", "src/estimator/inekf_estimator.cpp:clear", "src/filter/inekf/propagation/imu_propagation.cpp:Propagate", "src/filter/inekf/propagation/imu_propagation.cpp:set_initial_state", "src/filter/inekf/correction/velocity_correction.cpp:Correct", "src/filter/inekf/correction/velocity_correction.cpp:initialize", "src/filter/inekf/correction/legged_kinematics_correction.cpp:Correct", "ROS/drift/src/communication/ros_subscriber.cpp:IMUCallback"]}
{"id": "C124", "title": "Main loop, callbacks, publisher and logger neither deadlock nor race", "statement": "At every moment the holder of a mutex can go on without waiting and releases it after at most two of its own steps; and no queue is accessed by two threads at once, so the outcome does not depend on an unsynchronised access.", "quantifier": "every interleaving of the main loop with callbacks, publisher and logging thread", "why_tests_cant": "depends on the interleaving of several threads", "anchors": ["src/estimator/inekf_estimator.cpp:RunOnce", "src/estimator/inekf_estimator.cpp:InitState", "src/filter/inekf/propagation/imu_propagation.cpp:set_initial_state", "src/filter/inekf/correction/velocity_correction.cpp:initialize", "src/filter/inekf/correction/legged_kinematics_correction.cpp:initialize", "ROS/drift/src/communication/ros_subscriber.cpp:IMUCallback"]}
{"id": "C125", "title": "Every call of the estimator returns", "statement": "A call of RunOnce, InitBias, InitState or clear returns after a number of steps bounded by the number of corrections and queued measurements, whatever the other threads do.", "quantifier": "every state, every interleaving with the other threads", "why_tests_cant": "termination over all schedules", "anchors": ["src/estimator/inekf_estimator.cpp:RunOnce", "src/filter/inekf/correction/velocity_correction.cpp:Correct", "src/filter/inekf/correction/legged_kinematics_correction.cpp:Correct"]}
{"id": "C126", "title": "Converted time stamps keep order and identity of the messages", "statement": "The double that the callbacks make of a message stamp (seconds and nanoseconds) is in the order of the stamps, within 120 ns of the stamp (until 2038), and different for messages with different stamps.", "quantifier": "every pair of stamps, every rounding to nearest of IEEE binary64", "why_tests_cant": "all stamps; rounding", "anchors": ["ROS/drift/src/communication/ros_subscriber.cpp:IMUCallback", "ROS/drift/src/communication/ros_subscriber.cpp:VelocityCallback", "ROS/drift/src/communication/ros_subscriber.cpp:OdomCallback"]}
{"id": "C127", "title": "Time steps are computed without rounding error", "statement": "The difference of two stamps (between 2004 and 2038) is computed exactly in double arithmetic, so the time steps of any number of measurements add up to the time between the first and the last, and the clock of the wheel odometry is the stamp of its last measurement.", "quantifier": "every sequence of stamps of any length, every rounding to nearest", "why_tests_cant": "rounding errors over unbounded histories", "anchors": ["src/filter/inekf/propagation/imu_propagation.cpp:Propagate", "src/filter/inekf/correction/velocity_correction.cpp:Correct", "src/filter/inekf/correction/legged_kinematics_correction.cpp:Correct", "baselines/src/wheel_odometry/wheel_odometry.cpp:RunOnce", "baselines/src/wheel_odometry/wheel_odometry.cpp:Integrate"]}
{"id": "C128", "title": "Published stamps are the stamps of the measurements", "statement": "The stamp of a published pose, which goes from the message through a double and back, is in the order of the received stamps, within 120 ns, and identical to the stamp of the measurement it belongs to.", "quantifier": "every stamp, every rounding to nearest", "why_tests_cant": "all stamps; rounding", "anchors": ["ROS/drift/src/communication/ros_publisher.cpp:PosePublish", "ROS/drift/src/communication/ros_subscriber.cpp:IMUCallback"]}
{"id": "C129", "title": "Log files hold the exact values", "statement": "Every number in the log files identifies the double it was written for: reading it back gives exactly that double, and different values are written differently.", "quantifier": "every binary64 number, every rounding to nearest", "why_tests_cant": "all 2^64 values", "anchors": ["src/estimator/inekf_estimator.cpp:InekfEstimator", "src/estimator/inekf_estimator.cpp:clear", "src/estimator/inekf_estimator.cpp:PoseLoggingThread", "baselines/src/wheel_odometry/wheel_odometry.cpp:WheelOdometry"]}
{"id": "C130", "title": "The orientation stays a rotation in spite of rounding errors", "statement": "Whatever the IMU readings and corrections, after n of them the orientation as computed in double arithmetic is orthogonal up to (1 + 2^-43)^n - 1 in every entry of R^T R: less than 3e-13 per step, 3e-6 after ten million steps, independently of the motion.", "quantifier": "every sequence of IMU readings and left- or right-invariant corrections of any length, every rounding to nearest, every sine and cosine accurate to 2^-52", "why_tests_cant": "rounding errors over unbounded histories and a continuum of inputs", "anchors": ["src/math/lie_group.cpp:Gamma_SO3", "src/math/lie_group.cpp:Exp_SEK3", "src/filter/inekf/propagation/imu_propagation.cpp:Propagate", "src/filter/inekf/inekf.cpp:CorrectRightInvariant", "src/filter/inekf/inekf.cpp:CorrectLeftInvariant"]}
{"id": "C131", "title": "The transition matrix is accurate in double arithmetic", "statement": "The block of the computed state transition matrix that couples position with gyroscope bias over one IMU interval is of the order of the specific force times dt^3, for every angular rate.", "quantifier": "every angular rate, specific force and time step; every rounding to nearest", "why_tests_cant": "a continuum of inputs; rounding errors", "anchors": ["src/filter/inekf/propagation/imu_propagation.cpp:StateTransitionMatrix", "src/math/lie_group.cpp:Gamma_SO3"]}
{"id": "C132", "title": "The computed orientation is close to the true one", "statement": "After any number n of IMU readings and corrections (up to 10^12), every entry of the orientation computed in double arithmetic is within n * 2^-40 (n * 1e-12) of the product of the exact matrix exponentials of the same rotation vectors.", "quantifier": "every initial rotation, every sequence of IMU readings and of left- and right-invariant corrections with rotation vectors of at most 4 rad per component that are zero or at least 2e-10 rad long, every rounding to nearest, both summation orders, every sine and cosine within 2^-52", "why_tests_cant": "rounding errors of thousands of operations per second accumulate over hours; a test sees a few seconds and needs a reference that is itself rounded", "anchors": ["src/math/lie_group.cpp:Gamma_SO3", "src/math/lie_group.cpp:Exp_SEK3", "src/filter/inekf/propagation/imu_propagation.cpp:Propagate", "src/filter/inekf/inekf.cpp:CorrectRightInvariant", "src/filter/inekf/inekf.cpp:CorrectLeftInvariant"]}
{"id": "C133", "title": "Each run of the gyro filter behaves as if it were atomic", "statement": "Whatever the interleaving of the critical sections of the gyro filter thread with sensor callbacks and the estimator taking outputs, each run takes effect at one moment between its beginning and its return: a history of whole runs, with per queue the same accesses in the same order, ends in the same state and gives the estimator the same measurements. With a supported combination of sensors no interleaving leads to undefined behaviour, and each run returns after at most 2n + 5 critical sections (n further IMUs).", "quantifier": "every configuration, every interleaving of any number of runs with arrivals and consumption", "why_tests_cant": "depends on the interleaving of several threads over unbounded histories", "anchors": ["src/imu_filter/imu_ang_vel_ekf.cpp:RunOnce", "src/imu_filter/imu_ang_vel_ekf.cpp:RunFilter", "src/imu_filter/imu_ang_vel_ekf.cpp:SingleImuAngVelCorrection", "src/imu_filter/imu_ang_vel_ekf.cpp:MultiImuCorrection", "src/imu_filter/imu_ang_vel_ekf.cpp:InitializeFilter", "src/filter/inekf/propagation/imu_propagation.cpp:Propagate"]}
{"id": "C134", "title": "clear() may be called at any time while the gyro filter runs", "statement": "Whenever clear() is called, the filter thread goes on without undefined behaviour, and after clear() has returned nothing that arrived before it is put out any more.", "quantifier": "every configuration, every interleaving of clear() with the filter thread and the callbacks", "why_tests_cant": "depends on the interleaving of several threads", "anchors": ["src/imu_filter/imu_ang_vel_ekf.cpp:clear", "src/imu_filter/imu_ang_vel_ekf.cpp:SingleImuAngVelCorrection", "src/imu_filter/imu_ang_vel_ekf.cpp:AngVelCorrection", "src/estimator/inekf_estimator.cpp:clear", "src/estimator/inekf_estimator.cpp:add_imu_ang_vel_ekf"]}
{"id": "C135", "title": "The shipped programs end when ROS is shut down", "statement": "After Ctrl-C at any moment, each shipped program ends: all its threads return and main() returns, as soon as every thread has had a bounded number of turns, whatever their order. Until then nothing goes wrong: what is published is meaningful, and no object is destroyed while a thread works on it.", "quantifier": "all ten shipped programs, every history of well-formed messages, every moment of the shutdown, every interleaving of the threads afterwards", "why_tests_cant": "termination over all schedules of six threads and all moments of the shutdown", "anchors": ["ROS/drift/examples/girona500.cpp", "src/estimator/inekf_estimator.cpp:InitState", "src/estimator/inekf_estimator.cpp:~InekfEstimator", "src/imu_filter/imu_ang_vel_ekf.cpp:~ImuAngVelEKF", "ROS/drift/src/communication/ros_publisher.cpp:~ROSPublisher", "ROS/drift/src/communication/ros_subscriber.cpp:~ROSSubscriber", "ROS/drift/src/communication/ros_subscriber.cpp:RosSpin"]}
{"id": "C136", "title": "The objects with threads can be constructed, started and destroyed in any way", "statement": "A subscriber, publisher, gyro filter or estimator can be destroyed at any time after its construction, whether or not its thread has been started and however often, without terminating the program.", "quantifier": "every kind of object and every number of calls of the function that starts its thread", "why_tests_cant": "any number of calls; termination in a destructor cannot be caught by a test framework", "anchors": ["src/estimator/inekf_estimator.cpp:InekfEstimator", "src/estimator/inekf_estimator.cpp:StartLoggingThread", "src/estimator/inekf_estimator.cpp:~InekfEstimator", "src/imu_filter/imu_ang_vel_ekf.cpp:StartImuFilterThread", "src/imu_filter/imu_ang_vel_ekf.cpp:~ImuAngVelEKF", "ROS/drift/src/communication/ros_publisher.cpp:StartPublishingThread", "ROS/drift/src/communication/ros_subscriber.cpp:StartSubscribingThread"]}
{"id": "C137", "title": "The velocity log holds the estimated velocity in the frame of the velocity sensor", "statement": "Each time a velocity measurement is used, and only then, one line is written to the velocity log: the stamp of the measurement and the estimated velocity after the correction, expressed in the frame of the velocity sensor. Writing the log changes nothing else.", "quantifier": "every state, configuration, queue content and measurement", "why_tests_cant": "the orientation used for the line must be that of the same state as the velocity; only measurements that turn the estimate show the difference", "anchors": ["src/filter/inekf/correction/velocity_correction.cpp:Correct"]}
{"id": "C138", "title": "With perfect sensors the estimate is the truth", "statement": "If the estimate is right at some time and from then on the IMU readings and the velocity measurements are without error (biases known, rates and accelerations constant between two IMU readings), every state the estimator publishes is the true orientation, velocity and position of the body at the time stamp it carries.", "quantifier": "all true motions, mountings, biases, IMU and velocity streams, interleavings of arrivals and main-loop turns, numbers of steps", "why_tests_cant": "a test checks a trajectory within a tolerance; exactness must hold for every motion and every schedule", "anchors": ["src/estimator/inekf_estimator.cpp", "src/filter/inekf/correction/velocity_correction.cpp", "src/filter/inekf/propagation/imu_propagation.cpp", "src/filter/inekf/inekf.cpp"]}
{"id": "C139", "title": "After a correction the measured quantity is known at least as well as the sensor measures it", "statement": "After a velocity measurement has been used, the velocity covariance the filter reports is, in every direction, at most the covariance of the sensor (in the world frame) and at most what it was before; after a kinematic measurement the same holds for the position, relative to the body, of each foot that is and was in contact, with the covariance of the leg kinematics. For every correction: the variance of any combination of the measured quantities is at most that of the measurement, and no combination without the yaw gyro bias becomes more uncertain.", "quantifier": "all states with a positive semidefinite covariance, all measurements, positive definite noises, numbers of legs, both error conventions for the general statement", "why_tests_cant": "a test checks one covariance; the inequality is a claim about every direction, state and noise level", "anchors": ["src/filter/inekf/correction/velocity_correction.cpp", "src/filter/inekf/correction/legged_kinematics_correction.cpp", "src/filter/inekf/inekf.cpp"]}
{"id": "C140", "title": "Measurements queued before the start take part in the estimation", "statement": "A velocity or kinematic measurement that was queued before the filter is initialised, and is newer than the IMU measurement it is initialised from, is used for a correction when the propagation has reached its time stamp, as it would be had it arrived after the start.", "quantifier": "all estimators, queue contents at the start, numbers of measurements and corrections, all later histories", "why_tests_cant": "a test feeds one log; the repository's own test does exactly this and does not notice that no correction happens", "anchors": ["src/estimator/inekf_estimator.cpp", "src/filter/inekf/correction/velocity_correction.cpp", "src/filter/inekf/correction/legged_kinematics_correction.cpp"]}
{"id": "C141", "title": "A measurement says what it is and returns what was set", "statement": "Whatever calls are made on a measurement object, it reports the type of its class, also when printed, and every getter returns what was last set (a quaternion that is refused changes nothing); magnitude times direction of a velocity is the velocity; the transformation of an odometry measurement is that of its translation and rotation.", "quantifier": "all constructors, all sequences of calls with all arguments", "why_tests_cant": "unbounded sequences of calls in any order, all values", "anchors": ["include/drift/measurement/measurement.h", "src/measurement/measurement.cpp", "src/measurement/legged_kinematics.cpp:LeggedKinematicsMeasurement", "include/drift/measurement/impl/velocity_impl.cpp:get_vel_unit_vec", "include/drift/measurement/odom.h:set_transformation"]}
{"id": "C142", "title": "Contact messages survive the wire", "statement": "Every contact array that fits into a message is received as it was sent, and a sequence of them as that sequence; its size on the wire is that of its fields; a message that is cut off is never taken for a message; the bytes are determined by what is received.", "quantifier": "all headers, frame names, numbers of entries and sequences of messages", "why_tests_cant": "all messages of all lengths; a test sends one", "anchors": ["ROS/drift/include/custom_sensor_msgs/Contact.h:Serializer", "ROS/drift/include/custom_sensor_msgs/ContactArray.h:Serializer", "ROS/drift/msg/Contact.msg", "ROS/drift/msg/ContactArray.msg"]}
{"id": "C143", "title": "A contact is attributed to the leg it names", "statement": "If the entries of a contact array name the four legs by their id, in any order, the kinematic measurement says of each leg what the entry with its id says.", "quantifier": "all contact arrays that name each leg once, all joint messages", "why_tests_cant": "all orders of the entries and all flags", "anchors": ["ROS/drift/src/communication/ros_subscriber.cpp:MiniCheetahKinCallBack", "ROS/drift/msg/Contact.msg"]}
{"id": "C144", "title": "An orientation given as a quaternion is the rotation about its axis by its angle", "statement": "The quaternion of a rotation by any angle about any unit vector is accepted, and the rotation matrix read back is the matrix exponential of the rotation vector, the same that Exp_SO3 returns; the opposite quaternion gives the same matrix, the conjugate the transposed one.", "quantifier": "all unit vectors and angles", "why_tests_cant": "a continuum of axes and angles; the exponential is a limit", "anchors": ["include/drift/measurement/impl/imu_impl.cpp:set_quaternion", "include/drift/measurement/impl/imu_impl.cpp:get_rotation_matrix", "src/math/lie_group.cpp:Exp_SO3"]}
{"id": "C145", "title": "A legged robot with perfect sensors is estimated exactly", "statement": "If, from a true state on, the IMU readings are without error, and every kinematic measurement that is used is without error, is used when the estimate has been propagated to its stamp, and shows feet that do not move while in contact, then every published state is the true pose and velocity at its stamp, and the augmented columns are the true places of the feet; whatever the gait, the number of steps and the tuning.", "quantifier": "all true motions, gaits, configurations and histories with a contact correction", "why_tests_cant": "all trajectories, contact patterns and histories of any length", "anchors": ["src/filter/inekf/propagation/imu_propagation.cpp", "src/filter/inekf/correction/legged_kinematics_correction.cpp", "src/estimator/inekf_estimator.cpp"]}
{"id": "C146", "title": "A foot that was lifted is not taken for one that stayed", "statement": "If a leg was in contact, then a received kinematic measurement reports that it is not, and a later one that it is again, the leg gets a new contact point: the place of the foot before is not compared with the place after.", "quantifier": "all sequences of received kinematic measurements and all propagation times", "why_tests_cant": "all patterns of contact and delay", "anchors": ["src/filter/inekf/correction/legged_kinematics_correction.cpp"]}
{"id": "C147", "title": "Every setting in a configuration file takes effect", "statement": "Each key that a shipped configuration file sets, in a file that the program loads, has an influence: there are files that differ only in its value for which the object built from them differs.", "quantifier": "all files and all keys; all values of a key", "why_tests_cant": "a test sees one value of a key; that a key is ignored is a claim about all values and all files", "anchors": ["src/filter/inekf/propagation/imu_propagation.cpp:ImuPropagation", "src/filter/inekf/correction/velocity_correction.cpp:VelocityCorrection", "src/filter/inekf/correction/legged_kinematics_correction.cpp:LeggedKinematicsCorrection", "src/estimator/inekf_estimator.cpp:InekfEstimator", "src/imu_filter/imu_ang_vel_ekf.cpp:ImuAngVelEKF", "ROS/drift/examples/mini_cheetah.cpp", "config/mini_cheetah/legged_kinematics_correction.yaml"]}
{"id": "C148", "title": "The configured mounting orientation of a sensor is a rotation", "statement": "Whatever quaternion a configuration file gives for the orientation of the IMU or the velocity sensor, readings are turned by it and nothing else: lengths and angles are kept, so that a robot at rest with an IMU without error is estimated to be at rest.", "quantifier": "all configuration files, in particular the shipped ones", "why_tests_cant": "a continuum of quaternions; the error is below the tolerance of a short test and grows with the square of time", "anchors": ["src/filter/inekf/propagation/imu_propagation.cpp:ImuPropagation", "src/filter/inekf/correction/velocity_correction.cpp:VelocityCorrection", "config/husky/imu_propagation.yaml", "config/neya/imu_propagation.yaml"]}
{"id": "C149", "title": "Every well-formed configuration is accepted, and the shipped ones are what the properties of the shipped programs assume", "statement": "An object is built from a configuration file without an exception exactly when every setting of its class that is in the file has a value of the right kind (truth value, number, sequence of at least three or four numbers); settings may be missing, except the switch of the logger. With the files in the repository, every shipped program starts, and is the program that the other properties are about.", "quantifier": "all configuration files; the ten shipped programs", "why_tests_cant": "all files, with any settings missing or malformed", "anchors": ["src/filter/inekf/propagation/imu_propagation.cpp:ImuPropagation", "src/filter/inekf/correction/velocity_correction.cpp:VelocityCorrection", "src/filter/inekf/correction/legged_kinematics_correction.cpp:LeggedKinematicsCorrection", "src/estimator/inekf_estimator.cpp:InekfEstimator", "src/imu_filter/imu_ang_vel_ekf.cpp:ImuAngVelEKF", "ROS/drift/examples/mini_cheetah.cpp", "ROS/drift/examples/husky.cpp"]}
{"id": "C150", "title": "The three logs of a session are three files", "statement": "In every session the pose, velocity and body-velocity logs are three different files; each contains, after any number of rows, the rows of its log and nothing else.", "quantifier": "all configured names, numbers of sessions and rows", "why_tests_cant": "all names and histories of any length", "anchors": ["src/estimator/inekf_estimator.cpp:InekfEstimator", "src/estimator/inekf_estimator.cpp:PoseLoggingThread", "src/estimator/inekf_estimator.cpp:clear", "config/mini_cheetah/inekf_estimator.yaml"]}
{"id": "C151", "title": "Two velocity measurements make the tilt known", "statement": "Without bias estimation, whenever two turns of the main loop have each used a velocity measurement and the estimate has moved on by a time T between them, the reported variance of the roll and pitch error, about any horizontal axis, is at most twice the square of sensor noise over 9.8 T, plus what the configured gyroscope and accelerometer noise add in the time T at the speed at hand; whatever the uncertainty before, the motion, the mounting and what happens in between. Afterwards the variance of the orientation error about any axis grows at most at the rate of the squared gyroscope noise, with or without further measurements. (About the vertical axis it never gets below the initial one: C95.)", "quantifier": "all configurations with velocity sensors, all histories before, between and after, all motions with an estimated speed at most V in between, all horizontal directions", "why_tests_cant": "a bound on a covariance for every trajectory, prior and history of any length; a test checks numbers of one run", "anchors": ["src/filter/inekf/propagation/imu_propagation.cpp", "src/filter/inekf/correction/velocity_correction.cpp", "src/estimator/inekf_estimator.cpp", "src/filter/inekf/inekf.cpp"]}
{"id": "C152", "title": "Dead reckoning drifts no faster than the errors of the IMU", "statement": "However the body moves, as long as no correction arrives: if the estimate starts off by at most dR, dv, dq and the IMU readings (biases and mounting accounted for) are off by at most eg in rate and ea in specific force, then S seconds later every published state, at its stamp, is off by at most r + eg S in orientation, dv + ea S + A (r S + eg S^2/2) in velocity and dq + dv S + ea S^2/2 + A (r S^2/2 + eg S^3/6) in position, where A bounds the specific force and r is dR plus 1e-10 per published state. The bounds on velocity and position are attained.", "quantifier": "all motions of the body (any rates as functions of time, with jumps), all readings within the error bounds, all schedules of arrivals and main-loop turns, numbers of steps and time steps", "why_tests_cant": "an error bound for a continuum of motions and readings over histories of any length; a test compares one trajectory with one log", "anchors": ["src/filter/inekf/propagation/imu_propagation.cpp:Propagate", "src/math/lie_group.cpp:Gamma_SO3", "src/estimator/inekf_estimator.cpp:RunOnce"]}
{"id": "C153", "title": "Each correction of the gyro filter is the minimum-variance update", "statement": "A run of the gyro filter that uses a measurement predicts rate and bias (previous estimate, plus the increment of the propagation gyro if there is one, plus the configured process noise) and replaces the prediction by the linear update with the smallest error variance in every direction, for a measurement of rate plus bias (IMU) or of the rate turned into the IMU frame (encoders), on all axes or on the third only, with the configured variance; the covariance it keeps is the covariance of the error of the new estimate, and the output carries the new rate. So afterwards the measured quantity is known at least as well as the sensor measures it.", "quantifier": "all configurations, all histories before, all measurements, all gains and directions to compare with", "why_tests_cant": "optimality is a claim about all gains and all directions; a test compares numbers", "anchors": ["src/imu_filter/imu_ang_vel_ekf.cpp:AngVelFilterCorrectIMU", "src/imu_filter/imu_ang_vel_ekf.cpp:AngVelFilterCorrectEncoder", "src/imu_filter/imu_ang_vel_ekf.cpp:GyroPropagate", "src/imu_filter/imu_ang_vel_ekf.cpp:RandomWalkPropagate"]}
{"id": "C154", "title": "An IMU and encoders together make the gyro bias known", "statement": "Once the gyro filter has used an IMU measurement and an encoder measurement, in either order and with any history in between, the variance of the bias of each measured axis is at most the sum of the variances of the two sensors plus the process noise of the runs in between, whatever it was before; afterwards it grows by at most the configured bias noise per run. With IMUs alone the variance never gets below p q / (p + q), where p and q are the initial variances of rate and bias, and with encoders alone never below q, however many measurements are used.", "quantifier": "all configurations, all histories before, between and after, all directions", "why_tests_cant": "bounds over histories of any length and every prior", "anchors": ["src/imu_filter/imu_ang_vel_ekf.cpp:SingleImuAngVelCorrection", "src/imu_filter/imu_ang_vel_ekf.cpp:AngVelFilterCorrectIMU", "src/imu_filter/imu_ang_vel_ekf.cpp:AngVelFilterCorrectEncoder"]}
{"id": "C155", "title": "With sensors without noise the gyro filter puts out the true rate", "statement": "If the bias is constant and known to the filter (from the configuration or from the static initialisation) and the sensors read rate plus bias (IMU) and rate (encoders) without noise, every output carries the true rate.", "quantifier": "all configurations, rates, biases and histories of data", "why_tests_cant": "every history of any length; a test tolerates errors of the size of the effect", "anchors": ["src/imu_filter/imu_ang_vel_ekf.cpp:GyroPropagate", "src/imu_filter/imu_ang_vel_ekf.cpp:InitializeFilter", "src/imu_filter/imu_ang_vel_ekf.cpp:AngVelFilterCorrectIMU", "src/imu_filter/imu_ang_vel_ekf.cpp:AngVelFilterCorrectEncoder"]}
{"id": "C156", "title": "Wheel odometry under slip drifts no faster than the wheel errors", "statement": "For every motion whose turning rate stays within ew of the wheel readings and whose velocity, in any direction, within ev of them, the reported heading is off by at most ew per second (plus 1e-10 per reading) and the position by at most ev T + V ew T^2/2 plus the integration error of the Euler rule; a wheel speed error of eta rad/s gives ev = radius*eta and ew = 2*radius*eta/track. Both growth rates are attained.", "quantifier": "both programs; every interleaving; every motion; every error size", "why_tests_cant": "error bound against all differentiable motions, over unbounded histories", "anchors": ["baselines/src/wheel_odometry/wheel_odometry.cpp:Integrate", "baselines/src/wheel_odometry/wheel_odometry.cpp:RunOnce", "ROS/drift/baselines/husky_wheel_odom.cpp", "ROS/drift/baselines/fetch_wheel_odom.cpp", "ROS/drift/src/communication/ros_subscriber.cpp:DifferentialEncoder2VelocityCallback"]}
{"id": "C157", "title": "The covariance of the gyro filter is honest", "statement": "If the estimate of rate and bias is within s claimed standard deviations of the truth, the truth moves by at most kappa standard deviations of the process noise per run (beyond the increments of the propagation gyro), and every measurement used is within nu of its configured standard deviations, then after n runs the estimate is within sqrt(s^2 + n(kappa^2+nu^2)) claimed standard deviations of the truth, in every direction; with exact sensors s never grows. Right after initialisation s is the error divided by the configured initial standard deviations.", "quantifier": "every configuration but several IMUs at once; every interleaving of data, registration and runs; every true motion; every s, kappa, nu", "why_tests_cant": "error ellipsoid invariant over unbounded histories of Kalman updates with real-valued data", "anchors": ["src/imu_filter/imu_ang_vel_ekf.cpp:RunOnce", "src/imu_filter/imu_ang_vel_ekf.cpp:AngVelFilterPropagate", "src/imu_filter/imu_ang_vel_ekf.cpp:AngVelFilterCorrectIMU", "src/imu_filter/imu_ang_vel_ekf.cpp:AngVelFilterCorrectEncoder"]}
{"id": "C158", "title": "The gyro filter forgets old errors", "statement": "While the claimed variances stay below p and the process noise is at least q in every direction, every run multiplies the error, in claimed standard deviations, by at most 1/sqrt(1+q/p) before adding kappa+nu; so with exact sensors and constant bias the errors of rate and bias go to zero exponentially however wrong the initial bias was, and with noise they end below (kappa+nu)/(1-rho) standard deviations. Using the IMU and then the encoders bounds p by the configured noises whatever the covariance was before.", "quantifier": "every configuration but several IMUs at once; every interleaving; every true motion; every initial error", "why_tests_cant": "convergence over unbounded histories", "anchors": ["src/imu_filter/imu_ang_vel_ekf.cpp:RunOnce", "src/imu_filter/imu_ang_vel_ekf.cpp:AngVelFilterPropagate", "src/imu_filter/imu_ang_vel_ekf.cpp:AngVelFilterCorrectIMU", "src/imu_filter/imu_ang_vel_ekf.cpp:AngVelFilterCorrectEncoder"]}
{"id": "C159", "title": "The covariance claimed for a foot covers the errors of the joint encoders", "statement": "If the three joint angles of a leg are off by x, y, z the foot position computed from them is off by at most 0.4785|x| + 0.4165|y| + 0.2075|z| metres. If they are within nu configured encoder standard deviations, and the remaining error of the foot plus 0.72 (nu sigma)^2 is within mu standard deviations of the additive noise, the true foot is within sqrt(nu^2+mu^2) standard deviations of the covariance that the correction uses, in every direction; with the shipped settings within sqrt(2) nu for nu up to 200. That covariance leaves no direction without uncertainty exactly when there is additive noise, or encoder noise and the leg is not singular (knee straight or folded, foot in the plane of abduction axis and hip link). Left and right legs are mirror images, front and hind legs alike.", "quantifier": "all joint angles and errors, all legs, all noise settings", "why_tests_cant": "second-order error bound over a continuum of poses and errors", "anchors": ["src/kinematics/robots/mini_cheetah/p_Body_to_FrontLeftFoot.cpp", "src/kinematics/robots/mini_cheetah/Jp_Body_to_FrontLeftFoot.cpp", "src/filter/inekf/correction/legged_kinematics_correction.cpp:Correct"]}
{"id": "C160", "title": "Three kinematic measurements of a standing foot make velocity and tilt known", "statement": "Without bias estimation, when three turns of the main loop have each used a kinematic measurement, at times t1 < t2 < t3, and all kinematic measurements since then report one leg in contact, the reported variance of the velocity in any direction, and of the roll and pitch error about any horizontal axis, are bounded by the noise of the foot measurement (its covariance at most sigma^2) and by what the configured gyroscope, accelerometer and contact noise add between t1 and t3 at the speed and reach at hand: of the order of sigma over the time between for the velocity, and of sigma over 9.8 times its square for the tilt. Whatever the uncertainty before, the motion, the other legs, and whether the leg had been in contact before; the first of the three may be the touchdown. No velocity sensor is needed.", "quantifier": "all configurations with legged kinematics, all histories before and between, all motions with an estimated speed at most V and a foot at most D away, all directions", "why_tests_cant": "a bound on a covariance for every trajectory, prior, contact pattern of the other legs and history of any length", "anchors": ["src/filter/inekf/propagation/imu_propagation.cpp", "src/filter/inekf/correction/legged_kinematics_correction.cpp", "src/estimator/inekf_estimator.cpp", "src/filter/inekf/inekf.cpp"]}
{"id": "C161", "title": "With velocity measurements the reported position variance grows at most linearly", "statement": "Right-invariant, without bias estimation, with velocity sensors: along a drive in which a velocity measurement is used at least every tau seconds, the reported variance of the position error in any direction is at most (s_p + tau/2 s_v)^2 + T (sigma^2 tau + sg^2 (1.225 tau^2 + V tau/2 + D)^2 + sa^2 tau^2/4), where s_p and s_v are the reported standard deviations of position and velocity at the start in that direction, T is the time since, sigma, sg, sa are the configured standard deviations of the sensors, V bounds the estimated speed and D the estimated distance from the origin: it grows at most linearly with time, whatever the motion, whatever else happens between the measurements and however large the orientation uncertainty is.", "quantifier": "all configurations with velocity sensors, all histories before, all drives of any number of segments, all directions", "why_tests_cant": "a growth law over drives of any length; a test sees one drive", "anchors": ["src/filter/inekf/propagation/imu_propagation.cpp:Propagate", "src/filter/inekf/correction/velocity_correction.cpp:Correct", "src/filter/inekf/inekf.cpp:CorrectRightInvariant", "src/estimator/inekf_estimator.cpp:RunOnce"]}
{"id": "C162", "title": "While there are no corrections the reported covariance covers errors of any size", "statement": "If the error of the estimate, as the filter defines it (the truth is the estimate moved by the exponential of the error), is within kappa reported standard deviations in every direction, the biases are right and the IMU is without error, then every state published until the next correction has an error within kappa reported standard deviations in every direction, with the same kappa: also if the error is large (half a turn of heading, any speed, any distance), after any number of steps. Dead reckoning never makes the filter overconfident by linearisation.", "quantifier": "all motions, all errors of pose, velocity and foot positions of any size, both error conventions, with and without bias estimation, all noise settings, all schedules and numbers of steps", "why_tests_cant": "every error of any size and trajectories of any length; a test sees a few errors, and an ordinary extended Kalman filter would fail it", "anchors": ["src/filter/inekf/propagation/imu_propagation.cpp:Propagate", "src/filter/inekf/propagation/imu_propagation.cpp:StateTransitionMatrix", "src/math/lie_group.cpp:Exp_SEK3", "src/estimator/inekf_estimator.cpp:RunOnce"]}
{"id": "C163", "title": "While a foot stands the reported position is lost no faster than the foot slips", "statement": "Right-invariant, without bias estimation, with a legged kinematic correction: along a walk of n stances, each beginning with the turn of the main loop that ends the one before, each of these turns using a kinematic measurement, and in each stance one leg being reported in contact in all kinematic measurements, the reported standard deviation of the position in any direction w is at the end at most sqrt(P + T (sg^2 D^2 + sc^2)) + 2 n sigma, where P is the variance after the first turn, T the time since then, sigma bounds the configured uncertainty of the kinematics of the standing feet, sg and sc are the configured standard deviations of gyroscope and contacts, and D is the largest estimated distance of a standing foot from the origin of the world. Speed, accelerometer noise and the time between the measurements do not matter.", "quantifier": "all estimators and histories, all numbers and lengths of the stances, all other legs touching down and lifting off in between, all directions", "why_tests_cant": "the claim is about every history of any length and every pattern of contacts", "anchors": ["src/filter/inekf/correction/legged_kinematics_correction.cpp:Correct", "src/filter/inekf/propagation/imu_propagation.cpp:Propagate", "src/filter/inekf/propagation/imu_propagation.cpp:StateTransitionMatrix", "src/filter/inekf/inekf.cpp:CorrectRightInvariant"]}
{"id": "C164", "title": "Rounding errors of the wheel odometry stay small", "statement": "After n pairs of measurements (up to 10^12) the orientation that the wheel odometry computes in double arithmetic is within n * 2^-40 in every entry, and its position in every coordinate within n * 2^-38 times the length of the way driven, of exact dead reckoning of the same measurements from the first of them: one hour at 64 Hz and 7.2 km give at most 7 mm.", "quantifier": "every sequence of pairs with positive stamps within a factor of 2 of each other, with steps of at most 10^9 s that turn by 0 or by between 2e-10 rad and 4 rad; every rounding to nearest, both summation orders, every sine and cosine within 2^-52", "why_tests_cant": "rounding errors accumulate over hours; a test sees a few seconds and needs a reference that is itself rounded", "anchors": ["baselines/src/wheel_odometry/wheel_odometry.cpp:Integrate", "baselines/src/wheel_odometry/wheel_odometry.cpp:RunOnce", "src/math/lie_group.cpp:Gamma_SO3"]}
{"id": "C165", "title": "Rounding errors of the propagated mean stay small", "statement": "Start a world-centric filter without biases at a rotation R0, a velocity and a position, and give it n IMU readings (up to 10^12) but no corrections. In double arithmetic its orientation stays within n * 2^-40 in every entry, its velocity within (n * 2^-38 + 2^-44 / tau) times (initial speed + 18 times the integral of (specific force + 1 m/s^2)), and its position within the same factor times (initial distance + duration times that) plus 2^-44 / tau^2 times 18 times the sum of (specific force + 1) dt^2, of the exact solution of the differential equations of motion with the same readings, where tau is the smallest non-zero angle of a step: one minute of hovering at 100 Hz while turning at 0.5 rad/s gives less than 1 mm/s and 2 cm.", "quantifier": "every sequence of readings whose steps last at most 1 s and turn by 0 or by between tau >= 1e-6 rad and 1 rad; every initial state; every rounding to nearest, both summation orders, every sine and cosine within 2^-52", "why_tests_cant": "the reference is the solution of a differential equation, which a test would itself compute with rounding errors; errors accumulate over millions of steps", "anchors": ["src/filter/inekf/propagation/imu_propagation.cpp:Propagate", "src/math/lie_group.cpp:Gamma_SO3"]}
{"id": "C166", "title": "Gamma_SO3 is accurate in double arithmetic", "statement": "For rotation vectors of doubles with an angle theta between 1e-6 and 1 rad, every entry that Gamma_SO3(w, 1) computes is within 2^-44 / theta, and of Gamma_SO3(w, 2) within 2^-44 / theta^2, of the sum of the documented series; Gamma_SO3(w, 0) is within 2^-44 for every angle from 2e-10 rad and components up to 4 rad.", "quantifier": "every rotation vector in the range; every rounding to nearest, both summation orders, every sine and cosine within 2^-52", "why_tests_cant": "cancellation in theta - sin(theta) and theta^2 + 2 cos(theta) - 2 depends on the angle; a test compares a few angles with a rounded reference", "anchors": ["src/math/lie_group.cpp:Gamma_SO3"]}
{"id": "C167", "title": "The preparation of an IMU reading is accurate in double arithmetic", "statement": "The angular rate that the filter computes from a message in double arithmetic (aligned with the body frame, bias removed) is within (G + Bg) * 2^-47, and the specific force (aligned, bias and the centripetal acceleration at the IMU removed) within (A + Ba + 25 (G + Bg)^2 L) * 2^-45, of the exact values, as vectors; G, A, Bg, Ba, L bound the coordinates of rate, acceleration, biases and lever arm (plus terms below 1e-19).", "quantifier": "every message, mounting and biases within any bounds, mounting matrices with entries up to 1.11 in size; every rounding to nearest, both summation orders", "why_tests_cant": "a continuum of messages and mountings; all roundings", "anchors": ["src/filter/inekf/propagation/imu_propagation.cpp:Propagate"]}
{"id": "C168", "title": "Dead reckoning in double arithmetic stays close to the true motion", "statement": "Let a body move in any way with a specific force of at most A, and let a world-centric filter get n messages of its IMU (up to 10^12) and no corrections. If the messages tell rate and specific force up to eg and ea all the time, then S seconds later what the filter has computed in double arithmetic is off from the true motion by at most n * 2^-40 + dR + eg' S in each entry of the orientation, and by at most the rounding errors of C165 plus dv + ea' S + A (dR S + eg' S^2 / 2) in velocity and dq + dv S + ea' S^2 / 2 + A (dR S^2 / 2 + eg' S^3 / 6) in position, where dR, dv, dq are the initial errors and eg', ea' are eg, ea plus the bounds of C167.", "quantifier": "every motion (rates with jumps allowed), every sequence of messages held for at most 1 s, turning by between 2e-6 and 1/2 rad each or computed as not turning; every mounting with its lever arm, every biases; every rounding to nearest, both summation orders, every sine and cosine within 2^-52", "why_tests_cant": "connects code in double arithmetic with a physical motion; errors of sensors and rounding accumulate over millions of messages", "anchors": ["src/filter/inekf/propagation/imu_propagation.cpp:Propagate", "src/math/lie_group.cpp:Gamma_SO3"]}
{"id": "C169", "title": "The estimate recovers from a measurement that is not a number", "statement": "After an IMU or velocity message with a coordinate that is not a number (NaN), correct messages lead the filter back to an estimate of numbers.", "quantifier": "every state, every faulty message, every continuation of any length, every gain", "why_tests_cant": "any continuation; a test tries a few messages", "anchors": ["src/filter/inekf/propagation/imu_propagation.cpp:Propagate", "src/filter/inekf/correction/velocity_correction.cpp:Correct", "src/math/lie_group.cpp:Gamma_SO3", "src/math/lie_group.cpp:Exp_SEK3", "ROS/drift/src/communication/ros_subscriber.cpp:IMUCallback"]}
{"id": "C170", "title": "Wheel odometry and gyro filter recover from a measurement that is not a number", "statement": "After a message with a coordinate that is not a number (NaN), correct messages lead the wheel odometry back to a pose, and the gyro filter back to an estimate, of numbers.", "quantifier": "every pose and estimate, every faulty message, every continuation of any length, every gain", "why_tests_cant": "any continuation; a test tries a few messages", "anchors": ["baselines/src/wheel_odometry/wheel_odometry.cpp:Integrate", "src/imu_filter/imu_ang_vel_ekf.cpp:AngVelFilterCorrectIMU", "src/imu_filter/imu_ang_vel_ekf.cpp:AngVelFilterCorrectEncoder", "src/imu_filter/imu_ang_vel_ekf.cpp:GyroPropagate"]}
{"id": "C171", "title": "Wheel odometry in double arithmetic stays close to the true motion", "statement": "Joint messages with wheel speeds up to W <= 1000 rad/s are turned into a speed and a turning rate that are, in double arithmetic, within (W + 1e-40) * 2^-50 of what the messages say, and the rate is exactly zero if they say so. If a robot moves in any way in the plane with its rate within ew and its velocity within ev of n messages (up to 10^12, at most d <= 1 s apart), then after the time T the heading that the wheel odometry has computed in double arithmetic is off by at most (ew + W 2^-50) T + n (1e-10 + 2^-40) in every entry of the orientation, and the position in every coordinate by at most (ev + W 2^-50 + V (O d / 2 + n 1e-10)) T + V (ew + W 2^-50) T^2 / 2 + n 2^-38 V T, where V = W / 5 and O = W / 2 bound speed and rate.", "quantifier": "both programs; every sequence of joint messages with positive stamps within a factor of 2 of each other, turns between messages of 0 or of 3e-10 to 3 rad; every motion; every rounding to nearest, both summation orders, every sine and cosine within 2^-52", "why_tests_cant": "error bound against all differentiable motions, with rounding errors that accumulate over unbounded histories", "anchors": ["ROS/drift/src/communication/ros_subscriber.cpp:DifferentialEncoder2VelocityCallback", "ROS/drift/src/communication/ros_subscriber.cpp:DifferentialEncoder2VelocityCallback_Fetch", "baselines/src/wheel_odometry/wheel_odometry.cpp:Integrate", "baselines/src/wheel_odometry/wheel_odometry.cpp:RunOnce"]}
{"id": "C172", "title": "The published quaternion is normalised and right in spite of rounding errors", "statement": "After n IMU readings and corrections (up to 10^9) in double arithmetic, the quaternion that is computed from the orientation for the published pose, again in double arithmetic, is in each component within 3 n 2^-40 + 2^-46 of a unit quaternion of the exact orientation, and the square of its length is within 13 n 2^-40 + 2^-43 of one; in general, for a matrix with entries within e <= 1/1000 of a rotation, within 3 e + 2^-46 and 13 e + 2^-43.", "quantifier": "every history of IMU readings and corrections with turns of 0 or of at least 2e-10 rad and up to 4 rad about each axis; every orientation; every rounding to nearest, all summation orders, every sine and cosine within 2^-52", "why_tests_cant": "rounding errors accumulate over unbounded histories; the conversion has four branches, chosen by the computed matrix", "anchors": ["ROS/drift/src/communication/ros_publisher.cpp:PosePublish", "src/estimator/inekf_estimator.cpp:PoseLoggingThread", "src/filter/inekf/propagation/imu_propagation.cpp:Propagate", "src/filter/inekf/inekf.cpp:CorrectRightInvariant"]}
