# DESIGN: a Lean 4 model of UMich-CURLY/drift

## Layout

* `lean/Verif/Model/*` — the model of the C++ in `/repo`, function by function; every definition cites the file and
  lines it models and says where it simplifies.
* `lean/Verif/Spec/*` — the small vocabulary in which properties are stated (rotation, SE_K(3), PSD, power series,
  strapdown equation, geometry of the legs, merge of queues ...).  It does not mention the code.
* `lean/Verif/Props/*` — only the property theorems (`Cnn_...`) and, beside them, `example`s showing that a concrete
  non-trivial case meets their hypotheses.
* `lean/Verif/Basic/*`, `lean/Verif/Lemmas/*` — run-time sized matrices and helper lemmas.
* `properties.jsonl`, `MANIFEST.json` — generated by `tools/gen_props.py`, `tools/gen_manifest.py`.
* `lean/Verif/Model/MiniCheetahGen.lean` — generated by `tools/gen_kin.py`, which translates the forty machine-written
  C++ files of the Mini Cheetah kinematics assignment by assignment.  `Lemmas/Kin2,Kin3` by `tools/gen_kin_lemmas.py`.
* `seeded/LOG.jsonl` — wrong programs (edits of the model) and the theorems that reject them.

## Trusted base

* Lean 4.33.0's kernel and the three standard axioms `propext`, `Classical.choice`, `Quot.sound` (all that Mathlib's
  reals need); every theorem depends on a subset of these three.  No axioms of our own, no compiled evaluation.
* Mathlib's definitions of ℝ, sin, cos, matrices, determinant, derivative, series.
* The reading of the C++ by which the model was written (nothing was compiled or run), and, for the generated
  kinematics, the translator `tools/gen_kin.py` (it fails on any statement it does not recognise).

### Modelling conventions

* `double` is ℝ, except in the properties about rounding (C126–C132, C164–C168, C171, C172; `Model/Double`, `Model/Rounded`, `Model/RoundedOdo`, `Model/RoundedImu`, `Model/RoundedReading`, `Model/RoundedWheel`, `Model/RoundedQuat`), where it is a binary64 number and
  every operation is rounded to nearest.  Elsewhere rounding is NOT modelled, NaN only in C169 and C170, overflow nowhere; a division by zero
  or an average of an empty list is the outcome `none`.
* `int`, `size_t` are `Int`/`Nat`; overflow is modelled where it decides a property: `factorial` and the loop of
  `Gamma_SO3` (C02, C04), the conversion of a negative `init_bias_size` to `size_t` (C41, C72), the `uint32_t` pose
  counter and its conversion to `int` (C81).
* Undefined behaviour (Eigen block out of range, dimension mismatch, null dereference, read of an uninitialised
  member, inverse of a singular matrix, `front()` of an empty queue, integer division by zero) and exceptions nobody
  catches are the outcome `none` of an `Option` computation.
* `Eigen::Matrix3d`/`Vector3d` are `Matrix (Fin 3) (Fin 3) ℝ` and `Fin 3 → ℝ`; `Eigen::MatrixXd` is `Mat`: run-time
  `rows`, `cols` and entries indexed by ℕ, zero outside.
* `std::queue` is a `List` (front = head); `shared_ptr<int>` is an address in a heap of ints, so aliasing between
  copies of a state is visible (C14, C21).
* Threads: a call of the estimator is one atomic step in `Model/Estimator`; C123 proves that this is justified: every
  interleaving of the critical sections of the main loop with the other threads is explained by a history of whole calls.
  Where interleaving matters each thread is a program counter and each step one lock, unlock or queue operation (wheel
  odometry C74, publisher queue C82, logging thread C99, C100, main loop C123–C125, gyro filter C133, C134). A run of the gyro filter
  is one step in `Model/ImuFilter`; C133 justifies this in the same way. Executions are sequentially consistent; data races (C82, C99, C124) are
  reported as findings, what a compiler might make of them is not modelled.
* YAML files are the record of values that the constructors read (absent keys are `none`); how a file becomes that record, and when reading it throws, is `Model/Yaml` (C147–C150).

### What is modelled

| file in /repo | model |
|---|---|
| `src/math/lie_group.cpp` | all functions, `Model/LieGroup` |
| `src/math/se_k_3.cpp`, `src/state/robot_state.cpp` | all functions except the trivial whole-matrix setters, `Model/RobotState` (covariance setters in `Model/Estimator`) |
| `src/filter/inekf/inekf.cpp` | both corrections, `Model/Inekf` |
| `src/filter/inekf/propagation/imu_propagation.cpp` | constructor, `Propagate`, transition and noise matrices, bias initialisation, `set_initial_state`, `clear`: `Model/ImuPropagation` |
| `src/filter/inekf/correction/*.cpp` | constructors, `Correct`, `initialize`, `clear`: `Model/Correction`; the log of the velocity correction: `Model/VelLog`; its hard-coded path (under `/home/justin`) and the text format are not |
| `src/estimator/inekf_estimator.cpp` and the main loop of `ROS/drift/examples/*.cpp` | everything: `Model/Estimator`, thread creation and destructors in `Model/Lifecycle` and `Model/Shutdown`; the logging thread against `clear()` and the destructor step by step: `Model/LogThread` |
| `src/imu_filter/imu_ang_vel_ekf.cpp` | both constructors, registration, `RunOnce`, initialisation, all four correction methods, `clear`: `Model/ImuFilter`; debug logs are not |
| `src/measurement/*`, `include/drift/measurement/*` | IMU, velocity, angular velocity, odometry, legged kinematics as used: `Model/Measurement`, `Correction`, `RosSub`, `MiniCheetah`; the objects with types, headers and all setters and getters: `Model/MeasObj` |
| `config/*.yaml`, `ROS/drift/config/*.yaml`, reading them | values by section and key, and the reads of every constructor and example: `Model/Yaml`, `Model/Shipped` (generated). Not modelled: the YAML syntax, the text of numbers; sections are assumed to be maps |
| the log files on the disk | three streams with own positions: `Model/LogFiles` |
| `ROS/drift/include/custom_sensor_msgs/*.h` | serialisers of the contact messages, on top of the wire format of the ROS library: `Model/Wire` |
| `src/kinematics/**` | all forty generated functions and the measurement class: `Model/MiniCheetahGen`, `Model/MiniCheetah` |
| `baselines/src/wheel_odometry/wheel_odometry.cpp` | everything, with its threads: `Model/WheelOdometry` |
| `ROS/drift/baselines/*.cpp` with their configuration files | `Model/Baseline` |
| `baselines/python/MEKF/MEKF.py` | conversions, `init_bias`, `propoagate`, `measurement_update`, `save_pose_to_tum`, and the driver loop the file contains as comments: `Model/Mekf`; reading bags and plotting are not modelled |
| `ROS/drift/src/communication/ros_subscriber.cpp` | registration and every callback: `Model/RosSub`; Eigen's matrix logarithm is a parameter |
| `ROS/drift/src/communication/ros_publisher.cpp` | `PosePublish`, `PathPublish`, the queue access step by step: `Model/RosPub` |
| `ROS/drift/examples/*.cpp` with `config/*` and `ROS/drift/config/*` | what `main` of the ten programs sets up, with the shipped settings, and the composition of all components: `Model/System` |

### Not modelled

ROS transport, serialisation of the messages that are not in the repository, the pairing policy of `message_filters`, `ros::Time` rounding to nanoseconds, `tf`,
thread creation, joins and timing, YAML parsing, file contents other than the sequence of rows and the file names, console
output, the (empty) slip publishers, python and Matlab scripts other than the MEKF, test programs.

## Properties

For each: what is modelled and how it is proved.  "false" means that the code does not have the property: the negation is
proved with a concrete reachable witness, and the part that does hold is the `_partial` theorem.

| id | model | proof |
|---|---|---|
| C01 | `Gamma_SO3` with its branches | `A³=-θ²A`, `det` of an explicit 3x3 |
| C02 | `Gamma_SO3` all branches incl. the general loop | closed form = `HasSum` of the documented series for every order up to 20; overflow from 21 on |
| C03 | small branch | tail of the series bounded |
| C04 | `factorial` on a 64-bit accumulator, fuel semantics | case split, monotonicity of n! |
| C05 | Left/RightJacobian | entrywise algebra |
| C06 | `Exp_SEK3` on `Mat` | block lemmas; power series of the hat matrix, any K |
| C07 C08 | `Adjoint_SEK3` | 3x3-block multiplication lemmas, any K |
| C09 | `skew` | algebra |
| C10 | `get_Xinv` | column lemmas, any K |
| C11 | world/body getters | false for body velocity/position |
| C12 C13 | `RobotState` operations, `RemoveRowAndColumn` | induction over operation lists; entry-wise |
| C14 | leg map + heap of shared ints | invariant, induction over operations and over `Correct` calls |
| C15 | `add_aug_state` on Qc | false from the second contact on |
| C16 C17 | accessors with fixed offsets | false with augmentation |
| C18 | `copy_diag_X`, `copy_diag_Xinv` loops | induction on n |
| C19 C20 | SEK3 class | false (swap / 5x5 only) |
| C21 | heap aliasing of copies | false: witness; partial for the last column |
| C22 | `clear` | computation |
| C23–C31 | `CorrectRightInvariant`, `CorrectLeftInvariant` | `Mat` algebra: Joseph form, congruence, Schur complement; C30 false |
| C32 C33 | mean propagation | derivative of Γ_m(w t) t^m and uniqueness of ODE solutions; additivity |
| C34–C37, C39, C40 | `Propagate`, Φ, Qd | block algebra, any K, both error types |
| C38 | Φ small-rate branch | false (integer division): limit computed |
| C41–C44 | `InitImuBias` as step function | induction on calls; C44 false for the default |
| C45–C47 | `InitState`, `initialize`, `set_initial_state` | step semantics; C46, C47 false in general |
| C48–C50 | velocity queue logic and update | induction on the queue; C49 false |
| C51–C54, C59 | legged `Correct` | induction on legs; C52 false |
| C55 | Φ | variation of constants: explicit solution of the linear error equations, uniqueness of ODE solutions; rate ≥ 1e-6 or no gyro-bias error (the small-rate branch is C38) |
| C94 | Φ and mean propagation | group algebra of `Exp` and Γ: `X̂ = Exp(ξ)X ⇒ X̂' = Exp(Φξ)X'`, any size of ξ |
| C95 | the whole estimator | invariant `Low`: `P ⪰ N D Nᵀ` with `N` the unobserved directions (heading, common shift); preserved by Φ, Joseph update (`H N = 0`), augmentation, deletion, initialisation; induction over histories; left case through C60 |
| C96 | `DiscreteNoiseMatrix`, `Propagate` | quadratic forms: `xᵀP'x = (Φᵀx)ᵀP(Φᵀx) + dt·noiseRate(channels)`; configured values by induction over histories |
| C97 | `CorrectRightInvariant` | completion of squares: `errCov L - errCov G = (L-G) S (L-G)ᵀ`, `S` PD gives minimality and uniqueness; spec `MinVar` quantifies over all gains |
| C98 | estimator | simulation between two runs with related event lists: Kalman update, contact add/remove, propagation and initialisation commute with a turn of the world frame; right-invariant case through adjoint-related left states; counterexample by running the model |
| C99 C100 | logging thread, `RunOnce`, `clear()` and destructor step by step | two inductive invariants over all interleavings (lock ownership, files, order, spacing; log = rate-limited prefix); progress by a rank; counterexamples are schedules |
| C101 C102 | the estimator model unchanged | every function commutes with moving all time stamps (`later`), shown through a state with replaced stamps (`clk`); estimators that differ only in the rows written are related step by step; invariant: every stamp in the system is that of an arrival |
| C103 | `KinMeas.obj`, `legOf` (Model/System): the kinematic object the callback fills, as the legged correction reads it | composition of the callback (C88), `ComputeKinematics` (C93), the Jacobian (C85) and the initial velocity (C87) |
| C104 | Model/System: `Program` (topics, filter, estimator, publisher as `main` of each example sets them up with the shipped yaml files), `System.step` (one event of any thread) | invariant of the composed system: each component is in a state in which its own no-crash theorem applies (C58, C71, C86, C89), the IMU buffer is sorted, and each queue of the subscriber is connected to a consumer of its type; checked for each of the ten programs |
| C105 | the same | the invariant also says that every pending or published state is a valid estimate whose stamp is in the set of received stamps; the published covariance is a 6x6 block of a positive semidefinite matrix |
| C106 | the same; specification: what a message means to the consumers of its topic (`reaches`, `heard`), without queues | refinement: by induction over the history the composed system follows, event by event, one history of the estimator (and one of the filter); every queue between components is empty after each event, so pumping is the identity of sequences; the publisher part is C90 |
| C107 | the estimator as transition system; specification: `Spec/Startup` (how many samples, which measurement serves what) | a phase invariant (collecting samples, ready, waiting for corrections, running) that accounts for every IMU measurement; a measure `togo` that each turn decreases once the data are there; the shipped programs by C106's decomposition |
| C108 | the estimator as transition system; specification: `Spec/Late` (total orientation variance) | the orientation rows of the transition matrix are a rotation, so the step preserves the trace and adds `3 σ² dt` (C96); induction over the history |
| C109 | as C108, with a stamp earlier than the estimate | false: C108 with a negative step gives a negative variance; with sorted stamps C58 |
| C110 | the two baseline programs: callback and main loop step by step, `Model/Baseline`; specification: `Spec/DiffDrive` (planar dead reckoning) | every run is an execution of the wheel odometry threads (C74); the Rodrigues formula of a vertical axis; induction over the readings |
| C111 | as C110; specification: a differentiable path with piecewise constant speed and rate | `‖f'‖ ≤ B'` implies `‖f‖ ≤ B` on each interval, accumulated by induction |
| C112 | gyro filter histories of C65-C73 without consumer (the output queue then holds everything produced) | the output queue is only appended to (frame lemma `runOnce_pre`); invariant: queues sorted between the last output and the last arrival; negation by two parametric witnesses |
| C113 | `rot2quat`, `quat2rot` of the python MEKF; `np.copysign` with a vanishing second argument is positive | polynomial identities of rotation matrices (shared with C89); exact characterisation of the exceptions; witness: the driver's mounting |
| C114 | `propoagate`, `measurement_update` on 9x9 matrices, the driver loop as a fold | Joseph form (shared with C65), exponential of a skew matrix is a rotation, induction over the log |
| C115 | `measurement_update`; specification `Spec/Mekf`: derivative along every error direction, covariance of an arbitrary linear update | derivative of the matrix exponential; completing the square |
| C116 | `propoagate`; specification `IsStepJac` | at rate zero the generator is nilpotent; intertwined matrices have intertwined exponentials; witness: a full turn |
| C117 | `measurement_update` | C113, C115 |
| C118 | `init_bias` and the loop over a constant log | induction over the time steps, closed form |
| C119 | the scheduling of the driver (`plan`) | induction over the IMU rows; parametric witness for the lag |
| C120 | `save_pose_to_tum` | indices of a strided list |
| C121 | `propoagate` with Python indexing and module globals | unfolding |
| C122 | `read_imu`, `read_husky` and the (commented-out) driver with its Husky settings, from messages to file rows; the file format of numbers and the printed frequencies are not modelled | C119 (rows of the driver) and C120 composed; exact condition of failure |
| C123 | `Model/Threads`: every call cut into its critical sections, mutexes, other threads; one work step per critical section | left/right movers: each step of the main thread commutes with accesses to other queues; simulation by induction over the execution |
| C124 | the same | lock invariant; commutation; witness for the unlocked `empty()` |
| C125 | the same | measure (remaining sections + queued measurements) that only arrivals increase; parametric witness |
| C126–C128 | `Model/Double`: stamps, differences and `fromSec` with rounding; binary64 numbers and every rounding to nearest in `Spec/Double` | monotone rounding, half-ulp bound, Sterbenz' lemma; parametric witness for collisions |
| C129 | decimal output with 17 digits (`Printed`) | separation of binary64 numbers |
| C130 | `Model/Rounded`: `Gamma_SO3(., 0)`, rotation part of `Exp_SEK3`, the products of propagation and correction, every operation rounded | backward error: computed factor = matrix that preserves lengths up to 90u + entrywise error 40u; induction with the factor 1 + 2^-43 per step |
| C131 | `Model/Rounded`: `Phi35L` operation by operation | exact: derivative bounds; binary64: every rounding of one evaluation proved (`Lemmas/RoundWit`, generated by `tools/gen_round.py`) |
| C132 | `Model/Rounded` as C130; `Spec/Rotation`: the same steps with `NormedSpace.exp` | forward error of the factor (500u per entry) + exact rotations preserve the Frobenius norm of the accumulated error; induction |
| C133, C134 | `Model/GyroThreads`: a run of the gyro filter and `clear` cut into their critical sections; `Spec/GyroThreads`: traces, histories of whole runs | left movers: an access to a queue the run does not look at any more commutes with the rest of the run, one it has yet to look at with the part done; invariant over the execution; a rank bounds the sections of a run; two interleavings for the falsity of C134 |
| C135 | `Model/Shutdown`: `Model/System` with `ros::ok()`, the states of the threads and the destructors run by the main thread | invariant: which actions of the destructors are done; a measure that every round decreases; `InitState` without data is a trap; definedness from C104's invariant, message by message |
| C136 | `Model/Lifecycle`: `std::thread` as a joinable flag, constructors, start functions and destructors | induction on the number of calls |
| C137 | `Model/VelLog`: `Correct` with the line it writes | algebra of rotations; witness with a covariance that couples heading and speed |
| C138 | `Model/Estimator`; a true motion and readings without error are `Spec/Perfect` | induction over the history with the invariant "the estimate is the truth at the propagation time" (C32, C50); both falsities by a computed run from the constructor |
| C139 | `Model/Inekf`, `Model/Correction` | the update has the minimum-variance gain (C97); comparing it with the gain that replaces the estimate of the measured combination by its measurement gives the noise bound, with gain 0 the prior bound; blocks of `H P Hᵀ` for the velocity and the contacts |
| C140 | `Model/Estimator` | `initialize` of a correction depends on its newest measurement only and empties the queue: induction over the corrections; the falsity by two runs that are equal after `InitState`; `C140_repository_test` runs `tests/velocitycorrection_test` in the model (strapdown solutions, C32) |
| C141 | `Model/MeasObj`, `Spec/MeasObj` | the objects with type, header and members, and all public setters; induction over the sequence of calls (`run_ind`) with `Latest` as the specification; falsity by witnesses; the repository's measurement tests as examples |
| C142 | `Model/Wire` | writers and readers over byte lists (`BitVec 8`); each reader inverts its writer and the reverse; the wire format of the primitives is that of the ROS library (assumed, not in the repository) |
| C143 | `Model/Wire`, `Model/RosSub` | the entries with their ids are projected to what the callback reads; falsity by a witness, exact condition by uniqueness of the ids |
| C144 | `Model/Measurement`, `Model/LieGroup` | half-angle formulas against the series of the exponential (`gamma_series`) |
| C145 | `Model/ImuPropagation`, `Model/Correction`, `Model/Estimator` | true motion and feet (`Spec/Walk`); the innovation of every stance leg is zero, so the update leaves the mean (C25), new columns are `p + R foot` (C59); induction over histories |
| C146 | `Model/Correction`, `Model/Estimator` | witness history; for all queues: what is dropped has no effect on the references |
| C147 | `Model/Yaml`, `Model/Shipped`, `Spec/Settings` | a file is a map from section and key to value; the reading code per class; congruence in the keys that are read, a pair of files for each of them; the shipped files are generated by `tools/gen_yaml.py` |
| C148 | `Model/Yaml`, `Model/ImuPropagation`, `Model/Correction` | `RᵀR - 1 = 4 (1 - n) V²` for the matrix of a quaternion; witness: the estimate follows the exactly solved motion with the wrong acceleration (C138) |
| C149 | `Model/Yaml`, `Model/Shipped`, `Spec/Settings` | for every file: the reader fails exactly when one of its conversions does; the shipped files are evaluated |
| C150 | `Model/Estimator`, `Model/LogFiles` | names from C63; the number after the last underscore can be read back; induction over rows with three write positions |
| C151 | `Model/Estimator`, `ImuPropagation`, `Correction` (right-invariant, velocity sensors, no bias estimation) | a linear function (a, b) of the rotation and velocity error: one IMU step pulls it back to (a + dt [g]ᵀ b, b) plus noise, one velocity correction allows any change of b at the price of the sensor noise (C97: the update is optimal); choose b so that the rotation part is 0 at the first measurement; induction over the history between |
| C152 | `Model/ImuPropagation`, `Estimator`; `Spec/DriftRate` (any motion with right derivatives, readings with bounded error) | the step is the exact strapdown solution for the held reading (C32), or the one with rate 0 inside the tolerance; the difference of two motions has a bounded derivative (orientation: R̂ Rᵀ y turns with the rate error; velocity; position), integrated with the mean value inequality; induction over the history; equality for an unnoticed acceleration |
| C153 | `Model/ImuFilter`; `Spec/GyroOpt` | completing the square: the error covariance of a gain G is that of the Kalman gain plus (G - K) S (G - K)ᵀ; what a run does is read off from what it consumed and put out |
| C154 | `Model/ImuFilter` | compare the optimal gain with the one that moves only the rate, or only the bias; variances in a fixed direction fall with corrections and grow with the process noise: induction over the history. Lower bounds: a matrix N with H N = 0 stays below the covariance |
| C155 | `Model/ImuFilter` | invariant "estimate = truth" for all data delivered (corrections with innovation 0 on the measured axes change nothing); false: closed formulas for the first output while the covariance is still diagonal |
| C156 | `Model/WheelOdometry`, `Baseline` | per-interval mean value inequality in the plane (heading within e + (ω+εω)t of the one used), induction over the readings; wheel errors through the joint callbacks; closed-form motions attain both growth rates |
| C157 | `Model/ImuFilter` | error ellipsoid: `|z·e| ≤ s √(z·Pz)` for all z is kept by prediction and by the Joseph update (each adds its own noise in quadrature), induction over an inductively defined history that carries the true rate and bias. Not for the configuration with several IMUs, where one run makes several updates |
| C158 | `Model/ImuFilter` | the same ellipsoid with the prediction step as a strict contraction: P + Q ≥ (1 + q/p) P when P ≤ p; the bound p comes from C153/C154. A registered propagation gyro without data adds no process noise, so such runs are excluded |
| C159 | `Model/MiniCheetah(Gen)`, `Correction.footCov` | the foot as a sum of links, first and second derivative along the straight joint motion bounded by Cauchy–Schwarz, Taylor bound; root-sum-square with the additive noise; closed form of the determinant of the Jacobian |
| C160 | `Model/Estimator`, `ImuPropagation`, `Correction` (right-invariant, legged kinematics, no bias estimation) | a linear function of the errors of rotation, velocity, position and foot in which the last two have opposite weight: one IMU step pulls the weights back by the gravity coupling, plus noise bounded through speed and reach; one kinematic measurement of the foot allows any change of the last weight at the price of the foot covariance (C97); making, moving and removing columns of other legs keeps it; choose the weights so that all vanish before the first measurement; induction over the histories between |
| C161 | `Model/Estimator`, `ImuPropagation`, `Correction` (right-invariant, velocity sensors, no bias estimation) | the variance of `c·position + β c·velocity`: at each measurement the velocity weight is changed from β to −T/2 (T the time since the previous one) at the price of the sensor variance (C97: no gain does better than the optimal one), so that one step back over T turns it into +T/2 and the weight of the orientation cancels; IMU noise bounded through speed and distance; induction over the segments, then the triangle inequality for standard deviations at the start |
| C162 | `Model/ImuPropagation`, `Estimator` | the log-linear property (C94) moves the error by the leading block of the transition matrix that C96 uses for the covariance; a linear function of the new error is its pull-back applied to the old one, the noise only adds variance; the propagation of the moved state is the truth (C32); invariant over histories without corrections. Example: a robot that drives faster than its filter was told, by any amount |
| C163 | `Model/Estimator`, `ImuPropagation`, `Correction` (right-invariant, kinematics, no bias estimation) | the variance of the position of a standing foot in the world: the transition matrix leaves it as it is, an IMU step adds contact noise and gyroscope noise times the distance from the origin, a correction does not raise it (C97), removing and adding other contacts leaves it unchanged under renumbering; a turn that uses a measurement ties body and foot together to σ (Stand lemmas of C160); triangle inequality for standard deviations at the ends of each stance, induction over stances |
| C164 | `Model/RoundedOdo` (the steps of `RunOnce`/`Integrate` of the wheel odometry with every operation rounded), `Spec/RoundedOdo` (`wayLen`, `Steps`, `Stamped`); `Reckons` of `Spec/Wheel` is the reference | invariant over the messages: orientation error by C132, and position error at most `k · 2^-38 · (way so far)` after `k` messages; each step adds the error of the direction (`3 k 2^-40`) times the step, the errors of product and sum |
| C165 | `Model/RoundedImu` (`Gamma_SO3(., 1)`, `Gamma_SO3(., 2)`, the world-centric mean of `Propagate`, every operation rounded; bias-corrected rate and force are inputs), `Spec/RoundedImu` (`Flown`: a chain of solutions of `Spec/Flow`'s differential equations; `duration`, `push`, `push2`) | invariant over the readings with accumulated bounds on the exact speed and distance; each step adds the errors of orientation (C132), of Γ1 and Γ2 (C166), of gravity, products and sums; the exact step is the closed form of the unique solution |
| C166 | `gamma0`, `gamma1`, `gamma2` of `Model/Rounded`, `Model/RoundedImu` against the series of C02 | errors of norm, quotients and powers, then of the coefficients times the powers of θ that keep them bounded, then of the sum |
| C167 | `Model/RoundedReading` (`rateF`, `forceF`: lines 148-157 of `Propagate`, every operation rounded), `Spec/RoundedReading` (`Raw.rate`, `Raw.force`: the same without rounding) | errors of product, difference and the two cross products, entry by entry |
| C168 | as C165 and C167 (`NavF.runRaw`); the true motion is `Truth.Moves` of `Spec/DriftRate`, the messages `Tells` | triangle inequality: double arithmetic against the exact solution for the computed readings (C165), that solution against the truth (the interval lemma of C152, induction over the readings), computed against exact readings (C167) |
| C169 | `Model/NotANumber` (a `double` is a number or NaN, every operation with a NaN gives NaN, comparisons are false; mean and biases of a world-centric state without contacts; the gain of each correction is an arbitrary matrix) | NaN spreads over rows and columns of products; two absorbing sets of states, induction over the messages; conversely, numbers are closed under every operation |
| C170 | `Model/NotANumber2` (`Integrate` of the wheel odometry; `GyroPropagate` and the two corrections of the gyro filter, gains arbitrary) | as C169 |
| C171 | `Model/RoundedWheel` (the two differential-drive callbacks with every operation rounded), then `Model/RoundedOdo`; the messages without rounding are `BaseProg.reading` (C110), the motion `NearlyDrives` (C156) | rounding errors of the callbacks operation by operation (both are zero together for a straight drive, as equal sums round equally); the computed readings then describe the motion up to a slightly larger error, so the slip bound of C156 applies to exact dead reckoning of them, and C164 bounds the distance of the computed pose from that |
| C172 | `Model/RoundedQuat` (Eigen's conversion of a matrix to a quaternion with every operation rounded), after `RotOp.run` (C130) | some unit quaternion represents the exact orientation; the component whose root is taken is at least 0.49 in size, whichever branch the computed matrix selects, so that the errors of root and quotients stay small; with C132 for the orientation |
| C56–C58 | estimator as transition system | invariants by induction on event lists |
| C60 | two estimators, one per error type | relational invariant by induction on event lists |
| C61 | `SlipEstimatorStep` | algebra |
| C62–C64 | logger, file-name functions | induction; C63 in part, C64 false |
| C65–C73 | `ImuAngVelEKF` as transition system | invariants over histories; C66, C68, C69, C72, C73 false in part |
| C74 | `RunOnce` and encoder callback step by step | inductive invariant over all interleavings: mutual exclusion, pairing, no deadlock, progress |
| C75 C76 C78 | `WheelOdometry` sequentially | induction over measurements; C75 false |
| C77 C79 C83 C84 C86 C88 | ROS callbacks and registration | algebra; history induction with ghost record of deliveries; C83, C86 false |
| C80 C81 C89 C90 | publisher messages | history induction; `Quat.ofRot` inverts `toRot`; C80 false, C81 false after 2^31 |
| C82 | queue access step by step | inductive invariant; false with `clear()` |
| C85 C91 C92 | generated kinematics | normal form of every function = geometry of `Spec/Kinematics`; `HasDerivAt` |
| C87 C93 | `MiniCheetahKinematics` | algebra over C85, C91 |

## Findings

Deviations between the documented/expected behaviour and the code, each a theorem:

1. `get_body_velocity`/`get_body_position` of a world-centric state return `R^T v`, `R^T p`, not the columns of the
   inverse matrix `-R^T v`, `-R^T p` returned by `get_body_X` (C11).
2. `add_aug_state` copies only `dimX` rows of the noise covariance instead of the group block: adding a contact zeroes the
   process noise of the previous one (C15).
3. Bias covariance accessors use the fixed offsets 9 and 12, wrong as soon as a column is augmented (C16, C17);
   `get_aug_bias` ignores its index.
4. A state built from `SEK3(R,p,v)` has velocity and position exchanged (C19); `SEK3::inverse` works for K = 2 only (C20).
5. Copies of a state share the column numbers: `del_aug_state` on a copy corrupts the running filter (C21).
6. `CorrectLeftInvariant` maps the covariance the wrong way round in one setting (C30).
7. `Phi25`/`Phi35` in the small-rate branch are zero because `1/2`, `1/6` are integer divisions (C38).
8. Static bias initialisation with the default `init_bias_size` divides by zero (C44); a negative size waits for ever (C41).
9. The initial velocity ignores scale and mounting rotation of the velocity sensor (C46), the initial orientation ignores
   the IMU mounting rotation (C47).
10. After stale velocity measurements are dropped, the next one is applied even if it is in the future (C49); too-new
    kinematic measurements are reported but processed (C52).
11. `++init_count_` is evaluated once per log file, so the files of one session carry three different numbers (C63); a dot
    in a directory name truncates the log path (C64).
12. Gyro filter: a stale front blocks the single-IMU filter for ever (C66); the first of several IMUs is ignored (C68);
    stale measurements duplicate outputs (C69); several configurations are undefined or silent (C72, C73).
13. Wheel odometry rebuilds its state from `Ones(5,5)` (C75); a first stamp of 0 drops motion (C76).
14. The published pose covariance is that of (rotation, velocity) (C80); the path skips poses after 2^31 publications, and a
    pose rate below the path rate is a division by zero (C81); the publisher's unlocked `empty()` races with `clear()` (C82).
15. All odometry sources share the mounting transform of the last registration (C83).
16. An IMU message whose orientation is not normalised terminates the program (C86).
17. `MiniCheetahKinematics()` leaves the joint velocities empty: `get_init_velocity` on it is undefined (C87).
18. `InitImuBias` composes mounting rotation and IMU orientation in the wrong order: with both in use the estimated biases
    depend on the heading (C98).
19. The destructor discards states that are still queued for the log; `clear()` reopens the log files while the logging thread
    may be writing: rows in the wrong session, torn or lost rows, a data race (C99, C100).
20. The logger compares with `last_pub_t_ = 0` before anything was logged: states stamped earlier than one logging period are not
    logged (simulated time that starts at 0), and the log depends on the origin of time (C101).
21. Shipped configurations: `mini_cheetah` writes poses and velocities to the same file; its key `contact_std` is read by nobody (the
    code reads `contact_noise_std`), and its publisher is constructed without the configuration file; the mounting quaternion
    `[0, 0.7071, -0.7071, 0]` of the husky programs is not normalised, so the mounting matrix is not a rotation (Model/System).
22. `Propagate` does not check the sign of the time step: an IMU measurement stamped earlier than the estimate is integrated over
    a negative step, process noise is subtracted, and a covariance with a negative variance is published (C109).
23. `husky_wheel_odom` subscribes to an IMU topic and never reads the queue: memory grows without bound, and an IMU message with an
    orientation that is not normalised terminates a program that does not use it (C110).
24. The gyro filter merges IMU and angular velocity measurements only among those already queued, and takes one measurement of
    every queue per iteration when there are several IMUs: its outputs can go back in time although every sensor delivers in
    order (C112), and an output that goes back in time makes the estimator's covariance invalid (C109, finding 22).
25. MEKF baseline: `rot2quat` takes signs from the antisymmetric part, which vanishes for half turns: orientations half a turn about
    an axis with coordinates of different signs (the Husky mounting among them) are replaced by another half turn, at every step
    (C113, C117).
26. MEKF baseline: `init_bias` removes 9.8 along the sensor's z axis, `propoagate` 9.81 along the world's (and ignores its argument
    `g`): a robot at rest accelerates in the estimate, by 0.01 m/s^2 for an identity mounting and 19.61 m/s^2 for the Husky's (C118).
27. MEKF baseline: `propoagate` reads module variables that only the commented-out driver assigns (C121); the driver uses at most one
    velocity row per IMU row and falls behind a faster velocity sensor without bound (C119); the transition matrix is not the
    derivative of the step it belongs to (C116).
28. `set_initial_state` and both `initialize` functions test `empty()` of a queue without its mutex while a callback may be
    pushing: a data race in every program that starts while data arrive (C124). `Correct` keeps dropping stale measurements as
    long as they arrive: a late and fast sensor can hold up `RunOnce` without bound (C125).
29. Stamps go through a `double` of seconds since 1970, which resolves 240 ns: messages closer than 120 ns can get the same stamp
    (C126; for odometry messages that is a division by zero, C104), and a published pose does not carry the stamp of the
    measurement it belongs to (C128).
30. `StateTransitionMatrix` evaluates `Phi35L` by formulas whose numerators cancel (e.g. `6x^2 + 16cos x - cos 2x - 15`, divided by
    `8 theta^6`); the series is only used below 1e-6 rad/s (and is `0` there, C38).  In double arithmetic the block is wrong by orders of
    magnitude for rates up to about 1e-4 rad/s, that is, for a robot standing still: at 6e-6 rad/s the coupling of position with
    gyroscope bias is -9.6 instead of 8e-7 (C131_false).  It enters the covariance when bias estimation is enabled.
31. `ImuAngVelEKF::clear` (called by `InekfEstimator::clear` while the filter thread runs) empties queues whose front the filter
    thread may just have read: with the IMU + angular velocity and the angular velocity method the thread then calls `pop()` on an empty
    `std::queue`, or discards a measurement that arrived after `clear` and puts out one from before (C134).
32. `InekfEstimator::InitState` loops until every correction has delivered a first measurement and does not look at `ros::ok()`:
    a program that is stopped with Ctrl-C while it waits there (no velocity messages, wrong topic name) never ends, because no more
    messages arrive after the shutdown (C135).
33. `~ImuAngVelEKF` joins its thread without asking whether it was started (the other destructors ask): a filter that is constructed but
    not started terminates the program. The default constructor of `InekfEstimator` leaves `enable_pose_logger_` uninitialised, which the
    destructor reads. A second call of a function that starts a thread terminates the program (C136). The constructor of `ROSPublisher`
    without a configuration file (used by `mini_cheetah.cpp`) has a parameter `enable_slip_publisher_` that hides the member of that name: the
    member stays uninitialised and the publishing thread reads it (what it guards is empty).
34. `VelocityCorrection::Correct` writes the corrected velocity into its log turned by the orientation from before the correction (the local
    variable `R` is read before `CorrectRightInvariant`): the logged value is neither the old nor the new estimate in the frame of the
    sensor (C137). The path of the log file is hard-coded.
35. A measurement that is older than the propagation time is applied to the estimate as if it had been made then, and the result gets the stamp
    of the measurement: with perfect sensors on a robot that drives straight ahead the published pose is not the pose at its stamp, and on a
    robot that accelerates an estimate that was exact is made wrong (C138). Exact without corrections, and at the propagation time if the
    velocity in the body frame is constant.
36. `InitState` discards every queued velocity (or kinematic) measurement but the newest, while it takes one IMU measurement, the oldest: of the
    measurements queued before the start none is used for a correction, even if it is newer than the IMU measurement the filter starts
    from (C140). The repository's own test of the velocity correction queues everything before `InitState`, so no velocity correction
    happens in it: it passes whatever velocities are queued before the last one (`C140_repository_test`).
37. `LeggedKinematicsMeasurement`'s constructor from values does not set the type: a `MiniCheetahKinematics` constructed from encoders and
    contacts says `EMPTY` (C141). Printing a measurement gives "UNKNOWN" for angular velocities and odometry. `OdomMeasurement::set_translation`
    and `set_rotation` do not change the transformation until `set_transformation` is called. `tests/jointstatemeasurement_test` expects the
    number 4 for `JOINT_STATE`, which is 5 since `ANGULAR_VELOCITY` was inserted.
38. `MiniCheetahKinCallBack` ignores the `id` of the entries of a contact array and goes by their position: a publisher that lists the legs in
    another order makes the filter use swinging feet as fixed points (C143).
39. Kinematic measurements that are older than the threshold are dropped without a look at their contacts: a foot that was lifted and put down
    elsewhere meanwhile keeps its column, and the difference of the two places is taken for an error of the estimate (C146; it takes a delay of more
    than `correction_time_threshold`).
40. Settings that are ignored (C147): `contact_std` in `config/mini_cheetah/legged_kinematics_correction.yaml` (the code reads `contact_noise_std`, so the
    contact noise is the default 0.1 whatever the file says); `init_bias_size` of the gyro filter when it is built by the estimator (`add_imu_ang_vel_ekf`);
    `init_bias_using_orientation_est_from_imu`, `use_imu_ori_est_init_bias` and `decaying_rate` of the IMU propagation. `examples/mini_cheetah.cpp` does
    not pass the communication file to the publisher: the path is published with the default rate 10, not with the 100 of the file.
41. `rotation_imu2body` in the husky files is `[0, 0.7071, -0.7071, 0]` and in the neya files `[0.7071068, 0, 0, 0.7071068]`; the constructors turn the
    quaternion into a matrix without normalising it, so the readings are also scaled. A husky that stands still, with a perfect IMU, is estimated to
    fall with 0.00038 m/s² (C148).
42. `config/mini_cheetah/inekf_estimator.yaml` gives one file name for the pose log and the velocity log; each stream has its own position in the
    file and the rows of the velocity overwrite those of the pose (C150).
43. The gyro filter adds the increment of the propagation gyro to the rate, starting from a previous reading of 0: the first sample enters with its
    bias. At rest, with the right bias in the configuration and exact sensors, the first output is a fraction
    of the bias instead of 0 (C155; not with static initialisation when gyro samples arrive during it).
44. Nothing in the program looks for values that are not numbers. One IMU or velocity message with a NaN spoils the estimate for good: no message leads
    back to numbers, only `clear()` does (C169). The same holds for the pose of the wheel odometry and the estimate of the gyro filter (C170).
