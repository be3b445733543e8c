import Verif.Model.Inekf
import Verif.Model.Measurement

/-!
# Model of `src/filter/inekf/propagation/imu_propagation.cpp`

The buffer is the list of queued measurements (front = head).  Each member function is one atomic
step: the code holds the buffer mutex while it touches the buffer (except one `empty()`; atomicity is proved in
Props/Threads, C123).
`none` is undefined behaviour (null pointer, Eigen size error) or a division by zero giving NaN.
-/
namespace Drift
open Mat Matrix RobotState

/-- src/filter/base_propagation.cpp:23, 32 `g_` -/
noncomputable def gravity : V3 := ![0, 0, -9.80]

/-- include/drift/filter/inekf/propagation/imu_propagation.h:194-233: the members -/
structure ImuProp where
  errorType : ErrorType
  buffer : List ImuMeas
  prev : Option ImuMeas
  R_imu2body : M3
  t_imu2body : V3
  bg0 : V3
  ba0 : V3
  gyroCov : M3
  accelCov : M3
  gyroBiasCov : M3
  accelBiasCov : M3
  enableBias : Bool
  staticInit : Bool
  useImuOri : Bool
  biasInitialized : Bool
  initBiasSize : ℤ
  biasInitVec : List (V3 × V3)

/-- The YAML file as read by the constructor: absent keys are `none`; sequences are lists. -/
structure ImuPropConfig where
  static_bias_initialization : Option Bool := none
  init_bias_size : Option ℤ := none
  use_imu_ori_to_init : Option Bool := none
  rotation_imu2body : Option (List ℝ) := none
  gyroscope_std : Option ℝ := none
  accelerometer_std : Option ℝ := none
  gyroscope_bias_std : Option ℝ := none
  accelerometer_bias_std : Option ℝ := none
  gyroscope_bias : Option (List ℝ) := none
  accelerometer_bias : Option (List ℝ) := none
  enable_imu_bias_update : Option Bool := none
  translation_imu2body : Option (List ℝ) := none

/-- `Eigen::Vector3d(v[0], v[1], v[2])` for a `std::vector`; too short is undefined -/
def vec3? (l : List ℝ) : Option V3 := do
  let x ← l[0]?
  let y ← l[1]?
  let z ← l[2]?
  some ![x, y, z]

/-- `Eigen::Quaternion(v[0], v[1], v[2], v[3])` for a `std::vector` -/
def quat? (l : List ℝ) : Option Quat := do
  let w ← l[0]?
  let x ← l[1]?
  let y ← l[2]?
  let z ← l[3]?
  some ⟨w, x, y, z⟩

namespace ImuProp

/-- imu_propagation.cpp:31-119: constructor.  Buffer and mutex are shared with the caller; the
buffer contents are a parameter. -/
noncomputable def ctor (buffer : List ImuMeas) (et : ErrorType) (c : ImuPropConfig) : Option ImuProp := do
  let q ← quat? (c.rotation_imu2body.getD [1, 0, 0, 0])
  let gs := c.gyroscope_std.getD 0.1
  let as := c.accelerometer_std.getD 0.1
  let gbs := c.gyroscope_bias_std.getD 0.1
  let abs := c.accelerometer_bias_std.getD 0.1
  let bg ← vec3? (c.gyroscope_bias.getD [0, 0, 0])
  let ba ← vec3? (c.accelerometer_bias.getD [0, 0, 0])
  let t ← vec3? (c.translation_imu2body.getD [0, 0, 0])
  some
    { errorType := et
      buffer := buffer
      prev := none
      R_imu2body := q.toRot
      t_imu2body := t
      bg0 := bg
      ba0 := ba
      gyroCov := (gs * gs) • (1 : M3)
      accelCov := (as * as) • (1 : M3)
      gyroBiasCov := (gbs * gbs) • (1 : M3)
      accelBiasCov := (abs * abs) • (1 : M3)
      enableBias := c.enable_imu_bias_update.getD false
      staticInit := c.static_bias_initialization.getD true
      useImuOri := c.use_imu_ori_to_init.getD false
      biasInitialized := false
      initBiasSize := c.init_bias_size.getD 0
      biasInitVec := [] }

/-- imu_propagation.cpp:266-283: `Phi25L`, general formula -/
noncomputable def phi25Gen (w a : V3) (dt : ℝ) (G0t G2t : M3) : M3 :=
  let ax := skew a
  let wx := skew w
  let wx2 := wx * wx
  let θ := norm3 w
  let x := θ * dt
  G0t * (dt ^ 2 • (ax * G2t)
    + ((Real.sin x - x * Real.cos x) / θ ^ 3) • (wx * ax)
    - ((Real.cos (2 * x) - 4 * Real.cos x + 3) / (4 * θ ^ 4)) • (wx * ax * wx)
    + ((4 * Real.sin x + Real.sin (2 * x) - 4 * (x * Real.cos x) - 2 * x) / (4 * θ ^ 5)) • (wx * ax * wx2)
    + ((x ^ 2 - 2 * (x * Real.sin x) - 2 * Real.cos x + 2) / (2 * θ ^ 4)) • (wx2 * ax)
    - ((6 * x - 8 * Real.sin x + Real.sin (2 * x)) / (4 * θ ^ 5)) • (wx2 * ax * wx)
    + ((2 * x ^ 2 - 4 * (x * Real.sin x) - Real.cos (2 * x) + 1) / (4 * θ ^ 6)) • (wx2 * ax * wx2))

/-- imu_propagation.cpp:285-304: `Phi35L`, general formula -/
noncomputable def phi35Gen (w a : V3) (dt : ℝ) (G0t G3t : M3) : M3 :=
  let ax := skew a
  let wx := skew w
  let wx2 := wx * wx
  let θ := norm3 w
  let x := θ * dt
  G0t * (dt ^ 3 • (ax * G3t)
    - ((x * Real.sin x + 2 * Real.cos x - 2) / θ ^ 4) • (wx * ax)
    - ((6 * x - 8 * Real.sin x + Real.sin (2 * x)) / (8 * θ ^ 5)) • (wx * ax * wx)
    - ((2 * x ^ 2 + 8 * (x * Real.sin x) + 16 * Real.cos x + Real.cos (2 * x) - 17) / (8 * θ ^ 6))
        • (wx * ax * wx2)
    + ((x ^ 3 + 6 * x - 12 * Real.sin x + 6 * (x * Real.cos x)) / (6 * θ ^ 5)) • (wx2 * ax)
    - ((6 * x ^ 2 + 16 * Real.cos x - Real.cos (2 * x) - 15) / (8 * θ ^ 6)) • (wx2 * ax * wx)
    + ((4 * x ^ 3 + 6 * x - 24 * Real.sin x - 3 * Real.sin (2 * x) + 24 * (x * Real.cos x)) / (24 * θ ^ 7))
        • (wx2 * ax * wx2))

/-- imu_propagation.cpp:266-312: `Phi25L` after the small-rate replacement.  `(1 / 2)` is an integer
division, i.e. `0`.  (For `theta = 0` the general formula divides by zero; its value is discarded.) -/
noncomputable def phi25 (w a : V3) (dt : ℝ) (G0t G2t : M3) : M3 :=
  if norm3 w < 1e-6 then dt ^ 2 • (((((1 / 2 : ℤ)) : ℝ)) • skew a) else phi25Gen w a dt G0t G2t

/-- imu_propagation.cpp:285-312: `Phi35L` after the small-rate replacement; `(1 / 6)` is `0` -/
noncomputable def phi35 (w a : V3) (dt : ℝ) (G0t G3t : M3) : M3 :=
  if norm3 w < 1e-6 then dt ^ 3 • (((((1 / 6 : ℤ)) : ℝ)) • skew a) else phi35Gen w a dt G0t G3t

/-- `Phi.block<3,3>(r,c) = M` -/
def put (Phi : Mat) (r c : ℕ) (M : M3) : Option Mat := Phi.setBlock? r c (of3 M)

/-- imu_propagation.cpp:319-338: the left-invariant transition matrix (world-centric state) -/
noncomputable def phiLeft (en : Bool) (a : V3) (dt : ℝ) (G0 G1 G2 p25 p35 : M3) (dimX dimTheta dimP : ℕ) :
    Option Mat :=
  if dimP < dimTheta then none else do
  let b := dimP - dimTheta
  let Phi := one dimP
  let Phi ← put Phi 0 0 G0ᵀ
  let Phi ← put Phi 3 0 (dt • (-G0ᵀ * skew (G1.mulVec a)))
  let Phi ← put Phi 6 0 (dt ^ 2 • (-G0ᵀ * skew (G2.mulVec a)))
  let Phi ← put Phi 3 3 G0ᵀ
  let Phi ← put Phi 6 3 (dt • G0ᵀ)
  let Phi ← put Phi 6 6 G0ᵀ
  -- for (int i = 5; i < dimX; ++i); ours runs k = i - 5
  let Phi ← forRange (dimX - 5) Phi fun k Phi => put Phi ((5 + k - 2) * 3) ((5 + k - 2) * 3) G0ᵀ
  (if en then do
    let Phi ← put Phi 0 b (dt • (-G1ᵀ))
    let Phi ← put Phi 3 b p25
    let Phi ← put Phi 6 b p35
    let Phi ← put Phi 3 (b + 3) (dt • (-G1ᵀ))
    put Phi 6 (b + 3) (dt ^ 2 • (-G0ᵀ * G2))
  else Phi.setBlock? 0 b (zero dimP dimTheta))

/-- imu_propagation.cpp:340-369: the right-invariant transition matrix (world-centric state) -/
noncomputable def phiRight (en : Bool) (a : V3) (dt : ℝ) (G0 G1 G2 p25 p35 : M3) (s : RobotState)
    (dimX dimTheta dimP : ℕ) : Option Mat :=
  if dimP < dimTheta then none else do
  let b := dimP - dimTheta
  let Phi := one dimP
  let gx := skew gravity
  let R ← s.get_rotation
  let v ← s.get_velocity
  let p ← s.get_position
  let RG0 := R * G0
  let RG1dt := dt • (R * G1)
  let RG2dt2 := dt ^ 2 • (R * G2)
  let Phi ← put Phi 3 0 (dt • gx)
  let Phi ← put Phi 6 0 (dt ^ 2 • ((0.5 : ℝ) • gx))
  let Phi ← put Phi 6 3 (dt • (1 : M3))
  (if en then do
    let Phi ← put Phi 0 b (-RG1dt)
    let Phi ← put Phi 3 b (-skew (v + RG1dt.mulVec a + dt • gravity) * RG1dt + RG0 * p25)
    let Phi ← put Phi 6 b
      (-skew (p + dt • v + RG2dt2.mulVec a + dt ^ 2 • ((0.5 : ℝ) • gravity)) * RG1dt + RG0 * p35)
    let Phi ← forRange (dimX - 5) Phi fun k Phi => do
      let d ← s.get_vector ((5 + k : ℕ) : ℤ)
      put Phi ((5 + k - 2) * 3) b (-skew d * RG1dt)
    let Phi ← put Phi 3 (b + 3) (-RG1dt)
    put Phi 6 (b + 3) (-RG2dt2)
  else Phi.setBlock? 0 b (zero dimP dimTheta))

/-- imu_propagation.cpp:221-371 `StateTransitionMatrix` -/
noncomputable def stateTransitionMatrix (p : ImuProp) (w a : V3) (dt : ℝ) (s : RobotState) : Option Mat := do
  let phi := dt • w
  let G0 ← gamma_SO3 phi 0
  let G1 ← gamma_SO3 phi 1
  let G2 ← gamma_SO3 phi 2
  let G3t ← gamma_SO3 (-phi) 3
  let p25 := phi25 w a dt G0ᵀ G2ᵀ
  let p35 := phi35 w a dt G0ᵀ G3t
  if (s.stateType = .worldCentric ∧ p.errorType = .leftInvariant)
      ∨ (s.stateType = .bodyCentric ∧ p.errorType = .rightInvariant) then
    phiLeft p.enableBias a dt G0 G1 G2 p25 p35 s.dimX s.dimTheta s.dimP
  else phiRight p.enableBias a dt G0 G1 G2 p25 p35 s s.dimX s.dimTheta s.dimP

/-- imu_propagation.cpp:384-390: the matrix `G` -/
noncomputable def noiseG (p : ImuProp) (s : RobotState) : Option Mat :=
  if s.dimP < s.dimTheta then none else
  if (s.stateType = .worldCentric ∧ p.errorType = .rightInvariant)
      ∨ (s.stateType = .bodyCentric ∧ p.errorType = .leftInvariant) then do
    let W ← s.get_world_X
    let A ← adjoint_SEK3 W
    (one s.dimP).assign? 0 0 (s.dimP - s.dimTheta) (s.dimP - s.dimTheta) A
  else some (one s.dimP)

/-- imu_propagation.cpp:393-403: the continuous noise covariance used -/
def noiseQc (p : ImuProp) (s : RobotState) : Option Mat :=
  if s.dimP < s.dimTheta then none else do
  let b := s.dimP - s.dimTheta
  let Qc ← put s.Qc 0 0 p.gyroCov
  let Qc ← put Qc 3 3 p.accelCov
  (if p.enableBias then do
    let Qc ← put Qc b b p.gyroBiasCov
    put Qc (b + 3) (b + 3) p.accelBiasCov
  else some Qc)

/-- imu_propagation.cpp:374-413 `DiscreteNoiseMatrix` -/
noncomputable def discreteNoiseMatrix (p : ImuProp) (Phi : Mat) (dt : ℝ) (s : RobotState) : Option Mat := do
  let G ← p.noiseG s
  let Qc ← p.noiseQc s
  let PhiG ← Phi.mul? G
  let A ← PhiG.mul? Qc
  let A ← A.mul? PhiG.T
  some (dt • A)

/-- imu_propagation.cpp:148-157: rate and acceleration with bias and lever arm removed -/
noncomputable def bodyRates (p : ImuProp) (m : ImuMeas) (bg ba : V3) : V3 × V3 :=
  let w := p.R_imu2body.mulVec m.angVel - bg
  let comp := crossProduct w (crossProduct w p.t_imu2body)
  (w, p.R_imu2body.mulVec m.linAcc - ba - comp)

/-- imu_propagation.cpp:167-180: covariance prediction -/
noncomputable def predictCov (p : ImuProp) (w a : V3) (dt : ℝ) (s : RobotState) : Option Mat := do
  let Phi ← p.stateTransitionMatrix w a dt s
  let Qd ← p.discreteNoiseMatrix Phi dt s
  let A ← Phi.mul? s.P
  let A ← A.mul? Phi.T
  let P ← A.add? Qd
  (if p.enableBias then some P
  else if s.dimP < s.dimTheta then none
  else do
    let b := s.dimP - s.dimTheta
    let P ← P.setBlock? 0 b (zero b s.dimTheta)
    let P ← P.setBlock? b 0 (zero s.dimTheta b)
    P.setBlock? b b (one s.dimTheta))

/-- imu_propagation.cpp:182-211: mean prediction.  In the body-centric branch the code assigns to a
new local variable that shadows `X_pred`, so the outer `X_pred` keeps the value `X`.  (The block
accesses of that branch stay in range whenever `get_position` succeeded.) -/
noncomputable def predictMean (w a : V3) (dt : ℝ) (s : RobotState) : Option Mat := do
  let R ← s.get_rotation
  let v ← s.get_velocity
  let p ← s.get_position
  let phi := dt • w
  let G0 ← gamma_SO3 phi 0
  let G1 ← gamma_SO3 phi 1
  let G2 ← gamma_SO3 phi 2
  match s.stateType with
  | .worldCentric =>
    let X ← s.X.setBlock? 0 0 (of3 (R * G0))
    let X ← X.setBlock? 0 3 (ofV (v + dt • ((R * G1).mulVec a + gravity)))
    X.setBlock? 0 4 (ofV (p + dt • v + dt • dt • ((R * G2).mulVec a + (0.5 : ℝ) • gravity)))
  | .bodyCentric => some s.X

/-- imu_propagation.cpp:126-218 `Propagate`: returns whether something was processed, the new
propagation object and the new state. -/
noncomputable def propagate (p : ImuProp) (s : RobotState) : Option (Bool × ImuProp × RobotState) :=
  match p.buffer with
  | [] => some (false, p, s)
  | front :: rest => do
    let m ← p.prev
    let p' := { p with prev := some front, buffer := rest }
    let tp ← s.tProp
    let dt := m.time - tp
    let s' := { s with t := some m.time, tProp := some m.time }
    let bg ← s'.get_gyroscope_bias
    let ba ← s'.get_accelerometer_bias
    let (w, a) := p.bodyRates m bg ba
    let _Xinv ← s'.get_Xinv
    let P ← p.predictCov w a dt s'
    let X ← predictMean w a dt s'
    some (true, p', { s' with X := X, P := P })

/-- `size_t` value of an `int` (implicit conversion in `bias_init_vec_.size() < init_bias_size_`) -/
def toSizeT (n : ℤ) : ℕ := (n % 2 ^ 64).toNat

/-- imu_propagation.cpp:435-458: one gravity-compensated sample `(w, a)` -/
noncomputable def biasSample (p : ImuProp) (m : ImuMeas) : V3 × V3 :=
  let w := p.R_imu2body.mulVec m.angVel
  let comp := crossProduct w (crossProduct w p.t_imu2body)
  let a := p.R_imu2body.mulVec m.linAcc - comp
  let R := if p.useImuOri then p.R_imu2body * m.quat.toRot else 1
  (w, Rᵀ.mulVec (R.mulVec a + gravity))

/-- imu_propagation.cpp:415-476 `InitImuBias`; averaging zero samples is a division by zero (NaN). -/
noncomputable def initImuBias (p : ImuProp) : Option ImuProp :=
  if p.staticInit = false then some { p with biasInitialized := true }
  else if p.biasInitVec.length < toSizeT p.initBiasSize then
    match p.buffer with
    | [] => some p
    | m :: rest => some { p with
        buffer := rest
        biasInitVec := p.biasInitVec ++ [p.biasSample m]
        prev := some m }
  else
    let avg := p.biasInitVec.foldl (fun (acc : V3 × V3) v => (acc.1 + v.1, acc.2 + v.2)) (0, 0)
    let n : ℝ := p.biasInitVec.length
    if p.biasInitVec.length = 0 then none
    else some { p with bg0 := n⁻¹ • avg.1, ba0 := n⁻¹ • avg.2, biasInitialized := true }

/-- imu_propagation.cpp:491-532 `set_initial_state` -/
def setInitialState (p : ImuProp) (s : RobotState) : Option (Bool × ImuProp × RobotState) :=
  match p.buffer with
  | [] => some (false, p, s)
  | m :: rest => do
    let R0 := if p.useImuOri then m.quat.toRot else 1
    let s ← s.set_rotation R0
    let s ← s.set_position 0
    let s := { s with bodyAngVel := some m.angVel }
    let s ← s.set_gyroscope_bias p.bg0
    let s ← s.set_accelerometer_bias p.ba0
    let s := { s with enableBias := p.enableBias, t := some m.time, tProp := some m.time }
    let s ← s.set_gyroscope_bias_covariance p.gyroBiasCov
    let s ← s.set_accelerometer_bias_covariance p.accelBiasCov
    some (true, { p with buffer := rest, prev := some m }, s)

/-- imu_propagation.cpp:534-540 `clear`: only the buffer; `prev_imu_measurement_`, the bias samples and
the flags are kept. -/
def clear (p : ImuProp) : ImuProp := { p with buffer := [] }

end ImuProp
end Drift
