import Verif.Model.LieGroup
import Verif.Model.Measurement
import Verif.Model.RosSub
import Mathlib.Analysis.Normed.Algebra.MatrixExponential
import Mathlib.Analysis.Real.Sqrt

/-!
# Model of the multiplicative EKF baseline (`baselines/python/MEKF/MEKF.py`)

Python/numpy: an exception or a NaN is `none`.  `np.float64` is `ℝ`.  The nine error coordinates
(position 0:3, velocity 3:6, orientation 6:9) are indexed by `(block, coordinate)`.  `scipy.linalg.expm` is the matrix
exponential.  Shape checks of the arguments (`assert`, `ValueError`) are replaced by types.  Reading ROS bags, plotting
and printing are not modelled; the driver loop, which the file contains only as comments, is.
-/
namespace Drift
open Matrix

namespace Mekf

/-- index of an error coordinate: `3 * block + coordinate` -/
abbrev I9 := Fin 3 × Fin 3
/-- 9-vectors -/
abbrev V9 := I9 → ℝ
/-- 9x9 matrices -/
abbrev M99 := Matrix I9 I9 ℝ
/-- 3x9 matrices -/
abbrev M39 := Matrix (Fin 3) I9 ℝ

/-- `np.block` of nine 3x3 blocks -/
def blocks (B : Fin 3 → Fin 3 → M3) : M99 := fun a b => B a.1 b.1 a.2 b.2
/-- `H[:, 3*b:3*b+3]` -/
def cols (B : Fin 3 → M3) : M39 := fun i b => B b.1 i b.2
/-- `x[3*a:3*a+3]` -/
def seg (x : V9) (a : Fin 3) : V3 := fun i => x (a, i)

/-- `np.copysign(x, s)`; a difference that vanishes is `+0.0` -/
noncomputable def copysign (x s : ℝ) : ℝ := if s < 0 then -|x| else |x|

/-- `rot2quat`, MEKF.py:30-54 -/
noncomputable def rot2quat (R : M3) : Quat :=
  let w := Real.sqrt (max 0 (1 + R 0 0 + R 1 1 + R 2 2)) / 2
  let x := Real.sqrt (max 0 (1 + R 0 0 - R 1 1 - R 2 2)) / 2
  let y := Real.sqrt (max 0 (1 - R 0 0 + R 1 1 - R 2 2)) / 2
  let z := Real.sqrt (max 0 (1 - R 0 0 - R 1 1 + R 2 2)) / 2
  ⟨w, copysign x (R 2 1 - R 1 2), copysign y (R 0 2 - R 2 0), copysign z (R 1 0 - R 0 1)⟩

/-- `np.linalg.norm` of a quaternion -/
noncomputable def qnorm (q : Quat) : ℝ := Real.sqrt (q.w ^ 2 + q.x ^ 2 + q.y ^ 2 + q.z ^ 2)

open Classical in
/-- `quat2rot`, MEKF.py:56-90; a zero quaternion gives NaNs.  (The in-place normalisation of the caller's row is not
modelled; lists of Python integers, for which `/=` raises, are excluded by the type.) -/
noncomputable def quat2rot (q : Quat) : Option M3 :=
  let n := qnorm q
  if n = 0 then none
  else
    let w := q.w / n
    let x := q.x / n
    let y := q.y / n
    let z := q.z / n
    some !![1 - 2 * y ^ 2 - 2 * z ^ 2, 2 * x * y - 2 * w * z, 2 * x * z + 2 * w * y;
      2 * x * y + 2 * w * z, 1 - 2 * x ^ 2 - 2 * z ^ 2, 2 * y * z - 2 * w * x;
      2 * x * z - 2 * w * y, 2 * y * z + 2 * w * x, 1 - 2 * x ^ 2 - 2 * y ^ 2]

/-- what the filter knows at one time: a row of `p_est`, `v_est`, `q_est` and `p_cov` -/
structure St where
  p : V3
  v : V3
  q : Quat
  P : M99

/-- `F`, MEKF.py:183-187 -/
noncomputable def transition (Rp : M3) (a w : V3) (dt : ℝ) : M99 :=
  NormedSpace.exp (dt • blocks fun i j =>
    ![![0, 1, 0], ![0, 0, -Rp * skew a], ![0, 0, -skew w]] i j)

/-- `q_cov`, MEKF.py:190-193 -/
noncomputable def noise (accCov gyroCov dt : ℝ) : M99 :=
  blocks fun i j => if i = j then ![0.000001, accCov * dt ^ 2, gyroCov * dt ^ 2] i • (1 : M3) else 0

/-- the constants of one run: the module globals `acc_cov`, `gyro_cov` and the arguments that do not change -/
structure Cfg where
  accCov : ℝ
  gyroCov : ℝ
  accBias : V3
  gyroBias : V3
  R_imu2body : M3

/-- the body of `propoagate`, MEKF.py:168-199, once the rows are looked up; the argument `g` is overwritten -/
noncomputable def propCore (c : Cfg) (dt : ℝ) (acc gyro : V3) (s : St) : Option St := do
  let g : V3 := ![0, 0, 9.81]
  let R ← quat2rot s.q
  let f := R *ᵥ (c.R_imu2body *ᵥ acc - c.accBias) - g
  let Rp := R * NormedSpace.exp (skew (dt • (c.R_imu2body *ᵥ gyro - c.gyroBias)))
  let F := transition Rp (c.R_imu2body *ᵥ acc - c.accBias) (c.R_imu2body *ᵥ gyro - c.gyroBias) dt
  some ⟨s.p + dt • s.v + (0.5 * dt ^ 2) • f, s.v + dt • f, rot2quat Rp,
    F * s.P * Fᵀ + noise c.accCov c.gyroCov dt⟩

/-- `l[i]` of Python: negative indices count from the end, others out of range raise -/
def pyGet {α : Type} (l : List α) (i : ℤ) : Option α :=
  if 0 ≤ i then l[i.toNat]? else if -i ≤ l.length then l[(l.length + i).toNat]? else none

/-- the module globals `propoagate` reads besides its arguments; `none` = not defined (`NameError`).  They are only
assigned in the driver, which is commented out (MEKF.py:270-271, 291, 307). -/
structure Globals where
  k : Option ℤ
  p_cov : Option (List M99)
  acc_cov : Option ℝ
  gyro_cov : Option ℝ

/-- the globals after `import MEKF` -/
def Globals.imported : Globals := ⟨none, none, none, none⟩

/-- `propoagate(t_imu, acc_data, gyro_data, acc_bias, gyro_bias, p_est, v_est, q_est, g, R_imu2body)`,
MEKF.py:167-199 -/
noncomputable def propoagate (G : Globals) (t_imu : List ℝ) (acc_data gyro_data : List V3) (acc_bias gyro_bias : V3)
    (p_est v_est : List V3) (q_est : List Quat) (_g : V3) (R_imu2body : M3) : Option St := do
  let k ← G.k
  let t1 ← pyGet t_imu k
  let t0 ← pyGet t_imu (k - 1)
  let q ← pyGet q_est (k - 1)
  let acc ← pyGet acc_data k
  let p ← pyGet p_est (k - 1)
  let v ← pyGet v_est (k - 1)
  let gyro ← pyGet gyro_data k
  let accCov ← G.acc_cov
  let gyroCov ← G.gyro_cov
  let Ps ← G.p_cov
  let P ← pyGet Ps (k - 1)
  propCore ⟨accCov, gyroCov, acc_bias, gyro_bias, R_imu2body⟩ (t1 - t0) acc gyro ⟨p, v, q, P⟩

/-- `H`, MEKF.py:211-214 -/
def obs (R : M3) (v : V3) : M39 := cols ![0, Rᵀ, skew (Rᵀ *ᵥ v)]

open Classical in
/-- `measurement_update`, MEKF.py:201-235; `np.linalg.inv` raises on a singular matrix -/
noncomputable def measurement_update (sensor_var : ℝ) (y : V3) (s : St) : Option St := do
  let R ← quat2rot s.q
  let H := obs R s.v
  let S := H * s.P * Hᵀ + sensor_var • (1 : M3)
  if S.det = 0 then none
  else
    let K := s.P * Hᵀ * S⁻¹
    let δ : V9 := K *ᵥ (y - Rᵀ *ᵥ s.v)
    some ⟨s.p + seg δ 0, s.v + seg δ 1, rot2quat (R * NormedSpace.exp (skew (seg δ 2))), (1 - K * H) * s.P⟩

/-- what one turn of the driver loop reads: the time since the previous IMU row, the IMU row, and the velocity row if
one is due -/
structure Input where
  dt : ℝ
  acc : V3
  gyro : V3
  vel : Option V3

/-- one turn of the (commented out) driver loop, MEKF.py:307-366; the covariance is stored transposed -/
noncomputable def turn (c : Cfg) (sensor_var : ℝ) (s : St) (i : Input) : Option St := do
  let s ← propCore c i.dt i.acc i.gyro s
  let s ← match i.vel with
    | none => some s
    | some y => measurement_update sensor_var y s
  some { s with P := s.Pᵀ }

/-- the driver loop -/
noncomputable def run (c : Cfg) (sensor_var : ℝ) : St → List Input → Option St
  | s, [] => some s
  | s, i :: l => (turn c sensor_var s i).bind fun s => run c sensor_var s l

/-- the driver loop with all its rows, MEKF.py:362-366 -/
noncomputable def trace (c : Cfg) (sensor_var : ℝ) : St → List Input → Option (List St)
  | s, [] => some [s]
  | s, i :: l => (turn c sensor_var s i).bind fun s' => (trace c sensor_var s' l).map fun rows => s :: rows

/-- a row of `imu_data` -/
structure ImuRow where
  t : ℝ
  gyro : V3
  acc : V3

/-- what the turns of the driver loop read, MEKF.py:306-360: row `k` of the IMU data with the time since row `k - 1`
(`t0`), and the next velocity row `i` if `t_imu[k] >= t_vel[i]` -/
noncomputable def plan : ℝ → List ImuRow → List (ℝ × V3) → List Input
  | _, [], _ => []
  | t0, m :: ms, [] => ⟨m.t - t0, m.acc, m.gyro, none⟩ :: plan m.t ms []
  | t0, m :: ms, y :: ys =>
    if m.t ≥ y.1 then ⟨m.t - t0, m.acc, m.gyro, some y.2⟩ :: plan m.t ms ys
    else ⟨m.t - t0, m.acc, m.gyro, none⟩ :: plan m.t ms (y :: ys)

/-- the initial row, MEKF.py:288-297 -/
def initial : St := ⟨0, 0, Quat.id, 0⟩

/-- the (commented out) driver, MEKF.py:288-366: the last row of the estimates; without IMU data `p_est[0]` raises -/
noncomputable def drive (c : Cfg) (sensor_var : ℝ) (imu : List ImuRow) (vel : List (ℝ × V3)) : Option St :=
  match imu with
  | [] => none
  | m :: ms => run c sensor_var initial (plan m.t ms vel)

/-- `np.mean(rows, axis=0)`; the mean of no rows is NaN -/
noncomputable def mean (l : List V3) : Option V3 :=
  if l = [] then none else some ((1 / (l.length : ℝ)) • l.sum)

/-- `init_bias(imu_data, R_imu2body, window_size=250)`, MEKF.py:128-131; rows are (angular velocity, acceleration) -/
noncomputable def init_bias (imu : List (V3 × V3)) (R_imu2body : M3) (window : ℕ) : Option (V3 × V3) := do
  let mg ← mean ((imu.take window).map Prod.fst)
  let ma ← mean ((imu.take window).map Prod.snd)
  some (R_imu2body *ᵥ mg, R_imu2body *ᵥ (ma - ![0, 0, 9.8]))

/-- `l[::s]` -/
def stride {α : Type} (s : ℕ) : List α → List α
  | [] => []
  | a :: l => a :: stride s (l.drop (s - 1))
termination_by l => l.length
decreasing_by simp

/-- `save_pose_to_tum`, MEKF.py:133-165: the rows of the file; `np.stack` raises on columns of different lengths -/
def tumRows (t : List ℝ) (p : List V3) (q : List Quat) : Option (List (List ℝ)) :=
  let s := if t.length > 15000 then 5 else 1
  let t := stride s t
  let p := stride s p
  let q := stride s q
  if p.length = t.length ∧ q.length = t.length then
    some (List.zipWith (fun t (pq : V3 × Quat) => [t, pq.1 0, pq.1 1, pq.1 2, pq.2.x, pq.2.y, pq.2.z, pq.2.w])
      t (List.zip p q))
  else none

/-- `read_imu(bag, topic)`, MEKF.py:92-103: the rows, stamped with the time of reception; `imu_data[-1, 0]` raises on an
empty topic.  (The orientation columns, which nothing reads, and the printed frequency are omitted.) -/
def read_imu (bag : List (ℝ × ImuMsg)) : Option (List ImuRow) :=
  if bag = [] then none else some (bag.map fun m => ⟨m.1, m.2.angVel, m.2.linAcc⟩)

/-- `read_vel(bag, topic)`, MEKF.py:105-113 -/
noncomputable def read_vel (bag : List (ℝ × TwistMsg)) : Option (List (ℝ × V3)) :=
  if bag = [] then none else some (bag.map fun m => (m.1, ![m.2.lin 0, 0, 0]))

/-- the row of one message in `read_husky`; fewer than four wheels raise, MEKF.py:119-122 -/
noncomputable def huskyRow (m : ℝ × JointMsg) : Option (ℝ × V3) := do
  let a ← m.2.vel[0]?
  let b ← m.2.vel[1]?
  let c ← m.2.vel[2]?
  let d ← m.2.vel[3]?
  some (m.1, ![(a + b + c + d) / 4 * 0.158, 0, 0])

/-- `read_husky(bag, topic)`, MEKF.py:115-126 -/
noncomputable def read_husky (bag : List (ℝ × JointMsg)) : Option (List (ℝ × V3)) :=
  if bag = [] then none else bag.mapM huskyRow

/-- the (commented out) driver with its Husky settings, MEKF.py:240-371: the rows of the file it saves -/
noncomputable def huskyProgram (imuBag : List (ℝ × ImuMsg)) (jointBag : List (ℝ × JointMsg)) :
    Option (List (List ℝ)) := do
  let imu ← read_imu imuBag
  let vel ← read_husky jointBag
  let M ← quat2rot ⟨0, 0.7071068, -0.7071068, 0⟩
  let c : Cfg := ⟨0.01, 0.01, ![0.361971, 0.249837, -0.00240915], ![0.0011879, -0.0000255878, -0.00049881], M⟩
  match imu with
  | [] => none
  | m :: ms =>
    let rows ← trace c 0.034 initial (plan m.t ms vel)
    tumRows (imu.map ImuRow.t) (rows.map St.p) (rows.map St.q)

end Mekf
end Drift
