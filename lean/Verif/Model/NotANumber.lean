import Verif.Model.LieGroup

/-!
# Model of the filter with values that are not numbers

A `double` is a real number or NaN; every operation with a NaN has the result NaN, and a comparison with it is false (IEEE 754).  Rounding,
infinities and overflow are left out.  Modelled are the mean and the biases of a world-centric state without contacts, what an IMU message and what a
velocity message make of them.  The covariance is not modelled: the Kalman gain of each correction is an arbitrary matrix, of NaNs or of numbers.
-/
namespace Drift
namespace Nan

/-- a `double` -/
inductive Dbl
  | num (x : ℝ)
  | nan

namespace Dbl
/-- two operands: NaN if one of them is -/
def op (f : ℝ → ℝ → ℝ) : Dbl → Dbl → Dbl
  | num x, num y => num (f x y)
  | _, _ => nan

/-- a function of the C library: NaN for NaN -/
def map (f : ℝ → ℝ) : Dbl → Dbl
  | num x => num (f x)
  | nan => nan

noncomputable instance : Add Dbl := ⟨op (· + ·)⟩
noncomputable instance : Sub Dbl := ⟨op (· - ·)⟩
noncomputable instance : Mul Dbl := ⟨op (· * ·)⟩
noncomputable instance : Div Dbl := ⟨op (· / ·)⟩
noncomputable instance : Neg Dbl := ⟨map (- ·)⟩

/-- `x < c`, false if `x` is NaN -/
def lt (c : ℝ) : Dbl → Prop
  | num x => x < c
  | nan => False
end Dbl
open Dbl

/-- an `Eigen` matrix -/
abbrev DMat (m n : ℕ) := Fin m → Fin n → Dbl
/-- an `Eigen` vector -/
abbrev DVec (n : ℕ) := Fin n → Dbl

/-- the sum of the coefficients -/
noncomputable def total {n : ℕ} (f : DVec n) : Dbl := (List.ofFn f).foldr (· + ·) (num 0)

noncomputable def DMat.add {m n} (A B : DMat m n) : DMat m n := fun i j => A i j + B i j
noncomputable def DMat.scale {m n} (A : DMat m n) (c : Dbl) : DMat m n := fun i j => c * A i j
noncomputable def DMat.mul {m k n} (A : DMat m k) (B : DMat k n) : DMat m n := fun i j => total fun l => A i l * B l j
noncomputable def DMat.mulV {m n} (A : DMat m n) (v : DVec n) : DVec m := fun i => total fun l => A i l * v l
noncomputable def DVec.sub {n} (u v : DVec n) : DVec n := fun i => u i - v i
noncomputable def DVec.add {n} (u v : DVec n) : DVec n := fun i => u i + v i
noncomputable def DVec.scale {n} (v : DVec n) (c : Dbl) : DVec n := fun i => c * v i

/-- a matrix of numbers -/
def ofNum {m n : ℕ} (A : Matrix (Fin m) (Fin n) ℝ) : DMat m n := fun i j => num (A i j)

/-- lie_group.cpp:25-31 `skew` -/
noncomputable def skewD (v : DVec 3) : DMat 3 3 := ![![num 0, -v 2, v 1], ![v 2, num 0, -v 0], ![-v 1, v 0, num 0]]

/-- `w.norm()` -/
noncomputable def normD (w : DVec 3) : Dbl := (total fun i => w i * w i).map Real.sqrt

/-- `u.cross(v)` -/
noncomputable def crossD (u v : DVec 3) : DVec 3 := ![u 1 * v 2 - u 2 * v 1, u 2 * v 0 - u 0 * v 2, u 0 * v 1 - u 1 * v 0]

open Classical in
/-- lie_group.cpp:33-50 `Gamma_SO3(w, 0)` -/
noncomputable def gamma0 (w : DVec 3) : DMat 3 3 :=
  let θ := normD w
  if θ.lt TOLERANCE then ofNum 1
  else
    let A := skewD w
    ((ofNum 1).add (A.scale (θ.map Real.sin / θ))).add ((A.scale ((num 1 - θ.map Real.cos) / (θ * θ))).mul A)

open Classical in
/-- lie_group.cpp:33-45, 52-56 `Gamma_SO3(w, 1)` -/
noncomputable def gamma1 (w : DVec 3) : DMat 3 3 :=
  let θ := normD w
  if θ.lt TOLERANCE then ofNum 1
  else
    let A := skewD w
    ((ofNum 1).add (A.scale ((num 1 - θ.map Real.cos) / (θ * θ)))).add ((A.scale ((θ - θ.map Real.sin) / (θ * θ * θ))).mul A)

open Classical in
/-- lie_group.cpp:33-45, 58-63 `Gamma_SO3(w, 2)` -/
noncomputable def gamma2 (w : DVec 3) : DMat 3 3 :=
  let θ := normD w
  if θ.lt TOLERANCE then ofNum ((1 / 2 : ℝ) • 1)
  else
    let A := skewD w
    ((ofNum ((1 / 2 : ℝ) • 1)).add (A.scale ((θ - θ.map Real.sin) / (θ * θ * θ)))).add
      ((A.scale ((θ * θ + num 2 * θ.map Real.cos - num 2) / (num 2 * (θ * θ) * (θ * θ)))).mul A)

/-- the blocks of the first three rows of a 5×5 matrix; the last two rows are `r3`, `r4` -/
def assemble (R : DMat 3 3) (v p : DVec 3) (r3 r4 : DVec 5) : DMat 5 5 :=
  ![![R 0 0, R 0 1, R 0 2, v 0, p 0], ![R 1 0, R 1 1, R 1 2, v 1, p 1], ![R 2 0, R 2 1, R 2 2, v 2, p 2], r3, r4]

/-- the components `k`, `k+1`, `k+2` -/
def seg (v : DVec 15) (k : ℕ) (h : k + 2 < 15 := by omega) : DVec 3 := ![v ⟨k, by omega⟩, v ⟨k + 1, by omega⟩, v ⟨k + 2, h⟩]

open Classical in
/-- lie_group.cpp:105-131 `Exp_SEK3` of the first nine components -/
noncomputable def expD (δ : DVec 15) : DMat 5 5 :=
  let w := seg δ 0
  let θ := normD w
  let A := skewD w
  let c := (num 1 - θ.map Real.cos) / (θ * θ)
  let A2 := A.mul A
  let R := if θ.lt TOLERANCE then ofNum 1 else ((ofNum 1).add (A.scale (θ.map Real.sin / θ))).add (A2.scale c)
  let J := if θ.lt TOLERANCE then ofNum 1 else ((ofNum 1).add (A.scale c)).add (A2.scale ((θ - θ.map Real.sin) / (θ * θ * θ)))
  assemble R (J.mulV (seg δ 3)) (J.mulV (seg δ 6)) ![num 0, num 0, num 0, num 1, num 0] ![num 0, num 0, num 0, num 0, num 1]

/-- the mean and the biases (`theta_`: gyroscope, accelerometer) -/
structure St where
  X : DMat 5 5
  bg : DVec 3
  ba : DVec 3

/-- robot_state.cpp: `get_rotation` -/
def St.rot (s : St) : DMat 3 3 := ![![s.X 0 0, s.X 0 1, s.X 0 2], ![s.X 1 0, s.X 1 1, s.X 1 2], ![s.X 2 0, s.X 2 1, s.X 2 2]]
/-- `get_velocity` -/
def St.vel (s : St) : DVec 3 := ![s.X 0 3, s.X 1 3, s.X 2 3]
/-- `get_position` -/
def St.pos (s : St) : DVec 3 := ![s.X 0 4, s.X 1 4, s.X 2 4]

/-- mounting of the sensors: `R_imu2body_`, `t_imu2body_`, `R_vel2body_`, `velocity_scale_`; numbers -/
structure Mounts where
  Rimu : M3
  timu : V3
  Rvel : M3
  scale : ℝ

/-- the gravity vector -/
def grav : DVec 3 := ![num 0, num 0, num (-9.8)]

/-- imu_propagation.cpp:126-199, 215: an IMU message, world-centric -/
noncomputable def St.imu (m : Mounts) (s : St) (gyro acc : DVec 3) (dt : Dbl) : St :=
  let t : DVec 3 := fun i => num (m.timu i)
  let w := ((ofNum m.Rimu).mulV gyro).sub s.bg
  let a := (((ofNum m.Rimu).mulV acc).sub s.ba).sub (crossD w (crossD w t))
  let phi := w.scale dt
  let R := s.rot
  let v := s.vel
  let p := s.pos
  let v' := v.add ((((R.mul (gamma1 phi)).mulV a).add grav).scale dt)
  let p' := (p.add (v.scale dt)).add (((((R.mul (gamma2 phi)).mulV a).add (grav.scale (num (1 / 2)))).scale dt).scale dt)
  { s with X := assemble (R.mul (gamma0 phi)) v' p' (s.X 3) (s.X 4) }

/-- velocity_correction.cpp:126-137 and inekf.cpp:59-79 (`CorrectRightInvariant`): a velocity message; `K` is the gain, `dTheta(2) = 0` -/
noncomputable def St.velocity (m : Mounts) (s : St) (K : DMat 15 3) (u : DVec 3) : St :=
  let Z := ((((s.rot).mul (ofNum m.Rvel)).scale (num m.scale)).mulV u).sub s.vel
  let δ := K.mulV Z
  { X := (expD δ).mul s.X
    bg := s.bg.add ![δ 9, δ 10, num 0]
    ba := s.ba.add ![δ 12, δ 13, δ 14] }

/-- a message that the filter uses -/
inductive Msg where
  | imu (gyro acc : DVec 3) (dt : Dbl)
  | velocity (K : DMat 15 3) (u : DVec 3)

noncomputable def St.step (m : Mounts) (s : St) : Msg → St
  | .imu gyro acc dt => s.imu m gyro acc dt
  | .velocity K u => s.velocity m K u

/-- messages, one after the other -/
noncomputable def St.run (m : Mounts) (s : St) (l : List Msg) : St := l.foldl (St.step m) s

end Nan
end Drift
