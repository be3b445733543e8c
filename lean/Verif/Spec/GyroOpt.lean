import Verif.Spec.ImuFilter

/-!
# Specification vocabulary: how well the gyro filter knows the rate and the bias

The filter estimates six numbers, the angular velocity and the gyro bias.  Its covariance `P` claims, for a direction
`(u, v)`, the variance `(u, v) · P (u, v)` of the error of `u · rate + v · bias`.
-/
namespace Drift
open Matrix
namespace GyroFilter

/-- the variance the covariance `P` claims for the error in the direction `z` -/
def varIn {n : Type*} [Fintype n] (P : Matrix n n ℝ) (z : n → ℝ) : ℝ := z ⬝ᵥ P *ᵥ z

/-- An estimate with error `e` of covariance `P` is replaced by `x + G (y - H x)`, `y = H x_true + n`, `n` of
covariance `R` and independent of `e`: the covariance of the new error `(1 - G H) e - G n`. -/
def afterGain {m n : Type*} [Fintype m] [Fintype n] [DecidableEq n] (P : Matrix n n ℝ) (H : Matrix m n ℝ)
    (R : Matrix m m ℝ) (G : Matrix n m ℝ) : Matrix n n ℝ :=
  (1 - G * H) * P * (1 - G * H)ᵀ + G * R * Gᵀ

/-- `K` is the minimum-variance gain: in every direction no gain gives a smaller variance -/
def BestGain {m n : Type*} [Fintype m] [Fintype n] [DecidableEq n] (P : Matrix n n ℝ) (H : Matrix m n ℝ)
    (R : Matrix m m ℝ) (K : Matrix n m ℝ) : Prop :=
  ∀ G z, varIn (afterGain P H R K) z ≤ varIn (afterGain P H R G) z

/-- what the filter takes an IMU to measure: rate plus bias, of all three axes or of the third axis only -/
def ImuSees (flat : Bool) (H : M36) : Prop :=
  ∀ x : V6, H *ᵥ x = if flat then ![x 0 + x 3, x 1 + x 4, x 2 + x 5] else ![0, 0, x 2 + x 5]

/-- what the filter takes the encoders to measure: the rate, of all three axes or of the third axis only -/
def EncSees (flat : Bool) (H : M36) : Prop :=
  ∀ x : V6, H *ᵥ x = if flat then ![x 0, x 1, x 2] else ![0, 0, x 2]

/-- the process noise of one prediction: variances of the configured standard deviations -/
def ProcessNoise (c : FCfg) (Q : M66) : Prop :=
  Q = Matrix.diagonal ![c.filterStd ^ 2, c.filterStd ^ 2, c.filterStd ^ 2,
    c.filterBiasStd ^ 2, c.filterBiasStd ^ 2, c.filterBiasStd ^ 2]

/-- The prediction `(x, P)` a run starts from.  Without a gyro for the propagation the estimate stays and the process
noise is added; with one, the next gyro sample's increment over the sample before it is added to the rate, and nothing
happens when there is no sample. -/
def Predicted (f : GyroFilter) (x : V6) (P : M66) : Prop :=
  ∃ Q, ProcessNoise f.cfg Q ∧
    ((f.gyro = none ∧ x = f.x ∧ P = f.P + Q) ∨ (f.gyro = some [] ∧ x = f.x ∧ P = f.P) ∨
      ∃ g q, f.gyro = some (g :: q) ∧ P = f.P + Q ∧
        x = f.x + ![g.angVel 0 - f.prev 0, g.angVel 1 - f.prev 1, g.angVel 2 - f.prev 2, 0, 0, 0])

/-- the direction that picks `u · bias` -/
def biasDir (u : V3) : V6 := ![0, 0, 0, u 0, u 1, u 2]
/-- the direction that picks `u · rate` -/
def rateDir (u : V3) : V6 := ![u 0, u 1, u 2, 0, 0, 0]

/-- the axes the measurements of the filter speak about -/
def Measured (flat : Bool) (u : V3) : Prop := flat = true ∨ (u 0 = 0 ∧ u 1 = 0)

/-- A run of the filter that took an IMU measurement from the queue and put out an output for it -/
def UsesImu (f f' : GyroFilter) : Prop :=
  f.runOnce = some f' ∧ (∃ m q, f.imu = some (m :: q) ∧ f'.imu = some q) ∧ f'.out.length = f.out.length + 1

/-- A run of the filter that took an encoder measurement from the queue and put out an output for it -/
def UsesEnc (f f' : GyroFilter) : Prop :=
  f.runOnce = some f' ∧ (∃ a q, f.enc = some (a :: q) ∧ f'.enc = some q) ∧ f'.out.length = f.out.length + 1

/-- the number of runs of the filter in a history -/
def runs (l : List Op) : ℕ := (l.filter fun o => match o with | .run => true | _ => false).length

end GyroFilter
end Drift
