import Verif.Spec.Propagation

/-!
# Specification vocabulary: the process noise of one IMU step

A linear function `x` of the error after the step is a linear function `pull Φ x` of the error before it; the noise
of the step reaches it through the body-frame noise channels gyroscope, accelerometer, contacts, biases.
-/
namespace Drift
open Finset Mat Matrix

/-- `xᵀ M`: the linear function `x` of `M ξ` as a linear function of `ξ` -/
def pull (M : Mat) (x : ℕ → ℝ) (k : ℕ) : ℝ := ∑ i ∈ range M.rows, x i * M.e i k

/-- the part of a linear function that reads the `b`-th 3-block -/
def at3 (x : ℕ → ℝ) (b : ℕ) : V3 := fun k => x (3 * b + k)

/-- How the linear function `y` of the error reads the body-frame noise channels: left-invariant errors are body-frame
quantities; right-invariant errors are their transport by the adjoint of the estimate (biases are not transported). -/
def Channels (K : ℕ) (et : ErrorType) (X : Mat) (y n : ℕ → ℝ) : Prop :=
  match et with
  | .leftInvariant => n = y
  | .rightInvariant => ∃ A, adjoint_SEK3 X = some A ∧ n = pull (bd A (3 * K + 9)) y

/-- variance per unit of time of the noise seen through the channels `n` -/
noncomputable def noiseRate (K : ℕ) (p : ImuProp) (Qcontact : Mat) (n : ℕ → ℝ) : ℝ :=
  at3 n 0 ⬝ᵥ p.gyroCov.mulVec (at3 n 0) + at3 n 1 ⬝ᵥ p.accelCov.mulVec (at3 n 1) + quad Qcontact n +
    if p.enableBias then at3 n (K + 1) ⬝ᵥ p.gyroBiasCov.mulVec (at3 n (K + 1)) + at3 n (K + 2) ⬝ᵥ p.accelBiasCov.mulVec (at3 n (K + 2)) else 0

end Drift
