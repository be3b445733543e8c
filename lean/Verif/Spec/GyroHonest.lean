import Verif.Spec.GyroOpt
import Mathlib.Analysis.Real.Sqrt

/-!
# Specification vocabulary: is the covariance of the gyro filter honest?

`Sds s P e`: the error `e` is at most `s` standard deviations of the covariance `P`, in every direction.  For `P = σ² 1` this
says `|e| ≤ s σ`.  `Follows` is a history of the filter together with the true rate and bias at each run.
-/
namespace Drift
open Matrix
namespace GyroFilter

/-- the error `e` is at most `s` standard deviations of the covariance `P`, in every direction -/
def Sds {n : Type*} [Fintype n] (s : ℝ) (P : Matrix n n ℝ) (e : n → ℝ) : Prop := ∀ z, |z ⬝ᵥ e| ≤ s * √(varIn P z)

/-- the noise of an IMU reading `y` when rate and bias are `τ`, on the axes that are measured -/
def imuNoise (flat : Bool) (τ : V6) (y : V3) : V3 :=
  if flat then ![y 0 - (τ 0 + τ 3), y 1 - (τ 1 + τ 4), y 2 - (τ 2 + τ 5)] else ![0, 0, y 2 - (τ 2 + τ 5)]

/-- the noise of an encoder reading (in the frame of the IMU) when rate and bias are `τ`, on the axes that are measured -/
def encNoise (flat : Bool) (τ : V6) (y : V3) : V3 :=
  if flat then ![y 0 - τ 0, y 1 - τ 1, y 2 - τ 2] else ![0, 0, y 2 - τ 2]

/-- Rate and bias change from `τ` to `τ'` during a run: by at most `κ` standard deviations of the process noise, after the
increment of the propagation gyro (if there is one) has been taken off; not at all, if there is a propagation gyro but no
sample of it. -/
def Moves (κ : ℝ) (f : GyroFilter) (τ τ' : V6) : Prop :=
  ∃ Q, ProcessNoise f.cfg Q ∧ ((f.gyro = none ∧ Sds κ Q (τ' - τ)) ∨ (f.gyro = some [] ∧ τ' = τ) ∨
    ∃ g q, f.gyro = some (g :: q) ∧
      Sds κ Q (τ' - (τ + ![g.angVel 0 - f.prev 0, g.angVel 1 - f.prev 1, g.angVel 2 - f.prev 2, 0, 0, 0])))

/-- A history that leads from the filter `f`, with the true rate and bias `τ`, through `n` runs to the filter `g`, with the
true rate and bias `σ`.  At each run: the filter is `Ok`, rate and bias `Moves` by at most `κ` standard deviations, and a
measurement that the run takes from a queue is within `ν` configured standard deviations of the truth. -/
inductive Follows (ν κ : ℝ) (Ok : GyroFilter → Prop) (f : GyroFilter) (τ : V6) : ℕ → GyroFilter → V6 → Prop
  | start : Follows ν κ Ok f τ 0 f τ
  | other {n : ℕ} {g g' : GyroFilter} {σ : V6} {o : Op} : Follows ν κ Ok f τ n g σ → o ≠ .run → g.step o = some g' →
      Follows ν κ Ok f τ n g' σ
  | run {n : ℕ} {g g' : GyroFilter} {σ σ' : V6} : Follows ν κ Ok f τ n g σ → Ok g → Moves κ g σ σ' →
      g.step .run = some g' →
      (∀ m q, g.imu = some (m :: q) → g'.imu = some q →
        Sds ν (g.cfg.imuStd ^ 2 • (1 : M3)) (imuNoise g.cfg.flatGround σ' m.angVel)) →
      (∀ a q, g.enc = some (a :: q) → g'.enc = some q →
        Sds ν (g.cfg.encStd ^ 2 • (1 : M3)) (encNoise g.cfg.flatGround σ' (g.cfg.rotImu2body.toRotᵀ *ᵥ a.angVel))) →
      Follows ν κ Ok f τ (n + 1) g' σ'

end GyroFilter
end Drift
