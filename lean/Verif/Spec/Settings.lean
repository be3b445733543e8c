import Verif.Model.Shipped

/-!
# Specification vocabulary: settings in configuration files
-/
namespace Drift

/-- the two files are equal except perhaps for the key `k` of the section `s` -/
def SameBut (s k : String) (d d' : Doc) : Prop := ∀ s' k', (s', k') ≠ (s, k) → d s' k' = d' s' k'

/-- whatever is written at the key `k` of the section `s`, and in the rest of the file, the object that is built does not depend on it -/
def Ignored {α : Type} (load : Doc → Option α) (s k : String) : Prop := ∀ d d', SameBut s k d d' → load d = load d'

/-- there is a file in which changing the value of the key gives another object -/
def Effective {α : Type} (load : Doc → Option α) (s k : String) : Prop :=
  ∃ d d' a a', SameBut s k d d' ∧ load d = some a ∧ load d' = some a' ∧ a ≠ a'

/-- the objects built from a file -/
noncomputable def imuObj (et : ErrorType) (d : Doc) : Option ImuProp := d.imuConfig.bind (ImuProp.ctor [] et)
noncomputable def velObj (et : ErrorType) (d : Doc) : Option VelCorr := d.velConfig.bind (VelCorr.ctor [] et)
noncomputable def legObj (et : ErrorType) (d : Doc) : Option LegCorr := d.legConfig.map (LegCorr.ctor [] et)
noncomputable def estObj (et : ErrorType) (h : Heap) (ic : ImuPropConfig) (cs : List CorrConfig) (d : Doc) : Option Estimator :=
  d.estConfig.bind fun c => Estimator.ctor et h c ic cs
noncomputable def filterObj (d : Doc) : Option GyroFilter := (d.filterConfig true).map GyroFilter.mk1
noncomputable def filterObj5 (d : Doc) : Option GyroFilter := (d.filterConfig false).map GyroFilter.mk5

/-- the settings of each class -/
def imuKeys : List (String × String) :=
  [("settings", "static_bias_initialization"), ("settings", "init_bias_size"), ("settings", "use_imu_ori_to_init"),
   ("settings", "rotation_imu2body"), ("noises", "gyroscope_std"), ("noises", "accelerometer_std"), ("noises", "gyroscope_bias_std"),
   ("noises", "accelerometer_bias_std"), ("priors", "gyroscope_bias"), ("priors", "accelerometer_bias"),
   ("settings", "enable_imu_bias_update"), ("settings", "translation_imu2body")]
def velKeys : List (String × String) :=
  [("noises", "velocity_std"), ("settings", "correction_time_threshold"), ("settings", "rotation_vel2body"), ("settings", "velocity_scale")]
def legKeys : List (String × String) :=
  [("noises", "encoder_std"), ("noises", "kinematics_additive_std"), ("noises", "contact_noise_std"),
   ("settings", "correction_time_threshold")]
def estKeys : List (String × String) :=
  [("logger", "enable_pose_logger"), ("state", "rotation_std_value"), ("state", "velocity_std_value"), ("state", "position_std_value"),
   ("logger", "pose_log_file"), ("logger", "vel_log_file"), ("logger", "pose_log_rate")]
def filterKeys5 : List (String × String) :=
  [("settings", "rotation_imu2body"), ("settings", "flat_ground"), ("settings", "t_threshold"), ("settings", "correction_method"),
   ("settings", "static_bias_initialization"), ("priors", "ang_vel_bias"), ("noises", "ang_vel_std"), ("noises", "ang_vel_bias_std"),
   ("noises", "filter_std"), ("noises", "filter_bias_std"), ("noises", "imu_meas_noise_std"), ("noises", "encoder_meas_noise_std")]
def filterKeys : List (String × String) := ("settings", "init_bias_size") :: filterKeys5

/-- the value of the setting `k`, which is a quaternion -/
def SetsQuat (d : Doc) (k : String) (w x y z : ℝ) : Prop := ∃ v rest, d "settings" k = some v ∧ v.asDoubles = some (w :: x :: y :: z :: rest)

/-- a quaternion that the code turns into a rotation -/
def Accepted (w x y z : ℝ) : Prop := w ^ 2 + x ^ 2 + y ^ 2 + z ^ 2 = 1 ∨ (x = 0 ∧ y = 0 ∧ z = 0)

/-- the settings that a file makes -/
def keysOf (l : List (String × List (String × YVal))) : List (String × String) := l.flatMap fun x => x.2.map fun y => (x.1, y.1)


/-- the value of a setting, if the setting is there, is what `ok` says -/
def Fits (d : Doc) (s k : String) (ok : YVal → Prop) : Prop := ∀ v, d s k = some v → ok v
/-- the setting is there, and its value is what `ok` says -/
def Given (d : Doc) (s k : String) (ok : YVal → Prop) : Prop := ∃ v, d s k = some v ∧ ok v
/-- truth value, whole number, number, text, sequence of at least `n` numbers -/
def IsBool (v : YVal) : Prop := v.asBool.isSome
def IsInt (v : YVal) : Prop := v.asInt.isSome
def IsNum (v : YVal) : Prop := v.asDouble.isSome
def IsText (v : YVal) : Prop := v.asString.isSome
def IsVec (n : ℕ) (v : YVal) : Prop := ∃ l, v.asDoubles = some l ∧ n ≤ l.length

/-- well-formed files of each class -/
def ImuFile (d : Doc) : Prop :=
  Fits d "settings" "static_bias_initialization" IsBool ∧ Fits d "settings" "init_bias_size" IsInt ∧ Fits d "settings" "use_imu_ori_to_init" IsBool ∧
  Fits d "settings" "rotation_imu2body" (IsVec 4) ∧ Fits d "noises" "gyroscope_std" IsNum ∧ Fits d "noises" "accelerometer_std" IsNum ∧
  Fits d "noises" "gyroscope_bias_std" IsNum ∧ Fits d "noises" "accelerometer_bias_std" IsNum ∧ Fits d "priors" "gyroscope_bias" (IsVec 3) ∧
  Fits d "priors" "accelerometer_bias" (IsVec 3) ∧ Fits d "settings" "enable_imu_bias_update" IsBool ∧
  Fits d "settings" "translation_imu2body" (IsVec 3)
def VelFile (d : Doc) : Prop :=
  Fits d "noises" "velocity_std" IsNum ∧ Fits d "settings" "correction_time_threshold" IsNum ∧ Fits d "settings" "rotation_vel2body" (IsVec 4) ∧
  Fits d "settings" "velocity_scale" IsNum
def LegFile (d : Doc) : Prop :=
  Fits d "noises" "encoder_std" IsNum ∧ Fits d "noises" "kinematics_additive_std" IsNum ∧ Fits d "noises" "contact_noise_std" IsNum ∧
  Fits d "settings" "correction_time_threshold" IsNum
def EstFile (d : Doc) : Prop :=
  Given d "logger" "enable_pose_logger" IsBool ∧ Fits d "state" "rotation_std_value" IsNum ∧ Fits d "state" "velocity_std_value" IsNum ∧
  Fits d "state" "position_std_value" IsNum ∧ (Given d "logger" "enable_pose_logger" (·.asBool = some true) →
    Fits d "logger" "pose_log_file" IsText ∧ Fits d "logger" "vel_log_file" IsText ∧ Fits d "logger" "pose_log_rate" IsNum)
def FilterFile (sized : Bool) (d : Doc) : Prop :=
  Fits d "settings" "rotation_imu2body" (IsVec 4) ∧ Fits d "settings" "flat_ground" IsBool ∧ Fits d "settings" "t_threshold" IsNum ∧
  Fits d "settings" "correction_method" IsInt ∧ (sized = true → Fits d "settings" "init_bias_size" IsInt) ∧
  Fits d "settings" "static_bias_initialization" IsBool ∧
  (¬ Given d "settings" "static_bias_initialization" (·.asBool = some true) → Fits d "priors" "ang_vel_bias" (IsVec 3)) ∧
  Fits d "noises" "ang_vel_std" IsNum ∧ Fits d "noises" "ang_vel_bias_std" IsNum ∧ Fits d "noises" "filter_std" IsNum ∧
  Fits d "noises" "filter_bias_std" IsNum ∧ Fits d "noises" "imu_meas_noise_std" IsNum ∧ Fits d "noises" "encoder_meas_noise_std" IsNum

end Drift
