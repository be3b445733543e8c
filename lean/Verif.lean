import Verif.Basic.Mat
import Verif.Basic.Fixed
import Verif.Spec.PSD
import Verif.Lemmas.PSD
import Verif.Model.LieGroup
import Verif.Model.RobotState
import Verif.Lemmas.SO3
import Verif.Lemmas.Factorial
import Verif.Lemmas.GammaSeries
import Verif.Lemmas.SEK3
import Verif.Spec.State
import Verif.Lemmas.State
import Verif.Lemmas.GammaMore
import Verif.Props.LieGroup
import Verif.Props.State
import Verif.Props.State2
import Verif.Spec.Filter
import Verif.Model.Inekf
import Verif.Lemmas.Adj
import Verif.Lemmas.Inekf
import Verif.Lemmas.Joseph
import Verif.Props.Inekf
import Verif.Model.Measurement
import Verif.Model.ImuPropagation
import Verif.Spec.Flow
import Verif.Spec.ErrorFlow
import Verif.Spec.Propagation
import Verif.Lemmas.Imu
import Verif.Lemmas.Imu2
import Verif.Lemmas.Flow
import Verif.Lemmas.SmallRate
import Verif.Props.Imu
import Verif.Lemmas.ErrFlow
import Verif.Lemmas.ErrFlow2
import Verif.Props.ErrorFlow
import Verif.Spec.Bias
import Verif.Props.ImuBias
import Verif.Model.Correction
import Verif.Spec.Velocity
import Verif.Lemmas.Correction
import Verif.Props.Velocity
import Verif.Spec.Legged
import Verif.Lemmas.Legged1
import Verif.Lemmas.Legged2
import Verif.Lemmas.Legged3
import Verif.Lemmas.Legged4
import Verif.Lemmas.Legged5
import Verif.Lemmas.Legged6
import Verif.Props.Legged
import Verif.Model.Estimator
import Verif.Spec.Estimator
import Verif.Lemmas.Est1
import Verif.Lemmas.Est2
import Verif.Lemmas.Est3
import Verif.Lemmas.Est4
import Verif.Lemmas.Est5
import Verif.Lemmas.Equiv1
import Verif.Props.Estimator
import Verif.Props.Estimator2
import Verif.Props.Logging
import Verif.Lemmas.Equiv2
import Verif.Lemmas.Equiv3
import Verif.Props.Equiv
import Verif.Model.ImuFilter
import Verif.Spec.ImuFilter
import Verif.Lemmas.Filter1
import Verif.Lemmas.Filter2
import Verif.Lemmas.Filter3
import Verif.Lemmas.Filter4
import Verif.Lemmas.Filter5
import Verif.Lemmas.Filter6
import Verif.Lemmas.Filter7
import Verif.Lemmas.Filter8
import Verif.Props.ImuFilter
import Verif.Props.ImuFilter2
import Verif.Model.WheelOdometry
import Verif.Spec.Wheel
import Verif.Lemmas.Wheel
import Verif.Props.Wheel
import Verif.Model.RosSub
import Verif.Spec.Ros
import Verif.Lemmas.RosSub
import Verif.Props.RosSub
import Verif.Model.RosPub
import Verif.Spec.Pub
import Verif.Lemmas.QuatRot
import Verif.Props.RosPub
import Verif.Model.MiniCheetahGen
import Verif.Model.MiniCheetah
import Verif.Spec.Kinematics
import Verif.Lemmas.Kin1
import Verif.Lemmas.Kin2
import Verif.Lemmas.Kin3
import Verif.Lemmas.Kin4
import Verif.Props.Kinematics
import Verif.Spec.Gauge
import Verif.Lemmas.Gauge1
import Verif.Lemmas.Gauge2
import Verif.Lemmas.Gauge3
import Verif.Lemmas.Gauge4
import Verif.Props.Gauge
import Verif.Spec.Noise
import Verif.Props.Noise
import Verif.Spec.BestUpdate
import Verif.Lemmas.BestGain
import Verif.Props.BestUpdate
import Verif.Spec.Heading
import Verif.Lemmas.Head1
import Verif.Lemmas.Head2
import Verif.Lemmas.Head3
import Verif.Lemmas.Head4
import Verif.Lemmas.Head5
import Verif.Lemmas.Head6
import Verif.Lemmas.Head7
import Verif.Props.Heading
import Verif.Model.LogThread
import Verif.Spec.LogThread
import Verif.Lemmas.LogThread
import Verif.Lemmas.LogThread2
import Verif.Lemmas.LogThread3
import Verif.Props.LogThread
import Verif.Spec.Clock
import Verif.Lemmas.Clock1
import Verif.Lemmas.Clock2
import Verif.Lemmas.Clock3
import Verif.Lemmas.Clock4
import Verif.Props.Clock
import Verif.Model.System
import Verif.Props.Sensors
import Verif.Spec.System
import Verif.Lemmas.Sys1
import Verif.Lemmas.Sys2
import Verif.Lemmas.Sys3
import Verif.Lemmas.Sys4
import Verif.Lemmas.Sys5
import Verif.Lemmas.Sys6
import Verif.Lemmas.Sys7
import Verif.Lemmas.Sys8
import Verif.Lemmas.Sys9
import Verif.Lemmas.Sys10
import Verif.Props.System
import Verif.Spec.Startup
import Verif.Lemmas.Boot1
import Verif.Lemmas.Boot2
import Verif.Lemmas.Boot3
import Verif.Props.Startup
import Verif.Props.Late
import Verif.Props.Baseline
import Verif.Spec.GyroOrder
import Verif.Props.GyroOrder
import Verif.Spec.Wiring
import Verif.Props.Wiring
import Verif.Model.Mekf
import Verif.Spec.Mekf
import Verif.Lemmas.Mekf1
import Verif.Lemmas.Mekf2
import Verif.Lemmas.Mekf3
import Verif.Props.Mekf
import Verif.Props.Mekf2
import Verif.Model.Threads
import Verif.Spec.Threads
import Verif.Lemmas.Thr1
import Verif.Lemmas.Thr2
import Verif.Lemmas.Thr3
import Verif.Lemmas.Thr4
import Verif.Lemmas.Thr5
import Verif.Lemmas.Thr6
import Verif.Props.Threads
import Verif.Spec.Double
import Verif.Spec.Rotation
import Verif.Lemmas.Double
import Verif.Model.Double
import Verif.Props.Double
import Verif.Model.Rounded
import Verif.Lemmas.RoundRot
import Verif.Lemmas.RoundAcc
import Verif.Lemmas.RoundWit
import Verif.Lemmas.RoundWit2
import Verif.Lemmas.PhiBound
import Verif.Props.Rounded
import Verif.Props.Rounded2
import Verif.Props.RoundedOdo
import Verif.Props.RoundedImu
import Verif.Props.RoundedGamma
import Verif.Props.RoundedReading
import Verif.Props.RoundedWheel
import Verif.Props.RoundedQuat
import Verif.Props.NotANumber
import Verif.Props.NotANumber2
import Verif.Props.Exact
import Verif.Model.GyroThreads
import Verif.Spec.GyroThreads
import Verif.Lemmas.GyroThr1
import Verif.Lemmas.GyroThr2
import Verif.Lemmas.GyroThr3
import Verif.Lemmas.GyroThr4
import Verif.Lemmas.GyroThr5
import Verif.Lemmas.GyroThr6
import Verif.Props.GyroThreads
import Verif.Props.Shutdown
import Verif.Props.Lifecycle
import Verif.Props.VelLog
import Verif.Props.Exact2
import Verif.Props.Perfect
import Verif.Props.Measured
import Verif.Props.Backlog
import Verif.Props.Wire
import Verif.Props.MeasObj
import Verif.Props.Walk
import Verif.Props.Settings
import Verif.Props.Loads
import Verif.Props.Mount
import Verif.Props.LogNames
import Verif.Props.Tilt
import Verif.Props.DriftRate
import Verif.Props.GyroOpt
import Verif.Props.GyroExact
import Verif.Props.Slip
import Verif.Props.GyroHonest
import Verif.Props.FootError
import Verif.Props.Stand
import Verif.Props.PosGrowth
import Verif.Props.Cover
import Verif.Props.Anchor
