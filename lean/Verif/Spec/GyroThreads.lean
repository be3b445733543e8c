import Verif.Spec.ImuFilter
import Verif.Model.GyroThreads

/-!
# Specification vocabulary: executions of the gyro filter thread, and histories of whole runs
-/
namespace Drift
open GyroFilter
namespace GyroThr

/-- what can be seen of an execution: `RunOnce` begins, it returns, another thread uses a queue -/
inductive Mark
  | call
  | ret
  | ev (o : Op)

/-- is the filter thread between two runs? -/
def PC.isIdle : PC → Bool
  | .idle => true
  | _ => false

/-- does the event take an element of an empty output queue?  (Then the estimator finds nothing and nothing happens.) -/
def finds (f : GyroFilter) : Op → Bool
  | .popOut => !f.out.isEmpty
  | _ => true

/-- what can be seen of one step; an estimator that finds the output queue empty is not recorded -/
noncomputable def mark (y : Sys) : Act → List Mark
  | .call => .call :: match y.act .call with
    | some y' => if y'.pc.isIdle then [.ret] else []
    | none => []
  | .filter => match y.act .filter with
    | some y' => if y'.pc.isIdle then [.ret] else []
    | none => []
  | .ev o => if finds y.f o then [.ev o] else []
  | .clear => []

/-- what can be seen of an execution -/
noncomputable def trace : Sys → List Act → List Mark
  | _, [] => []
  | y, a :: l => mark y a ++ match y.act a with
    | some y' => trace y' l
    | none => []

/-- for each queue the same accesses in the same order -/
def SameOrder (evs evs' : List Op) : Prop :=
  ∀ q, evs.filter (fun o => decide (res o = some q)) = evs'.filter (fun o => decide (res o = some q))

/-- The history `evs` explains the trace `ms`: each run takes effect at one moment between its beginning and its return.
What other threads do during the run (`during`) is explained as happening before (`pre`) or after (`post`) that moment,
each queue's accesses in their order; nothing else is reordered. -/
inductive Explains : List Op → List Mark → Prop
  | nil : Explains [] []
  | ev {o evs ms} (ho : res o ≠ none) (h : Explains evs ms) : Explains (o :: evs) (.ev o :: ms)
  | call {pre post during evs ms} (hd : SameOrder (pre ++ post) during) (hn : ∀ o ∈ pre ++ post, res o ≠ none)
      (h : Explains evs ms) : Explains (pre ++ .run :: post ++ evs) (.call :: during.map .ev ++ .ret :: ms)

/-- the accesses of other threads in a trace -/
def accesses : List Mark → List Op
  | [] => []
  | .ev o :: l => o :: accesses l
  | _ :: l => accesses l

/-- what the estimator gets at an event: the oldest output, if there is one -/
def taken (f : GyroFilter) : Op → List ImuMeas
  | .popOut => f.out.head?.toList
  | _ => []

/-- what the estimator gets during a history of whole runs -/
noncomputable def takenIn : GyroFilter → List Op → List ImuMeas
  | _, [] => []
  | f, o :: l => taken f o ++ match f.step o with
    | some f' => takenIn f' l
    | none => []

/-- what the estimator gets at a step -/
def takenAt (y : Sys) : Act → List ImuMeas
  | .ev o => taken y.f o
  | _ => []

/-- what the estimator gets during an execution -/
noncomputable def takenBy : Sys → List Act → List ImuMeas
  | _, [] => []
  | y, a :: l => takenAt y a ++ match y.act a with
    | some y' => takenBy y' l
    | none => []

/-- a step of `clear` -/
def Act.isClear : Act → Bool
  | .clear => true
  | _ => false

/-- a step of the filter thread inside `RunOnce` -/
def Act.isFilter : Act → Bool
  | .filter => true
  | _ => false

/-- the beginning of a run -/
def Act.isCall : Act → Bool
  | .call => true
  | _ => false

/-- A filter as it is set up before its thread starts: by `InekfEstimator::add_imu_ang_vel_ekf`, or by the constructor with
the yaml file only and the registration of a supported combination of sensors. -/
inductive SetUp : GyroFilter → Prop
  | estimator (c : FCfg) (hn : Noisy c) (hs : c.staticBias = false) : SetUp (mk5 c)
  | registered (c : FCfg) (hn : Noisy c) (reg : List Op) (hreg : ∀ o ∈ reg, o.isAdd = true)
      (hs : Supported (reg.countP Op.isAddImu) (reg.countP Op.isAddAngVel))
      (hst : c.staticBias = true → 0 < reg.countP Op.isAddImu ∧ 0 < c.initBiasSize ∧ c.initBiasSize < 2 ^ 63)
      (f : GyroFilter) (hf : runOps reg (mk1 c) = some f) : SetUp f

/-- the filter thread can take its next step: begin a run, or go on with it -/
def CanGoOn (y : Sys) : Prop := ∃ y', y.act (if y.pc.isIdle then .call else .filter) = some y'

end GyroThr
end Drift
