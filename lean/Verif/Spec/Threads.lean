import Verif.Spec.Estimator
import Verif.Model.Threads

/-!
# Specification vocabulary: fine-grained executions and histories of whole calls
-/
namespace Drift
namespace Thr

/-- what can be seen of an execution: a call begins, a call returns, another thread uses its queue -/
inductive Mark
  | call (op : EstEv)
  | ret
  | ev (ev : EstEv)

/-- is the main thread between two calls? -/
def PC.isIdle : PC → Bool
  | .idle => true
  | _ => false

/-- what can be seen of one step -/
noncomputable def mark (y : Sys) : Act → List Mark
  | .call op => [.call op]
  | .work ev => [.ev ev]
  | .main => match y.act .main with
    | some y' => if y'.pc.isIdle && !y.pc.isIdle then [.ret] else []
    | none => []
  | _ => []

/-- what can be seen of an execution -/
noncomputable def trace : Sys → List Act → List Mark
  | _, [] => []
  | y, a :: l => mark y a ++ match y.act a with
    | some y' => trace y' l
    | none => []

open Classical in
/-- The same calls in the same order, and for each queue the same accesses of other threads in the same order: nobody
but an observer who compares instants of different queues can tell the two histories apart. -/
def SameOrder (evs evs' : List EstEv) : Prop :=
  evs.filter (fun ev => decide (res ev = none)) = evs'.filter (fun ev => decide (res ev = none)) ∧
  ∀ r, evs.filter (fun ev => decide (res ev = some r)) = evs'.filter (fun ev => decide (res ev = some r))

/-- The history `evs` of whole calls explains the trace `ms`: each call takes effect at one moment between its beginning
and its return.  What other threads do during the call (`during`) is explained as happening before (`pre`) or after
(`post`) that moment, each queue's accesses in their order; nothing else is reordered. -/
inductive Explains : List EstEv → List Mark → Prop
  | nil : Explains [] []
  | ev {a evs ms} (h : Explains evs ms) : Explains (a :: evs) (.ev a :: ms)
  | call {op pre post during evs ms} (ho : res op = none) (hd : SameOrder (pre ++ post) during) (hn : ∀ a ∈ during, res a ≠ none)
      (h : Explains evs ms) : Explains (pre ++ op :: post ++ evs) (.call op :: during.map .ev ++ .ret :: ms)

/-- the calls and the accesses of a trace, in the order in which they begin -/
def begun : List Mark → List EstEv
  | [] => []
  | .call op :: l => op :: begun l
  | .ret :: l => begun l
  | .ev a :: l => a :: begun l

/-- what the publisher gets at an event: the oldest published state, if there is one -/
def taken (e : Estimator) : EstEv → List RobotState
  | .consume => e.outQ.head?.toList
  | _ => []

/-- what the publisher gets during a history of whole calls -/
noncomputable def takenIn : Estimator → List EstEv → List RobotState
  | _, [] => []
  | e, ev :: evs => taken e ev ++ match e.step ev with
    | some e' => takenIn e' evs
    | none => []

/-- what the publisher gets at a step -/
def takenAt (y : Sys) : Act → List RobotState
  | .work ev => taken y.e ev
  | _ => []

/-- what the publisher gets during an execution -/
noncomputable def takenBy : Sys → List Act → List RobotState
  | _, [] => []
  | y, a :: l => takenAt y a ++ match y.act a with
    | some y' => takenBy y' l
    | none => []

/-- the main thread is about to look at queue `r` without its mutex -/
def Peeks : PC → Res → Prop
  | .initPeek, .imu => True
  | .initCorrPeek i, .corr j => i = j
  | _, _ => False

/-- A thread has come to this action and no mutex makes it wait: a call may begin between two calls (`clear` not while
`InitState` waits for a correction); inside a call the main thread goes on, unless it is about to take a mutex that is
held; another thread may take a free mutex, work when it holds the mutex, and release it after the work. -/
def Ready (y : Sys) : Act → Prop
  | .call op => y.pc = .idle ∧ y.ph = .enter ∧ (op = .tick ∨ (op = .clear ∧ y.e.pending = none))
  | .main => (∃ r, y.ph = .leave r) ∨ (y.pc ≠ .idle ∧ (y.ph = .enter → ∀ r, lockOf y.e y.pc = some r → y.own r = none))
  | .lock ev => ∃ r, res ev = some r ∧ y.own r = none
  | .work ev => ∃ r, res ev = some r ∧ y.own r = some (.other ev)
  | .unlock r => y.own r = some .otherDone

/-- what the holder of the mutex of queue `r` does next -/
def nextOf (r : Res) : Holder → Act
  | .main => .main
  | .other ev => .work ev
  | .otherDone => .unlock r

/-- number of measurements queued for corrections -/
def waiting (e : Estimator) : ℕ := (e.corrs.map Corr.queued).sum

/-- the access of another thread that appends a measurement for a correction -/
def isArrival : Act → Bool
  | .work (.vel _ _) => true
  | .work (.leg _ _) => true
  | _ => false

/-- an action of the main thread inside a call -/
def isMain : Act → Bool
  | .main => true
  | _ => false

/-- the beginning of a call -/
def isCall : Act → Bool
  | .call _ => true
  | _ => false

end Thr
end Drift
