import Mathlib.Data.Real.Basic
import Mathlib.Data.Fin.Basic

/-!
# Model of the logging thread, `clear()` and the destructor, step by step

`src/estimator/inekf_estimator.cpp`.  The estimator has a thread of its own that writes the log files
(133-175).  It shares the log queue (under a mutex), the stop flag (atomic) and the three file streams (under no
lock) with the thread that calls `RunOnce`, `clear` and the destructor.  Each step below is one lock, unlock,
queue operation, test, write or file operation of one thread; any interleaving is possible.

A logged state is a value of a type `α` with a time stamp: what a row says is the subject of C62.  The model is
that of an estimator built with `enable_pose_logger: true` (otherwise there is no thread).
-/
namespace Drift.LogT

/-- the three log files: pose, velocity, body velocity -/
abbrev File := Fin 3

/-- the position of the logging thread in its loop -/
inductive LPC (α : Type)
  /-- 135: about to test the stop flag -/
  | test
  /-- 137: about to lock the queue -/
  | lock
  /-- 138: holds the lock, about to test `empty()` and, if it is not, to take the front (143-145) -/
  | look
  /-- 139: about to unlock, nothing was taken -/
  | unlockEmpty
  /-- 146: about to unlock with a state in hand -/
  | unlock (s : α)
  /-- 148-149: about to compare the times -/
  | rate (s : α)
  /-- 151-171: about to write the row of a file; the third one is followed by `last_pub_t_ = ...` (172) -/
  | write (k : File) (s : α)
  /-- 175: the thread has returned -/
  | exited

/-- the position of the thread that owns the estimator -/
inductive MPC (α : Type)
  /-- outside of the estimator -/
  | idle
  /-- 116: about to lock the log queue in order to push -/
  | pushLock (s : α)
  /-- 117-118 -/
  | push (s : α)
  /-- 119 -/
  | pushUnlock
  /-- 315: `clear` is about to lock the log queue -/
  | clearLock
  /-- 316-318: inside the loop that empties it -/
  | clearPop
  /-- 319 -/
  | clearUnlock
  /-- 321, 325, 329: about to close a file -/
  | close (k : File)
  /-- 322, 326, 330: about to open its successor -/
  | reopen (k : File)
  /-- 81: the destructor is about to set the stop flag -/
  | stop
  /-- 82: about to join the logging thread -/
  | join
  /-- 89-91 -/
  | closeAll
  /-- the destructor has returned -/
  | done

/-- what the owner can do next -/
inductive Op (α : Type)
  /-- the logging part of `RunOnce` (115-120) with a new state -/
  | log (s : α)
  /-- the logging part of `clear` (314-333) -/
  | clear
  /-- the destructor (78-93) -/
  | destroy

/-- The shared members.  `owner` is the holder of the mutex (`some true`: the logging thread).  `file k` is the
number of the session whose file is open in stream `k` (number 0: the constructor's; each `clear` opens the
next).  `out k` is the sequence of rows written to stream `k`, each with the number of the file it went to.
For the statement of properties, a state carries the number of the session in which it was pushed, and `pushed`
records all states pushed. -/
structure Sys (α : Type) where
  queue : List (ℕ × α) := []
  owner : Option Bool := none
  stop : Bool := false
  last : ℝ := 0
  file : File → Option ℕ := fun _ => some 0
  out : File → List (ℕ × ℕ × α) := fun _ => []
  L : LPC (ℕ × α) := .test
  M : MPC α := .idle
  session : ℕ := 0
  pushed : List (ℕ × α) := []

variable {α : Type}

/-- `outfile_ << ...`: on a stream that is not open the row is lost -/
def Sys.put (y : Sys α) (k : File) (s : ℕ × α) : File → List (ℕ × ℕ × α) :=
  fun j => if j = k then (match y.file k with | some n => y.out k ++ [(n, s)] | none => y.out k) else y.out j

open Classical in
/-- inekf_estimator.cpp:133-175: one step of the logging thread; `none`: it has to wait, or has returned.
`1.0 / 0` is infinite. -/
noncomputable def Sys.stepL (time : α → ℝ) (rate : ℝ) (y : Sys α) : Option (Sys α) :=
  match y.L with
  | .test => some { y with L := if y.stop then .exited else .lock }
  | .lock => match y.owner with
    | none => some { y with owner := some true, L := .look }
    | some _ => none
  | .look => match y.queue with
    | [] => some { y with L := .unlockEmpty }
    | s :: q => some { y with queue := q, L := .unlock s }
  | .unlockEmpty => some { y with owner := none, L := .test }
  | .unlock s => some { y with owner := none, L := .rate s }
  | .rate s => some { y with L := if rate ≠ 0 ∧ time s.2 - y.last ≥ 1 / rate then .write 0 s else .test }
  | .write 0 s => some { y with out := y.put 0 s, L := .write 1 s }
  | .write 1 s => some { y with out := y.put 1 s, L := .write 2 s }
  | .write 2 s => some { y with out := y.put 2 s, last := time s.2, L := .test }
  | .exited => none

/-- one step of the owner (lines as given at `MPC`); `none`: it has to wait, or has to be told what to do -/
def Sys.stepM (y : Sys α) : Option (Sys α) :=
  match y.M with
  | .idle => none
  | .pushLock s => match y.owner with
    | none => some { y with owner := some false, M := .push s }
    | some _ => none
  | .push s => some { y with queue := y.queue ++ [(y.session, s)], pushed := y.pushed ++ [(y.session, s)], M := .pushUnlock }
  | .pushUnlock => some { y with owner := none, M := .idle }
  | .clearLock => match y.owner with
    | none => some { y with owner := some false, M := .clearPop }
    | some _ => none
  | .clearPop => match y.queue with
    | [] => some { y with M := .clearUnlock }
    | _ :: q => some { y with queue := q }
  | .clearUnlock => some { y with owner := none, M := .close 0 }
  | .close k => some { y with file := fun j => if j = k then none else y.file j, M := .reopen k }
  | .reopen 0 => some { y with file := fun j => if j = 0 then some (y.session + 1) else y.file j, M := .close 1 }
  | .reopen 1 => some { y with file := fun j => if j = 1 then some (y.session + 1) else y.file j, M := .close 2 }
  | .reopen 2 => some { y with file := fun j => if j = 2 then some (y.session + 1) else y.file j, session := y.session + 1, M := .idle }
  | .stop => some { y with stop := true, M := .join }
  | .join => match y.L with
    | .exited => some { y with M := .closeAll }
    | _ => none
  | .closeAll => some { y with file := fun _ => none, M := .done }
  | .done => none

/-- the owner calls something -/
def Sys.call (y : Sys α) (o : Op α) : Option (Sys α) :=
  match y.M with
  | .idle => some { y with M := match o with | .log s => .pushLock s | .clear => .clearLock | .destroy => .stop }
  | _ => none

/-- one action of the system -/
inductive Act (α : Type)
  | logger
  | owner
  | call (o : Op α)

noncomputable def Sys.act (time : α → ℝ) (rate : ℝ) (y : Sys α) : Act α → Option (Sys α)
  | .logger => y.stepL time rate
  | .owner => y.stepM
  | .call o => y.call o

/-- a schedule -/
noncomputable def Sys.run (time : α → ℝ) (rate : ℝ) : Sys α → List (Act α) → Option (Sys α)
  | y, [] => some y
  | y, a :: as => (y.act time rate a).bind fun y' => Sys.run time rate y' as

end Drift.LogT
