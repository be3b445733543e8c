import Verif.Spec.Filter
import Verif.Spec.State
import Verif.Model.Correction

/-!
# Specification vocabulary: filter state with contacts
-/
namespace Drift
open Mat Matrix

/-- A well-formed filter with `K - 2` augmented columns: `X` in SE_K(3), covariance PSD, noise covariance
admissible, and the column table mirrors the columns of `X`. -/
structure Good (K : ℕ) (h : Heap) (s : RobotState) : Prop where
  shape : Shape K s
  world : s.stateType = .worldCentric
  psd : PSD s.P
  q : QcOK K s.Qc
  len : s.colMap.length = 3 + K
  tab : TableOK h s

/-- The references a contact correction holds (leg id ↦ reference): each designates a column of the state and
no two legs share one. -/
structure IdsOK (s : RobotState) (ids : ℕ → Option ℕ) : Prop where
  mem : ∀ id a, ids id = some a → some a ∈ s.colMap
  inj : ∀ id id' a, ids id = some a → ids id' = some a → id = id'

/-- Observation of the stance legs `L` (pairs column number, leg data) against the estimate `R`, `p` and the
contact positions `d col`: for leg `k` the rows `3k..3k+2` of
* `H` are `-I` at the position error (columns 6..8) and `+I` at the error of the leg's column,
* `N` are the foot covariance rotated to the world (block diagonal),
* `Z` are `R foot - (d - p)`. -/
structure StanceObs (n : ℕ) (R : M3) (p : V3) (d : ℕ → V3) (cov : LegObs → M3) (L : List (ℕ × LegObs)) (Z H N : Mat) :
    Prop where
  hr : H.rows = 3 * L.length
  hc : L ≠ [] → H.cols = 3 * n
  nr : N.rows = 3 * L.length
  nc : N.cols = 3 * L.length
  zr : Z.rows = 3 * L.length
  zc : Z.cols = 1
  h : ∀ k (hk : k < L.length) j, j < n →
    H.blk3 (3 * k) (3 * j) = if j = L[k].1 - 2 then 1 else if j = 2 then -1 else 0
  nn : ∀ k (hk : k < L.length) j, j < L.length →
    N.blk3 (3 * k) (3 * j) = if j = k then R * cov L[k].2 * Rᵀ else 0
  z : ∀ k (hk : k < L.length), Z.blkV (3 * k) 0 = R.mulVec L[k].2.pos - (d L[k].1 - p)

/-- nothing but `X`, `P`, the noise covariance and the column table differs -/
def SameButCols (s s' : RobotState) : Prop :=
  s' = { s with X := s'.X, P := s'.P, Qc := s'.Qc, colMap := s'.colMap }

/-- legs in contact that already have a column -/
def stanceL (m : LegMeas) (ids : ℕ → Option ℕ) (h : Heap) (n : ℕ) : List (ℕ × LegObs) :=
  (List.range n).filterMap fun id => match m.legs[id]?, ids id with
    | some o, some a => if o.contact then some ((h.val a).toNat, o) else none
    | _, _ => none

/-- covariance of a foot position: encoder noise through the Jacobian plus additive kinematic noise -/
def footCovSpec (enc kin : ℝ) (o : LegObs) : M3 := enc ^ 2 • (o.J * o.Jᵀ) + kin ^ 2 • (1 : M3)

/-- the Kalman update with the stance legs (nothing but the time stamp changes when there is none) -/
def StanceUpdate (c : LegCorr) (m : LegMeas) (h : Heap) (s s1 : RobotState) : Prop :=
  ∃ R p Z H N, s.get_rotation = some R ∧ s.get_position = some p ∧
    StanceObs (s.dimX) R p (fun j => s.X.blkV 0 j) (footCovSpec c.encStd c.kinStd) (stanceL m c.ids h m.legs.length) Z H N ∧
    (if stanceL m c.ids h m.legs.length = [] then s1 = { s with t := some m.time }
      else correctRightInvariant Z H N { s with t := some m.time } c.errorType = some s1)

/-- What one kinematic measurement does; `s1` is the state after the Kalman update. -/
structure LegStep (c : LegCorr) (m : LegMeas) (h : Heap) (s s1 : RobotState) (ids' : ℕ → Option ℕ) (h' : Heap)
    (s' : RobotState) : Prop where
  kalman : StanceUpdate c m h s s1
  frame1 : s1 = { s with t := some m.time, X := s1.X, Theta := s1.Theta, P := s1.P }
  frame2 : SameButCols s1 s'
  base : ∀ j, j < 5 → ∀ i, i < 3 → s'.X.e i j = s1.X.e i j
  next : h.next ≤ h'.next
  ids : IdsOK s' ids'
  /-- legs outside the measurement are not touched -/
  other : ∀ id, m.legs[id]? = none → ids' id = c.ids id
  /-- a leg not in contact has no column -/
  off : ∀ (id : ℕ) o, m.legs[id]? = some o → o.contact = false → ids' id = none
  /-- a leg that stays in contact keeps its reference -/
  stay : ∀ (id : ℕ) o a, m.legs[id]? = some o → o.contact = true → c.ids id = some a → ids' id = some a
  /-- a leg that makes contact gets a new reference, to a column holding the foot position -/
  made : ∀ (id : ℕ) o, m.legs[id]? = some o → o.contact = true → c.ids id = none →
    ∃ a, ids' id = some a ∧ h.next ≤ a ∧ a < h'.next ∧
      s'.get_vector (h'.val a) = some (s1.X.blkV 0 4 + (s1.X.blk3 0 0).mulVec o.pos)
  /-- the columns after the step: the old ones except those of the legs that lost contact, and the new ones -/
  cols : ∀ b, some b ∈ s'.colMap ↔
    (some b ∈ s.colMap ∧ ∀ (id : ℕ) o, m.legs[id]? = some o → o.contact = false → c.ids id ≠ some b) ∨
    (h.next ≤ b ∧ ∃ id, ids' id = some b)
  /-- columns that stay keep their vector -/
  vec : ∀ b, some b ∈ s.colMap → some b ∈ s'.colMap → s'.get_vector (h'.val b) = s1.get_vector (h.val b)

/-- what a contact correction and the filter share: the references held for the legs, the cells, the state -/
structure LegSys where
  ids : ℕ → Option ℕ
  heap : Heap
  state : RobotState

/-- One event in the life of a filter with one contact correction with parameters `c` and `n` legs: a
kinematic measurement, or anything else (propagation, another correction) that leaves a well-formed state and
does not touch the columns. -/
inductive LegOp (c : LegCorr) (n : ℕ) : LegSys → LegSys → Prop
  | kin {x : LegSys} {m : LegMeas} {ids' h' s'} (hn : m.legs.length = n)
      (e : LegCorr.apply { c with ids := x.ids } m x.heap x.state = some (ids', h', s')) : LegOp c n x ⟨ids', h', s'⟩
  | other {x : LegSys} {K : ℕ} {s' : RobotState} (g : Good K x.heap s') (hc : s'.colMap = x.state.colMap) :
      LegOp c n x ⟨x.ids, x.heap, s'⟩

/-- any history starting with no leg in contact -/
inductive LegRun (c : LegCorr) (n : ℕ) : LegSys → Prop
  | start {h : Heap} {s : RobotState} (g : Good 2 h s) : LegRun c n ⟨fun _ => none, h, s⟩
  | step {x y : LegSys} (hx : LegRun c n x) (hxy : LegOp c n x y) : LegRun c n y

end Drift
