import Verif.Model.WheelOdometry
import Verif.Lemmas.SO3

/-! Helper lemmas for the wheel odometry. -/
namespace Drift
open Matrix Mat
namespace OSys

/-- velocities the callback still has to push -/
def cbV : CbPc → List VelMeas
  | .wantV v _ => [v]
  | .holdV v _ => [v]
  | _ => []
/-- angular velocities the callback still has to push -/
def cbW : CbPc → List AngVelMeas
  | .wantV _ w => [w]
  | .holdV _ w => [w]
  | .doneV w => [w]
  | .wantW w => [w]
  | .holdW w => [w]
  | _ => []
/-- velocity in the hands of `RunOnce` -/
def runV : RunPc → List VelMeas
  | .unlockV v => [v]
  | .takeW v => [v]
  | .unlockW v _ => [v]
  | _ => []
/-- angular velocity in the hands of `RunOnce` -/
def runW : RunPc → List AngVelMeas
  | .unlockW _ w => [w]
  | _ => []
/-- the callback owns the velocity mutex -/
def cbHasV : CbPc → Bool
  | .holdV _ _ | .doneV _ => true
  | _ => false
/-- the callback owns the angular velocity mutex -/
def cbHasW : CbPc → Bool
  | .holdW _ | .doneW => true
  | _ => false
/-- `RunOnce` owns the velocity mutex -/
def runHasV : RunPc → Bool
  | .wantW | .check | .emptyV | .takeV | .unlockV _ => true
  | _ => false
/-- `RunOnce` owns the angular velocity mutex -/
def runHasW : RunPc → Bool
  | .check | .emptyV | .emptyW | .takeV | .unlockV _ | .takeW _ | .unlockW _ _ => true
  | _ => false

/-- the invariant -/
structure Inv (s : OSys) (D N : List (VelMeas × AngVelMeas)) : Prop where
  v : D.map Prod.fst = N.map Prod.fst ++ runV s.run ++ s.velQ ++ cbV s.cb
  w : D.map Prod.snd = N.map Prod.snd ++ runW s.run ++ s.angQ ++ cbW s.cb
  ownV : (s.ownV = some .cb ↔ cbHasV s.cb = true) ∧ (s.ownV = some .run ↔ runHasV s.run = true)
  ownW : (s.ownW = some .cb ↔ cbHasW s.cb = true) ∧ (s.ownW = some .run ↔ runHasW s.run = true)
  take : s.run = .takeV → s.velQ ≠ [] ∧ s.angQ ≠ []
  unl : ∀ v, s.run = .unlockV v → s.angQ ≠ []
  takew : ∀ v, s.run = .takeW v → s.angQ ≠ []

theorem inv_init (o : Odo) : Inv (init o) [] [] := by
  constructor <;> simp [init, runV, runW, cbV, cbW, cbHasV, cbHasW, runHasV, runHasW]

theorem inv_act {s s' : OSys} {D N} (h : Inv s D N) {a : OAct} (ha : s.act a = some s') :
    Inv s' (D ++ deliveredBy a) (N ++ s.processedBy a) := by
  obtain ⟨odo, velQ, angQ, oV, oW, cb, run⟩ := s
  obtain ⟨hv, hw, ⟨hV1, hV2⟩, ⟨hW1, hW2⟩, ht, hu, htw⟩ := h
  dsimp only at hv hw hV1 hV2 hW1 hW2 ht hu htw
  cases a with
  | deliver v w =>
    cases cb <;> simp only [act, reduceCtorEq, Option.some.injEq] at ha
    subst ha
    constructor <;> simp_all [deliveredBy, processedBy, runV, runW, cbV, cbW, cbHasV, cbHasW]
  | cb =>
    cases cb <;> simp only [act, cbStep, reduceCtorEq, Option.some.injEq] at ha
    · split_ifs at ha
      obtain rfl := Option.some.inj ha
      constructor <;> simp_all [deliveredBy, processedBy, runV, runW, cbV, cbW, cbHasV, cbHasW]
    · subst ha
      constructor <;> simp_all [deliveredBy, processedBy, runV, runW, cbV, cbW, cbHasV, cbHasW]
    · subst ha
      constructor <;> simp_all [deliveredBy, processedBy, runV, runW, cbV, cbW, cbHasV, cbHasW]
    · split_ifs at ha
      obtain rfl := Option.some.inj ha
      constructor <;> simp_all [deliveredBy, processedBy, runV, runW, cbV, cbW, cbHasV, cbHasW]
    · subst ha
      constructor <;> simp_all [deliveredBy, processedBy, runV, runW, cbV, cbW, cbHasV, cbHasW]
    · subst ha
      constructor <;> simp_all [deliveredBy, processedBy, runV, runW, cbV, cbW, cbHasV, cbHasW]
  | run =>
    cases run <;> simp only [act, runStep, reduceCtorEq, Option.some.injEq] at ha
    · subst ha
      constructor <;> simp_all [deliveredBy, processedBy, runV, runW, runHasV, runHasW]
    · split_ifs at ha
      obtain rfl := Option.some.inj ha
      constructor <;> simp_all [deliveredBy, processedBy, runV, runW, runHasV, runHasW]
    · split_ifs at ha
      obtain rfl := Option.some.inj ha
      constructor <;> simp_all [deliveredBy, processedBy, runV, runW, runHasV, runHasW]
    · split_ifs at ha with hc
      · obtain rfl := Option.some.inj ha
        constructor <;> simp_all [deliveredBy, processedBy, runV, runW, runHasV, runHasW]
      · obtain rfl := Option.some.inj ha
        constructor <;> simp_all [deliveredBy, processedBy, runV, runW, runHasV, runHasW]
    · subst ha
      constructor <;> simp_all [deliveredBy, processedBy, runV, runW, runHasV, runHasW]
    · subst ha
      constructor <;> simp_all [deliveredBy, processedBy, runV, runW, runHasV, runHasW]
    · cases velQ with
      | nil => exact absurd rfl (ht rfl).1
      | cons v q =>
        obtain rfl := Option.some.inj ha
        constructor <;> simp_all [deliveredBy, processedBy, runV, runW, runHasV, runHasW]
    · subst ha
      constructor <;> simp_all [deliveredBy, processedBy, runV, runW, runHasV, runHasW]
    · cases angQ with
      | nil => exact absurd rfl (htw _ rfl)
      | cons w q =>
        obtain rfl := Option.some.inj ha
        constructor <;> simp_all [deliveredBy, processedBy, runV, runW, runHasV, runHasW]
    · subst ha
      constructor <;> simp_all [deliveredBy, processedBy, runV, runW, runHasV, runHasW]

theorem inv_exec {o : Odo} {l s D N} (h : Exec (init o) l s D N) : Inv s D N := by
  generalize hs : init o = s0 at h
  induction h with
  | nil => subst hs; exact inv_init o
  | snoc h a s'' ha ih => exact inv_act ih ha

theorem prefix_of_maps {α β : Type} : ∀ {N D : List (α × β)}, N.map Prod.fst <+: D.map Prod.fst →
    N.map Prod.snd <+: D.map Prod.snd → N <+: D
  | [], D, _, _ => List.nil_prefix
  | (a, b) :: N, [], h, _ => by simp at h
  | (a, b) :: N, (c, d) :: D, h1, h2 => by
    simp only [List.map_cons, List.cons_prefix_cons] at h1 h2
    obtain ⟨rfl, h1⟩ := h1
    obtain ⟨rfl, h2⟩ := h2
    rw [List.cons_prefix_cons]
    exact ⟨rfl, prefix_of_maps h1 h2⟩

/-- number of steps until both threads are idle again -/
def todo (s : OSys) : ℕ :=
  (match s.cb with
    | .idle => 0
    | .wantV _ _ => 6
    | .holdV _ _ => 5
    | .doneV _ => 4
    | .wantW _ => 3
    | .holdW _ => 2
    | .doneW => 1) +
  (match s.run with
    | .idle => 0
    | .wantV => 7
    | .wantW => 6
    | .check => 5
    | .emptyV => 2
    | .emptyW => 1
    | .takeV => 4
    | .unlockV _ => 3
    | .takeW _ => 2
    | .unlockW _ _ => 1)

end OSys

/-! ### The sequential part -/
namespace Odo

/-- the blocks of the matrix built by `Integrate` -/
noncomputable def X5 (R : M3) (a b : V3) : Mat :=
  (((Mat.ones 5 5).setBlockP 0 0 (of3 R)).setBlockP 0 3 (ofV a)).setBlockP 0 4 (ofV b)

theorem X5_blocks (R : M3) (a b : V3) : (X5 R a b).rows = 5 ∧ (X5 R a b).cols = 5 ∧ (X5 R a b).blk3 0 0 = R ∧
    (X5 R a b).blkV 0 3 = a ∧ (X5 R a b).blkV 0 4 = b ∧ (X5 R a b).e 3 0 = 1 := by
  refine ⟨rfl, rfl, ?_, ?_, ?_, ?_⟩
  · funext i j
    fin_cases i <;> fin_cases j <;> simp [X5, blk3, setBlockP, ones, ofFn, of3, ofM]
  · funext i
    fin_cases i <;> simp [X5, blkV, setBlockP, ones, ofFn, of3, ofV, ofM]
  · funext i
    fin_cases i <;> simp [X5, blkV, setBlockP, ones, ofFn, of3, ofV, ofM]
  · simp [X5, setBlockP, ones, ofFn, of3, ofV, ofM]

/-- the shape of the state -/
structure Good (o : Odo) : Prop where
  rows : o.state.X.rows = 5
  cols : o.state.X.cols = 5
  type : o.state.stateType = .worldCentric
  rot : IsRot (o.state.X.blk3 0 0)

theorem integrate_eq {o : Odo} (h : Good o) {t : ℝ} (ht : o.state.t = some t) (v w : V3) (dt : ℝ) :
    o.integrate v w dt = some { o with state := { o.state with
      X := X5 (o.state.X.blk3 0 0 * Gam0 (dt • w)) ((o.state.X.blk3 0 0).mulVec v)
        (o.state.X.blkV 0 4 + dt • (o.state.X.blk3 0 0).mulVec v)
      t := some (t + dt) } } := by
  unfold integrate RobotState.get_rotation RobotState.get_velocity RobotState.get_position
  simp only [blk3?, blkV?, h.rows, h.cols, gamma_SO3_zero, ht, setBlock?]
  rfl

theorem Good.integrate {o : Odo} (h : Good o) {t : ℝ} (v w : V3) (dt : ℝ) : Good { o with state := { o.state with
      X := X5 (o.state.X.blk3 0 0 * Gam0 (dt • w)) ((o.state.X.blk3 0 0).mulVec v)
        (o.state.X.blkV 0 4 + dt • (o.state.X.blk3 0 0).mulVec v)
      t := some (t + dt) } } := by
  obtain ⟨h1, h2, h3, _⟩ := X5_blocks (o.state.X.blk3 0 0 * Gam0 (dt • w)) ((o.state.X.blk3 0 0).mulVec v)
        (o.state.X.blkV 0 4 + dt • (o.state.X.blk3 0 0).mulVec v)
  refine ⟨h1, h2, h.type, ?_⟩
  show IsRot ((X5 _ _ _).blk3 0 0)
  rw [h3]
  exact h.rot.mul (Gam0_isRot _)

theorem logPose_eq {o : Odo} (h : Good o) {t : ℝ} (ht : o.state.t = some t) :
    ∃ r l, o.logPose = some { o with rows := r, lastPub := l } ∧
      ((¬ (o.enabled = true ∧ o.rate ≠ 0 ∧ 1 / o.rate ≤ t - o.lastPub) ∧ r = o.rows ∧ l = o.lastPub) ∨
        (o.enabled = true ∧ o.rate ≠ 0 ∧ 1 / o.rate ≤ t - o.lastPub ∧
        r = o.rows ++ [⟨t, o.state.X.blkV 0 4, o.state.X.blk3 0 0⟩] ∧ l = t)) := by
  unfold logPose
  rw [ht]
  simp only [Option.bind_eq_bind, Option.bind_some]
  split_ifs with hc
  · refine ⟨o.rows ++ [⟨t, o.state.X.blkV 0 4, o.state.X.blk3 0 0⟩], t, ?_, Or.inr ⟨hc.1, hc.2.1, hc.2.2, rfl, rfl⟩⟩
    unfold RobotState.get_world_rotation RobotState.get_world_position
    rw [h.type]
    simp only [RobotState.get_rotation, RobotState.get_position, blk3?, blkV?, h.rows, h.cols]
    rfl
  · exact ⟨o.rows, o.lastPub, rfl, Or.inl ⟨hc, rfl, rfl⟩⟩

theorem process_good {o : Odo} (h : Good o) (hp : o.prevT ≠ 0 → o.state.t = some o.prevT) (v : VelMeas) (w : AngVelMeas) :
    ∃ o', o.process v w = some o' ∧ Good o' ∧ o'.prevT = v.time ∧ o'.state.t = some v.time ∧ o'.enabled = o.enabled ∧
      o'.rate = o.rate ∧
      (o.prevT = 0 → o'.state.X = o.state.X ∧ o'.rows = o.rows ∧ o'.lastPub = o.lastPub) ∧
      (o.prevT ≠ 0 →
        o'.state.X = X5 (o.state.X.blk3 0 0 * Gam0 ((v.time - o.prevT) • w.angVel)) ((o.state.X.blk3 0 0).mulVec v.vel)
          (o.state.X.blkV 0 4 + (v.time - o.prevT) • (o.state.X.blk3 0 0).mulVec v.vel) ∧
        ((¬ (o.enabled = true ∧ o.rate ≠ 0 ∧ 1 / o.rate ≤ v.time - o.lastPub) ∧ o'.rows = o.rows ∧ o'.lastPub = o.lastPub) ∨
          (o.enabled = true ∧ o.rate ≠ 0 ∧
          1 / o.rate ≤ v.time - o.lastPub ∧
          o'.rows = o.rows ++ [⟨v.time, o'.state.X.blkV 0 4, o'.state.X.blk3 0 0⟩] ∧ o'.lastPub = v.time))) := by
  unfold process
  by_cases h0 : o.prevT = 0
  · rw [if_pos h0]
    exact ⟨_, rfl, ⟨h.rows, h.cols, h.type, h.rot⟩, rfl, rfl, rfl, rfl, fun _ => ⟨rfl, rfl, rfl⟩, fun k => absurd h0 k⟩
  · rw [if_neg h0]
    have hg : Good { o with prevT := v.time } := ⟨h.rows, h.cols, h.type, h.rot⟩
    have e := integrate_eq hg (t := o.prevT) (hp h0) v.vel w.angVel (v.time - o.prevT)
    have hgi := hg.integrate (t := o.prevT) v.vel w.angVel (v.time - o.prevT)
    obtain ⟨r, l, e2, hrl⟩ := logPose_eq hgi (t := o.prevT + (v.time - o.prevT)) rfl
    have ht : o.prevT + (v.time - o.prevT) = v.time := by ring
    rw [e]
    simp only [Option.bind_eq_bind, Option.bind_some]
    rw [e2]
    refine ⟨_, rfl, ⟨hgi.rows, hgi.cols, hgi.type, hgi.rot⟩, rfl, by dsimp only; rw [ht], rfl, rfl, fun k => absurd k h0,
      fun _ => ⟨rfl, ?_⟩⟩
    rw [ht] at hrl
    exact hrl

theorem ctor_good (b : Bool) (r : Option ℝ) : Good (ctor b r) := by
  refine ⟨rfl, rfl, rfl, ?_⟩
  have : (ctor b r).state.X.blk3 0 0 = 1 := by
    funext i j
    fin_cases i <;> fin_cases j <;> simp [ctor, RobotState.init, blk3, Mat.one, Mat.eye, Mat.ofFn]
  rw [this]
  exact IsRot.one

theorem processAll_append : ∀ (a b : List (VelMeas × AngVelMeas)) (o : Odo),
    processAll (a ++ b) o = (processAll a o).bind (processAll b)
  | [], b, o => rfl
  | m :: a, b, o => by
    show (o.process m.1 m.2).bind _ = ((o.process m.1 m.2).bind _).bind _
    rw [Option.bind_assoc]
    congr 1
    funext o'
    exact processAll_append a b o'

end Odo
end Drift
