import Verif.Spec.NotANumber
import Mathlib.Tactic.FinCases
import Mathlib.Tactic.Linarith

/-!
# C169: a value that is not a number
-/
namespace Drift
namespace Nan
open Dbl

@[simp] theorem nan_add (x : Dbl) : nan + x = nan := by cases x <;> rfl
@[simp] theorem add_nan (x : Dbl) : x + nan = nan := by cases x <;> rfl
@[simp] theorem nan_sub (x : Dbl) : nan - x = nan := by cases x <;> rfl
@[simp] theorem sub_nan (x : Dbl) : x - nan = nan := by cases x <;> rfl
@[simp] theorem nan_mul (x : Dbl) : nan * x = nan := by cases x <;> rfl
@[simp] theorem mul_nan (x : Dbl) : x * nan = nan := by cases x <;> rfl
@[simp] theorem nan_div (x : Dbl) : nan / x = nan := by cases x <;> rfl
@[simp] theorem div_nan (x : Dbl) : x / nan = nan := by cases x <;> rfl
@[simp] theorem neg_nan : -nan = nan := rfl
@[simp] theorem map_nan (f : ℝ → ℝ) : nan.map f = nan := rfl
@[simp] theorem lt_nan (c : ℝ) : ¬ nan.lt c := id
@[simp] theorem num_add (x y : ℝ) : num x + num y = num (x + y) := rfl
@[simp] theorem num_sub (x y : ℝ) : num x - num y = num (x - y) := rfl
@[simp] theorem num_mul (x y : ℝ) : num x * num y = num (x * y) := rfl
@[simp] theorem num_div (x y : ℝ) : num x / num y = num (x / y) := rfl
@[simp] theorem neg_num (x : ℝ) : -num x = num (-x) := rfl

theorem isNum_num (x : ℝ) : (num x).IsNum := by simp [IsNum]
theorem Dbl.IsNum.ex {x : Dbl} (h : x.IsNum) : ∃ r, x = num r := by
  cases x with
  | num r => exact ⟨r, rfl⟩
  | nan => exact absurd rfl h
theorem Dbl.IsNum.add {x y : Dbl} (hx : x.IsNum) (hy : y.IsNum) : (x + y).IsNum := by
  obtain ⟨a, rfl⟩ := hx.ex; obtain ⟨b, rfl⟩ := hy.ex; exact isNum_num _
theorem Dbl.IsNum.sub {x y : Dbl} (hx : x.IsNum) (hy : y.IsNum) : (x - y).IsNum := by
  obtain ⟨a, rfl⟩ := hx.ex; obtain ⟨b, rfl⟩ := hy.ex; exact isNum_num _
theorem Dbl.IsNum.mul {x y : Dbl} (hx : x.IsNum) (hy : y.IsNum) : (x * y).IsNum := by
  obtain ⟨a, rfl⟩ := hx.ex; obtain ⟨b, rfl⟩ := hy.ex; exact isNum_num _
theorem Dbl.IsNum.div {x y : Dbl} (hx : x.IsNum) (hy : y.IsNum) : (x / y).IsNum := by
  obtain ⟨a, rfl⟩ := hx.ex; obtain ⟨b, rfl⟩ := hy.ex; exact isNum_num _
theorem Dbl.IsNum.neg {x : Dbl} (hx : x.IsNum) : (-x).IsNum := by
  obtain ⟨a, rfl⟩ := hx.ex; exact isNum_num _
theorem Dbl.IsNum.map {x : Dbl} (hx : x.IsNum) (f : ℝ → ℝ) : (x.map f).IsNum := by
  obtain ⟨a, rfl⟩ := hx.ex; exact isNum_num _

theorem foldr_nan (l : List Dbl) (h : nan ∈ l) : l.foldr (· + ·) (num 0) = nan := by
  induction l with
  | nil => simp at h
  | cons x l ih =>
    rcases List.mem_cons.mp h with rfl | h
    · simp
    · simp [ih h]

theorem foldr_num (l : List Dbl) (h : ∀ x ∈ l, x.IsNum) : (l.foldr (· + ·) (num 0)).IsNum := by
  induction l with
  | nil => exact isNum_num 0
  | cons x l ih => exact (h x (List.mem_cons_self ..)).add (ih fun y hy => h y (List.mem_cons_of_mem _ hy))

theorem total_nan {n} {f : DVec n} (k : Fin n) (h : f k = nan) : total f = nan := foldr_nan _ (List.mem_ofFn.mpr ⟨k, h⟩)
theorem total_num {n} {f : DVec n} (h : ∀ k, (f k).IsNum) : (total f).IsNum := foldr_num _ fun x hx => by
  obtain ⟨k, rfl⟩ := List.mem_ofFn.mp hx; exact h k

theorem mul_left_nan {m k n} {A : DMat m k} {B : DMat k n} {i : Fin m} {j : Fin n} (l : Fin k) (h : A i l = nan) : A.mul B i j = nan :=
  total_nan l (by simp [h])
theorem mul_right_nan {m k n} {A : DMat m k} {B : DMat k n} {i : Fin m} {j : Fin n} (l : Fin k) (h : B l j = nan) : A.mul B i j = nan :=
  total_nan l (by simp [h])
theorem mulV_left_nan {m n} {A : DMat m n} {v : DVec n} {i : Fin m} (l : Fin n) (h : A i l = nan) : A.mulV v i = nan := total_nan l (by simp [h])
theorem mulV_right_nan {m n} {A : DMat m n} {v : DVec n} {i : Fin m} (l : Fin n) (h : v l = nan) : A.mulV v i = nan := total_nan l (by simp [h])

theorem norm_nan {w : DVec 3} (k : Fin 3) (h : w k = nan) : normD w = nan := by
  unfold normD; rw [total_nan k (by simp [h])]; rfl

theorem gammas_nan {w : DVec 3} (k : Fin 3) (h : w k = nan) (i j : Fin 3) : gamma0 w i j = nan ∧ gamma1 w i j = nan ∧ gamma2 w i j = nan := by
  refine ⟨?_, ?_, ?_⟩
  · simp [gamma0, norm_nan k h, DMat.add, DMat.scale]
  · simp [gamma1, norm_nan k h, DMat.add, DMat.scale]
  · simp [gamma2, norm_nan k h, DMat.add, DMat.scale]

/-- the matrix of numbers -/
def NumM {m n} (A : DMat m n) : Prop := ∀ i j, (A i j).IsNum
/-- the vector of numbers -/
def NumV {n} (v : DVec n) : Prop := ∀ i, (v i).IsNum

theorem numM_of {m n} (A : Matrix (Fin m) (Fin n) ℝ) : NumM (ofNum A) := fun _ _ => isNum_num _
theorem NumM.add {m n} {A B : DMat m n} (hA : NumM A) (hB : NumM B) : NumM (A.add B) := fun i j => (hA i j).add (hB i j)
theorem NumM.scale {m n} {A : DMat m n} (hA : NumM A) {c : Dbl} (hc : c.IsNum) : NumM (A.scale c) := fun i j => hc.mul (hA i j)
theorem NumM.mul {m k n} {A : DMat m k} {B : DMat k n} (hA : NumM A) (hB : NumM B) : NumM (A.mul B) := fun i j => total_num fun l => (hA i l).mul (hB l j)
theorem NumM.mulV {m n} {A : DMat m n} {v : DVec n} (hA : NumM A) (hv : NumV v) : NumV (A.mulV v) := fun i => total_num fun l => (hA i l).mul (hv l)
theorem NumV.add {n} {u v : DVec n} (hu : NumV u) (hv : NumV v) : NumV (u.add v) := fun i => (hu i).add (hv i)
theorem NumV.sub {n} {u v : DVec n} (hu : NumV u) (hv : NumV v) : NumV (u.sub v) := fun i => (hu i).sub (hv i)
theorem NumV.scale {n} {v : DVec n} (hv : NumV v) {c : Dbl} (hc : c.IsNum) : NumV (v.scale c) := fun i => hc.mul (hv i)
theorem NumV.three {a b c : Dbl} (ha : a.IsNum) (hb : b.IsNum) (hc : c.IsNum) : NumV ![a, b, c] := fun i => by fin_cases i <;> assumption
theorem NumV.skew {v : DVec 3} (h : NumV v) : NumM (skewD v) := fun i j => by
  have z := isNum_num 0
  fin_cases i <;> fin_cases j
  exacts [z, (h 2).neg, h 1, h 2, z, (h 0).neg, (h 1).neg, h 0, z]
theorem NumV.cross {u v : DVec 3} (hu : NumV u) (hv : NumV v) : NumV (crossD u v) :=
  NumV.three (((hu 1).mul (hv 2)).sub ((hu 2).mul (hv 1))) (((hu 2).mul (hv 0)).sub ((hu 0).mul (hv 2))) (((hu 0).mul (hv 1)).sub ((hu 1).mul (hv 0)))
theorem NumV.norm {v : DVec 3} (h : NumV v) : (normD v).IsNum := (total_num fun i => (h i).mul (h i)).map _

theorem gammas_num {w : DVec 3} (h : NumV w) : NumM (gamma0 w) ∧ NumM (gamma1 w) ∧ NumM (gamma2 w) := by
  have t := h.norm
  have A := h.skew
  have o := isNum_num 1
  have two := isNum_num 2
  refine ⟨?_, ?_, ?_⟩
  · unfold gamma0
    dsimp only
    split_ifs
    · exact numM_of _
    · exact ((numM_of _).add (A.scale ((t.map _).div t))).add ((A.scale ((o.sub (t.map _)).div (t.mul t))).mul A)
  · unfold gamma1
    dsimp only
    split_ifs
    · exact numM_of _
    · exact ((numM_of _).add (A.scale ((o.sub (t.map _)).div (t.mul t)))).add ((A.scale ((t.sub (t.map _)).div ((t.mul t).mul t))).mul A)
  · unfold gamma2
    dsimp only
    split_ifs
    · exact numM_of _
    · exact ((numM_of _).add (A.scale ((t.sub (t.map _)).div ((t.mul t).mul t)))).add
        ((A.scale ((((t.mul t).add (two.mul (t.map _))).sub two).div ((two.mul (t.mul t)).mul (t.mul t)))).mul A)

theorem seg_num {δ : DVec 15} (h : NumV δ) (k : ℕ) (hk : k + 2 < 15) : NumV (seg δ k hk) := NumV.three (h _) (h _) (h _)

theorem assemble_num {R : DMat 3 3} {v p : DVec 3} {r3 r4 : DVec 5} (hR : NumM R) (hv : NumV v) (hp : NumV p) (h3 : NumV r3) (h4 : NumV r4) :
    NumM (assemble R v p r3 r4) := fun i j => by
  fin_cases i
  · fin_cases j
    exacts [hR 0 0, hR 0 1, hR 0 2, hv 0, hp 0]
  · fin_cases j
    exacts [hR 1 0, hR 1 1, hR 1 2, hv 1, hp 1]
  · fin_cases j
    exacts [hR 2 0, hR 2 1, hR 2 2, hv 2, hp 2]
  · exact h3 j
  · exact h4 j

open Classical in
theorem expD_num {δ : DVec 15} (h : NumV δ) : NumM (expD δ) := by
  have w := seg_num h 0 (by omega)
  have t := w.norm
  have A := w.skew
  have c := ((isNum_num 1).sub (t.map Real.cos)).div (t.mul t)
  unfold expD
  dsimp only
  have z := isNum_num 0
  have o := isNum_num 1
  have J : ∀ {p : Prop} {d : Decidable p} {B : DMat 3 3}, NumM B → NumM (if p then ofNum 1 else B) := fun hB => by
    split_ifs
    · exact numM_of _
    · exact hB
  refine assemble_num (J (((numM_of _).add (A.scale ((t.map _).div t))).add ((A.mul A).scale c)))
    ((J (((numM_of _).add (A.scale c)).add ((A.mul A).scale ((t.sub (t.map _)).div ((t.mul t).mul t))))).mulV (seg_num h 3 (by omega)))
    ((J (((numM_of _).add (A.scale c)).add ((A.mul A).scale ((t.sub (t.map _)).div ((t.mul t).mul t))))).mulV (seg_num h 6 (by omega)))
    (fun i => by fin_cases i <;> assumption) (fun i => by fin_cases i <;> assumption)

theorem St.Numbers.parts {s : St} (h : s.Numbers) : NumM s.rot ∧ NumV s.vel ∧ NumV s.pos := by
  refine ⟨fun i j => ?_, NumV.three (h.1 _ _) (h.1 _ _) (h.1 _ _), NumV.three (h.1 _ _) (h.1 _ _) (h.1 _ _)⟩
  fin_cases i <;> fin_cases j <;> exact h.1 _ _

theorem step_num (m : Mounts) {s : St} (h : s.Numbers) {e : Msg} (h1 : ¬ e.Faulty) (h2 : e.RestNum) : (s.step m e).Numbers := by
  obtain ⟨hR, hv, hp⟩ := h.parts
  cases e with
  | imu gyro acc dt =>
    change ¬ ((∃ i, gyro i = nan) ∨ ∃ i, acc i = nan) at h1
    push Not at h1
    have hg : NumV gyro := fun i => h1.1 i
    have ha : NumV acc := fun i => h1.2 i
    have hd : dt.IsNum := h2
    have w : NumV (((ofNum m.Rimu).mulV gyro).sub s.bg) := ((numM_of _).mulV hg).sub h.2.1
    have t : NumV (fun i => num (m.timu i)) := fun i => isNum_num _
    have a := (((numM_of m.Rimu).mulV ha).sub h.2.2).sub (w.cross (w.cross t))
    obtain ⟨g0, g1, g2⟩ := gammas_num (w.scale hd)
    have g : NumV grav := NumV.three (isNum_num _) (isNum_num _) (isNum_num _)
    exact ⟨assemble_num (hR.mul g0) (hv.add ((((hR.mul g1).mulV a).add g).scale hd))
      ((hp.add (hv.scale hd)).add (((((hR.mul g2).mulV a).add (g.scale (isNum_num _))).scale hd).scale hd)) (h.1 3) (h.1 4), h.2⟩
  | velocity K u =>
    change ¬ ∃ i, u i = nan at h1
    push Not at h1
    have hu : NumV u := fun i => h1 i
    have hK : NumM K := h2
    have d := hK.mulV ((((hR.mul (numM_of m.Rvel)).scale (isNum_num m.scale)).mulV hu).sub hv)
    exact ⟨(expD_num d).mul h.1, NumV.add h.2.1 (NumV.three (d _) (d _) (isNum_num _)), NumV.add h.2.2 (NumV.three (d _) (d _) (d _))⟩

theorem run_num (m : Mounts) (l : List Msg) : ∀ s : St, s.Numbers → (∀ e ∈ l, ¬ e.Faulty ∧ e.RestNum) → (s.run m l).Numbers := by
  induction l with
  | nil => intro s h _; exact h
  | cons e l ih =>
    intro s h hl
    have he := hl e (List.mem_cons_self ..)
    exact ih _ (step_num m h he.1 he.2) fun e he => hl e (List.mem_cons_of_mem _ he)

/-! ### NaN stays -/

/-- velocity and position are NaN -/
def St.Gone (s : St) : Prop := (∀ i, s.vel i = nan) ∧ ∀ i, s.pos i = nan

theorem assemble_rot (R : DMat 3 3) (v p : DVec 3) (r3 r4 : DVec 5) (b c : DVec 3) : (St.mk (assemble R v p r3 r4) b c).rot = R ∧
    (St.mk (assemble R v p r3 r4) b c).vel = v ∧ (St.mk (assemble R v p r3 r4) b c).pos = p := by
  refine ⟨?_, ?_, ?_⟩
  · funext i j; fin_cases i <;> fin_cases j <;> rfl
  · funext i; fin_cases i <;> rfl
  · funext i; fin_cases i <;> rfl

theorem lost_of {s : St} (h : ∀ i : Fin 5, i.1 < 3 → ∀ j, s.X i j = nan) : s.Lost := by
  refine ⟨fun i j => ?_, fun i => ?_, fun i => ?_⟩
  · fin_cases i <;> fin_cases j <;> exact h _ (by decide) _
  · fin_cases i <;> exact h _ (by decide) _
  · fin_cases i <;> exact h _ (by decide) _

theorem Lost.imu {m : Mounts} {s : St} (h : s.Lost) (gyro acc : DVec 3) (dt : Dbl) : (s.imu m gyro acc dt).Lost := by
  obtain ⟨h1, h2, h3⟩ := h
  unfold St.imu
  dsimp only
  unfold St.Lost
  rw [(assemble_rot _ _ _ _ _ _ _).1, (assemble_rot _ _ _ _ _ _ _).2.1, (assemble_rot _ _ _ _ _ _ _).2.2]
  exact ⟨fun i j => mul_left_nan 0 (h1 _ _), fun i => by simp [DVec.add, h2], fun i => by simp [DVec.add, h3]⟩

theorem Gone.imu {m : Mounts} {s : St} (h : s.Gone) (gyro acc : DVec 3) (dt : Dbl) : (s.imu m gyro acc dt).Gone := by
  obtain ⟨h2, h3⟩ := h
  unfold St.imu
  dsimp only
  unfold St.Gone
  rw [(assemble_rot _ _ _ _ _ _ _).2.1, (assemble_rot _ _ _ _ _ _ _).2.2]
  exact ⟨fun i => by simp [DVec.add, h2], fun i => by simp [DVec.add, h3]⟩

theorem expD_nan {δ : DVec 15} (h : ∀ i, δ i = nan) (i j : Fin 5) (hi : i.1 < 3) : expD δ i j = nan := by
  have n : normD (seg δ 0) = nan := norm_nan 0 (h _)
  unfold expD
  simp only [n, map_nan, lt_nan, if_false, div_nan, nan_div, sub_nan, mul_nan]
  have e : ∀ (A B C : DMat 3 3) (i j : Fin 3), ((A.add (B.scale nan)).add C) i j = nan := fun A B C i j => by simp [DMat.add, DMat.scale]
  have e2 : ∀ (A B C : DMat 3 3) (v : DVec 3) (i : Fin 3), ((A.add (B.scale nan)).add C).mulV v i = nan := fun A B C v i => mulV_left_nan 0 (e _ _ _ _ _)
  fin_cases i <;> fin_cases j <;> first | exact e _ _ _ _ _ | exact e2 _ _ _ _ _ | simp at hi

/-- an innovation with a NaN loses everything -/
theorem velocity_lost {m : Mounts} {s : St} (K : DMat 15 3) (u : DVec 3)
    (h : ∃ k, ((((s.rot).mul (ofNum m.Rvel)).scale (num m.scale)).mulV u).sub s.vel k = nan) : (s.velocity m K u).Lost := by
  obtain ⟨k, hk⟩ := h
  exact lost_of fun i hi j => mul_left_nan 0 (expD_nan (fun q => mulV_right_nan k hk) i 0 hi)

theorem Gone.velocity {m : Mounts} {s : St} (h : s.Gone) (K : DMat 15 3) (u : DVec 3) : (s.velocity m K u).Lost :=
  velocity_lost K u ⟨0, by simp [DVec.sub, h.1]⟩

theorem St.Lost.gone {s : St} (h : s.Lost) : s.Gone := h.2

theorem lost_run (m : Mounts) (l : List Msg) : ∀ s : St, s.Lost → (s.run m l).Lost := by
  induction l with
  | nil => intro s h; exact h
  | cons e l ih =>
    intro s h
    refine ih _ ?_
    cases e with
    | imu gyro acc dt => exact Lost.imu h gyro acc dt
    | velocity K u => exact Gone.velocity h.gone K u

theorem gone_run (m : Mounts) (l : List Msg) : ∀ s : St, s.Gone → (s.run m l).Gone ∧ ((∃ K u, Msg.velocity K u ∈ l) → (s.run m l).Lost) := by
  induction l with
  | nil => intro s h; exact ⟨h, by simp⟩
  | cons e l ih =>
    intro s h
    cases e with
    | imu gyro acc dt =>
      obtain ⟨i1, i2⟩ := ih _ (Gone.imu h gyro acc dt)
      refine ⟨i1, fun ⟨K, u, hKu⟩ => i2 ⟨K, u, ?_⟩⟩
      rcases List.mem_cons.mp hKu with h | h
      · cases h
      · exact h
    | velocity K u =>
      have := lost_run m l _ (Gone.velocity (m := m) h K u)
      exact ⟨this.gone, fun _ => this⟩

/-- **C169**, orientation: a message of the IMU with one rate that is not a number, or a velocity message with one component that is not a number, and no
entry of the orientation, velocity and position is a number from then on, whatever messages follow, whatever the gains -/
theorem C169_lost (m : Mounts) (s : St) :
    (∀ gyro acc dt, (∃ i, gyro i = nan) → ∀ l, ((s.imu m gyro acc dt).run m l).Lost) ∧
    ∀ K u, (∃ i, u i = nan) → ∀ l, ((s.velocity m K u).run m l).Lost := by
  refine ⟨fun gyro acc dt ⟨k, hk⟩ l => lost_run m l _ ?_, fun K u ⟨k, hk⟩ l => lost_run m l _ (velocity_lost K u ⟨0, ?_⟩)⟩
  · have hw : ∀ i, ((((ofNum m.Rimu).mulV gyro).sub s.bg).scale dt) i = nan := fun i => by
      simp only [DVec.scale, DVec.sub, mulV_right_nan k hk, nan_sub, mul_nan]
    have g := fun i j => gammas_nan 0 (hw 0) i j
    unfold St.imu
    dsimp only
    unfold St.Lost
    rw [(assemble_rot _ _ _ _ _ _ _).1, (assemble_rot _ _ _ _ _ _ _).2.1, (assemble_rot _ _ _ _ _ _ _).2.2]
    refine ⟨fun i j => mul_right_nan 0 (g _ _).1, fun i => ?_, fun i => ?_⟩
    · have : ∀ a : DVec 3, (s.rot.mul (gamma1 ((((ofNum m.Rimu).mulV gyro).sub s.bg).scale dt))).mulV a i = nan := fun a =>
        mulV_left_nan 0 (mul_right_nan 0 (g _ _).2.1)
      simp [DVec.add, DVec.scale, this]
    · have : ∀ a : DVec 3, (s.rot.mul (gamma2 ((((ofNum m.Rimu).mulV gyro).sub s.bg).scale dt))).mulV a i = nan := fun a =>
        mulV_left_nan 0 (mul_right_nan 0 (g _ _).2.2)
      simp [DVec.add, DVec.scale, this]
  · simp only [DVec.sub, mulV_right_nan k hk, nan_sub]

/-- **C169**, specific force: one acceleration that is not a number, and velocity and position are NaN from then on; with the next velocity message the
orientation is, too -/
theorem C169_force (m : Mounts) (s : St) (gyro acc : DVec 3) (dt : Dbl) (h : ∃ i, acc i = nan) (l : List Msg) :
    (∀ i, ((s.imu m gyro acc dt).run m l).vel i = nan ∧ ((s.imu m gyro acc dt).run m l).pos i = nan) ∧
    ((∃ K u, Msg.velocity K u ∈ l) → ((s.imu m gyro acc dt).run m l).Lost) := by
  obtain ⟨k, hk⟩ := h
  have hG : (s.imu m gyro acc dt).Gone := by
    unfold St.imu
    dsimp only
    unfold St.Gone
    rw [(assemble_rot _ _ _ _ _ _ _).2.1, (assemble_rot _ _ _ _ _ _ _).2.2]
    have e : ∀ (A : DMat 3 3) (c : DVec 3) (i : Fin 3), A.mulV ((((ofNum m.Rimu).mulV acc).sub s.ba).sub c) i = nan := fun A c i =>
      mulV_right_nan 0 (by simp only [DVec.sub, mulV_right_nan k hk, nan_sub])
    exact ⟨fun i => by simp [DVec.add, DVec.scale, e], fun i => by simp [DVec.add, DVec.scale, e]⟩
  obtain ⟨h1, h2⟩ := gone_run m l _ hG
  exact ⟨fun i => ⟨h1.1 i, h1.2 i⟩, h2⟩

/-- **C169** is false: after a faulty message the state never again consists of numbers -/
theorem C169_false (m : Mounts) (s : St) (e : Msg) (he : e.Faulty) (l : List Msg) : ¬ ((s.step m e).run m l).Numbers := by
  intro h
  obtain ⟨hR, hv, hp⟩ := h.parts
  cases e with
  | imu gyro acc dt =>
    rcases he with he | he
    · exact hv 0 (((C169_lost m s).1 gyro acc dt he l).2.1 0)
    · exact hv 0 ((C169_force m s gyro acc dt he l).1 0).1
  | velocity K u => exact hv 0 (((C169_lost m s).2 K u he l).2.1 0)

/-- **C169**, exact condition: with time steps and gains that are numbers, the state consists of numbers exactly as long as every message has -/
theorem C169_exactly_partial (m : Mounts) (s : St) (hs : s.Numbers) (l : List Msg) (hl : ∀ e ∈ l, e.RestNum) :
    (s.run m l).Numbers ↔ ∀ e ∈ l, ¬ e.Faulty := by
  constructor
  · intro h e he hf
    obtain ⟨l1, l2, rfl⟩ := List.append_of_mem he
    have e1 : s.run m (l1 ++ e :: l2) = ((s.run m l1).step m e).run m l2 := by simp [St.run]
    rw [e1] at h
    exact C169_false m _ e hf l2 h
  · exact fun h => run_num m l s hs fun e he => ⟨h e he, hl e he⟩

/-! ### Such states and messages: the state at the start, a message with NaN in the rate about the first axis, a good message after it -/

/-- identity -/
noncomputable def stStart : St := ⟨ofNum 1, fun _ => num 0, fun _ => num 0⟩

example : stStart.Numbers ∧ (Msg.imu ![nan, num 0, num 0] ![num 0, num 0, num 9.8] (num (1 / 100))).Faulty ∧
    ¬ (Msg.imu ![num 0, num 0, num 0] ![num 0, num 0, num 9.8] (num (1 / 100))).Faulty ∧
    (Msg.imu ![num 0, num 0, num 0] ![num 0, num 0, num 9.8] (num (1 / 100))).RestNum := by
  refine ⟨⟨fun _ _ => isNum_num _, fun _ => isNum_num _, fun _ => isNum_num _⟩, Or.inl ⟨0, rfl⟩, ?_, isNum_num _⟩
  rintro (⟨i, h⟩ | ⟨i, h⟩) <;> fin_cases i <;> cases h

end Nan
end Drift
