import Verif.Model.Py
import Verif.Model.DataSet
import Mathlib.Analysis.SpecialFunctions.Trigonometric.Basic
/-
Model of pybrain/rl/environments/classic: mountaincar.py and acrobot.py (with its variants); xor.py is in Model/Xor.lean.

Numbers are reals (floats idealised). The two tasks share their bookkeeping (the code is duplicated in the sources); it is modelled once,
over what differs (`Sim`). Actions are the indices handed to `action_list`; Python accepts -3 to 2. After an exception the task is not
modelled further. `self.r` does not exist before the first action: `none`.
-/
namespace Verif.Classic
open Verif.DataSet (Err)
open Real

/-- `action_list = (-1.0, 0.0, 1.0)`, mountaincar.py:20 and acrobot.py:37 -/
def actionList : List ℝ := [-1, 0, 1]

/-- the attributes of a task -/
structure Ep (σ : Type) where
  state : σ
  steps : Nat
  episode : Nat
  done : Nat
  r : Option ℝ
  cum : ℝ

/-- what differs between the tasks: initial state, `DoAction` given the force, the test for the goal, the rewards in and outside the goal,
and what is done to the state after each action (SingleArmSwinger only) -/
structure Sim (σ : Type) where
  init : σ
  act : ℝ → σ → σ
  goal : σ → Prop
  rGoal : σ → ℝ
  rElse : σ → ℝ
  fix : σ → σ
  maxSteps : Nat
  resetOnSuccess : Bool

section
variable {σ : Type} (m : Sim σ)

/-- `reset`, `GetInitialState` and `StartEpisode`, mountaincar.py:43-44 and 61-68, acrobot.py:71-72 and 84-92 -/
def reset (e : Ep σ) : Ep σ := { state := m.init, steps := 0, episode := e.episode + 1, done := 0, r := e.r, cum := e.cum }

/-- `__init__`, mountaincar.py:38-41, acrobot.py:56-58 -/
def create : Ep σ := { state := m.init, steps := 0, episode := 1, done := 0, r := none, cum := 0 }

open Classical in
/-- `GetReward` given the number of steps, mountaincar.py:78-99, acrobot.py:94-124 -/
noncomputable def getR (steps : Nat) (x : σ) : ℝ × Nat :=
  let r := if m.goal x then m.rGoal x else m.rElse x
  let f := if m.goal x then 1 else 0
  (r, if steps ≥ m.maxSteps then 5 else f)

/-- `performAction`, mountaincar.py:50-56, acrobot.py:63-69, with the override of SingleArmSwinger, acrobot.py:210-214 -/
noncomputable def perform (e : Ep σ) (a : Int) : Except Err (Ep σ) :=
  if e.done > 0 then .ok { e with done := e.done + 1, state := m.fix e.state }
  else match Py.getIdx actionList a with
    | none => .error .indexError
    | some force =>
      let x := m.act force e.state
      let g := getR m (e.steps + 1) x
      .ok { state := m.fix x, steps := e.steps + 1, episode := e.episode, done := g.2, r := some g.1, cum := e.cum + g.1 }

/-- `isFinished`, mountaincar.py:70-75, acrobot.py:77-82 -/
def isFinished (e : Ep σ) : Bool × Ep σ :=
  if e.done ≥ 3 ∧ m.resetOnSuccess = true then (false, reset m e) else (decide (e.done ≥ 3), e)

end

/-! ### MountainCar -/

/-- `DoAction` of MountainCar, mountaincar.py:101-135 -/
noncomputable def carAct (force : ℝ) (x : ℝ × ℝ) : ℝ × ℝ :=
  let speed := x.2 + 0.001 * force + -0.0025 * cos (3 * x.1)
  let speed := if speed < -0.07 then -0.07 else if speed > 0.07 then 0.07 else speed
  let pos := x.1 + speed
  if pos ≤ -1.4 then (-1.4, 0) else (pos, speed)

/-- MountainCar, mountaincar.py:13-135; goal position, maximal number of steps and resetOnSuccess are class attributes -/
noncomputable def car (goalPos : ℝ) (maxSteps : Nat) (resetOnSuccess : Bool) : Sim (ℝ × ℝ) where
  init := (-0.5, 0)
  act := carAct
  goal x := x.1 ≥ goalPos
  rGoal _ := 1
  rElse _ := 0
  fix x := x
  maxSteps := maxSteps
  resetOnSuccess := resetOnSuccess

/-- `getObservation`, mountaincar.py:46-48 -/
def carObs (x : ℝ × ℝ) : List ℝ := [x.1, x.2 * 100, 1]

/-! ### Acrobot -/

/-- `state`: the angle of the first arm from hanging, the angle of the second arm relative to the first, and the angular velocities -/
@[ext] structure Arm where
  t1 : ℝ
  t2 : ℝ
  w1 : ℝ
  w2 : ℝ

/-- the constants, acrobot.py:19-34: m1 = m2 = l1 = l2 = I1 = I2 = 1, lc1 = lc2 = 1/2, delta_t = 1/20 -/
noncomputable def grav : ℝ := 9.8
noncomputable def lc : ℝ := 0.5
noncomputable def dt : ℝ := 0.05

/-- `d1`, acrobot.py:134 -/
noncomputable def d1 (x : Arm) : ℝ := lc ^ 2 + (1 + lc ^ 2 + 2 * lc * cos x.t2) + 1 + 1

/-- `d2`, acrobot.py:135 -/
noncomputable def d2 (x : Arm) : ℝ := (lc ^ 2 + lc * cos x.t2) + 1

/-- `phi2`, acrobot.py:137 -/
noncomputable def phi2 (x : Arm) : ℝ := lc * grav * cos (x.t1 + x.t2 - π / 2)

/-- `phi1`, acrobot.py:138 -/
noncomputable def phi1 (x : Arm) : ℝ := -lc * x.w2 * sin x.t2 * (x.w2 - 2 * x.w1) + (lc + 1) * grav * cos (x.t1 - π / 2) + phi2 x

/-- `accel2`, acrobot.py:140-141 -/
noncomputable def accel2 (torque : ℝ) (x : Arm) : ℝ :=
  (torque + phi1 x * (d2 x / d1 x) - lc * x.w1 * x.w1 * sin x.t2 - phi2 x) / (lc ^ 2 + 1 - d2 x * d2 x / d1 x)

/-- `accel1`, acrobot.py:142 -/
noncomputable def accel1 (torque : ℝ) (x : Arm) : ℝ := -(d2 x * accel2 torque x + phi1 x) / d1 x

/-- the two ifs cutting a velocity, acrobot.py:146-150 and 155-159 -/
noncomputable def cut (w M : ℝ) : ℝ :=
  let w := if w < -M then -M else w
  if w > M then M else w

/-- one pass of the loop, acrobot.py:133-161 -/
noncomputable def armSub (torque : ℝ) (x : Arm) : Arm :=
  let w1 := cut (x.w1 + accel1 torque x * dt) (4 * π)
  let t1 := x.t1 + w1 * dt
  let w2 := cut (x.w2 + accel2 torque x * dt) (9 * π)
  { t1 := t1, t2 := x.t2 + w2 * dt, w1 := w1, w2 := w2 }

/-- bounding an angle, acrobot.py:168-175 -/
noncomputable def wrap (t : ℝ) : ℝ := if t < -π then t + 2 * π else if t > π then t - 2 * π else t

/-- `DoAction`, acrobot.py:126-179 -/
noncomputable def armAct (torque : ℝ) (x : Arm) : Arm :=
  let y := armSub torque (armSub torque (armSub torque (armSub torque x)))
  { y with t1 := wrap y.t1, t2 := wrap y.t2 }

/-- the height compared with the target, acrobot.py:97-105 -/
noncomputable def height (x : Arm) : ℝ := -cos x.t1 - cos x.t2

/-- AcrobotTask with its class attributes, acrobot.py:13-179; the variants SimpleAcrobot and VerySimpleAcrobot only change the target -/
noncomputable def acrobot (target : ℝ) (easy : Bool) (maxSteps : Nat) (resetOnSuccess : Bool) : Sim Arm where
  init := { t1 := 0, t2 := 0, w1 := 0, w2 := 0 }
  act := armAct
  goal x := height x ≥ target
  rGoal x := if easy then 10 * height x else 1
  rElse x := if easy then height x else 0
  fix x := x
  maxSteps := maxSteps
  resetOnSuccess := resetOnSuccess

/-- SingleArmSwinger, acrobot.py:191-214 -/
noncomputable def swinger (target : ℝ) (easy : Bool) (maxSteps : Nat) (resetOnSuccess : Bool) : Sim Arm where
  init := { t1 := π, t2 := 0, w1 := 0, w2 := 0 }
  act := armAct
  goal x := height x ≥ target
  rGoal x := if easy then 10 * height x else 1
  rElse x := if easy then height x else 0
  fix x := { t1 := π, t2 := x.t2, w1 := 0, w2 := x.w2 }
  maxSteps := maxSteps
  resetOnSuccess := resetOnSuccess

/-- `getObservation` of AcrobotTask, acrobot.py:60-61 -/
noncomputable def armObs (x : Arm) : List ℝ := [x.t1, x.t2, x.w1, x.w2, π].map (· / π)

/-- `getObservation` of SingleArmSwinger, acrobot.py:207-208: `state[2:]` and a bias -/
noncomputable def swingerObs (x : Arm) : List ℝ := [x.w1, x.w2, π].map (· / π)

end Verif.Classic
