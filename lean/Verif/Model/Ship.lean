import Verif.Model.Task
import Mathlib.Data.Real.Basic
/-
Model of pybrain/rl/environments/shipsteer: shipsteer.py (ShipSteeringEnvironment without rendering) and northwardtask.py (GoNorthwardTask).

Numbers are reals (floats idealised). The three normally distributed random numbers of a step are an argument, arbitrary reals.
-/
namespace Verif.Ship
open Verif.DataSet (Err)

/-- `sensors`: heading (degrees, north is 0), its rate of change, speed -/
structure Ship where
  h : ℝ
  hdot : ℝ
  v : ℝ

/-- `step`, shipsteer.py:43-65 -/
noncomputable def step (thrust rudder : ℝ) (rnd : Fin 3 → ℝ) (x : Ship) : Ship :=
  let thrust := min (max thrust (-1)) 2
  let rudder := min (max rudder (-90)) 90
  let drag := 5 * x.h + (rudder ^ 2 + rnd 0)
  let force := 30 * thrust - 2 * x.v - 0.02 * x.v * drag + rnd 1 * 3
  let v := x.v + 4 * force / 1000
  let v := min (max v (-10)) 40
  let torque := -v * (rudder + x.h + 1 * x.hdot + rnd 2 * 10)
  let hdot := x.hdot + torque / 1000
  let hdot := min (max hdot (-180)) 180
  let h := x.h + (hdot + x.hdot) / 2
  let h := if h > 180 then h - 360 else if h < -180 then h + 360 else h
  { h := h, hdot := hdot, v := v }

/-- `reset`, shipsteer.py:71-75, with the drawn heading -/
def reset (h : ℝ) : Ship := { h := h, hdot := 0, v := 0 }

/-- GoNorthwardTask -/
structure North where
  N : Int
  t : Int
  scale : ℝ
  env : Ship
  samples : Nat
  cum : ℝ

/-- `sensor_limits` and `actor_limits`, northwardtask.py:23 and 26 -/
noncomputable def sensorLimits : List (Task.Limit ℝ) := [some (-180, 180), some (-180, 180), some (-10, 40)]
noncomputable def actorLimits : List (Task.Limit ℝ) := [some (-1, 2), some (-90, 90)]

/-- `__init__`, northwardtask.py:10-28; `maxsteps = 0` raises a ZeroDivisionError -/
noncomputable def create (env : Ship) (maxsteps : Int) : Except Err North :=
  if maxsteps = 0 then .error .zeroDivision
  else .ok { N := maxsteps, t := 0, scale := 100 / maxsteps / 40, env := env, samples := 0, cum := 0 }

/-- `reset`, northwardtask.py:30-32 -/
def resetTask (b : North) (h : ℝ) : North := { b with env := reset h, cum := 0, samples := 0, t := 0 }

/-- `getReward`, northwardtask.py:44-48 -/
noncomputable def reward (scale : ℝ) (x : Ship) : ℝ := if |x.h| < 5 then x.v * scale else 0

/-- `performAction`, northwardtask.py:34-36, with the scaling and clipping of the task (task.py:30-34, 60-73) -/
noncomputable def perform (b : North) (action : List ℝ) (rnd : Fin 3 → ℝ) : Except Err North :=
  match Task.sentAction true (some actorLimits) action with
  | .error e => .error e
  | .ok [thrust, rudder] =>
    let x := step thrust rudder rnd b.env
    .ok { b with t := b.t + 1, env := x, samples := b.samples + 1, cum := b.cum + reward b.scale x }
  | .ok _ => .error .indexError

/-- `isFinished`, northwardtask.py:38-42 -/
def finished (b : North) : Prop := b.t ≥ b.N

/-- `setMaxLength`, northwardtask.py:50-51 -/
def setMaxLength (b : North) (n : Int) : North := { b with N := n }

/-- `getObservation`, task.py:36-41 -/
noncomputable def observe (x : Ship) : Except Err (List ℝ) := Task.observation true (some sensorLimits) [x.h, x.hdot, x.v]

end Verif.Ship
