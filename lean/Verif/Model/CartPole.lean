import Verif.Model.Task
import Mathlib.Analysis.SpecialFunctions.Trigonometric.Basic
/-
Model of pybrain/rl/environments/cartpole: cartpole.py (CartPoleEnvironment, CartPoleLinEnvironment), doublepole.py, nonmarkovpole.py,
nonmarkovdoublepole.py, and the tasks of balancetask.py.

Numbers are reals (floats idealised). `4 / 3` in cartpole.py:87 is the fraction (Python 3). `rk4` is matplotlib's classical Runge-Kutta
step, which is part of the model. The force is a number (the tasks hand over a list with one number). Rendering is not modelled.
Random draws are arguments.
-/
namespace Verif.CartPole
open Verif.DataSet (Err)
open Real

/-- physical constants, cartpole.py:23-27 -/
structure Par where
  g : ℝ
  l : ℝ
  mp : ℝ
  mc : ℝ
  dt : ℝ

/-- the constants of CartPoleEnvironment, cartpole.py:23-27 -/
noncomputable def par0 : Par := { g := 9.81, l := 0.5, mp := 0.1, mc := 1, dt := 0.02 }

/-- `sensors`: angle and angular velocity of the pole, position and velocity of the cart -/
@[ext] structure Cart where
  th : ℝ
  om : ℝ
  s : ℝ
  v : ℝ

/-- the angular acceleration `u_`, cartpole.py:87 -/
noncomputable def angAcc (p : Par) (F : ℝ) (x : Cart) : ℝ :=
  (p.g * sin x.th * (p.mc + p.mp) - (F + p.mp * p.l * x.om ^ 2 * sin x.th) * cos x.th) / (4 / 3 * p.l * (p.mc + p.mp) - p.mp * p.l * cos x.th ^ 2)

/-- the acceleration `v_` of the cart, cartpole.py:89 -/
noncomputable def cartAcc (p : Par) (F : ℝ) (x : Cart) : ℝ :=
  (F - p.mp * p.l * (angAcc p F x * cos x.th - x.om ^ 2 * sin x.th)) / (p.mc + p.mp)

/-- `_derivs`, cartpole.py:74-90 -/
noncomputable def derivs (p : Par) (F : ℝ) (x : Cart) : Cart := { th := x.om, om := angAcc p F x, s := x.v, v := cartAcc p F x }

/-- `y + c * k` of numpy arrays -/
noncomputable def axpy (x : Cart) (c : ℝ) (k : Cart) : Cart := { th := x.th + c * k.th, om := x.om + c * k.om, s := x.s + c * k.s, v := x.v + c * k.v }

/-- `k1 + 2 k2 + 2 k3 + k4` -/
noncomputable def rkSum (k1 k2 k3 k4 : Cart) : Cart :=
  { th := k1.th + 2 * k2.th + 2 * k3.th + k4.th, om := k1.om + 2 * k2.om + 2 * k3.om + k4.om,
    s := k1.s + 2 * k2.s + 2 * k3.s + k4.s, v := k1.v + 2 * k2.v + 2 * k3.v + k4.v }

/-- `step`, cartpole.py:55-57: `rk4(self._derivs, self.sensors, [0, self.dt])[-1]` -/
noncomputable def step (p : Par) (F : ℝ) (x : Cart) : Cart :=
  let k1 := derivs p F x
  let k2 := derivs p F (axpy x (p.dt / 2) k1)
  let k3 := derivs p F (axpy x (p.dt / 2) k2)
  let k4 := derivs p F (axpy x p.dt k3)
  axpy x (p.dt / 6) (rkSum k1 k2 k3 k4)

/-- `reset`, cartpole.py:63-72: the drawn angle and position, or none without random initialization -/
noncomputable def reset (draw : Option (ℝ × ℝ)) : Cart :=
  match draw with
  | some (a, s) => { th := a, om := 0, s := s, v := 0 }
  | none => { th := -0.2, om := 0, s := 0.2, v := 0 }

/-! ### CartPoleLinEnvironment -/

/-- `tau` and `nu`, cartpole.py:107 and 111 -/
noncomputable def tau : ℝ := 1 / 60
noncomputable def nu : ℝ := 13.2

/-- the matrix `A`, cartpole.py:115-118 -/
noncomputable def linA (i j : Fin 4) : ℝ :=
  if i = 0 ∧ j = 1 then tau else if i = 2 ∧ j = 3 then tau else if i = 1 ∧ j = 0 then nu * tau else if i = j then 1 else 0

/-- the vector `b`, cartpole.py:119 -/
noncomputable def linB (j : Fin 4) : ℝ := if j = 1 then nu * tau / 9.80665 else if j = 3 then tau else 0

/-- `CartPoleLinEnvironment.step`, cartpole.py:122-123: `sensors * A + action * b` plus the drawn noise -/
noncomputable def linStep (noise : Fin 4 → ℝ) (F : ℝ) (x : Fin 4 → ℝ) : Fin 4 → ℝ := fun j => (∑ i, x i * linA i j) + F * linB j + noise j

/-! ### The environments as the tasks see them -/

/-- what a BalanceTask uses of its environment. `angles` is `getPoleAngles()`, a non-empty list given by its first element and the others;
`sense` is `getSensors()` with the environment afterwards. -/
structure Env (σ : Type) where
  act : σ → ℝ → σ
  sense : σ → List ℝ × σ
  angles : σ → ℝ × List ℝ
  cart : σ → ℝ
  /-- the class attribute `outdim` -/
  outdim : Nat
  /-- `isinstance(env, NonMarkovPoleEnvironment)` -/
  nonMarkov : Bool

/-- CartPoleEnvironment, cartpole.py:41-53 and 92-98 -/
noncomputable def single (p : Par) : Env Cart where
  act x F := step p F x
  sense x := ([x.th, x.om, x.s, x.v], x)
  angles x := (x.th, [])
  cart x := x.s
  outdim := 4
  nonMarkov := false

/-- NonMarkovPoleEnvironment, nonmarkovpole.py:6-22: `sensors` still has four entries, `getCartPosition` returns the second -/
noncomputable def nonMarkovPole (p : Par) : Env Cart where
  act x F := step p F x
  sense x := ([x.th, x.s], x)
  angles x := (x.th, [])
  cart x := x.om
  outdim := 2
  nonMarkov := true

/-- DoublePoleEnvironment: two cart poles, and `sensors` as of the last call of `getSensors` -/
structure Double where
  p1 : Cart
  p2 : Cart
  sensors : Fin 6 → ℝ

/-- the constants of the second pole, doublepole.py:16-17 -/
noncomputable def par2 : Par := { par0 with l := 0.05, mp := 0.01 }

/-- the tuple built in `getSensors`, doublepole.py:26-28 -/
def doubleTuple (x y : Cart) : Fin 6 → ℝ := ![x.th, x.om, y.th, y.om, y.s, y.v]

/-- `DoublePoleEnvironment.getSensors`, doublepole.py:20-29 -/
def doubleSense (e : Double) : Double := { e with sensors := doubleTuple e.p1 e.p2 }

/-- `DoublePoleEnvironment.reset`, doublepole.py:31-38 -/
noncomputable def doubleReset (d1 d2 : Option (ℝ × ℝ)) : Double :=
  let x := reset d1
  let y := { reset d2 with s := x.s, v := x.v }
  { p1 := x, p2 := y, sensors := doubleTuple x y }

/-- `DoublePoleEnvironment.performAction`, doublepole.py:40-44 -/
noncomputable def doubleAct (e : Double) (F : ℝ) : Double := { e with p1 := step par0 F e.p1, p2 := step par2 F e.p2 }

/-- DoublePoleEnvironment, doublepole.py:7-52; the attribute is called `ooutdim`, so that `outdim` is 0 (environment.py:16) -/
noncomputable def double : Env Double where
  act := doubleAct
  sense e := (List.ofFn (doubleSense e).sensors, doubleSense e)
  angles e := (e.sensors 0, [e.sensors 2])
  cart e := e.sensors 4
  outdim := 0
  nonMarkov := false

/-- NonMarkovDoublePoleEnvironment, nonmarkovdoublepole.py:7-27 -/
noncomputable def nonMarkovDouble : Env Double where
  act := doubleAct
  sense e := let e' := doubleSense e; ([e'.sensors 0, e'.sensors 2, e'.sensors 4], e')
  angles e := (e.sensors 0, [e.sensors 1])
  cart e := e.sensors 2
  outdim := 3
  nonMarkov := true

/-! ### BalanceTask and its variants -/

/-- `max(list(map(abs, angles)))` -/
noncomputable def maxAbs (a : ℝ × List ℝ) : ℝ := (a.2.map (|·|)).foldl max |a.1|

/-- `min(angles)` of the absolute values -/
noncomputable def minAbs (a : ℝ × List ℝ) : ℝ := (a.2.map (|·|)).foldl min |a.1|

/-- the attributes of a task: maximal and current number of steps, environment, number of actions, total reward -/
structure Bal (σ : Type) where
  N : Int
  t : Int
  env : σ
  samples : Nat
  cum : ℝ

section
variable {σ : Type} (e : Env σ)

/-- pole fallen or cart out of its track, balancetask.py:48 and 51, or 65 -/
def Failed (x : σ) : Prop := maxAbs (e.angles x) > 0.7 ∨ |e.cart x| > 2.4

/-- `BalanceTask.isFinished`, balancetask.py:47-57 -/
def finished (b : Bal σ) : Prop :=
  maxAbs (e.angles b.env) > 0.7 ∨ |e.cart b.env| > 2.4 ∨ b.t ≥ b.N

open Classical in
/-- `BalanceTask.getReward`, balancetask.py:59-69 -/
noncomputable def reward (N t : Int) (x : σ) : ℝ :=
  if minAbs (e.angles x) < 0.05 ∧ |(|e.cart x|)| < 0.05 then 0
  else if maxAbs (e.angles x) > 0.7 ∨ |(|e.cart x|)| > 2.4 then -2 * ((N : ℝ) - t)
  else -1

open Classical in
/-- `JustBalanceTask.getReward`, balancetask.py:77-86 -/
noncomputable def rewardJust (N t : Int) (x : σ) : ℝ :=
  if minAbs (e.angles x) < 0.05 then 0
  else if maxAbs (e.angles x) > 0.7 ∨ |(|e.cart x|)| > 2.4 then -2 * ((N : ℝ) - t)
  else -1

open Classical in
/-- `EasyBalanceTask.getReward`, balancetask.py:92-101 -/
noncomputable def rewardEasy (N t : Int) (x : σ) : ℝ :=
  if minAbs (e.angles x) < 0.05 ∧ |(|e.cart x|)| < 0.05 then 0
  else if maxAbs (e.angles x) > 0.7 ∨ |(|e.cart x|)| > 2.4 then -2 * ((N : ℝ) - t)
  else -|(|e.cart x|)| / 2

open Classical in
/-- `DiscreteBalanceTask.getReward`, balancetask.py:137-146 -/
noncomputable def rewardDiscrete (N t : Int) (x : σ) : ℝ :=
  if minAbs (e.angles x) < 0.05 then 1
  else if maxAbs (e.angles x) > 0.7 ∨ |(|e.cart x|)| > 2.4 then -1 * ((N : ℝ) - t)
  else 0

open Classical in
/-- `DiscreteNoHelpTask.getReward`, balancetask.py:150-157 -/
noncomputable def rewardNoHelp (N t : Int) (x : σ) : ℝ :=
  if maxAbs (e.angles x) > 0.7 ∨ |(|e.cart x|)| > 2.4 then -1 * ((N : ℝ) - t) else 0

/-- `actor_limits`, balancetask.py:37 -/
noncomputable def actorLimits : List (Task.Limit ℝ) := [some (-50, 50)]

/-- the force of an action (a list with one number): `Task.performAction` with the limits, task.py:30-34 -/
noncomputable def force (action : List ℝ) : Except Err ℝ :=
  match Task.sentAction true (some actorLimits) action with
  | .error err => .error err
  | .ok l => match l with
    | [F] => .ok F
    | _ => .error .valueError

/-- `BalanceTask.performAction`, balancetask.py:43-45, and `EpisodicTask.performAction`, episodic.py:39-51, without a discount; `rew` is the task's `getReward` -/
noncomputable def perform (rew : Int → Int → σ → ℝ) (b : Bal σ) (action : List ℝ) : Except Err (Bal σ) :=
  match force action with
  | .error err => .error err
  | .ok F =>
    let x := e.act b.env F
    .ok { N := b.N, t := b.t + 1, env := x, samples := b.samples + 1, cum := b.cum + rew b.N (b.t + 1) x }

/-- `DiscreteBalanceTask.performAction`, balancetask.py:133-135: `action - (numActions - 1) // 2.` is `action - 1` -/
noncomputable def performDiscrete (rew : Int → Int → σ → ℝ) (b : Bal σ) (action : List ℝ) : Except Err (Bal σ) :=
  perform e rew b (action.map (· - 1))

/-- `BalanceTask.reset`, balancetask.py:39-41, with the environment after its reset -/
def resetTask (b : Bal σ) (x : σ) : Bal σ := { N := b.N, t := 0, env := x, samples := 0, cum := 0 }

/-- `sensor_limits`, balancetask.py:28-33 -/
noncomputable def sensorLimits : List (Task.Limit ℝ) :=
  some (-3, 3) :: (List.range (e.outdim - 1)).map (fun i => if e.nonMarkov = true ∧ (i + 1) % 2 = 0 then none else some (-π, π))

/-- `Task.getObservation` of a BalanceTask, task.py:36-41 -/
noncomputable def observe (x : σ) : Except Err (List ℝ) := Task.observation true (some (sensorLimits e)) (e.sense x).1

end

/-- `LinearizedBalanceTask.getReward`, balancetask.py:196-199 -/
noncomputable def rewardLin (x : Fin 4 → ℝ) (F : ℝ) : ℝ := x 0 ^ 2 * 12 + x 1 ^ 2 * 0.25 + x 2 ^ 2 * 1.25 + x 3 ^ 2 * 1 + F ^ 2 * 0.01

/-- `CENTERS` of DiscreteBalanceTaskRBF, balancetask.py:219 -/
noncomputable def centers : List (ℝ × ℝ) := [-π / 4, 0, π / 4].flatMap (fun a => [1, 0, -1].map (fun b => (a, b)))

/-- `DiscreteBalanceTaskRBF.getObservation`, balancetask.py:236-240, of the angle and the angular velocity -/
noncomputable def rbf (th om : ℝ) : List ℝ :=
  1 :: centers.map (fun c => exp (-(sqrt ((c.1 - th) ^ 2 + (c.2 - om) ^ 2)) ^ 2 / 2))

end Verif.CartPole
