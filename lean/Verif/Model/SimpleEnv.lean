import Mathlib.Algebra.Order.Field.Basic
import Mathlib.Algebra.BigOperators.Group.List.Basic
/-
Model of `SimpleEnvironment` (`pybrain/rl/environments/simple/environment.py`) and `MinimizeTask` (`pybrain/rl/environments/simple/tasks.py`), with the parts of
`EpisodicTask`, `Task` and `EpisodicExperiment` they use, without limits of sensors and actors and without discount.

Numbers are a field.  Normal draws are given for each update.
-/
namespace Verif.SimpleEnv

variable {K : Type} [Field K]

/-- The attributes of the environment; `noise` is true if a variance other than zero is set. -/
structure Env (K : Type) where
  dim : Nat
  noise : Bool
  state : List K
  action : List K
  updated : Bool

/-- `reset` (environment.py:37-41): `uniform(2, 2)` is 2. -/
def Env.reset (e : Env K) : Env K := { e with state := List.replicate e.dim 2, action := List.replicate e.dim 0, updated := true }

/-- `__init__` (environment.py:8-14). -/
def Env.init (dim : Nat) (noise : Bool) : Env K := Env.reset ⟨dim, noise, [], [], true⟩

/-- `update` (environment.py:29-32): the state is a list then, to which the draws are appended by `+=`. -/
def Env.update (draws : List K) (e : Env K) : Env K :=
  let s := List.zipWith (fun s a => s + 1 / 10 * a) e.state e.action
  { e with state := if e.noise then s ++ draws else s }

/-- `getSensors` (environment.py:19-22). -/
def Env.getSensors (draws : List K) (e : Env K) : List K × Env K :=
  let e' := if e.updated then e else e.update draws
  (e'.state, e')

/-- `performAction` (environment.py:24-26). -/
def Env.performAction (a : List K) (e : Env K) : Env K := { e with updated := false, action := a }

/-- `f` (environment.py:34-35). -/
def f (x : List K) : List K := x.map fun v => v ^ 2

/-- The attributes of the task. -/
structure MinTask (K : Type) where
  env : Env K
  t : Nat
  state : List K
  action : List K
  cumreward : K
  samples : Nat

/-- `__init__` (tasks.py:7-12); the class attributes `cumreward` and `samples` are zero (episodic.py:16-19). -/
def MinTask.init (e : Env K) : MinTask K := ⟨e, 0, List.replicate e.dim 0, List.replicate e.dim 0, 0, 0⟩

/-- `reset` (tasks.py:14-16, episodic.py:26-32). -/
def MinTask.reset (k : MinTask K) : MinTask K := { k with env := k.env.reset, cumreward := 0, samples := 0, t := 0 }

/-- `isFinished` (tasks.py:18-24), with `N = 15`. -/
def MinTask.isFinished (k : MinTask K) : Bool × MinTask K :=
  if k.t ≥ 15 then (true, { k with t := 0 }) else (false, { k with t := k.t + 1 })

/-- `getObservation` (tasks.py:26-28). -/
def MinTask.getObservation (draws : List K) (k : MinTask K) : List K × MinTask K :=
  let r := k.env.getSensors draws
  (r.1, { k with env := r.2, state := r.1 })

/-- `getReward` (tasks.py:34-38). -/
def MinTask.getReward (k : MinTask K) : K := -(f (List.zipWith (fun s a => s + 1 / 10 * a) k.state k.action)).sum

/-- `performAction` (tasks.py:30-32, episodic.py:38-51): the reward is added before the action is stored. -/
def MinTask.performAction (a : List K) (k : MinTask K) : MinTask K :=
  let k1 := { k with env := k.env.performAction a, samples := k.samples + 1 }
  let k2 := { k1 with cumreward := k1.cumreward + k1.getReward }
  { k2 with action := a }

/-- `_oneInteraction` (experiment.py:25-34): the observation, the reward and the new state of the task; `policy` maps the observation to the action. -/
def MinTask.interact (policy : List K → List K) (draws : List K) (k : MinTask K) : (List K × K) × MinTask K :=
  let r := k.getObservation draws
  let k2 := r.2.performAction (policy r.1)
  ((r.1, k2.getReward), k2)

/-- The loop of an episode (experiments/episodic.py:41-43), with a bound on the number of passes: observations and rewards. -/
def MinTask.loop (policy : List K → List K) (draws : Nat → List K) : Nat → MinTask K → List (List K × K) × MinTask K
  | 0, k => ([], k)
  | n + 1, k =>
    match k.isFinished with
    | (true, k1) => ([], k1)
    | (false, k1) =>
      let r := k1.interact policy (draws k1.samples)
      let rest := MinTask.loop policy draws n r.2
      (r.1 :: rest.1, rest.2)

/-- One episode of `doEpisodes` (experiments/episodic.py:36-43). -/
def MinTask.episode (policy : List K → List K) (draws : Nat → List K) (bound : Nat) (k : MinTask K) : List (List K × K) × MinTask K := k.reset.loop policy draws bound

end Verif.SimpleEnv
