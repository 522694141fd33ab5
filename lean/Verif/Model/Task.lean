import Verif.Model.DataSet
import Mathlib.Algebra.Order.Field.Basic
/-
Model of pybrain/rl/environments/task.py (scaling of sensors and actors) and pybrain/rl/environments/episodic.py
(episodic tasks: accumulated rewards, evaluation of a module).

Numbers are elements of an ordered field (floats idealised).
-/
namespace Verif.Task
open Verif.DataSet (Err)

/-- an entry of a limits list: `None` (no scaling) or a pair -/
abbrev Limit (K : Type) := Option (K × K)

section
variable {K : Type} [Field K] [LinearOrder K]

/-- numpy's `clip(x, lo, hi)` -/
def clip (x lo hi : K) : K := min (max x lo) hi

/-- one entry of `normalize`, task.py:52-55. Equal limits divide by zero (ZeroDivisionError for Python numbers; numpy scalars give nan or inf with a warning). -/
def normalizeOne (l : Limit K) (s : K) : Except Err K :=
  match l with
  | none => .ok s
  | some (lo, hi) => if hi - lo = 0 then .error .zeroDivision else .ok ((s - lo) / (hi - lo) * 2 - 1)

/-- the loop of `normalize`, task.py:50-55 -/
def normalizeAll : List (Limit K × K) → Except Err (List K)
  | [] => .ok []
  | (l, s) :: rest =>
    match normalizeOne l s with
    | .error e => .error e
    | .ok r =>
      match normalizeAll rest with
      | .error e => .error e
      | .ok rs => .ok (r :: rs)

/-- `Task.normalize`, task.py:47-58. With `clipping`, `clip(result, -1, 1)` computes a clipped copy which is thrown away (line 57). -/
def normalize (clipping : Bool) (sensorLimits : List (Limit K)) (sensors : List K) : Except Err (List K) :=
  if sensorLimits.length = sensors.length then
    match normalizeAll (sensorLimits.zip sensors) with
    | .error e => .error e
    | .ok result =>
      let _discarded := if clipping then result.map (fun r => clip r (-1) 1) else result
      .ok result
  else .error .assertion

/-- one entry of `denormalize`, task.py:65-71 -/
def denormalizeOne (clipping : Bool) (l : Limit K) (a : K) : K :=
  match l with
  | none => a
  | some (lo, hi) =>
    let r := (a + 1) / 2 * (hi - lo) + lo
    if clipping then clip r lo hi else r

/-- `Task.denormalize`, task.py:60-73 -/
def denormalize (clipping : Bool) (actorLimits : List (Limit K)) (actors : List K) : Except Err (List K) :=
  if actorLimits.length = actors.length then .ok ((actorLimits.zip actors).map (fun p => denormalizeOne clipping p.1 p.2))
  else .error .assertion

/-- `Task.performAction`, task.py:30-34: the action handed to the environment. (`None` and `[]` both mean that there are no limits.) -/
def sentAction (clipping : Bool) (actorLimits : Option (List (Limit K))) (action : List K) : Except Err (List K) :=
  match actorLimits with
  | none => .ok action
  | some [] => .ok action
  | some (l :: ls) => denormalize clipping (l :: ls) action

/-- `Task.getObservation`, task.py:36-41: what is made of the sensors -/
def observation (clipping : Bool) (sensorLimits : Option (List (Limit K))) (sensors : List K) : Except Err (List K) :=
  match sensorLimits with
  | none => .ok sensors
  | some [] => .ok sensors
  | some (l :: ls) => normalize clipping (l :: ls) sensors

end

/-! ### Episodic tasks -/

/-- the attributes of an episodic task, episodic.py:16-25: the environment's state, the accumulated reward and the number of actions -/
structure EpState (σ K : Type) where
  env : σ
  cumreward : K
  samples : Nat

/-- what an episodic task supplies: the environment's dynamics (with the task's scaling), its reset, the task's reward and `isFinished`.
`getReward` is taken to have no side effect (TMaze's has one). -/
structure EpTask (σ A O K : Type) where
  act : σ → A → σ
  obs : σ → O
  envReset : σ → σ
  reward : σ → K
  finished : EpState σ K → Bool
  /-- `None` is written 0: both are false -/
  discount : K
  batchSize : Nat

/-- a module: its reset and activation -/
structure Controller (μ A O : Type) where
  reset : μ → μ
  activate : μ → O → A × μ

section
variable {σ A O μ K : Type} [Field K] [DecidableEq K]

/-- `EpisodicTask.reset`, episodic.py:27-33 -/
def EpTask.reset (t : EpTask σ A O K) (s : EpState σ K) : EpState σ K := { env := t.envReset s.env, cumreward := 0, samples := 0 }

/-- `EpisodicTask.addReward`, episodic.py:45-51 -/
def EpTask.addReward (t : EpTask σ A O K) (s : EpState σ K) : EpState σ K :=
  if t.discount ≠ 0 then { s with cumreward := s.cumreward + t.discount ^ s.samples * t.reward s.env }
  else { s with cumreward := s.cumreward + t.reward s.env }

/-- `EpisodicTask.performAction`, episodic.py:39-43 -/
def EpTask.performAction (t : EpTask σ A O K) (s : EpState σ K) (a : A) : EpState σ K :=
  t.addReward { s with env := t.act s.env a, samples := s.samples + 1 }

/-- the loop of `f` over one episode, episodic.py:65-66, with a bound on the number of passes -/
def EpTask.episode (t : EpTask σ A O K) (x : Controller μ A O) : Nat → EpState σ K → μ → Option (EpState σ K × μ)
  | 0, s, m => if t.finished s then some (s, m) else none
  | fuel + 1, s, m =>
    if t.finished s then some (s, m)
    else
      let r := x.activate m (t.obs s.env)
      t.episode x fuel (t.performAction s r.1) r.2

/-- the loop of `f` over the batch, episodic.py:60-71, for a module: the sum of the rewards -/
def EpTask.batch (t : EpTask σ A O K) (x : Controller μ A O) (fuel : Nat) : Nat → EpState σ K → μ → K → Option (K × EpState σ K × μ)
  | 0, s, m, r => some (r, s, m)
  | b + 1, s, m, r =>
    match t.episode x fuel (t.reset s) (x.reset m) with
    | none => none
    | some (s', m') => t.batch x fuel b s' m' (r + s'.cumreward)

/-- `EpisodicTask.f`, episodic.py:57-72, for a module -/
def EpTask.f (t : EpTask σ A O K) (x : Controller μ A O) (fuel : Nat) (s : EpState σ K) (m : μ) : Option (Except Err K) :=
  match t.batch x fuel t.batchSize s m 0 with
  | none => none
  | some (r, _, _) => some (if t.batchSize = 0 then .error .zeroDivision else .ok (r / t.batchSize))

end
end Verif.Task
