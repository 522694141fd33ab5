import Verif.Model.Sequential
/-
Model of pybrain/rl/agents/logging.py, learning.py, pybrain/rl/experiments/experiment.py and episodic.py.

Observations and actions are rows of numbers, rewards are numbers stored as rows of width 1. The assertions compare arrays to `None` with `!=` and `==`;
their evident meaning (is it set?) is modelled. (Newer numpy versions compare elementwise, so that arrays with more than one element raise ValueError there.)
-/
namespace Verif.Agent
open Verif.DataSet (Err)
open Verif.Sequential

/-- the attributes of a `LoggingAgent`, logging.py:16-31 -/
structure LAgent (K : Type) where
  lastobs : Option (List K)
  lastaction : Option (List K)
  lastreward : Option K
  logging : Bool
  history : SDS K

/-- `LoggingAgent.__init__`, logging.py:23-31, with `ReinforcementDataSet(indim, outdim)` (reinforcement.py:7-32) -/
def LAgent.init {K : Type} (indim outdim : Nat) (logging : Bool) : LAgent K :=
  { lastobs := none, lastaction := none, lastreward := none, logging := logging,
    history := SDS.init [("state", indim), ("action", outdim), ("reward", 1)] }

section
variable {K : Type} [Zero K]

/-- `integrateObservation`, logging.py:34-39 -/
def LAgent.integrateObservation (g : LAgent K) (obs : List K) : LAgent K :=
  { g with lastobs := some obs, lastaction := none, lastreward := none }

/-- `getAction`: the assertions of logging.py:42-46, then `a` is what the module and the learner's exploration make of the last observation (learning.py:50-55) -/
def LAgent.getAction (g : LAgent K) (a : List K) : LAgent K × Option Err :=
  if g.lastobs.isSome ∧ g.lastaction.isNone ∧ g.lastreward.isNone then ({ g with lastaction := some a }, none) else (g, some .assertion)

/-- `giveReward`, logging.py:51-62; `addSample` is `appendLinked` (reinforcement.py:34-40) -/
def LAgent.giveReward (g : LAgent K) (r : K) : LAgent K × Option Err :=
  match g.lastobs, g.lastaction, g.lastreward with
  | some o, some a, none =>
    let g := { g with lastreward := some r }
    if g.logging then
      match Sequential.step g.history (.add [o, a, [r]]) with
      | (h, e) => ({ g with history := h }, e)
    else (g, none)
  | _, _, _ => (g, some .assertion)

/-- `newEpisode`, logging.py:65-68 (and learning.py:58-68, whose module and learner are not part of this model) -/
def LAgent.newEpisode (g : LAgent K) : LAgent K × Option Err :=
  if g.logging then
    match Sequential.step g.history .newSequence with
    | (h, e) => ({ g with history := h }, e)
  else (g, none)

/-- `reset`, logging.py:71-77 -/
def LAgent.reset (g : LAgent K) : LAgent K :=
  { g with lastobs := none, lastaction := none, lastreward := none, history := (Sequential.step g.history .clear).1 }

/-- calls on an agent -/
inductive Call (K : Type) where
  | observe (obs : List K)
  | act (a : List K)
  | reward (r : K)
  | newEpisode
  | reset

def LAgent.call (g : LAgent K) : Call K → LAgent K × Option Err
  | .observe o => (g.integrateObservation o, none)
  | .act a => g.getAction a
  | .reward r => g.giveReward r
  | .newEpisode => g.newEpisode
  | .reset => (g.reset, none)

/-- a history of calls; those that raise are survived -/
def LAgent.calls (g : LAgent K) : List (Call K) → LAgent K
  | [] => g
  | c :: cs => ((g.call c).1).calls cs

/-! ### Experiments -/

/-- a task as the experiment sees it; its state may hold anything, and every call may change it -/
structure RTask (τ K : Type) where
  getObservation : τ → List K × τ
  performAction : τ → List K → τ
  getReward : τ → K × τ
  reset : τ → τ
  isFinished : τ → Bool

/-- the module and explorer of the agent -/
structure Policy (μ K : Type) where
  choose : μ → List K → List K × μ
  newEpisode : μ → μ

/-- the state of an experiment, experiment.py:8-11 -/
structure Exp (τ μ K : Type) where
  task : τ
  agent : LAgent K
  policy : μ
  stepid : Nat

variable {τ μ : Type}

/-- `Experiment._oneInteraction`, experiment.py:21-30; an exception ends it -/
def oneInteraction (t : RTask τ K) (p : Policy μ K) (x : Exp τ μ K) : Except Err (K × Exp τ μ K) :=
  let o := t.getObservation x.task
  let g := x.agent.integrateObservation o.1
  let a := p.choose x.policy o.1
  match g.getAction a.1 with
  | (_, some e) => .error e
  | (g, none) =>
    let r := t.getReward (t.performAction o.2 a.1)
    match g.giveReward r.1 with
    | (_, some e) => .error e
    | (g, none) => .ok (r.1, { task := r.2, agent := g, policy := a.2, stepid := x.stepid + 1 })

/-- `Experiment.doInteractions`, experiment.py:13-19: the result is `stepid` -/
def doInteractions (t : RTask τ K) (p : Policy μ K) : Nat → Exp τ μ K → Except Err (Nat × Exp τ μ K)
  | 0, x => .ok (x.stepid, x)
  | n + 1, x =>
    match oneInteraction t p x with
    | .error e => .error e
    | .ok (_, x) => doInteractions t p n x

/-- the loop over one episode, episodic.py:41-43; `none` when the bound on the number of passes is reached -/
def oneEpisode (t : RTask τ K) (p : Policy μ K) : Nat → Exp τ μ K → List K → Option (Except Err (List K × Exp τ μ K))
  | 0, x, rs => if t.isFinished x.task then some (.ok (rs, x)) else none
  | fuel + 1, x, rs =>
    if t.isFinished x.task then some (.ok (rs, x))
    else
      match oneInteraction t p x with
      | .error e => some (.error e)
      | .ok (r, x) => oneEpisode t p fuel x (rs ++ [r])

/-- `EpisodicExperiment.doEpisodes`, episodic.py:29-46, for an agent that is not an optimizer -/
def doEpisodes (t : RTask τ K) (p : Policy μ K) (fuel : Nat) : Nat → Exp τ μ K → List (List K) → Option (Except Err (List (List K) × Exp τ μ K))
  | 0, x, all => some (.ok (all, x))
  | n + 1, x, all =>
    match x.agent.newEpisode with
    | (_, some e) => some (.error e)
    | (g, none) =>
      match oneEpisode t p fuel { task := t.reset x.task, agent := g, policy := p.newEpisode x.policy, stepid := 0 } [] with
      | none => none
      | some (.error e) => some (.error e)
      | some (.ok (rs, x)) => doEpisodes t p fuel n x (all ++ [rs])

end
end Verif.Agent
