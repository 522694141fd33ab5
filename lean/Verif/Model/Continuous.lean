import Verif.Model.Agent
import Mathlib.Algebra.Field.Basic
/-
Model of `ContinuousExperiment` (pybrain/rl/experiments/continuous.py), of `DiscreteStateDependentExplorer` (pybrain/rl/explorers/discrete/discretesde.py) and of the switch `learning` of `LearningAgent`
(pybrain/rl/agents/learning.py), on top of the model of experiments, agents and histories (`Verif.Model.Agent`).

The learner is any function that makes a new module and explorer of the history and the old ones (it does not change the history). The module of the explorer is a list of parameters with a function that chooses the greedy action (without ties);
`deepcopy` makes an equal value.
-/
namespace Verif.Continuous
open Verif.DataSet (Err)
open Verif.Sequential Verif.Agent

section
variable {K : Type} [Zero K] {τ μ : Type}

/-- `doInteractionsAndLearn`, continuous.py:9-17, and `LearningAgent.learn`, learning.py:77-80: `stepid`, the histories the learner got, and the experiment after it -/
def doInteractionsAndLearn (t : RTask τ K) (p : Policy μ K) (learn : SDS K → μ → μ) : Nat → Exp τ μ K → Except Err (Nat × List (SDS K) × Exp τ μ K)
  | 0, x => .ok (x.stepid, [], x)
  | n + 1, x =>
    match oneInteraction t p x with
    | .error e => .error e
    | .ok (_, x) =>
      match doInteractionsAndLearn t p learn n { x with policy := learn x.agent.history x.policy } with
      | .error e => .error e
      | .ok (i, hs, y) => .ok (i, x.agent.history :: hs, y)
end

section
variable {K : Type} [Field K] [LinearOrder K]

/-- the explorer: the parameters of the module and of its copy, discretesde.py:18-28 -/
structure Dsde (K : Type) where
  module : List K
  explorerModule : List K

/-- `_setModule`, discretesde.py:25-29 -/
def Dsde.setModule (m : List K) : Dsde K := ⟨m, m⟩

/-- `newEpisode`, discretesde.py:53-64: a copy with a perturbation of standard deviation 0.01 (`mutate`, parametercontainer.py:88-89) -/
def Dsde.newEpisode (noise : List K) (e : Dsde K) : Dsde K := { e with explorerModule := List.zipWith (fun x z => x + 1 / 100 * z) e.module noise }

/-- `activate` and `_forwardImplementation`, discretesde.py:38-51, for the random numbers `u` and `rnd`; the action of the module is not used -/
def Dsde.activate {O A : Type} (act : List K → O → A) (e : Dsde K) (state : O) (_action : A) (u : K) (rnd : A) : A :=
  if u < 1 / 1000 then rnd else act e.explorerModule state

/-- what happens to the explorer: the learner changes the module, an episode starts, an action is chosen -/
inductive Event (K O A : Type) where
  | learned (m : List K)
  | newEpisode (noise : List K)
  | activate (state : O) (action : A) (u : K) (rnd : A)

/-- one event; the module belongs to the learner -/
def Dsde.step {O A : Type} (e : Dsde K) : Event K O A → Dsde K
  | .learned m => { e with module := m }
  | .newEpisode noise => e.newEpisode noise
  | .activate _ _ _ _ => e

/-- `LearningAgent.getAction`, learning.py:43-54, for a learner with an explorer (learner.py:31-36): with learning switched off the explorer is not asked -/
def agentAction {O A : Type} (learning : Bool) (act : List K → O → A) (e : Dsde K) (obs : O) (u : K) (rnd : A) : A :=
  let a := act e.module obs
  if learning then e.activate act obs a u rnd else a

/-- `LearningAgent.newEpisode`, learning.py:57-67: with learning switched off the explorer is not told -/
def agentNewEpisode (learning : Bool) (noise : List K) (e : Dsde K) : Dsde K := if learning then e.newEpisode noise else e

/-- `learning`, learning.py:32-37: without a learner it stays off -/
def setLearning (hasLearner flag : Bool) : Bool := if hasLearner then flag else false
end

end Verif.Continuous
