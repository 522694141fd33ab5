import Verif.Model.LinearFA
import Verif.Model.DataSet
/-!
Model of the agent for learners with linear function approximation, rl/agents/linearfa.py, with rl/agents/logging.py.

The learner is represented by the list of the calls it receives (`log`). The history (a ReinforcementDataSet) is represented by its sequences: a list, never
empty, of lists of triples; `newSequence` after an empty sequence changes nothing. Observations and rewards are of any type. `drawIndex` is represented by
its result, an argument. The assertions compare with `None` by `!=` and `==`; their evident meaning is modelled.
-/

namespace Verif.LinFAAgent
open Verif.DataSet (Err)

/-- a call to the learner; `next` is there when `passNextAction` is set -/
inductive LCall (O R : Type)
  | update (obs : O) (action : Option Nat) (reward : Option R) (obs' : O) (next : Option Nat)
  | newEpisode
  | reset
deriving DecidableEq

/-- the options, linearfa.py:13-24, logging.py:15, and those of the learner, linearfa.py (learners) 39-40 -/
structure Cfg where
  learning : Bool
  batchMode : Bool
  passNextAction : Bool
  logging : Bool
  initTemperature : ℝ
  temperatureDecay : ℝ
  initExploration : ℝ
  explorationDecay : ℝ

/-- the attributes of the agent -/
structure Ag (O R : Type) where
  lastobs : Option O
  lastaction : Option Nat
  lastreward : Option R
  oaro : Option (O × Option Nat × Option R × O)
  temperature : ℝ
  expl : ℝ
  history : List (List (O × Nat × R))
  log : List (LCall O R)

variable {O R : Type}

/-- `self.learning and not self.learner.batchMode` -/
def Cfg.online (c : Cfg) : Bool := c.learning && !c.batchMode

/-- `newSequence` of the history -/
def newSequence (h : List (List (O × Nat × R))) : List (List (O × Nat × R)) :=
  match h.getLast? with
  | some [] => h
  | _ => h ++ [[]]

/-- `addSample` of the history -/
def addSample (h : List (List (O × Nat × R))) (x : O × Nat × R) : List (List (O × Nat × R)) := h.dropLast ++ [h.getLast?.getD [] ++ [x]]

/-- `integrateObservation`, linearfa.py:48-54, logging.py:34-39 -/
def observe (c : Cfg) (g : Ag O R) (obs : O) : Ag O R :=
  let g := match c.online, g.lastobs with
    | true, some last =>
      if c.passNextAction then { g with oaro := some (last, g.lastaction, g.lastreward, obs) }
      else { g with log := g.log ++ [LCall.update last g.lastaction g.lastreward obs none] }
    | _, _ => g
  { g with lastobs := some obs, lastaction := none, lastreward := none }

/-- `getAction`, linearfa.py:41-46; without an observation the product with `None` raises TypeError -/
def getAction (c : Cfg) (g : Ag O R) (a : Nat) : Except Err (Ag O R) :=
  match g.lastobs with
  | none => .error .typeError
  | some _ =>
    let g := { g with lastaction := some a }
    match c.online, g.oaro with
    | true, some x => .ok { g with log := g.log ++ [LCall.update x.1 x.2.1 x.2.2.1 x.2.2.2 (some a)], oaro := none }
    | _, _ => .ok g

/-- `giveReward`, logging.py:51-62 -/
def giveReward (c : Cfg) (g : Ag O R) (r : R) : Except Err (Ag O R) :=
  match g.lastobs, g.lastaction, g.lastreward with
  | some o, some a, none => .ok { g with lastreward := some r, history := if c.logging then addSample g.history (o, a, r) else g.history }
  | _, _, _ => .error .assertion

/-- `newEpisode`, linearfa.py:64-73 -/
noncomputable def newEpisode (c : Cfg) (g : Ag O R) : Ag O R :=
  let g := { g with history := if c.logging then newSequence g.history else g.history }
  if c.online then { g with log := g.log ++ [LCall.newEpisode] }
  else { g with temperature := g.temperature * c.temperatureDecay, expl := g.expl * c.explorationDecay, log := g.log ++ [LCall.newEpisode] }

/-- `reset`, linearfa.py:56-62, logging.py:71-77 -/
noncomputable def reset (c : Cfg) (g : Ag O R) : Ag O R :=
  newEpisode c { g with
    lastobs := none, lastaction := none, lastreward := none, history := [[]]
    temperature := c.initTemperature, expl := c.initExploration, log := g.log ++ [LCall.reset], oaro := none }

/-- the constructor, linearfa.py:26-30 -/
noncomputable def init (c : Cfg) : Ag O R :=
  reset c { lastobs := none, lastaction := none, lastreward := none, oaro := none, temperature := 0, expl := 0, history := [[]], log := [] }

/-- the inner loop of `learn`, linearfa.py:83-88: a learner with `passNextAction` needs a fifth argument and raises TypeError without it -/
def learnSeq (c : Cfg) : List (O × Nat × R) → Ag O R → Except Err (Ag O R)
  | [], g => .ok g
  | (obs, action, reward) :: xs, g =>
    match g.lastobs with
    | some last =>
      if c.passNextAction then .error .typeError
      else learnSeq c xs { g with log := g.log ++ [LCall.update last g.lastaction g.lastreward obs none], lastobs := some obs, lastaction := some action, lastreward := some reward }
    | none => learnSeq c xs { g with lastobs := some obs, lastaction := some action, lastreward := some reward }

/-- the outer loop of `learn`, linearfa.py:82-89 -/
def learnAll (c : Cfg) : List (List (O × Nat × R)) → Ag O R → Except Err (Ag O R)
  | [], g => .ok g
  | seq :: seqs, g =>
    match learnSeq c seq g with
    | .error e => .error e
    | .ok g => learnAll c seqs { g with log := g.log ++ [LCall.newEpisode] }

/-- `learn`, linearfa.py:76-89 -/
def learn (c : Cfg) (g : Ag O R) : Except Err (Ag O R) :=
  if !c.learning then .ok g else if !c.batchMode then .ok g else learnAll c g.history g

/-- `_actionProbs`, linearfa.py:32-39 -/
noncomputable def actionProbs {m n : Nat} (greedy epsilonGreedy : Bool) (temperature expl : ℝ) (pick : Nat) (theta : LinFA.Weights m n) (state : NES.Vec n) :
    NES.Vec (m + 1) :=
  if greedy then LinFA.greedyPolicy pick theta state
  else if epsilonGreedy then fun a => LinFA.greedyPolicy pick theta state a * (1 - expl) + expl / ((m + 1 : Nat) : ℝ)
  else LinFA.boltzmannPolicy pick theta temperature state

/-- one step of an experiment: observation, action, reward -/
def interact (c : Cfg) (g : Ag O R) (x : O × Nat × R) : Except Err (Ag O R) :=
  match getAction c (observe c g x.1) x.2.1 with
  | .error e => .error e
  | .ok g => giveReward c g x.2.2

/-- the steps of an episode -/
def episode (c : Cfg) : List (O × Nat × R) → Ag O R → Except Err (Ag O R)
  | [], g => .ok g
  | x :: xs, g =>
    match interact c g x with
    | .error e => .error e
    | .ok g => episode c xs g

end Verif.LinFAAgent
