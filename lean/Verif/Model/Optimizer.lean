import Mathlib.Algebra.Order.Group.Defs
import Mathlib.Algebra.Order.Group.Abs
/-
Model of pybrain/optimization/optimizer.py (BlackBoxOptimizer) and hillclimber.py, randomsearch.py.

Evaluables are values of a type `X` (the code copies what it stores, optimizer.py:249, hillclimber.py:23). Fitnesses are
elements of an ordered group `K`; multi-objective and constrained evaluations are outside this model. An objective gets the
number of the evaluation as a first argument, so noisy objectives are included; `none` is NaN or infinity.
-/
namespace Verif.Opt

variable {X K : Type}

/-- an objective, see above -/
abbrev Objective (X K : Type) := Nat → X → Option K

/-- `oppositeFunction`, rl/environments/functions/transformations.py:15-33, as far as values are concerned -/
def opposite [Neg K] (f : Objective X K) : Objective X K := fun t x => (f t x).map (fun r => -r)

/-- The attributes of BlackBoxOptimizer (optimizer.py:31-73, 80-91). `evaluator` and `minimize` are `none` until set. -/
structure Opt (X K : Type) where
  mustMinimize : Bool
  mustMaximize : Bool
  minimize : Option Bool
  evaluator : Option (Objective X K)
  wasOpposed : Bool
  desired : Option K
  maxEvaluations : Option Nat
  maxLearningSteps : Option Int
  batchSize : Nat
  numEvaluations : Nat
  numLearningSteps : Nat
  bestEvaluation : Option K
  bestEvaluable : Option X
  initEvaluable : Option X
  /-- `_allEvaluated` and `_allEvaluations` -/
  allEvaluated : List X
  allEvaluations : List K

/-- `_flipDirection`, optimizer.py:158-161 -/
def flipDirection [Neg K] (s : Opt X K) : Opt X K :=
  { s with evaluator := s.evaluator.map opposite, desired := s.desired.map (fun d => -d) }

/-- `_setMinimize` with True or False, optimizer.py:97-113 -/
def setMinimize [Neg K] (s : Opt X K) (flag : Bool) : Opt X K :=
  let opp := (flag && s.mustMaximize) || (!flag && s.mustMinimize)
  let s1 := { s with minimize := some (if opp then !flag else flag) }
  let s2 := if s1.evaluator.isSome && (opp != s1.wasOpposed) then flipDirection s1 else s1
  { s2 with wasOpposed := opp }

/-- A FitnessEvaluator's `desiredValue` and `toBeMinimized`; a plain function has none. -/
structure EvaluatorInfo (K : Type) where
  desiredValue : Option K
  toBeMinimized : Option Bool

/-- `setEvaluator`, optimizer.py:118-151: direction and desired value (lines 123-127, 147-151). Dimension and bounds
(lines 129-144) are not modelled. -/
def setEvaluatorDir [Neg K] (s : Opt X K) (f : Objective X K) (info : Option (EvaluatorInfo K)) : Opt X K :=
  let s1 := match info with
    | none => s
    | some i =>
      let s1 := if s.desired.isNone then { s with desired := i.desiredValue } else s
      if s1.minimize.isNone then
        match i.toBeMinimized with
        | some b => setMinimize s1 b
        | none => s1
      else s1
  let s2 := if s1.minimize.isNone then setMinimize s1 false else s1
  let s3 := { s2 with evaluator := some f }
  if s3.wasOpposed then flipDirection s3 else s3

/-- `setEvaluator` in full, optimizer.py:118-156; `init` is the resolved initial evaluable (`_setInitEvaluable`) and
`additionalInit` the subclass's `_additionalInit`. -/
def setEvaluator [Neg K] (additionalInit : Opt X K → Opt X K) (s : Opt X K) (f : Objective X K) (info : Option (EvaluatorInfo K)) (init : X) :
    Opt X K :=
  let s1 := setEvaluatorDir s f info
  let s2 := additionalInit { s1 with initEvaluable := some init, bestEvaluation := none }
  { s2 with bestEvaluable := some init }

/-- the comparison of optimizer.py:246-247 -/
def better [LE K] [DecidableLE K] (minimize : Option Bool) (res best : K) : Bool :=
  if minimize = some true then decide (res ≤ best) else decide (best ≤ res)

/-- whether a result becomes the new best, optimizer.py:244-247 -/
def isNewBest [LE K] [DecidableLE K] (s : Opt X K) (res : K) : Bool :=
  match s.bestEvaluation with
  | none => true
  | some b => s.numEvaluations == 0 || better s.minimize res b

/-- `_oneEvaluation`, optimizer.py:225-281. The second component is `none` when DivergenceError is raised (the state is then
as before the call), or when there is no evaluator. -/
def oneEvaluation [Neg K] [LE K] [DecidableLE K] (s : Opt X K) (x : X) : Opt X K × Option K :=
  match s.evaluator.bind (fun f => f s.numEvaluations x) with
  | none => (s, none)
  | some res =>
    let s1 := if isNewBest s res then { s with bestEvaluation := some res, bestEvaluable := some x } else s
    let stored := if s.wasOpposed then -res else res
    ({ s1 with
        numEvaluations := s1.numEvaluations + 1
        allEvaluated := s1.allEvaluated ++ [x]
        allEvaluations := s1.allEvaluations ++ [stored] }, some res)

/-- `_stoppingCriterion`, optimizer.py:283-292 -/
def stoppingCriterion [LE K] [DecidableLE K] (s : Opt X K) : Bool :=
  (match s.maxEvaluations with
    | some m => decide (s.numEvaluations + s.batchSize > m)
    | none => false) ||
  (match s.desired, s.bestEvaluation with
    | some d, some b => better s.minimize b d
    | _, _ => false) ||
  (match s.maxLearningSteps with
    | some m => decide ((s.numLearningSteps : Int) > m)
    | none => false)

/-- the loop of `learn`, optimizer.py:199-209. A step returns the new state and whether it ended without an exception;
the exceptions caught are DivergenceError and ValueError. `none`: not finished within the fuel. -/
def learnLoop [LE K] [DecidableLE K] (step : Opt X K → Opt X K × Bool) : Nat → Opt X K → Option (Opt X K)
  | 0, s => if stoppingCriterion s then some s else none
  | n + 1, s =>
    if stoppingCriterion s then some s
    else
      let r := step s
      if r.2 then learnLoop step n { r.1 with numLearningSteps := r.1.numLearningSteps + 1 } else some r.1

/-- lines 197-198 of `learn` -/
def setSteps (s : Opt X K) : Option Nat → Opt X K
  | none => s
  | some k => { s with maxLearningSteps := some ((s.numLearningSteps : Int) + k - 1) }

/-- `learn`, optimizer.py:194-210 -/
def learn [LE K] [DecidableLE K] (step : Opt X K → Opt X K × Bool) (fuel : Nat) (s : Opt X K) (additional : Option Nat) : Option (Opt X K) :=
  learnLoop step fuel (setSteps s additional)

/-- `_bestFound`, optimizer.py:216-223 -/
def bestFound [Neg K] (s : Opt X K) : Option X × Option K :=
  (s.bestEvaluable, if s.wasOpposed then s.bestEvaluation.map (fun b => -b) else s.bestEvaluation)

/-- evaluate a list of evaluables one after the other; stops at a DivergenceError -/
def evalAll [Neg K] [LE K] [DecidableLE K] : Opt X K → List X → Opt X K × Bool
  | s, [] => (s, true)
  | s, x :: xs =>
    let r := oneEvaluation s x
    if r.2.isSome then evalAll r.1 xs else (r.1, false)

/-- `HillClimber._additionalInit` and `RandomSearch._additionalInit`, hillclimber.py:13-14, randomsearch.py:9-10 -/
def initEval [Neg K] [LE K] [DecidableLE K] (s : Opt X K) : Opt X K :=
  match s.initEvaluable with
  | some x => (oneEvaluation s x).1
  | none => s

/-- lines 19-20 of hillclimber.py: re-evaluation of the current individual -/
def reevaluate [Neg K] [LE K] [DecidableLE K] (noisy : Bool) (s : Opt X K) (x : X) : Opt X K × Bool :=
  if noisy then
    let r := oneEvaluation s x
    match r.2 with
    | some v => ({ r.1 with bestEvaluation := some v }, true)
    | none => (r.1, false)
  else (s, true)

/-- `HillClimber._learnStep`, hillclimber.py:16-25. `mutate t` is the mutation drawn in step `t`. -/
def hillStep [Neg K] [LE K] [DecidableLE K] (noisy : Bool) (mutate : Nat → X → X) (s : Opt X K) : Opt X K × Bool :=
  match s.bestEvaluable with
  | none => (s, false)
  | some x =>
    let r1 := reevaluate noisy s x
    if r1.2 then
      match r1.1.bestEvaluable with
      | none => (r1.1, false)
      | some cur =>
        let r2 := oneEvaluation r1.1 (mutate s.numLearningSteps cur)
        (r2.1, r2.2.isSome)
    else (r1.1, false)

/-- `StochasticHillClimber._learnStep`, hillclimber.py:43-58. `accept t d` tells whether the random number of step `t` is
below `exp(-d / temperature)`. -/
def stochStep [AddCommGroup K] [Lattice K] [DecidableLE K] [DecidableLT K] (noisy : Bool) (mutate : Nat → X → X)
    (accept : Nat → K → Bool) (s : Opt X K) : Opt X K × Bool :=
  match s.bestEvaluable with
  | none => (s, false)
  | some x =>
    let r1 := reevaluate noisy s x
    if r1.2 then
      match r1.1.bestEvaluable with
      | none => (r1.1, false)
      | some cur =>
        let challenger := mutate s.numLearningSteps cur
        let r2 := oneEvaluation r1.1 challenger
        match r2.2, r2.1.bestEvaluation with
        | some new, some b =>
          let worse := if s.minimize = some true then decide (b < new) else decide (new < b)
          if worse && accept s.numLearningSteps |new - b| then
            ({ r2.1 with bestEvaluable := some challenger, bestEvaluation := some new }, true)
          else (r2.1, true)
        | _, _ => (r2.1, false)
    else (r1.1, false)

/-- `RandomSearch._learnStep`, randomsearch.py:12-15. `randomize t x` is the point drawn in step `t`. -/
def randomStep [Neg K] [LE K] [DecidableLE K] (randomize : Nat → X → X) (s : Opt X K) : Opt X K × Bool :=
  match s.initEvaluable with
  | none => (s, false)
  | some x =>
    let r := oneEvaluation s (randomize s.numLearningSteps x)
    (r.1, r.2.isSome)

end Verif.Opt
