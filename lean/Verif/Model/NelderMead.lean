import Verif.Model.Optimizer
import Verif.Model.DataSet
/-
Model of pybrain/optimization/neldermead.py: the wrapper of scipy's `fmin`.

`fmin` itself is arbitrary: a program that evaluates points, learns their values, reports to the callback now and then, and ends at some time. It gets the
starting point and the bound `maxfun`; the tolerance and the verbosity do not change what can be said about it.
-/
namespace Verif.Opt
open Verif.DataSet (Err)

variable {X K : Type}

/-- what a call of `fmin` does next -/
inductive Prog (X K : Type) where
  | done
  | eval (x : X) (k : K → Prog X K)
  | callback (k : Prog X K)

/-- How a call of `fmin` ends: it returns, `_callback` raises DesiredFoundException (neldermead.py:21-23), or an evaluation raises DivergenceError (optimizer.py:240-241). -/
inductive Ending where
  | finished | found | diverged
deriving DecidableEq, Repr

section
variable [Neg K] [LE K] [DecidableLE K]

/-- A call of `fmin` with `func = _oneEvaluation` and `callback = _callback`, neldermead.py:21-23, 27-32. -/
def runProg : Prog X K → Opt X K → Opt X K × Ending
  | .done, s => (s, .finished)
  | .eval x k, s =>
    match oneEvaluation s x with
    | (s1, none) => (s1, .diverged)
    | (s1, some r) => runProg (k r) s1
  | .callback k, s => if stoppingCriterion s then (s, .found) else runProg k s

/-- `_learnStep`, neldermead.py:25-36; the flag as in `learnLoop`. An optimizer whose evaluator is set has a `bestEvaluable` (optimizer.py:156). -/
def nmStep (fmin : X → Int → Prog X K) (s : Opt X K) : Except Err (Opt X K × Bool) :=
  match s.bestEvaluable with
  | none => .error .assertion
  | some x0 =>
    match s.maxEvaluations with
    | none => .error .typeError
    | some M =>
      let r := runProg (fmin x0 ((M : Int) - s.numEvaluations - 1)) s
      if r.2 = .diverged then .ok (r.1, false) else .ok ({ r.1 with maxLearningSteps := some (r.1.numLearningSteps : Int) }, true)

/-- the loop of `learn`, optimizer.py:199-209, with the exceptions it does not catch -/
def nmLoop (fmin : X → Int → Prog X K) : Nat → Opt X K → Option (Except Err (Opt X K))
  | 0, s => if stoppingCriterion s then some (.ok s) else none
  | n + 1, s =>
    if stoppingCriterion s then some (.ok s)
    else
      match nmStep fmin s with
      | .error e => some (.error e)
      | .ok (s1, true) => nmLoop fmin n { s1 with numLearningSteps := s1.numLearningSteps + 1 }
      | .ok (s1, false) => some (.ok s1)

/-- `learn`, optimizer.py:194-210 -/
def nmLearn (fmin : X → Int → Prog X K) (fuel : Nat) (s : Opt X K) (additional : Option Nat) : Option (Except Err (Opt X K)) :=
  nmLoop fmin fuel (setSteps s additional)

end
end Verif.Opt
