import Verif.Model.DataSet
import Mathlib.Data.List.Sort
/-
Model of pybrain/optimization/populationbased/es.py (ES, evolution strategies).

Individuals are of any type `X`; the code copies an individual before it mutates it (es.py:39). `mutate i x` is the result of `x.mutate()`
for population index `i`. The evaluator gets the number of the evaluation as a first argument, so that noisy evaluators are
included. `shuffle` is an arbitrary function returning a permutation. The optimizer maximises (`mustMaximize`).
-/
namespace Verif.ES
open Verif.DataSet (Err)

variable {X K : Type} [LinearOrder K]

/-- es.py:11-20; `trueDivision`: `/` between integers gives a float, as in Python 3. -/
structure Config where
  mu : Nat
  lambada : Nat
  evaluatorIsNoisy : Bool
  storeHallOfFame : Bool
  elitism : Bool
  trueDivision : Bool

/-- `_popsize`, es.py:31-36 -/
def popsize (c : Config) : Nat := if c.elitism then c.mu + c.lambada else c.lambada

/-- `batchSize`, es.py:70-75 -/
def batchSize (c : Config) : Nat := if c.evaluatorIsNoisy then popsize c else c.lambada

structure State (X K : Type) where
  population : List (K × X)
  hallOfFame : List X
  numEvaluations : Nat

/-- `_replaceByMutation` for the `k` indices from `a` on, es.py:38-41, 28, 55-58 -/
def replaceFrom (f : Nat → X → K) (mutate : Nat → X → X) : Nat → Nat → State X K → State X K
  | _, 0, s => s
  | a, k + 1, s =>
    match s.population[a]? with
    | none => s
    | some p =>
      let x := mutate a p.2
      replaceFrom f mutate (a + 1) k
        { s with population := s.population.set a (f s.numEvaluations x, x), numEvaluations := s.numEvaluations + 1 }

/-- re-evaluation of the `k` individuals from `a` on, es.py:46-48 -/
def reevaluate (f : Nat → X → K) : Nat → Nat → State X K → State X K
  | _, 0, s => s
  | a, k + 1, s =>
    match s.population[a]? with
    | none => s
    | some p =>
      reevaluate f (a + 1) k { s with population := s.population.set a (f s.numEvaluations p.2, p.2), numEvaluations := s.numEvaluations + 1 }

/-- `_sortPopulation`, es.py:62-68: stable sort by decreasing fitness after a shuffle; `population[0]` of an empty population is an
IndexError. -/
def sortPopulation (c : Config) (shuffle : List (K × X) → List (K × X)) (noHallOfFame : Bool) (s : State X K) : Except Err (State X K) :=
  let pop := (shuffle s.population).insertionSort (fun a b => b.1 ≤ a.1)
  if c.storeHallOfFame && !noHallOfFame then
    match pop with
    | [] => .error .indexError
    | p :: _ => .ok { s with population := pop, hallOfFame := s.hallOfFame ++ [p.2] }
  else .ok { s with population := pop }

/-- `_additionalInit`, es.py:22-29 -/
def init (c : Config) (f : Nat → X → K) (mutate : Nat → X → X) (shuffle : List (K × X) → List (K × X)) (x0 : X) : Except Err (State X K) :=
  if c.mu = 0 then .error .zeroDivision
  else if c.lambada % c.mu ≠ 0 then .error .assertion
  else
    let s : State X K := { population := List.replicate (popsize c) (f 0 x0, x0), hallOfFame := [], numEvaluations := 1 }
    sortPopulation c shuffle false (replaceFrom f mutate 1 (popsize c - 1) s)

/-- `_learnStep`, es.py:43-60. In Python 3 the list is multiplied by a float, a TypeError. -/
def learnStep (c : Config) (f : Nat → X → K) (mutate : Nat → X → X) (shuffle1 shuffle2 : List (K × X) → List (K × X)) (s : State X K) :
    Except Err (State X K) := do
  let reevaluated : Except Err (State X K) := if c.evaluatorIsNoisy then sortPopulation c shuffle1 true (reevaluate f 0 c.mu s) else .ok s
  let s ← reevaluated
  if c.trueDivision then .error .typeError
  else
    let s := { s with population := (List.replicate (popsize c / c.mu) (s.population.take c.mu)).flatten }
    let s := if c.elitism then replaceFrom f mutate c.mu (popsize c - c.mu) s else replaceFrom f mutate 0 (popsize c) s
    sortPopulation c shuffle2 false s

end Verif.ES
