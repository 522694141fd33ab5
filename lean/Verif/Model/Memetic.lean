/-
Model of pybrain/optimization/memetic: memetic.py, inversememetic.py, innermemetic.py, innerinversememetic.py.

Only which mutation operator is applied and how many evaluations are made is modelled. `mutate` and `topologyMutate` are attributes of the class of the evaluables, which the searches
exchange. What a local search does is given by the number of its mutations (one evaluation each, after the initial one), and whether an exception leaves it: a DivergenceError in its
initial evaluation, or the failed assertion about its batch size.
-/
namespace Verif.Memetic

/-- the kinds of mutations -/
inductive Kind where
  | params | topology
deriving DecidableEq, Repr

/-- the state: whether the operators of the class are exchanged, the number of evaluations, and the mutations made so far -/
structure St where
  swapped : Bool
  evals : Nat
  log : List Kind
deriving DecidableEq, Repr

/-- what a local search does -/
structure Local where
  steps : Nat
  fails : Bool
deriving DecidableEq, Repr

/-- `switchMutations`, memetic.py:17-22 -/
def St.switch (s : St) : St := { s with swapped := !s.swapped }

/-- the mutation that `mutate()` makes -/
def St.kind (s : St) : Kind := if s.swapped then .topology else .params

/-- `_oneEvaluation`, memetic.py:24-51. For MaskedParameters the local search works on an array, whose own `mutate` changes numbers. -/
def oneEvaluation (masked : Bool) (s : St) (o : Local) : St × Bool :=
  if s.evals = 0 then ({ s with evals := 1 }, true)
  else
    let s := s.switch
    if o.fails then (s, false)
    else
      let s := { s with evals := s.evals + 1 + o.steps, log := s.log ++ List.replicate o.steps (if masked then Kind.params else s.kind) }
      (s.switch, true)

/-- a new evaluable: copied, mutated (if `mutated`) and evaluated, hillclimber.py:18-25, es.py -/
def challenge (masked : Bool) (s : St) (c : Bool × Local) : St × Bool :=
  oneEvaluation masked (if c.1 then { s with log := s.log ++ [s.kind] } else s) c.2

/-- several of them; an exception ends the step -/
def challenges (masked : Bool) : St → List (Bool × Local) → St × Bool
  | s, [] => (s, true)
  | s, c :: cs =>
    let r := challenge masked s c
    if r.2 then challenges masked r.1 cs else r

/-- `switchMutations` before and after a step; not after an exception -/
def between (step : St → St × Bool) (s : St) : St × Bool :=
  let r := step s.switch
  if r.2 then (r.1.switch, true) else r

/-- `_learnStep` of MemeticSearch (memetic.py:53-56) and InnerMemeticSearch (innermemetic.py:13-16): the challengers are those of a hill climber (one, after the re-evaluation of the best one if the evaluator
is noisy) or of an evolution strategy -/
def memeticStep (masked : Bool) (cs : List (Bool × Local)) : St → St × Bool := between fun s => challenges masked s cs

/-- `_learnStep` of InverseMemeticSearch (inversememetic.py:9-12) and InnerInverseMemeticSearch (innerinversememetic.py:9-12) -/
def inverseStep (masked : Bool) (cs : List (Bool × Local)) : St → St × Bool := between (memeticStep masked cs)

/-- the loop of `learn` (optimizer.py:199-209) as far as the limit of evaluations is concerned: `batchSize` is `localSteps` (memetic.py:63-65); an exception that is caught ends it -/
def learn (step : List (Bool × Local) → St → St × Bool) (maxEvaluations batchSize : Nat) : List (List (Bool × Local)) → St → St
  | [], s => s
  | cs :: rest, s =>
    if s.evals + batchSize > maxEvaluations then s
    else
      let r := step cs s
      if r.2 then learn step maxEvaluations batchSize rest r.1 else r.1

end Verif.Memetic
