import Verif.Model.GA
import Verif.Model.NonDominated
/-
Model of pybrain/optimization/populationbased/multiobjective/nsga2.py (MultiObjectiveGA) and constnsga2.py (ConstMultiObjectiveGA), and of the parts of
optimizer.py, ga.py, function.py, transformations.py and multiobjective.py (functions) they use.

`map(tuple, …)` and `map(array, …)` are the identity here. A value of type `V` is what `_oneEvaluation` returns for an individual: a vector of
objectives, or such a vector with the feasibility and the violation. `dom a b` says whether an individual with value `a` removes one with value `b`
from a front (`domArr`, `domConst` of Model/NonDominated). Iteration over sets is in the order given by `σ` (individuals) and `σi` (positions);
`byCrowd` sorts a front by the crowding distance. The evaluator is deterministic.
-/
namespace Verif.MOGA
open Verif.DataSet (Err)
open Verif.GA (Config Rand crossOver mutated eliteSize selectionSize)
open Verif.NonDom

variable {K V : Type} [CommRing K] [LinearOrder K]

/-- `set(iterable)`, as a list -/
def distinct {α : Type} [DecidableEq α] (l : List α) : List α := l.eraseDups

/-- a Python dictionary -/
abbrev Dict (K V : Type) := List (List K × V)

/-- `d[x]` -/
def get? (d : Dict K V) (x : List K) : Option V := (d.find? fun e => decide (e.1 = x)).map Prod.snd

/-- `d[x] = v` -/
def put (d : Dict K V) (x : List K) (v : V) : Dict K V :=
  if (get? d x).isSome then d.map fun e => if e.1 = x then (x, v) else e else d ++ [(x, v)]

/-- The attributes. `fitnesses` is `none` before the first generation (an empty list, evolution.py:18); `best` is `none` while `bestEvaluable` is
the initial point (optimizer.py:156). -/
structure St (K V : Type) where
  pop : List (List K)
  fitnesses : Option (Dict K V)
  best : Option (List (List K))
  bestEvaluation : List V
  numEvaluations : Nat

/-- The orders in which sets are traversed, and the sorting by crowding distance. -/
structure Orders (K V : Type) where
  σ : List (List K) → List (List K)
  σi : List Nat → List Nat
  byCrowd : (List K → V) → List (List K) → List (List K)

/-- nsga2.py:34-37, constnsga2.py:34-37, for one individual -/
def evalOne (F : List K → V) (old : Option (Dict K V)) (r : Dict K V × Nat) (x : List K) : Dict K V × Nat :=
  match old.bind (get? · x) with
  | some v => (put r.1 x v, r.2)
  | none => (put r.1 x (F x), r.2 + 1)

/-- nsga2.py:30-41, constnsga2.py:30-39: individuals with a known fitness are not evaluated again. The second component counts the evaluations. -/
def evalPop (F : List K → V) (old : Option (Dict K V)) (pop : List (List K)) : Dict K V × Nat :=
  pop.foldl (evalOne F old) ([], 0)

/-- `non_dominated_front`, `const_non_dominated_front` with key `fitnesses[x]` -/
def front (dom : V → V → Bool) (o : Orders K V) (key : List K → V) (items : List (List K)) : Option (List (List K)) :=
  frontMerge 100 (frontOn (fun a b => dom (key a) (key b)) o.σi) o.σ (items.length + 1) items

/-- `non_dominated_sort`, `const_non_dominated_sort` with key `fitnesses[x]` -/
def sorted (dom : V → V → Bool) (o : Orders K V) (key : List K → V) (items : List (List K)) : Option (List (List (List K))) :=
  sortLoop (front dom o key) o.σ items.length (distinct items)

/-- `select`, nsga2.py:58-60 with `nsga2select`, nsga2.py:64-84: the result is `list` of a set. `none` does not occur. -/
def select (dom : V → V → Bool) (o : Orders K V) (c : Config K) (key : List K → V) (pop : List (List K)) : Option (List (List K)) :=
  (sorted dom o key pop).map fun fs => o.σ (nsga2select (o.byCrowd key) (selectionSize c) fs)

/-- `produceOffspring`, ga.py:189-200, given the parents -/
def offspring (c : Config K) (r : Rand K) (parents : List (List K)) : Except Err (List (List K)) :=
  let es := min (eliteSize c) (selectionSize c)
  let nb := if c.populationSize ≤ es then parents.length else c.populationSize - es
  match crossOver c r parents nb with
  | .error e => .error e
  | .ok children => .ok (parents.take es ++ children.zipIdx.map fun (x, k) => mutated c r k x)

/-- `_learnStep`, nsga2.py:26-56, constnsga2.py:27-61. Without elitism the first generation adds a list of tuples and an array, whose rows then cannot
be looked up (TypeError); later ones could only use individuals with a fitness (KeyError). -/
def learnStep [Inhabited V] (dom : V → V → Bool) (o : Orders K V) (c : Config K) (F : List K → V) (r : Rand K) (s : St K V) : Except Err (St K V) :=
  let (d, n) := evalPop F s.fitnesses s.pop
  let key := fun x => (get? d x).getD default
  let items : Except Err (List (List K)) :=
    if c.elitism then .ok s.pop
    else match s.best with
      | none => .error .typeError
      | some b => if b.all (fun x => (get? d x).isSome) then .ok (s.pop ++ b) else .error .keyError
  match items with
  | .error e => .error e
  | .ok items =>
    match front dom o key items, select dom o c key s.pop with
    | some R, some parents =>
      match offspring c r parents with
      | .error e => .error e
      | .ok pop => .ok { pop := pop, fitnesses := some d, best := some (o.σ R), bestEvaluation := (o.σ R).map key
                         numEvaluations := s.numEvaluations + n }
    | _, _ => .error .valueError

/-- Several generations; returns the states after each of them. -/
def evolve [Inhabited V] (dom : V → V → Bool) (o : Orders K V) (c : Config K) (F : List K → V) : List (Rand K) → St K V → Except Err (List (St K V))
  | [], _ => .ok []
  | r :: rs, s =>
    match learnStep dom o c F r s with
    | .error e => .error e
    | .ok s' =>
      match evolve dom o c F rs s' with
      | .error e => .error e
      | .ok ss => .ok (s' :: ss)

/-- Before the first generation, evolution.py:16-20 -/
def initSt (pop : List (List K)) : St K V := { pop := pop, fitnesses := none, best := none, bestEvaluation := [], numEvaluations := 0 }

/-- What `_oneEvaluation` computes for an evaluator without constraints, when the user sets `minimize`: the algorithms have `mustMaximize`, so that
functions to be minimised are turned round, optimizer.py:97-113, 150-151, 158-161 -/
def internal (minimize : Bool) (f : List K → Nat → K) : List K → Nat → K := fun x k => if minimize then - f x k else f x k

/-- A benchmark function with constraints (`ConstDeb` …, multiobjective.py:99-127 and below): objectives, and the result of `g`: whether the point
is feasible, with `abs(sum(violation))`. -/
structure ConstFun (K : Type) where
  f : List K → Nat → K
  g : List K → Bool × K

/-- The result of `_oneEvaluation` with constraints, optimizer.py:227-237, 277-278. Not turned round, the feasibility is that computed by `f`. Turned
round (transformations.py:20-31), the evaluator is a new `MultiObjectiveFunction()`, whose own attributes `feasible = True` and `violation = False`
(function.py:29-33) hide the class attributes that `f` sets. -/
def constInternal (minimize : Bool) (p : ConstFun K) : List K → (Nat → K) × Bool × K := fun x =>
  if minimize then (fun k => - p.f x k, true, 0) else (p.f x, p.g x)

/-- The test of `_const_non_dominated_front_arr` on values -/
def domC (dim : Nat) (eq : Bool) (a b : (Nat → K) × Bool × K) : Bool := domConst dim eq Prod.fst (fun v => v.2.1) (fun v => v.2.2) a b

instance : Inhabited (Nat → K) := ⟨fun _ => 0⟩
instance : Inhabited ((Nat → K) × Bool × K) := ⟨(fun _ => 0, true, 0)⟩

/-- Values of `xbound` and `xBound`: not given, a number, or a list of pairs. -/
inductive Bound (K : Type)
  | none
  | number (x : K)
  | pairs (l : List (K × K))

/-- The `xBound` of an optimizer for an evaluator, optimizer.py:128-138: `own` was set by the user; functions have an `xbound`, by default the
number 5 (function.py:29), other evaluators have none. -/
def optimizerBound (own : Bound K) (ofFunction : Option (Bound K)) : Bound K :=
  match own with
  | .none => ofFunction.getD .none
  | b => b

/-- `initPopulation` up to the boundaries, ga.py:36-45: `len` of a number is a TypeError. -/
def initBoundaries (numParameters : Nat) : Bound K → Except Err (Option (List K × List K))
  | .none => .ok none
  | .number _ => .error .typeError
  | .pairs l => if l.length = numParameters then .ok (some (l.map Prod.fst, l.map Prod.snd)) else .error .assertion

end Verif.MOGA
