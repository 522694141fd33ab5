import Verif.Model.DataSet
import Mathlib.Data.List.Sort
import Mathlib.Algebra.Order.Ring.Rat
import Mathlib.Algebra.Order.Floor.Defs
import Mathlib.Data.Rat.Floor
/-
Model of pybrain/optimization/populationbased/ga.py (GA) and evolution.py (Evolution).

Individuals are lists of numbers of an ordered ring `K`. The optimizer always maximises here (`mustMaximize`, ga.py:35; the evaluator is turned
round when the user wants to minimise, optimizer.py:97-113). Random decisions are given by a `Rand`; Python's `shuffle` is an arbitrary
function returning a permutation. Proportions are rational numbers.
-/
namespace Verif.GA
open Verif.DataSet (Err)

variable {K : Type} [CommRing K] [LinearOrder K]

/-- ga.py:14-31 and evolution.py:10; `eliteExact` is `_eliteSize`. `bounds` are `mins` and `maxs` (ga.py:38-41), none without `xBound`. -/
structure Config (K : Type) where
  populationSize : Nat
  topProportion : ℚ
  elitism : Bool
  eliteProportion : ℚ
  eliteExact : Option Nat
  xdim : Nat
  bounds : Option (List K × List K)

/-- the random decisions of one generation -/
structure Rand (K : Type) where
  shuffleParents : List (List K) → List (List K)
  /-- `choice(list(range(xdim-1)))` for pair `i` -/
  cut : Nat → Nat
  shuffleChildren : List (List K) → List (List K)
  /-- the index drawn by `sample(children, 1)` when there are that many children -/
  pick : Nat → Nat
  /-- `random() < mutationProb` for child `k` and gene `i` -/
  coin : Nat → Nat → Bool
  noise : Nat → Nat → K

/-- ga.py:163-165 -/
def selectionSize (c : Config K) : Nat := ⌊(c.populationSize : ℚ) * c.topProportion⌋.toNat

/-- ga.py:168-175 -/
def eliteSize (c : Config K) : Nat :=
  if c.elitism then
    match c.eliteExact with
    | some n => n
    | none => ⌊(c.populationSize : ℚ) * c.eliteProportion⌋.toNat
  else 0

/-- `select` without tournament, ga.py:177-187: stable sort by increasing fitness, reversed -/
def select (c : Config K) (fitnesses : List K) (pop : List (List K)) : List (List K) :=
  ((((fitnesses.zip pop).insertionSort (fun a b => a.1 ≤ b.1)).reverse).take (selectionSize c)).map Prod.snd

/-- the two children of a pair, ga.py:98-113 -/
def pairChildren (xdim : Nat) (p1 p2 : List K) (cut : Nat) : List (List K) :=
  if xdim < 2 then [p1, p2]
  else [p1.take (cut + 1) ++ p2.drop (cut + 1), p2.take (cut + 1) ++ p1.drop (cut + 1)]

/-- the loop of ga.py:118-119, `n` more children; `sample` from an empty list is a ValueError -/
def refill (pick : Nat → Nat) : Nat → List (List K) → Except Err (List (List K))
  | 0, cs => .ok cs
  | n + 1, cs => if cs = [] then .error .valueError else refill pick n (cs ++ [cs.getD (pick cs.length) []])

/-- `crossOver`, ga.py:91-120 -/
def crossOver (c : Config K) (r : Rand K) (parents : List (List K)) (nbChildren : Nat) : Except Err (List (List K)) :=
  let ps := r.shuffleParents parents
  let h := ps.length / 2
  let children := (List.range h).flatMap fun i => pairChildren c.xdim (ps.getD i []) (ps.getD (i + h) []) (r.cut i)
  let children := r.shuffleChildren children
  if nbChildren < children.length then .ok (children.take nbChildren)
  else refill r.pick (nbChildren - children.length) children

/-- `mutated`, ga.py:130-141, child number `k` -/
def mutated (c : Config K) (r : Rand K) (k : Nat) (indiv : List K) : List K :=
  indiv.zipIdx.map fun (x, i) =>
    if r.coin k i then
      match c.bounds with
      | none => x + r.noise k i
      | some (mins, maxs) => max (min (x + r.noise k i) (maxs.getD i 0)) (mins.getD i 0)
    else x

/-- `produceOffspring`, ga.py:189-200 -/
def produceOffspring (c : Config K) (r : Rand K) (fitnesses : List K) (pop : List (List K)) : Except Err (List (List K)) :=
  let parents := select c fitnesses pop
  let es := min (eliteSize c) (selectionSize c)
  let nb := if c.populationSize ≤ es then parents.length else c.populationSize - es
  match crossOver c r parents nb with
  | .error e => .error e
  | .ok children => .ok (parents.take es ++ children.zipIdx.map fun (x, k) => mutated c r k x)

/-- `_learnStep`, evolution.py:22-27, with a deterministic evaluator: returns the evaluated population with its fitnesses, and the next one. -/
def learnStep (c : Config K) (f : List K → K) (r : Rand K) (pop : List (List K)) : Except Err (List (List K)) :=
  produceOffspring c r (pop.map f) pop

/-- Several generations, each with its random decisions. -/
def evolve (c : Config K) (f : List K → K) : List (Rand K) → List (List K) → Except Err (List (List K))
  | [], pop => .ok pop
  | r :: rs, pop =>
    match learnStep c f r pop with
    | .error e => .error e
    | .ok pop => evolve c f rs pop

end Verif.GA
