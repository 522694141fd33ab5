import Verif.Model.DataSet
import Verif.Model.Py
import Mathlib.Data.List.Sort
import Mathlib.Order.BoundedOrder.Basic
import Mathlib.Order.Defs.LinearOrder

/-!
Model of the populations and the selection operators of Evolino:
`pybrain/supervised/evolino/gpopulation.py` (`SimplePopulation`),
`pybrain/supervised/evolino/population.py` (`EvolinoPopulation`) and
`pybrain/supervised/evolino/filter.py` (`EvolinoEvaluation`, `EvolinoSubSelection`,
`EvolinoSubReproduction`, `EvolinoBurstMutation`).

Individuals hash by identity; they are elements of a type with decidable equality.  A set of
individuals is a duplicate-free list, the fitness table an insertion-ordered association list, fitness
values belong to a linear order whose least element is `-Infinity`.
-/

namespace Verif.Evolino

open Verif.Py
open Verif.DataSet (Err)

variable {α F : Type} [DecidableEq α] [LinearOrder F] [OrderBot F]

/-- `SimplePopulation`: the set `_individuals` and the dictionary `_fitness` (gpopulation.py:56-60). -/
structure Pop (α F : Type) where
  individuals : List α
  fitness : List (α × F)
  deriving Repr

/-- `SimplePopulation.__init__` (gpopulation.py:56-60). -/
def empty : Pop α F := ⟨[], []⟩

/-- `addIndividual` (gpopulation.py:65-67): set insertion, and the fitness becomes `-Infinity`. -/
def add (p : Pop α F) (a : α) : Pop α F :=
  { individuals := if a ∈ p.individuals then p.individuals else p.individuals ++ [a]
    fitness := dset p.fitness a ⊥ }

/-- `addIndividuals` (gpopulation.py:69-71). -/
def addAll (p : Pop α F) (l : List α) : Pop α F := l.foldl add p

/-- `removeIndividual` (gpopulation.py:74-76): `discard` on the set, `del` on the dictionary, which
raises `KeyError` for an unknown individual. -/
def remove (p : Pop α F) (a : α) : Except Err (Pop α F) :=
  if (dget p.fitness a).isSome then
    .ok { individuals := p.individuals.filter (fun b => b ≠ a), fitness := ddel p.fitness a }
  else .error .keyError

/-- `removeIndividuals` (gpopulation.py:82-84). -/
def removeAll : Pop α F → List α → Except Err (Pop α F)
  | p, [] => .ok p
  | p, a :: l => match remove p a with
    | .ok q => removeAll q l
    | .error e => .error e

/-- `setIndividualFitness` (gpopulation.py:88-89). -/
def setFitness (p : Pop α F) (a : α) (f : F) : Pop α F := { p with fitness := dset p.fitness a f }

/-- `getIndividualFitness` (gpopulation.py:91-93). -/
def getFitness (p : Pop α F) (a : α) : Except Err F :=
  match dget p.fitness a with
  | some f => .ok f
  | none => .error .keyError

/-- `clearFitness` (gpopulation.py:96-99). -/
def clearFitness (p : Pop α F) : Pop α F := { p with fitness := p.fitness.map (fun q => (q.1, ⊥)) }

/-- The value `fitness[k]` of a key (gpopulation.py:142). -/
def fitOf (p : Pop α F) (a : α) : F := (dget p.fitness a).getD ⊥

/-- `getSortedIndividualList` (gpopulation.py:139-142): the keys of the fitness table, sorted (stably) by
decreasing fitness. -/
def sortedList (p : Pop α F) : List α :=
  (p.fitness.map Prod.fst).insertionSort (fun a b => fitOf p b ≤ fitOf p a)

/-- `getBestIndividualsSorted` (gpopulation.py:119-120), for `n ≥ 0`. -/
def best (p : Pop α F) (n : Nat) : List α := (sortedList p).take n

/-- `getWorstIndividuals` (gpopulation.py:123-128): `[-n:]`, so that `n = 0` is `[0:]`, the whole list. -/
def worst (p : Pop α F) (n : Nat) : List α := sliceFrom (sortedList p) (-(n : Int))

/-- `removeWorstIndividuals` (gpopulation.py:130-136).  The code iterates over the set of these
individuals in hash order; the model uses the order of the list (deletions of different keys
commute). -/
def removeWorst (p : Pop α F) (n : Nat) : Except Err (Pop α F) := removeAll p (worst p n)

/-- `getIndividualsN` (gpopulation.py:145-147). -/
def size (p : Pop α F) : Nat := p.individuals.length

/-- The operations of a population. -/
inductive Op (α F : Type) where
  | add (a : α)
  | remove (a : α)
  | setFitness (a : α) (f : F)
  | clear
  | removeWorst (n : Nat)

/-- One operation. -/
def step (p : Pop α F) : Op α F → Except Err (Pop α F)
  | .add a => .ok (Evolino.add p a)
  | .remove a => Evolino.remove p a
  | .setFitness a f => .ok (Evolino.setFitness p a f)
  | .clear => .ok (clearFitness p)
  | .removeWorst n => Evolino.removeWorst p n

/-- A history of operations; a call that raises leaves the population as it was. -/
def run : Pop α F → List (Op α F) → Pop α F
  | p, [] => p
  | p, op :: ops => match step p op with
    | .ok q => run q ops
    | .error _ => run p ops

/-! ### Selection and reproduction -/

/-- `EvolinoSubSelection.apply` (filter.py:221-234). -/
def subSelection (nParents : Option Int) (p : Pop α F) : Except Err (Pop α F) :=
  let n := size p
  let nKeep : Int := match nParents with
    | none => ((n / 4 : Nat) : Int)
    | some k => k
  if nKeep < 0 then .error .assertion
  else if (n : Int) < nKeep then .error .assertion
  else removeWorst p (n - nKeep.toNat)

/-- A sub-population together with the store of genomes and the supply of new identities
(individual.py:34-60: `copy` creates a new object with a deep copy of the genome). -/
structure World (F G : Type) where
  pop : Pop Nat F
  genome : Nat → G
  next : Nat

/-- The `for parent in best` pass of `EvolinoSubReproduction.apply` (filter.py:274-276): one clone per
parent until `freespace` children exist.  Children are kept in order of creation, newest last, as
`(identity, parent)`. -/
def clonePass (freespace : Nat) : List Nat → Nat → List (Nat × Nat) → Nat × List (Nat × Nat)
  | [], next, ch => (next, ch)
  | parent :: rest, next, ch =>
    let ch := ch ++ [(next, parent)]
    if freespace ≤ ch.length then (next + 1, ch) else clonePass freespace rest (next + 1) ch

/-- The `while True` loop (filter.py:272-276), with fuel; `none` when the fuel runs out. -/
def cloneLoop (freespace : Nat) (best : List Nat) : Nat → Nat → List (Nat × Nat) → Option (Nat × List (Nat × Nat))
  | 0, _, _ => none
  | fuel + 1, next, ch =>
    if freespace ≤ ch.length then some (next, ch)
    else
      let r := clonePass freespace best next ch
      cloneLoop freespace best fuel r.1 r.2

/-- `EvolinoSubReproduction.apply` (filter.py:261-283): clone the best, mutate the clones (`mutate t g`
is the mutation of the `t`-th clone's genome), add them.  `max_n - n` may be negative: then
`getBestIndividualsSorted` gets a negative bound, no child is made and the final assertion fails. -/
def subReproduction {G : Type} (maxN : Nat) (mutate : Nat → G → G) (fuel : Nat) (w : World F G) :
    Option (Except Err (World F G)) :=
  let n := size w.pop
  let freespace := maxN - n
  let parents := if n ≤ maxN then best w.pop freespace else (sortedList w.pop).take (clampBound (sortedList w.pop).length ((maxN : Int) - n))
  match cloneLoop freespace parents fuel w.next [] with
  | none => none
  | some (next, children) =>
    let genome := fun i => match children.find? (fun c => c.1 = i) with
      | some c => mutate (c.1 - w.next) (w.genome c.2)
      | none => w.genome i
    let pop := addAll w.pop (children.map Prod.fst)
    if size pop = maxN then some (.ok { pop := pop, genome := genome, next := next })
    else some (.error .assertion)

/-- `EvolinoBurstMutation.apply` on one sub-population (filter.py:203-206). -/
def burst {G : Type} (maxN : Nat) (mutate : Nat → G → G) (fuel : Nat) (w : World F G) :
    Option (Except Err (World F G)) :=
  match removeWorst w.pop (size w.pop - 1) with
  | .error e => some (.error e)
  | .ok p => subReproduction maxN mutate fuel { w with pop := p }

/-! ### Assembling and evaluating individuals -/

/-- One pass of the inner loop of `EvolinoPopulation.getIndividuals` (population.py:75-78): one random
sub-individual is popped from each list.  `pick t k` is the `t`-th `randrange(k)`; popping from an empty
list raises `ValueError` (from `randrange(0)`). -/
def assemble (pick : Nat → Nat → Nat) : Nat → List (List α) → Except Err (List α × List (List α))
  | _, [] => .ok ([], [])
  | t, l :: ls =>
    if l.isEmpty then .error .valueError
    else
      let i := pick t l.length % l.length
      match l[i]? with
      | none => .error .indexError
      | some a => match assemble pick (t + 1) ls with
        | .error e => .error e
        | .ok (c, r) => .ok (a :: c, l.eraseIdx i :: r)

/-- The loop `for _ in range(nIndividuals)` (population.py:74-79). -/
def assembleMany (pick : Nat → Nat → Nat) : Nat → Nat → List (List α) → Except Err (List (List α))
  | 0, _, _ => .ok []
  | n + 1, t, ls => match assemble pick t ls with
    | .error e => .error e
    | .ok (c, r) => match assembleMany pick n (t + ls.length) r with
      | .error e => .error e
      | .ok cs => .ok (c :: cs)

/-- `EvolinoPopulation.getIndividuals` (population.py:65-81): `subs` lists the members of each
sub-population.  The resulting individuals are distinct objects, so the set is the list of them. -/
def getIndividuals (pick : Nat → Nat → Nat) (subs : List (List α)) : Nat → Nat → Except Err (List (List α))
  | 0, _ => if subs.isEmpty then .error .assertion else .ok []
  | c + 1, t => match subs with
    | [] => .error .assertion
    | l :: ls => match assembleMany pick l.length t (l :: ls) with
      | .error e => .error e
      | .ok now => match getIndividuals pick subs c (t + l.length * (ls.length + 1)) with
        | .error e => .error e
        | .ok more => .ok (now ++ more)

/-- `EvolinoPopulation.setIndividualFitness` (population.py:105-110): each sub-individual keeps the
larger of its old fitness and the new one. -/
def distribute : List (Pop α F) → List α → F → Except Err (List (Pop α F))
  | [], _, _ => .ok []
  | _ :: _, [], _ => .error .indexError
  | p :: ps, a :: c, f => match getFitness p a with
    | .error e => .error e
    | .ok old => match distribute ps c f with
      | .error e => .error e
      | .ok qs => .ok ((if old < f then setFitness p a f else p) :: qs)

/-- The evaluation loop of `EvolinoEvaluation.apply` (filter.py:113-127): `evaluated` pairs each
assembled individual, in the order of iteration, with the fitness the network reaches. -/
def evaluateLoop : List (Pop α F) → List (List α × F) → Except Err (List (Pop α F))
  | ps, [] => .ok ps
  | ps, (c, f) :: rest => match distribute ps c f with
    | .error e => .error e
    | .ok qs => evaluateLoop qs rest

/-- `EvolinoEvaluation.apply` (filter.py:107-127), the part that changes the population. -/
def evaluate (ps : List (Pop α F)) (evaluated : List (List α × F)) : Except Err (List (Pop α F)) :=
  evaluateLoop (ps.map clearFitness) evaluated

/-- The best individual of the evaluation (filter.py:108-135): the first with strictly larger fitness
than all before; none at all (an `UnboundLocalError` in the code) when no fitness exceeds `-Infinity`. -/
def bestOf : List (List α × F) → Option (List α) × F → Option (List α) × F
  | [], acc => acc
  | (c, f) :: rest, acc => if acc.2 < f then bestOf rest (some c, f) else bestOf rest acc

end Verif.Evolino
