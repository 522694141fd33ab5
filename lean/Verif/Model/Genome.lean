import Verif.Model.DataSet
import Mathlib.Algebra.Field.Basic
import Mathlib.Analysis.SpecialFunctions.Trigonometric.Arctan
/-
Model of pybrain/supervised/evolino/gfilter.py, gindividual.py, individual.py and variate.py: nested genomes, the filters that change them in place, the individuals that hold them and the random variates.

Genomes are trees of numbers. The genome objects live in a store, individuals refer to them by address; genomes do not share sub-lists. Random numbers are a stream with a counter: `gauss(x0, alpha)` is `x0 + alpha * z` and
`uniform(a, b)` is `a + (b - a) * u`.
-/
namespace Verif.Genome
open Verif.DataSet (Err)

/-- a nested container of numbers -/
inductive GTree (K : Type) where
  | leaf (x : K)
  | node (l : List (GTree K))

section
variable {K : Type}

mutual
/-- one entry of the loop of `_manipulateGenome`, gfilter.py:46-50: a container is treated recursively, a number is replaced -/
def GTree.manip (f : Nat → K → K) : GTree K → Nat → GTree K × Nat
  | .leaf x, n => (.leaf (f n x), n + 1)
  | .node l, n => let r := manipList f l n; (.node r.1, r.2)
/-- the loop of `_manipulateGenome`, gfilter.py:46-50 -/
def manipList (f : Nat → K → K) : List (GTree K) → Nat → List (GTree K) × Nat
  | [], n => ([], n)
  | t :: l, n =>
    let r := t.manip f n
    let s := manipList f l r.2
    (r.1 :: s.1, s.2)
end

/-- `_manipulateGenome`, gfilter.py:31-50: the genome must be a container -/
def manipulateGenome (f : Nat → K → K) : GTree K → Nat → Except Err (GTree K × Nat)
  | .leaf _, _ => .error .assertion
  | .node l, n => .ok ((GTree.node l).manip f n)

/-- `SimpleMutation._manipulateValue` with the default variate, gfilter.py:62-97 and variate.py:45-49 -/
def mutateValue [Field K] (alpha : K) (z : Nat → K) (n : Nat) (x : K) : K := x + alpha * z n

/-- `Randomization._manipulateValue`, gfilter.py:121-123 and variate.py:14-19 -/
def uniformValue [Field K] (a b : K) (u : Nat → K) (n : Nat) (_ : K) : K := a + (b - a) * u n

/-! ### individuals -/

/-- the genome objects, the counter of identifiers and the number of random numbers used -/
structure World (K : Type) where
  heap : List (GTree K)
  nextId : Nat
  drawn : Nat

/-- a sub-individual, individual.py:37-59 -/
structure Sub where
  id : Nat
  addr : Nat
deriving DecidableEq

/-- `EvolinoSubIndividual.__init__` with a new genome object, individual.py:40-46 -/
def World.newSub (w : World K) (g : GTree K) : World K × Sub :=
  ({ w with heap := w.heap ++ [g], nextId := w.nextId + 1 }, ⟨w.nextId, w.heap.length⟩)

/-- `EvolinoSubIndividual.getGenome`, individual.py:48-50: the genome object itself -/
def World.genome (w : World K) (s : Sub) : Option (GTree K) := w.heap[s.addr]?

/-- `EvolinoSubIndividual.copy`, individual.py:56-63 -/
def World.copySub (w : World K) (s : Sub) : Option (World K × Sub) := (w.genome s).map fun g => w.newSub g

/-- `EvolinoSubIndividual.setGenome` with a new genome object, individual.py:52-54 -/
def World.setGenome (w : World K) (s : Sub) (g : GTree K) : World K × Sub := ({ w with heap := w.heap ++ [g] }, { s with addr := w.heap.length })

/-- `_mutateIndividual` and the body of `Randomization.apply` for a sub-individual, gfilter.py:82-88, 119: the object behind the reference is changed -/
def World.manipSub (f : Nat → K → K) (w : World K) (s : Sub) : Except Err (World K) :=
  match w.genome s with
  | none => .error .keyError
  | some g => do
    let r ← manipulateGenome f g w.drawn
    return { w with heap := w.heap.set s.addr r.1, drawn := r.2 }

/-- `apply` for a population of sub-individuals, in the order of its individuals, gfilter.py:74-80, 115-119 -/
def World.applySubs (f : Nat → K → K) : World K → List Sub → Except Err (World K)
  | w, [] => .ok w
  | w, s :: ss => do (← w.manipSub f s).applySubs f ss

/-- `EvolinoIndividual.getGenome`, individual.py:21-28: copies of the genomes of the sub-individuals -/
def World.mainGenome (w : World K) (subs : List Sub) : Option (GTree K) := (subs.mapM w.genome).map .node

/-- `_mutateIndividual` and the body of `Randomization.apply` for a main individual: the copy is changed and dropped; only random numbers are used -/
def World.manipMain (f : Nat → K → K) (w : World K) (subs : List Sub) : Except Err (World K) :=
  match w.mainGenome subs with
  | none => .error .keyError
  | some g => do
    let r ← manipulateGenome f g w.drawn
    return { w with drawn := r.2 }

/-- `apply` for a population of main individuals -/
def World.applyMains (f : Nat → K → K) : World K → List (List Sub) → Except Err (World K)
  | w, [] => .ok w
  | w, s :: ss => do (← w.manipMain f s).applyMains f ss

/-- what happens to sub-individuals -/
inductive GOp (K : Type) where
  | create (g : GTree K)
  | copy (s : Sub)
  | mutate (f : Nat → K → K) (s : Sub)
  | setGenome (s : Sub) (g : GTree K)

/-- a history: the world and the sub-individuals created so far; a failing operation changes nothing -/
def step (st : World K × List Sub) : GOp K → World K × List Sub
  | .create g => let r := st.1.newSub g; (r.1, st.2 ++ [r.2])
  | .copy s => match st.1.copySub s with
    | some r => (r.1, st.2 ++ [r.2])
    | none => st
  | .mutate f s => match st.1.manipSub f s with
    | .ok w => (w, st.2)
    | .error _ => st
  | .setGenome s g =>
    let r := st.1.setGenome s g
    (r.1, st.2.map fun x => if x.id = s.id then r.2 else x)
end

/-! ### variates -/

/-- `CauchyVariate.getSample`, variate.py:30-35, for the random number `u` -/
noncomputable def cauchySample (x0 alpha u : ℝ) : ℝ := x0 + alpha * Real.tan (Real.pi * (u - 1 / 2))

/-- `UniformVariate.getSample`, variate.py:14-19, for the random number `u` -/
def uniformSample {K : Type} [Field K] (a b u : K) : K := a + (b - a) * u

end Verif.Genome
