import Verif.Model.Coevolution
/-
Model of co-evolution with several populations: pybrain/optimization/populationbased/coevolution/competitivecoevolution.py:8-91 and multipopulationcoevolution.py:8-67.
Like their base class (see `Verif.Model.Coevolution`) they cannot be imported at this commit and are modelled as they are written.

Populations in `oldPops` are given by the identifiers of their members. Two lists of players are equal (multipopulationcoevolution.py:35) when they hold the same objects.
The list `pops` is a function of the index.
-/
namespace Verif.Coevolution
open Verif.DataSet (Err)

section
variable {K : Type} [Field K] [LinearOrder K] {n : Nat}

/-- the part of `_oneGeneration` after the evaluation, coevolution.py:87-100; the generation has already been counted -/
def finish (o : Oracle K n) (c : Settings K) (s : State K n) (fits : List K) (book : Book Nat K) : Except Err (State K n) := do
  let best ← match Verif.Py.firstMax (fun x : K × Ind K n => x.1) (fits.zip s.pop) with
    | none => .error .valueError
    | some x => .ok x.2
  let bestFits := ((fits.insertionSort (· ≤ ·)).reverse).take c.numSelected
  let (pop, next) ← selectAndReproduce o c s.generation s.pop fits s.next
  pure { pop := pop, hallOfFame := s.hallOfFame ++ [best], hallOfFitnesses := s.hallOfFitnesses ++ [bestFits], generation := s.generation, book := book, next := next }

/-! ### two populations -/

/-- `pop` and the rest of the state of the base class; `parasitePop`; `oldPops` -/
structure Rivals (K : Type) (n : Nat) where
  s : State K n
  parasites : List (Ind K n)
  old : List (List Nat)

/-- `CompetitiveCoevolution._initPopulation`, competitivecoevolution.py:14-29. `randomize` gives the parameters of a randomized copy. -/
def rivalsStart (o : Oracle K n) (c : Settings K) (randomize : (Fin n → K) → Fin n → K) (seeds : List (Fin n → K)) : Except Err (Rivals K n) := do
  let s := seeds.mapIdx (fun i v => ({ id := i, params := v, parent := none } : Ind K n))
  let (s1, s2, next) ← if s.length > 1 then .ok (s.take (s.length / 2), s.drop (s.length / 2), s.length) else
    match s[0]? with
    | none => .error .indexError
    | some x => .ok (s, [{ x with id := s.length, params := randomize x.params }], s.length + 1)
  let (pop, next) ← extend o c s1 c.populationSize next
  let (parasites, next) ← extend o c s2 c.populationSize next
  pure { s := { pop := pop, hallOfFame := [], hallOfFitnesses := [], generation := 0, book := Book.empty, next := next }, parasites := parasites, old := [] }

/-- `_competitiveSharedFitness`, competitivecoevolution.py:31-64, with the bonus for breaking ties -/
def sharedFitnesses (b : Book Nat K) (hosts parasites : List Nat) : Except Err (List K) :=
  if parasites.length = 0 then .ok (hosts.map fun _ => 0)
  else do
    let _ ← parasites.mapM (fun p => hosts.mapM (fun h => beats b h p))
    let bt : Nat → Nat → K := fun h p => (beats b h p).toOption.getD 0
    hosts.mapM (fun h =>
      if parasites.any (fun p => decide (0 < bt h p ∧ beatsum bt hosts p = 0)) then .error .assertion
      else do
        let g ← globalScore b h
        pure (sharedFitness bt hosts parasites h + 1 / 100000 * g))

/-- the opponents, competitivecoevolution.py:69-72. A generation later than the second has two old populations. -/
def rivalOpponents (shared : Bool) (shuffle : Nat → List (Nat × K × Nat) → List (Nat × K × Nat)) (r : Rivals K n) (tournSize : Nat) : Except Err (List Nat) :=
  if shared ∧ r.s.generation > 2 then
    match r.old[r.old.length - 2]? with
    | none => .error .indexError
    | some l => sharedSampling shuffle r.s.book tournSize (r.parasites.map Ind.id) l
  else .ok (r.parasites.map Ind.id)

/-- `CompetitiveCoevolution._evaluatePopulation`, competitivecoevolution.py:66-83. The hall of fame is used with its repetitions. -/
def rivalsEvaluate (o : Oracle K n) (c : Settings K) (shared : Bool) (shuffle : Nat → List (Nat × K × Nat) → List (Nat × K × Nat)) (r : Rivals K n) :
    Except Err (List K × Book Nat K) := do
  let hofSize := min r.s.generation c.hofTournament
  let ids := r.s.pop.map Ind.id
  let opponents ← rivalOpponents shared shuffle r (c.tournamentSize - hofSize)
  let tournSize := if opponents.length < c.tournamentSize - hofSize then opponents.length else c.tournamentSize - hofSize
  let b := doTournament o.eval o.sample r.s.book ids opponents (some tournSize)
  let b := if hofSize > 0 then doTournament o.eval o.sample b ids (r.s.hallOfFame.map Ind.id) (some hofSize) else b
  let fit ← sharedFitnesses b ids (r.parasites.map Ind.id)
  if hofSize > 0 then do
    let fitHof ← sharedFitnesses b ids (r.s.hallOfFame.map Ind.id)
    pure ((fit.zip fitHof).map (fun f => (tournSize : K) * f.1 + (hofSize : K) * f.2), b)
  else pure (fit, b)

/-- `CompetitiveCoevolution._oneGeneration`, competitivecoevolution.py:85-90 and coevolution.py:83-100 -/
def rivalsGeneration (o : Oracle K n) (c : Settings K) (shared : Bool) (shuffle : Nat → List (Nat × K × Nat) → List (Nat × K × Nat)) (r : Rivals K n) :
    Except Err (Rivals K n) := do
  let r1 : Rivals K n := { r with s := { r.s with generation := r.s.generation + 1 }, old := r.old ++ [r.s.pop.map Ind.id] }
  let (fits, book) ← rivalsEvaluate o c shared shuffle r1
  let s' ← finish o c r1.s fits book
  pure { s := { s' with pop := r.parasites }, parasites := s'.pop, old := r1.old }

/-- the loop of `learn`, coevolution.py:73-80 -/
def rivalsLearn (o : Oracle K n) (c : Settings K) (shared : Bool) (shuffle : Nat → List (Nat × K × Nat) → List (Nat × K × Nat)) (limit : Option Nat) :
    Nat → Rivals K n → Option (Except Err (Rivals K n))
  | fuel, r =>
    if stops c limit r.s then some (.ok r)
    else match fuel with
      | 0 => none
      | fuel + 1 =>
        match rivalsGeneration o c shared shuffle r with
        | .error e => some (.error e)
        | .ok r' => rivalsLearn o c shared shuffle limit fuel r'

/-! ### many populations -/

/-- `pop` and the rest of the state of the base class; `pops`; `mainpop` -/
structure Many (K : Type) (n : Nat) where
  s : State K n
  pops : Nat → List (Ind K n)
  main : Nat

/-- the loop that adds randomized copies of seeds until there is one for each population, multipopulationcoevolution.py:20-23 -/
def addSeeds (pick : Nat → Nat) (randomize : Nat → (Fin n → K) → Fin n → K) : Nat → List (Ind K n) → Except Err (List (Ind K n))
  | 0, seeds => .ok seeds
  | k + 1, seeds =>
    match seeds[pick seeds.length % seeds.length]? with
    | none => .error .indexError
    | some x => addSeeds pick randomize k (seeds ++ [{ x with id := seeds.length, params := randomize seeds.length x.params }])

/-- `seeds[i::k]` -/
def every {α : Type} (k i : Nat) (l : List α) : List α := (l.zipIdx.filter (fun x => decide (i ≤ x.2 ∧ (x.2 - i) % k = 0))).map Prod.fst

/-- multipopulationcoevolution.py:25-27, for the populations from `i` on -/
def buildPops (o : Oracle K n) (c : Settings K) (numPops : Nat) (seeds : List (Ind K n)) : List Nat → Nat → Except Err (List (List (Ind K n)) × Nat)
  | [], next => .ok ([], next)
  | i :: is, next => do
    let (p, next) ← extend o c (every numPops i seeds) c.populationSize next
    let (ps, next) ← buildPops o c numPops seeds is next
    pure (p :: ps, next)

/-- `MultiPopulationCoevolution._initPopulation`, multipopulationcoevolution.py:16-29; also the number of seeds in the caller's list afterwards -/
def manyStart (o : Oracle K n) (c : Settings K) (numPops : Nat) (randomize : Nat → (Fin n → K) → Fin n → K) (seeds : List (Fin n → K)) : Except Err (Many K n × Nat) := do
  let s := seeds.mapIdx (fun i v => ({ id := i, params := v, parent := none } : Ind K n))
  let s ← addSeeds o.pick randomize (numPops - s.length) s
  let (ps, next) ← buildPops o c numPops s (List.range numPops) s.length
  match ps with
  | [] => .error .indexError
  | pop :: _ => pure ({ s := { pop := pop, hallOfFame := [], hallOfFitnesses := [], generation := 0, book := Book.empty, next := next },
                        pops := fun i => ps.getD i [], main := 0 }, s.length)

/-- the other populations, multipopulationcoevolution.py:34-36 -/
def others (numPops : Nat) (m : Many K n) : List (List (Ind K n)) :=
  ((List.range numPops).map m.pops).filter (fun other => decide (other.map Ind.id ≠ m.s.pop.map Ind.id))

/-- the part of a population that is played against, multipopulationcoevolution.py:38-41 -/
def bestPart (other : List (Ind K n)) : List Nat := (other.take (if other.length / 2 < 1 then 1 else other.length / 2)).map Ind.id

/-- `MultiPopulationCoevolution._evaluatePopulation`, multipopulationcoevolution.py:31-54 -/
def manyEvaluate (o : Oracle K n) (c : Settings K) (numPops : Nat) (m : Many K n) : Except Err (List K × Book Nat K) := do
  let b := (others numPops m).foldl (fun b other => doTournament o.eval o.sample b (m.s.pop.map Ind.id) (bestPart other) (some c.tournamentSize)) m.s.book
  let fits ← m.s.pop.mapM (fun p => fitness o b ((others numPops m).flatten.map Ind.id) [] p)
  pure (fits, b)

/-- `MultiPopulationCoevolution._oneGeneration`, multipopulationcoevolution.py:56-61 and coevolution.py:83-100 -/
def manyGeneration (o : Oracle K n) (c : Settings K) (numPops : Nat) (m : Many K n) : Except Err (Many K n) := do
  let m1 : Many K n := { m with s := { m.s with generation := m.s.generation + 1 } }
  let (fits, book) ← manyEvaluate o c numPops m1
  let s' ← finish o c m1.s fits book
  let pops := fun i => if i = m.main then s'.pop else m.pops i
  let main := s'.generation % numPops
  pure { s := { s' with pop := pops main }, pops := pops, main := main }

/-- the loop of `learn`, coevolution.py:73-80. After construction `tournamentSize` is never `None`, so that the steps of a generation are those of the base class
(multipopulationcoevolution.py:63-67). -/
def manyLearn (o : Oracle K n) (c : Settings K) (numPops : Nat) (limit : Option Nat) : Nat → Many K n → Option (Except Err (Many K n))
  | fuel, m =>
    if stops c limit m.s then some (.ok m)
    else match fuel with
      | 0 => none
      | fuel + 1 =>
        match manyGeneration o c numPops m with
        | .error e => some (.error e)
        | .ok m' => manyLearn o c numPops limit fuel m'

end
end Verif.Coevolution
