import Verif.Model.DataSet
import Verif.Model.FirstMax
import Mathlib.Data.List.Sort
import Mathlib.Algebra.Order.Field.Basic
import Mathlib.Algebra.BigOperators.Group.List.Basic
import Mathlib.Data.List.Dedup
/-
Model of the co-evolution optimiser (pybrain/optimization/populationbased/coevolution/coevolution.py:11-270) and of the competitive fitness sharing
(competitivecoevolution.py:31-64). At this commit the package cannot be imported (`coevolution/__init__.py` imports `competitivecoevolution`, which imports
`pybrain.optimization.coevolution.coevolution`, a path that does not exist); the classes are modelled as they are written.

Numbers are elements of an ordered field. Players are objects compared by identity: the tables of results are keyed by an identifier, and every object created
during the search gets a fresh one. Players are never changed after they have been created (`mutate` and `_setParameters` are only called on fresh copies), so a
player carries its parameters and, when averaging with parents is used, those of its parent. All random choices are explicit arguments. The counts
`_numSelected()` and `int(tournamentSize * hallOfFameEvaluation)` are given as natural numbers.
-/
namespace Verif.Coevolution
open Verif.DataSet (Err)

section Book
variable {α K : Type} [DecidableEq α] [Field K] [LinearOrder K]

/-- one value of `allResults`: games won, total games, cumulative score, list of scores, coevolution.py:54-56 -/
structure Entry (K : Type) where
  won : Nat
  games : Nat
  score : K
  scores : List K

/-- `allOpponents`, `allResults` and `steps`, coevolution.py:44-59 -/
structure Book (α K : Type) where
  opponents : α → Option (List α)
  results : α → α → Option (Entry K)
  steps : Nat

def Book.empty : Book α K := { opponents := fun _ => none, results := fun _ _ => none, steps := 0 }

/-- `_relEval`, coevolution.py:238-251. The evaluator may be random: it also sees the number of evaluations made so far. -/
def relEval (eval : Nat → α → α → K) (b : Book α K) (p opp : α) : Book α K :=
  let opps := (b.opponents p).getD [] ++ [opp]
  let e := (b.results p opp).getD { won := 0, games := 0, score := 0, scores := [] }
  let res := eval b.steps p opp
  let e' : Entry K := { won := if res > 0 then e.won + 1 else e.won, games := e.games + 1, score := e.score + res, scores := e.scores ++ [res] }
  { opponents := fun x => if x = p then some opps else b.opponents x,
    results := fun x y => if x = p ∧ y = opp then some e' else b.results x y,
    steps := b.steps + 1 }

/-- `_beats`, coevolution.py:175-183 -/
def beats (b : Book α K) (h p : α) : Except Err K :=
  match b.results h p with
  | none => .ok 0
  | some e1 =>
    match b.results p h with
    | none => .error .keyError
    | some e2 => .ok ((e1.score - e2.score) / ((e1.games + e2.games : Nat) : K))

/-- the opponents of one player in `_doTournament`, coevolution.py:192-198 -/
def opponentsOf (sample : Nat → List α → Nat → List α) (b : Book α K) (p : α) (pop2 : List α) (size : Option Nat) : List α :=
  let pop3 := pop2.filter (fun q => q ≠ p)
  match size with
  | none => pop3
  | some k => if k < pop3.length then sample b.steps pop3 k else pop3

/-- coevolution.py:199-201 -/
def playAll (eval : Nat → α → α → K) (b : Book α K) (p : α) (opps : List α) : Book α K :=
  opps.foldl (fun b opp => relEval eval (relEval eval b p opp) opp p) b

/-- `_doTournament`, coevolution.py:185-201 -/
def doTournament (eval : Nat → α → α → K) (sample : Nat → List α → Nat → List α) (b : Book α K) (pop1 pop2 : List α) (size : Option Nat) : Book α K :=
  pop1.foldl (fun b p => playAll eval b p (opponentsOf sample b p pop2 size)) b

/-- one opponent in `_globalScore`, coevolution.py:209-212 -/
def globalAdd (b : Book α K) (p : α) (acc : K × Nat) (opp : α) : Except Err (K × Nat) :=
  match b.results p opp with
  | none => .error .keyError
  | some e1 =>
    match b.results opp p with
    | none => .error .keyError
    | some e2 => .ok (acc.1 + e1.score - e2.score, acc.2 + e1.games + e2.games)

/-- `_globalScore`, coevolution.py:203-215 -/
def globalScore (b : Book α K) (p : α) : Except Err K :=
  match b.opponents p with
  | none => .ok 0
  | some opps => do
    let r ← opps.foldlM (globalAdd b p) (0, 0)
    pure (r.1 / ((r.2 : K) + 1 / 100))

/-- the players of `relativeTo` that `p` beats, coevolution.py:224-228 -/
def beatenBy (b : Book α K) (p : α) (relativeTo : List α) : Except Err (List α) := do
  let l ← relativeTo.mapM (fun opp => do
    let v ← beats b p opp
    pure (opp, v))
  pure ((l.filter (fun x => decide (0 < x.2))).map Prod.fst)

/-- `_sharedSampling`, coevolution.py:217-236, for lists without repetitions. `shuffle` is the random order of the beat list. -/
def sharedSampling (shuffle : Nat → List (Nat × K × α) → List (Nat × K × α)) (b : Book α K) : Nat → List α → List α → Except Err (List α)
  | 0, _, _ => .ok []
  | k + 1, selectFrom, relativeTo => do
    let beatlist ← selectFrom.mapM (fun p => do
      let l ← beatenBy b p relativeTo
      let g ← globalScore b p
      pure (l.length, g, p))
    let sorted := (shuffle k beatlist).insertionSort (fun x y => x.1 < y.1 ∨ (x.1 = y.1 ∧ x.2.1 ≤ y.2.1))
    match sorted.getLast? with
    | none => .error .indexError
    | some (_, _, best) => do
      let beaten ← beatenBy b best relativeTo
      let rest ← sharedSampling shuffle b k (selectFrom.erase best) (relativeTo.filter (fun q => q ∉ beaten))
      pure (best :: rest)

/-- the number of hosts that beat a parasite, competitivecoevolution.py:37-43 -/
def beatsum (bt : α → α → K) (hosts : List α) (p : α) : Nat := (hosts.filter (fun h => decide (0 < bt h p))).length

/-- `_competitiveSharedFitness`, competitivecoevolution.py:31-64, without the bonus for breaking ties (line 62). `bt h p` is the value of `_beats(h, p)`. -/
def sharedFitness (bt : α → α → K) (hosts parasites : List α) (h : α) : K :=
  let hsum := ((parasites.filter (fun p => decide (0 < bt h p))).map (fun p => 1 / (beatsum bt hosts p : K))).sum
  let unplayed := (parasites.filter (fun p => decide (bt h p = 0))).length
  if parasites.length > unplayed then hsum / ((parasites.length - unplayed : Nat) : K) else hsum

end Book

section Generations
variable {K : Type} [Field K] [LinearOrder K] {n : Nat}

/-- a player -/
structure Ind (K : Type) (n : Nat) where
  id : Nat
  params : Fin n → K
  parent : Option (Fin n → K)

/-- the settings, coevolution.py:15-31 -/
structure Settings (K : Type) where
  populationSize : Nat
  numSelected : Nat
  elitism : Bool
  parentChildAverage : K
  tournamentSize : Nat
  hofTournament : Nat
  maxGenerations : Option Nat
  maxEvaluations : Option Nat

/-- the random choices, and the evaluators -/
structure Oracle (K : Type) (n : Nat) where
  eval : Nat → Nat → Nat → K
  sample : Nat → List Nat → Nat → List Nat
  pick : Nat → Nat
  mutate : Nat → (Fin n → K) → (Fin n → K)
  shuffle : Nat → List (K × Ind K n) → List (K × Ind K n)
  /-- `absEvalProportion` (if positive) and `absEvaluator` (if given) -/
  absEval : Option (K × (Ind K n → K))

structure State (K : Type) (n : Nat) where
  pop : List (Ind K n)
  hallOfFame : List (Ind K n)
  hallOfFitnesses : List (List K)
  generation : Nat
  book : Book Nat K
  next : Nat

/-- one more child in `_extendPopulation`, coevolution.py:147-152 -/
def child (o : Oracle K n) (c : Settings K) (seeds : List (Ind K n)) (next : Nat) : Except Err (Ind K n) :=
  match seeds[o.pick next % seeds.length]? with
  | none => .error .indexError
  | some chosen => .ok { id := next, params := o.mutate next chosen.params, parent := if c.parentChildAverage < 1 then some chosen.params else chosen.parent }

/-- `_extendPopulation`, coevolution.py:142-153 -/
def extend (o : Oracle K n) (c : Settings K) (seeds : List (Ind K n)) (size next : Nat) : Except Err (List (Ind K n) × Nat) := do
  let l ← (List.range (size - seeds.length)).mapM (fun i => child o c seeds (next + i))
  pure (seeds ++ l, next + (size - seeds.length))

/-- `_averageWithParents`, coevolution.py:102-108; `next` numbers the copies -/
def averageWithParents (pca : K) : Nat → List (Ind K n) → List (Ind K n)
  | _, [] => []
  | next, p :: ps =>
    (match p.parent with
      | none => p
      | some q => { id := next, params := fun i => p.params i * pca + q i * (1 - pca), parent := p.parent }) :: averageWithParents pca (next + 1) ps

/-- the selected players in `_selectAndReproduce`, coevolution.py:158-162 -/
def select (o : Oracle K n) (c : Settings K) (generation : Nat) (pop : List (Ind K n)) (fits : List K) : List (Ind K n) :=
  (((o.shuffle generation (fits.zip pop)).insertionSort (fun x y => - x.1 ≤ - y.1)).take c.numSelected).map Prod.snd

/-- `_selectAndReproduce`, coevolution.py:155-173. In line 172 the averaged players are written into a copy of a part of the list, which is then dropped. -/
def selectAndReproduce (o : Oracle K n) (c : Settings K) (generation : Nat) (pop : List (Ind K n)) (fits : List K) (next : Nat) :
    Except Err (List (Ind K n) × Nat) :=
  let selected := select o c generation pop fits
  if c.elitism then do
    let (newpop, next) ← extend o c selected c.populationSize next
    if c.parentChildAverage < 1 then pure (averageWithParents c.parentChildAverage next newpop, next + newpop.length) else pure (newpop, next)
  else do
    let (newpop, next) ← extend o c selected (c.populationSize + c.numSelected) next
    let newpop := newpop.drop c.numSelected
    if c.parentChildAverage < 1 then
      let _dropped := averageWithParents c.parentChildAverage next (newpop.drop c.numSelected)
      pure (newpop, next + (newpop.drop c.numSelected).length)
    else pure (newpop, next)

/-- the sum of `_beats(p, opp)` over some opponents, coevolution.py:126-130 -/
def sumBeats (b : Book Nat K) (p : Nat) (opps : List Nat) : Except Err K := do
  let l ← opps.mapM (beats b p)
  pure l.sum

/-- the fitness of one player, coevolution.py:125-133 -/
def fitness (o : Oracle K n) (b : Book Nat K) (opps hof : List Nat) (p : Ind K n) : Except Err K := do
  let r1 ← sumBeats b p.id opps
  let r2 ← sumBeats b p.id hof
  match o.absEval with
  | none => pure (r1 + r2)
  | some (w, f) => pure ((1 - w) * (r1 + r2) + w * f p)

/-- `_evaluatePopulation` without shared sampling, coevolution.py:110-134 -/
def evaluatePopulation (o : Oracle K n) (c : Settings K) (s : State K n) : Except Err (List K × Book Nat K) := do
  let hofSize := min s.generation c.hofTournament
  let ids := s.pop.map Ind.id
  let tournSize := c.tournamentSize - hofSize
  let tournSize := if ids.length < tournSize then ids.length else tournSize
  let b := doTournament o.eval o.sample s.book ids ids (some tournSize)
  let hof := if hofSize > 0 then (s.hallOfFame.map Ind.id).dedup else []
  let b := if hofSize > 0 then doTournament o.eval o.sample b ids hof (some hofSize) else b
  let fits ← s.pop.mapM (fitness o b ids hof)
  pure (fits, b)

/-- `_oneGeneration`, coevolution.py:83-100 -/
def oneGeneration (o : Oracle K n) (c : Settings K) (s : State K n) : Except Err (State K n) := do
  let s := { s with generation := s.generation + 1 }
  let (fits, book) ← evaluatePopulation o c s
  let best ← match Verif.Py.firstMax (fun x : K × Ind K n => x.1) (fits.zip s.pop) with
    | none => .error .valueError
    | some x => .ok x.2
  let bestFits := ((fits.insertionSort (· ≤ ·)).reverse).take c.numSelected
  let (pop, next) ← selectAndReproduce o c s.generation s.pop fits s.next
  pure { pop := pop, hallOfFame := s.hallOfFame ++ [best], hallOfFitnesses := s.hallOfFitnesses ++ [bestFits], generation := s.generation, book := book, next := next }

/-- `_stepsPerGeneration`, coevolution.py:268-270 -/
def stepsPerGeneration (c : Settings K) : Nat := c.populationSize * c.tournamentSize * 2

/-- the three tests at the beginning of the loop of `learn`, coevolution.py:74-79. `limit` is `maxSteps`, increased by the steps already made. -/
def stops (c : Settings K) (limit : Option Nat) (s : State K n) : Bool :=
  (match limit with | none => false | some m => decide (s.book.steps + stepsPerGeneration c > m)) ||
  (match c.maxEvaluations with | none => false | some m => decide (s.book.steps + stepsPerGeneration c > m)) ||
  (match c.maxGenerations with | none => false | some m => decide (s.generation ≥ m))

/-- the loop of `learn`, coevolution.py:73-80; `none`: more than `fuel` generations -/
def learnLoop (o : Oracle K n) (c : Settings K) (limit : Option Nat) : Nat → State K n → Option (Except Err (State K n))
  | fuel, s =>
    if stops c limit s then some (.ok s)
    else match fuel with
      | 0 => none
      | fuel + 1 =>
        match oneGeneration o c s with
        | .error e => some (.error e)
        | .ok s' => learnLoop o c limit fuel s'

/-- `learn`, coevolution.py:67-81: the state afterwards and the returned player -/
def learn (o : Oracle K n) (c : Settings K) (maxSteps : Option Nat) (fuel : Nat) (s : State K n) : Option (Except Err (State K n × Ind K n)) :=
  (learnLoop o c (maxSteps.map (· + s.book.steps)) fuel s).map (fun r =>
    match r with
    | .error e => .error e
    | .ok s' => match s'.hallOfFame.getLast? with
      | none => .error .indexError
      | some x => .ok (s', x))

/-- the constructor and `_initPopulation`, coevolution.py:33-65 and 136-140. The seeds are numbered from 0. -/
def start (o : Oracle K n) (c : Settings K) (seeds : List (Fin n → K)) : Except Err (State K n) := do
  let s := seeds.mapIdx (fun i v => ({ id := i, params := v, parent := none } : Ind K n))
  let (pop, next) ← extend o c s c.populationSize s.length
  pure { pop := pop, hallOfFame := [], hallOfFitnesses := [], generation := 0, book := Book.empty, next := next }

end Generations

end Verif.Coevolution
