import Verif.Model.CoevolutionPops
import Verif.Props.CoevolutionSharing
/-
Specification for C176 and C177: fitness sharing between two populations, and what holds between generations with several populations.
-/
namespace Verif.Coevolution.Spec
variable {K : Type} [Field K] [LinearOrder K] {n : Nat}

/-- the share of a host: every parasite is worth one point, divided among the hosts that beat it; the points of a host are divided by the number of parasites it has a decided
record with -/
def share (games : List (Nat × Nat × K)) (hosts parasites : List Nat) (h : Nat) : K :=
  ((parasites.filter (fun p => decide (0 < average games h p))).map
      (fun p => 1 / ((hosts.filter (fun h' => decide (0 < average games h' p))).length : K))).sum /
    ((parasites.filter (fun p => decide (average games h p ≠ 0))).length : K)

/-- the average score of a player over all its games, in slight favour of many games -/
def overall (games : List (Nat × Nat × K)) (p : Nat) : K :=
  ((((games.filter (fun g => decide (g.1 = p))).map (fun g => g.2.1)).map (fun q => (between games p q).sum - (between games q p).sum)).sum) /
    (((((games.filter (fun g => decide (g.1 = p))).map (fun g => g.2.1)).map (fun q => (between games p q).length + (between games q p).length)).sum : Nat) + 1 / 100)

/-- the fitness of a host with respect to some parasites -/
def sharedFit (games : List (Nat × Nat × K)) (hosts parasites : List Nat) (h : Nat) : K :=
  if parasites = [] then 0 else share games hosts parasites h + 1 / 100000 * overall games h

/-- the fitness in a generation with two populations: with respect to the parasites and to the hall of fame, weighted with the numbers of opponents -/
def rivalFitness (games : List (Nat × Nat × K)) (c : Settings K) (r : Rivals K n) (p : Ind K n) : K :=
  if 0 < min (r.s.generation + 1) c.hofTournament then
    (min (c.tournamentSize - min (r.s.generation + 1) c.hofTournament) c.populationSize : Nat) * sharedFit games (r.s.pop.map Ind.id) (r.parasites.map Ind.id) p.id +
      (min (r.s.generation + 1) c.hofTournament : Nat) * sharedFit games (r.s.pop.map Ind.id) (r.s.hallOfFame.map Ind.id) p.id
  else sharedFit games (r.s.pop.map Ind.id) (r.parasites.map Ind.id) p.id

/-- every player of a list has played, in both orders, against as many distinct players of another list as asked for (or all there are) -/
def Met (new : List (Nat × Nat × K)) (pop1 pop2 : List Nat) (k : Nat) : Prop :=
  ∀ p ∈ pop1, ∃ opps, Chosen pop2 (some k) p opps ∧ ∀ q ∈ opps, (∃ v, (p, q, v) ∈ new) ∧ ∃ v, (q, p, v) ∈ new

/-- the best fitnesses of a generation, from the best downwards -/
def Top (fits best : List K) (k : Nat) : Prop :=
  ∃ rest, (best ++ rest).Perm fits ∧ best.length = min k fits.length ∧ best.Pairwise (fun x y => y ≤ x) ∧ ∀ x ∈ best, ∀ y ∈ rest, y ≤ x

/-- what holds between generations with two populations -/
structure RivalsConsistent (c : Settings K) (r : Rivals K n) (games : List (Nat × Nat × K)) : Prop where
  size : r.s.pop.length = c.populationSize
  parasites : r.parasites.length = c.populationSize
  ids : ((r.s.pop ++ r.parasites).map Ind.id).Nodup
  fresh : ∀ p ∈ r.s.pop ++ r.parasites, p.id < r.s.next
  famous : ∀ p ∈ r.s.hallOfFame, p.id < r.s.next
  played : ∀ g ∈ games, g.1 < r.s.next ∧ g.2.1 < r.s.next
  hof : r.s.hallOfFame.length = r.s.generation
  fits : r.s.hallOfFitnesses.length = r.s.generation
  old : r.old.length = r.s.generation
  reflects : Reflects r.s.book games
  paired : Paired games

/-- what holds between generations with `k` populations -/
structure ManyConsistent (c : Settings K) (k : Nat) (m : Many K n) (games : List (Nat × Nat × K)) : Prop where
  some : 0 < k
  main : m.main = m.s.generation % k
  current : m.s.pop = m.pops m.main
  size : ∀ i < k, (m.pops i).length = c.populationSize
  ids : ∀ i < k, ((m.pops i).map Ind.id).Nodup
  apart : ∀ i < k, ∀ j < k, i ≠ j → ∀ p ∈ m.pops i, ∀ q ∈ m.pops j, p.id ≠ q.id
  fresh : ∀ i < k, ∀ p ∈ m.pops i, p.id < m.s.next
  played : ∀ g ∈ games, g.1 < m.s.next ∧ g.2.1 < m.s.next
  hof : m.s.hallOfFame.length = m.s.generation
  fits : m.s.hallOfFitnesses.length = m.s.generation
  reflects : Reflects m.s.book games
  paired : Paired games

/-- the numbers of the other populations -/
def otherNumbers (k main : Nat) : List Nat := (List.range k).filter (fun i => decide (i ≠ main))

end Verif.Coevolution.Spec
