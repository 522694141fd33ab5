import Verif.Model.Evolino
/-
What the Evolino populations have to satisfy.
-/
namespace Verif.Evolino.Spec

variable {α F : Type} [DecidableEq α] [LinearOrder F] [OrderBot F]

/-- The set of individuals and the fitness table describe the same population: neither lists anybody
twice, and the keys of the table are exactly the individuals. -/
def Consistent (p : Pop α F) : Prop :=
  p.individuals.Nodup ∧ (p.fitness.map Prod.fst).Nodup ∧ ∀ a, a ∈ p.individuals ↔ a ∈ p.fitness.map Prod.fst

/-- A history in which a fitness is only assigned to individuals that are in the population at that
time. -/
def Proper : Pop α F → List (Op α F) → Prop
  | _, [] => True
  | p, op :: ops =>
    (match op with | .setFitness a _ => a ∈ p.individuals | _ => True) ∧
    Proper (match step p op with | .ok q => q | .error _ => p) ops

/-- `q` is `p` reduced to its `k` fittest individuals: they keep their fitness, and nobody who left was
fitter than somebody who stayed. -/
def Fittest (k : Nat) (p q : Pop α F) : Prop :=
  q.individuals.Sublist p.individuals ∧ q.individuals.length = k ∧
  (∀ a ∈ q.individuals, Py.dget q.fitness a = Py.dget p.fitness a) ∧
  (∀ a ∈ q.individuals, ∀ b ∈ p.individuals, b ∉ q.individuals →
    ∀ fa fb : F, Py.dget p.fitness a = some fa → Py.dget p.fitness b = some fb → fb ≤ fa)

/-- The `i`-th component of every individual of a list. -/
def column (i : Nat) (cs : List (List α)) : List α := cs.filterMap (fun c => c[i]?)

end Verif.Evolino.Spec
