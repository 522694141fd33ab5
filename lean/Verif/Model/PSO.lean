import Verif.Model.DataSet
import Mathlib.Algebra.Module.Defs
import Mathlib.Algebra.Field.Defs
import Mathlib.Order.Defs.LinearOrder
/-
Model of pybrain/optimization/populationbased/pso.py (ParticleSwarmOptimizer).

Positions and velocities are elements of any vector space `V`. Particles are identified by their index in `self.particles`; the
neighbourhood dictionary maps an index to a list of indices. The random numbers are arguments.
-/
namespace Verif.PSO
open Verif.DataSet (Err)

/-- `fullyConnected`, pso.py:10-11: the neighbours of a particle among `n` -/
def fullyConnected (n _i : Nat) : List Nat := List.range n

/-- `ring`, pso.py:13-16: `leftist` is the list rotated by one to the left, `rightist` by one to the right -/
def ring (n i : Nat) : List Nat :=
  let lst := List.range n
  let leftist := lst.drop 1 ++ lst.take 1
  let rightist := lst.drop (n - 1) ++ lst.take (n - 1)
  [leftist.getD i 0, rightist.getD i 0]

/-- `Particle`, pso.py:106-118. `bestFitness = none`: still infinite. -/
structure Particle (K V : Type) where
  position : V
  velocity : V
  bestPosition : V
  bestFitness : Option K

variable {K V : Type} [Field K] [LinearOrder K] [AddCommGroup V] [Module K V]

/-- `Particle.__init__`, pso.py:107-118 -/
def Particle.new (start : V) : Particle K V := ⟨start, 0, 0, none⟩

/-- one coordinate of a starting position, pso.py:69-71: `random()*(max-min)+min` -/
def startCoordinate (r min max : K) : K := r * (max - min) + min

/-- `Particle._setFitness`, pso.py:120-125 -/
def setFitness (minimize : Bool) (p : Particle K V) (value : K) : Particle K V :=
  let improves := match p.bestFitness with
    | none => true
    | some b => (minimize && decide (value < b)) || (!minimize && decide (b < value))
  if improves then { p with bestFitness := some value, bestPosition := p.position } else p

/-- `best`, pso.py:77-81: `min`/`max` with a key return the first of the best -/
def best (minimize : Bool) (fitness : Nat → K) : List Nat → Except Err Nat
  | [] => .error .valueError
  | i :: is => .ok (is.foldl (fun b j => if (if minimize then fitness j < fitness b else fitness b < fitness j) then j else b) i)

structure Settings (K : Type) where
  minimize : Bool
  memory : K
  sociality : K
  inertia : K

/-- pso.py:89-99: the new velocity and position of a particle, attracted by `bestPosition` -/
def moved (c : Settings K) (r1 r2 : K) (bestPosition : V) (p : Particle K V) : Particle K V :=
  let diffSocial := (c.sociality * r1) • (bestPosition - p.position)
  let diffMemory := (c.memory * r2) • (p.bestPosition - p.position)
  let velocity := c.inertia • p.velocity + (diffMemory + diffSocial)
  { p with velocity := velocity, position := p.position + velocity }

/-- the second loop of `_learnStep`, pso.py:87-99, from particle `a` on: particles move one after another, in place -/
def moveFrom (c : Settings K) (neighbours : Nat → List Nat) (fitness : Nat → K) (r1 r2 : Nat → K) :
    Nat → Nat → List (Particle K V) → Except Err (List (Particle K V))
  | _, 0, ps => .ok ps
  | a, k + 1, ps =>
    match ps[a]?, best c.minimize fitness (neighbours a) with
    | none, _ => .ok ps
    | _, .error e => .error e
    | some p, .ok b =>
      match ps[b]? with
      | none => .error .keyError
      | some q => moveFrom c neighbours fitness r1 r2 (a + 1) k (ps.set a (moved c (r1 a) (r2 a) q.position p))

/-- `_learnStep`, pso.py:83-99 -/
def learnStep (c : Settings K) (neighbours : Nat → List Nat) (f : V → K) (r1 r2 : Nat → K) (ps : List (Particle K V)) : Except Err (List (Particle K V)) :=
  let evaluated := ps.map fun p => setFitness c.minimize p (f p.position)
  let fitness := fun i => ((ps[i]?).map fun p => f p.position).getD 0
  moveFrom c neighbours fitness r1 r2 0 ps.length evaluated

end Verif.PSO
