import Mathlib.Algebra.Order.Field.Basic
import Mathlib.Algebra.Order.Floor.Ring
import Mathlib.Data.List.MinMax
import Mathlib.Data.List.FinRange
import Mathlib.Algebra.BigOperators.Fin
/-
Model of pybrain/structure/modules/kohonen.py, over an ordered field. The bounds of the slices `tl` and `br` are numbers with fraction 0; numpy versions
that refuse such bounds raise an IndexError or TypeError in every backward pass (the evident semantics is modelled).
-/
namespace Verif.Kohonen
open Finset

variable {K : Type} [Field K] [LinearOrder K] [IsStrictOrderedRing K] [FloorRing K]

/-- A `KohonenMap` with `N` x `N` neurons of `d` inputs, kohonen.py:19-42. -/
structure Som (K : Type) (N d : ℕ) where
  neurons : Fin N → Fin N → Fin d → K
  difference : Fin N → Fin N → Fin d → K
  winner : Fin N × Fin N
  neighbours : K
  learningrate : K
  neighbourdecay : K
  outputFullMap : Bool

variable {N d : ℕ}

/-- The positions in the order of the array -/
def positions (N : ℕ) : List (Fin N × Fin N) := (List.finRange N).flatMap fun i => (List.finRange N).map fun j => (i, j)

/-- `error`, kohonen.py:50-51 -/
def errorAt (neurons : Fin N → Fin N → Fin d → K) (x : Fin d → K) (p : Fin N × Fin N) : K := ∑ k, (neurons p.1 p.2 k - x k) ^ 2

/-- `_forwardImplementation`, kohonen.py:46-54: the new state, and what is written to the output buffer (`none`: nothing is written). `minimum_position`
gives the first position with the smallest error. -/
def Som.forward (m : Som K N d) (x : Fin d → K) : Som K N d × Option (Fin N × Fin N) :=
  let w := (List.argmin (errorAt m.neurons x) (positions N)).getD m.winner
  ({ m with difference := fun i j k => m.neurons i j k - x k, winner := w }, if m.outputFullMap then none else some w)

/-- `tempm`, kohonen.py:69-70 -/
def tempm (w : Fin N × Fin N) (i j : Fin N) : K :=
  max 0 (1 - (|((i : ℕ) : K) - ((w.1 : ℕ) : K)| + |((j : ℕ) : K) - ((w.2 : ℕ) : K)|) / (N : K))

/-- Whether a position lies in the slice from `tl` to `br`, kohonen.py:61-66 and 76, in one dimension: `w - n`, at least 0, up to `w + n + 1`, at most `N + 1` -/
def inSlice (w : Fin N) (n : ℤ) (i : Fin N) : Bool := decide (max 0 ((w : ℤ) - n) ≤ (i : ℤ) ∧ (i : ℤ) < min ((w : ℤ) + n + 1) ((N : ℤ) + 1))

/-- `_backwardImplementation`, kohonen.py:57-76 -/
def Som.backward (m : Som K N d) : Som K N d :=
  let n := ⌊m.neighbours⌋
  { m with
    neighbours := m.neighbours * m.neighbourdecay
    neurons := fun i j k =>
      if inSlice m.winner.1 n i && inSlice m.winner.2 n j then
        m.neurons i j k - m.learningrate * m.difference i j k * tempm m.winner i j
      else m.neurons i j k }

/-- One step of training: activating the module and the backward pass -/
def Som.train (m : Som K N d) (x : Fin d → K) : Som K N d := (m.forward x).1.backward

end Verif.Kohonen
