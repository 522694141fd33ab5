import Verif.Model.Lstm
import Mathlib.Algebra.BigOperators.Group.Finset.Basic
/-
Specification of a multi-dimensional long short-term memory cell.

The cell has `D` predecessors, one for each dimension, with states `s d`, and a forget gate for each of them. `wi`, `wf d` and `wo` are the
peephole weights (0 without peepholes).
-/
namespace Verif.MdLstm.Spec
open Verif.Lstm

variable {K : Type} [CommRing K]

structure Cell (K : Type) where
  wi : K
  wf : Nat → K
  wo : K
  i : K
  f : Nat → K
  c : K
  o : K
  s : Nat → K

/-- the inputs of the gates -/
def Cell.inx (D : Nat) (c : Cell K) : K := c.i + ∑ d ∈ Finset.range D, c.wi * c.s d
def Cell.forgetx (c : Cell K) (d : Nat) : K := c.f d + c.wf d * c.s d

/-- the new state: what passes the input gate, and what is not forgotten of the states of the predecessors -/
def Cell.state (T : Trans K) (D : Nat) (c : Cell K) : K :=
  T.f (c.inx D) * T.g c.c + ∑ d ∈ Finset.range D, T.f (c.forgetx d) * c.s d

def Cell.outx (T : Trans K) (D : Nat) (c : Cell K) : K := c.o + c.wo * c.state T D

def Cell.output (T : Trans K) (D : Nat) (c : Cell K) : K := T.f (c.outx T D) * T.h (c.state T D)

/-- cell `j` of a layer of `size` cells: the inputs are blocks of `size` numbers: input gates, forget gates of every dimension, cells, output gates, states of every dimension; the parameters
are the peephole weights of input gates, forget gates of every dimension, output gates -/
def cellOf (peepholes : Bool) (size D : Nat) (w x : Nat → K) (j : Nat) : Cell K :=
  { wi := if peepholes then w j else 0
    wf := fun d => if peepholes then w ((1 + d) * size + j) else 0
    wo := if peepholes then w ((1 + D) * size + j) else 0
    i := x j
    f := fun d => x ((1 + d) * size + j)
    c := x ((1 + D) * size + j)
    o := x ((2 + D) * size + j)
    s := fun d => x ((3 + D + d) * size + j) }

end Verif.MdLstm.Spec
