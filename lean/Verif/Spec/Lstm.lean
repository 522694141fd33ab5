import Verif.Model.Lstm
/-
Specification of a long short-term memory cell: the usual recurrence for one cell with peephole weights `wi`, `wf`, `wo`
from the state to the input gate, forget gate and output gate, and input sequences for the input gate `i`, the forget gate `f`,
the cell `c` and the output gate `o`. The state before the first step is zero.
-/
namespace Verif.Lstm.Spec
open Verif.Lstm

variable {K : Type} [Ring K]

/-- The input and weights of one cell. -/
structure Cell (K : Type) where
  wi : K
  wf : K
  wo : K
  i : Nat → K
  f : Nat → K
  c : Nat → K
  o : Nat → K

/-- The state before step `t`. -/
def before (T : Trans K) (c : Cell K) : Nat → K
  | 0 => 0
  | t + 1 => T.f (c.i t + c.wi * before T c t) * T.g (c.c t) + T.f (c.f t + c.wf * before T c t) * before T c t

/-- The output of step `t`: output gate times squashed state after the step. -/
def output (T : Trans K) (c : Cell K) (t : Nat) : K :=
  T.f (c.o t + c.wo * before T c (t + 1)) * T.h (before T c (t + 1))

/-- Cell `j` of a layer of `dim` cells: the inputs of step `t` are four blocks of `dim` numbers, the parameters three blocks (absent
without peepholes). -/
def cellOf (peepholes : Bool) (dim : Nat) (w : Nat → K) (x : Nat → Nat → K) (j : Nat) : Cell K :=
  { wi := if peepholes then w j else 0, wf := if peepholes then w (dim + j) else 0, wo := if peepholes then w (2 * dim + j) else 0
    i := fun t => x t j, f := fun t => x t (dim + j), c := fun t => x t (2 * dim + j), o := fun t => x t (3 * dim + j) }

end Verif.Lstm.Spec
