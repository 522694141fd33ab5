import Verif.Model.Lstm
import Verif.Model.Mesh
/-
Model of pybrain/structure/modules/mdlstm.py (MDLSTMLayer).

The buffers of the layer have a row for every time step. The forward and the backward pass read and write the row of the current offset only, so
here there is one row. `size` is `dim`, `D` is `dimensions`, `w` are the parameters (not used without peepholes). A loop over
`range(dimensions)` that handles the slices `size*i:size*(i+1)` one by one is written with the index `k = size*i + r` of the whole
buffer, so `r` is `k % size`.
-/
namespace Verif.MdLstm
open Verif.Net Verif.Lstm
open Finset (range)

variable {K : Type} [CommRing K]

/-- the row of the buffers, mdlstm.py:51-63, without the errors, which the backward pass computes before it uses them -/
structure Row (K : Type) where
  ingate : Vec K
  outgate : Vec K
  forgetgate : Vec K
  ingatex : Vec K
  outgatex : Vec K
  forgetgatex : Vec K
  state : Vec K

/-- `_forwardImplementation`, mdlstm.py:88-116: the row and the output -/
def forward (T : Trans K) (peepholes : Bool) (size D : Nat) (w inbuf : Vec K) : Row K × Vec K :=
  let ingatex : Vec K := fun j => inbuf j
  let forgetgatex : Vec K := fun k => inbuf (size + k)
  let cellx : Vec K := fun j => inbuf (size * (1 + D) + j)
  let outgatex : Vec K := fun j => inbuf (size * (2 + D) + j)
  let laststates : Vec K := fun k => inbuf (size * (3 + D) + k)
  let ingatex : Vec K := if peepholes then fun j => ingatex j + ∑ i ∈ range D, w j * laststates (size * i + j) else ingatex
  let forgetgatex : Vec K := if peepholes then fun k => forgetgatex k + w (size + k) * laststates k else forgetgatex
  let ingate : Vec K := fun j => T.f (ingatex j)
  let forgetgate : Vec K := fun k => T.f (forgetgatex k)
  let state : Vec K := fun j => ingate j * T.g (cellx j)
  let state : Vec K := fun j => state j + ∑ i ∈ range D, forgetgate (size * i + j) * laststates (size * i + j)
  let outgatex : Vec K := if peepholes then fun j => outgatex j + w (size * (1 + D) + j) * state j else outgatex
  let outgate : Vec K := fun j => T.f (outgatex j)
  ({ ingate := ingate, outgate := outgate, forgetgate := forgetgate, ingatex := ingatex, outgatex := outgatex, forgetgatex := forgetgatex, state := state },
   fun j => if j < size then outgate j * T.h (state j) else state (j - size))

/-- `_backwardImplementation`, mdlstm.py:118-158: the input error, and what is added to the derivatives -/
def backward (T : Trans K) (peepholes : Bool) (size D : Nat) (w : Vec K) (r : Row K) (outerr2 inbuf : Vec K) : Vec K × Vec K :=
  let cellx : Vec K := fun j => inbuf (size * (1 + D) + j)
  let laststates : Vec K := fun k => inbuf (size * (3 + D) + k)
  let outerr : Vec K := fun j => outerr2 j
  let nextstateerr : Vec K := fun j => outerr2 (size + j)
  let outgateError : Vec K := fun j => T.fprime (r.outgatex j) * outerr j * T.h (r.state j)
  let stateError : Vec K := fun j => outerr j * r.outgate j * T.hprime (r.state j)
  let stateError : Vec K := fun j => stateError j + nextstateerr j
  let stateError : Vec K := if peepholes then fun j => stateError j + outgateError j * w (size * (1 + D) + j) else stateError
  let cellError : Vec K := fun j => r.ingate j * T.gprime (cellx j) * stateError j
  let forgetgateError : Vec K := fun k => T.fprime (r.forgetgatex k) * stateError (k % size) * laststates k
  let ingateError : Vec K := fun j => T.fprime (r.ingatex j) * stateError j * T.g (cellx j)
  let derivs : Vec K := if peepholes then
      fun k => if k < size then ∑ i ∈ range D, ingateError k * laststates (size * i + k)
        else if k < size * (1 + D) then forgetgateError (k - size) * laststates (k - size)
        else outgateError (k - size * (1 + D)) * r.state (k - size * (1 + D))
    else 0
  let instateErrors : Vec K := fun k => stateError (k % size) * r.forgetgate k
  let instateErrors : Vec K := if peepholes then fun k => instateErrors k + ingateError (k % size) * w (k % size) + forgetgateError k * w (size + k) else instateErrors
  (fun i => if i < size then ingateError i
    else if i < size * (1 + D) then forgetgateError (i - size)
    else if i < size * (2 + D) then cellError (i - size * (1 + D))
    else if i < size * (3 + D) then outgateError (i - size * (2 + D))
    else instateErrors (i - size * (3 + D)), derivs)

/-- the layer, mdlstm.py:47-70; the backward pass follows the forward pass for the same input, with the same parameters -/
def mdlstmLayer {P : Type} (pc : P) (T : Trans K) (peepholes : Bool) (size D : Nat) : Mod P K where
  indim := (3 + 2 * D) * size
  outdim := size * 2
  pc := pc
  fwd := fun p inbuf _ => (forward T peepholes size D p inbuf).2
  bwdErr := fun p outerr _ _ inbuf => (backward T peepholes size D p (forward T peepholes size D p inbuf).1 outerr inbuf).1
  bwdPar := fun p outerr _ inbuf => (backward T peepholes size D p (forward T peepholes size D p inbuf).1 outerr inbuf).2

/-- the number of parameters, mdlstm.py:67-68 -/
def paramdim (peepholes : Bool) (size D : Nat) : Nat := if peepholes then size * (2 + D) else 0

/-- `meatSlice` and `stateSlice`, mdlstm.py:160-171 -/
def meatSlice {V : Type} (v : V) (size D : Nat) : Except Mesh.MErr (Mesh.Ref V) :=
  Mesh.moduleSlice (Mesh.whole v ((3 + 2 * D) * size) (size * 2)) 0 (some ((size * (3 + D) : Nat) : Int)) 0 (some (size : Int))
def stateSlice {V : Type} (v : V) (size D : Nat) : Except Mesh.MErr (Mesh.Ref V) :=
  Mesh.moduleSlice (Mesh.whole v ((3 + 2 * D) * size) (size * 2)) ((size * (3 + D) : Nat) : Int) none (size : Int) none

end Verif.MdLstm
